/-
Property C143: what is in the file after `write_stl_binary`.
-/
import Verif.Model.Output
import Verif.Props.StlFails
import Verif.Props.StlReadable

namespace LibSub

/-! ### Proofs -/

private theorem write_all (o : OStream) (ss : List Str) : ss.foldl OStream.write o =
    if o.good = false then o else if ss.flatten.length ≤ o.room then { o with file := o.file ++ ss.flatten, room := o.room - ss.flatten.length }
    else { file := o.file ++ ss.flatten.take o.room, room := 0, good := false } := by
  induction ss generalizing o with
  | nil => cases o; rename_i f r g; cases g <;> simp
  | cons s ss ih =>
    rw [List.foldl_cons, ih, List.flatten_cons]
    generalize ss.flatten = t
    clear ih
    obtain ⟨f, r, g⟩ := o
    cases g with
    | false => simp [OStream.write]
    | true =>
      by_cases h : s.length ≤ r
      · by_cases h2 : t.length ≤ r - s.length
        · simp [OStream.write, h, h2, show s.length + t.length ≤ r by omega, Nat.sub_sub]
        · simp [OStream.write, h, h2, show ¬ s.length + t.length ≤ r by omega, List.take_append, List.take_of_length_le h]
      · simp [OStream.write, h, show r < s.length + t.length by omega, List.take_append, Nat.sub_eq_zero_of_le (Nat.le_of_not_le h)]

private theorem made_file (d : Nat) (gsi : Str) (tti : List Str) : (tti.foldl OStream.write ((OStream.open (.room d)).write gsi)).file = (gsi ++ tti.flatten).take d := by
  have e : OStream.open (.room d) = ⟨[], d, true⟩ := rfl
  have := write_all ⟨[], d, true⟩ (gsi :: tti)
  rw [List.foldl_cons] at this
  rw [e, this, List.flatten_cons, if_neg (by simp)]
  by_cases h : (gsi ++ tti.flatten).length ≤ d
  · rw [if_pos h, List.take_of_length_le h]; rfl
  · rw [if_neg h]; rfl

/-! ### C143 -/

/-- C143: an exception leaves the file as it was. -/
theorem C143_thrown (l : Locale) (a : StlArgs) (d : Disk) (old : Option Str) (e : Err) :
    (writeStlTo l a d old).1 = .error e ↔ writeStlIn l a = .error e ∧ (writeStlTo l a d old).2 = old := by
  unfold writeStlTo writeStlIn
  cases h1 : a.check with
  | error e1 => simp [error_bind]
  | ok u =>
    cases h2 : makeTtiBlocks a.fps a.subtitles with
    | error e1 => simp [error_bind, ok_bind]
    | ok tti =>
      cases h3 : stlGsi l a tti.length with
      | error e1 => simp [error_bind, ok_bind, h3]
      | ok gsi => simp [ok_bind, h3, pure, Except.pure]

/-- C143: otherwise the function returns, whatever becomes of the file: if it cannot be opened it is as it was, and else it is as much as there is room for of what should be there. -/
theorem C143_returns (l : Locale) (a : StlArgs) (d : Disk) (old : Option Str) (file : Str) (h : writeStlIn l a = .ok file) :
    writeStlTo l a d old = (.ok (), match d with | .shut => old | .room n => some (file.take n)) := by
  unfold writeStlIn at h
  obtain ⟨u, h1, h⟩ := bind_eq_ok.1 h
  obtain ⟨tti, h2, h⟩ := bind_eq_ok.1 h
  obtain ⟨gsi, h3, h⟩ := bind_eq_ok.1 h
  cases h
  unfold writeStlTo
  simp only [h1, h2, h3, ok_bind, pure, Except.pure]
  cases d with
  | shut => rfl
  | room n => simp only [made_file]

private theorem demo_written : ∃ file, writeStlIn Locale.c stlDemo = .ok file := by
  have : (writeStlIn Locale.c stlDemo).toOption.isSome = true := by decide +kernel
  cases h : writeStlIn Locale.c stlDemo with
  | error e => rw [h] at this; cases this
  | ok f => exact ⟨f, rfl⟩

/-- A publisher of 33 letters (an exception), room for the header only, and a file that cannot be opened. -/
example : (writeStlTo Locale.c { stlDemo with publisher := List.replicate 33 65 } (.room 5000) (some b!"as it was")).2 = some b!"as it was" ∧
    (writeStlTo Locale.c stlDemo (.room 1024) (some b!"as it was")).2.map List.length = some 1024 ∧ (writeStlTo Locale.c stlDemo .shut (some b!"as it was")).2 = some b!"as it was" := by decide +kernel

/-- C143: so it is not the case that the subtitles are in the file whenever the function returns: the disk may be full, or the file one that cannot be written. -/
theorem C143_silent_witness :
    ¬ ∀ (l : Locale) (a : StlArgs) (d : Disk) (old : Option Str), (writeStlTo l a d old).1 = .ok () → ∃ file, writeStlIn l a = .ok file ∧ (writeStlTo l a d old).2 = some file := by
  intro h
  obtain ⟨file, hf⟩ := demo_written
  have h1 := C143_returns Locale.c stlDemo .shut none file hf
  obtain ⟨f, _, h2⟩ := h Locale.c stlDemo .shut none (by rw [h1])
  rw [h1] at h2
  cases h2

/-- C143: a file that can be read, with the end cut off: without all of its header or of the blocks that it announces it is refused, and else it is read as before. -/
theorem C143_cut_off (file : Str) (info : StlInfo) (raws : List Raw) (n : Nat) (h : stlRead file = .ok (info, raws)) :
    (n < 1024 → stlRead (file.take n) = .error (shortFile b!"GSI")) ∧ (1024 ≤ n → n < 1024 + 128 * announced file → stlRead (file.take n) = .error (shortFile b!"TTI")) ∧
    (1024 + 128 * announced file ≤ n → stlRead (file.take n) = .ok (info, raws)) := by
  obtain ⟨hs, hb⟩ := (C63_reads file).1 ⟨_, h⟩
  have hl := hs.long
  have ann : ∀ k, 1024 ≤ k → announced (file.take k) = announced file := by
    intro k hk
    unfold announced
    rw [List.drop_take, List.take_take, Nat.min_eq_left (by omega)]
  have get : ∀ k off len, off + len ≤ k → ((file.take k).drop off).take len = (file.drop off).take len := by
    intro k off len hk
    rw [List.drop_take, List.take_take, Nat.min_eq_left (by omega)]
  refine ⟨fun hn => ?_, fun h1 h2 => ?_, fun hn => ?_⟩
  · exact (C135_stl _ _).2 (.short (by rw [List.length_take]; omega))
  · have hlen : (file.take n).length = n := by rw [List.length_take]; omega
    have blk : ∀ j, 1024 + 128 * (j + 1) ≤ n → ttiBlock (file.take n) j = ttiBlock file j := fun j hj => get n _ _ (by omega)
    refine (C135_stl _ _).2 (.block ((n - 1024) / 128) _ (by omega) ?_ (by rw [ann n h1]; omega) ?_ (.short (by omega)))
    · obtain ⟨c1, c2, c3, c4, c5⟩ := hs.codes
      exact ⟨by rw [get n _ _ (by omega)]; exact c1, by rw [get n _ _ (by omega)]; exact c2, by rw [get n _ _ (by omega)]; exact c3, by rw [get n _ _ (by omega)]; exact c4,
        by rw [get n _ _ (by omega)]; exact c5⟩
    · intro j hj e' hf
      have hj' : 1024 + 128 * (j + 1) ≤ n := by omega
      cases hf with
      | short hx => omega
      | comment c _ h3 h4 h5 =>
        rw [blk j hj'] at h3
        rcases hs.comments j (by omega) with hc | hc
        · exact h4 (h3.symm.trans hc)
        · exact h5 (h3.symm.trans hc)
      | text _ hx =>
        rw [blk j hj'] at hx
        exact hb j (by omega) hx
  · by_cases hn2 : file.length ≤ n
    · rw [List.take_of_length_le hn2]; exact h
    · have := C63_trailing (file.take n) (file.drop n) (by rw [List.length_take]; omega) (by rw [ann n (by omega), List.length_take]; omega)
      rw [List.take_append_drop] at this
      rw [← this]; exact h

example : (stlRead (stlFileDemo b!"00001" [stlBlockDemo 3 0 [65]])).toOption.isSome = true ∧ announced (stlFileDemo b!"00001" [stlBlockDemo 3 0 [65]]) = 1 ∧
    (stlFileDemo b!"00001" [stlBlockDemo 3 0 [65]]).length = 1152 := by decide +kernel

/-- C143: what did not fit is noticed when the file is read: a file with fewer than 100000 blocks is refused unless it is all there. -/
theorem C143_noticed (l : Locale) (hl : SaneLocale l) (ht : l.thousandsSep.head? ≠ some 45) (a : StlArgs) (file : Str) (old : Option Str) (hw : writeStlIn l a = .ok file)
    (hc : ∀ bs, SubtitlesCoded a.fps a.subtitles bs → a.Counts bs ∧ bs.length < 100000) (n : Nat) :
    ∃ got, writeStlTo l a (.room n) old = (.ok (), some got) ∧
      (file.length ≤ n → got = file) ∧ (n < 1024 → stlRead got = .error (shortFile b!"GSI")) ∧ (1024 ≤ n → n < file.length → stlRead got = .error (shortFile b!"TTI")) := by
  obtain ⟨info, raws, bs, hs, hr, _, _, _, _⟩ := C124_readable l hl ht a file hw fun bs hbs => (hc bs hbs).1
  have hb : makeTtiBlocks a.fps a.subtitles = .ok bs := (C123_subtitles _ _ _).2 hs
  obtain ⟨hlen, hf, _, _⟩ := C55_fields l hl ht a bs file hb (hc bs hs).1 hw
  have hann : announced file = bs.length := by
    have f6 := hf (238, 5, numberField 5 bs.length) (by simp [gsiSpec])
    simp only [] at f6
    unfold announced
    rw [f6, C56_number 5 bs.length (by decide) (by have := (hc bs hs).2; omega)]
    exact Int.toNat_natCast _
  have hcut := C143_cut_off file info raws n hr
  refine ⟨_, C143_returns l a (.room n) old file hw, fun h => List.take_of_length_le h, hcut.1, fun h1 h2 => hcut.2.1 h1 (by rw [hann]; omega)⟩

/-- A file of two blocks. -/
example : SaneLocale Locale.c ∧ Locale.c.thousandsSep.head? ≠ some 45 ∧ (∃ file, writeStlIn Locale.c stlDemo = .ok file) ∧
    ∀ bs, SubtitlesCoded stlDemo.fps stlDemo.subtitles bs → stlDemo.Counts bs ∧ bs.length < 100000 := by
  refine ⟨⟨⟨46, [], rfl, by decide, by decide, by decide, by decide, by decide⟩, by intro c hc; cases hc⟩, by decide, demo_written, fun bs hbs => ?_⟩
  have h := (C123_subtitles _ _ _).2 hbs
  have := stlDemo_blocks
  rw [h] at this
  have hl : bs.length = 2 := Option.some.inj this
  exact ⟨⟨by decide, by rw [hl]; decide, by decide, by decide⟩, by omega⟩

end LibSub
