/-
Property C124: every file that `write_stl_binary` writes can be read, collected and written again
(src/stl_binary_writer.cc, src/stl_binary_reader.cc, src/collect.h).
-/
import Verif.Props.StlWriteExact
import Verif.Props.StlRoundTrip
import Verif.Props.Collectable
import Mathlib.Tactic.Linarith

namespace LibSub

/-! ### Specification -/

/-- The number that the first five digits of a number say, if it has more. -/
def firstFive (n : Nat) : Nat := if n < 100000 then n else decVal ((decSpec n).take 5)

/-! ### No accent without a table -/

private def NoC (c : Byte) : Prop := c ≠ 0xC9 ∧ c ≠ 0xCC

private theorem main_noC (k : Byte) (h : mainChar k ≠ 0) : NoC k := by
  have := forall_byte (p := fun k => mainChar k ≠ 0 → k ≠ 0xC9 ∧ k ≠ 0xCC) (by decide +kernel) k
  exact this h

private theorem lookup_entry {α β : Type} [BEq α] [LawfulBEq α] {a : α} {b : β} : ∀ {l : List (α × β)}, l.lookup a = some b → (a, b) ∈ l := by
  intro l h
  induction l with
  | nil => cases h
  | cons p l ih =>
    rw [List.lookup_cons] at h
    split at h
    · rename_i e
      rw [eq_of_beq e]; cases h; simp
    · simp [ih h]

private theorem accents_noC : ∀ e ∈ isoDiacriticals, (e.1 ≠ 0xC9 ∧ e.1 ≠ 0xCC) ∧ ∀ q ∈ e.2, q.1 ≠ 0xC9 ∧ q.1 ≠ 0xCC := by decide +kernel

private theorem coded_noC {c : WChar} {x : Str} (h : CodedAs c x) : ∀ y ∈ x, NoC y := by
  cases h with
  | dollar => intro y hy; rw [List.mem_singleton.1 hy]; exact ⟨by decide, by decide⟩
  | main k h1 h2 => intro y hy; rw [List.mem_singleton.1 hy]; exact main_noC k h1
  | accent d k c h1 h2 =>
    unfold accented at h1
    obtain ⟨l, hl, e⟩ := Option.map_eq_some_iff.1 h1
    have hd := accents_noC _ (lookup_entry hl)
    cases e' : l.lookup k with
    | none => rw [e'] at e; exact absurd e.symm h2
    | some v =>
      intro y hy
      rcases List.mem_cons.1 hy with rfl | hy
      · exact hd.1
      · rw [List.mem_singleton.1 hy]; exact hd.2 _ (lookup_entry e')
  | substitute c b h =>
    have := (show ∀ p ∈ substitutes, p.2 ≠ 0xC9 ∧ p.2 ≠ 0xCC by decide +kernel) _ h
    intro y hy; rw [List.mem_singleton.1 hy]; exact this
  | dropped => simp

private theorem text_noC {t x : Str} (h : TextCoded t x) : ∀ y ∈ x, NoC y := by
  obtain ⟨w, cs, _, h, rfl⟩ := h
  clear * - h
  induction h with
  | nil => simp
  | cons h1 _ ih =>
    intro y hy
    rw [List.flatten_cons, List.mem_append] at hy
    rcases hy with hy | hy
    · exact coded_noC h1 y hy
    · exact ih y hy

private theorem switch_noC {on off : Byte} (h1 : NoC on) (h2 : NoC off) (a b : Bool) : ∀ y ∈ switchText [on] [off] a b, NoC y := by
  intro y hy
  cases a <;> cases b <;> simp only [switchText, List.mem_singleton, List.not_mem_nil] at hy
  · rw [hy]; exact h1
  · rw [hy]; exact h2

private theorem codes_noC : NoC 0x80 ∧ NoC 0x81 ∧ NoC 0x82 ∧ NoC 0x83 ∧ NoC 0x8a ∧ NoC 0x8f := by unfold NoC; decide

private theorem blocks_noC {i u : Bool} {ks : List Block} {x : Str} {i' u' : Bool} (h : BlocksCoded i u ks x i' u') : ∀ y ∈ x, NoC y := by
  obtain ⟨c0, c1, c2, c3, _, _⟩ := codes_noC
  induction h with
  | done => simp
  | block i u k ks t rest i' u' h1 _ ih =>
    intro y hy
    simp only [List.mem_append] at hy
    rcases hy with ((hy | hy) | hy) | hy
    · exact switch_noC c2 c3 _ _ y hy
    · exact switch_noC c0 c1 _ _ y hy
    · exact text_noC h1 y hy
    · exact ih y hy

private theorem lines_noC {i u : Bool} {last : Option Int} {js : List Line} {rs : List Int} {x : Str} {i' u' : Bool} (h : LinesCoded i u last js rs x i' u') :
    ∀ y ∈ x, NoC y := by
  obtain ⟨_, _, _, _, ca, _⟩ := codes_noC
  induction h with
  | done => simp
  | line i u last j js r rs t rest i' u' i'' u'' h1 _ ih =>
    intro y hy
    simp only [List.mem_append] at hy
    rcases hy with (hy | hy) | hy
    · cases last with
      | none => cases hy
      | some l => rw [List.eq_of_mem_replicate hy]; exact ca
    · exact blocks_noC h1 y hy
    · exact ih y hy

private theorem linesText_noC {js : List Line} {rs : List Int} {x : Str} (h : LinesText js rs x) : ∀ y ∈ x, NoC y := by
  obtain ⟨c0, c1, c2, c3, _, cf⟩ := codes_noC
  obtain ⟨t, i, u, h, rfl⟩ := h
  intro y hy
  simp only [List.mem_append] at hy
  rcases hy with ((hy | hy) | hy) | hy
  · exact lines_noC h y hy
  · exact switch_noC c2 c3 _ _ y hy
  · exact switch_noC c0 c1 _ _ y hy
  · rw [List.mem_singleton.1 hy]; exact cf

private theorem cut_noC {n : Nat} {t : Str} {cs : List (Byte × Str)} (h : CutUp n t cs) : (∀ y ∈ t, NoC y) → ∀ c ∈ cs, ∀ y ∈ c.2, NoC y := by
  obtain ⟨_, _, _, _, _, cf⟩ := codes_noC
  induction h with
  | last n t h =>
    intro ht c hc y hy
    rw [List.mem_singleton.1 hc, List.mem_append] at hy
    rcases hy with hy | hy
    · exact ht y hy
    · rw [List.eq_of_mem_replicate hy]; exact cf
  | more n t rest cs h1 h2 _ ih =>
    intro ht c hc y hy
    rcases List.mem_cons.1 hc with rfl | hc
    · exact ht y (by simp [hy])
    · exact ih (fun y hy => ht y (by simp [hy])) c hc y hy

private theorem block_good {fps : ℚ} {s : Subtitle} {bs : List Str} (h : SubtitleCoded fps s bs) : ∀ b ∈ bs, b.getD 15 0 = 0 ∧ ¬ BadBlock b := by
  cases h with
  | mk first js rows top n text from_ to_ cs hl hr ht h1 h2 hn hf ht' hc =>
  intro b hb
  obtain ⟨c, hc', rfl⟩ := List.mem_map.1 hb
  have hx := cut_noC hc (linesText_noC ht) c hc'
  cases hf
  cases ht'
  refine ⟨rfl, C63_harmless _ ?_⟩
  intro y hy
  exact hx y (List.mem_of_mem_take hy)

private theorem blocks_good {fps : ℚ} {ss : List Subtitle} {bs : List Str} (h : SubtitlesCoded fps ss bs) : ∀ b ∈ bs, b.getD 15 0 = 0 ∧ ¬ BadBlock b := by
  obtain ⟨bss, h, rfl⟩ := h
  induction h with
  | nil => simp
  | cons h1 _ ih =>
    intro b hb
    rw [List.flatten_cons, List.mem_append] at hb
    rcases hb with hb | hb
    · exact block_good h1 b hb
    · exact ih b hb

/-! ### The number of blocks -/

private theorem firstFive_le (n : Nat) : firstFive n ≤ n := by
  unfold firstFive
  split
  · exact le_refl _
  · have h1 := decVal_append ((decSpec n).take 5) ((decSpec n).drop 5)
    rw [List.take_append_drop, ← natDec_eq_decSpec, decVal_natDec] at h1
    rw [← natDec_eq_decSpec]
    have : 1 ≤ 10 ^ ((natDec n).drop 5).length := Nat.one_le_pow _ _ (by omega)
    nlinarith

private theorem field_firstFive (n : Nat) : (atoi (numberField 5 n)).toNat = firstFive n := by
  unfold firstFive
  split
  · rename_i h
    rw [C56_number 5 n (by decide) (by omega)]; exact Int.toNat_natCast _
  · rename_i h
    have hl : 5 ≤ (natDec n).length := by
      by_contra hlt
      have h1 : decVal (natDec n) < 10 ^ (natDec n).length := by
        have hd := natDec_digits n
        generalize natDec n = s at hd
        clear * - hd
        induction s using List.reverseRecOn with
        | nil => decide
        | append_singleton s c ih =>
          have hc : digitVal c < 10 := by
            have := forall_byte (p := fun c => isDigit c = true → digitVal c < 10) (by decide +kernel) c
            exact this (hd c (by simp))
          have := ih (fun c hc => hd c (by simp [hc]))
          have e : decVal [c] = digitVal c := by unfold decVal; simp
          rw [decVal_append, List.length_append, List.length_singleton, pow_succ, e]
          omega
      rw [decVal_natDec] at h1
      have : 10 ^ (natDec n).length ≤ 10 ^ 5 := Nat.pow_le_pow_right (by omega) (by omega)
      omega
    have e : numberField 5 n = (decSpec n).take 5 := by
      unfold numberField zeroPad
      rw [if_neg (by omega), Int.natAbs_natCast, ← natDec_eq_decSpec, Nat.sub_eq_zero_of_le hl]
      rfl
    rw [e, atoi_digits]
    · exact Int.toNat_natCast _
    · intro c hc
      exact natDec_digits n c (by rw [natDec_eq_decSpec]; exact List.mem_of_mem_take hc)

/-! ### Files -/

/-- C124: whatever is written can be read: the header is understood, as many blocks as its five digits say are there, and
nothing in them leads the decoder outside its tables. -/
theorem C124_readable (l : Locale) (hl : SaneLocale l) (ht : l.thousandsSep.head? ≠ some 45) (a : StlArgs) (file : Str) (hw : writeStlIn l a = .ok file)
    (hc : ∀ bs, SubtitlesCoded a.fps a.subtitles bs → a.Counts bs) :
    ∃ info raws bs, SubtitlesCoded a.fps a.subtitles bs ∧ stlRead file = .ok (info, raws) ∧ info.maximumRows = 23 ∧ info.ttiBlocks = firstFive bs.length ∧
      (∀ i < firstFive bs.length, ttiBlock file i = bs.getD i []) ∧ firstFive bs.length ≤ bs.length := by
  obtain ⟨hv, bs, hs, e⟩ := (C123_exact l hl ht a file hc).1 hw
  have hb : makeTtiBlocks a.fps a.subtitles = .ok bs := (C123_subtitles _ _ _).2 hs
  obtain ⟨hlen, hf, _, hd⟩ := C55_fields l hl ht a bs file hb (hc bs hs) hw
  have f2 := hf (3, 8, stlFrameRateToDfc a.fps) (by simp [gsiSpec])
  have f3 := hf (11, 1, b!"0") (by simp [gsiSpec])
  have f4 := hf (12, 2, b!"00") (by simp [gsiSpec])
  have f5 := hf (14, 2, hex2 (languageNumber a.language)) (by simp [gsiSpec])
  have f6 := hf (238, 5, numberField 5 bs.length) (by simp [gsiSpec])
  have f7 := hf (253, 2, b!"23") (by simp [gsiSpec])
  have f8 := hf (255, 1, b!"1") (by simp [gsiSpec])
  simp only [] at f2 f3 f4 f5 f6 f7 f8
  have hann : announced file = firstFive bs.length := by unfold announced; rw [f6]; exact field_firstFive _
  have hle := firstFive_le bs.length
  have hblk : ∀ i < firstFive bs.length, ttiBlock file i = bs.getD i [] := by
    intro i hi
    have hi' : i < bs.length := by omega
    unfold ttiBlock
    rw [← List.drop_drop, hd]
    have hlens := makeTtiBlocks_length _ _ _ hb
    clear * - hi' hlens
    induction bs generalizing i with
    | nil => cases hi'
    | cons b bs ih =>
      have hb := hlens b (by simp)
      cases i with
      | zero => rw [Nat.mul_zero, List.drop_zero, List.flatten_cons, List.take_left' hb]; rfl
      | succ i =>
        rw [List.flatten_cons, show 128 * (i + 1) = 128 + 128 * i by omega, ← List.drop_drop, List.drop_left' hb, ih i (by simpa using hi') (fun x hx => hlens x (by simp [hx]))]
        rfl
  have hgood := blocks_good hs
  have hmem : ∀ i < announced file, ttiBlock file i ∈ bs := by
    intro i hi
    rw [hann] at hi
    rw [hblk i hi, List.getD_eq_getElem?_getD, List.getElem?_eq_getElem (by omega : i < bs.length)]
    exact List.getElem_mem _
  have hsound : Sound file := by
    refine ⟨by omega, ⟨?_, by rw [f3]; decide, by rw [f4]; decide, ⟨_, f5⟩, by rw [f8]; decide⟩, by rw [hann]; omega, fun i hi => .inl (hgood _ (hmem i hi)).1⟩
    rw [f2]
    unfold stlFrameRateToDfc
    repeat' split
    all_goals decide
  obtain ⟨⟨info, raws⟩, hr⟩ := (C63_reads file).2 ⟨hsound, fun i hi => (hgood _ (hmem i hi)).2⟩
  refine ⟨info, raws, bs, hs, hr, ?_, ?_, hblk, hle⟩
  all_goals
    unfold stlRead at hr
    obtain ⟨⟨g, rest⟩, hg, hr⟩ := bind_eq_ok.1 hr
    obtain ⟨info', hi, hr⟩ := bind_eq_ok.1 hr
    obtain ⟨st, _, hr⟩ := bind_eq_ok.1 hr
    cases hr
    unfold readBlock at hg
    rw [if_pos (by omega)] at hg
    cases hg
  · have := (parseGsi_ok hi).2.2
    rw [f7] at this
    rw [this]; decide
  · unfold parseGsi at hi
    obtain ⟨_, _, hi⟩ := bind_eq_ok.1 hi
    obtain ⟨_, _, hi⟩ := bind_eq_ok.1 hi
    obtain ⟨_, _, hi⟩ := bind_eq_ok.1 hi
    obtain ⟨_, _, hi⟩ := bind_eq_ok.1 hi
    obtain ⟨_, _, hi⟩ := bind_eq_ok.1 hi
    simp only [] at hi
    obtain ⟨_, _, hi⟩ := bind_eq_ok.1 hi
    cases hi
    simp only []
    have e1 : getString (file.take 1024) 238 5 = (file.drop 238).take 5 := by
      unfold getString
      rw [List.drop_take, List.take_take]
      rfl
    rw [e1, f6, ← field_firstFive]
    have h0 : 0 ≤ atoi (numberField 5 bs.length) := by
      have : ∀ c ∈ numberField 5 bs.length, isDigit c = true := by
        intro c hc
        unfold numberField zeroPad at hc
        rw [if_neg (by omega)] at hc
        have := List.mem_of_mem_take hc
        rw [List.mem_append] at this
        rcases this with h | h
        · rw [List.eq_of_mem_replicate h]; decide
        · exact natDec_digits _ c (by rw [natDec_eq_decSpec]; exact h)
      rw [atoi_digits _ this]; omega
    omega

/-- C124: and collected, and written again at any rate. -/
theorem C124_again (l : Locale) (hl : SaneLocale l) (ht : l.thousandsSep.head? ≠ some 45) (a : StlArgs) (file : Str) (hw : writeStlIn l a = .ok file)
    (hc : ∀ bs, SubtitlesCoded a.fps a.subtitles bs → a.Counts bs) (fps : ℚ) (h0 : 0 ≤ fps) (h1 : fps ≤ 1000) :
    ∃ info raws back bs, stlRead file = .ok (info, raws) ∧ collect raws = .ok back ∧ SubtitlesCoded fps back bs ∧
      (({ a with subtitles := back, fps := fps } : StlArgs).Counts bs → ∃ file', writeStlIn l { a with subtitles := back, fps := fps } = .ok file') := by
  obtain ⟨info, raws, _, _, hr, h23, _⟩ := C124_readable l hl ht a file hw hc
  obtain ⟨back, bs, h2, h3⟩ := C85_rewrite file info raws hr (by rw [h23]; decide) fps h0 h1
  have hv := ((C123_exact l hl ht a file hc).1 hw).1
  exact ⟨info, raws, back, bs, hr, h2, (C123_subtitles _ _ _).1 h3, fun hcnt =>
    ⟨_, (C55_layout l hl ht _ bs ({ hv with } : ({ a with subtitles := back, fps := fps } : StlArgs).Valid) h3 hcnt).1⟩⟩

/-- With 100000 blocks or more, the header announces only a tenth of them or less, and the rest is not read. -/
example : firstFive 99999 = 99999 ∧ firstFive 100000 = 10000 ∧ firstFive 123456 = 12345 := by decide +kernel

/-- A file written in the "C" locale. -/
example : SaneLocale Locale.c ∧ Locale.c.thousandsSep.head? ≠ some 45 ∧ ∃ file, writeStlIn Locale.c stlDemo = .ok file := by
  have hs : SaneLocale Locale.c := ⟨⟨46, [], rfl, by decide, by decide, by decide, by decide, by decide⟩, by intro c hc; cases hc⟩
  refine ⟨hs, by decide, ?_⟩
  have := stlDemo_blocks
  cases h : makeTtiBlocks stlDemo.fps stlDemo.subtitles with
  | error e => rw [h] at this; cases this
  | ok bs =>
    rw [h] at this
    have hl : bs.length = 2 := Option.some.inj this
    exact ⟨_, (C55_layout _ hs (by decide) _ bs stlDemo_valid h ⟨by decide, by rw [hl]; decide, by decide, by decide⟩).1⟩

end LibSub
