/-
Property C61: exactly which subtitles of SubRip and SSA files can be written as binary STL.
-/
import Verif.Props.StlWriteFails
import Verif.Props.CollectableExact
import Verif.Props.WrittenTimes

namespace LibSub

private theorem row_of {v : VPos} {r : Int} (h : RowFor v r) (h1 : v.line.isSome = true) (h2 : v.lines = none) : v.prop ≠ none := by
  cases h <;> simp_all

/-- Every line of subtitles which are written has a row. -/
private theorem rows_of {fps : ℚ} {ss : List Subtitle} {bs : List Str} (h : makeTtiBlocks fps ss = .ok bs) : ∀ s ∈ ss, ∀ l ∈ s.lines, ∃ r, RowFor l.vpos r := by
  obtain ⟨bss, hf, -⟩ := (C123_subtitles fps ss bs).1 h
  clear h
  induction hf with
  | nil => simp
  | cons hs _ ih =>
    intro s hm l hl
    rcases List.mem_cons.1 hm with rfl | hm
    · cases hs with
      | mk first js rows top n text from_ to_ cs _ hr =>
        clear * - hr hl
        generalize s.lines = ls at hr hl
        induction hr with
        | nil => simp at hl
        | cons h _ ih =>
          rcases List.mem_cons.1 hl with rfl | hl
          · exact ⟨_, h⟩
          · exact ih hl
    · exact ih s hm l hl

/-- C61: what is written from a SubRip file has a place, from a tag, for every line; without one there is no file. -/
theorem C61_subrip_places (lines : List Str) (subs : List Raw) (out : List Subtitle) (h : srtRead lines = .ok subs) (hc : collect subs = .ok out)
    (loc : Locale) (a : StlArgs) (ha : a.subtitles = out) (file : Str) (hw : writeStlIn loc a = .ok file) : ∀ s ∈ out, ∀ l ∈ s.lines, l.vpos.prop ≠ none := by
  intro s hs l hl
  unfold writeStlIn at hw
  obtain ⟨-, -, hw⟩ := bind_eq_ok.1 hw
  obtain ⟨bs, hb, -⟩ := bind_eq_ok.1 hw
  rw [ha] at hb
  obtain ⟨r, hr⟩ := rows_of hb s hs l hl
  obtain ⟨q, hq, e⟩ := ((collect_of hc).2 s hs).2.2 l hl
  obtain ⟨h1, h2⟩ := srt_unnumbered h q hq
  exact row_of hr (by rw [e]; exact h2) (by rw [e]; exact h1)

/-! ### Times in milliseconds -/

private theorem rate_small {fps : ℚ} (h0 : 0 ≤ fps) (h1 : fps ≤ 999) : |f32 (fps * 1000)| ≤ 999000 := by
  have a : 0 ≤ f32 (fps * 1000) := rnd_nonneg (by linarith)
  have b : f32 (fps * 1000) ≤ f32 ((999000 : Int) : ℚ) := f32_mono (by push_cast; linarith)
  rw [f32_int (by norm_num)] at b
  rw [abs_of_nonneg a]
  exact_mod_cast b

private theorem rate_given {fps : ℚ} (h0 : 0 ≤ fps) (h1 : fps ≤ 999) : ∃ n, WithoutFraction (f32 (fps * 1000)) n := by
  have a : 0 ≤ f32 (fps * 1000) := rnd_nonneg (by linarith)
  have b := rate_small h0 h1
  rw [abs_of_nonneg a] at b
  refine ⟨_, (trunc_iff _ (truncR (f32 (fps * 1000)))).1 ?_⟩
  unfold toInt
  rw [if_pos]
  unfold truncR
  rw [if_pos a]
  have c : (0 : Int) ≤ (f32 (fps * 1000)).floor := Rat.le_floor_iff.2 (by exact_mod_cast a)
  have d := floor_le (f32 (fps * 1000))
  have e : ((f32 (fps * 1000)).floor : ℚ) ≤ ((999000 : Int) : ℚ) := by push_cast; linarith
  have f : (f32 (fps * 1000)).floor ≤ 999000 := by exact_mod_cast e
  unfold InInt
  omega

/-- Any time in milliseconds can be coded at up to 999 frames per second. -/
private theorem ms_coded {n : Int} {t : Time} (hr : t.rate = some ⟨1000, 1⟩) (hf : InInt t.frames) (hn : |(n : ℚ)| ≤ 999000) : ∃ x, TimeCoded n t x := by
  obtain ⟨q, e, hq⟩ := framesAt_spec t ⟨1000, 1⟩ ⟨n, 1000⟩ hr hf (by simp) (by simp) (by unfold InInt; simp)
  have hx : |exactFrames t.frames ⟨1000, 1⟩ ⟨n, 1000⟩| ≤ 2145400000 := by
    have e1 : exactFrames t.frames ⟨1000, 1⟩ ⟨n, 1000⟩ = (t.frames : ℚ) * n / 1000000 := by
      unfold exactFrames
      push_cast
      field_simp
      try ring
    have e2 : |(t.frames : ℚ)| ≤ 2147483648 := by
      have : |t.frames| ≤ 2147483648 := by rw [abs_le]; unfold InInt at hf; omega
      exact_mod_cast this
    rw [e1, abs_div, abs_mul, abs_of_pos (by norm_num : (0 : ℚ) < 1000000), div_le_iff₀ (by norm_num)]
    have := mul_le_mul e2 hn (abs_nonneg _) (by norm_num)
    linarith
  have hq2 : |q| ≤ 2145400001 := by
    have a := abs_sub_abs_le_abs_sub q (exactFrames t.frames ⟨1000, 1⟩ ⟨n, 1000⟩)
    have b : |exactFrames t.frames ⟨1000, 1⟩ ⟨n, 1000⟩| * (4 * eps) ≤ 2145400000 * (4 * eps) := mul_le_mul_of_nonneg_right hx (by unfold eps; norm_num)
    have c : (2145400000 : ℚ) * (4 * eps) ≤ 1 := by unfold eps; norm_num
    linarith
  have hi : InInt (rint q) := by
    have a := abs_rint_sub_le q
    have b := abs_sub_abs_le_abs_sub (rint q : ℚ) q
    have c : |(rint q : ℚ)| ≤ ((2145400002 : Int) : ℚ) := by push_cast; linarith
    have d : |rint q| ≤ 2145400002 := by exact_mod_cast c
    rw [abs_le] at d
    unfold InInt
    omega
  rw [toInt_int hi] at e
  exact ⟨_, (timeCoded_iff t n _).2 ⟨_, e, rfl⟩⟩

/-- Subtitles with lines, rows for all of them and times in milliseconds can be written. -/
private theorem blocks_of_rows {fps : ℚ} (h0 : 0 ≤ fps) (h1 : fps ≤ 999) : ∀ ss : List Subtitle, (∀ s ∈ ss, s.lines ≠ [] ∧ (∀ l ∈ s.lines, ∃ r, RowFor l.vpos r) ∧
    (s.from_.rate = some ⟨1000, 1⟩ ∧ InInt s.from_.frames) ∧ s.to_.rate = some ⟨1000, 1⟩ ∧ InInt s.to_.frames) → ∃ bs, makeTtiBlocks fps ss = .ok bs := by
  intro ss
  induction ss with
  | nil => intro _; exact ⟨[], rfl⟩
  | cons s ss ih =>
    intro h
    obtain ⟨hne, hrow, ⟨f1, f2⟩, t1, t2⟩ := h s (by simp)
    obtain ⟨b, hb⟩ := ih fun t ht => h t (by simp [ht])
    cases ha : ttiBlocks fps s with
    | ok a =>
      refine ⟨a ++ b, ?_⟩
      rw [makeTtiBlocks, ha, ok_bind, hb]
      rfl
    | error e =>
      exfalso
      have coded : ∀ (n : Int) (t : Time), WithoutFraction (f32 (fps * 1000)) n → t.rate = some ⟨1000, 1⟩ → InInt t.frames → ∀ e, ¬ TimeFails n t e := by
        intro n t hn hr hf e he
        obtain ⟨x, hx⟩ := ms_coded hr hf (le_trans hn.1 (rate_small h0 h1))
        exact (C136_time n t).1 ⟨e, he⟩ x hx
      cases (C136_subtitle fps s e).1 ha with
      | row pre post j _ hl _ hj =>
        obtain ⟨r, hr⟩ := hrow j (by rw [hl]; simp)
        exact (C136_row j.vpos).1 ⟨e, hj⟩ r hr
      | rate _ hn =>
        obtain ⟨n, hn'⟩ := rate_given h0 h1
        exact hn n hn'
      | start n _ _ hn he => exact coded n _ hn f1 f2 e he
      | stop n _ _ _ hn _ he => exact coded n _ hn t1 t2 e he
      | empty _ _ _ hl => exact hne hl

private theorem stamp_frames {sep : Byte} {w : Str} {t : Time} (h : StampTime sep w t) : InInt t.frames := by
  obtain ⟨_, _, _, ms, ⟨_, _, _, _, _, _, _, _, hd⟩, _, rfl⟩ := h
  have := hd.1
  unfold InInt
  simp only
  omega

/-- C61, exactly, for every SubRip file, at up to 999 frames per second: the blocks can be made if and only if every line has a place, from a tag, the row of which is an `int`. -/
theorem C61_subrip_exact (lines : List Str) (subs : List Raw) (out : List Subtitle) (h : srtRead lines = .ok subs) (hc : collect subs = .ok out)
    (fps : ℚ) (h0 : 0 ≤ fps) (h1 : fps ≤ 999) : (∃ bs, makeTtiBlocks fps out = .ok bs) ↔ ∀ s ∈ out, ∀ l ∈ s.lines, l.vpos.prop ≠ none ∧ ∃ r, RowFor l.vpos r := by
  obtain ⟨-, h2⟩ := collect_of hc
  constructor
  · rintro ⟨bs, hb⟩ s hs l hl
    obtain ⟨r, hr⟩ := rows_of hb s hs l hl
    obtain ⟨q, hq, e⟩ := (h2 s hs).2.2 l hl
    obtain ⟨h1, h2⟩ := srt_unnumbered h q hq
    exact ⟨row_of hr (by rw [e]; exact h2) (by rw [e]; exact h1), r, hr⟩
  · intro hl
    refine blocks_of_rows h0 h1 out fun s hs => ?_
    obtain ⟨h3, ⟨r, hr, e1, e2⟩, -⟩ := h2 s hs
    obtain ⟨m1, m2, -, -⟩ := srt_inMs h r hr
    obtain ⟨_, _, _, hf, ht⟩ := C130_subrip_times lines subs h r hr
    rw [e1, e2]
    exact ⟨h3, fun l hm => (hl s hs l hm).2, ⟨m1, stamp_frames hf⟩, m2, stamp_frames ht⟩

/-- A line with a place; it can be written. -/
example : ((srtRead [b!"1", b!"0:0:1,0 --> 0:0:2,0", b!"{\\pos(96,144)}x"]).bind collect).toOption.map (fun o => o.map (fun s => s.lines.map (·.vpos.prop))) = some [[some (1 / 2)]] ∧
    ((srtRead [b!"1", b!"0:0:1,0 --> 0:0:2,0", b!"{\\pos(96,144)}x"]).bind collect).toOption.map (fun o => (makeTtiBlocks 25 o).toOption.map (·.length)) = some (some 1) := by
  constructor <;> decide +kernel

/-- A line before that of the tag has no place, and so there is no file. -/
theorem C61_subrip_before_witness :
    ((srtRead [b!"1", b!"0:0:1,0 --> 0:0:2,0", b!"x", b!"{\\pos(96,144)}y"]).bind collect).toOption.map (fun o => (o.map (fun s => s.lines.map (·.vpos.prop)), (makeTtiBlocks 25 o).toOption.isSome)) =
      some ([[none, some (1 / 2)]], false) := by
  decide +kernel

/-! ### SSA -/

private def Fit (r : Raw) : Prop := InInt r.from_.frames ∧ InInt r.to_.frames

private theorem parsed_fits {t : Str} {x : Time} (h : ssaParseTime t = .ok x) : InInt x.frames := by
  unfold ssaParseTime at h
  split at h
  · simp only [bind_eq_ok] at h
    obtain ⟨_, -, _, -, _, -, _, -, ms, hms, h⟩ := h
    unfold Time.fromHms at h
    simp only [bind_eq_ok] at h
    obtain ⟨_, -, h⟩ := h
    cases h
    exact (ck_eq_ok.1 hms).2 ▸ (ck_eq_ok.1 hms).1
  · cases h

private def EventFits (ev : SsaEvent) : Prop := Fit ev.sub ∧ ∀ x ∈ ev.subs, Fit x

private theorem eventField_fits (r : SsaRead) (ev : SsaEvent) (k v : Str) (h : EventFits ev) : OkIn EventFits (ssaEventField r ev k v) := by
  unfold ssaEventField
  refine .ite (.bind fun t ht => .ok ⟨⟨parsed_fits ht, h.1.2⟩, h.2⟩) (.ite (.bind fun t ht => .ok ⟨⟨h.1.1, parsed_fits ht⟩, h.2⟩) (.ite ?_ (.ite (.ite (.bind fun _ _ => .bind fun _ _ => .ok h) (.ok h))
      (.ite (.ite (.bind fun _ _ => .ok h) (.ok h)) (.ite (.ite (.bind fun _ _ => .ok h) (.ok h)) (.ite (.bind fun subs hs => .ok ?_) (.ok h)))))))
  · split
    · exact .ok h
    · unfold ssaApplyStyle
      exact .bind fun _ _ => .ite (.bind fun _ _ => .ok h) (.ok h)
  · refine ⟨h.1, ?_⟩
    intro x hx
    rcases List.mem_append.1 hx with hx | hx
    · exact h.2 x hx
    · have e := C79_fixed _ _ _ _ hs x hx
      simp only [Raw.fixedPart, Prod.mk.injEq] at e
      unfold Fit
      rw [e.1, e.2.1]
      exact h.1

private theorem eventFields_fits (r : SsaRead) (l : List (Str × Str)) (ev ev' : SsaEvent) (h : EventFits ev) (he : ssaEventFields r ev l = .ok ev') : EventFits ev' := by
  induction l generalizing ev with
  | nil => cases he; exact h
  | cons kv l ih =>
    obtain ⟨k, v⟩ := kv
    rw [ssaEventFields, bind_eq_ok] at he
    obtain ⟨m, hm, he⟩ := he
    exact ih m ((eventField_fits r ev k v h).h m hm) he

private theorem ssaLine_fits (r : SsaRead) (raw : Str) (hr : ∀ x ∈ r.subs, Fit x) : OkIn (fun r : SsaRead => ∀ x ∈ r.subs, Fit x) (ssaLine r raw) := by
  unfold ssaLine
  refine .ite (.ok hr) (.ite (.ite (.ok hr) (.ite (.ok hr) (.ite (.ok hr) (.ok hr)))) ?_)
  split
  · exact .error
  · split
    · exact .ite (.bind fun _ _ => .ok hr) (.ite (.bind fun _ _ => .ok hr) (.ok hr))
    · exact .ite (.ok hr) (.ite (.bind fun _ _ => .bind fun _ _ => .ok hr) (.ok hr))
    · refine .ite (.ok hr) (.ite ?_ (.ok hr))
      unfold ssaDialogue
      refine .bind fun _ _ => .bind fun _ _ => .bind fun _ _ => .bind fun ev hev => .ok ?_
      intro x hx
      rcases List.mem_append.1 hx with hx | hx
      · exact hr x hx
      · exact (eventFields_fits r _ {} ev ⟨⟨by decide, by decide⟩, by simp⟩ hev).2 x hx

private theorem ssaLines_fits (ls : List Str) (r r' : SsaRead) (hr : ∀ x ∈ r.subs, Fit x) (h : ssaLines r ls = .ok r') : ∀ x ∈ r'.subs, Fit x := by
  induction ls generalizing r with
  | nil => cases h; exact hr
  | cons l ls ih =>
    rw [ssaLines, bind_eq_ok] at h
    obtain ⟨m, hm, h⟩ := h
    exact ih m ((ssaLine_fits r l hr).h m hm) h

private theorem ssa_fits {s : Str} {subs : List Raw} (h : ssaReadString s = .ok subs ∨ ssaReadFile s = .ok subs) : ∀ r ∈ subs, Fit r := by
  unfold ssaReadString ssaReadFile at h
  rcases h with h | h <;>
  · rw [bind_eq_ok] at h
    obtain ⟨r, hr, h⟩ := h
    cases h
    exact ssaLines_fits _ {} _ (by simp) hr

/-- Subtitles which are written have times with rates. -/
private theorem rates_of {fps : ℚ} {ss : List Subtitle} {bs : List Str} (h : makeTtiBlocks fps ss = .ok bs) : ∀ s ∈ ss, s.from_.rate ≠ none ∧ s.to_.rate ≠ none := by
  obtain ⟨bss, hf, -⟩ := (C123_subtitles fps ss bs).1 h
  clear h
  have key : ∀ n (t : Time) x, TimeCoded n t x → t.rate ≠ none := by
    intro n t x h
    cases h with
    | mk r _ _ _ _ hr => rw [hr]; simp
  induction hf with
  | nil => simp
  | cons hs _ ih =>
    intro s hm
    rcases List.mem_cons.1 hm with rfl | hm
    · cases hs with
      | mk first js rows top n text from_ to_ cs _ _ _ _ _ _ h1 h2 => exact ⟨key _ _ _ h1, key _ _ _ h2⟩
    · exact ih s hm

/-- C61, exactly, for every SSA file, at up to 999 frames per second: the blocks can be made if and only if every subtitle has a start and an end and the row of every line is an `int`. -/
theorem C61_ssa_exact (s : Str) (subs : List Raw) (out : List Subtitle) (h : ssaReadString s = .ok subs ∨ ssaReadFile s = .ok subs) (hc : collect subs = .ok out)
    (fps : ℚ) (h0 : 0 ≤ fps) (h1 : fps ≤ 999) :
    (∃ bs, makeTtiBlocks fps out = .ok bs) ↔ ∀ t ∈ out, (t.from_.rate ≠ none ∧ t.to_.rate ≠ none) ∧ ∀ l ∈ t.lines, ∃ r, RowFor l.vpos r := by
  obtain ⟨-, h2⟩ := collect_of hc
  constructor
  · rintro ⟨bs, hb⟩ t ht
    exact ⟨rates_of hb t ht, rows_of hb t ht⟩
  · intro hl
    refine blocks_of_rows h0 h1 out fun t ht => ?_
    obtain ⟨h3, ⟨r, hr, e1, e2⟩, -⟩ := h2 t ht
    obtain ⟨⟨g1, g2⟩, g3⟩ := hl t ht
    obtain ⟨k1, k2, -⟩ := ssa_kinds h r hr
    obtain ⟨f1, f2⟩ := ssa_fits h r hr
    rw [e1] at g1 ⊢
    rw [e2] at g2 ⊢
    exact ⟨h3, g3, ⟨k1.resolve_right g1, f1⟩, k2.resolve_right g2, f2⟩

/-- A start with 2000000000 milliseconds. -/
example : ((ssaReadString b!"[Events]\nFormat: Start, End, Text\nDialogue: 0:00:01.200000000,0:00:02.00,a").bind collect).toOption.map
    (fun o => (o.map (fun t => (t.from_.frames, t.lines.length)), (makeTtiBlocks 25 o).toOption.isSome)) = some ([(2000000000, 1)], true) := by decide +kernel

/-- A text before its times: there is no file. -/
example : ((ssaReadString b!"[Events]\nFormat: Text, Start, End\nDialogue: a,0:00:01.00,0:00:02.00").bind collect).toOption.map
    (fun o => (o.map (fun t => (t.from_.rate.isSome, t.lines.length)), (makeTtiBlocks 25 o).toOption.isSome)) = some ([(false, 1)], false) := by decide +kernel

/-! ### Whole files -/

private theorem file_iff (l : Locale) (hl : SaneLocale l) (ht : l.thousandsSep.head? ≠ some 45) (a : StlArgs) (hv : a.Valid) (hn : ∀ bs, SubtitlesCoded a.fps a.subtitles bs → a.Counts bs) :
    (∃ file, writeStlIn l a = .ok file) ↔ ∃ bs, makeTtiBlocks a.fps a.subtitles = .ok bs := by
  constructor
  · rintro ⟨file, h⟩
    obtain ⟨-, bs, hb, -⟩ := (C123_exact l hl ht a file hn).1 h
    exact ⟨bs, (C123_subtitles _ _ _).2 hb⟩
  · rintro ⟨bs, hb⟩
    exact ⟨_, (C123_exact l hl ht a _ hn).2 ⟨hv, bs, (C123_subtitles _ _ _).1 hb, rfl⟩⟩

/-- C61, exactly, for SubRip files: there is a binary STL file of what is read if and only if every line has a place, from a tag, the row of which is an `int`.
The locale is an ordinary one, and the numbers in the header are `int`s. -/
theorem C61_subrip_file (lines : List Str) (subs : List Raw) (h : srtRead lines = .ok subs) (l : Locale) (hl : SaneLocale l) (ht : l.thousandsSep.head? ≠ some 45)
    (a : StlArgs) (hc : collect subs = .ok a.subtitles) (hv : a.Valid) (h0 : 0 ≤ a.fps) (h1 : a.fps ≤ 999) (hn : ∀ bs, SubtitlesCoded a.fps a.subtitles bs → a.Counts bs) :
    (∃ file, writeStlIn l a = .ok file) ↔ ∀ s ∈ a.subtitles, ∀ l ∈ s.lines, l.vpos.prop ≠ none ∧ ∃ r, RowFor l.vpos r :=
  (file_iff l hl ht a hv hn).trans (C61_subrip_exact lines subs _ h hc _ h0 h1)

/-- C61, exactly, for SSA files: there is a binary STL file of what is read if and only if every subtitle has a start and an end and the row of every line is an `int`. -/
theorem C61_ssa_file (s : Str) (subs : List Raw) (h : ssaReadString s = .ok subs ∨ ssaReadFile s = .ok subs) (l : Locale) (hl : SaneLocale l) (ht : l.thousandsSep.head? ≠ some 45)
    (a : StlArgs) (hc : collect subs = .ok a.subtitles) (hv : a.Valid) (h0 : 0 ≤ a.fps) (h1 : a.fps ≤ 999) (hn : ∀ bs, SubtitlesCoded a.fps a.subtitles bs → a.Counts bs) :
    (∃ file, writeStlIn l a = .ok file) ↔ ∀ t ∈ a.subtitles, (t.from_.rate ≠ none ∧ t.to_.rate ≠ none) ∧ ∀ l ∈ t.lines, ∃ r, RowFor l.vpos r :=
  (file_iff l hl ht a hv hn).trans (C61_ssa_exact s subs _ h hc _ h0 h1)

/-- Both for a file with one subtitle, in the "C" locale. -/
example : ((srtRead [b!"1", b!"0:0:1,0 --> 0:0:2,0", b!"{\\pos(96,144)}x"]).bind collect).toOption.map (fun o => (writeStl { stlDemo with subtitles := o }).toOption.map (·.length)) = some (some 1152) ∧
    ((ssaReadString b!"[Events]\nFormat: Start, End, Text\nDialogue: 0:00:01.00,0:00:02.00,x").bind collect).toOption.map (fun o => (writeStl { stlDemo with subtitles := o }).toOption.map (·.length)) = some (some 1152) := by
  constructor <;> decide +kernel

end LibSub
