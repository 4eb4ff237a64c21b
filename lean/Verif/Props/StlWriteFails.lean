/-
Property C136: how writing a binary STL file fails, exactly.
-/
import Verif.Props.StlWriteExact
import Verif.Props.SsaFails

namespace LibSub

/-! ### Specification -/

/-- How the row of a line fails: it has a number but not of how many, or of none, or the row is no `int`. -/
inductive RowFails (v : VPos) : Err → Prop
  | unnumbered : v.prop = none → v.line ≠ none → v.lines = none → RowFails v (.ub .emptyOptional)
  | zero : v.prop = none → v.line ≠ none → v.lines = some 0 → RowFails v .nonFinite
  | range : v.prop ≠ none ∨ (v.line ≠ none ∧ v.lines ≠ none ∧ v.lines ≠ some 0) → (∀ r, ¬ RowFor v r) → RowFails v (.ub .floatToInt)

/-- How a time fails in a file of `n` frames per 1000 seconds: it has no rate, a rate too large or zero, or too many frames. -/
inductive TimeFails (n : Int) (t : Time) : Err → Prop
  | bare : t.rate = none → TimeFails n t .unknownFrameRate
  | large (r : FRate) : t.rate = some r → ¬ InInt (r.num * 1000) → TimeFails n t (.ub .intOverflow)
  | zero (r : FRate) : t.rate = some r → r.num = 0 → TimeFails n t .nonFinite
  | range (r : FRate) : t.rate = some r → r.num ≠ 0 → InInt (r.num * 1000) → (∀ x, ¬ TimeCoded n t x) → TimeFails n t (.ub .floatToInt)

/-- How a subtitle fails: with the first of its lines which has no row; or else with the rate of the file, the start, the end, or as it has no lines. -/
inductive SubtitleFails (fps : ℚ) (s : Subtitle) : Err → Prop
  | row (pre post : List Line) (j : Line) (e : Err) : s.lines = pre ++ j :: post → (∀ i ∈ pre, ∃ r, RowFor i.vpos r) → RowFails j.vpos e → SubtitleFails fps s e
  | rate : (∀ j ∈ s.lines, ∃ r, RowFor j.vpos r) → (∀ n, ¬ WithoutFraction (f32 (fps * 1000)) n) → SubtitleFails fps s (.ub .floatToInt)
  | start (n : Int) (e : Err) : (∀ j ∈ s.lines, ∃ r, RowFor j.vpos r) → WithoutFraction (f32 (fps * 1000)) n → TimeFails n s.from_ e → SubtitleFails fps s e
  | stop (n : Int) (x : Str) (e : Err) : (∀ j ∈ s.lines, ∃ r, RowFor j.vpos r) → WithoutFraction (f32 (fps * 1000)) n → TimeCoded n s.from_ x → TimeFails n s.to_ e →
      SubtitleFails fps s e
  | empty (n : Int) (x y : Str) : s.lines = [] → WithoutFraction (f32 (fps * 1000)) n → TimeCoded n s.from_ x → TimeCoded n s.to_ y → SubtitleFails fps s (.ub .emptyOptional)

/-- How writing fails: an argument is not acceptable, or else with the first of the subtitles that fails. -/
inductive WriteFails (a : StlArgs) : Err → Prop
  | argument : ¬ a.Valid → WriteFails a .programming
  | subtitle (pre post : List Subtitle) (s : Subtitle) (e : Err) : a.Valid → a.subtitles = pre ++ s :: post → (∀ t ∈ pre, ∃ bs, SubtitleCoded a.fps t bs) → SubtitleFails a.fps s e →
      WriteFails a e

/-! ### Numbers -/

private theorem toInt_error (x : ℚ) (e : Err) : toInt x = .error e ↔ (∀ r, toInt x ≠ .ok r) ∧ e = .ub .floatToInt := by
  unfold toInt
  by_cases h : InInt (truncR x)
  · rw [if_pos h]
    exact ⟨(fun h => by cases h), fun h' => absurd rfl (h'.1 _)⟩
  · rw [if_neg h]
    constructor
    · intro h'; cases h'; exact ⟨(fun _ h => by cases h), rfl⟩
    · rintro ⟨-, rfl⟩; rfl

private theorem f32_int_zero (n : Int) : f32 (n : ℚ) = 0 ↔ n = 0 := by
  constructor
  · intro h
    have he := f32_err (n : ℚ)
    rw [h, zero_sub, abs_neg] at he
    have h0 := abs_nonneg (n : ℚ)
    have : |(n : ℚ)| = 0 := by
      have : |(n : ℚ)| * 2 ^ 24 ≤ |(n : ℚ)| := by rwa [le_div_iff₀ (by norm_num)] at he
      linarith
    exact_mod_cast abs_eq_zero.1 this
  · rintro rfl; simp

/-! ### Rows -/

private theorem row_error (j : Line) (e : Err) : writerVpos j = .error e ↔ RowFails j.vpos e := by
  have key : (∀ r, writerVpos j ≠ .ok r) ↔ ∀ r, ¬ RowFor j.vpos r := forall_congr' fun r => not_congr (writerRow_iff j r)
  constructor
  · intro h
    have hn : ∀ r, ¬ RowFor j.vpos r := key.1 (fun r hr => by rw [h] at hr; cases hr)
    unfold writerVpos at h
    cases hp : j.vpos.prop with
    | some p =>
      rw [hp] at h
      simp only [] at h
      have : e = .ub .floatToInt := by
        generalize j.vpos.ref.getD .topOfScreen = ref at h
        cases ref
        · exact ((toInt_error _ _).1 h).2
        · exact ((toInt_error _ _).1 h).2
        · exact ((toInt_error _ _).1 h).2
        · cases h
      subst this
      exact .range (.inl (by rw [hp]; simp)) hn
    | none =>
      rw [hp] at h
      simp only [] at h
      cases hl : j.vpos.line with
      | none => rw [hl] at h; cases h
      | some l =>
        rw [hl] at h
        simp only [] at h
        cases hs : j.vpos.lines with
        | none =>
          rw [hs, show optGet (none : Option Int) = .error (.ub .emptyOptional) from rfl, error_bind] at h
          cases h
          exact .unnumbered hp (by rw [hl]; simp) hs
        | some n =>
          rw [hs, show optGet (some n) = .ok n from rfl, ok_bind] at h
          by_cases h0 : n = 0
          · subst h0
            unfold fdiv at h
            rw [if_pos ((f32_int_zero 0).2 rfl), error_bind] at h
            cases h
            exact .zero hp (by rw [hl]; simp) hs
          · unfold fdiv at h
            rw [if_neg (fun h => h0 ((f32_int_zero n).1 h)), ok_bind] at h
            have : e = .ub .floatToInt := by
              generalize j.vpos.ref.getD .topOfScreen = ref at h
              cases ref
              · exact ((toInt_error _ _).1 h).2
              · exact ((toInt_error _ _).1 h).2
              · exact ((toInt_error _ _).1 h).2
              · cases h
            subst this
            exact .range (.inr ⟨by rw [hl]; simp, by rw [hs]; simp, by rw [hs]; simpa using h0⟩) hn
  · intro h
    cases h with
    | unnumbered h1 h2 h3 =>
      obtain ⟨l, hl⟩ := Option.ne_none_iff_exists'.1 h2
      unfold writerVpos
      rw [h1, hl, h3]
      rfl
    | zero h1 h2 h3 =>
      obtain ⟨l, hl⟩ := Option.ne_none_iff_exists'.1 h2
      unfold writerVpos
      rw [h1, hl, h3]
      simp only []
      rw [show optGet (some (0 : Int)) = .ok 0 from rfl, ok_bind]
      unfold fdiv
      rw [if_pos ((f32_int_zero 0).2 rfl), error_bind]
    | range h1 h2 =>
      have hk := key.2 h2
      unfold writerVpos at hk ⊢
      cases hp : j.vpos.prop with
      | some p =>
        rw [hp] at hk
        simp only [] at hk ⊢
        generalize j.vpos.ref.getD .topOfScreen = ref at hk
        cases ref
        · exact (toInt_error _ _).2 ⟨hk, rfl⟩
        · exact (toInt_error _ _).2 ⟨hk, rfl⟩
        · exact (toInt_error _ _).2 ⟨hk, rfl⟩
        · exact absurd rfl (hk 0)
      | none =>
        rw [hp] at hk
        obtain ⟨h3, h4, h5⟩ := h1.resolve_left (fun h => h hp)
        obtain ⟨l, hl⟩ := Option.ne_none_iff_exists'.1 h3
        obtain ⟨n, hs⟩ := Option.ne_none_iff_exists'.1 h4
        have h0 : n ≠ 0 := by rintro rfl; exact h5 hs
        rw [hl, hs] at hk
        rw [hl, hs]
        simp only [] at hk ⊢
        rw [show optGet (some n) = .ok n from rfl, ok_bind] at hk ⊢
        unfold fdiv at hk ⊢
        rw [if_neg (fun h => h0 ((f32_int_zero n).1 h)), ok_bind] at hk ⊢
        generalize j.vpos.ref.getD .topOfScreen = ref at hk
        cases ref
        · exact (toInt_error _ _).2 ⟨hk, rfl⟩
        · exact (toInt_error _ _).2 ⟨hk, rfl⟩
        · exact (toInt_error _ _).2 ⟨hk, rfl⟩
        · exact absurd rfl (hk 0)

/-- C136: a line fails in one way, and exactly if it has no row. -/
theorem C136_row (v : VPos) : (∃ e, RowFails v e) ↔ ∀ r, ¬ RowFor v r := by
  have h1 := row_error { vpos := v }
  have h2 := writerRow_iff { vpos := v }
  cases h : writerVpos { vpos := v } with
  | error e =>
    exact ⟨fun _ r hr => (by rw [(h2 r).2 hr] at h; cases h), fun _ => ⟨e, (h1 e).1 h⟩⟩
  | ok r =>
    exact ⟨fun ⟨e, he⟩ => (by rw [(h1 e).2 he] at h; cases h), fun hn => absurd ((h2 r).1 h) (hn r)⟩

private theorem rows_error (e : Err) : ∀ js : List Line, writerVposes js = .error e ↔ ∃ pre j post, js = pre ++ j :: post ∧ (∀ i ∈ pre, ∃ r, RowFor i.vpos r) ∧ RowFails j.vpos e := by
  intro js
  induction js with
  | nil =>
    constructor
    · intro h; cases h
    · rintro ⟨pre, j, post, h, -⟩; simp at h
  | cons j js ih =>
    rw [writerVposes, bind_error_iff, row_error]
    constructor
    · rintro (h | ⟨v, hv, h⟩)
      · exact ⟨[], j, js, rfl, by simp, h⟩
      · rw [pure_bind_error] at h
        obtain ⟨pre, i, post, h1, h2, h3⟩ := ih.1 h
        refine ⟨j :: pre, i, post, by rw [h1]; rfl, ?_, h3⟩
        intro k hk
        rcases List.mem_cons.1 hk with rfl | hk
        · exact ⟨v, (writerRow_iff _ _).1 hv⟩
        · exact h2 k hk
    · rintro ⟨pre, i, post, h1, h2, h3⟩
      cases pre with
      | nil => cases h1; exact .inl h3
      | cons k pre =>
        obtain ⟨rfl, rfl⟩ := List.cons.inj h1
        obtain ⟨r, hr⟩ := h2 j (by simp)
        refine .inr ⟨r, (writerRow_iff _ _).2 hr, ?_⟩
        rw [pure_bind_error]
        exact ih.2 ⟨pre, i, post, rfl, fun k hk => h2 k (by simp [hk]), h3⟩

private theorem rows_ok_iff : ∀ js : List Line, (∃ rs, writerVposes js = .ok rs) ↔ ∀ j ∈ js, ∃ r, RowFor j.vpos r := by
  intro js
  induction js with
  | nil => exact ⟨fun _ => by simp, fun _ => ⟨[], rfl⟩⟩
  | cons j js ih =>
    rw [writerVposes]
    constructor
    · rintro ⟨rs, h⟩ k hk
      obtain ⟨v, hv, h⟩ := bind_eq_ok.1 h
      obtain ⟨vs, hvs, -⟩ := bind_eq_ok.1 h
      rcases List.mem_cons.1 hk with rfl | hk
      · exact ⟨v, (writerRow_iff _ _).1 hv⟩
      · exact ih.1 ⟨vs, hvs⟩ k hk
    · intro h
      obtain ⟨r, hr⟩ := h j (by simp)
      obtain ⟨rs, hrs⟩ := ih.2 (fun k hk => h k (by simp [hk]))
      exact ⟨r :: rs, by rw [(writerRow_iff _ _).2 hr, ok_bind, hrs, ok_bind]; rfl⟩

/-- A row beyond what an `int` holds, a line number alone, and line 3 of 0. -/
example : RowFails { prop := some (10 ^ 9), ref := some .topOfScreen } (.ub .floatToInt) ∧ RowFails { line := some 3 } (.ub .emptyOptional) ∧ RowFails { line := some 3, lines := some 0 } .nonFinite :=
  ⟨(row_error { vpos := { prop := some (10 ^ 9), ref := some .topOfScreen } } _).1 (by decide +kernel), .unnumbered rfl (by decide) rfl, .zero rfl (by decide) rfl⟩

/-! ### Times -/

private theorem time_ok (t : Time) (n : Int) : (∃ f, t.framesAt ⟨n, 1000⟩ = .ok f) ↔ ∃ x, TimeCoded n t x := by
  constructor
  · rintro ⟨f, h⟩; exact ⟨_, (timeCoded_iff t n _).2 ⟨f, h, rfl⟩⟩
  · rintro ⟨x, h⟩
    obtain ⟨f, h, -⟩ := (timeCoded_iff t n _).1 h
    exact ⟨f, h⟩

private theorem time_error (t : Time) (n : Int) (e : Err) : t.framesAt ⟨n, 1000⟩ = .error e ↔ TimeFails n t e := by
  have key : (∀ f, t.framesAt ⟨n, 1000⟩ ≠ .ok f) ↔ ∀ x, ¬ TimeCoded n t x := by
    have := not_congr (time_ok t n)
    push Not at this
    exact this
  cases hr : t.rate with
  | none =>
    have e0 : t.framesAt ⟨n, 1000⟩ = .error .unknownFrameRate := by unfold Time.framesAt; rw [hr]
    rw [e0]
    constructor
    · intro h; cases h; exact .bare hr
    · intro h
      cases h with
      | bare => rfl
      | large r h => rw [hr] at h; cases h
      | zero r h => rw [hr] at h; cases h
      | range r h => rw [hr] at h; cases h
  | some r =>
    by_cases hi : InInt (r.num * 1000)
    swap
    · have e0 : t.framesAt ⟨n, 1000⟩ = .error (.ub .intOverflow) := by
        unfold Time.framesAt
        rw [hr]
        simp only []
        unfold ck
        rw [if_neg hi, error_bind]
      rw [e0]
      constructor
      · intro h; cases h; exact .large r hr hi
      · intro h
        cases h with
        | bare h => rw [hr] at h; cases h
        | large => rfl
        | zero r' h h' => cases hr.symm.trans h; exact absurd (by rw [h']; unfold InInt; decide) hi
        | range r' h _ h' => cases hr.symm.trans h; exact absurd h' hi
    · by_cases h0 : r.num = 0
      · have e0 : t.framesAt ⟨n, 1000⟩ = .error .nonFinite := by
          unfold Time.framesAt
          rw [hr]
          simp only []
          unfold ck
          rw [if_pos hi, ok_bind, h0]
          unfold fdiv
          rw [if_pos (by norm_num), error_bind]
        rw [e0]
        constructor
        · intro h; cases h; exact .zero r hr h0
        · intro h
          cases h with
          | bare h => rw [hr] at h; cases h
          | large r' h h' => cases hr.symm.trans h; exact absurd hi h'
          | zero => rfl
          | range r' h h' => cases hr.symm.trans h; exact absurd h0 h'
      · have e0 : ∃ y, t.framesAt ⟨n, 1000⟩ = toInt y := by
          unfold Time.framesAt
          rw [hr]
          simp only []
          unfold ck
          rw [if_pos hi, ok_bind]
          unfold fdiv
          rw [if_neg (by simpa using h0), ok_bind]
          exact ⟨_, rfl⟩
        obtain ⟨y, hy⟩ := e0
        rw [hy, toInt_error, ← hy, key]
        constructor
        · rintro ⟨h, rfl⟩; exact .range r hr h0 hi h
        · intro h
          cases h with
          | bare h => rw [hr] at h; cases h
          | large r' h h' => cases hr.symm.trans h; exact absurd hi h'
          | zero r' h h' => cases hr.symm.trans h; exact absurd h' h0
          | range r' h _ _ h' => exact ⟨h', rfl⟩

/-- C136: a time fails exactly if it cannot be coded. -/
theorem C136_time (n : Int) (t : Time) : (∃ e, TimeFails n t e) ↔ ∀ x, ¬ TimeCoded n t x := by
  have h1 := time_error t n
  have h2 := time_ok t n
  cases h : t.framesAt ⟨n, 1000⟩ with
  | error e =>
    exact ⟨fun _ x hx => (by obtain ⟨f, hf⟩ := h2.2 ⟨x, hx⟩; rw [h] at hf; cases hf), fun _ => ⟨e, (h1 e).1 h⟩⟩
  | ok r =>
    exact ⟨fun ⟨e, he⟩ => (by rw [(h1 e).2 he] at h; cases h), fun hn => (by obtain ⟨x, hx⟩ := h2.1 ⟨r, h⟩; exact absurd hx (hn x))⟩

/-- A time with 2147483647 frames at one frame per second, in a file of 25 frames per second. -/
example : TimeFails 25000 ⟨0, 2147483647, some ⟨1, 1⟩⟩ (.ub .floatToInt) ∧ TimeFails 25000 ⟨0, 0, none⟩ .unknownFrameRate ∧ TimeFails 25000 ⟨0, 0, some ⟨3000000, 1⟩⟩ (.ub .intOverflow) :=
  ⟨(time_error _ _ _).1 (by decide +kernel), .bare rfl, .large _ rfl (by decide)⟩

/-! ### Subtitles -/

/-- C136: how a subtitle fails. -/
theorem C136_subtitle (fps : ℚ) (s : Subtitle) (e : Err) : ttiBlocks fps s = .error e ↔ SubtitleFails fps s e := by
  have hcum : cumulativeStatusEnumToFile .notCumulative = .ok 0 := by decide +kernel
  have hcom : commentEnumToFile .no = .ok 0 := by decide +kernel
  have hjust : ∀ r, ∃ v, justificationEnumToFile (hrefJustification r) = .ok v := by
    intro r
    cases r
    · exact ⟨1, by decide +kernel⟩
    · exact ⟨2, by decide +kernel⟩
    · exact ⟨3, by decide +kernel⟩
  have tail : ∀ (vps : List Int) (text : Str), writerVposes s.lines = .ok vps → writerText (s.lines.zip vps) = .ok text → (ttiBlocks fps s = .error e ↔
      (toInt (f32 (fps * 1000)) = .error e ∨ ∃ n, toInt (f32 (fps * 1000)) = .ok n ∧ (s.from_.framesAt ⟨n, 1000⟩ = .error e ∨ ∃ ff, s.from_.framesAt ⟨n, 1000⟩ = .ok ff ∧
        (s.to_.framesAt ⟨n, 1000⟩ = .error e ∨ ∃ tf, s.to_.framesAt ⟨n, 1000⟩ = .ok tf ∧ s.lines = [] ∧ e = .ub .emptyOptional)))) := by
    intro vps text h1 h2
    unfold ttiBlocks
    rw [h1, ok_bind, h2, ok_bind, hcum, ok_bind]
    simp only [bind_error_iff (α := Int)]
    refine or_congr Iff.rfl (exists_congr fun n => and_congr_right fun _ => or_congr Iff.rfl (exists_congr fun ff => and_congr_right fun _ => or_congr Iff.rfl
      (exists_congr fun tf => and_congr_right fun _ => ?_)))
    cases hl : s.lines with
    | nil =>
      rw [hl] at h1
      cases h1
      constructor
      · rintro (h | ⟨top, h, -⟩)
        · cases h; exact ⟨rfl, rfl⟩
        · cases h
      · rintro ⟨-, rfl⟩; exact .inl rfl
    | cons j js =>
      constructor
      · rintro (h | ⟨top, h, h'⟩)
        · exfalso
          rw [hl, writerVposes] at h1
          obtain ⟨v, hv, h1⟩ := bind_eq_ok.1 h1
          obtain ⟨vs, hvs, h1⟩ := bind_eq_ok.1 h1
          cases h1
          obtain ⟨u, hu⟩ := writerTop_some vs v
          rw [writerTop, hu] at h
          cases h
        · simp only [] at h'
          obtain ⟨v, hv⟩ := hjust j.hpos.ref
          rw [hv, hcom] at h'
          rcases h' with h' | ⟨_, -, h' | ⟨_, -, h'⟩⟩
      · rintro ⟨h, -⟩; cases h
  cases hv : writerVposes s.lines with
  | error e' =>
    have e0 : ttiBlocks fps s = .error e' := by unfold ttiBlocks; rw [hv, error_bind]
    have hn : ¬ ∀ j ∈ s.lines, ∃ r, RowFor j.vpos r := by
      intro h
      obtain ⟨rs, h⟩ := (rows_ok_iff _).2 h
      rw [h] at hv; cases hv
    rw [e0]
    constructor
    · intro h
      cases h
      obtain ⟨pre, j, post, h1, h2, h3⟩ := (rows_error e _).1 hv
      exact .row pre post j e h1 h2 h3
    · intro h
      cases h with
      | row pre post j _ h1 h2 h3 => rw [(rows_error e _).2 ⟨pre, j, post, h1, h2, h3⟩] at hv; cases hv; rfl
      | rate h => exact absurd h hn
      | start _ _ h => exact absurd h hn
      | stop _ _ _ h => exact absurd h hn
      | empty _ _ _ h => exact absurd (by rw [h]; simp) hn
  | ok vps =>
    have hr := (rows_ok_iff _).1 ⟨vps, hv⟩
    obtain ⟨text, ht⟩ := writerText_ok (s.lines.zip vps)
    rw [tail vps text hv ht]
    constructor
    · rintro (h | ⟨n, hn, h | ⟨ff, hff, h | ⟨tf, htf, hl, rfl⟩⟩⟩)
      · obtain ⟨h', rfl⟩ := (toInt_error _ _).1 h
        exact .rate hr (fun n hn => h' n ((trunc_iff _ _).2 hn))
      · exact .start n e hr ((trunc_iff _ _).1 hn) ((time_error _ _ _).1 h)
      · obtain ⟨x, hx⟩ := (time_ok _ _).1 ⟨ff, hff⟩
        exact .stop n x e hr ((trunc_iff _ _).1 hn) hx ((time_error _ _ _).1 h)
      · obtain ⟨x, hx⟩ := (time_ok _ _).1 ⟨ff, hff⟩
        obtain ⟨y, hy⟩ := (time_ok _ _).1 ⟨tf, htf⟩
        exact .empty n x y hl ((trunc_iff _ _).1 hn) hx hy
    · intro h
      cases h with
      | row pre post j _ h1 h2 h3 => rw [(rows_error e _).2 ⟨pre, j, post, h1, h2, h3⟩] at hv; cases hv
      | rate _ h => exact .inl ((toInt_error _ _).2 ⟨fun n hn => h n ((trunc_iff _ _).1 hn), rfl⟩)
      | start n _ _ h1 h2 => exact .inr ⟨n, (trunc_iff _ _).2 h1, .inl ((time_error _ _ _).2 h2)⟩
      | stop n x _ _ h1 h2 h3 =>
        obtain ⟨ff, hff⟩ := (time_ok _ _).2 ⟨x, h2⟩
        exact .inr ⟨n, (trunc_iff _ _).2 h1, .inr ⟨ff, hff, .inl ((time_error _ _ _).2 h3)⟩⟩
      | empty n x y h1 h2 h3 h4 =>
        obtain ⟨ff, hff⟩ := (time_ok _ _).2 ⟨x, h3⟩
        obtain ⟨tf, htf⟩ := (time_ok _ _).2 ⟨y, h4⟩
        exact .inr ⟨n, (trunc_iff _ _).2 h2, .inr ⟨ff, hff, .inr ⟨tf, htf, h1, rfl⟩⟩⟩

/-- The second line has a number only. -/
example : SubtitleFails 25 { from_ := ⟨3, 12, some ⟨25, 1⟩⟩, to_ := ⟨5, 0, none⟩, lines := [{ vpos := { prop := some (1 / 2), ref := some .topOfScreen } }, { vpos := { line := some 3 } }] } (.ub .emptyOptional) :=
  (C136_subtitle _ _ _).1 (by decide +kernel)

/-- The end has no rate; the row of its only line can be had. -/
example : SubtitleFails 25 { from_ := ⟨3, 12, some ⟨25, 1⟩⟩, to_ := ⟨5, 0, none⟩, lines := [{ vpos := { prop := some (1 / 2), ref := some .topOfScreen } }] } .unknownFrameRate :=
  (C136_subtitle _ _ _).1 (by decide +kernel)

private theorem subtitles_error (fps : ℚ) (e : Err) : ∀ ss : List Subtitle, makeTtiBlocks fps ss = .error e ↔
    ∃ pre s post, ss = pre ++ s :: post ∧ (∀ t ∈ pre, ∃ bs, SubtitleCoded fps t bs) ∧ SubtitleFails fps s e := by
  intro ss
  induction ss with
  | nil =>
    constructor
    · intro h; cases h
    · rintro ⟨pre, j, post, h, -⟩; simp at h
  | cons s ss ih =>
    rw [makeTtiBlocks, bind_error_iff, C136_subtitle]
    constructor
    · rintro (h | ⟨v, hv, h⟩)
      · exact ⟨[], s, ss, rfl, by simp, h⟩
      · rw [pure_bind_error] at h
        obtain ⟨pre, i, post, h1, h2, h3⟩ := ih.1 h
        refine ⟨s :: pre, i, post, by rw [h1]; rfl, ?_, h3⟩
        intro k hk
        rcases List.mem_cons.1 hk with rfl | hk
        · exact ⟨v, (C123_subtitle _ _ _).1 hv⟩
        · exact h2 k hk
    · rintro ⟨pre, i, post, h1, h2, h3⟩
      cases pre with
      | nil => cases h1; exact .inl h3
      | cons k pre =>
        obtain ⟨rfl, rfl⟩ := List.cons.inj h1
        obtain ⟨r, hr⟩ := h2 s (by simp)
        refine .inr ⟨r, (C123_subtitle _ _ _).2 hr, ?_⟩
        rw [pure_bind_error]
        exact ih.2 ⟨pre, i, post, rfl, fun k hk => h2 k (by simp [hk]), h3⟩

/-- C136: how writing a file fails, in any ordinary locale, with numbers of blocks and subtitles for which there is room in the header. -/
theorem C136_write (l : Locale) (hl : SaneLocale l) (ht : l.thousandsSep.head? ≠ some 45) (a : StlArgs) (e : Err)
    (hc : ∀ bs, SubtitlesCoded a.fps a.subtitles bs → a.Counts bs) : writeStlIn l a = .error e ↔ WriteFails a e := by
  by_cases hv : a.Valid
  swap
  · rw [C55_refuses l a hv]
    constructor
    · intro h; cases h; exact .argument hv
    · intro h
      cases h with
      | argument => rfl
      | subtitle _ _ _ _ h => exact absurd h hv
  have e1 : (∃ pre s post, a.subtitles = pre ++ s :: post ∧ (∀ t ∈ pre, ∃ bs, SubtitleCoded a.fps t bs) ∧ SubtitleFails a.fps s e) ↔ WriteFails a e := by
    constructor
    · rintro ⟨pre, s, post, h1, h2, h3⟩; exact .subtitle pre post s e hv h1 h2 h3
    · intro h
      cases h with
      | argument h => exact absurd hv h
      | subtitle pre post s _ _ h1 h2 h3 => exact ⟨pre, s, post, h1, h2, h3⟩
  rw [← e1, ← subtitles_error]
  cases hb : makeTtiBlocks a.fps a.subtitles with
  | ok bs =>
    rw [(C55_layout l hl ht a bs hv hb (hc bs ((C123_subtitles _ _ _).1 hb))).1]
    constructor <;> (intro h; cases h)
  | error e' =>
    have : writeStlIn l a = .error e' := by
      cases hw : writeStlIn l a with
      | ok f =>
        unfold writeStlIn at hw
        obtain ⟨_, _, hw⟩ := bind_eq_ok.1 hw
        rw [hb] at hw
        cases hw
      | error e'' =>
        unfold writeStlIn at hw
        rw [(check_eq a).1 hv, ok_bind, hb, error_bind] at hw
        exact hw.symm
    rw [this]
    exact ⟨fun h => by rw [Except.error.inj h], fun h => by rw [Except.error.inj h]⟩

/-- Two subtitles that can be written, then one without lines. -/
example : WriteFails { stlDemo with subtitles := stlDemo.subtitles ++ [{ from_ := ⟨3, 12, some ⟨25, 1⟩⟩, to_ := ⟨5, 0, some ⟨25, 1⟩⟩, lines := [] }] } (.ub .emptyOptional) := by
  have e0 : (makeTtiBlocks 25 (stlDemo.subtitles ++ [{ from_ := ⟨3, 12, some ⟨25, 1⟩⟩, to_ := ⟨5, 0, some ⟨25, 1⟩⟩, lines := [] }])) = .error (.ub .emptyOptional) := by decide +kernel
  refine (C136_write Locale.c ?_ (by decide) _ _ (fun bs h => ?_)).1 (by decide +kernel)
  · exact ⟨⟨46, [], rfl, by decide, by decide, by decide, by decide, by decide⟩, by decide⟩
  · exact absurd (e0.symm.trans ((C123_subtitles _ _ _).2 h)) (by simp)

/-- C61: a field that is put into the header changes the bytes of its place and no others, the size stays the same, and a field that would go past the end is undefined
behaviour. -/
theorem C61_put (off : Nat) (f buf b : Str) :
    (putString off f buf = .ok b ↔ b.length = buf.length ∧ off + f.length ≤ buf.length ∧ ∀ i, b[i]? = if off ≤ i ∧ i < off + f.length then f[i - off]? else buf[i]?) ∧
    (putString off f buf = .error (.ub .bufferOverrun) ↔ buf.length < off + f.length) := by
  unfold putString
  by_cases h : off + f.length ≤ buf.length
  · rw [if_pos h]
    have key : ∀ i, (buf.take off ++ f ++ buf.drop (off + f.length))[i]? = if off ≤ i ∧ i < off + f.length then f[i - off]? else buf[i]? := by
      intro i
      have hl : (buf.take off).length = off := by rw [List.length_take]; omega
      rw [List.append_assoc]
      by_cases h1 : i < off
      · rw [if_neg (by omega), List.getElem?_append_left (by omega), List.getElem?_take_of_lt h1]
      · rw [List.getElem?_append_right (by omega), hl]
        by_cases h2 : i < off + f.length
        · rw [if_pos (by omega), List.getElem?_append_left (by omega)]
        · rw [if_neg (by omega), List.getElem?_append_right (by omega), List.getElem?_drop]
          congr 1
          omega
    refine ⟨⟨fun e => ?_, fun ⟨hl, _, hb⟩ => ?_⟩, ⟨fun e => by simp at e, fun e => by omega⟩⟩
    · rw [← Except.ok.inj e]
      refine ⟨by simp; omega, h, key⟩
    · congr 1
      refine List.ext_getElem? fun i => ?_
      rw [key, hb]
  · rw [if_neg h]
    exact ⟨⟨fun e => by simp at e, fun ⟨_, e, _⟩ => absurd e h⟩, ⟨fun _ => by omega, fun _ => rfl⟩⟩

example : putString 2 b!"xy" b!"abcd" = .ok b!"abxy" ∧ putString 3 b!"xy" b!"abcd" = .error (.ub .bufferOverrun) := by decide +kernel

end LibSub
