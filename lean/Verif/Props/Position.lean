/-
Properties C17–C19: equality and order of positions on the screen.
-/
import Verif.Model.Subtitle
import Verif.Lemmas.Time

namespace LibSub

/-! ### C17  equality of vertical positions -/

/-- C17: symmetric. -/
theorem C17_symm (a b : VPos) : a.eq b = b.eq a := by
  obtain ⟨ap, al, an, ar⟩ := a
  obtain ⟨bp, bl, bn, br⟩ := b
  cases ap <;> cases al <;> cases an <;> cases ar <;> cases bp <;> cases bl <;> cases bn <;> cases br <;>
    simp only [VPos.eq, Option.isSome, Bool.and_true, Bool.and_false, if_true, if_false,
      Bool.false_eq_true, Option.some_beq_some] <;>
    (rw [Bool.eq_iff_iff]; simp only [Bool.and_eq_true, beq_iff_eq]; grind)

/-- C17: a position equals itself iff it has a reference and a proportion or a line. -/
theorem C17_refl_iff (a : VPos) : a.eq a = true ↔ a.ref ≠ none ∧ (a.prop ≠ none ∨ a.line ≠ none) := by
  obtain ⟨ap, al, an, ar⟩ := a
  cases ap <;> cases al <;> cases an <;> cases ar <;> simp [VPos.eq]

/-- C17: equal positions have the same reference and the same proportion or the same line. -/
theorem C17_eq_sound (a b : VPos) (h : a.eq b = true) :
    a.ref = b.ref ∧ a.ref ≠ none ∧ ((a.prop = b.prop ∧ a.prop ≠ none) ∨ (a.line = b.line ∧ a.line ≠ none)) := by
  obtain ⟨ap, al, an, ar⟩ := a
  obtain ⟨bp, bl, bn, br⟩ := b
  cases ap <;> cases al <;> cases an <;> cases ar <;> cases bp <;> cases bl <;> cases bn <;> cases br <;>
    simp_all [VPos.eq]

/-- C17: transitivity, in full. -/
def C17_transitive_statement : Prop := ∀ a b c : VPos, a.eq b = true → b.eq c = true → a.eq c = true

/-- C17: equality is not transitive: a position without line count equals positions with different line counts. -/
theorem C17_not_transitive : ¬ C17_transitive_statement := by
  intro h
  have := h { line := some 1, lines := some 10, ref := some .topOfScreen } { line := some 1, ref := some .topOfScreen }
    { line := some 1, lines := some 20, ref := some .topOfScreen } (by decide) (by decide)
  revert this
  decide

/-- C17: it is transitive among positions given in the same way (each by proportion; or each by line and line count;
or each by line alone). -/
theorem C17_transitive_same_kind (a b c : VPos)
    (hw : (∀ v ∈ [a, b, c], v.prop ≠ none) ∨ (∀ v ∈ [a, b, c], v.prop = none ∧ v.lines ≠ none) ∨
      (∀ v ∈ [a, b, c], v.prop = none ∧ v.lines = none))
    (h1 : a.eq b = true) (h2 : b.eq c = true) : a.eq c = true := by
  obtain ⟨ap, al, an, ar⟩ := a
  obtain ⟨bp, bl, bn, br⟩ := b
  obtain ⟨cp, cl, cn, cr⟩ := c
  simp only [List.mem_cons, List.not_mem_nil, or_false, forall_eq_or_imp, forall_eq] at hw
  rcases hw with ⟨h3, h4, h5⟩ | ⟨⟨h3, h6⟩, ⟨h4, h7⟩, ⟨h5, h8⟩⟩ | ⟨⟨h3, h6⟩, ⟨h4, h7⟩, ⟨h5, h8⟩⟩
  · obtain ⟨x, rfl⟩ := Option.ne_none_iff_exists'.1 h3
    obtain ⟨y, rfl⟩ := Option.ne_none_iff_exists'.1 h4
    obtain ⟨z, rfl⟩ := Option.ne_none_iff_exists'.1 h5
    cases ar <;> cases br <;> cases cr <;> simp_all [VPos.eq]
  · subst h3 h4 h5
    obtain ⟨x, rfl⟩ := Option.ne_none_iff_exists'.1 h6
    obtain ⟨y, rfl⟩ := Option.ne_none_iff_exists'.1 h7
    obtain ⟨z, rfl⟩ := Option.ne_none_iff_exists'.1 h8
    cases ar <;> cases br <;> cases cr <;> cases al <;> cases bl <;> cases cl <;> simp_all [VPos.eq]
  · subst h3 h4 h5 h6 h7 h8
    cases ar <;> cases br <;> cases cr <;> cases al <;> cases bl <;> cases cl <;> simp_all [VPos.eq]

example : (⟨some (1/2), none, none, some .topOfScreen⟩ : VPos).eq ⟨some (1/2), some 3, none, some .topOfScreen⟩ = true := by
  decide +kernel

/-! ### C18  order of vertical positions -/

/-- Distance of a position from the top of the screen as a fraction of its height, exactly.  Positions without
reference, proportion or line are at the top; a position given by a line only has no distance. -/
def VPos.distance (v : VPos) : Option ℚ :=
  match v.ref, v.prop, v.line, v.lines with
  | none, _, _, _ => some 0
  | some _, none, none, _ => some 0
  | some r, some p, _, _ => some (along r p)
  | some r, none, some l, some n => if n = 0 then none else some (along r (l / n))
  | some _, none, some _, none => none
where
  /-- measured from the reference -/
  along : VRef → ℚ → ℚ
    | .topOfScreen, p => p
    | .topOfSubtitle, p => p
    | .centreOfScreen, p => 1 / 2 + p
    | .bottomOfScreen, p => 1 - p

/-- The position is on the screen, and was given with numbers that a `float` represents. -/
def VPos.OnScreen (v : VPos) : Prop :=
  (∀ p, v.prop = some p → 0 ≤ p ∧ p ≤ 1) ∧
  (∀ l n, v.line = some l → v.lines = some n → 0 ≤ l ∧ l ≤ n ∧ 0 < n ∧ n ≤ 2 ^ 24)

theorem f32_eq_zero {n : Int} : f32 (n : ℚ) = 0 ↔ n = 0 := by
  constructor
  · intro h
    by_contra hn
    have h1 := f32_err (n : ℚ)
    rw [h] at h1
    have h2 : 0 < |(n : ℚ)| := abs_pos.2 (by exact_mod_cast hn)
    have h3 : |(0 : ℚ) - n| = |(n : ℚ)| := by rw [zero_sub, abs_neg]
    rw [h3] at h1
    have : |(n : ℚ)| / 2 ^ 24 < |(n : ℚ)| := by
      rw [div_lt_iff₀ (by norm_num)]
      nlinarith
    linarith
  · rintro rfl
    simp

/-- C18: the fraction is undefined behaviour exactly for a position with a reference and a line but neither a proportion
nor a number of lines. -/
theorem C18_ub_iff (v : VPos) :
    v.fractionFromTop = .error (.ub .emptyOptional) ↔ v.ref ≠ none ∧ v.prop = none ∧ v.line ≠ none ∧ v.lines = none := by
  obtain ⟨p, l, n, r⟩ := v
  cases r with
  | none => simp [VPos.fractionFromTop]
  | some r =>
    cases p with
    | some p => cases r <;> simp [VPos.fractionFromTop]
    | none =>
      cases l with
      | none => simp [VPos.fractionFromTop]
      | some l =>
        cases n with
        | none => simp [VPos.fractionFromTop, optGet]
        | some n =>
          by_cases hn : f32 (n : ℚ) = 0
          · simp [VPos.fractionFromTop, optGet, fdiv, hn]
          · cases r <;> simp [VPos.fractionFromTop, optGet, fdiv, hn]

/-- C18: the fraction is a number exactly when the position has a distance. -/
theorem C18_defined_iff (v : VPos) : (∃ x, v.fractionFromTop = .ok x) ↔ v.distance ≠ none := by
  obtain ⟨p, l, n, r⟩ := v
  cases r with
  | none => simp [VPos.fractionFromTop, VPos.distance]
  | some r =>
    cases p with
    | some p => cases r <;> simp [VPos.fractionFromTop, VPos.distance]
    | none =>
      cases l with
      | none => simp [VPos.fractionFromTop, VPos.distance]
      | some l =>
        cases n with
        | none => simp [VPos.fractionFromTop, optGet, VPos.distance]
        | some n =>
          by_cases hn : n = 0
          · subst hn
            simp [VPos.fractionFromTop, optGet, VPos.distance, fdiv]
          · have hn' : f32 (n : ℚ) ≠ 0 := fun h => hn (f32_eq_zero.1 h)
            cases r <;> simp [VPos.fractionFromTop, optGet, VPos.distance, fdiv, hn, hn']

private theorem along_err (r : VRef) (p q : ℚ) (hq : 0 ≤ q ∧ q ≤ 1) (hp : 0 ≤ p ∧ p ≤ 1) (h : |p - q| ≤ 1 / 2 ^ 24) :
    |(match r with | .topOfScreen => p | .centreOfScreen => f32 (f64 (p + 1/2)) | .bottomOfScreen => f32 (1 - p) | .topOfSubtitle => p) -
      VPos.distance.along r q| ≤ 1 / 2 ^ 22 := by
  rw [abs_le] at h
  cases r <;> simp only [VPos.distance.along]
  · rw [abs_le]; constructor <;> linarith
  · have h1 := f64_err (p + 1/2)
    have h2 := f32_err (f64 (p + 1/2))
    rw [abs_of_nonneg (by linarith [hp.1] : (0:ℚ) ≤ p + 1/2)] at h1
    rw [abs_of_nonneg (show (0:ℚ) ≤ f64 (p + 1/2) from rnd_nonneg (by linarith [hp.1]))] at h2
    rw [abs_le] at h1 h2 ⊢
    constructor <;> linarith [hp.2]
  · have h1 := f32_err (1 - p)
    rw [abs_of_nonneg (by linarith [hp.2] : (0:ℚ) ≤ 1 - p)] at h1
    rw [abs_le] at h1 ⊢
    constructor <;> linarith [hp.1]
  · rw [abs_le]; constructor <;> linarith

/-- C18: for positions on the screen the fraction is the distance from the top up to rounding, less than a 4000th of a
pixel on a 1000 line screen. -/
theorem C18_fraction (v : VPos) (hv : v.OnScreen) (d x : ℚ) (hd : v.distance = some d) (hx : v.fractionFromTop = .ok x) :
    |x - d| ≤ 1 / 2 ^ 22 := by
  obtain ⟨p, l, n, r⟩ := v
  obtain ⟨hp, hl⟩ := hv
  simp only at hp hl
  cases r with
  | none =>
    simp only [VPos.fractionFromTop, VPos.distance, Option.some.injEq, Except.ok.injEq] at hx hd
    subst hx hd; norm_num
  | some r =>
    cases p with
    | some p =>
      have hp := hp p rfl
      have key := along_err r p p hp hp (by norm_num)
      have hd' : d = VPos.distance.along r p := by simpa [VPos.distance] using hd.symm
      rw [← hd'] at key
      cases r <;> simp [VPos.fractionFromTop] at hx <;> rw [← hx] <;> simpa using key
    | none =>
      cases l with
      | none =>
        simp [VPos.fractionFromTop, VPos.distance] at hx hd
        subst hx hd; norm_num
      | some l =>
        cases n with
        | none => simp [VPos.distance] at hd
        | some n =>
          obtain ⟨h0, h1, h2, h3⟩ := hl l n rfl rfl
          have hl' : f32 (l : ℚ) = l := f32_int (by rw [abs_le]; constructor <;> omega)
          have hn' : f32 (n : ℚ) = n := f32_int (by rw [abs_le]; constructor <;> omega)
          have hn0 : n ≠ 0 := by omega
          have hq : (n : ℚ) ≠ 0 := by exact_mod_cast hn0
          have hnp : (0 : ℚ) < n := by exact_mod_cast h2
          have q0 : (0 : ℚ) ≤ l / n := div_nonneg (by exact_mod_cast h0) hnp.le
          have q1 : (l / n : ℚ) ≤ 1 := by rw [div_le_one hnp]; exact_mod_cast h1
          have e := f32_err (l / n : ℚ)
          rw [abs_of_nonneg q0] at e
          have p0 : 0 ≤ f32 (l / n : ℚ) := rnd_nonneg q0
          have p1 : f32 (l / n : ℚ) ≤ 1 := by
            have := f32_mono q1
            have o := f32_int (m := 1) (by norm_num)
            rw [Int.cast_one] at o
            rwa [o] at this
          have key := along_err r (f32 (l / n)) (l / n) ⟨q0, q1⟩ ⟨p0, p1⟩ (e.trans (by rw [div_le_div_iff_of_pos_right (by norm_num)]; exact q1))
          have hd' : d = VPos.distance.along r (l / n) := by simpa [VPos.distance, hn0] using hd.symm
          rw [← hd'] at key
          cases r <;> simp [VPos.fractionFromTop, optGet, fdiv, hn0, hl', hn'] at hx <;> rw [← hx] <;> simpa using key

/-- Line 3 of 23, as a float. -/
example (x : ℚ) (hx : VPos.fractionFromTop { line := some 3, lines := some 23, ref := some .topOfScreen } = .ok x) : |x - 3 / 23| ≤ 1 / 2 ^ 22 := by
  refine C18_fraction _ ⟨by simp, ?_⟩ _ _ ?_ hx
  · simp only [Option.some.injEq]
    rintro _ _ rfl rfl
    norm_num
  · decide +kernel

/-- C18: `operator<` puts positions on the screen in top-to-bottom order, as soon as their distances differ by
more than rounding. -/
theorem C18_top_to_bottom (a b : VPos) (ha : a.OnScreen) (hb : b.OnScreen) (da db : ℚ)
    (hda : a.distance = some da) (hdb : b.distance = some db) (hfar : 1 / 2 ^ 21 < |da - db|) :
    a.lt b = .ok (decide (da < db)) := by
  obtain ⟨x, hx⟩ := (C18_defined_iff a).2 (by rw [hda]; simp)
  obtain ⟨y, hy⟩ := (C18_defined_iff b).2 (by rw [hdb]; simp)
  have h1 := C18_fraction a ha da x hda hx
  have h2 := C18_fraction b hb db y hdb hy
  unfold VPos.lt
  rw [hx, hy]
  simp only [ok_bind, pure_eq_ok, Except.ok.injEq, decide_eq_decide]
  rw [abs_le] at h1 h2
  rw [lt_abs] at hfar
  constructor
  · intro h
    rcases hfar with h3 | h3 <;> linarith
  · intro h
    rcases hfar with h3 | h3 <;> linarith

/-- C18: with the same reference to the top and the same line count, the lower line number comes first. -/
theorem C18_lines (r : VRef) (hr : r = .topOfScreen ∨ r = .topOfSubtitle ∨ r = .centreOfScreen) (l m n : Int)
    (hl : 0 ≤ l ∧ l ≤ n) (hm : 0 ≤ m ∧ m ≤ n) (h0 : 0 < n) (hn : n < 2 ^ 21) (hlm : l ≠ m) :
    VPos.lt { line := some l, lines := some n, ref := some r } { line := some m, lines := some n, ref := some r } =
      .ok (decide (l < m)) := by
  have hnp : (0 : ℚ) < n := by exact_mod_cast h0
  have hn0 : n ≠ 0 := by omega
  have hdiff : (1 : ℚ) / 2 ^ 21 < |(l / n : ℚ) - m / n| := by
    rw [← sub_div, abs_div, abs_of_pos hnp, div_lt_div_iff₀ (by norm_num) hnp]
    have h1 : (1 : ℤ) ≤ |l - m| := Int.one_le_abs (by omega)
    have h2 : (1 : ℚ) ≤ |(l : ℚ) - m| := by exact_mod_cast h1
    have h3 : (n : ℚ) < 2 ^ 21 := by exact_mod_cast hn
    linarith
  have hlt : (l / n : ℚ) < m / n ↔ l < m := by
    rw [div_lt_div_iff_of_pos_right hnp]; exact_mod_cast Iff.rfl
  have on : ∀ k : Int, 0 ≤ k ∧ k ≤ n → VPos.OnScreen { line := some k, lines := some n, ref := some r } := by
    intro k hk
    refine ⟨by simp, ?_⟩
    simp only [Option.some.injEq]
    rintro _ _ rfl rfl
    exact ⟨hk.1, hk.2, h0, by omega⟩
  have main := C18_top_to_bottom _ _ (on l hl) (on m hm) (VPos.distance.along r (l / n)) (VPos.distance.along r (m / n))
    (by simp [VPos.distance, hn0]) (by simp [VPos.distance, hn0])
  rcases hr with rfl | rfl | rfl
  · rw [main hdiff]; simp only [VPos.distance.along, hlt]
  · rw [main hdiff]; simp only [VPos.distance.along, hlt]
  · rw [main (by simpa [VPos.distance.along] using hdiff)]; simp only [VPos.distance.along, add_lt_add_iff_left, hlt]

example : VPos.lt { line := some 3, lines := some 23, ref := some .centreOfScreen } { line := some 20, lines := some 23, ref := some .centreOfScreen } = .ok true :=
  C18_lines .centreOfScreen (by simp) 3 20 23 (by decide) (by decide) (by decide) (by decide) (by decide)

/-- C18: with a reference to the bottom the higher line number comes first. -/
theorem C18_lines_bottom (l m n : Int)
    (hl : 0 ≤ l ∧ l ≤ n) (hm : 0 ≤ m ∧ m ≤ n) (h0 : 0 < n) (hn : n < 2 ^ 21) (hlm : l ≠ m) :
    VPos.lt { line := some l, lines := some n, ref := some .bottomOfScreen } { line := some m, lines := some n, ref := some .bottomOfScreen } =
      .ok (decide (m < l)) := by
  have hnp : (0 : ℚ) < n := by exact_mod_cast h0
  have hn0 : n ≠ 0 := by omega
  have hdiff : (1 : ℚ) / 2 ^ 21 < |(m / n : ℚ) - l / n| := by
    rw [← sub_div, abs_div, abs_of_pos hnp, div_lt_div_iff₀ (by norm_num) hnp]
    have h1 : (1 : ℤ) ≤ |m - l| := Int.one_le_abs (by omega)
    have h2 : (1 : ℚ) ≤ |(m : ℚ) - l| := by exact_mod_cast h1
    have h3 : (n : ℚ) < 2 ^ 21 := by exact_mod_cast hn
    linarith
  have hlt : (m / n : ℚ) < l / n ↔ m < l := by
    rw [div_lt_div_iff_of_pos_right hnp]; exact_mod_cast Iff.rfl
  have on : ∀ k : Int, 0 ≤ k ∧ k ≤ n → VPos.OnScreen { line := some k, lines := some n, ref := some .bottomOfScreen } := by
    intro k hk
    refine ⟨by simp, ?_⟩
    simp only [Option.some.injEq]
    rintro _ _ rfl rfl
    exact ⟨hk.1, hk.2, h0, by omega⟩
  rw [C18_top_to_bottom _ _ (on l hl) (on m hm) (1 - l / n) (1 - m / n)
    (by simp [VPos.distance, hn0, VPos.distance.along]) (by simp [VPos.distance, hn0, VPos.distance.along])
    (by rw [show (1 - l / n - (1 - m / n) : ℚ) = m / n - l / n by ring]; exact hdiff)]
  simp only [sub_lt_sub_iff_left, hlt]

example : VPos.lt { line := some 3, lines := some 23, ref := some .bottomOfScreen } { line := some 20, lines := some 23, ref := some .bottomOfScreen } = .ok false :=
  C18_lines_bottom 3 20 23 (by decide) (by decide) (by decide) (by decide) (by decide)

/-- C18: a strict weak order wherever it is defined. -/
theorem C18_strict_weak_order :
    (∀ a : VPos, a.lt a ≠ .ok true) ∧
    (∀ a b c : VPos, a.lt b = .ok true → b.lt c = .ok true → a.lt c = .ok true) ∧
    (∀ a b c : VPos, a.lt b = .ok false → b.lt a = .ok false → b.lt c = .ok false → c.lt b = .ok false →
      a.lt c = .ok false ∧ c.lt a = .ok false) ∧
    (∀ a b : VPos, a.distance ≠ none → b.distance ≠ none → ∃ x, a.lt b = .ok x) := by
  have key : ∀ {a b : VPos} {t : Bool}, a.lt b = .ok t →
      ∃ x y, a.fractionFromTop = .ok x ∧ b.fractionFromTop = .ok y ∧ t = decide (x < y) := by
    intro a b t h
    unfold VPos.lt at h
    simp only [bind_eq_ok, pure_eq_ok, Except.ok.injEq] at h
    obtain ⟨x, hx, y, hy, h⟩ := h
    exact ⟨x, y, hx, hy, h.symm⟩
  have mk : ∀ {a b : VPos} {x y : ℚ}, a.fractionFromTop = .ok x → b.fractionFromTop = .ok y → a.lt b = .ok (decide (x < y)) := by
    intro a b x y hx hy
    unfold VPos.lt
    rw [hx, hy]
    rfl
  refine ⟨?_, ?_, ?_, ?_⟩
  · intro a h
    obtain ⟨x, y, hx, hy, h⟩ := key h
    rw [hx] at hy
    cases hy
    simp at h
  · intro a b c h1 h2
    obtain ⟨x, y, hx, hy, h⟩ := key h1
    obtain ⟨y', z, hy', hz, h'⟩ := key h2
    rw [hy] at hy'
    cases hy'
    rw [mk hx hz]
    rw [eq_comm, decide_eq_true_eq] at h h'
    rw [decide_eq_true (lt_trans h h')]
  · intro a b c h1 h2 h3 h4
    obtain ⟨x, y, hx, hy, e1⟩ := key h1
    obtain ⟨z, w, hz, hw, e2⟩ := key h3
    have e3 := mk hy hx
    rw [h2] at e3
    rw [hy] at hz; cases hz
    have e4 := mk hw hy
    rw [h4] at e4
    rw [mk hx hw, mk hw hx]
    rw [Except.ok.injEq] at e3 e4
    rw [eq_comm, decide_eq_false_iff_not, not_lt] at e1 e2 e3 e4
    exact ⟨by rw [decide_eq_false (not_lt.2 (by linarith))], by rw [decide_eq_false (not_lt.2 (by linarith))]⟩
  · intro a b ha hb
    obtain ⟨x, hx⟩ := (C18_defined_iff a).2 ha
    obtain ⟨y, hy⟩ := (C18_defined_iff b).2 hb
    exact ⟨_, mk hx hy⟩

example : VPos.OnScreen { line := some 3, lines := some 23, ref := some .topOfScreen } := by
  refine ⟨by simp, ?_⟩
  simp only [Option.some.injEq]
  rintro _ _ rfl rfl
  norm_num

example : VPos.lt { prop := some (1/10), ref := some .bottomOfScreen } { line := some 2, lines := some 24, ref := some .topOfScreen } = .ok false := by
  decide +kernel

/-! ### C19  equality of horizontal positions -/

/-- C19: reflexive. -/
theorem C19_refl (a : HPos) : a.eq a = true := by
  unfold HPos.eq
  simp only [sub_self, f32_zero, beq_self_eq_true, Bool.true_and, decide_eq_true_eq]
  decide +kernel

/-- C19: symmetric. -/
theorem C19_symm (a b : HPos) : a.eq b = b.eq a := by
  unfold HPos.eq
  have h : b.prop - a.prop = -(a.prop - b.prop) := by ring
  have e : absR (f32 (b.prop - a.prop)) = absR (f32 (a.prop - b.prop)) := by
    rw [h, f32, rnd_neg, absR_eq, absR_eq, abs_neg, f32]
  rw [e, Bool.beq_comm]

/-- C19: equal positions have the same reference. -/
theorem C19_ref (a b : HPos) (h : a.eq b = true) : a.ref = b.ref := by
  unfold HPos.eq at h
  simp only [Bool.and_eq_true, beq_iff_eq] at h
  exact h.1

/-- C19: with the same reference, positions are equal if their distance is below one 1998th of the screen and
different if it is above, up to rounding. -/
theorem C19_tolerance (a b : HPos) (hr : a.ref = b.ref) :
    (|a.prop - b.prop| ≤ 1 / 1998 - 1 / 2 ^ 30 → a.eq b = true) ∧ (1 / 1998 + 1 / 2 ^ 30 ≤ |a.prop - b.prop| → a.eq b = false) := by
  have h1 := f32_err (a.prop - b.prop)
  have h2 := f64_err (1 / 1998)
  rw [abs_of_pos (by norm_num : (0:ℚ) < 1 / 1998)] at h2
  rw [abs_le] at h2
  have h3 := abs_sub_abs_le_abs_sub (f32 (a.prop - b.prop)) (a.prop - b.prop)
  have h4 := abs_sub_abs_le_abs_sub (a.prop - b.prop) (f32 (a.prop - b.prop))
  rw [abs_sub_comm _ (f32 _)] at h4
  unfold HPos.eq
  rw [absR_eq, hr]
  simp only [beq_self_eq_true, Bool.true_and, decide_eq_true_eq, decide_eq_false_iff_not, not_lt]
  constructor
  · intro h
    have : |a.prop - b.prop| / 2 ^ 24 ≤ (1 / 1998) / 2 ^ 24 := by
      rw [div_le_div_iff_of_pos_right (by norm_num)]; linarith
    linarith
  · intro h
    have e : |a.prop - b.prop| * (1 - 1 / 2 ^ 24) = |a.prop - b.prop| - |a.prop - b.prop| / 2 ^ 24 := by ring
    have : (1 / 1998 + 1 / 2 ^ 30) * (1 - 1 / 2 ^ 24) ≤ |a.prop - b.prop| * (1 - 1 / 2 ^ 24) :=
      mul_le_mul_of_nonneg_right h (by norm_num)
    have k : (1 : ℚ) / 1998 + 1 / 1998 / 2 ^ 53 ≤ (1 / 1998 + 1 / 2 ^ 30) * (1 - 1 / 2 ^ 24) := by norm_num
    linarith

example : (⟨.left, 1/4⟩ : HPos).eq ⟨.left, 1/4 + 1/2500⟩ = true ∧ (⟨.left, 1/4⟩ : HPos).eq ⟨.left, 1/4 + 1/1500⟩ = false :=
  ⟨(C19_tolerance ⟨.left, 1/4⟩ ⟨.left, 1/4 + 1/2500⟩ rfl).1 (by decide +kernel), (C19_tolerance ⟨.left, 1/4⟩ ⟨.left, 1/4 + 1/1500⟩ rfl).2 (by decide +kernel)⟩

/-- C19: transitivity, in full. -/
def C19_transitive_statement : Prop := ∀ a b c : HPos, a.eq b = true → b.eq c = true → a.eq c = true

/-- C19: a tolerance is not transitive. -/
theorem C19_not_transitive : ¬ C19_transitive_statement := by
  intro h
  have := h ⟨.left, 0⟩ ⟨.left, 1 / 2048⟩ ⟨.left, 1 / 1024⟩ (by decide +kernel) (by decide +kernel)
  revert this
  decide +kernel

example : (⟨.left, 1/4⟩ : HPos).eq ⟨.left, 1/4 + 1/4096⟩ = true ∧ (⟨.left, 1/4⟩ : HPos).eq ⟨.left, 1/2⟩ = false ∧
    (⟨.left, 1/4⟩ : HPos).eq ⟨.right, 1/4⟩ = false := by decide +kernel

end LibSub
