/-
C125: what the arithmetic of `Time` gives, exactly.  Every step is stated as IEEE 754 rounding to 53 bits, with
rounding itself specified by nearness alone (Props/Rounding.lean), and every conversion to `int` by its value.
-/
import Verif.Props.Rounding
import Verif.Props.StlWriteExact
import Verif.Model.Time

namespace LibSub

/-! ### Specification -/

/-- `double` rounding. -/
abbrev Dbl (x r : ℚ) : Prop := RoundedTo 53 x r

/-- `a` divided by `b` is `q` with remainder `m`, both `q` and `m` as C++ has them, and the quotient an `int`. -/
def DividedBy (a b q m : Int) : Prop := a = b * q + m ∧ |m| < |b| ∧ 0 ≤ a * m ∧ InInt q

/-- The frames of `t` in frames of another rate. -/
def FramesIn (t : Time) (rate : FRate) (f : Int) : Prop :=
  ∃ (r : FRate) (a b c q : ℚ), t.rate = some r ∧ InInt (r.num * rate.den) ∧ r.num * rate.den ≠ 0 ∧
    Dbl t.frames a ∧ Dbl (a * r.den) b ∧ Dbl (b * rate.num) c ∧ Dbl (c / ((r.num * rate.den : Int) : ℚ)) q ∧ Nearest q f

/-- `t` in seconds, by way of whole milliseconds. -/
def SecondsOf (t : Time) (x : ℚ) : Prop :=
  ∃ (ms : Int) (a b : ℚ), FramesIn t ⟨1000, 1⟩ ms ∧ Dbl ms a ∧ Dbl (a / 1000) b ∧ Dbl (t.secs + b) x

/-- A frame rate as a `double`. -/
def RateOf (r : FRate) (v : ℚ) : Prop := r.den ≠ 0 ∧ Dbl ((r.num : ℚ) / r.den) v

/-- The time that is `f` frames of an integer rate. -/
def TimeOfFrames (f : Int) (rate : FRate) (t : Time) : Prop :=
  ∃ k, DividedBy rate.num rate.den k 0 ∧ DividedBy f k t.secs t.frames ∧ t.rate = some rate

/-- `t` is the sum of `a` and `b`: in frames of the faster of the two rates, without the fraction. -/
def SumOf (a b t : Time) : Prop :=
  ∃ (ra rb rr : FRate) (va vb vr x y s p : ℚ) (n : Int), a.rate = some ra ∧ b.rate = some rb ∧ RateOf ra va ∧ RateOf rb vb ∧
    (vb < va ∧ rr = ra ∧ vr = va ∨ va ≤ vb ∧ rr = rb ∧ vr = vb) ∧ SecondsOf a x ∧ SecondsOf b y ∧
    Dbl (x + y) s ∧ Dbl (s * vr) p ∧ WithoutFraction p n ∧ TimeOfFrames n rr t

/-- `u` is `t` times `f`: whole seconds from below, and the rest in frames, to the nearest. -/
def ScaledBy (t : Time) (f : ℚ) (u : Time) : Prop :=
  ∃ (r : FRate) (k : Int) (x s d v g : ℚ), t.rate = some r ∧ u.rate = some r ∧ DividedBy r.num r.den k 0 ∧ SecondsOf t x ∧ Dbl (x * f) s ∧
    (u.secs : ℚ) ≤ s ∧ s < u.secs + 1 ∧ InInt u.secs ∧ Dbl (s - u.secs) d ∧ RateOf r v ∧ Dbl (d * v) g ∧ Nearest g u.frames

/-! ### Proofs -/

private theorem f64_iff (x r : ℚ) : f64 x = r ↔ Dbl x r := rnd_iff (by norm_num) x r

private theorem dbl_f64 (x : ℚ) : Dbl x (f64 x) := (f64_iff x _).1 rfl

private theorem dividedBy_iff (a b q m : Int) : DividedBy a b q m ↔ b ≠ 0 ∧ InInt (a.tdiv b) ∧ q = a.tdiv b ∧ m = a.tmod b := by
  have e := Int.mul_tdiv_add_tmod a b
  have pos : ∀ a' : Int, 0 ≤ a' → b ≠ 0 → ∀ q m : Int, (a' = b * q + m ∧ |m| < |b| ∧ 0 ≤ m) ↔ (q = a'.tdiv b ∧ m = a'.tmod b) := by
    intro a' h hb q m
    have := Int.tdiv_tmod_unique (r := m) (q := q) h hb
    rw [eq_comm (a := q), eq_comm (a := m), this]
    constructor
    · rintro ⟨h1, h2, h3⟩
      rw [abs_of_nonneg h3, Int.abs_eq_natAbs] at h2
      exact ⟨by omega, h3, h2⟩
    · rintro ⟨h1, h2, h3⟩
      rw [abs_of_nonneg h2, Int.abs_eq_natAbs]
      exact ⟨by omega, h3, h2⟩
  constructor
  · rintro ⟨h1, h2, h3, h4⟩
    have hb : b ≠ 0 := by
      rintro rfl
      rw [abs_zero] at h2
      exact absurd h2 (not_lt.2 (abs_nonneg m))
    rcases lt_trichotomy a 0 with c | c | c
    · have hm : m ≤ 0 := by
        by_contra hn
        push Not at hn
        have := mul_neg_of_neg_of_pos c hn
        omega
      have := (pos (-a) (by omega) hb (-q) (-m)).1 ⟨by rw [h1]; ring, by rwa [abs_neg], by omega⟩
      rw [Int.neg_tdiv a b, Int.neg_tmod a b] at this
      obtain ⟨t1, t2⟩ := this
      have t1 : q = a.tdiv b := by omega
      exact ⟨hb, t1 ▸ h4, t1, by omega⟩
    · subst c
      have hz : b * q = -m := by omega
      have hq : q = 0 := by
        by_contra hq
        have : |b| ≤ |b * q| := by
          rw [abs_mul]
          have := Int.one_le_abs hq
          have := abs_nonneg b
          nlinarith
        rw [hz, abs_neg] at this
        omega
      subst hq
      refine ⟨hb, by simpa using h4, by simp, ?_⟩
      simp at hz ⊢
      omega
    · have hm : 0 ≤ m := by
        by_contra hn
        push Not at hn
        have := mul_neg_of_pos_of_neg c hn
        omega
      obtain ⟨t1, t2⟩ := (pos a c.le hb q m).1 ⟨h1, h2, hm⟩
      exact ⟨hb, t1 ▸ h4, t1, t2⟩
  · rintro ⟨hb, h4, rfl, rfl⟩
    refine ⟨e.symm, ?_, ?_, h4⟩
    · rcases le_total 0 a with c | c
      · exact ((pos a c hb _ _).2 ⟨rfl, rfl⟩).2.1
      · have := ((pos (-a) (by omega) hb _ _).2 ⟨rfl, rfl⟩).2.1
        rwa [Int.neg_tmod a b, abs_neg] at this
    · rcases le_total 0 a with c | c
      · exact mul_nonneg c ((pos a c hb _ _).2 ⟨rfl, rfl⟩).2.2
      · have := ((pos (-a) (by omega) hb _ _).2 ⟨rfl, rfl⟩).2.2
        rw [Int.neg_tmod a b] at this
        exact mul_nonneg_of_nonpos_of_nonpos c (by omega)

private theorem cdiv_iff (a b q : Int) : cdiv a b = .ok q ↔ b ≠ 0 ∧ InInt (a.tdiv b) ∧ q = a.tdiv b := by
  unfold cdiv
  constructor
  · intro h
    rcases ite_cases h with ⟨e, h⟩ | ⟨e, h⟩
    · cases h
    · obtain ⟨h1, h2⟩ := ck_eq_ok.1 h
      exact ⟨e, h1, h2.symm⟩
  · rintro ⟨h, h1, rfl⟩; rw [if_neg h]; exact ck_eq_ok.2 ⟨h1, rfl⟩

private theorem cmod_iff (a b m : Int) : cmod a b = .ok m ↔ b ≠ 0 ∧ InInt (a.tdiv b) ∧ m = a.tmod b := by
  unfold cmod
  constructor
  · intro h
    rcases ite_cases h with ⟨e, h⟩ | ⟨e, h⟩
    · cases h
    · rcases ite_cases h with ⟨e', h⟩ | ⟨e', h⟩
      · cases h; exact ⟨e, e', rfl⟩
      · cases h
  · rintro ⟨h, h1, rfl⟩; rw [if_neg h, if_pos h1]

private theorem integer_iff (r : FRate) (k : Int) : (r.integer = .ok true ∧ r.integerFraction = .ok k) ↔ DividedBy r.num r.den k 0 := by
  rw [dividedBy_iff, FRate.integerFraction, cdiv_iff]
  unfold FRate.integer
  constructor
  · rintro ⟨h, h1, h2, h3⟩
    obtain ⟨m, hm, h⟩ := bind_eq_ok.1 h
    obtain ⟨-, -, rfl⟩ := (cmod_iff _ _ _).1 hm
    cases hz : (r.num.tmod r.den == 0) with
    | false => rw [hz] at h; cases h
    | true => exact ⟨h1, h2, h3, (beq_iff_eq.1 hz).symm⟩
  · rintro ⟨h1, h2, h3, h4⟩
    refine ⟨?_, h1, h2, h3⟩
    rw [(cmod_iff _ _ _).2 ⟨h1, h2, h4⟩]
    rfl

private theorem framesIn_iff (t : Time) (rate : FRate) (f : Int) : t.framesAt rate = .ok f ↔ FramesIn t rate f := by
  unfold Time.framesAt FramesIn
  cases hr : t.rate with
  | none => simp
  | some r =>
    simp only []
    constructor
    · intro h
      obtain ⟨d, hd, h⟩ := bind_eq_ok.1 h
      obtain ⟨q, hq, h⟩ := bind_eq_ok.1 h
      obtain ⟨hi, rfl⟩ := ck_eq_ok.1 hd
      obtain ⟨h0, rfl⟩ := (fdiv_ok_iff _ _ _).1 hq
      exact ⟨r, _, _, _, _, rfl, hi, by exact_mod_cast h0, dbl_f64 _, dbl_f64 _, dbl_f64 _, dbl_f64 _, (nearest_iff _ _).1 h⟩
    · rintro ⟨r', a, b, c, q, e, hi, h0, h1, h2, h3, h4, hn⟩
      cases e
      rw [← f64_iff] at h1 h2 h3 h4
      subst h1 h2 h3 h4
      rw [ck_eq_ok.2 ⟨hi, rfl⟩, ok_bind, (fdiv_ok_iff _ _ _).2 ⟨by exact_mod_cast h0, rfl⟩, ok_bind]
      exact (nearest_iff _ _).2 hn

private theorem secondsOf_iff (t : Time) (x : ℚ) : t.allAsSeconds = .ok x ↔ SecondsOf t x := by
  unfold Time.allAsSeconds Time.milliseconds SecondsOf
  constructor
  · intro h
    obtain ⟨ms, hm, h⟩ := bind_eq_ok.1 h
    cases h
    exact ⟨ms, _, _, (framesIn_iff _ _ _).1 hm, dbl_f64 _, dbl_f64 _, dbl_f64 _⟩
  · rintro ⟨ms, a, b, h, h1, h2, h3⟩
    rw [← f64_iff] at h1 h2 h3
    subst h1 h2 h3
    rw [(framesIn_iff _ _ _).2 h]
    rfl

private theorem rateOf_iff (r : FRate) (v : ℚ) : r.fraction = .ok v ↔ RateOf r v := by
  unfold FRate.fraction RateOf
  constructor
  · intro h
    obtain ⟨q, hq, h⟩ := bind_eq_ok.1 h
    cases h
    obtain ⟨h0, rfl⟩ := (fdiv_ok_iff _ _ _).1 hq
    exact ⟨by exact_mod_cast h0, dbl_f64 _⟩
  · rintro ⟨h0, h⟩
    rw [← f64_iff] at h
    subst h
    rw [(fdiv_ok_iff _ _ _).2 ⟨by exact_mod_cast h0, rfl⟩]
    rfl

private theorem asserted {α : Type} {c : Bool} {f : Unit → R α} {x : α} : (subAssert c >>= f) = .ok x ↔ c = true ∧ f () = .ok x := by
  cases c
  · constructor
    · intro h; cases h
    · rintro ⟨h, -⟩; cases h
  · simp [subAssert]

private theorem timeOfFrames_iff (f : Int) (rate : FRate) (t : Time) : Time.fromFrames f rate = .ok t ↔ TimeOfFrames f rate t := by
  unfold Time.fromFrames TimeOfFrames
  rw [asserted]
  constructor
  · rintro ⟨h0, h⟩
    obtain ⟨i, hi, h⟩ := bind_eq_ok.1 h
    obtain ⟨rfl, h1⟩ := asserted.1 h
    clear h
    have h := h1
    obtain ⟨k, hk, h⟩ := bind_eq_ok.1 h
    obtain ⟨s, hs, h⟩ := bind_eq_ok.1 h
    obtain ⟨m, hm, h⟩ := bind_eq_ok.1 h
    cases h
    obtain ⟨a1, a2, a3⟩ := (cdiv_iff _ _ _).1 hs
    obtain ⟨-, -, a4⟩ := (cmod_iff _ _ _).1 hm
    exact ⟨k, (integer_iff _ _).1 ⟨hi, hk⟩, (dividedBy_iff _ _ _ _).2 ⟨a1, a2, a3, a4⟩, rfl⟩
  · rintro ⟨k, h1, h2, h3⟩
    obtain ⟨hi, hk⟩ := (integer_iff _ _).2 h1
    obtain ⟨a1, a2, a3, a4⟩ := (dividedBy_iff _ _ _ _).1 h2
    have h0 := ((dividedBy_iff _ _ _ _).1 h1).1
    refine ⟨by simpa using h0, ?_⟩
    rw [hi, ok_bind, asserted]
    refine ⟨rfl, ?_⟩
    rw [hk, ok_bind, (cdiv_iff _ _ _).2 ⟨a1, a2, a3⟩, ok_bind, (cmod_iff _ _ _).2 ⟨a1, a2, a4⟩, ok_bind]
    cases t
    cases h3
    rfl

private theorem sumOf_iff (a b t : Time) : a.add b = .ok t ↔ SumOf a b t := by
  unfold Time.add SumOf
  cases ha : a.rate with
  | none => simp
  | some ra =>
    cases hb : b.rate with
    | none => simp
    | some rb =>
      simp only []
      constructor
      · intro h
        obtain ⟨rr, hr, h⟩ := bind_eq_ok.1 h
        obtain ⟨x, hx, h⟩ := bind_eq_ok.1 h
        obtain ⟨y, hy, h⟩ := bind_eq_ok.1 h
        obtain ⟨vr, hv, h⟩ := bind_eq_ok.1 h
        obtain ⟨n, hn, h⟩ := bind_eq_ok.1 h
        unfold FRate.max at hr
        obtain ⟨va, hva, hr⟩ := bind_eq_ok.1 hr
        obtain ⟨vb, hvb, hr⟩ := bind_eq_ok.1 hr
        have hr : (if va > vb then ra else rb) = rr := Except.ok.inj hr
        refine ⟨ra, rb, rr, va, vb, vr, x, y, _, _, n, rfl, rfl, (rateOf_iff _ _).1 hva, (rateOf_iff _ _).1 hvb, ?_, (secondsOf_iff _ _).1 hx,
          (secondsOf_iff _ _).1 hy, dbl_f64 _, dbl_f64 _, (trunc_iff _ _).1 hn, (timeOfFrames_iff _ _ _).1 h⟩
        rcases ite_cases hr with ⟨e, rfl⟩ | ⟨e, rfl⟩
        · exact .inl ⟨e, rfl, Except.ok.inj (hv.symm.trans hva)⟩
        · exact .inr ⟨not_lt.1 e, rfl, Except.ok.inj (hv.symm.trans hvb)⟩
      · rintro ⟨ra', rb', rr, va, vb, vr, x, y, s, p, n, e1, e2, hva, hvb, hr, hx, hy, hs, hp, hn, h⟩
        cases e1
        cases e2
        rw [← rateOf_iff] at hva hvb
        rw [← f64_iff] at hs hp
        subst hs hp
        have hmax : FRate.max ra rb = .ok rr := by
          unfold FRate.max
          rw [hva, ok_bind, hvb, ok_bind]
          rcases hr with ⟨c, rfl, -⟩ | ⟨c, rfl, -⟩
          · rw [if_pos c]; rfl
          · rw [if_neg (not_lt.2 c)]; rfl
        have hv : rr.fraction = .ok vr := by
          rcases hr with ⟨-, rfl, rfl⟩ | ⟨-, rfl, rfl⟩
          · exact hva
          · exact hvb
        rw [hmax, ok_bind, (secondsOf_iff _ _).2 hx, ok_bind, (secondsOf_iff _ _).2 hy, ok_bind, hv, ok_bind, (trunc_iff _ _).2 hn, ok_bind]
        exact (timeOfFrames_iff _ _ _).2 h

private theorem floor_iff (s : ℚ) (n : Int) : toInt (s.floor : ℚ) = .ok n ↔ (n : ℚ) ≤ s ∧ s < n + 1 ∧ InInt n := by
  unfold toInt
  rw [truncR_int]
  constructor
  · intro h
    rcases ite_cases h with ⟨e, h⟩ | ⟨e, h⟩
    · cases h; exact ⟨floor_le s, lt_floor_add_one s, e⟩
    · cases h
  · rintro ⟨h1, h2, h3⟩
    rw [floor_unique h1 h2, if_pos h3]

private theorem scaledBy_iff (t : Time) (f : ℚ) (u : Time) : t.scale f = .ok u ↔ ScaledBy t f u := by
  unfold Time.scale ScaledBy
  cases hr : t.rate with
  | none => simp
  | some r =>
    simp only []
    rw [asserted]
    constructor
    · rintro ⟨h0, h⟩
      obtain ⟨i, hi, h⟩ := bind_eq_ok.1 h
      obtain ⟨rfl, h1⟩ := asserted.1 h
      clear h
      have h := h1
      obtain ⟨x, hx, h⟩ := bind_eq_ok.1 h
      obtain ⟨n, hn, h⟩ := bind_eq_ok.1 h
      obtain ⟨v, hv, h⟩ := bind_eq_ok.1 h
      obtain ⟨m, hm, h⟩ := bind_eq_ok.1 h
      cases h
      obtain ⟨f1, f2, f3⟩ := (floor_iff _ _).1 hn
      have hk : r.integerFraction = .ok (r.num.tdiv r.den) := by
        obtain ⟨m', hm', -⟩ := bind_eq_ok.1 hi
        obtain ⟨a1, a2, -⟩ := (cmod_iff _ _ _).1 hm'
        exact (cdiv_iff _ _ _).2 ⟨a1, a2, rfl⟩
      exact ⟨r, _, x, _, _, v, _, rfl, rfl, (integer_iff _ _).1 ⟨hi, hk⟩, (secondsOf_iff _ _).1 hx, dbl_f64 _, f1, f2, f3, dbl_f64 _, (rateOf_iff _ _).1 hv, dbl_f64 _,
        (nearest_iff _ _).1 hm⟩
    · rintro ⟨r', k, x, s, d, v, g, e, hu, hk, hx, hs, f1, f2, f3, hd, hv, hg, hn⟩
      cases e
      rw [← f64_iff] at hs hd hg
      subst hs hd hg
      have h0 := ((dividedBy_iff _ _ _ _).1 hk).1
      refine ⟨by simpa using h0, ?_⟩
      rw [((integer_iff _ _).2 hk).1, ok_bind, asserted]
      refine ⟨rfl, ?_⟩
      rw [(secondsOf_iff _ _).2 hx, ok_bind, (floor_iff _ _).2 ⟨f1, f2, f3⟩, ok_bind, (rateOf_iff _ _).2 hv, ok_bind, (nearest_iff _ _).2 hn, ok_bind]
      cases u
      cases hu
      rfl

/-! ### Theorems -/

/-- C125: the rounding the whole model is built on is rounding to the nearest number of the format, ties to even. -/
theorem C125_rounding (x r : ℚ) : (f32 x = r ↔ RoundedTo 24 x r) ∧ (f64 x = r ↔ RoundedTo 53 x r) :=
  ⟨rnd_iff (by norm_num) x r, rnd_iff (by norm_num) x r⟩

/-- One third is no `float`, and what it becomes is a little more than it. -/
example : f32 (1 / 3) = 11184811 / 2 ^ 25 ∧ (1 : ℚ) / 3 < 11184811 / 2 ^ 25 ∧ f32 (2 ^ 24 + 1) = 2 ^ 24 ∧ f32 (2 ^ 24 + 3) = 2 ^ 24 + 4 := by
  refine ⟨by decide +kernel, by norm_num, by decide +kernel, by decide +kernel⟩

/-- C125: `frames_at`. -/
theorem C125_frames (t : Time) (rate : FRate) (f : Int) : t.framesAt rate = .ok f ↔ FramesIn t rate f := framesIn_iff t rate f

example : FramesIn ⟨7, 12, some ⟨24, 1⟩⟩ ⟨25, 1⟩ 12 ∧ ¬ FramesIn ⟨7, 12, some ⟨24, 1⟩⟩ ⟨25, 1⟩ 13 := by
  constructor
  · exact (C125_frames _ _ _).1 (by decide +kernel)
  · intro h; exact absurd ((C125_frames _ _ _).2 h) (by decide +kernel)

/-- C125: `all_as_seconds`. -/
theorem C125_seconds (t : Time) (x : ℚ) : t.allAsSeconds = .ok x ↔ SecondsOf t x := secondsOf_iff t x

example : SecondsOf ⟨7, 12, some ⟨24, 1⟩⟩ (15 / 2) := (C125_seconds _ _).1 (by decide +kernel)

/-- C125: `from_frames`. -/
theorem C125_from_frames (f : Int) (rate : FRate) (t : Time) : Time.fromFrames f rate = .ok t ↔ TimeOfFrames f rate t := timeOfFrames_iff f rate t

example : TimeOfFrames 61 ⟨50, 2⟩ ⟨2, 11, some ⟨50, 2⟩⟩ ∧ TimeOfFrames (-61) ⟨25, 1⟩ ⟨-2, -11, some ⟨25, 1⟩⟩ :=
  by
  refine ⟨⟨25, ?_, ?_, rfl⟩, ⟨25, ?_, ?_, rfl⟩⟩ <;> simp [DividedBy, InInt]

/-- C125: `add`. -/
theorem C125_add (a b t : Time) : a.add b = .ok t ↔ SumOf a b t := sumOf_iff a b t

/-- A half second at 24 frames per second and two frames at 25. -/
example : SumOf ⟨1, 12, some ⟨24, 1⟩⟩ ⟨2, 2, some ⟨25, 1⟩⟩ ⟨3, 14, some ⟨25, 1⟩⟩ := (C125_add _ _ _).1 (by decide +kernel)

/-- C125: `scale`. -/
theorem C125_scale (t : Time) (f : ℚ) (u : Time) : t.scale f = .ok u ↔ ScaledBy t f u := scaledBy_iff t f u

example : ScaledBy ⟨7, 12, some ⟨24, 1⟩⟩ (1 / 2) ⟨3, 18, some ⟨24, 1⟩⟩ := (C125_scale _ _ _).1 (by decide +kernel)

end LibSub
