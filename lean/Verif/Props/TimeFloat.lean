/-
Properties C06–C10 of times: conversions that go through `double` arithmetic.
-/
import Verif.Lemmas.Time

namespace LibSub

/-- The exact, real-valued number of frames at rate `target` in `frames` frames at rate `r`. -/
def exactFrames (frames : Int) (r target : FRate) : ℚ := (frames : ℚ) * ((target.num : ℚ) / target.den) / ((r.num : ℚ) / r.den)

/-- What `frames_at` computes: a number within a relative error of 4·2⁻⁵³ of the exact one, rounded to
the nearest integer. -/
theorem framesAt_spec (t : Time) (r target : FRate) (hr : t.rate = some r) (hF : InInt t.frames)
    (hn : r.num ≠ 0) (hd : target.den ≠ 0) (hD : InInt (r.num * target.den)) :
    ∃ q : ℚ, t.framesAt target = toInt (rint q) ∧
      |q - exactFrames t.frames r target| ≤ |exactFrames t.frames r target| * (4 * eps) := by
  refine ⟨f64 (f64 (f64 ((t.frames : ℚ) * r.den) * target.num) / ((r.num * target.den : Int) : ℚ)), ?_, ?_⟩
  · have h0 : ((r.num * target.den : Int) : ℚ) ≠ 0 := by
      exact_mod_cast mul_ne_zero hn hd
    simp only [Time.framesAt, hr, ck_ok hD, ok_bind, fdiv, h0, if_false, f64_of_inInt hF]
  · have h := framesAt_err (t.frames : ℚ) (r.den : ℚ) (target.num : ℚ) ((r.num * target.den : Int) : ℚ)
    have e : exactFrames t.frames r target = (t.frames : ℚ) * r.den * target.num / ((r.num * target.den : Int) : ℚ) := by
      unfold exactFrames
      have a : (r.num : ℚ) ≠ 0 := by exact_mod_cast hn
      have b : (target.den : ℚ) ≠ 0 := by exact_mod_cast hd
      push_cast
      by_cases c : (r.den : ℚ) = 0
      · rw [c]; simp
      · field_simp
    rw [e]; exact h

/-! ### C06  own rate -/

/-- C06: asking a time for its frame number at its own rate gives it back exactly, for every frame number. -/
theorem C06_own_rate (t : Time) (r : FRate) (hr : t.rate = some r) (hF : InInt t.frames) (hn : r.num ≠ 0)
    (hd : r.den ≠ 0) (hD : InInt (r.num * r.den)) : t.framesAt r = .ok t.frames := by
  obtain ⟨q, h1, h2⟩ := framesAt_spec t r r hr hF hn hd hD
  have e : exactFrames t.frames r r = t.frames := by
    unfold exactFrames
    have a : (r.num : ℚ) ≠ 0 := by exact_mod_cast hn
    have b : (r.den : ℚ) ≠ 0 := by exact_mod_cast hd
    field_simp
  rw [e] at h2
  have hb : |(t.frames : ℚ)| ≤ 2147483648 := by
    unfold InInt at hF
    rw [abs_le]
    constructor
    · have : ((-2147483648 : Int) : ℚ) ≤ t.frames := by exact_mod_cast hF.1
      push_cast at this; linarith
    · have : (t.frames : ℚ) ≤ ((2147483647 : Int) : ℚ) := by exact_mod_cast hF.2
      push_cast at this; linarith
  have : rint q = t.frames := by
    apply rint_unique
    refine lt_of_le_of_lt h2 ?_
    unfold eps
    nlinarith
  rw [h1, this, toInt_int hF]

example : (⟨7, 29, some ⟨30000, 1001⟩⟩ : Time).framesAt ⟨30000, 1001⟩ = .ok 29 :=
  C06_own_rate _ _ rfl (by decide) (by decide) (by decide) (by decide)

/-- C06: `milliseconds ()` of a time made by `from_hms` is the number of milliseconds given. -/
theorem C06_fromHms_milliseconds (h m s ms : Int) (hms : InInt ms) (t : Time) (ht : Time.fromHms h m s ms = .ok t) :
    t.milliseconds = .ok ms := by
  unfold Time.fromHms at ht
  rw [bind_eq_ok] at ht
  obtain ⟨x, _, hx⟩ := ht
  simp only [pure_eq_ok, Except.ok.injEq] at hx
  subst hx
  exact C06_own_rate ⟨x, ms, some ⟨1000, 1⟩⟩ ⟨1000, 1⟩ rfl hms (by decide) (by decide) (by decide)

example : ∃ t, Time.fromHms 1 2 3 999 = .ok t := ⟨⟨3723, 999, some ⟨1000, 1⟩⟩, by decide +kernel⟩

/-! ### C07  frames to milliseconds and back -/

/-- C07: for an integer frame rate below 1000 (however written, e.g. 25/1 or 50/2) a frame number converted
to milliseconds and back is unchanged. -/
theorem C07_milliseconds_round_trip (t : Time) (r : FRate) (k : Int) (hr : t.rate = some r) (hF : InInt t.frames)
    (hd : 0 < r.den) (hk : r.num = k * r.den) (k1 : 1 ≤ k) (k2 : k ≤ 999) (hD : 1000 * r.den ≤ 2147483647)
    (hfit : 1000 * |t.frames| ≤ 2147483646 * k) (secs : Int) :
    ∃ ms, t.milliseconds = .ok ms ∧ (⟨secs, ms, some ⟨1000, 1⟩⟩ : Time).framesAt r = .ok t.frames := by
  have hd0 : r.den ≠ 0 := hd.ne'
  have hn0 : r.num ≠ 0 := by rw [hk]; exact mul_ne_zero (by omega) hd0
  have hnD : InInt (r.num * 1) := by
    unfold InInt; rw [hk]; constructor <;> nlinarith
  obtain ⟨q, h1, h2⟩ := framesAt_spec t r ⟨1000, 1⟩ hr hF hn0 (by decide) hnD
  have dq : (0 : ℚ) < r.den := by exact_mod_cast hd
  have kq1 : (1 : ℚ) ≤ k := by exact_mod_cast k1
  have kq2 : (k : ℚ) ≤ 999 := by exact_mod_cast k2
  have e1 : exactFrames t.frames r ⟨1000, 1⟩ = 1000 * t.frames / k := by
    unfold exactFrames
    rw [hk]; push_cast
    field_simp
  rw [e1] at h2
  -- size of the exact number of milliseconds
  have hx : |(1000 * t.frames / k : ℚ)| ≤ 2147483646 := by
    rw [abs_div, abs_mul, abs_of_pos (by linarith : (0 : ℚ) < k), div_le_iff₀ (by linarith)]
    have : ((1000 * |t.frames| : Int) : ℚ) ≤ ((2147483646 * k : Int) : ℚ) := by exact_mod_cast hfit
    push_cast at this
    simpa using this
  have hq : |q - 1000 * t.frames / k| ≤ 1 / 1000000 := by
    refine le_trans h2 ?_
    unfold eps
    nlinarith
  have hms := abs_rint_sub_le q
  rw [abs_le] at hx hq hms
  have hmsq : |((rint q : Int) : ℚ) - 1000 * t.frames / k| ≤ 1 / 2 + 1 / 1000000 := by
    rw [abs_le]; constructor <;> linarith
  have hInt : InInt (rint q) := by
    rw [abs_le] at hmsq
    have a : ((-2147483648 : Int) : ℚ) ≤ (rint q : ℚ) := by push_cast; linarith
    have b : (rint q : ℚ) < ((2147483648 : Int) : ℚ) := by push_cast; linarith
    have a : -2147483648 ≤ rint q := by exact_mod_cast a
    have b : rint q < 2147483648 := by exact_mod_cast b
    unfold InInt; omega
  refine ⟨rint q, by unfold Time.milliseconds; rw [h1, toInt_int hInt], ?_⟩
  obtain ⟨q', h3, h4⟩ := framesAt_spec ⟨secs, rint q, some ⟨1000, 1⟩⟩ ⟨1000, 1⟩ r rfl hInt (by decide) hd0
    (by unfold InInt; dsimp only; omega)
  have e2 : exactFrames (rint q) ⟨1000, 1⟩ r = rint q * k / 1000 := by
    unfold exactFrames
    rw [hk]; push_cast
    field_simp
  rw [e2] at h4
  -- the exact frame count is within 0.4996 of the original frame
  have hy : |((rint q : ℚ) * k / 1000) - t.frames| ≤ 49961 / 100000 := by
    have : ((rint q : ℚ) * k / 1000) - t.frames = ((rint q : ℚ) - 1000 * t.frames / k) * (k / 1000) := by
      have : (k : ℚ) ≠ 0 := by linarith
      field_simp
    rw [this, abs_mul, abs_of_pos (by linarith : (0 : ℚ) < k / 1000)]
    have h0 := abs_nonneg ((rint q : ℚ) - 1000 * t.frames / k)
    nlinarith
  have hFq : |(t.frames : ℚ)| ≤ 2147483648 := by
    unfold InInt at hF
    rw [abs_le]
    constructor
    · have : ((-2147483648 : Int) : ℚ) ≤ t.frames := by exact_mod_cast hF.1
      push_cast at this; linarith
    · have : (t.frames : ℚ) ≤ ((2147483647 : Int) : ℚ) := by exact_mod_cast hF.2
      push_cast at this; linarith
  have hy2 : |(rint q : ℚ) * k / 1000| ≤ 2147483649 := by
    have := abs_sub_abs_le_abs_sub ((rint q : ℚ) * k / 1000) (t.frames : ℚ)
    linarith
  have : rint q' = t.frames := by
    apply rint_unique
    have h5 : |q' - (rint q : ℚ) * k / 1000| ≤ 1 / 100000 := by
      refine le_trans h4 ?_
      unfold eps
      nlinarith [abs_nonneg ((rint q : ℚ) * k / 1000)]
    have := abs_add_le (q' - (rint q : ℚ) * k / 1000) ((rint q : ℚ) * k / 1000 - t.frames)
    rw [sub_add_sub_cancel] at this
    linarith
  rw [h3, this, toInt_int hF]

example : ∃ ms, (⟨12, 23, some ⟨48, 2⟩⟩ : Time).milliseconds = .ok ms ∧
    (⟨12, ms, some ⟨1000, 1⟩⟩ : Time).framesAt ⟨48, 2⟩ = .ok 23 :=
  C07_milliseconds_round_trip _ _ 24 rfl (by decide) (by decide) (by decide) (by decide) (by decide) (by decide) (by decide) _

/-- The bound on the rate matters: at 2000 fps two different frames become the same millisecond. -/
theorem C07_bound_needed : ∃ ms, (⟨0, 500, some ⟨2000, 1⟩⟩ : Time).framesAt ⟨1000, 1⟩ = .ok ms ∧
    (⟨0, 501, some ⟨2000, 1⟩⟩ : Time).framesAt ⟨1000, 1⟩ = .ok ms := ⟨250, by decide +kernel⟩

/-! ### C08  conversion error and monotonicity -/

/-- C08: a converted frame number is within half a frame (plus the relative `double` error) of the exact value. -/
theorem C08_half_frame (t : Time) (r target : FRate) (n : Int) (hr : t.rate = some r) (hF : InInt t.frames)
    (hn : r.num ≠ 0) (hd : target.den ≠ 0) (hD : InInt (r.num * target.den)) (h : t.framesAt target = .ok n) :
    |(n : ℚ) - exactFrames t.frames r target| ≤ 1 / 2 + |exactFrames t.frames r target| / 2 ^ 51 := by
  obtain ⟨q, h1, h2⟩ := framesAt_spec t r target hr hF hn hd hD
  rw [h1] at h
  have hn : rint q = n := by
    unfold toInt at h
    rw [truncR_int] at h
    split at h
    · injection h
    · cases h
  have h3 := abs_rint_sub_le q
  rw [hn] at h3
  have := abs_add_le ((n : ℚ) - q) (q - exactFrames t.frames r target)
  rw [sub_add_sub_cancel] at this
  have e : |exactFrames t.frames r target| * (4 * eps) = |exactFrames t.frames r target| / 2 ^ 51 := by
    unfold eps; ring
  linarith

example : (⟨0, 29, some ⟨30000, 1001⟩⟩ : Time).framesAt ⟨25, 1⟩ = .ok 24 := by decide +kernel

/-- C08: conversion is monotone in the frame number. -/
theorem C08_monotone (t u : Time) (r target : FRate) (m n : Int) (ht : t.rate = some r) (hu : u.rate = some r)
    (hn : 0 < r.num) (hd : 0 ≤ r.den) (hn' : 0 ≤ target.num) (hd' : 0 < target.den)
    (hle : t.frames ≤ u.frames) (h1 : t.framesAt target = .ok m) (h2 : u.framesAt target = .ok n) : m ≤ n := by
  simp only [Time.framesAt, ht, hu, bind_eq_ok, ck_eq_ok] at h1 h2
  obtain ⟨D, ⟨hD, rfl⟩, q1, hq1, h1⟩ := h1
  obtain ⟨D', ⟨_, rfl⟩, q2, hq2, h2⟩ := h2
  have Dpos : (0 : ℚ) < ((r.num * target.den : Int) : ℚ) := by exact_mod_cast mul_pos hn hd'
  unfold fdiv at hq1 hq2
  rw [if_neg Dpos.ne'] at hq1 hq2
  injection hq1 with hq1
  injection hq2 with hq2
  have a1 : f64 (t.frames : ℚ) ≤ f64 (u.frames : ℚ) := f64_mono (by exact_mod_cast hle)
  have dn : (0 : ℚ) ≤ r.den := by exact_mod_cast hd
  have nn : (0 : ℚ) ≤ target.num := by exact_mod_cast hn'
  have a2 : q1 ≤ q2 := by
    rw [← hq1, ← hq2]
    apply div_le_div_of_nonneg_right _ Dpos.le
    apply f64_mono
    apply mul_le_mul_of_nonneg_right _ nn
    apply f64_mono
    exact mul_le_mul_of_nonneg_right a1 dn
  have a3 : rint (f64 q1) ≤ rint (f64 q2) := rint_mono (f64_mono a2)
  unfold toInt at h1 h2
  rw [truncR_int] at h1 h2
  split at h1 <;> split at h2 <;> cases h1
  · injection h2 with h2; rw [← h2]; exact a3
  · cases h2

example : (⟨0, 998, some ⟨1000, 1⟩⟩ : Time).framesAt ⟨24, 1⟩ = .ok 24 ∧ (⟨0, 979, some ⟨1000, 1⟩⟩ : Time).framesAt ⟨24, 1⟩ = .ok 23 := by
  decide +kernel

/-- C08: there is no carry into the seconds; a frame number equal to the rate can come out. -/
theorem C08_no_carry_witness : (⟨0, 999, some ⟨1000, 1⟩⟩ : Time).framesAt ⟨25, 1⟩ = .ok 25 := by decide +kernel

/-! ### C09  add -/

/-- A duration in seconds as `all_as_seconds` means it: whole seconds and milliseconds. -/
def secsMs (s ms : Int) : ℚ := s + (ms : ℚ) / 1000

private theorem allAsSeconds_spec (t : Time) (ms : Int) (hs : 0 ≤ t.secs) (h0 : 0 ≤ ms) (hi : InInt ms)
    (h : t.milliseconds = .ok ms) :
    ∃ x : ℚ, t.allAsSeconds = .ok x ∧ |x - secsMs t.secs ms| ≤ secsMs t.secs ms * (2 * eps + eps * eps) ∧ 0 ≤ x := by
  have hsq : (0 : ℚ) ≤ t.secs := by exact_mod_cast hs
  have hmq : (0 : ℚ) ≤ ms := by exact_mod_cast h0
  have hA : 0 ≤ secsMs t.secs ms := by unfold secsMs; positivity
  refine ⟨f64 (t.secs + f64 ((ms : ℚ) / 1000)), ?_, ?_, ?_⟩
  · simp [Time.allAsSeconds, h, f64_of_inInt hi]
  · have h1 := f64_rel ((ms : ℚ) / 1000)
    have h2 : |((t.secs : ℚ) + f64 ((ms : ℚ) / 1000)) - secsMs t.secs ms| ≤ |secsMs t.secs ms| * eps := by
      unfold secsMs at *
      rw [add_sub_add_left_eq_sub]
      refine le_trans h1 ?_
      have he : 0 ≤ eps := by unfold eps; positivity
      apply mul_le_mul_of_nonneg_right _ he
      rw [abs_of_nonneg (by positivity), abs_of_nonneg hA]
      linarith
    have h3 := f64_chain h2
    rw [abs_of_nonneg hA] at h3
    refine le_trans h3 (le_of_eq (by ring))
  · exact rnd_nonneg (add_nonneg hsq (rnd_nonneg (by positivity)))

/-- The frame rate as a real number. -/
def FRate.value (r : FRate) : ℚ := (r.num : ℚ) / r.den

private theorem fromFrames_ok {n : Int} {rate : FRate} {t : Time} (h : Time.fromFrames n rate = .ok t) :
    ∃ r : Int, rate.num = r * rate.den ∧ rate.den ≠ 0 ∧ InInt r ∧ t.secs * r + t.frames = n ∧ t.rate = some rate := by
  unfold Time.fromFrames FRate.integer FRate.integerFraction at h
  simp only [bind_eq_ok] at h
  obtain ⟨_, h1, i, ⟨m, hm, hi⟩, _, h2, r, hr, s, hs, fr, hf, ht⟩ := h
  have hd : rate.den ≠ 0 := by
    intro e
    simp [subAssert, e] at h1
  have hm0 : m = 0 := by
    simp at hi
    by_contra c
    have : i = false := by rw [← hi]; simp [c]
    rw [this] at h2
    simp [subAssert] at h2
  unfold cmod at hm
  rw [if_neg hd] at hm
  split at hm
  · rename_i hq
    injection hm with hm
    unfold cdiv at hr
    rw [if_neg hd, ck_eq_ok] at hr
    have e := Int.mul_tdiv_add_tmod rate.num rate.den
    refine ⟨r, ?_, hd, ?_, ?_, ?_⟩
    · rw [hm, hm0, hr.2] at e; linarith [mul_comm r rate.den]
    · rw [← hr.2]; exact hr.1
    · have e2 := Int.mul_tdiv_add_tmod n r
      simp at ht
      rw [← ht]
      unfold cdiv at hs
      unfold cmod at hf
      split at hs
      · cases hs
      · rename_i hr0
        rw [if_neg hr0] at hf
        rw [ck_eq_ok] at hs
        split at hf
        · injection hf with hf
          rw [← hf, ← hs.2]; linarith [mul_comm r (n.tdiv r)]
        · cases hf
    · simp at ht; rw [← ht]
  · cases hm

private theorem fraction_integer {rate : FRate} {r : Int} (h : rate.num = r * rate.den) (hd : rate.den ≠ 0) (hi : InInt r) :
    rate.fraction = .ok (r : ℚ) ∧ rate.value = r := by
  have hdq : (rate.den : ℚ) ≠ 0 := by exact_mod_cast hd
  have e : (rate.num : ℚ) / rate.den = r := by
    rw [h]; push_cast; field_simp
  refine ⟨?_, e⟩
  simp [FRate.fraction, fdiv, hdq, e, f64_of_inInt hi]

/-- C09: what `add` returns is at one of the two rates, and its frame count is the exact sum of the two
durations at that rate, cut off: never more than the sum and less than one frame short of it, up to a
relative error of 2⁻⁵⁰. -/
theorem C09_add_bounds (a b t : Time) (ra rb : FRate) (ma mb : Int) (ha : a.rate = some ra) (hb : b.rate = some rb)
    (hsa : 0 ≤ a.secs) (hsb : 0 ≤ b.secs) (hma : a.milliseconds = .ok ma) (hmb : b.milliseconds = .ok mb)
    (hma0 : 0 ≤ ma) (hmb0 : 0 ≤ mb) (hmai : InInt ma) (hmbi : InInt mb)
    (pa : 0 < ra.value) (pb : 0 < rb.value) (h : a.add b = .ok t) :
    ∃ rr : FRate, t.rate = some rr ∧ (rr = ra ∨ rr = rb) ∧
      ((t.secs : ℚ) * rr.value + t.frames ≤ (secsMs a.secs ma + secsMs b.secs mb) * rr.value * (1 + 1 / 2 ^ 50)) ∧
      ((secsMs a.secs ma + secsMs b.secs mb) * rr.value * (1 - 1 / 2 ^ 50) - 1 < (t.secs : ℚ) * rr.value + t.frames) := by
  obtain ⟨x, hx, hx2, hx0⟩ := allAsSeconds_spec a ma hsa hma0 hmai hma
  obtain ⟨y, hy, hy2, hy0⟩ := allAsSeconds_spec b mb hsb hmb0 hmbi hmb
  simp only [Time.add, ha, hb, hx, hy, bind_eq_ok] at h
  obtain ⟨rr, hrr, x', hx', y', hy', fr, hfr, n, hn, ht⟩ := h
  cases hx'; cases hy'
  have hsel : rr = ra ∨ rr = rb := by
    simp only [FRate.max, bind_eq_ok] at hrr
    obtain ⟨_, _, _, _, e⟩ := hrr
    simp only [pure_eq_ok, Except.ok.injEq] at e
    split at e
    · left; exact e.symm
    · right; exact e.symm
  obtain ⟨r, hr1, hr2, hr3, hsum, hrate⟩ := fromFrames_ok ht
  have ⟨hf1, hv⟩ := fraction_integer hr1 hr2 hr3
  rw [hf1] at hfr
  injection hfr with hfr
  have hrpos : (0 : ℚ) < r := by
    rw [← hv]
    rcases hsel with e | e <;> rw [e] <;> assumption
  have hmq : (0 : ℚ) ≤ ma := by exact_mod_cast hma0
  have hmq' : (0 : ℚ) ≤ mb := by exact_mod_cast hmb0
  have hsq : (0 : ℚ) ≤ a.secs := by exact_mod_cast hsa
  have hsq' : (0 : ℚ) ≤ b.secs := by exact_mod_cast hsb
  set X := secsMs a.secs ma + secsMs b.secs mb with hX
  have hX0 : 0 ≤ X := by rw [hX]; unfold secsMs; positivity
  have c1 : |(x + y) - X| ≤ |X| * (2 * eps + eps * eps) := by
    rw [abs_of_nonneg hX0, hX, show x + y - (secsMs a.secs ma + secsMs b.secs mb) = (x - secsMs a.secs ma) + (y - secsMs b.secs mb) by ring]
    refine le_trans (abs_add_le _ _) ?_
    linarith
  have c2 := f64_chain (mul_rel (c := (r : ℚ)) (f64_chain c1))
  have c3 : |f64 (f64 (x + y) * r) - X * r| ≤ X * r * (8 * eps) := by
    refine le_trans c2 ?_
    rw [abs_of_nonneg (by positivity : 0 ≤ X * r)]
    apply mul_le_mul_of_nonneg_left _ (by positivity)
    unfold eps; norm_num
  set v := f64 (f64 (x + y) * r) with hv'
  have hv0 : 0 ≤ v := by
    rw [hv']
    exact rnd_nonneg (mul_nonneg (rnd_nonneg (by linarith)) hrpos.le)
  have hnf : n = v.floor := by
    rw [← hfr] at hn
    unfold toInt at hn
    rw [truncR_of_nonneg hv0] at hn
    split at hn
    · injection hn with hn; exact hn.symm
    · cases hn
  have hsumq : (t.secs : ℚ) * r + t.frames = n := by exact_mod_cast hsum
  refine ⟨rr, hrate, hsel, ?_, ?_⟩
  · rw [hv, hsumq, hnf]
    have := floor_le v
    rw [abs_le] at c3
    have e : X * r * (1 + 1 / 2 ^ 50) = X * r + X * r * (8 * eps) := by unfold eps; ring
    rw [e]; linarith [c3.2]
  · rw [hv, hsumq, hnf]
    have := lt_floor_add_one v
    rw [abs_le] at c3
    have e : X * r * (1 - 1 / 2 ^ 50) = X * r - X * r * (8 * eps) := by unfold eps; ring
    rw [e]; linarith [c3.1]

example : (⟨3, 12, some ⟨25, 1⟩⟩ : Time).milliseconds = .ok 480 ∧ (⟨1, 20, some ⟨50, 1⟩⟩ : Time).milliseconds = .ok 400 ∧
    (⟨3, 12, some ⟨25, 1⟩⟩ : Time).add ⟨1, 20, some ⟨50, 1⟩⟩ = .ok ⟨4, 44, some ⟨50, 1⟩⟩ := by decide +kernel

/-- C09 for times in milliseconds (all those read from SubRip, WebVTT and SSA files): `add` succeeds and gives the exact
sum or one millisecond less. -/
theorem C09_add_milliseconds (s ms s' ms' : Int) (hs : 0 ≤ s) (hms : 0 ≤ ms) (hs' : 0 ≤ s') (hms' : 0 ≤ ms')
    (hi : InInt ms) (hi' : InInt ms') (hfit : 1000 * (s + s') + ms + ms' ≤ 2147483646) :
    ∃ t, (⟨s, ms, some ⟨1000, 1⟩⟩ : Time).add ⟨s', ms', some ⟨1000, 1⟩⟩ = .ok t ∧ t.rate = some ⟨1000, 1⟩ ∧
      0 ≤ t.frames ∧ t.frames ≤ 999 ∧
      (1000 * t.secs + t.frames = 1000 * (s + s') + ms + ms' ∨
       1000 * t.secs + t.frames = 1000 * (s + s') + ms + ms' - 1) := by
  set N := 1000 * (s + s') + ms + ms' with hN
  have m1 : (⟨s, ms, some ⟨1000, 1⟩⟩ : Time).milliseconds = .ok ms := C06_own_rate _ ⟨1000, 1⟩ rfl hi (by decide) (by decide) (by decide)
  have m2 : (⟨s', ms', some ⟨1000, 1⟩⟩ : Time).milliseconds = .ok ms' := C06_own_rate _ ⟨1000, 1⟩ rfl hi' (by decide) (by decide) (by decide)
  obtain ⟨x, hx, hx2, hx0⟩ := allAsSeconds_spec _ ms hs hms hi m1
  obtain ⟨y, hy, hy2, hy0⟩ := allAsSeconds_spec _ ms' hs' hms' hi' m2
  have fr : FRate.fraction ⟨1000, 1⟩ = .ok 1000 := by
    have := (fraction_integer (rate := ⟨1000, 1⟩) (r := 1000) (by decide) (by decide) (by decide)).1
    simpa using this
  have mx : FRate.max ⟨1000, 1⟩ ⟨1000, 1⟩ = .ok ⟨1000, 1⟩ := by
    simp [FRate.max, fr]
  have hNq : secsMs s ms + secsMs s' ms' = (N : ℚ) / 1000 := by
    rw [hN]; unfold secsMs; push_cast; ring
  have hN0 : (0 : ℚ) ≤ N := by exact_mod_cast (by omega : 0 ≤ N)
  have hNb : (N : ℚ) ≤ 2147483646 := by exact_mod_cast hfit
  have c1 : |(x + y) - (N : ℚ) / 1000| ≤ |(N : ℚ) / 1000| * (2 * eps + eps * eps) := by
    rw [abs_of_nonneg (by positivity : (0 : ℚ) ≤ (N : ℚ) / 1000), ← hNq, show x + y - (secsMs s ms + secsMs s' ms') = (x - secsMs s ms) + (y - secsMs s' ms') by ring]
    refine le_trans (abs_add_le _ _) ?_
    dsimp only at hx2 hy2
    linarith
  have c2 := f64_chain (mul_rel (c := (1000 : ℚ)) (f64_chain c1))
  rw [div_mul_cancel₀ _ (by norm_num : (1000 : ℚ) ≠ 0)] at c2
  set v := f64 (f64 (x + y) * 1000) with hv
  have c3 : |v - N| ≤ 1 / 1000 := by
    refine le_trans c2 ?_
    rw [abs_of_nonneg hN0]
    unfold eps; norm_num; linarith
  rw [abs_le] at c3
  have hv0 : 0 ≤ v := by
    rw [hv]
    exact rnd_nonneg (mul_nonneg (rnd_nonneg (by linarith)) (by norm_num))
  have f1 := floor_le v
  have f2 := lt_floor_add_one v
  have hfl : v.floor = N ∨ v.floor = N - 1 := by
    have a : (v.floor : ℚ) < ((N + 1 : Int) : ℚ) := by push_cast; linarith
    have b : ((N - 2 : Int) : ℚ) < (v.floor : ℚ) := by push_cast; linarith
    have a : v.floor < N + 1 := by exact_mod_cast a
    have b : N - 2 < v.floor := by exact_mod_cast b
    omega
  have hfl0 : 0 ≤ v.floor := Rat.le_floor_iff.2 (by exact_mod_cast hv0)
  have hti : toInt v = .ok v.floor := by
    unfold toInt
    rw [truncR_of_nonneg hv0, if_pos (by unfold InInt; omega)]
  generalize v.floor = n at *
  have dv : InInt (n.tdiv 1000) := inInt_tdiv (by unfold InInt; omega) (Or.inl (by decide))
  refine ⟨⟨n.tdiv 1000, n.tmod 1000, some ⟨1000, 1⟩⟩, ?_, rfl, ?_⟩
  · have i1 : FRate.integer ⟨1000, 1⟩ = .ok true := by decide
    have i2 : FRate.integerFraction ⟨1000, 1⟩ = .ok 1000 := by decide
    simp [Time.add, hx, hy, mx, fr, ← hv, hti, Time.fromFrames, i1, i2, subAssert, cdiv_ok (by decide : (1000 : Int) ≠ 0) dv,
      cmod_ok (by decide : (1000 : Int) ≠ 0) dv]
  · dsimp only
    rw [Int.tdiv_eq_ediv_of_nonneg hfl0, Int.tmod_eq_emod_of_nonneg hfl0]
    omega

example : ∃ t, (⟨10, 999, some ⟨1000, 1⟩⟩ : Time).add ⟨5, 2, some ⟨1000, 1⟩⟩ = .ok t := by
  obtain ⟨t, h, _⟩ := C09_add_milliseconds 10 999 5 2 (by decide) (by decide) (by decide) (by decide) (by decide) (by decide) (by decide)
  exact ⟨t, h⟩

/-- C09, full claim: adding a zero duration changes nothing. -/
def C09_zero_statement : Prop :=
  ∀ t z u : Time, t.rate = some ⟨1000, 1⟩ → z = ⟨0, 0, some ⟨1000, 1⟩⟩ → 0 ≤ t.secs → 0 ≤ t.frames → t.frames < 1000 →
    t.add z = .ok u → u = t

/-- C09 is false: 1.001 s plus nothing is 1.000 s. -/
theorem C09_zero_false : ¬ C09_zero_statement := by
  intro h
  have := h ⟨1, 1, some ⟨1000, 1⟩⟩ ⟨0, 0, some ⟨1000, 1⟩⟩ ⟨1, 0, some ⟨1000, 1⟩⟩ rfl rfl (by decide) (by decide) (by decide)
    (by decide +kernel)
  exact absurd this (by decide)

/-- C09: addition is commutative in value. -/
theorem C09_add_comm (a b t u : Time) (h1 : a.add b = .ok t) (h2 : b.add a = .ok u) :
    t.secs = u.secs ∧ t.frames = u.frames := by
  cases ha : a.rate with
  | none => simp [Time.add, ha] at h1
  | some ra =>
  cases hb : b.rate with
  | none => simp [Time.add, ha, hb] at h1
  | some rb =>
  simp only [Time.add, ha, hb, bind_eq_ok] at h1 h2
  obtain ⟨r1, hr1, x, hx, y, hy, f1, hf1, n1, hn1, ht⟩ := h1
  obtain ⟨r2, hr2, y', hy', x', hx', f2, hf2, n2, hn2, hu⟩ := h2
  rw [hx] at hx'; cases hx'
  rw [hy] at hy'; cases hy'
  -- the two selected rates have the same fraction
  have hff : f1 = f2 := by
    simp only [FRate.max, bind_eq_ok] at hr1 hr2
    obtain ⟨p, hp, q, hq, e1⟩ := hr1
    obtain ⟨q', hq', p', hp', e2⟩ := hr2
    rw [hp] at hp'; cases hp'
    rw [hq] at hq'; cases hq'
    simp only [pure_eq_ok, Except.ok.injEq] at e1 e2
    split at e1 <;> split at e2
    · exfalso; linarith
    · rw [← e1, hp] at hf1; rw [← e2, hp] at hf2; cases hf1; cases hf2; rfl
    · rw [← e1, hq] at hf1; rw [← e2, hq] at hf2; cases hf1; cases hf2; rfl
    · have : p = q := by linarith
      rw [← e1, hq] at hf1; rw [← e2, hp] at hf2; cases hf1; cases hf2; exact this.symm
  subst hff
  rw [add_comm y x, hn1] at hn2
  injection hn2 with hn2
  subst hn2
  unfold Time.fromFrames FRate.integerFraction at ht hu
  simp only [bind_eq_ok] at ht hu
  obtain ⟨i1, g1⟩ := fromFrames_ok (show Time.fromFrames n1 r1 = .ok t by
    unfold Time.fromFrames FRate.integerFraction; simp only [bind_eq_ok]; exact ht)
  obtain ⟨i2, g2⟩ := fromFrames_ok (show Time.fromFrames n1 r2 = .ok u by
    unfold Time.fromFrames FRate.integerFraction; simp only [bind_eq_ok]; exact hu)
  have k1 := (fraction_integer g1.1 g1.2.1 g1.2.2.1).1
  have k2 := (fraction_integer g2.1 g2.2.1 g2.2.2.1).1
  rw [k1] at hf1; rw [k2] at hf2
  injection hf1 with hf1
  injection hf2 with hf2
  have hi : i1 = i2 := by rw [← hf2] at hf1; exact_mod_cast hf1
  subst hi
  obtain ⟨_, _, _, _, _, _, c1, hc1, d1, hd1, e1, he1, ht⟩ := ht
  obtain ⟨_, _, _, _, _, _, c2, hc2, d2, hd2, e2, he2, hu⟩ := hu
  have cc : ∀ (r : FRate) (c : Int), r.num = i1 * r.den → r.den ≠ 0 → cdiv r.num r.den = .ok c → c = i1 := by
    intro r c h0 h1 h2
    unfold cdiv at h2
    rw [if_neg h1, ck_eq_ok, h0, Int.mul_tdiv_cancel _ h1] at h2
    exact h2.2.symm
  have z1 := cc r1 c1 g1.1 g1.2.1 hc1
  have z2 := cc r2 c2 g2.1 g2.2.1 hc2
  subst z1
  subst z2
  rw [hd1] at hd2; cases hd2
  rw [he1] at he2; cases he2
  simp only [pure_eq_ok, Except.ok.injEq] at ht hu
  rw [← ht, ← hu]
  exact ⟨rfl, rfl⟩

example : (⟨3, 12, some ⟨25, 1⟩⟩ : Time).add ⟨1, 20, some ⟨50, 2⟩⟩ = .ok ⟨5, 7, some ⟨50, 2⟩⟩ ∧
    (⟨1, 20, some ⟨50, 2⟩⟩ : Time).add ⟨3, 12, some ⟨25, 1⟩⟩ = .ok ⟨5, 7, some ⟨25, 1⟩⟩ := by decide +kernel

/-! ### C10  scale -/

/-- C10: scaling a normalised millisecond time by 1 leaves it unchanged. -/
theorem C10_scale_one (s ms : Int) (hs : 0 ≤ s) (hsi : InInt s) (h0 : 0 ≤ ms) (h1 : ms < 1000) :
    (⟨s, ms, some ⟨1000, 1⟩⟩ : Time).scale 1 = .ok ⟨s, ms, some ⟨1000, 1⟩⟩ := by
  have hi : InInt ms := by unfold InInt; omega
  have m1 : (⟨s, ms, some ⟨1000, 1⟩⟩ : Time).milliseconds = .ok ms := C06_own_rate _ ⟨1000, 1⟩ rfl hi (by decide) (by decide) (by decide)
  have fr : FRate.fraction ⟨1000, 1⟩ = .ok 1000 := by
    have := (fraction_integer (rate := ⟨1000, 1⟩) (r := 1000) (by decide) (by decide) (by decide)).1
    simpa using this
  have i1 : FRate.integer ⟨1000, 1⟩ = .ok true := by decide
  have hsq : (0 : ℚ) ≤ s := by exact_mod_cast hs
  have hsb : (s : ℚ) ≤ 2147483647 := by exact_mod_cast hsi.2
  have hmq : (0 : ℚ) ≤ ms := by exact_mod_cast h0
  have hmb : (ms : ℚ) ≤ 999 := by exact_mod_cast (by omega : ms ≤ 999)
  -- the number of seconds as a double
  set x := f64 ((s : ℚ) + f64 ((ms : ℚ) / 1000)) with hx
  have hall : (⟨s, ms, some ⟨1000, 1⟩⟩ : Time).allAsSeconds = .ok x := by
    simp [Time.allAsSeconds, m1, f64_of_inInt hi, hx]
  have hxx : f64 x = x := by rw [hx]; exact rnd_rnd (by norm_num) _
  have g1 := f64_rel ((ms : ℚ) / 1000)
  rw [abs_of_nonneg (by positivity : (0 : ℚ) ≤ (ms : ℚ) / 1000)] at g1
  have g2 := f64_rel ((s : ℚ) + f64 ((ms : ℚ) / 1000))
  have g0 : 0 ≤ f64 ((ms : ℚ) / 1000) := rnd_nonneg (by positivity)
  rw [abs_of_nonneg (by positivity : (0 : ℚ) ≤ (s : ℚ) + f64 ((ms : ℚ) / 1000))] at g2
  rw [abs_le] at g1 g2
  have heps : eps = 1 / 9007199254740992 := by unfold eps; norm_num
  rw [heps] at g1 g2
  have hb : |x - (s + (ms : ℚ) / 1000)| ≤ 1 / 1000000 := by
    rw [abs_le]; constructor <;> linarith [g1.1, g1.2, g2.1, g2.2]
  rw [abs_le] at hb
  have hxs : (s : ℚ) ≤ x := by
    have := f64_mono (x := (s : ℚ)) (y := (s : ℚ) + f64 ((ms : ℚ) / 1000)) (by linarith)
    rw [f64_of_inInt hsi] at this
    exact this
  have hfl : x.floor = s := floor_unique hxs (by linarith [hb.2])
  have hd := f64_rel (x - s)
  rw [abs_of_nonneg (by linarith : 0 ≤ x - s), heps, abs_le] at hd
  have hd0 : 0 ≤ f64 (x - s) := rnd_nonneg (by linarith)
  have he := f64_rel (f64 (x - s) * 1000)
  rw [abs_of_nonneg (by positivity : (0 : ℚ) ≤ f64 (x - s) * 1000), heps, abs_le] at he
  have hr : rint (f64 (f64 (x - s) * 1000)) = ms := by
    apply rint_unique
    rw [abs_lt]
    constructor <;> linarith [hb.1, hb.2, hd.1, hd.2, he.1, he.2]
  simp [Time.scale, i1, subAssert, hall, hxx, hfl, toInt_int hsi, fr, hr, toInt_int hi]

example : (⟨86399, 999, some ⟨1000, 1⟩⟩ : Time).scale 1 = .ok ⟨86399, 999, some ⟨1000, 1⟩⟩ :=
  C10_scale_one _ _ (by decide) (by decide) (by decide) (by decide)

/-- C10: the scaled time is within half a frame (up to relative error 2⁻⁵¹) of the exact product, at the same rate,
and its frame number is between 0 and the rate, inclusive. -/
theorem C10_scale_bounds (t u : Time) (rate : FRate) (ms : Int) (f : ℚ) (hr : t.rate = some rate) (hs : 0 ≤ t.secs)
    (hms : t.milliseconds = .ok ms) (h0 : 0 ≤ ms) (hmi : InInt ms) (hf : 0 ≤ f) (hv : 0 < rate.value)
    (h : t.scale f = .ok u) :
    u.rate = some rate ∧ 0 ≤ u.secs ∧ 0 ≤ u.frames ∧ (u.frames : ℚ) ≤ rate.value ∧
    |((u.secs : ℚ) + u.frames / rate.value) - secsMs t.secs ms * f| ≤
      1 / (2 * rate.value) + (secsMs t.secs ms * f + 1) / 2 ^ 51 := by
  obtain ⟨x, hx, hx2, hx0⟩ := allAsSeconds_spec t ms hs h0 hmi hms
  simp only [Time.scale, hr, bind_eq_ok] at h
  obtain ⟨_, hden, i, hint, _, hint2, x', hx', secs, hsecs, fr, hfr, frames, hframes, hu⟩ := h
  rw [hx] at hx'; cases hx'
  simp only [pure_eq_ok, Except.ok.injEq] at hu
  subst hu
  have hd : rate.den ≠ 0 := by
    intro e; simp [subAssert, e] at hden
  -- the rate is an integer
  obtain ⟨r, hr1, hri⟩ : ∃ r : Int, rate.num = r * rate.den ∧ InInt r := by
    simp only [FRate.integer, bind_eq_ok] at hint
    obtain ⟨m, hm, hm2⟩ := hint
    have hi1 : i = true := by
      by_contra c
      have : i = false := by simpa using c
      rw [this] at hint2; simp [subAssert] at hint2
    rw [hi1] at hm2
    have hm0 : m = 0 := by simpa using hm2
    unfold cmod at hm
    rw [if_neg hd] at hm
    split at hm
    · rename_i hq
      injection hm with hm
      have e := Int.mul_tdiv_add_tmod rate.num rate.den
      rw [hm, hm0] at e
      exact ⟨rate.num.tdiv rate.den, by linarith [mul_comm (rate.num.tdiv rate.den) rate.den], hq⟩
    · cases hm
  have ⟨k1, k2⟩ := fraction_integer hr1 hd hri
  rw [k1] at hfr
  injection hfr with hfr
  subst hfr
  rw [k2] at hv ⊢
  have hrp : (0 : ℚ) < r := hv
  set Y := secsMs t.secs ms * f with hY
  have hsq : (0 : ℚ) ≤ t.secs := by exact_mod_cast hs
  have hmq : (0 : ℚ) ≤ ms := by exact_mod_cast h0
  have hA0 : 0 ≤ secsMs t.secs ms := by unfold secsMs; positivity
  have hY0 : 0 ≤ Y := mul_nonneg hA0 hf
  have heps : eps = 1 / 9007199254740992 := by unfold eps; norm_num
  have c1 : |x - secsMs t.secs ms| ≤ |secsMs t.secs ms| * (2 * eps + eps * eps) := by
    rw [abs_of_nonneg hA0]; exact hx2
  have c2 := f64_chain (mul_rel (c := f) c1)
  rw [← hY, abs_of_nonneg hY0] at c2
  set s := f64 (x * f) with hs'
  have hsn : 0 ≤ s := rnd_nonneg (mul_nonneg hx0 hf)
  have f1 := floor_le s
  have f2 := lt_floor_add_one s
  have hsec : secs = s.floor := by
    unfold toInt at hsecs
    rw [truncR_int] at hsecs
    split at hsecs
    · injection hsecs with e; exact e.symm
    · cases hsecs
  rw [← hsec] at f1 f2
  have hsec0 : 0 ≤ secs := by rw [hsec]; exact Rat.le_floor_iff.2 (by exact_mod_cast hsn)
  set w := f64 (f64 (s - secs) * r) with hw
  have hfrm : frames = rint w := by
    unfold toInt at hframes
    rw [truncR_int] at hframes
    split at hframes
    · injection hframes with e; exact e.symm
    · cases hframes
  have d0 : 0 ≤ s - secs := by linarith
  have d1 := f64_rel (s - secs)
  have hd0 : 0 ≤ f64 (s - secs) := rnd_nonneg d0
  have hdle : f64 (s - secs) ≤ 1 := by
    have := f64_mono (x := s - secs) (y := ((1 : Int) : ℚ)) (by push_cast; linarith)
    rw [f64_of_inInt (by decide)] at this
    simpa using this
  have hw0 : 0 ≤ w := rnd_nonneg (by positivity)
  have hwr : w ≤ r := by
    have := f64_mono (x := f64 (s - secs) * r) (y := (r : ℚ)) (by nlinarith)
    rw [f64_of_inInt hri] at this
    exact this
  have d2 := f64_chain (mul_rel (c := (r : ℚ)) d1)
  rw [abs_of_nonneg (by positivity : 0 ≤ (s - secs) * (r : ℚ)), ← hw] at d2
  refine ⟨rfl, hsec0, ?_, ?_, ?_⟩
  · show 0 ≤ frames
    rw [hfrm]
    have := rint_mono hw0
    rwa [rint_zero] at this
  · show (frames : ℚ) ≤ r
    rw [hfrm]
    have := rint_mono hwr
    rw [rint_int] at this
    exact_mod_cast this
  · show |((secs : ℚ) + frames / r) - Y| ≤ _
    have e3 := abs_rint_sub_le w
    rw [← hfrm] at e3
    have hd2 : |w - (s - secs) * r| ≤ r * (3 * eps) := by
      refine le_trans d2 ?_
      have : (s - secs) * (r : ℚ) ≤ 1 * r := by
        apply mul_le_mul_of_nonneg_right _ hrp.le; linarith
      have he : 0 ≤ eps + eps + eps * eps := by rw [heps]; norm_num
      have h3 := mul_le_mul_of_nonneg_right this he
      refine le_trans h3 ?_
      rw [one_mul]
      apply mul_le_mul_of_nonneg_left _ hrp.le
      rw [heps]; norm_num
    have hc2 : |s - Y| ≤ Y * (4 * eps) := by
      refine le_trans c2 (mul_le_mul_of_nonneg_left ?_ hY0)
      rw [heps]; norm_num
    have key : ((secs : ℚ) + frames / r) - Y = ((frames : ℚ) - w) / r + (w - (s - secs) * r) / r + (s - Y) := by
      field_simp; ring
    rw [key]
    have b1 : |((frames : ℚ) - w) / r| ≤ 1 / (2 * r) := by
      rw [abs_div, abs_of_pos hrp, div_le_div_iff₀ hrp (by positivity)]
      linarith [mul_le_mul_of_nonneg_right e3 (by positivity : 0 ≤ 2 * (r : ℚ))]
    have b2 : |(w - (s - secs) * r) / r| ≤ 3 * eps := by
      rw [abs_div, abs_of_pos hrp, div_le_iff₀ hrp]; linarith
    have b3 := abs_add_le (((frames : ℚ) - w) / r + (w - (s - secs) * r) / r) (s - Y)
    have b4 := abs_add_le (((frames : ℚ) - w) / r) ((w - (s - secs) * r) / r)
    have e : (Y + 1) / 2 ^ 51 = Y * (4 * eps) + 4 * eps := by rw [heps]; ring
    rw [e]
    have : 0 ≤ eps := by rw [heps]; norm_num
    linarith

example : (⟨100, 12, some ⟨25, 1⟩⟩ : Time).milliseconds = .ok 480 ∧
    (⟨100, 12, some ⟨25, 1⟩⟩ : Time).scale (f32 (24 / 25)) = .ok ⟨96, 12, some ⟨25, 1⟩⟩ := by decide +kernel

/-- C10: the frame number may equal the rate: 24 frames at 25 fps scaled by 1.03 is "25 frames at 25 fps". -/
theorem C10_not_normalised_witness :
    (⟨0, 24, some ⟨25, 1⟩⟩ : Time).scale (f32 (103 / 100)) = .ok ⟨0, 25, some ⟨25, 1⟩⟩ := by decide +kernel

end LibSub
