/-
Property C03 for times of different rates: exactly when comparison agrees with the instants.
-/
import Verif.Props.Time

namespace LibSub

private theorem scaled_ok {f : Int} {rx ry : FRate} {v : Int} (h : Time.scaled f rx ry = .ok v) : v = f * rx.num * ry.den := by
  unfold Time.scaled at h
  obtain ⟨p, hp, h⟩ := bind_eq_ok.1 h
  have e : p = f * rx.num := (ck_eq_ok.1 hp).2.symm
  rw [← e]
  exact (ck_eq_ok.1 h).2.symm

private theorem lt_same {a b : Time} {ra rb : FRate} (ha : a.rate = some ra) (hb : b.rate = some rb) (hs : a.secs = b.secs) {v : Bool} (h : a.lt b = .ok v) :
    v = true ↔ a.frames * ra.num * rb.den < b.frames * rb.num * ra.den := by
  unfold Time.lt at h
  rw [if_neg (by simpa using hs), ha, hb] at h
  obtain ⟨l, hl, h⟩ := bind_eq_ok.1 h
  obtain ⟨r, hr, h⟩ := bind_eq_ok.1 h
  rw [pure_eq_ok, Except.ok.injEq] at h
  rw [← h, decide_eq_true_iff, scaled_ok hl, scaled_ok hr]

private theorem eq_same {a b : Time} {ra rb : FRate} (ha : a.rate = some ra) (hb : b.rate = some rb) (hs : a.secs = b.secs) {v : Bool} (h : a.eq b = .ok v) :
    v = true ↔ a.frames * ra.num * rb.den = b.frames * rb.num * ra.den := by
  unfold Time.eq at h
  rw [ha, hb] at h
  simp only at h
  rw [if_neg (by simpa using hs)] at h
  obtain ⟨l, hl, h⟩ := bind_eq_ok.1 h
  obtain ⟨r, hr, h⟩ := bind_eq_ok.1 h
  rw [pure_eq_ok, Except.ok.injEq] at h
  rw [← h, decide_eq_true_iff, scaled_ok hl, scaled_ok hr]

private theorem fraction_bounds {t : Time} {r : FRate} (hn : 0 < r.num) (hd : 0 < r.den) (h : t.Normalised r) : (t.secs : ℚ) ≤ t.instant r ∧ t.instant r < t.secs + 1 := by
  have hnq : (0 : ℚ) < r.num := by exact_mod_cast hn
  have hdq : (0 : ℚ) < r.den := by exact_mod_cast hd
  have h1 : (0 : ℚ) ≤ t.frames := by exact_mod_cast h.1
  have h2 : (t.frames : ℚ) * r.den < r.num := by exact_mod_cast h.2
  have h3 : (t.frames : ℚ) * r.den / r.num < 1 := by rw [div_lt_one hnq]; exact h2
  have h4 : 0 ≤ (t.frames : ℚ) * r.den / r.num := by positivity
  unfold Time.instant
  exact ⟨by linarith, by linarith⟩

/-- C03 for times with different whole seconds, at any rates: all comparisons give the order of the instants. -/
theorem C03_seconds_partial (a b : Time) (ra rb : FRate) (ha : a.rate = some ra) (hb : b.rate = some rb) (pa : 0 < ra.num ∧ 0 < ra.den) (pb : 0 < rb.num ∧ 0 < rb.den)
    (na : a.Normalised ra) (nb : b.Normalised rb) (hs : a.secs ≠ b.secs) :
    a.lt b = .ok (decide (a.instant ra < b.instant rb)) ∧ a.gt b = .ok (decide (b.instant rb < a.instant ra)) ∧ a.eq b = .ok (decide (a.instant ra = b.instant rb)) := by
  have ⟨a0, a1⟩ := fraction_bounds pa.1 pa.2 na
  have ⟨b0, b1⟩ := fraction_bounds pb.1 pb.2 nb
  have up : ∀ x y : Int, x < y → (x : ℚ) + 1 ≤ y := fun x y h => by exact_mod_cast h
  rcases lt_or_gt_of_ne hs with h | h
  · have := up _ _ h
    have i : a.instant ra < b.instant rb := by linarith
    refine ⟨?_, ?_, ?_⟩
    · unfold Time.lt
      rw [if_pos hs, decide_eq_true h, decide_eq_true i]
    · unfold Time.gt
      rw [if_pos hs, decide_eq_false (by omega), decide_eq_false (not_lt.2 i.le)]
    · unfold Time.eq
      rw [ha, hb]
      simp only
      rw [if_pos hs, decide_eq_false i.ne]
  · have := up _ _ h
    have i : b.instant rb < a.instant ra := by linarith
    refine ⟨?_, ?_, ?_⟩
    · unfold Time.lt
      rw [if_pos hs, decide_eq_false (by omega), decide_eq_false (not_lt.2 i.le)]
    · unfold Time.gt
      rw [if_pos hs, decide_eq_true h, decide_eq_true i]
    · unfold Time.eq
      rw [ha, hb]
      simp only
      rw [if_pos hs, decide_eq_false i.ne']

example : (⟨5, 24, some ⟨25, 1⟩⟩ : Time).Normalised ⟨25, 1⟩ ∧ (⟨6, 0, some ⟨30000, 1001⟩⟩ : Time).Normalised ⟨30000, 1001⟩ ∧ (5 : Int) ≠ 6 := by
  unfold Time.Normalised; decide

private theorem instants_same {a b : Time} {ra rb : FRate} (pa : 0 < ra.num) (pb : 0 < rb.num) (hs : a.secs = b.secs) :
    (a.instant ra < b.instant rb ↔ a.frames * ra.den * rb.num < b.frames * rb.den * ra.num) ∧ (a.instant ra = b.instant rb ↔ a.frames * ra.den * rb.num = b.frames * rb.den * ra.num) := by
  have pa' : (0 : ℚ) < ra.num := by exact_mod_cast pa
  have pb' : (0 : ℚ) < rb.num := by exact_mod_cast pb
  unfold Time.instant
  rw [hs]
  refine ⟨?_, ?_⟩
  · rw [add_lt_add_iff_left, div_lt_div_iff₀ pa' pb']
    exact_mod_cast Iff.rfl
  · rw [add_right_inj, div_eq_div_iff pa'.ne' pb'.ne']
    exact_mod_cast Iff.rfl

/-- C03 for times in the same second: the answer of `<` is right exactly if the frame numbers multiplied by the rates are in the same order as the frame numbers divided by the rates … -/
theorem C03_exact_partial (a b : Time) (ra rb : FRate) (ha : a.rate = some ra) (hb : b.rate = some rb) (pa : 0 < ra.num ∧ 0 < ra.den) (pb : 0 < rb.num ∧ 0 < rb.den) (hs : a.secs = b.secs) :
    (∀ v, a.lt b = .ok v → ((v = true ↔ a.instant ra < b.instant rb) ↔
      ((a.frames * ra.num * rb.den < b.frames * rb.num * ra.den) ↔ (a.frames * ra.den * rb.num < b.frames * rb.den * ra.num)))) ∧
    (∀ v, a.eq b = .ok v → ((v = true ↔ a.instant ra = b.instant rb) ↔
      ((a.frames * ra.num * rb.den = b.frames * rb.num * ra.den) ↔ (a.frames * ra.den * rb.num = b.frames * rb.den * ra.num)))) := by
  have ⟨i1, i2⟩ := instants_same (a := a) (b := b) pa.1 pb.1 hs
  exact ⟨fun v h => by rw [lt_same ha hb hs h, i1], fun v h => by rw [eq_same ha hb hs h, i2]⟩

/-- … which is so if the rates have the same value, however they are written, … -/
theorem C03_same_value_partial (a b : Time) (ra rb : FRate) (ha : a.rate = some ra) (hb : b.rate = some rb) (pa : 0 < ra.num ∧ 0 < ra.den) (pb : 0 < rb.num ∧ 0 < rb.den)
    (na : a.Normalised ra) (nb : b.Normalised rb) (he : ra.num * rb.den = rb.num * ra.den) :
    (∀ v, a.lt b = .ok v → (v = true ↔ a.instant ra < b.instant rb)) ∧ (∀ v, a.eq b = .ok v → (v = true ↔ a.instant ra = b.instant rb)) := by
  by_cases hs : a.secs = b.secs
  · have ⟨e1, e2⟩ := C03_exact_partial a b ra rb ha hb pa pb hs
    have p1 : 0 < ra.num * rb.den := Int.mul_pos pa.1 pb.2
    have p2 : 0 < ra.den * rb.num := Int.mul_pos pa.2 pb.1
    have k1 : a.frames * ra.num * rb.den = a.frames * (ra.num * rb.den) := by ring
    have k2 : b.frames * rb.num * ra.den = b.frames * (ra.num * rb.den) := by rw [he]; ring
    have k3 : a.frames * ra.den * rb.num = a.frames * (ra.den * rb.num) := by ring
    have k4 : b.frames * rb.den * ra.num = b.frames * (ra.den * rb.num) := by rw [show ra.den * rb.num = ra.num * rb.den by rw [he]; ring]; ring
    refine ⟨fun v h => (e1 v h).2 ?_, fun v h => (e2 v h).2 ?_⟩
    · rw [k1, k2, k3, k4, mul_lt_mul_iff_left₀ p1, mul_lt_mul_iff_left₀ p2]
    · rw [k1, k2, k3, k4, mul_left_inj' p1.ne', mul_left_inj' p2.ne']
  · have ⟨e1, _, e3⟩ := C03_seconds_partial a b ra rb ha hb pa pb na nb hs
    refine ⟨fun v h => ?_, fun v h => ?_⟩
    · rw [e1, Except.ok.injEq] at h
      rw [← h, decide_eq_true_iff]
    · rw [e3, Except.ok.injEq] at h
      rw [← h, decide_eq_true_iff]

example : (⟨5, 12, some ⟨25, 1⟩⟩ : Time).Normalised ⟨25, 1⟩ ∧ (⟨5, 13, some ⟨50, 2⟩⟩ : Time).Normalised ⟨50, 2⟩ ∧ (25 : Int) * 2 = 50 * 1 ∧
    (⟨5, 12, some ⟨25, 1⟩⟩ : Time).lt ⟨5, 13, some ⟨50, 2⟩⟩ = .ok true := by
  unfold Time.Normalised; decide

/-- … or if one of them is a whole second. -/
theorem C03_whole_partial (a b : Time) (ra rb : FRate) (ha : a.rate = some ra) (hb : b.rate = some rb) (pa : 0 < ra.num ∧ 0 < ra.den) (pb : 0 < rb.num ∧ 0 < rb.den)
    (na : a.Normalised ra) (nb : b.Normalised rb) (h0 : a.frames = 0 ∨ b.frames = 0) :
    (∀ v, a.lt b = .ok v → (v = true ↔ a.instant ra < b.instant rb)) ∧ (∀ v, a.eq b = .ok v → (v = true ↔ a.instant ra = b.instant rb)) := by
  by_cases hs : a.secs = b.secs
  · have ⟨e1, e2⟩ := C03_exact_partial a b ra rb ha hb pa pb hs
    have q : ∀ x y z : Int, 0 < y → 0 < z → ((0 < x * y * z ↔ 0 < x) ∧ (x * y * z < 0 ↔ x < 0) ∧ (x * y * z = 0 ↔ x = 0)) := by
      intro x y z hy hz
      refine ⟨?_, ?_, ?_⟩
      · rw [mul_pos_iff_of_pos_right hz, mul_pos_iff_of_pos_right hy]
      · constructor
        · intro h; by_contra hx; have := mul_nonneg (mul_nonneg (not_lt.1 hx) hy.le) hz.le; omega
        · intro h; exact mul_neg_of_neg_of_pos (mul_neg_of_neg_of_pos h hy) hz
      · simp [hy.ne', hz.ne']
    have qa := q a.frames ra.num rb.den pa.1 pb.2
    have qa' := q a.frames ra.den rb.num pa.2 pb.1
    have qb := q b.frames rb.num ra.den pb.1 pa.2
    have qb' := q b.frames rb.den ra.num pb.2 pa.1
    rcases h0 with h0 | h0
    · refine ⟨fun v h => (e1 v h).2 ?_, fun v h => (e2 v h).2 ?_⟩
      · rw [h0, Int.zero_mul, Int.zero_mul, Int.zero_mul, Int.zero_mul, qb.1, qb'.1]
      · rw [h0, Int.zero_mul, Int.zero_mul, Int.zero_mul, Int.zero_mul, eq_comm, qb.2.2, eq_comm (a := (0 : Int)), qb'.2.2]
    · refine ⟨fun v h => (e1 v h).2 ?_, fun v h => (e2 v h).2 ?_⟩
      · rw [h0, Int.zero_mul, Int.zero_mul, Int.zero_mul, Int.zero_mul, qa.2.1, qa'.2.1]
      · rw [h0, Int.zero_mul, Int.zero_mul, Int.zero_mul, Int.zero_mul, qa.2.2, qa'.2.2]
  · have ⟨e1, _, e3⟩ := C03_seconds_partial a b ra rb ha hb pa pb na nb hs
    refine ⟨fun v h => ?_, fun v h => ?_⟩
    · rw [e1, Except.ok.injEq] at h
      rw [← h, decide_eq_true_iff]
    · rw [e3, Except.ok.injEq] at h
      rw [← h, decide_eq_true_iff]

example : (⟨5, 0, some ⟨25, 1⟩⟩ : Time).Normalised ⟨25, 1⟩ ∧ (⟨5, 13, some ⟨24, 1⟩⟩ : Time).Normalised ⟨24, 1⟩ ∧ (⟨5, 0, some ⟨25, 1⟩⟩ : Time).lt ⟨5, 13, some ⟨24, 1⟩⟩ = .ok true := by
  unfold Time.Normalised; decide

/-- C03 fails for every pair of rates of different value: two times of the same instant that is not a whole second are never found equal. -/
theorem C03_never_equal (a b : Time) (ra rb : FRate) (ha : a.rate = some ra) (hb : b.rate = some rb) (pa : 0 < ra.num ∧ 0 < ra.den) (pb : 0 < rb.num ∧ 0 < rb.den)
    (na : a.Normalised ra) (nb : b.Normalised rb) (h0 : a.frames ≠ 0) (hi : a.instant ra = b.instant rb) (hr : ra.num * rb.den ≠ rb.num * ra.den) : a.eq b ≠ .ok true := by
  have ⟨a0, a1⟩ := fraction_bounds pa.1 pa.2 na
  have ⟨b0, b1⟩ := fraction_bounds pb.1 pb.2 nb
  have hs : a.secs = b.secs := by
    have h1 : (a.secs : ℚ) < b.secs + 1 := by linarith
    have h2 : (b.secs : ℚ) < a.secs + 1 := by linarith
    have h1 : a.secs < b.secs + 1 := by exact_mod_cast h1
    have h2 : b.secs < a.secs + 1 := by exact_mod_cast h2
    omega
  intro he
  have e1 := (eq_same ha hb hs he).1 rfl
  have e2 := (instants_same (a := a) (b := b) pa.1 pb.1 hs).2.1 hi
  have fa : 0 < a.frames := by have := na.1; omega
  apply hr
  -- (fa·p)·(fb·q) both ways
  have p1 := pa.1; have p2 := pa.2; have p3 := pb.1; have p4 := pb.2
  have m : a.frames * ra.num * rb.den * (b.frames * rb.den * ra.num) = b.frames * rb.num * ra.den * (a.frames * ra.den * rb.num) := by rw [e1, e2]
  have fb : 0 < b.frames := by
    by_contra hb0
    have hb0 : b.frames = 0 := by have := nb.1; omega
    rw [hb0, Int.zero_mul, Int.zero_mul] at e2
    have : 0 < a.frames * ra.den * rb.num := by positivity
    omega
  have sq : (ra.num * rb.den) * (ra.num * rb.den) = (rb.num * ra.den) * (rb.num * ra.den) := by
    have : a.frames * b.frames * ((ra.num * rb.den) * (ra.num * rb.den)) = a.frames * b.frames * ((rb.num * ra.den) * (rb.num * ra.den)) := by linarith
    exact mul_left_cancel₀ (by positivity) this
  have x1 : 0 ≤ ra.num * rb.den := by positivity
  have x2 : 0 ≤ rb.num * ra.den := by positivity
  exact (mul_self_inj x1 x2).1 sq

/-- Half a second at 24 and at 50 frames a second. -/
example : (⟨5, 12, some ⟨24, 1⟩⟩ : Time).Normalised ⟨24, 1⟩ ∧ (⟨5, 25, some ⟨50, 1⟩⟩ : Time).Normalised ⟨50, 1⟩ ∧
    (⟨5, 12, some ⟨24, 1⟩⟩ : Time).instant ⟨24, 1⟩ = (⟨5, 25, some ⟨50, 1⟩⟩ : Time).instant ⟨50, 1⟩ ∧ (⟨5, 12, some ⟨24, 1⟩⟩ : Time).eq ⟨5, 25, some ⟨50, 1⟩⟩ = .ok false := by
  unfold Time.Normalised Time.instant
  refine ⟨by decide, by decide, by norm_num, by decide⟩

end LibSub
