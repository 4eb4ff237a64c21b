/-
Helper lemmas about times.
-/
import Verif.Model.Time
import Verif.Lemmas.Float

namespace LibSub

theorem ck_ok {x : Int} (h : InInt x) : ck x = .ok x := by simp [ck, h]

theorem ck_eq_ok {x y : Int} : ck x = .ok y ↔ InInt x ∧ x = y := by
  unfold ck; split <;> simp_all

theorem ck_err {x : Int} (h : ¬ InInt x) : ck x = .error (.ub .intOverflow) := by simp [ck, h]

theorem cdiv_ok {a b : Int} (hb : b ≠ 0) (h : InInt (a.tdiv b)) : cdiv a b = .ok (a.tdiv b) := by
  simp [cdiv, hb, ck, h]

theorem cmod_ok {a b : Int} (hb : b ≠ 0) (h : InInt (a.tdiv b)) : cmod a b = .ok (a.tmod b) := by
  simp [cmod, hb, h]

@[simp] theorem ok_bind {α β : Type} (a : α) (f : α → R β) : ((Except.ok a : R α) >>= f) = f a := rfl

@[simp] theorem error_bind {α β : Type} (e : Err) (f : α → R β) : ((Except.error e : R α) >>= f) = .error e := rfl

@[simp] theorem pure_eq_ok {α : Type} (a : α) : (pure a : R α) = .ok a := rfl

theorem bind_eq_ok {α β : Type} {x : R α} {f : α → R β} {b : β} :
    (x >>= f) = .ok b ↔ ∃ a, x = .ok a ∧ f a = .ok b := by
  cases x with
  | ok a => simp
  | error e => simp

theorem bind_eq_error {α β : Type} {x : R α} {f : α → R β} {e : Err} :
    (x >>= f) = .error e ↔ x = .error e ∨ ∃ a, x = .ok a ∧ f a = .error e := by
  cases x with
  | ok a => simp
  | error e => simp

/-- Relative error of one `double` rounding. -/
def eps : ℚ := 1 / 2 ^ 53

theorem f64_rel (x : ℚ) : |f64 x - x| ≤ |x| * eps := by
  have := f64_err x
  unfold eps; linarith

/-- Chaining of relative errors: rounding a value that already has relative error `k·ε`. -/
theorem f64_chain {x y : ℚ} {k : ℚ} (h : |y - x| ≤ |x| * k) : |f64 y - x| ≤ |x| * (k + eps + k * eps) := by
  have h1 := f64_rel y
  have hy : |y| ≤ |x| + |x| * k := by
    calc |y| = |x + (y - x)| := by ring_nf
      _ ≤ |x| + |y - x| := abs_add_le _ _
      _ ≤ _ := by linarith
  have he : 0 ≤ eps := by unfold eps; positivity
  calc |f64 y - x| = |(f64 y - y) + (y - x)| := by ring_nf
    _ ≤ |f64 y - y| + |y - x| := abs_add_le _ _
    _ ≤ |y| * eps + |x| * k := by linarith
    _ ≤ (|x| + |x| * k) * eps + |x| * k := by nlinarith
    _ = _ := by ring

theorem mul_rel {x y c k : ℚ} (h : |y - x| ≤ |x| * k) : |y * c - x * c| ≤ |x * c| * k := by
  rw [← sub_mul, abs_mul, abs_mul]
  have := mul_le_mul_of_nonneg_right h (abs_nonneg c)
  linarith

/-- The value computed inside `frames_at` before rounding to an integer, with its relative error. -/
theorem framesAt_err (F d1 n2 D : ℚ) :
    |f64 (f64 (f64 (F * d1) * n2) / D) - F * d1 * n2 / D| ≤ |F * d1 * n2 / D| * (4 * eps) := by
  have he : 0 ≤ eps := by unfold eps; positivity
  have h1 := f64_rel (F * d1)
  have h2 := f64_chain (mul_rel (c := n2) h1)
  have h3 := f64_chain (mul_rel (c := 1 / D) h2)
  rw [show f64 (f64 (F * d1) * n2) * (1 / D) = f64 (f64 (F * d1) * n2) / D by ring,
    show F * d1 * n2 * (1 / D) = F * d1 * n2 / D by ring] at h3
  refine le_trans h3 (mul_le_mul_of_nonneg_left ?_ (abs_nonneg _))
  unfold eps; norm_num

theorem truncR_of_nonneg {x : ℚ} (h : 0 ≤ x) : truncR x = x.floor := by simp [truncR, h]

/-- Division does not leave the `int` range, except `INT_MIN / -1`. -/
theorem inInt_tdiv {a b : Int} (ha : InInt a) (hb : b ≠ -1 ∨ a ≠ -2147483648) : InInt (a.tdiv b) := by
  have h : (a.tdiv b).natAbs = a.natAbs / b.natAbs := Int.natAbs_tdiv a b
  unfold InInt at *
  by_cases hb0 : b = 0
  · subst hb0; simp
  by_cases hb1 : b = 1
  · subst hb1; simpa using ha
  by_cases hbm : b = -1
  · subst hbm
    have hn : a.tdiv (-1) = -a := by simp
    rw [hn]
    omega
  · have h2 : a.natAbs / b.natAbs ≤ a.natAbs / 2 := Nat.div_le_div_left (by omega) (by omega)
    omega

end LibSub
