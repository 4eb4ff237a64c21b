/-
Helper lemmas about the floating-point model.
-/
import Verif.Model.Float
import Mathlib.Tactic.Linarith
import Mathlib.Tactic.FieldSimp
import Mathlib.Tactic.Ring
import Mathlib.Tactic.Positivity
import Mathlib.Tactic.Push
import Mathlib.Tactic.NormNum
import Mathlib.Algebra.Order.Field.Rat
import Mathlib.Algebra.Order.Field.Power
import Mathlib.Data.Rat.Cast.Order
import Mathlib.Algebra.Order.AbsoluteValue.Basic
import Mathlib.Data.Rat.Lemmas

namespace LibSub

theorem pow2_eq (e : Int) : pow2 e = (2 : ℚ) ^ e := by
  unfold pow2
  split
  · rename_i h
    obtain ⟨n, rfl⟩ := Int.eq_ofNat_of_zero_le h
    simp
  · rename_i h
    have : e = -((-e).toNat : Int) := by omega
    rw [this]
    generalize (-e).toNat = n
    simp

theorem absR_eq (x : ℚ) : absR x = |x| := by
  unfold absR
  split
  · rw [abs_of_neg ‹_›]
  · rw [abs_of_nonneg (le_of_not_gt ‹_›)]

theorem floor_le (x : ℚ) : (x.floor : ℚ) ≤ x := Rat.le_floor_iff.1 (le_refl _)

theorem lt_floor_add_one (x : ℚ) : x < (x.floor : ℚ) + 1 := by
  by_contra h
  have h : ((x.floor + 1 : Int) : ℚ) ≤ x := by push_cast; linarith
  have := Rat.le_floor_iff.2 h
  omega

theorem floor_unique {x : ℚ} {n : Int} (h1 : (n : ℚ) ≤ x) (h2 : x < n + 1) : x.floor = n := by
  have a := Rat.le_floor_iff.2 h1
  have b : (x.floor : ℚ) < ((n + 1 : Int) : ℚ) := by
    push_cast; exact lt_of_le_of_lt (floor_le x) h2
  have b : x.floor < n + 1 := by exact_mod_cast b
  omega

theorem floor_int (n : Int) : (n : ℚ).floor = n := floor_unique (le_refl _) (by linarith)

/-- `rint` is within one half. -/
theorem rint_le (x : ℚ) : (rint x : ℚ) ≤ x + 1 / 2 := by
  have h1 := floor_le x
  have h2 := lt_floor_add_one x
  unfold rint
  dsimp only
  split
  · linarith
  · split
    · push_cast; linarith
    · split
      · linarith
      · push_cast; linarith

theorem le_rint (x : ℚ) : x - 1 / 2 ≤ (rint x : ℚ) := by
  have h1 := floor_le x
  have h2 := lt_floor_add_one x
  unfold rint
  dsimp only
  split
  · linarith
  · split
    · push_cast; linarith
    · split
      · linarith
      · push_cast; linarith

theorem abs_rint_sub_le (x : ℚ) : |(rint x : ℚ) - x| ≤ 1 / 2 := by
  rw [abs_le]; constructor <;> linarith [rint_le x, le_rint x]

@[simp] theorem rint_int (n : Int) : rint (n : ℚ) = n := by
  unfold rint
  simp

@[simp] theorem rint_zero : rint 0 = 0 := by
  have := rint_int 0; simpa using this

/-- A value strictly within one half of an integer rounds to it. -/
theorem rint_unique {x : ℚ} {n : Int} (h : |x - n| < 1 / 2) : rint x = n := by
  rw [abs_lt] at h
  have a := rint_le x
  have b := le_rint x
  have c : ((rint x : Int) : ℚ) < ((n + 1 : Int) : ℚ) := by push_cast; linarith
  have d : ((n - 1 : Int) : ℚ) < (rint x : ℚ) := by push_cast; linarith
  have c : rint x < n + 1 := by exact_mod_cast c
  have d : n - 1 < rint x := by exact_mod_cast d
  omega

theorem rint_mono {x y : ℚ} (h : x ≤ y) : rint x ≤ rint y := by
  have h1 := floor_le x
  have h2 := lt_floor_add_one x
  have h3 := floor_le y
  have h4 := lt_floor_add_one y
  by_cases hf : x.floor = y.floor
  · unfold rint
    dsimp only
    rw [hf] at *
    split <;> split <;> (try split) <;> (try split) <;> (try omega) <;> (try linarith)
  · have hle : x.floor ≤ y.floor := Rat.le_floor_iff.2 (le_trans h1 h)
    have hx : rint x ≤ x.floor + 1 := by
      unfold rint; dsimp only; split <;> (try split) <;> (try split) <;> omega
    have hy : y.floor ≤ rint y := by
      unfold rint; dsimp only; split <;> (try split) <;> (try split) <;> omega
    omega

theorem ilog2_spec {x : ℚ} (hx : x ≠ 0) : (2 : ℚ) ^ ilog2 x ≤ |x| ∧ |x| < (2 : ℚ) ^ (ilog2 x + 1) := by
  have hn : x.num.natAbs ≠ 0 := by simpa using hx
  have hd : x.den ≠ 0 := x.den_nz
  have e : |x| = (x.num.natAbs : ℚ) / (x.den : ℚ) := by
    conv_lhs => rw [← Rat.num_div_den x]
    rw [abs_div, ← Int.cast_abs, Int.abs_eq_natAbs]
    simp
  have n1 : (2 : ℚ) ^ (x.num.natAbs.log2 : Int) ≤ (x.num.natAbs : ℚ) := by
    rw [zpow_natCast]; exact_mod_cast Nat.log2_self_le hn
  have n2 : (x.num.natAbs : ℚ) < (2 : ℚ) ^ ((x.num.natAbs.log2 : Int) + 1) := by
    have := @Nat.lt_log2_self x.num.natAbs
    have e : (2 : ℚ) ^ ((x.num.natAbs.log2 : Int) + 1) = ((2 ^ (x.num.natAbs.log2 + 1) : ℕ) : ℚ) := by
      push_cast; exact_mod_cast rfl
    rw [e]; exact_mod_cast this
  have d1 : (2 : ℚ) ^ (x.den.log2 : Int) ≤ (x.den : ℚ) := by
    rw [zpow_natCast]; exact_mod_cast Nat.log2_self_le hd
  have d2 : (x.den : ℚ) < (2 : ℚ) ^ ((x.den.log2 : Int) + 1) := by
    have := @Nat.lt_log2_self x.den
    have e : (2 : ℚ) ^ ((x.den.log2 : Int) + 1) = ((2 ^ (x.den.log2 + 1) : ℕ) : ℚ) := by
      push_cast; exact_mod_cast rfl
    rw [e]; exact_mod_cast this
  have dpos : (0 : ℚ) < x.den := by exact_mod_cast Nat.pos_of_ne_zero hd
  have up : |x| < (2 : ℚ) ^ ((x.num.natAbs.log2 : Int) - (x.den.log2 : Int) + 1) := by
    rw [e, div_lt_iff₀ dpos]
    calc (x.num.natAbs : ℚ) < (2 : ℚ) ^ ((x.num.natAbs.log2 : Int) + 1) := n2
      _ = (2 : ℚ) ^ ((x.num.natAbs.log2 : Int) - (x.den.log2 : Int) + 1) * (2 : ℚ) ^ (x.den.log2 : Int) := by
        rw [← zpow_add₀ (by norm_num)]; congr 1; ring
      _ ≤ _ := by
        apply mul_le_mul_of_nonneg_left d1; positivity
  have lo : (2 : ℚ) ^ ((x.num.natAbs.log2 : Int) - (x.den.log2 : Int) - 1) < |x| := by
    rw [e, lt_div_iff₀ dpos]
    calc (2 : ℚ) ^ ((x.num.natAbs.log2 : Int) - (x.den.log2 : Int) - 1) * x.den
        < (2 : ℚ) ^ ((x.num.natAbs.log2 : Int) - (x.den.log2 : Int) - 1) * (2 : ℚ) ^ ((x.den.log2 : Int) + 1) := by
          apply mul_lt_mul_of_pos_left d2; positivity
      _ = (2 : ℚ) ^ (x.num.natAbs.log2 : Int) := by
        rw [← zpow_add₀ (by norm_num)]; congr 1; ring
      _ ≤ _ := n1
  unfold ilog2
  dsimp only
  rw [pow2_eq, absR_eq]
  split
  · exact ⟨‹_›, up⟩
  · rename_i h
    push Not at h
    refine ⟨le_of_lt lo, ?_⟩
    rw [sub_add_cancel]; exact h

theorem zpow2_pos (e : Int) : (0 : ℚ) < (2 : ℚ) ^ e := by positivity

theorem ilog2_unique {x : ℚ} {e : Int} (h1 : (2 : ℚ) ^ e ≤ |x|) (h2 : |x| < (2 : ℚ) ^ (e + 1)) : ilog2 x = e := by
  have hx : x ≠ 0 := by
    rintro rfl
    have := zpow2_pos e
    simp at h1; linarith
  have ⟨a, b⟩ := ilog2_spec hx
  have c : e < ilog2 x + 1 := (zpow_lt_zpow_iff_right₀ (by norm_num : (1 : ℚ) < 2)).1 (lt_of_le_of_lt h1 b)
  have d : ilog2 x < e + 1 := (zpow_lt_zpow_iff_right₀ (by norm_num : (1 : ℚ) < 2)).1 (lt_of_le_of_lt a h2)
  omega

@[simp] theorem rnd_zero (p : Nat) : rnd p 0 = 0 := by simp [rnd]

theorem rnd_def {p : Nat} {x : ℚ} (hx : x ≠ 0) :
    rnd p x = (rint (x / (2 : ℚ) ^ (ilog2 x - ((p : Int) - 1))) : ℚ) * (2 : ℚ) ^ (ilog2 x - ((p : Int) - 1)) := by
  simp [rnd, hx, pow2_eq]

/-- Relative error of rounding: half a unit in the last place. -/
theorem abs_rnd_sub_le (p : Nat) (x : ℚ) : |rnd p x - x| ≤ |x| / (2 : ℚ) ^ p := by
  by_cases hx : x = 0
  · subst hx; simp
  rw [rnd_def hx]
  set u := (2 : ℚ) ^ (ilog2 x - ((p : Int) - 1)) with hu
  have up : 0 < u := zpow2_pos _
  have h := abs_rint_sub_le (x / u)
  have ⟨a, _⟩ := ilog2_spec hx
  have e1 : (rint (x / u) : ℚ) * u - x = ((rint (x / u) : ℚ) - x / u) * u := by field_simp
  rw [e1, abs_mul, abs_of_pos up]
  have e2 : u / 2 = (2 : ℚ) ^ (ilog2 x) / (2 : ℚ) ^ p := by
    rw [hu, ← zpow_natCast, ← zpow_sub₀ (by norm_num), div_eq_mul_inv, ← zpow_sub_one₀ (by norm_num)]
    congr 1; ring
  calc |(rint (x / u) : ℚ) - x / u| * u ≤ 1 / 2 * u := mul_le_mul_of_nonneg_right h up.le
    _ = u / 2 := by ring
    _ = (2 : ℚ) ^ (ilog2 x) / (2 : ℚ) ^ p := e2
    _ ≤ _ := by gcongr

/-- Numbers with a short enough significand are fixed by rounding. -/
theorem rnd_exact {p : Nat} {m : Int} {e : Int} (hp : 0 < p) (hm : |m| ≤ 2 ^ p) : rnd p ((m : ℚ) * (2 : ℚ) ^ e) = (m : ℚ) * (2 : ℚ) ^ e := by
  by_cases hm0 : m = 0
  · subst hm0; simp
  set x := (m : ℚ) * (2 : ℚ) ^ e with hx
  have hx0 : x ≠ 0 := by
    rw [hx]; apply mul_ne_zero
    · exact_mod_cast hm0
    · exact (zpow2_pos e).ne'
  rw [rnd_def hx0]
  have ⟨a, _⟩ := ilog2_spec hx0
  have habs : |x| = (|m| : Int) * (2 : ℚ) ^ e := by
    rw [hx, abs_mul, abs_of_pos (zpow2_pos e)]; push_cast; rfl
  have hle : ilog2 x ≤ p + e := by
    have hb : |x| ≤ (2 : ℚ) ^ ((p : Int) + e) := by
      rw [habs, zpow_add₀ (by norm_num)]
      apply mul_le_mul_of_nonneg_right _ (zpow2_pos e).le
      rw [zpow_natCast]; exact_mod_cast hm
    exact (zpow_le_zpow_iff_right₀ (by norm_num : (1 : ℚ) < 2)).1 (le_trans a hb)
  by_cases hle' : ilog2 x ≤ p + e - 1
  · -- the unit divides m * 2^e
    obtain ⟨k, hk⟩ : ∃ k : Nat, e - (ilog2 x - ((p : Int) - 1)) = k := ⟨(e - (ilog2 x - ((p : Int) - 1))).toNat, by omega⟩
    have : x / (2 : ℚ) ^ (ilog2 x - ((p : Int) - 1)) = ((m * 2 ^ k : Int) : ℚ) := by
      rw [hx, mul_div_assoc, ← zpow_sub₀ (by norm_num), hk, zpow_natCast]; push_cast; rfl
    rw [this, rint_int, ← this]
    field_simp
  · -- |m| = 2^p
    have hlog : ilog2 x = p + e := by omega
    have hm' : |m| = 2 ^ p := by
      have h1 : (2 : ℚ) ^ ((p : Int) + e) ≤ (|m| : Int) * (2 : ℚ) ^ e := by rw [← habs, ← hlog]; exact a
      rw [zpow_add₀ (by norm_num)] at h1
      have h2 := le_of_mul_le_mul_right h1 (zpow2_pos e)
      rw [zpow_natCast] at h2
      have h3 : (2 : Int) ^ p ≤ |m| := by exact_mod_cast h2
      omega
    have hu : ilog2 x - ((p : Int) - 1) = e + 1 := by omega
    rw [hu]
    obtain ⟨q, rfl⟩ := Nat.exists_eq_succ_of_ne_zero hp.ne'
    have : ∃ m' : Int, m = 2 * m' := by
      rcases abs_eq_abs.1 (hm'.trans (abs_of_nonneg (by positivity : (0 : Int) ≤ 2 ^ (q + 1))).symm) with h | h
      · exact ⟨2 ^ q, by rw [h]; ring⟩
      · exact ⟨-2 ^ q, by rw [h]; ring⟩
    obtain ⟨m', hm2⟩ := this
    have : x / (2 : ℚ) ^ (e + 1) = (m' : ℚ) := by
      rw [hx, hm2, zpow_add_one₀ (by norm_num)]; push_cast
      have := (zpow2_pos e).ne'
      field_simp
    rw [this, rint_int, ← this]
    field_simp

theorem rnd_int {p : Nat} {m : Int} (hp : 0 < p) (hm : |m| ≤ 2 ^ p) : rnd p (m : ℚ) = m := by
  have := rnd_exact (e := 0) hp hm
  simpa using this

theorem f64_int {m : Int} (hm : |m| ≤ 2 ^ 53) : f64 (m : ℚ) = m := rnd_int (by norm_num) hm

theorem f32_int {m : Int} (hm : |m| ≤ 2 ^ 24) : f32 (m : ℚ) = m := rnd_int (by norm_num) hm

@[simp] theorem f64_zero : f64 0 = 0 := rnd_zero _

@[simp] theorem f32_zero : f32 0 = 0 := rnd_zero _

/-- `int` values are exactly representable as `double`. -/
theorem f64_of_inInt {m : Int} (h : InInt m) : f64 (m : ℚ) = m := by
  apply f64_int
  unfold InInt at h
  rw [abs_le]; constructor <;> norm_num <;> omega

/-- Rounding preserves the sign. -/
theorem rnd_nonneg {p : Nat} {x : ℚ} (hx : 0 ≤ x) : 0 ≤ rnd p x := by
  rcases hx.eq_or_lt with h | h
  · rw [← h]; simp
  rw [rnd_def h.ne']
  apply mul_nonneg _ (zpow2_pos _).le
  have := rint_mono (x := 0) (y := x / (2 : ℚ) ^ (ilog2 x - ((p : Int) - 1))) (by positivity)
  rw [rint_zero] at this
  exact_mod_cast this

theorem rint_neg (x : ℚ) : rint (-x) = -rint x := by
  have h1 := floor_le x
  have h2 := lt_floor_add_one x
  by_cases hi : (x.floor : ℚ) = x
  · rw [← hi, ← Int.cast_neg, rint_int, rint_int]
  · have hfl : (-x).floor = -x.floor - 1 := by
      apply floor_unique
      · push_cast; linarith
      · push_cast
        have : (x.floor : ℚ) < x := lt_of_le_of_ne h1 hi
        linarith
    unfold rint
    dsimp only
    rw [hfl]
    push_cast
    split_ifs <;> first | omega | (exfalso; linarith)

theorem ilog2_neg (x : ℚ) : ilog2 (-x) = ilog2 x := by
  by_cases hx : x = 0
  · subst hx; simp
  · have ⟨a, b⟩ := ilog2_spec hx
    apply ilog2_unique <;> rwa [abs_neg]

theorem rnd_neg (p : Nat) (x : ℚ) : rnd p (-x) = -rnd p x := by
  by_cases hx : x = 0
  · subst hx; simp
  · rw [rnd_def hx, rnd_def (neg_ne_zero.2 hx), ilog2_neg, neg_div, rint_neg]
    push_cast; ring

theorem rnd_pos_mono {p : Nat} (hp : 0 < p) {x y : ℚ} (hx : 0 < x) (h : x ≤ y) : rnd p x ≤ rnd p y := by
  have hy : 0 < y := lt_of_lt_of_le hx h
  have ⟨a1, a2⟩ := ilog2_spec hx.ne'
  have ⟨b1, b2⟩ := ilog2_spec hy.ne'
  rw [abs_of_pos hx] at a1 a2
  rw [abs_of_pos hy] at b1 b2
  by_cases he : ilog2 x = ilog2 y
  · rw [rnd_def hx.ne', rnd_def hy.ne', he]
    apply mul_le_mul_of_nonneg_right _ (zpow2_pos _).le
    have := rint_mono (x := x / (2 : ℚ) ^ (ilog2 y - ((p : Int) - 1))) (y := y / (2 : ℚ) ^ (ilog2 y - ((p : Int) - 1)))
      (div_le_div_of_nonneg_right h (zpow2_pos _).le)
    exact_mod_cast this
  · have hlt : ilog2 x + 1 ≤ ilog2 y := by
      have : ilog2 x < ilog2 y + 1 :=
        (zpow_lt_zpow_iff_right₀ (by norm_num : (1 : ℚ) < 2)).1 (lt_of_le_of_lt a1 (lt_of_le_of_lt h b2))
      omega
    have hz : ∀ z : ℚ, 0 < z → ∀ e : Int, z = (2 : ℚ) ^ e → rnd p z = z := by
      intro z _ e hz
      have := rnd_exact (m := 1) (e := e) hp (by
        have : (1 : Int) ≤ 2 ^ p := by exact_mod_cast Nat.one_le_two_pow
        simpa using this)
      rw [hz]; simpa using this
    -- rnd x ≤ 2^(ilog2 x + 1) ≤ 2^(ilog2 y) ≤ rnd y
    have hxu : rnd p x ≤ (2 : ℚ) ^ (ilog2 x + 1) := by
      rw [rnd_def hx.ne']
      have hup : (2 : ℚ) ^ (ilog2 x + 1) = ((2 ^ p : Int) : ℚ) * (2 : ℚ) ^ (ilog2 x - ((p : Int) - 1)) := by
        push_cast
        rw [← zpow_natCast, ← zpow_add₀ (by norm_num)]; congr 1; ring
      rw [hup]
      apply mul_le_mul_of_nonneg_right _ (zpow2_pos _).le
      have h3 : x / (2 : ℚ) ^ (ilog2 x - ((p : Int) - 1)) ≤ ((2 ^ p : Int) : ℚ) := by
        rw [div_le_iff₀ (zpow2_pos _), ← hup]; exact a2.le
      have := rint_mono h3
      rw [rint_int] at this
      exact_mod_cast this
    have hyl : (2 : ℚ) ^ (ilog2 y) ≤ rnd p y := by
      rw [rnd_def hy.ne']
      obtain ⟨q, rfl⟩ := Nat.exists_eq_succ_of_ne_zero hp.ne'
      have hup : (2 : ℚ) ^ (ilog2 y) = ((2 ^ q : Int) : ℚ) * (2 : ℚ) ^ (ilog2 y - (((q + 1 : Nat) : Int) - 1)) := by
        push_cast
        rw [← zpow_natCast, ← zpow_add₀ (by norm_num)]; congr 1; ring
      rw [hup]
      apply mul_le_mul_of_nonneg_right _ (zpow2_pos _).le
      have h3 : ((2 ^ q : Int) : ℚ) ≤ y / (2 : ℚ) ^ (ilog2 y - (((q + 1 : Nat) : Int) - 1)) := by
        rw [le_div_iff₀ (zpow2_pos _), ← hup]; exact b1
      have := rint_mono h3
      rw [rint_int] at this
      exact_mod_cast this
    calc rnd p x ≤ (2 : ℚ) ^ (ilog2 x + 1) := hxu
      _ ≤ (2 : ℚ) ^ (ilog2 y) := zpow_le_zpow_right₀ (by norm_num) hlt
      _ ≤ _ := hyl

/-- Rounding is monotone. -/
theorem rnd_mono {p : Nat} (hp : 0 < p) {x y : ℚ} (h : x ≤ y) : rnd p x ≤ rnd p y := by
  rcases lt_trichotomy x 0 with hx | hx | hx
  · rcases le_or_gt 0 y with hy | hy
    · have a := rnd_nonneg (p := p) (x := -x) (by linarith)
      rw [rnd_neg] at a
      have b := rnd_nonneg (p := p) hy
      linarith
    · have := rnd_pos_mono hp (x := -y) (y := -x) (by linarith) (by linarith)
      rw [rnd_neg, rnd_neg] at this
      linarith
  · subst hx
    rw [rnd_zero]; exact rnd_nonneg h
  · exact rnd_pos_mono hp hx h

theorem f32_mono {x y : ℚ} (h : x ≤ y) : f32 x ≤ f32 y := rnd_mono (by norm_num) h

theorem f64_mono {x y : ℚ} (h : x ≤ y) : f64 x ≤ f64 y := rnd_mono (by norm_num) h

theorem f64_err (x : ℚ) : |f64 x - x| ≤ |x| / 2 ^ 53 := abs_rnd_sub_le 53 x

theorem f32_err (x : ℚ) : |f32 x - x| ≤ |x| / 2 ^ 24 := abs_rnd_sub_le 24 x

theorem truncR_int (n : Int) : truncR (n : ℚ) = n := by
  unfold truncR
  split
  · exact floor_int n
  · rw [← Int.cast_neg, floor_int]; omega

theorem toInt_int {n : Int} (h : InInt n) : toInt (n : ℚ) = .ok n := by
  simp [toInt, truncR_int, h]

theorem rnd_rnd {p : Nat} (hp : 0 < p) (x : ℚ) : rnd p (rnd p x) = rnd p x := by
  by_cases hx : x = 0
  · subst hx; simp
  have ⟨_, a2⟩ := ilog2_spec hx
  rw [rnd_def hx]
  apply rnd_exact hp
  have hup : (2 : ℚ) ^ (ilog2 x + 1) = ((2 ^ p : Int) : ℚ) * (2 : ℚ) ^ (ilog2 x - ((p : Int) - 1)) := by
    push_cast
    rw [← zpow_natCast, ← zpow_add₀ (by norm_num)]; congr 1; ring
  rw [hup, ← div_lt_iff₀ (zpow2_pos _), ← abs_of_pos (zpow2_pos (ilog2 x - ((p : Int) - 1))), ← abs_div] at a2
  have ⟨c1, c2⟩ := abs_lt.1 a2
  rw [abs_le]
  constructor
  · have := rint_mono c1.le
    rwa [← Int.cast_neg, rint_int] at this
  · have := rint_mono c2.le
    rwa [rint_int] at this

end LibSub
