/-
What the floating-point model computes, stated without the way it computes it: the result of every operation is
the number of the format nearest to the exact result, and of two equally near ones the one with an even significand.
-/
import Verif.Lemmas.Float

namespace LibSub

/-! ### Specification -/

/-- The numbers of a binary format with `p` significant bits (and no bound on the exponent). -/
def FloatNum (p : Nat) (y : ℚ) : Prop := ∃ m e : Int, |m| < 2 ^ p ∧ y = m * (2 : ℚ) ^ e

/-- A number of the format whose significand, written with all its `p` bits, ends in 0. -/
def EvenFloat (p : Nat) (y : ℚ) : Prop := ∃ m e : Int, m % 2 = 0 ∧ 2 ^ (p - 1) ≤ |m| ∧ |m| < 2 ^ p ∧ y = m * (2 : ℚ) ^ e

/-- `r` is `x` rounded to `p` significant bits (IEEE 754 `roundTiesToEven`). -/
def RoundedTo (p : Nat) (x r : ℚ) : Prop :=
  FloatNum p r ∧ (∀ y, FloatNum p y → |r - x| ≤ |y - x|) ∧ (∀ y, FloatNum p y → y ≠ r → |y - x| = |r - x| → EvenFloat p r)

/-! ### Proofs -/

private theorem rint_even (z : ℚ) (h : |(rint z : ℚ) - z| = 1 / 2) : rint z % 2 = 0 := by
  have h1 := floor_le z
  have h2 := lt_floor_add_one z
  unfold rint at h ⊢
  simp only [] at h ⊢
  split at h
  · rw [abs_sub_comm, abs_of_nonneg (by linarith)] at h; linarith
  · split at h
    · rw [abs_of_nonneg (by push_cast; linarith)] at h; push_cast at h; linarith
    · rename_i a b
      rw [if_neg a, if_neg b]
      split <;> omega

private theorem rint_best (z : ℚ) (k : Int) : |(rint z : ℚ) - z| ≤ |(k : ℚ) - z| := by
  have h := abs_rint_sub_le z
  by_cases e : k = rint z
  · rw [e]
  · have h1 : (1 : ℚ) ≤ |(k : ℚ) - rint z| := by
      have : 1 ≤ |k - rint z| := Int.one_le_abs (by omega)
      exact_mod_cast this
    have h2 := abs_sub_le (k : ℚ) z (rint z)
    rw [abs_sub_comm z] at h2
    linarith

private theorem rint_tie (z : ℚ) (k : Int) (e : k ≠ rint z) (h : |(k : ℚ) - z| = |(rint z : ℚ) - z|) : rint z % 2 = 0 := by
  refine rint_even z (le_antisymm (abs_rint_sub_le z) ?_)
  have h1 : (1 : ℚ) ≤ |(k : ℚ) - rint z| := by
    have : 1 ≤ |k - rint z| := Int.one_le_abs (by omega)
    exact_mod_cast this
  have h2 := abs_sub_le (k : ℚ) z (rint z)
  rw [abs_sub_comm z] at h2
  linarith

private theorem zpow2_le {a b : Int} (h : a ≤ b) : (2 : ℚ) ^ a ≤ (2 : ℚ) ^ b := zpow_le_zpow_right₀ (by norm_num) h

private theorem zpow2_split (a b : Int) : (2 : ℚ) ^ (a + b) = (2 : ℚ) ^ a * (2 : ℚ) ^ b := zpow_add₀ (by norm_num) a b

private theorem zpow2_nat {a b : Int} (h : a ≤ b) : (2 : ℚ) ^ b = ((2 ^ (b - a).toNat : Int) : ℚ) * (2 : ℚ) ^ a := by
  obtain ⟨n, rfl⟩ : ∃ n : Nat, b = n + a := ⟨(b - a).toNat, by omega⟩
  rw [zpow2_split, show ((n : Int) + a - a).toNat = n by omega]
  push_cast
  rw [zpow_natCast]

/-- A number with at most `2 ^ p` as significand is a number of the format. -/
private theorem floatNum_le {p : Nat} (hp : 0 < p) {m e : Int} (h : |m| ≤ 2 ^ p) : FloatNum p (m * (2 : ℚ) ^ e) := by
  by_cases h1 : |m| < 2 ^ p
  · exact ⟨m, e, h1, rfl⟩
  · have h1 : |m| = 2 ^ p := le_antisymm h (not_lt.1 h1)
    obtain ⟨q, rfl⟩ : ∃ q, p = q + 1 := ⟨p - 1, by omega⟩
    have h2 : (0 : Int) < 2 ^ q := by positivity
    rcases abs_choice m with c | c
    · refine ⟨2 ^ q, e + 1, ?_, ?_⟩
      · rw [abs_of_pos h2, pow_succ]; omega
      · rw [show m = 2 ^ (q + 1) by omega, zpow2_split]; push_cast; ring
    · refine ⟨-2 ^ q, e + 1, ?_, ?_⟩
      · rw [abs_neg, abs_of_pos h2, pow_succ]; omega
      · rw [show m = -2 ^ (q + 1) by omega, zpow2_split]; push_cast; ring

/-- A number of the format at least `2 ^ E` in magnitude is a whole number of units. -/
private theorem lattice {p : Nat} {y : ℚ} (hy : FloatNum p y) {E : Int} (h : (2 : ℚ) ^ E ≤ |y|) : ∃ k : Int, y = k * (2 : ℚ) ^ (E - ((p : Int) - 1)) := by
  obtain ⟨m, e, hm, rfl⟩ := hy
  have he : E - ((p : Int) - 1) ≤ e := by
    by_contra hn
    have hE : e + p ≤ E := by omega
    have h1 := zpow2_le hE
    rw [abs_mul, abs_of_pos (zpow2_pos e)] at h
    rw [zpow2_split, zpow_natCast] at h1
    have h2 : (|(m : ℚ)|) < 2 ^ p := by exact_mod_cast hm
    have h3 := zpow2_pos e
    nlinarith
  refine ⟨m * 2 ^ (e - (E - ((p : Int) - 1))).toNat, ?_⟩
  rw [zpow2_nat he]
  push_cast
  ring

private theorem nearest_aux {p : Nat} (hp : 0 < p) {x : ℚ} (hx : x ≠ 0) {y : ℚ} (hy : FloatNum p y) :
    |rnd p x - x| < |y - x| ∨ ∃ k : Int, y = k * (2 : ℚ) ^ (ilog2 x - ((p : Int) - 1)) := by
  obtain ⟨h1, h2⟩ := ilog2_spec hx
  by_cases hE : (2 : ℚ) ^ ilog2 x ≤ |y|
  · exact .inr (lattice hy hE)
  · left
    push Not at hE
    have hu := zpow2_pos (ilog2 x - ((p : Int) - 1))
    have e1 : (2 : ℚ) ^ ilog2 x = ((2 ^ (p - 1) : Int) : ℚ) * (2 : ℚ) ^ (ilog2 x - ((p : Int) - 1)) := by
      rw [zpow2_nat (a := ilog2 x - ((p : Int) - 1)) (b := ilog2 x) (by omega)]
      congr 3
      omega
    have key : ∀ k : Int, |rnd p x - x| ≤ |(k : ℚ) * (2 : ℚ) ^ (ilog2 x - ((p : Int) - 1)) - x| := by
      intro k
      rw [rnd_def hx]
      generalize (2 : ℚ) ^ (ilog2 x - ((p : Int) - 1)) = u at hu
      have ex : x = x / u * u := by field_simp
      have := rint_best (x / u) k
      calc |(rint (x / u) : ℚ) * u - x| = |(rint (x / u) : ℚ) - x / u| * u := by
            rw [← abs_of_pos hu, ← abs_mul, sub_mul, abs_of_pos hu, ← ex]
        _ ≤ |(k : ℚ) - x / u| * u := by gcongr
        _ = |(k : ℚ) * u - x| := by
            rw [← abs_of_pos hu, ← abs_mul, sub_mul, abs_of_pos hu, ← ex]
    rcases lt_or_gt_of_ne hx with hs | hs
    · have k1 := key (-2 ^ (p - 1))
      have : ((-2 ^ (p - 1) : Int) : ℚ) * (2 : ℚ) ^ (ilog2 x - ((p : Int) - 1)) = -(2 : ℚ) ^ ilog2 x := by
        rw [e1]; push_cast; ring
      rw [this] at k1
      rw [abs_of_neg hs] at h1
      rw [abs_of_nonneg (show 0 ≤ -(2 : ℚ) ^ ilog2 x - x by linarith)] at k1
      have := neg_abs_le y
      have := le_abs_self (y - x)
      linarith
    · have k1 := key (2 ^ (p - 1))
      rw [← e1] at k1
      rw [abs_of_pos hs] at h1
      rw [abs_sub_comm ((2 : ℚ) ^ ilog2 x), abs_of_nonneg (show 0 ≤ x - (2 : ℚ) ^ ilog2 x by linarith)] at k1
      have := le_abs_self y
      have := neg_abs_le (y - x)
      linarith

private theorem rnd_scaled {p : Nat} {x : ℚ} (hx : x ≠ 0) (k : Int) :
    |(k : ℚ) * (2 : ℚ) ^ (ilog2 x - ((p : Int) - 1)) - x| =
      |(k : ℚ) - x / (2 : ℚ) ^ (ilog2 x - ((p : Int) - 1))| * (2 : ℚ) ^ (ilog2 x - ((p : Int) - 1)) := by
  have hu := zpow2_pos (ilog2 x - ((p : Int) - 1))
  generalize (2 : ℚ) ^ (ilog2 x - ((p : Int) - 1)) = u at hu
  have ex : x / u * u = x := by field_simp
  conv_rhs => rw [← abs_of_pos hu]
  rw [abs_of_pos hu, ← abs_of_pos hu, ← abs_mul, sub_mul, abs_of_pos hu, ex]

/-- The significand of the rounded number. -/
private theorem rnd_signif {p : Nat} (hp : 0 < p) {x : ℚ} (hx : x ≠ 0) :
    2 ^ (p - 1) ≤ |rint (x / (2 : ℚ) ^ (ilog2 x - ((p : Int) - 1)))| ∧ |rint (x / (2 : ℚ) ^ (ilog2 x - ((p : Int) - 1)))| ≤ 2 ^ p := by
  have main : ∀ z : ℚ, 0 ≤ z → ((2 ^ (p - 1) : Int) : ℚ) ≤ z → z < ((2 ^ p : Int) : ℚ) → 2 ^ (p - 1) ≤ |rint z| ∧ |rint z| ≤ 2 ^ p := by
    intro z h0 h1 h2
    have a := rint_mono h1
    have b := rint_mono h2.le
    have c := rint_mono h0
    rw [rint_int] at a b
    rw [rint_zero] at c
    rw [abs_of_nonneg c]
    exact ⟨a, b⟩
  obtain ⟨h1, h2⟩ := ilog2_spec hx
  have hu := zpow2_pos (ilog2 x - ((p : Int) - 1))
  have e1 : (2 : ℚ) ^ ilog2 x = ((2 ^ (p - 1) : Int) : ℚ) * (2 : ℚ) ^ (ilog2 x - ((p : Int) - 1)) := by
    rw [zpow2_nat (a := ilog2 x - ((p : Int) - 1)) (b := ilog2 x) (by omega)]
    congr 3
    omega
  have e2 : (2 : ℚ) ^ (ilog2 x + 1) = ((2 ^ p : Int) : ℚ) * (2 : ℚ) ^ (ilog2 x - ((p : Int) - 1)) := by
    rw [zpow2_nat (a := ilog2 x - ((p : Int) - 1)) (b := ilog2 x + 1) (by omega)]
    congr 3
    omega
  rw [e1] at h1
  rw [e2] at h2
  generalize (2 : ℚ) ^ (ilog2 x - ((p : Int) - 1)) = u at *
  have h3 : |x / u| = |x| / u := by rw [abs_div, abs_of_pos hu]
  have h4 : ((2 ^ (p - 1) : Int) : ℚ) ≤ |x / u| := by rw [h3, le_div_iff₀ hu]; exact h1
  have h5 : |x / u| < ((2 ^ p : Int) : ℚ) := by rw [h3, div_lt_iff₀ hu]; exact h2
  have h6 := main _ (abs_nonneg _) h4 h5
  rcases abs_choice (x / u) with c | c
  · rwa [c] at h6
  · rwa [c, rint_neg, abs_neg] at h6

private theorem rnd_rounded {p : Nat} (hp : 2 ≤ p) (x : ℚ) : RoundedTo p x (rnd p x) := by
  by_cases hx : x = 0
  · subst hx
    rw [rnd_zero]
    refine ⟨⟨0, 0, by simp, by simp⟩, fun y _ => by simp, ?_⟩
    intro y _ hy h
    simp at h
    exact absurd h hy
  · obtain ⟨s1, s2⟩ := rnd_signif (p := p) (by omega) hx
    have hu := zpow2_pos (ilog2 x - ((p : Int) - 1))
    have er := rnd_def (p := p) hx
    have best : ∀ y, FloatNum p y → |rnd p x - x| ≤ |y - x| := by
      intro y hy
      rcases nearest_aux (by omega) hx hy with h | ⟨k, rfl⟩
      · exact h.le
      · rw [er, rnd_scaled hx, rnd_scaled hx]
        have := rint_best (x / (2 : ℚ) ^ (ilog2 x - ((p : Int) - 1))) k
        gcongr
    refine ⟨?_, best, ?_⟩
    · rw [er]; exact floatNum_le (by omega) s2
    · intro y hy hne htie
      rcases nearest_aux (by omega) hx hy with h | ⟨k, rfl⟩
      · linarith
      · rw [er] at hne htie ⊢
        rw [rnd_scaled hx, rnd_scaled hx] at htie
        have ev := rint_tie _ k (fun e => hne (by rw [e])) (mul_right_cancel₀ hu.ne' htie)
        generalize rint (x / (2 : ℚ) ^ (ilog2 x - ((p : Int) - 1))) = m at s1 s2 ev
        generalize ilog2 x - ((p : Int) - 1) = e
        by_cases h1 : |m| < 2 ^ p
        · exact ⟨m, e, ev, s1, h1, rfl⟩
        · have h1 : |m| = 2 ^ p := le_antisymm s2 (not_lt.1 h1)
          obtain ⟨q, rfl⟩ : ∃ q, p = q + 2 := ⟨p - 2, by omega⟩
          have h2 : (0 : Int) < 2 ^ q := by positivity
          have e3 : (2 : Int) ^ (q + 2) = 4 * 2 ^ q := by ring
          have e4 : (2 : Int) ^ (q + 2 - 1) = 2 * 2 ^ q := by rw [show q + 2 - 1 = q + 1 by omega]; ring
          rw [e3] at h1
          rcases abs_choice m with c | c
          · refine ⟨2 * 2 ^ q, e + 1, by omega, ?_, ?_, ?_⟩
            · rw [e4, abs_of_pos (by omega)]
            · rw [e3, abs_of_pos (by omega)]; omega
            · rw [show m = 2 * 2 ^ q * 2 by omega, zpow2_split]; push_cast; ring
          · refine ⟨-(2 * 2 ^ q), e + 1, by omega, ?_, ?_, ?_⟩
            · rw [e4, abs_neg, abs_of_pos (by omega)]
            · rw [e3, abs_neg, abs_of_pos (by omega)]; omega
            · rw [show m = -(2 * 2 ^ q * 2) by omega, zpow2_split]; push_cast; ring

private theorem evenFloat_neg {p : Nat} {y : ℚ} (h : EvenFloat p y) : EvenFloat p (-y) := by
  obtain ⟨m, e, h1, h2, h3, rfl⟩ := h
  exact ⟨-m, e, by omega, by rwa [abs_neg], by rwa [abs_neg], by push_cast; ring⟩

private theorem floatNum_neg {p : Nat} {y : ℚ} (h : FloatNum p y) : FloatNum p (-y) := by
  obtain ⟨m, e, h1, rfl⟩ := h
  exact ⟨-m, e, by rwa [abs_neg], by push_cast; ring⟩

/-- There is a number of the format between two even ones. -/
private theorem even_gap {p : Nat} (hp : 2 ≤ p) {a b : ℚ} (ha : EvenFloat p a) (hb : EvenFloat p b) (h0 : 0 < a) (h : a < b) : ∃ y, FloatNum p y ∧ a < y ∧ y < b := by
  obtain ⟨m, e, m1, m2, m3, rfl⟩ := ha
  obtain ⟨n, f, n1, n2, n3, rfl⟩ := hb
  have hu := zpow2_pos e
  have hf := zpow2_pos f
  have hm : 0 < (m : ℚ) := by
    by_contra hn
    nlinarith
  have hn : 0 < (n : ℚ) := by
    by_contra hn
    nlinarith
  have hm : 0 < m := by exact_mod_cast hm
  have hn : 0 < n := by exact_mod_cast hn
  rw [abs_of_pos hm] at m2 m3
  rw [abs_of_pos hn] at n2 n3
  have hef : e ≤ f := by
    by_contra hc
    have h1 := zpow2_le (show f + 1 ≤ e by omega)
    rw [zpow2_split] at h1
    obtain ⟨q, rfl⟩ : ∃ q, p = q + 1 := ⟨p - 1, by omega⟩
    rw [show q + 1 - 1 = q by omega] at m2
    rw [pow_succ] at n3
    have m2' : ((2 ^ q : Int) : ℚ) ≤ m := by exact_mod_cast m2
    have n3' : (n : ℚ) < ((2 ^ q : Int) : ℚ) * 2 := by exact_mod_cast n3
    have hq : (0 : ℚ) < ((2 ^ q : Int) : ℚ) := by push_cast; positivity
    generalize ((2 ^ q : Int) : ℚ) = Q at *
    have : (n : ℚ) * (2 : ℚ) ^ f < m * (2 : ℚ) ^ e := by
      calc (n : ℚ) * (2 : ℚ) ^ f < Q * 2 * (2 : ℚ) ^ f := by gcongr
        _ = Q * ((2 : ℚ) ^ f * (2 : ℚ) ^ (1 : Int)) := by rw [zpow_one]; ring
        _ ≤ m * (2 : ℚ) ^ e := by gcongr
    linarith
  have en : (n : ℚ) * (2 : ℚ) ^ f = ((n * 2 ^ (f - e).toNat : Int) : ℚ) * (2 : ℚ) ^ e := by
    rw [zpow2_nat hef]; push_cast; ring
  rw [en] at h ⊢
  have hN : (n * 2 ^ (f - e).toNat) % 2 = 0 := by
    rw [Int.mul_emod, n1]; simp
  generalize n * 2 ^ (f - e).toNat = N at *
  have hmN : (m : ℚ) < N := lt_of_mul_lt_mul_right h hu.le
  have hmN : m < N := by exact_mod_cast hmN
  refine ⟨((m + 1 : Int) : ℚ) * (2 : ℚ) ^ e, floatNum_le (by omega) (by rw [abs_of_pos (by omega)]; omega), ?_, ?_⟩
  · have : (m : ℚ) < ((m + 1 : Int) : ℚ) := by exact_mod_cast (by omega : m < m + 1)
    gcongr
  · have : ((m + 1 : Int) : ℚ) < N := by exact_mod_cast (by omega : m + 1 < N)
    gcongr

private theorem even_ne_zero {p : Nat} {a : ℚ} (ha : EvenFloat p a) : a ≠ 0 := by
  obtain ⟨m, e, -, m2, -, rfl⟩ := ha
  have h2 : (0 : Int) < 2 ^ (p - 1) := by positivity
  have : m ≠ 0 := by rintro rfl; rw [abs_zero] at m2; omega
  exact mul_ne_zero (by exact_mod_cast this) (zpow2_pos e).ne'

private theorem rounded_lt {p : Nat} (hp : 2 ≤ p) {x r s : ℚ} (hr : RoundedTo p x r) (hs : RoundedTo p x s) (h : r < s) : False := by
  have e : |r - x| = |s - x| := le_antisymm (hr.2.1 s hs.1) (hs.2.1 r hr.1)
  have er := hr.2.2 s hs.1 h.ne' e.symm
  have es := hs.2.2 r hr.1 h.ne e
  have none : ¬ ∃ y, FloatNum p y ∧ r < y ∧ y < s := by
    rintro ⟨y, hy, h1, h2⟩
    have b1 := hr.2.1 y hy
    have b2 := hs.2.1 y hy
    rcases le_total r x with c | c <;> rcases le_total s x with d | d <;> rcases le_total y x with f | f <;>
      simp only [abs_of_nonneg, abs_of_nonpos, sub_nonneg, sub_nonpos, c, d, f] at e b1 b2 <;> linarith
  rcases lt_or_gt_of_ne (even_ne_zero er) with c | c
  · rcases lt_or_gt_of_ne (even_ne_zero es) with d | d
    · obtain ⟨y, hy, h1, h2⟩ := even_gap hp (evenFloat_neg es) (evenFloat_neg er) (by linarith) (by linarith)
      exact none ⟨-y, floatNum_neg hy, by linarith, by linarith⟩
    · exact none ⟨0, ⟨0, 0, by simp, by simp⟩, c, d⟩
  · exact none (even_gap hp er es c h)

/-- The rounding of the model is the rounding of the standard. -/
theorem rnd_iff {p : Nat} (hp : 2 ≤ p) (x r : ℚ) : rnd p x = r ↔ RoundedTo p x r := by
  constructor
  · rintro rfl; exact rnd_rounded hp x
  · intro h
    rcases lt_trichotomy (rnd p x) r with c | c | c
    · exact (rounded_lt hp (rnd_rounded hp x) h c).elim
    · exact c
    · exact (rounded_lt hp h (rnd_rounded hp x) c).elim

end LibSub
