/-
C126, first part: the rounding of IEEE 754 with its limits, by nearness alone, and when it is the same as rounding
without limits of the exponent.
-/
import Verif.Props.Rounding
import Verif.Model.Ieee

namespace LibSub

/-! ### Specification -/

/-- The numbers of a binary format with `p` significant bits that are multiples of `2 ^ emin`. -/
def IeeeNum (p : Nat) (emin : Int) (y : ℚ) : Prop := ∃ m e : Int, |m| < 2 ^ p ∧ emin ≤ e ∧ y = m * (2 : ℚ) ^ e

/-- A number of the format whose significand ends in 0; all `p` bits of it are written unless the exponent is the smallest. -/
def IeeeEven (p : Nat) (emin : Int) (y : ℚ) : Prop :=
  ∃ m e : Int, m % 2 = 0 ∧ |m| < 2 ^ p ∧ emin ≤ e ∧ (e = emin ∨ 2 ^ (p - 1) ≤ |m|) ∧ y = m * (2 : ℚ) ^ e

/-- `r` is `x` correctly rounded, and not an infinity. -/
def IeeeRounded (p : Nat) (emin emax : Int) (x r : ℚ) : Prop :=
  IeeeNum p emin r ∧ (∀ y, IeeeNum p emin y → |r - x| ≤ |y - x|) ∧
    (∀ y, IeeeNum p emin y → y ≠ r → |y - x| = |r - x| → IeeeEven p emin r) ∧ |r| < (2 : ℚ) ^ emax

/-! ### Proofs -/

/-- The rounded number before the test for infinity. -/
private def rndE (p : Nat) (emin : Int) (x : ℚ) : ℚ :=
  if x = 0 then 0 else (rint (x / (2 : ℚ) ^ max (ilog2 x - ((p : Int) - 1)) emin) : ℚ) * (2 : ℚ) ^ max (ilog2 x - ((p : Int) - 1)) emin

private theorem ieee_eq (p : Nat) (emin emax : Int) (x r : ℚ) (h0 : 0 < (2 : ℚ) ^ emax) :
    Ieee.ieee p emin emax x = .ok r ↔ rndE p emin x = r ∧ |r| < (2 : ℚ) ^ emax := by
  unfold Ieee.ieee rndE
  by_cases hx : x = 0
  · rw [if_pos hx, if_pos hx]
    constructor
    · intro h; cases h; exact ⟨rfl, by simpa using h0⟩
    · rintro ⟨rfl, -⟩; rfl
  · rw [if_neg hx, if_neg hx]
    simp only [pow2_eq, absR_eq]
    constructor
    · intro h
      split at h
      · cases h; exact ⟨rfl, ‹_›⟩
      · cases h
    · rintro ⟨rfl, h⟩
      rw [if_pos h]

private theorem rint_best (z : ℚ) (k : Int) : |(rint z : ℚ) - z| ≤ |(k : ℚ) - z| := by
  have h := abs_rint_sub_le z
  by_cases e : k = rint z
  · rw [e]
  · have h1 : (1 : ℚ) ≤ |(k : ℚ) - rint z| := by
      have : 1 ≤ |k - rint z| := Int.one_le_abs (by omega)
      exact_mod_cast this
    have h2 := abs_sub_le (k : ℚ) z (rint z)
    rw [abs_sub_comm z] at h2
    linarith

private theorem rint_even (z : ℚ) (h : |(rint z : ℚ) - z| = 1 / 2) : rint z % 2 = 0 := by
  have h1 := floor_le z
  have h2 := lt_floor_add_one z
  unfold rint at h ⊢
  simp only [] at h ⊢
  split at h
  · rw [abs_sub_comm, abs_of_nonneg (by linarith)] at h; linarith
  · split at h
    · rw [abs_of_nonneg (by push_cast; linarith)] at h; push_cast at h; linarith
    · rename_i a b
      rw [if_neg a, if_neg b]
      split <;> omega

private theorem rint_tie (z : ℚ) (k : Int) (e : k ≠ rint z) (h : |(k : ℚ) - z| = |(rint z : ℚ) - z|) : rint z % 2 = 0 := by
  refine rint_even z (le_antisymm (abs_rint_sub_le z) ?_)
  have h1 : (1 : ℚ) ≤ |(k : ℚ) - rint z| := by
    have : 1 ≤ |k - rint z| := Int.one_le_abs (by omega)
    exact_mod_cast this
  have h2 := abs_sub_le (k : ℚ) z (rint z)
  rw [abs_sub_comm z] at h2
  linarith

private theorem zpow2_le {a b : Int} (h : a ≤ b) : (2 : ℚ) ^ a ≤ (2 : ℚ) ^ b := zpow_le_zpow_right₀ (by norm_num) h

private theorem zpow2_split (a b : Int) : (2 : ℚ) ^ (a + b) = (2 : ℚ) ^ a * (2 : ℚ) ^ b := zpow_add₀ (by norm_num) a b

private theorem zpow2_nat {a b : Int} (h : a ≤ b) : (2 : ℚ) ^ b = ((2 ^ (b - a).toNat : Int) : ℚ) * (2 : ℚ) ^ a := by
  obtain ⟨n, rfl⟩ : ∃ n : Nat, b = n + a := ⟨(b - a).toNat, by omega⟩
  rw [zpow2_split, show ((n : Int) + a - a).toNat = n by omega]
  push_cast
  rw [zpow_natCast]

private theorem ieeeNum_le {p : Nat} (hp : 0 < p) {emin m e : Int} (h : |m| ≤ 2 ^ p) (he : emin ≤ e) : IeeeNum p emin (m * (2 : ℚ) ^ e) := by
  by_cases h1 : |m| < 2 ^ p
  · exact ⟨m, e, h1, he, rfl⟩
  · have h1 : |m| = 2 ^ p := le_antisymm h (not_lt.1 h1)
    obtain ⟨q, rfl⟩ : ∃ q, p = q + 1 := ⟨p - 1, by omega⟩
    have h2 : (0 : Int) < 2 ^ q := by positivity
    rcases abs_choice m with c | c
    · refine ⟨2 ^ q, e + 1, ?_, by omega, ?_⟩
      · rw [abs_of_pos h2, pow_succ]; omega
      · rw [show m = 2 ^ (q + 1) by omega, zpow2_split]; push_cast; ring
    · refine ⟨-2 ^ q, e + 1, ?_, by omega, ?_⟩
      · rw [abs_neg, abs_of_pos h2, pow_succ]; omega
      · rw [show m = -2 ^ (q + 1) by omega, zpow2_split]; push_cast; ring

private theorem lattice {p : Nat} {emin : Int} {y : ℚ} (hy : IeeeNum p emin y) {E : Int} (h : (2 : ℚ) ^ E ≤ |y| ∨ E - ((p : Int) - 1) ≤ emin) :
    ∃ k : Int, y = k * (2 : ℚ) ^ max (E - ((p : Int) - 1)) emin := by
  obtain ⟨m, e, hm, he', rfl⟩ := hy
  have he : max (E - ((p : Int) - 1)) emin ≤ e := by
    refine max_le ?_ he'
    by_contra hn
    rcases h with h | h
    · have hE : e + p ≤ E := by omega
      have h1 := zpow2_le hE
      rw [abs_mul, abs_of_pos (zpow2_pos e)] at h
      rw [zpow2_split, zpow_natCast] at h1
      have h2 : (|(m : ℚ)|) < 2 ^ p := by exact_mod_cast hm
      have h3 := zpow2_pos e
      nlinarith
    · omega
  refine ⟨m * 2 ^ (e - max (E - ((p : Int) - 1)) emin).toNat, ?_⟩
  rw [zpow2_nat he]
  push_cast
  ring

private theorem scaled {x u : ℚ} (hu : 0 < u) (k : Int) : |(k : ℚ) * u - x| = |(k : ℚ) - x / u| * u := by
  have ex : x / u * u = x := by field_simp
  conv_rhs => rw [← abs_of_pos hu]
  rw [abs_of_pos hu, ← abs_of_pos hu, ← abs_mul, sub_mul, abs_of_pos hu, ex]

private theorem rndE_best {p : Nat} {emin : Int} {x : ℚ} (hx : x ≠ 0) (k : Int) :
    |rndE p emin x - x| ≤ |(k : ℚ) * (2 : ℚ) ^ max (ilog2 x - ((p : Int) - 1)) emin - x| := by
  have hu := zpow2_pos (max (ilog2 x - ((p : Int) - 1)) emin)
  unfold rndE
  rw [if_neg hx, scaled hu, scaled hu]
  have := rint_best (x / (2 : ℚ) ^ max (ilog2 x - ((p : Int) - 1)) emin) k
  gcongr

private theorem nearest_aux {p : Nat} (hp : 0 < p) {emin : Int} {x : ℚ} (hx : x ≠ 0) {y : ℚ} (hy : IeeeNum p emin y) :
    |rndE p emin x - x| < |y - x| ∨ ∃ k : Int, y = k * (2 : ℚ) ^ max (ilog2 x - ((p : Int) - 1)) emin := by
  obtain ⟨h1, h2⟩ := ilog2_spec hx
  by_cases hE : (2 : ℚ) ^ ilog2 x ≤ |y| ∨ ilog2 x - ((p : Int) - 1) ≤ emin
  · exact .inr (lattice hy hE)
  · left
    push Not at hE
    obtain ⟨hE, hm⟩ := hE
    have e1 : (2 : ℚ) ^ ilog2 x = ((2 ^ (p - 1) : Int) : ℚ) * (2 : ℚ) ^ max (ilog2 x - ((p : Int) - 1)) emin := by
      rw [max_eq_left hm.le, zpow2_nat (a := ilog2 x - ((p : Int) - 1)) (b := ilog2 x) (by omega)]
      congr 3
      omega
    rcases lt_or_gt_of_ne hx with hs | hs
    · have k1 := rndE_best (p := p) (emin := emin) hx (-2 ^ (p - 1))
      have : ((-2 ^ (p - 1) : Int) : ℚ) * (2 : ℚ) ^ max (ilog2 x - ((p : Int) - 1)) emin = -(2 : ℚ) ^ ilog2 x := by
        rw [e1]; push_cast; ring
      rw [this] at k1
      rw [abs_of_neg hs] at h1
      rw [abs_of_nonneg (show 0 ≤ -(2 : ℚ) ^ ilog2 x - x by linarith)] at k1
      have := neg_abs_le y
      have := le_abs_self (y - x)
      linarith
    · have k1 := rndE_best (p := p) (emin := emin) hx (2 ^ (p - 1))
      rw [← e1] at k1
      rw [abs_of_pos hs] at h1
      rw [abs_sub_comm ((2 : ℚ) ^ ilog2 x), abs_of_nonneg (show 0 ≤ x - (2 : ℚ) ^ ilog2 x by linarith)] at k1
      have := le_abs_self y
      have := neg_abs_le (y - x)
      linarith

private theorem signif {p : Nat} (hp : 0 < p) {emin : Int} {x : ℚ} (hx : x ≠ 0) :
    (max (ilog2 x - ((p : Int) - 1)) emin = emin ∨ 2 ^ (p - 1) ≤ |rint (x / (2 : ℚ) ^ max (ilog2 x - ((p : Int) - 1)) emin)|) ∧
    |rint (x / (2 : ℚ) ^ max (ilog2 x - ((p : Int) - 1)) emin)| ≤ 2 ^ p := by
  have up : ∀ z : ℚ, 0 ≤ z → z < ((2 ^ p : Int) : ℚ) → |rint z| ≤ 2 ^ p := by
    intro z h0 h2
    have b := rint_mono h2.le
    have c := rint_mono h0
    rw [rint_int] at b
    rw [rint_zero] at c
    rw [abs_of_nonneg c]
    exact b
  have low : ∀ z : ℚ, 0 ≤ z → ((2 ^ (p - 1) : Int) : ℚ) ≤ z → 2 ^ (p - 1) ≤ |rint z| := by
    intro z h0 h1
    have a := rint_mono h1
    have c := rint_mono h0
    rw [rint_int] at a
    rw [rint_zero] at c
    rw [abs_of_nonneg c]
    exact a
  have sym : ∀ z : ℚ, |rint z| = |rint (|z|)| := by
    intro z
    rcases abs_choice z with c | c
    · rw [c]
    · rw [c, rint_neg, abs_neg]
  obtain ⟨h1, h2⟩ := ilog2_spec hx
  generalize hM : max (ilog2 x - ((p : Int) - 1)) emin = M
  have hM1 : ilog2 x - ((p : Int) - 1) ≤ M := by omega
  have hu := zpow2_pos M
  have h3 : |x / (2 : ℚ) ^ M| = |x| / (2 : ℚ) ^ M := by rw [abs_div, abs_of_pos hu]
  rw [sym]
  constructor
  · by_cases c : M = emin
    · exact .inl c
    · right
      apply low _ (abs_nonneg _)
      rw [h3, le_div_iff₀ hu]
      refine le_trans (le_of_eq ?_) h1
      rw [zpow2_nat (a := M) (b := ilog2 x) (by omega)]
      congr 3
      omega
  · apply up _ (abs_nonneg _)
    rw [h3, div_lt_iff₀ hu]
    refine lt_of_lt_of_le h2 ?_
    have := zpow2_le (show ilog2 x + 1 ≤ (p : Int) + M by omega)
    rw [zpow2_split (p : Int) M, zpow_natCast] at this
    push_cast
    exact this

private theorem rndE_num {p : Nat} (hp : 2 ≤ p) (emin : Int) (x : ℚ) :
    IeeeNum p emin (rndE p emin x) ∧ (∀ y, IeeeNum p emin y → |rndE p emin x - x| ≤ |y - x|) ∧
      (∀ y, IeeeNum p emin y → y ≠ rndE p emin x → |y - x| = |rndE p emin x - x| → IeeeEven p emin (rndE p emin x)) := by
  by_cases hx : x = 0
  · subst hx
    have e0 : rndE p emin 0 = 0 := by simp [rndE]
    rw [e0]
    refine ⟨⟨0, emin, by simp, le_refl _, by simp⟩, fun y _ => by simp, ?_⟩
    intro y _ hy h
    simp at h
    exact absurd h hy
  · obtain ⟨s1, s2⟩ := signif (p := p) (by omega) (emin := emin) hx
    have hu := zpow2_pos (max (ilog2 x - ((p : Int) - 1)) emin)
    have er : rndE p emin x = (rint (x / (2 : ℚ) ^ max (ilog2 x - ((p : Int) - 1)) emin) : ℚ) * (2 : ℚ) ^ max (ilog2 x - ((p : Int) - 1)) emin := by
      rw [rndE, if_neg hx]
    have hM : emin ≤ max (ilog2 x - ((p : Int) - 1)) emin := by omega
    refine ⟨?_, ?_, ?_⟩
    · rw [er]; exact ieeeNum_le (by omega) s2 hM
    · intro y hy
      rcases nearest_aux (by omega) hx hy with h | ⟨k, rfl⟩
      · exact h.le
      · exact rndE_best hx k
    · intro y hy hne htie
      rcases nearest_aux (by omega) hx hy with h | ⟨k, rfl⟩
      · linarith
      · rw [er] at hne htie ⊢
        rw [scaled hu, scaled hu] at htie
        have ev := rint_tie _ k (fun e => hne (by rw [e])) (mul_right_cancel₀ hu.ne' htie)
        generalize rint (x / (2 : ℚ) ^ max (ilog2 x - ((p : Int) - 1)) emin) = m at s1 s2 ev
        generalize max (ilog2 x - ((p : Int) - 1)) emin = e at s1 hM
        by_cases h1 : |m| < 2 ^ p
        · exact ⟨m, e, ev, h1, hM, s1, rfl⟩
        · have h1 : |m| = 2 ^ p := le_antisymm s2 (not_lt.1 h1)
          obtain ⟨q, rfl⟩ : ∃ q, p = q + 2 := ⟨p - 2, by omega⟩
          have h2 : (0 : Int) < 2 ^ q := by positivity
          have e3 : (2 : Int) ^ (q + 2) = 4 * 2 ^ q := by ring
          have e4 : (2 : Int) ^ (q + 2 - 1) = 2 * 2 ^ q := by rw [show q + 2 - 1 = q + 1 by omega]; ring
          rw [e3] at h1
          rcases abs_choice m with c | c
          · refine ⟨2 * 2 ^ q, e + 1, by omega, ?_, by omega, .inr ?_, ?_⟩
            · rw [e3, abs_of_pos (by omega)]; omega
            · rw [e4, abs_of_pos (by omega)]
            · rw [show m = 2 * 2 ^ q * 2 by omega, zpow2_split]; push_cast; ring
          · refine ⟨-(2 * 2 ^ q), e + 1, by omega, ?_, by omega, .inr ?_, ?_⟩
            · rw [e3, abs_neg, abs_of_pos (by omega)]; omega
            · rw [e4, abs_neg, abs_of_pos (by omega)]
            · rw [show m = -(2 * 2 ^ q * 2) by omega, zpow2_split]; push_cast; ring

private theorem even_neg {p : Nat} {emin : Int} {y : ℚ} (h : IeeeEven p emin y) : IeeeEven p emin (-y) := by
  obtain ⟨m, e, h1, h2, h3, h4, rfl⟩ := h
  exact ⟨-m, e, by omega, by rwa [abs_neg], h3, by rwa [abs_neg], by push_cast; ring⟩

private theorem num_neg {p : Nat} {emin : Int} {y : ℚ} (h : IeeeNum p emin y) : IeeeNum p emin (-y) := by
  obtain ⟨m, e, h1, h2, rfl⟩ := h
  exact ⟨-m, e, by rwa [abs_neg], h2, by push_cast; ring⟩

private theorem even_gap {p : Nat} (hp : 2 ≤ p) {emin : Int} {a b : ℚ} (ha : IeeeEven p emin a) (hb : IeeeEven p emin b) (h0 : 0 ≤ a) (h : a < b) :
    ∃ y, IeeeNum p emin y ∧ a < y ∧ y < b := by
  obtain ⟨m, e, m1, m3, me, m2, rfl⟩ := ha
  obtain ⟨n, f, n1, n3, nf, n2, rfl⟩ := hb
  have hu := zpow2_pos e
  have hf := zpow2_pos f
  have hm : 0 ≤ (m : ℚ) := by
    by_contra hn
    push Not at hn
    nlinarith
  have hn : 0 < (n : ℚ) := by
    by_contra hn
    nlinarith
  have hm : 0 ≤ m := by exact_mod_cast hm
  have hn : 0 < n := by exact_mod_cast hn
  rw [abs_of_nonneg hm] at m2 m3
  rw [abs_of_pos hn] at n2 n3
  have hef : e ≤ f := by
    by_contra hc
    have m2 : 2 ^ (p - 1) ≤ m := by
      rcases m2 with c | c
      · omega
      · exact c
    have h1 := zpow2_le (show f + 1 ≤ e by omega)
    rw [zpow2_split] at h1
    obtain ⟨q, rfl⟩ : ∃ q, p = q + 1 := ⟨p - 1, by omega⟩
    rw [show q + 1 - 1 = q by omega] at m2
    rw [pow_succ] at n3
    have m2' : ((2 ^ q : Int) : ℚ) ≤ m := by exact_mod_cast m2
    have n3' : (n : ℚ) < ((2 ^ q : Int) : ℚ) * 2 := by exact_mod_cast n3
    have hq : (0 : ℚ) < ((2 ^ q : Int) : ℚ) := by push_cast; positivity
    generalize ((2 ^ q : Int) : ℚ) = Q at *
    have : (n : ℚ) * (2 : ℚ) ^ f < m * (2 : ℚ) ^ e := by
      calc (n : ℚ) * (2 : ℚ) ^ f < Q * 2 * (2 : ℚ) ^ f := by gcongr
        _ = Q * ((2 : ℚ) ^ f * (2 : ℚ) ^ (1 : Int)) := by rw [zpow_one]; ring
        _ ≤ m * (2 : ℚ) ^ e := by gcongr
    linarith
  have en : (n : ℚ) * (2 : ℚ) ^ f = ((n * 2 ^ (f - e).toNat : Int) : ℚ) * (2 : ℚ) ^ e := by
    rw [zpow2_nat hef]; push_cast; ring
  rw [en] at h ⊢
  have hN : (n * 2 ^ (f - e).toNat) % 2 = 0 := by
    rw [Int.mul_emod, n1]; simp
  generalize n * 2 ^ (f - e).toNat = N at *
  have hmN : (m : ℚ) < N := lt_of_mul_lt_mul_right h hu.le
  have hmN : m < N := by exact_mod_cast hmN
  refine ⟨((m + 1 : Int) : ℚ) * (2 : ℚ) ^ e, ieeeNum_le (by omega) (by rw [abs_of_pos (by omega)]; omega) me, ?_, ?_⟩
  · have : (m : ℚ) < ((m + 1 : Int) : ℚ) := by exact_mod_cast (by omega : m < m + 1)
    gcongr
  · have : ((m + 1 : Int) : ℚ) < N := by exact_mod_cast (by omega : m + 1 < N)
    gcongr

private theorem rounded_lt {p : Nat} (hp : 2 ≤ p) {emin : Int} {x r s : ℚ} (hr : IeeeNum p emin r) (hs : IeeeNum p emin s)
    (br : ∀ y, IeeeNum p emin y → |r - x| ≤ |y - x|) (bs : ∀ y, IeeeNum p emin y → |s - x| ≤ |y - x|)
    (tr : ∀ y, IeeeNum p emin y → y ≠ r → |y - x| = |r - x| → IeeeEven p emin r)
    (ts : ∀ y, IeeeNum p emin y → y ≠ s → |y - x| = |s - x| → IeeeEven p emin s) (h : r < s) : False := by
  have e : |r - x| = |s - x| := le_antisymm (br s hs) (bs r hr)
  have er := tr s hs h.ne' e.symm
  have es := ts r hr h.ne e
  have none : ¬ ∃ y, IeeeNum p emin y ∧ r < y ∧ y < s := by
    rintro ⟨y, hy, h1, h2⟩
    have b1 := br y hy
    have b2 := bs y hy
    rcases le_total r x with c | c <;> rcases le_total s x with d | d <;> rcases le_total y x with f | f <;>
      simp only [abs_of_nonneg, abs_of_nonpos, sub_nonneg, sub_nonpos, c, d, f] at e b1 b2 <;> linarith
  rcases le_or_gt 0 r with c | c
  · exact none (even_gap hp er es c h)
  · rcases le_or_gt s 0 with d | d
    · obtain ⟨y, hy, h1, h2⟩ := even_gap hp (even_neg es) (even_neg er) (by linarith) (by linarith)
      exact none ⟨-y, num_neg hy, by linarith, by linarith⟩
    · exact none ⟨0, ⟨0, emin, by simp, le_refl _, by simp⟩, c, d⟩

theorem ieee_iff {p : Nat} (hp : 2 ≤ p) (emin emax : Int) (x r : ℚ) : Ieee.ieee p emin emax x = .ok r ↔ IeeeRounded p emin emax x r := by
  rw [ieee_eq p emin emax x r (zpow2_pos _)]
  obtain ⟨a1, a2, a3⟩ := rndE_num hp emin x
  constructor
  · rintro ⟨rfl, h⟩; exact ⟨a1, a2, a3, h⟩
  · rintro ⟨h1, h2, h3, h4⟩
    refine ⟨?_, h4⟩
    rcases lt_trichotomy (rndE p emin x) r with c | c | c
    · exact (rounded_lt hp a1 h1 a2 h2 a3 h3 c).elim
    · exact c
    · exact (rounded_lt hp h1 a1 h2 a2 h3 a3 c).elim

/-! ### When the limits do not matter -/

/-- `x` is a multiple of `2 ^ g`. -/
def Grid (g : Int) (x : ℚ) : Prop := ∃ k : Int, x = k * (2 : ℚ) ^ g

theorem Grid.zero (g : Int) : Grid g 0 := ⟨0, by simp⟩

theorem Grid.int (n : Int) : Grid 0 (n : ℚ) := ⟨n, by simp⟩

theorem Grid.mono {g h : Int} {x : ℚ} (hx : Grid h x) (hg : g ≤ h) : Grid g x := by
  obtain ⟨k, rfl⟩ := hx
  exact ⟨k * 2 ^ (h - g).toNat, by rw [zpow2_nat hg]; push_cast; ring⟩

theorem Grid.add {g : Int} {x y : ℚ} (hx : Grid g x) (hy : Grid g y) : Grid g (x + y) := by
  obtain ⟨k, rfl⟩ := hx
  obtain ⟨l, rfl⟩ := hy
  exact ⟨k + l, by push_cast; ring⟩

theorem Grid.neg {g : Int} {x : ℚ} (hx : Grid g x) : Grid g (-x) := by
  obtain ⟨k, rfl⟩ := hx
  exact ⟨-k, by push_cast; ring⟩

theorem Grid.sub {g : Int} {x y : ℚ} (hx : Grid g x) (hy : Grid g y) : Grid g (x - y) := by
  rw [sub_eq_add_neg]; exact hx.add hy.neg

theorem Grid.mul {g h : Int} {x y : ℚ} (hx : Grid g x) (hy : Grid h y) : Grid (g + h) (x * y) := by
  obtain ⟨k, rfl⟩ := hx
  obtain ⟨l, rfl⟩ := hy
  exact ⟨k * l, by rw [zpow2_split]; push_cast; ring⟩

/-- Rounding leaves multiples of a power of 2 multiples of it. -/
theorem Grid.rnd {p : Nat} {g : Int} {x : ℚ} (hx : Grid g x) : Grid g (rnd p x) := by
  by_cases h0 : x = 0
  · rw [h0, rnd_zero]; exact .zero g
  rw [rnd_def h0]
  rcases le_total g (ilog2 x - ((p : Int) - 1)) with c | c
  · exact Grid.mono ⟨_, rfl⟩ c
  · obtain ⟨k, hk⟩ := hx
    have hu := zpow2_pos (ilog2 x - ((p : Int) - 1))
    have : x / (2 : ℚ) ^ (ilog2 x - ((p : Int) - 1)) = ((k * 2 ^ (g - (ilog2 x - ((p : Int) - 1))).toNat : Int) : ℚ) := by
      rw [div_eq_iff hu.ne']
      conv_lhs => rw [hk, zpow2_nat c]
      push_cast
      ring
    rw [this, rint_int, ← this, div_mul_cancel₀ _ hu.ne']
    exact ⟨k, hk⟩

/-- A rounded number is a multiple of the unit of its size. -/
theorem Grid.of_large {p : Nat} {E : Int} {x : ℚ} (h : (2 : ℚ) ^ E ≤ |x|) : Grid (E - ((p : Int) - 1)) (LibSub.rnd p x) := by
  have h0 : x ≠ 0 := by
    rintro rfl
    rw [abs_zero] at h
    exact absurd h (not_le.2 (zpow2_pos E))
  rw [rnd_def h0]
  refine Grid.mono ⟨_, rfl⟩ ?_
  have : E ≤ ilog2 x := by
    by_contra hn
    have h1 := (ilog2_spec h0).2
    have h2 := zpow2_le (show ilog2 x + 1 ≤ E by omega)
    linarith
  omega

/-- A power of 2 that bounds a number bounds the rounded number. -/
theorem abs_rnd_le {p : Nat} (hp : 0 < p) {k : Int} {x : ℚ} (h : |x| ≤ (2 : ℚ) ^ k) : |rnd p x| ≤ (2 : ℚ) ^ k := by
  have e : rnd p ((2 : ℚ) ^ k) = (2 : ℚ) ^ k := by
    have := rnd_exact (p := p) (m := 1) (e := k) hp (by rw [abs_one]; exact one_le_pow₀ (by norm_num))
    simpa using this
  rw [abs_le] at h ⊢
  have a := rnd_mono hp h.1
  have b := rnd_mono hp h.2
  rw [rnd_neg, e] at a
  rw [e] at b
  exact ⟨a, b⟩

theorem le_abs_rnd {p : Nat} (hp : 0 < p) {k : Int} {x : ℚ} (h : (2 : ℚ) ^ k ≤ |x|) : (2 : ℚ) ^ k ≤ |rnd p x| := by
  have e : rnd p ((2 : ℚ) ^ k) = (2 : ℚ) ^ k := by
    have := rnd_exact (p := p) (m := 1) (e := k) hp (by rw [abs_one]; exact one_le_pow₀ (by norm_num))
    simpa using this
  rcases le_total 0 x with c | c
  · rw [abs_of_nonneg c] at h
    have := rnd_mono hp h
    rw [e] at this
    exact this.trans (le_abs_self _)
  · rw [abs_of_nonpos c] at h
    have := rnd_mono hp h
    rw [rnd_neg, e] at this
    exact this.trans (neg_le_abs _)

private theorem rndE_large {p : Nat} {emin : Int} {x : ℚ} (h : (2 : ℚ) ^ (emin + p - 1) ≤ |x|) : rndE p emin x = rnd p x := by
  have h0 : x ≠ 0 := by
    rintro rfl
    rw [abs_zero] at h
    exact absurd h (not_le.2 (zpow2_pos _))
  rw [rndE, if_neg h0, rnd_def h0]
  have : emin ≤ ilog2 x - ((p : Int) - 1) := by
    by_contra hn
    have h1 := (ilog2_spec h0).2
    have h2 := zpow2_le (show ilog2 x + 1 ≤ emin + p - 1 by omega)
    linarith
  rw [max_eq_left this]

private theorem rndE_grid {p : Nat} (hp : 0 < p) {emin : Int} {x : ℚ} (h : Grid emin x) : rndE p emin x = rnd p x := by
  by_cases c : (2 : ℚ) ^ (emin + p - 1) ≤ |x|
  · exact rndE_large c
  · push Not at c
    by_cases h0 : x = 0
    · subst h0; rw [rnd_zero]; simp [rndE]
    · obtain ⟨k, hk⟩ := h
      have hu := zpow2_pos emin
      have e1 : max (ilog2 x - ((p : Int) - 1)) emin = emin := by
        apply max_eq_right
        by_contra hn
        have h1 := (ilog2_spec h0).1
        have h2 := zpow2_le (show emin + p - 1 ≤ ilog2 x by omega)
        linarith
      have hm : |k| ≤ 2 ^ p := by
        have h1 : |(k : ℚ)| * (2 : ℚ) ^ emin < (2 : ℚ) ^ (emin + p - 1) := by
          rw [hk, abs_mul, abs_of_pos hu] at c; exact c
        have h2 := zpow2_le (show emin + p - 1 ≤ (p : Int) + emin by omega)
        rw [zpow2_split, zpow_natCast] at h2
        have h3 : |(k : ℚ)| < 2 ^ p := lt_of_mul_lt_mul_right (h1.trans_le h2) hu.le
        have h3 : |k| < 2 ^ p := by exact_mod_cast h3
        exact h3.le
      rw [rndE, if_neg h0, e1]
      conv_lhs => rw [hk, mul_div_cancel_right₀ _ hu.ne', rint_int]
      conv_rhs => rw [hk, rnd_exact hp hm]

theorem ieee32_grid {x : ℚ} (h : Grid (-149) x) (k : Int) (hx : |x| ≤ (2 : ℚ) ^ k) (hk : k < 128 := by norm_num) : Ieee.ieee32 x = .ok (f32 x) := by
  refine (ieee_eq 24 (-149) 128 x _ (zpow2_pos _)).2 ⟨rndE_grid (by norm_num) h, ?_⟩
  exact lt_of_le_of_lt (abs_rnd_le (by norm_num) hx) (zpow_lt_zpow_right₀ (by norm_num) hk)

theorem ieee32_large {x : ℚ} (h : (2 : ℚ) ^ (-126 : Int) ≤ |x|) (k : Int) (hx : |x| ≤ (2 : ℚ) ^ k) (hk : k < 128 := by norm_num) : Ieee.ieee32 x = .ok (f32 x) := by
  refine (ieee_eq 24 (-149) 128 x _ (zpow2_pos _)).2 ⟨rndE_large h, ?_⟩
  exact lt_of_le_of_lt (abs_rnd_le (by norm_num) hx) (zpow_lt_zpow_right₀ (by norm_num) hk)

theorem ieee64_grid {x : ℚ} (h : Grid (-1074) x) (k : Int) (hx : |x| ≤ (2 : ℚ) ^ k) (hk : k < 1024 := by norm_num) : Ieee.ieee64 x = .ok (f64 x) := by
  refine (ieee_eq 53 (-1074) 1024 x _ (zpow2_pos _)).2 ⟨rndE_grid (by norm_num) h, ?_⟩
  exact lt_of_le_of_lt (abs_rnd_le (by norm_num) hx) (zpow_lt_zpow_right₀ (by norm_num) hk)

theorem ieee64_large {x : ℚ} (h : (2 : ℚ) ^ (-1022 : Int) ≤ |x|) (k : Int) (hx : |x| ≤ (2 : ℚ) ^ k) (hk : k < 1024 := by norm_num) : Ieee.ieee64 x = .ok (f64 x) := by
  refine (ieee_eq 53 (-1074) 1024 x _ (zpow2_pos _)).2 ⟨rndE_large h, ?_⟩
  exact lt_of_le_of_lt (abs_rnd_le (by norm_num) hx) (zpow_lt_zpow_right₀ (by norm_num) hk)

end LibSub
