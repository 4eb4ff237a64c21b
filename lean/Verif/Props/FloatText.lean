/-
Property C106: numbers as a dump writes them.
-/
import Verif.Model.DumpSubs
import Verif.Lemmas.Text
import Verif.Lemmas.Float
import Verif.Props.DumpText
import Mathlib.Tactic.Linarith
import Mathlib.Tactic.FieldSimp
import Mathlib.Tactic.Ring
import Mathlib.Tactic.NormNum
import Mathlib.Tactic.Positivity
import Mathlib.Data.Rat.Floor

namespace LibSub

/-! ### Specification -/

/-- The number that digits stand for. -/
def digitsNumber (s : Str) : ℚ := s.foldl (fun n c => 10 * n + (c.toNat - 48 : ℕ)) 0

/-- The exponent in `e+10`, `e-05`; 0 if there is none. -/
def writtenExponent : Str → ℤ
  | 101 :: 45 :: ds => -(ds.foldl (fun n c => 10 * n + (c.toNat - 48 : ℕ)) 0 : ℕ)
  | 101 :: 43 :: ds => (ds.foldl (fun n c => 10 * n + (c.toNat - 48 : ℕ)) 0 : ℕ)
  | _ => 0

/-- The value of a number without sign, with or without fraction and exponent. -/
def writtenValue (s : Str) : ℚ :=
  let digit (c : Byte) : Bool := 48 ≤ c && c ≤ 57
  let whole := s.takeWhile digit
  match s.dropWhile digit with
  | 46 :: r => (digitsNumber whole + digitsNumber (r.takeWhile digit) / 10 ^ (r.takeWhile digit).length) * 10 ^ writtenExponent (r.dropWhile digit)
  | r => digitsNumber whole * 10 ^ writtenExponent r

/-- The value of a number as it is written. -/
def writtenNumber : Str → ℚ
  | 45 :: s => -writtenValue s
  | s => writtenValue s

/-- A number with at most six significant digits. -/
def SixDigits (q : ℚ) : Prop := ∃ (m : ℤ) (e : ℤ), |m| < 10 ^ 6 ∧ q = m * (10 : ℚ) ^ e

/-! ### Exponents -/

private theorem pow10_eq (e : Int) : pow10 e = (10 : ℚ) ^ e := by
  unfold pow10
  split
  · rename_i h
    obtain ⟨n, rfl⟩ := Int.eq_ofNat_of_zero_le h
    simp
  · rename_i h
    obtain ⟨n, hn⟩ := Int.eq_ofNat_of_zero_le (by omega : 0 ≤ -e)
    have : e = -(n : Int) := by omega
    subst this
    simp

private theorem natDec_lt_pow (n : Nat) : n < 10 ^ (natDec n).length := by
  induction n using Nat.strong_induction_on with
  | _ n ih =>
    by_cases hn : n < 10
    · rw [natDec_lt hn]; simpa using hn
    · have := ih (n / 10) (by omega)
      rw [natDec_ge (by omega), List.length_append, List.length_singleton, pow_succ]
      omega

private theorem pow_le_natDec {n : Nat} (h : 1 ≤ n) : 10 ^ ((natDec n).length - 1) ≤ n := by
  by_contra hc
  have h0 := natDec_length_pos n
  by_cases h1 : (natDec n).length = 1
  · rw [h1] at hc; simp at hc; omega
  · have := natDec_length_le n ((natDec n).length - 1) (by omega) (by omega)
    omega

private theorem ilog10_spec {v : ℚ} (hv : 0 < v) : (10 : ℚ) ^ ilog10 v ≤ v ∧ v < (10 : ℚ) ^ (ilog10 v + 1) := by
  unfold ilog10
  split
  · rename_i h
    obtain ⟨n, hn⟩ := Int.eq_ofNat_of_zero_le (Rat.le_floor_iff.2 (by simpa using hv.le) : (0 : ℤ) ≤ v.floor)
    have h1 : (1 : ℤ) ≤ v.floor := Rat.le_floor_iff.2 (by simpa using h)
    have h2 := floor_le v
    have h3 := lt_floor_add_one v
    rw [hn] at h1 h2 h3 ⊢
    rw [Int.toNat_natCast]
    have a := pow_le_natDec (n := n) (by omega)
    have b := natDec_lt_pow n
    have c := natDec_length_pos n
    obtain ⟨k, hk⟩ : ∃ k, (natDec n).length = k + 1 := ⟨(natDec n).length - 1, by omega⟩
    rw [hk] at a b ⊢
    have e1 : ((k + 1 : ℕ) : ℤ) - 1 = (k : ℤ) := by omega
    rw [e1]
    have a' : ((10 : ℚ) ^ k) ≤ n := by exact_mod_cast a
    have b' : ((n : ℚ) + 1) ≤ 10 ^ (k + 1) := by exact_mod_cast b
    refine ⟨?_, ?_⟩
    · rw [zpow_natCast]; push_cast at h2; linarith
    · rw [show (k : ℤ) + 1 = ((k + 1 : ℕ) : ℤ) by push_cast; ring, zpow_natCast]; push_cast at h3; linarith
  · rename_i h
    have h : v < 1 := lt_of_not_ge h
    have hr : 1 < 1 / v := by rw [lt_div_iff₀ hv]; linarith
    have hc : (1 : ℤ) < (1 / v).ceil := Rat.lt_ceil_iff.2 (by simpa using hr)
    obtain ⟨n, hn⟩ : ∃ n : ℕ, (1 / v).ceil = n + 1 := ⟨((1 / v).ceil - 1).toNat, by omega⟩
    have h1 : 1 / v ≤ (n : ℚ) + 1 := by
      have := Rat.le_ceil (x := 1 / v)
      rw [hn] at this
      push_cast at this; exact this
    have h2 : (n : ℚ) < 1 / v := by
      have : (n : ℤ) < (1 / v).ceil := by omega
      have := Rat.lt_ceil_iff.1 this
      simpa using this
    have e : (1 / v).ceil.toNat - 1 = n := by omega
    rw [e]
    have a := pow_le_natDec (n := n) (by omega)
    have b := natDec_lt_pow n
    have c := natDec_length_pos n
    obtain ⟨k, hk⟩ : ∃ k, (natDec n).length = k + 1 := ⟨(natDec n).length - 1, by omega⟩
    rw [hk] at a b ⊢
    have a' : ((10 : ℚ) ^ k) ≤ n := by exact_mod_cast a
    have b' : ((n : ℚ) + 1) ≤ 10 ^ (k + 1) := by exact_mod_cast b
    refine ⟨?_, ?_⟩
    · rw [zpow_neg, zpow_natCast, inv_le_comm₀ (by positivity) hv, ← one_div]
      linarith
    · have e1 : -((k + 1 : ℕ) : ℤ) + 1 = -(k : ℤ) := by push_cast; ring
      rw [e1, zpow_neg, zpow_natCast, lt_inv_comm₀ hv (by positivity), ← one_div]
      linarith

/-! ### Reading what is written -/

private def isD (c : Byte) : Bool := 48 ≤ c && c ≤ 57

private theorem digits_nat (s : Str) (h : ∀ c ∈ s, isDigit c = true) : (s.foldl (fun n c => 10 * n + (c.toNat - 48 : ℕ)) 0 : ℕ) = decVal s := by
  unfold decVal
  generalize 0 = n
  induction s generalizing n with
  | nil => rfl
  | cons c s ih =>
    have := forall_byte (p := fun c => isDigit c = true → digitVal c = c.toNat - 48) (by decide +kernel) c (h c (by simp))
    rw [List.foldl_cons, List.foldl_cons, this, ih (fun c hc => h c (by simp [hc]))]

private theorem digits_rat (s : Str) (h : ∀ c ∈ s, isDigit c = true) : digitsNumber s = decVal s := by
  rw [← digits_nat s h]
  unfold digitsNumber
  suffices g : ∀ n : ℕ, s.foldl (fun (n : ℚ) c => 10 * n + (c.toNat - 48 : ℕ)) n = (s.foldl (fun n c => 10 * n + (c.toNat - 48 : ℕ)) n : ℕ) by
    simpa using g 0
  clear h
  induction s with
  | nil => intro n; rfl
  | cons c s ih =>
    intro n
    rw [List.foldl_cons, List.foldl_cons, ← ih]
    congr 1
    push_cast
    rfl

private theorem span_digits {ds r : Str} (hd : ∀ c ∈ ds, isDigit c = true) (hr : ∀ c, r.head? = some c → isD c = false) :
    (ds ++ r).takeWhile isD = ds ∧ (ds ++ r).dropWhile isD = r := by
  have he : ∀ c ∈ ds, isD c = true := fun c hc => forall_byte (p := fun c => isDigit c = true → isD c = true) (by decide +kernel) c (hd c hc)
  rw [List.takeWhile_append_of_pos he, List.dropWhile_append_of_pos he]
  cases r with
  | nil => simp
  | cons c r => rw [List.takeWhile_cons_of_neg (by simp [hr c rfl]), List.dropWhile_cons_of_neg (by simp [hr c rfl])]; simp

/-- An exponent as it is written, or none. -/
private def ExpText (r : Str) (e : ℤ) : Prop :=
  (r = [] ∧ e = 0) ∨ (∃ n : ℕ, e = n ∧ r = b!"e+" ++ setwPad 2 n) ∨ (∃ n : ℕ, e = -(n : ℤ) ∧ r = b!"e-" ++ setwPad 2 n)

private theorem pad_digits (n : Nat) : ∀ c ∈ setwPad 2 n, isDigit c = true := by
  intro c hc
  unfold setwPad intDec at hc
  rw [if_neg (by omega)] at hc
  rcases List.mem_append.1 hc with h | h
  · rw [List.eq_of_mem_replicate h]; decide
  · exact natDec_digits _ c h

private theorem exp_read {r : Str} {e : ℤ} (h : ExpText r e) : writtenExponent r = e ∧ (∀ c, r.head? = some c → isD c = false) ∧ r.head? ≠ some 46 := by
  have hv : ∀ n : ℕ, ((setwPad 2 n).foldl (fun n c => 10 * n + (c.toNat - 48 : ℕ)) 0 : ℕ) = n := by
    intro n
    rw [digits_nat _ (pad_digits n)]
    have := decVal_setwPad (w := 2) (n := (n : ℤ)) (by omega)
    exact_mod_cast this
  rcases h with ⟨rfl, rfl⟩ | ⟨n, rfl, rfl⟩ | ⟨n, rfl, rfl⟩
  · exact ⟨rfl, by simp, by simp⟩
  · refine ⟨?_, ?_, by simp⟩
    · exact congrArg (fun n : ℕ => (n : ℤ)) (hv n)
    · intro c hc
      simp at hc
      subst hc; decide
  · refine ⟨?_, ?_, by simp⟩
    · exact congrArg (fun n : ℕ => -(n : ℤ)) (hv n)
    · intro c hc
      simp at hc
      subst hc; decide

private theorem trim_split (ds : Str) : ∃ f k, ds = f ++ List.replicate k 48 ∧ trimFraction ds = if f = [] then [] else 46 :: f := by
  refine ⟨(ds.reverse.dropWhile (· == 48)).reverse, (ds.reverse.takeWhile (· == 48)).length, ?_, ?_⟩
  · have h1 : ds.reverse.takeWhile (· == 48) = List.replicate (ds.reverse.takeWhile (· == 48)).length 48 := by
      rw [List.eq_replicate_iff]
      refine ⟨rfl, fun c hc => ?_⟩
      have := List.all_eq_true.1 List.all_takeWhile c hc
      simpa using this
    have h2 := List.takeWhile_append_dropWhile (p := (· == (48 : Byte))) (l := ds.reverse)
    have h3 := congrArg List.reverse h2
    rw [List.reverse_append, List.reverse_reverse, h1, List.reverse_replicate] at h3
    simpa using h3.symm
  · unfold trimFraction
    cases (ds.reverse.dropWhile (· == 48)).reverse <;> simp

private theorem value_read {w ds r : Str} {e : ℤ} (hw : ∀ c ∈ w, isDigit c = true) (hd : ∀ c ∈ ds, isDigit c = true) (hr : ExpText r e) :
    writtenValue (w ++ trimFraction ds ++ r) = (decVal w + (decVal ds : ℚ) / 10 ^ ds.length) * 10 ^ e := by
  obtain ⟨e1, e2, e3⟩ := exp_read hr
  obtain ⟨f, k, rfl, ht⟩ := trim_split ds
  have hf : ∀ c ∈ f, isDigit c = true := fun c hc => hd c (by simp [hc])
  have hfv : (decVal (f ++ List.replicate k 48) : ℚ) / 10 ^ (f ++ List.replicate k (48 : Byte)).length = (decVal f : ℚ) / 10 ^ f.length := by
    rw [decVal_append, decVal_replicate_zero, List.length_append, List.length_replicate, pow_add]
    push_cast
    field_simp
    simp
  rw [hfv, ht]
  by_cases h0 : f = []
  · subst h0
    rw [if_pos rfl, List.append_nil]
    obtain ⟨g1, g2⟩ := span_digits (r := r) hw e2
    have : writtenValue (w ++ r) = digitsNumber ((w ++ r).takeWhile isD) * 10 ^ writtenExponent ((w ++ r).dropWhile isD) := by
      show (match (w ++ r).dropWhile isD with | 46 :: r => _ | r => _) = _
      rw [g2]
      split
      · simp at e3
      · rfl
    rw [this, g1, g2, digits_rat w hw, e1]
    simp [decVal]
  · rw [if_neg h0, List.append_assoc, List.cons_append]
    obtain ⟨g1, g2⟩ := span_digits (r := 46 :: (f ++ r)) hw (by intro c hc; simp at hc; subst hc; decide)
    obtain ⟨g3, g4⟩ := span_digits (r := r) hf e2
    show (match (w ++ 46 :: (f ++ r)).dropWhile isD with | 46 :: r => _ | r => _) = _
    rw [g2]
    show (digitsNumber ((w ++ 46 :: (f ++ r)).takeWhile isD) + digitsNumber ((f ++ r).takeWhile isD) / 10 ^ ((f ++ r).takeWhile isD).length) * 10 ^ writtenExponent ((f ++ r).dropWhile isD) = _
    rw [g1, g3, g4, e1, digits_rat w hw, digits_rat f hf]

/-- Six digits are read as they stand. -/
private theorem six_read (m : Nat) (h1 : 10 ^ 5 ≤ m) (h2 : m < 10 ^ 6) (e : ℤ) : writtenValue (showSix m e) = m * (10 : ℚ) ^ (e - 5) := by
  have hl : (natDec m).length = 6 := by
    have a := natDec_length_le m 6 (by decide) h2
    have b := natDec_lt_pow m
    by_contra hc
    have : (natDec m).length ≤ 5 := by omega
    have := Nat.pow_le_pow_right (n := 10) (by decide) this
    omega
  have hd := natDec_digits m
  have hv := decVal_natDec m
  generalize hds : natDec m = ds at *
  have split : ∀ k ≤ 6, (decVal (ds.take k) : ℚ) + decVal (ds.drop k) / 10 ^ (ds.drop k).length = m * (10 : ℚ) ^ ((k : ℤ) - 6) := by
    intro k hk
    have : decVal (ds.take k ++ ds.drop k) = m := by rw [List.take_append_drop, hv]
    rw [decVal_append, List.length_drop, hl] at this
    rw [List.length_drop, hl, ← this]
    have e6 : (k : ℤ) - 6 = -((6 - k : ℕ) : ℤ) := by omega
    rw [e6, zpow_neg, zpow_natCast]
    push_cast
    field_simp
  have ht : ∀ k, ∀ c ∈ ds.take k, isDigit c = true := fun k c hc => hd c (List.mem_of_mem_take hc)
  have hdr : ∀ k, ∀ c ∈ ds.drop k, isDigit c = true := fun k c hc => hd c (List.mem_of_mem_drop hc)
  unfold showSix
  rw [hds]
  simp only
  split_ifs with c1 c2
  · have := value_read (ht (e.toNat + 1)) (hdr (e.toNat + 1)) (.inl ⟨rfl, rfl⟩ : ExpText [] 0)
    rw [List.append_nil] at this
    rw [this, split _ (by omega), zpow_zero, mul_one]
    congr 2
    push_cast
    omega
  · have hz : ∀ c ∈ List.replicate ((-e).toNat - 1) (48 : Byte) ++ ds, isDigit c = true := by
      intro c hc
      rcases List.mem_append.1 hc with hc | hc
      · rw [List.eq_of_mem_replicate hc]; decide
      · exact hd c hc
    have := value_read (w := b!"0") (by decide) hz (.inl ⟨rfl, rfl⟩ : ExpText [] 0)
    rw [List.append_nil] at this
    rw [this, decVal_zeros_append, hv, List.length_append, List.length_replicate, hl, zpow_zero, mul_one]
    have e7 : e - 5 = -(((-e).toNat - 1 + 6 : ℕ) : ℤ) := by omega
    rw [e7, zpow_neg, zpow_natCast]
    simp [decVal, digitVal]
    rfl
  · have := value_read (ht 1) (hdr 1) (.inr (.inr ⟨e.natAbs, by omega, rfl⟩) : ExpText _ e)
    rw [split 1 (by omega), mul_assoc, ← zpow_add₀ (by norm_num)] at this
    rw [show e - 5 = ((1 : ℕ) : ℤ) - 6 + e by push_cast; ring, ← this]
    simp
  · have := value_read (ht 1) (hdr 1) (.inr (.inl ⟨e.natAbs, by omega, rfl⟩) : ExpText _ e)
    rw [split 1 (by omega), mul_assoc, ← zpow_add₀ (by norm_num)] at this
    rw [show e - 5 = ((1 : ℕ) : ℤ) - 6 + e by push_cast; ring, ← this]
    simp

private theorem six_head (m : Nat) (e : ℤ) : (showSix m e).head? ≠ some 45 := by
  have hd := natDec_digits m
  have hne := natDec_ne_nil m
  have key : ∀ k r, ((natDec m).take (k + 1) ++ r).head? ≠ some 45 := by
    intro k r h
    cases hds : natDec m with
    | nil => exact hne hds
    | cons c ds =>
      rw [hds] at h
      simp at h
      have := hd c (by simp [hds])
      rw [h] at this
      revert this; decide
  unfold showSix
  simp only
  split_ifs
  · exact key _ _
  · simp
  · simp only [List.append_assoc]; exact key 0 _
  · simp only [List.append_assoc]; exact key 0 _

/-- The digits and the exponent of a positive number, as they are written. -/
private theorem digits_of {v : ℚ} (hv : 0 < v) : ∃ (m : ℕ) (e : ℤ), 10 ^ 5 ≤ m ∧ m < 10 ^ 6 ∧
    (if (rint (v * pow10 (5 - ilog10 v))).toNat = 1000000 then showSix 100000 (ilog10 v + 1) else showSix (rint (v * pow10 (5 - ilog10 v))).toNat (ilog10 v)) = showSix m e ∧
    (m : ℚ) * 10 ^ (e - 5) = rint (v * 10 ^ (5 - ilog10 v)) * (10 : ℚ) ^ (ilog10 v - 5) ∧ ilog10 v ≤ e ∧ e ≤ ilog10 v + 1 := by
  obtain ⟨h1, h2⟩ := ilog10_spec hv
  rw [pow10_eq]
  generalize ilog10 v = e at h1 h2 ⊢
  have hp : (0 : ℚ) < 10 ^ (5 - e) := by positivity
  have a : (10 : ℚ) ^ 5 ≤ v * 10 ^ (5 - e) := by
    calc (10 : ℚ) ^ 5 = 10 ^ e * 10 ^ (5 - e) := by rw [← zpow_add₀ (by norm_num)]; norm_num
      _ ≤ _ := by gcongr
  have b : v * 10 ^ (5 - e) ≤ (10 : ℚ) ^ 6 := by
    calc v * 10 ^ (5 - e) ≤ 10 ^ (e + 1) * 10 ^ (5 - e) := by gcongr
      _ = 10 ^ 6 := by rw [← zpow_add₀ (by norm_num), show e + 1 + (5 - e) = 6 by ring]; norm_num
  have a' : (10 : ℤ) ^ 5 ≤ rint (v * 10 ^ (5 - e)) := by
    have := rint_mono a
    rw [show (10 : ℚ) ^ 5 = ((10 ^ 5 : ℤ) : ℚ) by norm_num, rint_int] at this
    exact this
  have b' : rint (v * 10 ^ (5 - e)) ≤ (10 : ℤ) ^ 6 := by
    have := rint_mono b
    rw [show (10 : ℚ) ^ 6 = ((10 ^ 6 : ℤ) : ℚ) by norm_num, rint_int] at this
    exact this
  obtain ⟨m, hm⟩ := Int.eq_ofNat_of_zero_le (by omega : 0 ≤ rint (v * 10 ^ (5 - e)))
  rw [hm] at a' b' ⊢
  rw [Int.toNat_natCast]
  by_cases hc : m = 1000000
  · refine ⟨100000, e + 1, by norm_num, by norm_num, by rw [if_pos hc], ?_, by omega, by omega⟩
    rw [hc, show e + 1 - 5 = (e - 5) + 1 by ring, zpow_add₀ (by norm_num)]
    push_cast
    ring
  · refine ⟨m, e, by omega, by omega, by rw [if_neg hc], ?_, by omega, by omega⟩
    push_cast
    rfl

private theorem written_neg (s : Str) : writtenNumber (45 :: s) = -writtenValue s := rfl

private theorem written_pos {s : Str} (h : s.head? ≠ some 45) : writtenNumber s = writtenValue s := by
  unfold writtenNumber
  split
  · simp at h
  · rfl

/-- What is written for a number. -/
private theorem written_eq {x : ℚ} (hx : x ≠ 0) : ∃ (m : ℕ) (e : ℤ), 10 ^ 5 ≤ m ∧ m < 10 ^ 6 ∧ showFloat x = (if x < 0 then b!"-" else []) ++ showSix m e ∧
    writtenNumber (showFloat x) = (if x < 0 then -1 else 1) * (m * 10 ^ (e - 5)) ∧
    (m : ℚ) * 10 ^ (e - 5) = rint (|x| * 10 ^ (5 - ilog10 |x|)) * (10 : ℚ) ^ (ilog10 |x| - 5) ∧ ilog10 |x| ≤ e ∧ e ≤ ilog10 |x| + 1 := by
  have hv : 0 < |x| := abs_pos.2 hx
  obtain ⟨m, e, h1, h2, h3, h4, h5⟩ := digits_of hv
  have hs : showFloat x = (if x < 0 then b!"-" else []) ++ showSix m e := by
    unfold showFloat
    rw [if_neg hx]
    simp only
    rw [absR_eq, h3]
  refine ⟨m, e, h1, h2, hs, ?_, h4, h5⟩
  rw [hs]
  split_ifs
  · show writtenNumber (45 :: showSix m e) = _
    rw [written_neg, six_read m h1 h2]; ring
  · rw [List.nil_append, written_pos (six_head m e), six_read m h1 h2]; ring

/-- C106: what a dump writes for a number is a number with at most six digits, and none is nearer to it. -/
theorem C106_nearest (x : ℚ) : SixDigits (writtenNumber (showFloat x)) ∧ ∀ q, SixDigits q → |writtenNumber (showFloat x) - x| ≤ |q - x| := by
  by_cases hx : x = 0
  · subst hx
    have : writtenNumber (showFloat 0) = 0 := by
      show writtenNumber b!"0" = 0
      rw [written_pos (by decide)]
      have := value_read (w := b!"0") (ds := []) (by decide) (by simp) (.inl ⟨rfl, rfl⟩ : ExpText [] 0)
      simpa [decVal, digitVal, trimFraction] using this
    rw [this]
    exact ⟨⟨0, 0, by norm_num, by norm_num⟩, fun q _ => by simp⟩
  · obtain ⟨m, e, h1, h2, -, h3, h4, -⟩ := written_eq hx
    have hv : 0 < |x| := abs_pos.2 hx
    obtain ⟨l1, -⟩ := ilog10_spec hv
    generalize ilog10 |x| = k at l1 h4
    have hp : (0 : ℚ) < 10 ^ (k - 5) := by positivity
    obtain ⟨a, ha⟩ : ∃ a, a = |x| := ⟨_, rfl⟩
    rw [← ha] at hv l1 h4
    -- it is enough to look at the size
    have key : ∀ q, SixDigits q → |(m : ℚ) * 10 ^ (e - 5) - a| ≤ |q - a| := by
      have mult : ∀ n : ℤ, |(m : ℚ) * 10 ^ (e - 5) - a| ≤ |(n : ℚ) * 10 ^ (k - 5) - a| := by
        intro n
        rw [h4]
        have hx' : a = (a * 10 ^ (5 - k)) * 10 ^ (k - 5) := by
          rw [mul_assoc, ← zpow_add₀ (by norm_num)]; simp
        generalize a * (10 : ℚ) ^ (5 - k) = y at hx' ⊢
        rw [hx', ← sub_mul, ← sub_mul, abs_mul, abs_mul, abs_of_pos hp]
        refine mul_le_mul_of_nonneg_right ?_ hp.le
        by_cases hn : n = rint y
        · rw [hn]
        · have a' := abs_rint_sub_le y
          have b : (1 : ℚ) ≤ |(n : ℚ) - rint y| := by
            have : (1 : ℤ) ≤ |n - rint y| := Int.one_le_abs (by omega)
            exact_mod_cast this
          have c := abs_sub_le (n : ℚ) y (rint y)
          rw [abs_sub_comm y] at c
          linarith
      rintro q ⟨n, j, hn, rfl⟩
      by_cases hj : k - 5 ≤ j
      · obtain ⟨d, hd⟩ := Int.eq_ofNat_of_zero_le (by omega : 0 ≤ j - (k - 5))
        have : (n : ℚ) * 10 ^ j = ((n * 10 ^ d : ℤ) : ℚ) * 10 ^ (k - 5) := by
          rw [show j = (d : ℤ) + (k - 5) by omega, zpow_add₀ (by norm_num), zpow_natCast]
          push_cast
          ring
        rw [this]
        exact mult _
      · have h5 : |(n : ℚ) * 10 ^ j| ≤ 10 ^ k := by
          rw [abs_mul, abs_of_pos (by positivity : (0 : ℚ) < 10 ^ j)]
          have h6 : |(n : ℚ)| ≤ 10 ^ 6 := by exact_mod_cast hn.le
          calc |(n : ℚ)| * 10 ^ j ≤ 10 ^ 6 * 10 ^ (k - 6) := by
                gcongr
                · norm_num
                · omega
            _ = 10 ^ k := by
                rw [show (10 : ℚ) ^ 6 = 10 ^ (6 : ℤ) by norm_num, ← zpow_add₀ (by norm_num)]
                congr 1; ring
        have h7 := mult (10 ^ 5)
        have h8 : (((10 ^ 5 : ℤ) : ℚ)) * 10 ^ (k - 5) = 10 ^ k := by
          rw [show (((10 ^ 5 : ℤ) : ℚ)) = 10 ^ (5 : ℤ) by norm_num, ← zpow_add₀ (by norm_num)]
          congr 1; ring
        rw [h8] at h7
        have h9 : |(10 : ℚ) ^ k - a| = a - 10 ^ k := by rw [abs_sub_comm, abs_of_nonneg (by linarith)]
        have h10 := le_abs_self ((n : ℚ) * 10 ^ j)
        have h11 : a - 10 ^ k ≤ |(n : ℚ) * 10 ^ j - a| := by
          rw [abs_sub_comm]
          exact le_trans (by linarith) (le_abs_self _)
        linarith
    rw [h3]
    split_ifs with hneg
    · refine ⟨⟨-m, e - 5, by rw [abs_neg]; simpa using (by exact_mod_cast h2), by push_cast; ring⟩, ?_⟩
      rintro q ⟨n, j, hn, rfl⟩
      have := key (-(n * 10 ^ j)) ⟨-n, j, by rwa [abs_neg], by push_cast; ring⟩
      rw [ha, abs_of_neg hneg] at this
      rw [← abs_neg, ← abs_neg ((n : ℚ) * 10 ^ j - x)]
      convert this using 2 <;> ring
    · refine ⟨⟨m, e - 5, by simpa using (by exact_mod_cast h2), by push_cast; ring⟩, ?_⟩
      intro q hq
      have := key q hq
      rw [ha, abs_of_nonneg (le_of_not_gt hneg)] at this
      rwa [one_mul]

/-- C106: it is wrong by at most one part in 200000. -/
theorem C106_error (x : ℚ) : |writtenNumber (showFloat x) - x| ≤ |x| / 200000 := by
  by_cases hx : x = 0
  · subst hx
    have := (C106_nearest 0).2 0 ⟨0, 0, by norm_num, by norm_num⟩
    simpa using this
  · have hv : 0 < |x| := abs_pos.2 hx
    obtain ⟨l1, -⟩ := ilog10_spec hv
    have hp : (0 : ℚ) < 10 ^ (ilog10 |x| - 5) := by positivity
    -- the nearest multiple of the last digit
    have h := (C106_nearest x).2
    obtain ⟨m, e, h1, h2, -, h3, h4, -⟩ := written_eq hx
    have hd : |(m : ℚ) * 10 ^ (e - 5) - (if x < 0 then -x else x)| ≤ 10 ^ (ilog10 |x| - 5) / 2 := by
      have ha : (if x < 0 then -x else x) = |x| := by
        split_ifs with hn
        · rw [abs_of_neg hn]
        · rw [abs_of_nonneg (le_of_not_gt hn)]
      rw [ha, h4]
      have hx' : |x| = (|x| * 10 ^ (5 - ilog10 |x|)) * 10 ^ (ilog10 |x| - 5) := by
        rw [mul_assoc, ← zpow_add₀ (by norm_num)]; simp
      generalize ilog10 |x| = k at *
      generalize |x| * (10 : ℚ) ^ (5 - k) = y at hx' ⊢
      rw [hx', ← sub_mul, abs_mul, abs_of_pos hp]
      have := abs_rint_sub_le y
      nlinarith
    have hk : (10 : ℚ) ^ (ilog10 |x| - 5) / 2 ≤ |x| / 200000 := by
      rw [zpow_sub₀ (by norm_num)]
      norm_num
      linarith
    rw [h3]
    split_ifs at hd ⊢ with hn
    · rw [← abs_neg, show -(-1 * ((m : ℚ) * 10 ^ (e - 5)) - x) = (m : ℚ) * 10 ^ (e - 5) - -x by ring]; linarith
    · rw [one_mul]; linarith

private theorem trim_chars (ds : Str) : ∀ c ∈ trimFraction ds, c = 46 ∨ c ∈ ds := by
  obtain ⟨f, k, rfl, h⟩ := trim_split ds
  intro c hc
  rw [h] at hc
  split_ifs at hc
  · cases hc
  · rcases List.mem_cons.1 hc with h | h
    · exact .inl h
    · exact .inr (by simp [h])

private theorem six_chars (m : Nat) (e : ℤ) : ∀ c ∈ showSix m e, isDigit c = true ∨ c = 46 ∨ (c ∈ b!"e+-" ∧ ¬ (-4 ≤ e ∧ e < 6)) := by
  have hd := natDec_digits m
  have ht : ∀ k, ∀ c ∈ (natDec m).take k, isDigit c = true := fun k c hc => hd c (List.mem_of_mem_take hc)
  have hf : ∀ k, ∀ c ∈ trimFraction ((natDec m).drop k), isDigit c = true ∨ c = 46 := by
    intro k c hc
    rcases trim_chars _ c hc with h | h
    · exact .inr h
    · exact .inl (hd c (List.mem_of_mem_drop h))
  have hp := pad_digits e.natAbs
  intro c hc
  unfold showSix at hc
  simp only at hc
  split_ifs at hc with c1 c2
  · rcases List.mem_append.1 hc with hc | hc
    · exact .inl (ht _ c hc)
    · rcases hf _ c hc with h | h
      · exact .inl h
      · exact .inr (.inl h)
  · rcases List.mem_append.1 hc with hc | hc
    · rw [List.mem_singleton.1 hc]; exact .inl (by decide)
    · rcases trim_chars _ c hc with h | h
      · exact .inr (.inl h)
      · rcases List.mem_append.1 h with h | h
        · rw [List.eq_of_mem_replicate h]; exact .inl (by decide)
        · exact .inl (hd c h)
  all_goals
    simp only [List.mem_append] at hc
    rcases hc with (((hc | hc) | hc) | hc) | hc
    · exact .inl (ht _ c hc)
    · rcases hf _ c hc with h | h
      · exact .inl h
      · exact .inr (.inl h)
    · exact .inr (.inr ⟨by simp at hc ⊢; exact .inl hc, by omega⟩)
    · exact .inr (.inr ⟨by simp at hc ⊢; simp [hc], by omega⟩)
    · exact .inl (hp c hc)

private theorem zero_text : showFloat 0 = b!"0" := rfl

/-- C106: numbers are written with digits, point, sign and `e` only, so that they satisfy the condition of C105. -/
theorem C106_chars (x : ℚ) : ∀ c ∈ showFloat x, isDigit c = true ∨ c ∈ b!".e+-" := by
  by_cases hx : x = 0
  · subst hx
    rw [zero_text]; decide
  · obtain ⟨m, e, -, -, h, -⟩ := written_eq hx
    intro c hc
    rw [h] at hc
    rcases List.mem_append.1 hc with hc | hc
    · split_ifs at hc
      · rw [List.mem_singleton.1 hc]; exact .inr (by decide)
      · cases hc
    · rcases six_chars m e c hc with h | h | ⟨h, -⟩
      · exact .inl h
      · exact .inr (by rw [h]; decide)
      · exact .inr (by simp at h ⊢; tauto)

theorem showFloat_plain : PlainNumbers showFloat := by
  intro x c hc
  have := forall_byte (p := fun c => (isDigit c = true ∨ c ∈ b!".e+-") → c ≠ 32 ∧ c ≠ 9 ∧ c ≠ 10) (by decide +kernel) c
  exact this (C106_chars x c hc)

private theorem trim_last (ds : Str) (h : (46 : Byte) ∈ trimFraction ds) : (trimFraction ds).getLast? ≠ some 48 := by
  unfold trimFraction at h ⊢
  have key : ((ds.reverse.dropWhile (· == 48)).reverse).getLast? ≠ some 48 := by
    rw [List.getLast?_reverse]
    intro hh
    have := List.head?_dropWhile_not (· == (48 : Byte)) ds.reverse
    rw [hh] at this
    simp at this
  cases hr : (ds.reverse.dropWhile (· == 48)).reverse with
  | nil => rw [hr] at h; cases h
  | cons c f =>
    rw [hr] at key
    simpa using key

/-- C106: numbers from 0.0001 up to 100000 are written without exponent, and without zeros at the end of a fraction. -/
theorem C106_fixed (x : ℚ) (h1 : 1 / 10 ^ 4 ≤ |x|) (h2 : |x| < 10 ^ 5) : (101 : Byte) ∉ showFloat x ∧ ((46 : Byte) ∈ showFloat x → (showFloat x).getLast? ≠ some 48) := by
  have hv : 0 < |x| := lt_of_lt_of_le (by norm_num) h1
  have hx : x ≠ 0 := abs_pos.1 hv
  obtain ⟨m, e, m1, m2, h, -, -, h5⟩ := written_eq hx
  obtain ⟨l1, l2⟩ := ilog10_spec hv
  have k1 : -4 ≤ ilog10 |x| := by
    by_contra hc
    have : (10 : ℚ) ^ (ilog10 |x| + 1) ≤ 10 ^ (-4 : ℤ) := zpow_le_zpow_right₀ (by norm_num) (by omega)
    have e4 : (10 : ℚ) ^ (-4 : ℤ) = 1 / 10 ^ 4 := by norm_num
    rw [e4] at this
    exact absurd (lt_of_lt_of_le l2 this) (not_lt.2 h1)
  have k2 : ilog10 |x| ≤ 4 := by
    by_contra hc
    have : (10 : ℚ) ^ (5 : ℤ) ≤ 10 ^ ilog10 |x| := zpow_le_zpow_right₀ (by norm_num) (by omega)
    have e4 : (10 : ℚ) ^ (5 : ℤ) = 10 ^ 5 := by norm_num
    linarith
  rw [h]
  constructor
  · intro hc
    rcases List.mem_append.1 hc with hc | hc
    · split_ifs at hc
      · revert hc; decide
      · cases hc
    · rcases six_chars m e _ hc with h | h | ⟨-, h⟩
      · revert h; decide
      · revert h; decide
      · omega
  · have hm : (46 : Byte) ∉ natDec m := fun hh => absurd (natDec_digits m 46 hh) (by decide)
    have fin : ∀ (a b ds : Str), (46 : Byte) ∉ a → (46 : Byte) ∉ b → (46 : Byte) ∈ a ++ (b ++ trimFraction ds) → (a ++ (b ++ trimFraction ds)).getLast? ≠ some 48 := by
      intro a b ds ha hb hmem
      have h46 : (46 : Byte) ∈ trimFraction ds := by simpa [ha, hb] using hmem
      have hne : trimFraction ds ≠ [] := List.ne_nil_of_mem h46
      rw [← List.append_assoc, List.getLast?_append_of_ne_nil _ hne]
      exact trim_last ds h46
    have hsgn : (46 : Byte) ∉ (if x < 0 then b!"-" else [] : Str) := by split_ifs <;> decide
    unfold showSix
    simp only
    by_cases c1 : 0 ≤ e ∧ e < 6
    · rw [if_pos c1]
      exact fin _ _ _ hsgn (fun hh => hm (List.mem_of_mem_take hh))
    · have c2 : -4 ≤ e ∧ e < 0 := by omega
      rw [if_neg c1, if_pos c2]
      exact fin _ b!"0" _ hsgn (by decide)

-- a third of the screen, and numbers at the edges of what is written without exponent
example : showFloat (f32 (1 / 3)) = b!"0.333333" ∧ showFloat (f32 (9 / 100)) = b!"0.09" ∧ showFloat (f32 (1 / 20000)) = b!"5e-05" ∧ showFloat (-123456789) = b!"-1.23457e+08" ∧
    showFloat (1999999 / 2) = b!"1e+06" ∧ (1 : ℚ) / 10 ^ 4 ≤ |9 / 100| ∧ |(9 : ℚ) / 100| < 10 ^ 5 ∧ SixDigits (333333 * 10 ^ (-6 : ℤ)) := by
  refine ⟨by decide +kernel, by decide +kernel, by decide +kernel, by decide +kernel, by decide +kernel, by norm_num, by norm_num, 333333, -6, by norm_num, by norm_num⟩

end LibSub
