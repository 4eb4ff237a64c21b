/-
Helper lemmas about byte strings: digits, decimal printing and parsing, splitting.
-/
import Verif.Model.Text
import Verif.Lemmas.Time
import Mathlib.Tactic.IntervalCases

namespace LibSub

/-! ### Digits -/

/-- A statement about all bytes can be checked byte by byte. -/
theorem forall_byte {p : UInt8 → Prop} (h : ∀ n : Fin 256, p (UInt8.ofNat n.val)) : ∀ c, p c := by
  intro c
  have := h ⟨c.toNat, c.toNat_lt⟩
  simpa using this

theorem isDigit_ofNat {n : Nat} (h : n < 10) : isDigit (UInt8.ofNat (48 + n)) = true := by
  interval_cases n <;> rfl

theorem digitVal_ofNat {n : Nat} (h : n < 10) : digitVal (UInt8.ofNat (48 + n)) = n := by
  interval_cases n <;> rfl

theorem digitVal_lt {c : Byte} (h : isDigit c = true) : digitVal c < 10 := by
  exact forall_byte (p := fun c => isDigit c = true → digitVal c < 10) (by decide +kernel) c h

theorem decVal_append (a b : Str) : decVal (a ++ b) = decVal a * 10 ^ b.length + decVal b := by
  unfold decVal
  rw [List.foldl_append]
  generalize List.foldl (fun n c => 10 * n + digitVal c) 0 a = n
  induction b generalizing n with
  | nil => simp
  | cons c cs ih =>
    simp only [List.foldl_cons, List.length_cons]
    rw [ih (10 * n + digitVal c), ih (10 * 0 + digitVal c)]
    ring

theorem decVal_replicate_zero (k : Nat) : decVal (List.replicate k 48) = 0 := by
  induction k with
  | zero => rfl
  | succ k ih =>
    rw [List.replicate_succ', decVal_append, ih]
    rfl

theorem decVal_zeros_append (k : Nat) (ds : Str) : decVal (List.replicate k 48 ++ ds) = decVal ds := by
  rw [decVal_append, decVal_replicate_zero]; simp

/-! ### Decimal printing -/

theorem natDecGo_spec (fuel n : Nat) (h : n < fuel) :
    (∀ c ∈ natDecGo fuel n, isDigit c = true) ∧ decVal (natDecGo fuel n) = n ∧ natDecGo fuel n ≠ [] := by
  induction fuel generalizing n with
  | zero => omega
  | succ fuel ih =>
    unfold natDecGo
    by_cases hn : n < 10
    · rw [if_pos hn]
      refine ⟨?_, ?_, by simp⟩
      · intro c hc
        rw [List.mem_singleton.1 hc]; exact isDigit_ofNat hn
      · show 10 * 0 + digitVal (UInt8.ofNat (48 + n)) = n
        rw [digitVal_ofNat hn]; omega
    · rw [if_neg hn]
      obtain ⟨h1, h2, h3⟩ := ih (n / 10) (by omega)
      refine ⟨?_, ?_, by simp⟩
      · intro c hc
        rw [List.mem_append] at hc
        rcases hc with hc | hc
        · exact h1 c hc
        · rw [List.mem_singleton.1 hc]; exact isDigit_ofNat (Nat.mod_lt _ (by decide))
      · rw [decVal_append, h2]
        show n / 10 * 10 ^ 1 + (10 * 0 + digitVal (UInt8.ofNat (48 + n % 10))) = n
        rw [digitVal_ofNat (Nat.mod_lt n (by decide : 0 < 10))]
        omega

theorem natDec_digits (n : Nat) : ∀ c ∈ natDec n, isDigit c = true := (natDecGo_spec _ _ (Nat.lt_succ_self n)).1

theorem decVal_natDec (n : Nat) : decVal (natDec n) = n := (natDecGo_spec _ _ (Nat.lt_succ_self n)).2.1

theorem natDec_ne_nil (n : Nat) : natDec n ≠ [] := (natDecGo_spec _ _ (Nat.lt_succ_self n)).2.2

theorem natDec_inj {a b : Nat} (h : natDec a = natDec b) : a = b := by
  rw [← decVal_natDec a, ← decVal_natDec b, h]

theorem natDecGo_fuel (f g n : Nat) (hf : n < f) (hg : n < g) : natDecGo f n = natDecGo g n := by
  induction f generalizing g n with
  | zero => omega
  | succ f ih =>
    cases g with
    | zero => omega
    | succ g =>
      unfold natDecGo
      by_cases hn : n < 10
      · rw [if_pos hn, if_pos hn]
      · rw [if_neg hn, if_neg hn, ih g (n / 10) (by omega) (by omega)]

theorem natDec_lt {n : Nat} (h : n < 10) : natDec n = [UInt8.ofNat (48 + n)] := by
  unfold natDec natDecGo; rw [if_pos h]

theorem natDec_ge {n : Nat} (h : 10 ≤ n) : natDec n = natDec (n / 10) ++ [UInt8.ofNat (48 + n % 10)] := by
  have : natDec n = natDecGo n (n / 10) ++ [UInt8.ofNat (48 + n % 10)] := by
    show natDecGo (n + 1) n = _
    rw [natDecGo, if_neg (by omega)]
  rw [this, natDec, natDecGo_fuel n (n / 10 + 1) (n / 10) (by omega) (by omega)]

theorem natDec_length_pos (n : Nat) : 0 < (natDec n).length := List.length_pos_iff.2 (natDec_ne_nil n)

theorem natDec_length_le (n k : Nat) (hk : 0 < k) (h : n < 10 ^ k) : (natDec n).length ≤ k := by
  induction k generalizing n with
  | zero => omega
  | succ k ih =>
    by_cases hn : n < 10
    · rw [natDec_lt hn]; simp
    · rw [natDec_ge (by omega), List.length_append]
      have hk0 : 0 < k := by
        rcases Nat.eq_zero_or_pos k with e | e
        · subst e; simp at h; omega
        · exact e
      have := ih (n / 10) hk0 (by rw [pow_succ] at h; omega)
      simp; exact this

theorem isDigit_ne {c : Byte} (h : isDigit c = true) (d : Byte) (hd : isDigit d = false) : c ≠ d := by
  intro e; rw [e, hd] at h; cases h

theorem takeSign_digits {s : Str} (h : ∀ c ∈ s, isDigit c = true) : takeSign s = (false, s) := by
  unfold takeSign
  split
  · exact absurd rfl (isDigit_ne (h 45 (by simp)) 45 (by decide))
  · exact absurd rfl (isDigit_ne (h 43 (by simp)) 43 (by decide))
  · rfl

theorem intDec_inj {a b : Int} (h : intDec a = intDec b) : a = b := by
  unfold intDec at h
  have hd : ∀ n : Nat, natDec n ≠ [] := natDec_ne_nil
  have key : ∀ n m : Nat, ¬ 45 :: natDec n = natDec m := by
    intro n m e
    have : (45 : Byte) ∈ natDec m := by rw [← e]; simp
    exact isDigit_ne (natDec_digits _ _ this) 45 (by decide) rfl
  split at h <;> split at h
  · have := natDec_inj (List.cons.inj h).2; omega
  · exact absurd h (key _ _)
  · exact absurd h.symm (key _ _)
  · have := natDec_inj h; omega

theorem intDec_no {a : Int} {d : Byte} (hd : isDigit d = false) (hm : d ≠ 45) : d ∉ intDec a := by
  unfold intDec
  split
  · simp only [List.mem_cons, not_or]
    exact ⟨hm, fun h => isDigit_ne (natDec_digits _ _ h) d hd rfl⟩
  · exact fun h => isDigit_ne (natDec_digits _ _ h) d hd rfl

theorem setwPad_nonneg {w : Nat} {n : Int} (h : 0 ≤ n) :
    setwPad w n = List.replicate (w - (natDec n.natAbs).length) 48 ++ natDec n.natAbs := by
  unfold setwPad intDec
  rw [if_neg (by omega)]

theorem setwPad_digits {w : Nat} {n : Int} (h : 0 ≤ n) : ∀ c ∈ setwPad w n, isDigit c = true := by
  rw [setwPad_nonneg h]
  intro c hc
  rw [List.mem_append] at hc
  rcases hc with hc | hc
  · rw [List.eq_of_mem_replicate hc]; decide
  · exact natDec_digits _ _ hc

theorem decVal_setwPad {w : Nat} {n : Int} (h : 0 ≤ n) : (decVal (setwPad w n) : Int) = n := by
  rw [setwPad_nonneg h, decVal_zeros_append, decVal_natDec]; omega

/-- Cutting two equal strings at the first occurrence of a separator. -/
theorem sep_inj {a b x y : Str} {c : Byte} (ha : c ∉ a) (hb : c ∉ b) (h : a ++ c :: x = b ++ c :: y) : a = b ∧ x = y := by
  induction a generalizing b with
  | nil =>
    cases b with
    | nil => simpa using h
    | cons d b =>
      simp at h hb
      exact absurd h.1 hb.1
  | cons d a ih =>
    cases b with
    | nil =>
      simp at h ha
      exact absurd h.1.symm ha.1
    | cons e b =>
      simp at h ha hb
      obtain ⟨h1, h2⟩ := ih ha.2 hb.2 h.2
      exact ⟨by rw [h.1, h1], h2⟩

end LibSub
