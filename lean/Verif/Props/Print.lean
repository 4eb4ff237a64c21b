/-
Property C11: the printed form of a time.
-/
import Verif.Lemmas.Text
import Verif.Props.Time
import Verif.Model.Dump

namespace LibSub

/-- Specification of decimal notation, by Lean's own digit function. -/
def decSpec (n : Nat) : Str := (Nat.toDigits 10 n).map (fun c => UInt8.ofNat c.toNat)

private theorem digitChar_byte {n : Nat} (h : n < 10) : UInt8.ofNat (Nat.digitChar n).toNat = UInt8.ofNat (48 + n) := by
  interval_cases n <;> rfl

/-- The printer of the model writes decimal notation. -/
theorem natDec_eq_decSpec (n : Nat) : natDec n = decSpec n := by
  induction n using Nat.strong_induction_on with
  | _ n ih =>
    by_cases h : n < 10
    · rw [natDec_lt h, decSpec, Nat.toDigits_of_lt_base h]
      simp [digitChar_byte h]
    · rw [natDec_ge (by omega), ih (n / 10) (by omega), decSpec, decSpec,
        Nat.toDigits_of_base_le (n := n) (by decide) (by omega), List.map_append, List.map_singleton,
        digitChar_byte (Nat.mod_lt n (by decide : 0 < 10))]

/-- At least two decimal digits. -/
def twoDigits (n : Nat) : Str := if n < 10 then 48 :: decSpec n else decSpec n

private theorem setwPad2 {n : Int} (h : 0 ≤ n) : setwPad 2 n = twoDigits n.natAbs := by
  rw [setwPad_nonneg h]
  unfold twoDigits
  rw [← natDec_eq_decSpec]
  split
  · rename_i hn
    rw [natDec_lt hn]; rfl
  · rename_i hn
    have : 2 ≤ (natDec n.natAbs).length := by
      rw [natDec_ge (by omega), List.length_append]
      have := natDec_length_pos (n.natAbs / 10)
      simp; omega
    rw [show 2 - (natDec n.natAbs).length = 0 by omega]
    rfl

/-- C11: the format. -/
theorem C11_format (h m s f : Nat) (hm : m < 60) (hs : s < 60) (rate : Option (Nat × Nat)) :
    timeToStr ⟨3600 * h + 60 * m + s, f, rate.map (fun r => ⟨r.1, r.2⟩)⟩ =
      twoDigits h ++ b!":" ++ twoDigits m ++ b!":" ++ twoDigits s ++ b!":" ++ decSpec f ++
        (match rate with
          | some r => b!" @ " ++ decSpec r.1 ++ b!"/" ++ decSpec r.2
          | none => []) := by
  have hh : Time.hours ⟨3600 * h + 60 * m + s, f, rate.map (fun r => ⟨r.1, r.2⟩)⟩ = h := by
    simp only [Time.hours]
    rw [Int.tdiv_eq_ediv_of_nonneg (by omega)]; omega
  have hm' : Time.minutes ⟨3600 * h + 60 * m + s, f, rate.map (fun r => ⟨r.1, r.2⟩)⟩ = m := by
    simp only [Time.minutes, hh]
    rw [Int.tdiv_eq_ediv_of_nonneg (by omega)]; omega
  have hs' : Time.seconds ⟨3600 * h + 60 * m + s, f, rate.map (fun r => ⟨r.1, r.2⟩)⟩ = s := by
    simp only [Time.seconds, hh, hm']
    omega
  have hd : ∀ n : Nat, intDec n = decSpec n := by
    intro n
    unfold intDec
    rw [if_neg (by omega), natDec_eq_decSpec]; simp
  unfold timeToStr
  rw [hh, hm', hs', setwPad2 (by omega), setwPad2 (by omega), setwPad2 (by omega), hd]
  simp only [Int.natAbs_natCast]
  cases rate with
  | none => rfl
  | some r => simp [hd]

example : timeToStr ⟨3723, 4, some ⟨25, 1⟩⟩ = b!"01:02:03:4 @ 25/1" := by decide +kernel
example : timeToStr ⟨360000, 12, none⟩ = b!"100:00:00:12" := by decide +kernel

/-- C11: printing is injective on non-negative times (any frame numbers and rates). -/
theorem C11_injective (t u : Time) (ht : 0 ≤ t.secs) (hu : 0 ≤ u.secs) (h : timeToStr t = timeToStr u) : t = u := by
  obtain ⟨rt, t1, t2, t3⟩ := C01_recompose t ht
  obtain ⟨ru, u1, u2, u3⟩ := C01_recompose u hu
  have nc : ∀ {n : Int}, 0 ≤ n → (58 : Byte) ∉ setwPad 2 n := by
    intro n hn hc
    exact isDigit_ne (setwPad_digits hn _ hc) 58 (by decide) rfl
  have inj : ∀ {a b : Int}, 0 ≤ a → 0 ≤ b → setwPad 2 a = setwPad 2 b → a = b := by
    intro a b ha hb e
    rw [← decVal_setwPad (w := 2) ha, ← decVal_setwPad (w := 2) hb, e]
  unfold timeToStr at h
  simp only [List.append_assoc, List.cons_append, List.nil_append] at h
  obtain ⟨e1, h⟩ := sep_inj (nc t1) (nc u1) h
  obtain ⟨e2, h⟩ := sep_inj (nc t2.1) (nc u2.1) h
  obtain ⟨e3, h⟩ := sep_inj (nc t3.1) (nc u3.1) h
  have hs : t.secs = u.secs := by
    rw [← rt, ← ru, inj t1 u1 e1, inj t2.1 u2.1 e2, inj t3.1 u3.1 e3]
  have nsp : ∀ {n : Int}, (32 : Byte) ∉ intDec n := intDec_no (by decide) (by decide)
  have nsl : ∀ {n : Int}, (47 : Byte) ∉ intDec n := intDec_no (by decide) (by decide)
  cases hrt : t.rate with
  | none =>
    cases hru : u.rate with
    | none =>
      rw [hrt, hru] at h
      simp at h
      have := intDec_inj h
      cases t; cases u; simp_all
    | some r =>
      exfalso
      rw [hrt, hru] at h
      simp at h
      have : (32 : Byte) ∈ intDec t.frames := by rw [h]; simp
      exact nsp this
  | some r =>
    cases hru : u.rate with
    | none =>
      exfalso
      rw [hrt, hru] at h
      simp at h
      have : (32 : Byte) ∈ intDec u.frames := by rw [← h]; simp
      exact nsp this
    | some r' =>
      rw [hrt, hru] at h
      dsimp only at h
      obtain ⟨ef, h⟩ := sep_inj nsp nsp h
      simp only [List.cons.injEq, true_and] at h
      obtain ⟨en, ed⟩ := sep_inj nsl nsl h
      have ef := intDec_inj ef
      have en := intDec_inj en
      have ed := intDec_inj ed
      have : r = r' := by cases r; cases r'; simp_all
      cases t; cases u; simp_all

example : (0 : Int) ≤ (⟨3723, 4, some ⟨25, 1⟩⟩ : Time).secs ∧
    timeToStr ⟨3723, 4, some ⟨25, 1⟩⟩ ≠ timeToStr ⟨3723, 4, some ⟨50, 2⟩⟩ := by decide +kernel

end LibSub
