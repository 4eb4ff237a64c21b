/-
UTF-8 conversions: decoding an encoding.
-/
import Verif.Model.Utf8

namespace LibSub

private theorem ofNat_toNat {n : Nat} (h : n < 256) : (UInt8.ofNat n).toNat = n := by
  rw [UInt8.toNat_ofNat']; omega

private theorem trail_ofNat {n : Nat} (h : n < 64) : isTrail (UInt8.ofNat (n + 0x80)) = true := by
  unfold isTrail
  simp only [Bool.and_eq_true, decide_eq_true_eq, UInt8.le_iff_toNat_le, UInt8.lt_iff_toNat_lt]
  rw [ofNat_toNat (by omega)]
  show 128 ≤ _ ∧ _ < 192
  omega

private theorem trailLength_ofNat {n : Nat} (h : n < 256) : trailLength (UInt8.ofNat n) =
    if n < 128 then some 0 else if n < 194 then none else if n < 224 then some 1 else if n < 240 then some 2 else if n ≤ 244 then some 3 else none := by
  unfold trailLength
  simp only [UInt8.le_iff_toNat_le, UInt8.lt_iff_toNat_lt]
  rw [ofNat_toNat h]
  rfl

private theorem encodeChar_eq (v : Nat) : utf8EncodeChar v =
    if v ≤ 0x7f then [UInt8.ofNat v]
    else if v ≤ 0x7ff then [UInt8.ofNat (v / 64 + 0xc0), UInt8.ofNat (v % 64 + 0x80)]
    else if v ≤ 0xffff then [UInt8.ofNat (v / 4096 + 0xe0), UInt8.ofNat (v / 64 % 64 + 0x80), UInt8.ofNat (v % 64 + 0x80)]
    else [UInt8.ofNat (v / 262144 + 0xf0), UInt8.ofNat (v / 4096 % 64 + 0x80), UInt8.ofNat (v / 64 % 64 + 0x80), UInt8.ofNat (v % 64 + 0x80)] := rfl

/-- One character. -/
theorem utf8Decode_char (v : Nat) (hv : validCodePoint v = true) (rest : Str) :
    utf8DecodeGo none (utf8EncodeChar v ++ rest) = v :: utf8DecodeGo none rest := by
  have hmax : v ≤ 0x10ffff := by
    unfold validCodePoint at hv
    simp only [Bool.and_eq_true, decide_eq_true_eq] at hv
    exact hv.1
  rw [encodeChar_eq]
  split
  · rename_i h
    rw [List.cons_append, utf8DecodeGo, trailLength_ofNat (by omega), if_pos (by omega), ofNat_toNat (by omega)]
    rfl
  · rename_i h1
    split
    · rename_i h2
      rw [List.cons_append, utf8DecodeGo, trailLength_ofNat (by omega), if_neg (by omega), if_neg (by omega), if_pos (by omega), ofNat_toNat (by omega)]
      simp only []
      rw [List.cons_append, utf8DecodeGo, if_pos (trail_ofNat (by omega)), ofNat_toNat (by omega)]
      simp only []
      rw [if_pos (by omega)]
      have e : (v / 64 + 0xc0) % 2 ^ (6 - 1) * 64 + (v % 64 + 0x80) % 64 = v := by omega
      have hw : utf8Width v = 2 := by unfold utf8Width; rw [if_neg (by omega), if_pos h2]
      rw [e, if_pos (by rw [hv, hw]; rfl)]
      rfl
    · rename_i h2
      split
      · rename_i h3
        rw [List.cons_append, utf8DecodeGo, trailLength_ofNat (by omega), if_neg (by omega), if_neg (by omega), if_neg (by omega), if_pos (by omega), ofNat_toNat (by omega)]
        simp only []
        rw [List.cons_append, utf8DecodeGo, if_pos (trail_ofNat (by omega)), ofNat_toNat (by omega)]
        simp only []
        rw [if_neg (by omega), List.cons_append, utf8DecodeGo, if_pos (trail_ofNat (by omega)), ofNat_toNat (by omega)]
        simp only []
        rw [if_pos (by omega)]
        have e : ((v / 4096 + 0xe0) % 2 ^ (6 - 2) * 64 + (v / 64 % 64 + 0x80) % 64) * 64 + (v % 64 + 0x80) % 64 = v := by omega
        have hw : utf8Width v = 3 := by unfold utf8Width; rw [if_neg (by omega), if_neg (by omega), if_pos h3]
        rw [e, if_pos (by rw [hv, hw]; rfl)]
        rfl
      · rename_i h3
        rw [List.cons_append, utf8DecodeGo, trailLength_ofNat (by omega), if_neg (by omega), if_neg (by omega), if_neg (by omega), if_neg (by omega), if_pos (by omega), ofNat_toNat (by omega)]
        simp only []
        rw [List.cons_append, utf8DecodeGo, if_pos (trail_ofNat (by omega)), ofNat_toNat (by omega)]
        simp only []
        rw [if_neg (by omega), List.cons_append, utf8DecodeGo, if_pos (trail_ofNat (by omega)), ofNat_toNat (by omega)]
        simp only []
        rw [if_neg (by omega), List.cons_append, utf8DecodeGo, if_pos (trail_ofNat (by omega)), ofNat_toNat (by omega)]
        simp only []
        rw [if_pos (by omega)]
        have e : (((v / 262144 + 0xf0) % 2 ^ (6 - 3) * 64 + (v / 4096 % 64 + 0x80) % 64) * 64 + (v / 64 % 64 + 0x80) % 64) * 64 + (v % 64 + 0x80) % 64 = v := by omega
        have hw : utf8Width v = 4 := by unfold utf8Width; rw [if_neg (by omega), if_neg (by omega), if_neg (by omega)]
        rw [e, if_pos (by rw [hv, hw]; rfl)]
        rfl

/-- Decoding the encoding of valid code points gives them back. -/
theorem utf8Decode_encode (w : List WChar) (h : ∀ v ∈ w, validCodePoint v = true) : utf8Decode (utf8Encode w) = w := by
  unfold utf8Decode
  induction w with
  | nil => rfl
  | cons v w ih =>
    rw [utf8Encode, if_pos (h v (by simp)), utf8Decode_char v (h v (by simp)), ih (fun v hv => h v (by simp [hv]))]

end LibSub
