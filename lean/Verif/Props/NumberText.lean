/-
Property C117, first part: what numbers in text mean, exactly.
-/
import Verif.Props.HexColours
import Verif.Props.SubRipLine
import Verif.Props.Ssa
import Mathlib.Algebra.Order.Field.Power
import Mathlib.Data.List.TakeWhile

namespace LibSub

/-! ### Specification -/

/-- `u` is `v` but for the case of letters; `v` is in lower case. -/
def InAnyCase (u v : Str) : Prop := u.map (fun c => if 65 ≤ c ∧ c ≤ 90 then c + 32 else c) = v

/-- A decimal digit. -/
def IsDec (c : Byte) : Prop := c ∈ b!"0123456789"

/-- A hexadecimal digit. -/
def IsHex (c : Byte) : Prop := (hexOf c).isSome

/-- The number that hexadecimal digits mean. -/
def hexTextVal (ds : Str) : Nat := ds.foldl (fun n c => 16 * n + (hexOf c).getD 0) 0

/-- `ds` is all that there is of some kind at the start of `s`. -/
def LongestPrefix (P : Byte → Prop) (s ds rest : Str) : Prop := s = ds ++ rest ∧ (∀ c ∈ ds, P c) ∧ ∀ c, rest.head? = some c → ¬ P c

/-- An optional sign. -/
def Signed (s : Str) (neg : Bool) (cs : Str) : Prop :=
  (s = 45 :: cs ∧ neg = true) ∨ (s = 43 :: cs ∧ neg = false) ∨ (s = cs ∧ neg = false ∧ ∀ c, s.head? = some c → c ≠ 45 ∧ c ≠ 43)

/-- Blanks and an optional sign. -/
def SignedAfterBlanks (s : Str) (neg : Bool) (cs : Str) : Prop := ∃ w t, LongestPrefix isBlank s w t ∧ Signed t neg cs

/-- Digits with or without a point. -/
def Mantissa (P : Byte → Prop) (base : Nat) (val : Str → Nat) (s : Str) (m : ℚ) (rest : Str) : Prop :=
  ∃ ip a, LongestPrefix P s ip a ∧
    ((∃ t fp, a = 46 :: t ∧ LongestPrefix P t fp rest ∧ m = val ip + val fp / base ^ fp.length) ∨ ((∀ c, a.head? = some c → c ≠ 46) ∧ rest = a ∧ m = val ip))

/-- An exponent after one of two letters, or none. -/
def Exponent (l1 l2 : Byte) (s : Str) (e : Int) : Prop :=
  (∃ c t neg cs ds rest, s = c :: t ∧ (c = l1 ∨ c = l2) ∧ Signed t neg cs ∧ LongestPrefix IsDec cs ds rest ∧ e = if neg then -(textVal ds : Int) else textVal ds) ∨
    ((∀ c, s.head? = some c → c ≠ l1 ∧ c ≠ l2) ∧ e = 0)

/-- The number at the start of `cs`, without sign: hexadecimal after `0x`, otherwise decimal.  It is 0 if there are no digits. -/
def Unsigned (cs : Str) (v : ℚ) : Prop :=
  (∃ x t m rest e, cs = 48 :: x :: t ∧ (x = 120 ∨ x = 88) ∧ Mantissa IsHex 16 hexTextVal t m rest ∧ Exponent 112 80 rest e ∧ v = m * 2 ^ e) ∨
    ((∀ x t, cs = 48 :: x :: t → x ≠ 120 ∧ x ≠ 88) ∧ ∃ m rest e, Mantissa IsDec 10 textVal cs m rest ∧ Exponent 101 69 rest e ∧ v = m * 10 ^ e)

/-- The `float` at the start of a text.  Infinity, NaN and numbers beyond 2^90 or below 2^-90 are out of scope. -/
def FloatText (s : Str) (y : ℚ) : Prop :=
  ∃ neg cs v, SignedAfterBlanks s neg cs ∧ (∀ u r, cs = u ++ r → ¬ InAnyCase u b!"inf" ∧ ¬ InAnyCase u b!"nan") ∧ Unsigned cs v ∧
    (v = 0 ∨ (1 / 2 ^ 90 ≤ v ∧ v ≤ 2 ^ 90)) ∧ y = f32 (if neg then -v else v)

/-- The `int` at the start of a text; 0 if there are no digits. -/
def IntAtStart (s : Str) (v : Int) : Prop :=
  ∃ neg cs ds rest, SignedAfterBlanks s neg cs ∧ LongestPrefix IsDec cs ds rest ∧ v = (if neg then -(textVal ds : Int) else textVal ds) ∧ -(2 ^ 31) ≤ v ∧ v < 2 ^ 31

/-- The 64-bit hexadecimal number at the start of a text, with or without `0x`; too large numbers become the largest and smallest. -/
def HexAtStart (s : Str) (v : Int) : Prop :=
  ∃ neg cs t ds rest, SignedAfterBlanks s neg cs ∧
    ((∃ x d u, cs = 48 :: x :: d :: u ∧ (x = 120 ∨ x = 88) ∧ IsHex d ∧ t = d :: u) ∨ ((∀ x d u, cs = 48 :: x :: d :: u → (x = 120 ∨ x = 88) → ¬ IsHex d) ∧ t = cs)) ∧
    LongestPrefix IsHex t ds rest ∧ v = max (-(2 ^ 63)) (min (2 ^ 63 - 1) (if neg then -(hexTextVal ds : Int) else hexTextVal ds))

/-! ### Parts -/

theorem inAnyCase_iff (u v : Str) : InAnyCase u v ↔ toLower u = v := by
  unfold InAnyCase toLower
  have : (fun c : Byte => if 65 ≤ c ∧ c ≤ 90 then c + 32 else c) = lowerByte := by
    funext c
    unfold lowerByte
    simp
  rw [this]

theorem isDec_iff (c : Byte) : isDigit c = true ↔ IsDec c := isDigit_iff_mem c

theorem isHex_iff (c : Byte) : isXDigit c = true ↔ IsHex c :=
  forall_byte (p := fun c => isXDigit c = true ↔ (hexOf c).isSome = true) (by decide +kernel) c

theorem isBlank_iff (c : Byte) : isSpace c = true ↔ isBlank c :=
  forall_byte (p := fun c => isSpace c = true ↔ c ∈ [32, 9, 10, 11, 12, 13]) (by decide +kernel) c

theorem longestPrefix_iff {p : Byte → Bool} {P : Byte → Prop} (hp : ∀ c, p c = true ↔ P c) (s ds rest : Str) :
    LongestPrefix P s ds rest ↔ ds = s.takeWhile p ∧ rest = s.dropWhile p := by
  constructor
  · rintro ⟨rfl, h1, h2⟩
    have h1' : ∀ c ∈ ds, p c = true := fun c hc => (hp c).2 (h1 c hc)
    have h3 : rest.takeWhile p = [] ∧ rest.dropWhile p = rest := by
      cases rest with
      | nil => exact ⟨rfl, rfl⟩
      | cons c r =>
        have : ¬ p c = true := fun hc => h2 c rfl ((hp c).1 hc)
        exact ⟨List.takeWhile_cons_of_neg this, List.dropWhile_cons_of_neg this⟩
    rw [List.takeWhile_append_of_pos h1', List.dropWhile_append_of_pos h1', h3.1, h3.2]
    simp
  · rintro ⟨rfl, rfl⟩
    refine ⟨List.takeWhile_append_dropWhile.symm, fun c hc => (hp c).1 (List.mem_takeWhile_imp hc), ?_⟩
    intro c hc hP
    have := List.head?_dropWhile_not p s
    rw [hc] at this
    simp only at this
    rw [(hp c).2 hP] at this
    cases this

theorem signed_iff (s : Str) (neg : Bool) (cs : Str) : Signed s neg cs ↔ takeSign s = (neg, cs) := by
  unfold Signed takeSign
  split
  · constructor
    · rintro (⟨h, rfl⟩ | ⟨h, rfl⟩ | ⟨h, rfl, h2⟩)
      · cases h; rfl
      · cases h
      · exact absurd rfl (h2 45 rfl).1
    · intro h; cases h; exact .inl ⟨rfl, rfl⟩
  · constructor
    · rintro (⟨h, rfl⟩ | ⟨h, rfl⟩ | ⟨h, rfl, h2⟩)
      · cases h
      · cases h; rfl
      · exact absurd rfl (h2 43 rfl).2
    · intro h; cases h; exact .inr (.inl ⟨rfl, rfl⟩)
  · rename_i h1 h2
    constructor
    · rintro (⟨h, rfl⟩ | ⟨h, rfl⟩ | ⟨h, rfl, h2⟩)
      · exact absurd h (h1 _)
      · exact absurd h (h2 _)
      · rw [h]
    · intro h
      cases h
      refine .inr (.inr ⟨rfl, rfl, ?_⟩)
      intro c hc
      cases s with
      | nil => cases hc
      | cons x s =>
        cases hc
        exact ⟨fun e => h1 s (by rw [e]), fun e => h2 s (by rw [e])⟩

theorem signedAfterBlanks_iff (s : Str) (neg : Bool) (cs : Str) : SignedAfterBlanks s neg cs ↔ takeSign (s.dropWhile isSpace) = (neg, cs) := by
  unfold SignedAfterBlanks
  simp only [longestPrefix_iff isBlank_iff, signed_iff]
  constructor
  · rintro ⟨w, t, ⟨rfl, rfl⟩, h⟩; exact h
  · intro h; exact ⟨_, _, ⟨rfl, rfl⟩, h⟩

theorem decVal_takeDigits (s : Str) : decVal (s.takeWhile isDigit) = textVal (s.takeWhile isDigit) := decVal_textVal (fun _ hc => List.mem_takeWhile_imp hc)

theorem hexVal_text (s : Str) (h : ∀ c ∈ s, IsHex c) : hexVal s = hexTextVal s := by
  have hd : ∀ c : Byte, IsHex c → digitVal c = (hexOf c).getD 0 :=
    forall_byte (p := fun c => (hexOf c).isSome = true → digitVal c = (hexOf c).getD 0) (by decide +kernel)
  suffices ∀ n, s.foldl (fun n c => 16 * n + digitVal c) n = s.foldl (fun n c => 16 * n + (hexOf c).getD 0) n from this 0
  induction s with
  | nil => intro n; rfl
  | cons c s ih =>
    intro n
    rw [List.foldl_cons, List.foldl_cons, hd c (h c (by simp))]
    exact ih (fun c hc => h c (by simp [hc])) _

theorem hexVal_takeHex (s : Str) : hexVal (s.takeWhile isXDigit) = hexTextVal (s.takeWhile isXDigit) := hexVal_text _ (fun c hc => (isHex_iff c).1 (List.mem_takeWhile_imp hc))

theorem powInt_zpow (b : Nat) (e : Int) : powInt b e = (b : ℚ) ^ e := by
  unfold powInt
  split
  · rename_i h
    obtain ⟨n, rfl⟩ : ∃ n : Nat, e = -(n : Int) := ⟨e.natAbs, by omega⟩
    rw [zpow_neg, zpow_natCast, Int.natAbs_neg, Int.natAbs_natCast]
    push_cast
    rw [one_div]
  · rename_i h
    obtain ⟨n, rfl⟩ : ∃ n : Nat, e = (n : Int) := ⟨e.natAbs, by omega⟩
    rw [zpow_natCast, Int.natAbs_natCast]
    push_cast
    rfl

theorem mantissa_iff {p : Byte → Bool} {P : Byte → Prop} (hp : ∀ c, p c = true ↔ P c) (base : Nat) {val val' : Str → Nat}
    (hv : ∀ s : Str, val' (s.takeWhile p) = val (s.takeWhile p)) (h0 : val' [] = 0) (s : Str) (m : ℚ) (rest : Str) :
    Mantissa P base val s m rest ↔ m = ((val' (scanMant p b!"." s).1 : ℚ) + (val' (scanMant p b!"." s).2.1 : ℚ) / ((base ^ (scanMant p b!"." s).2.1.length : Nat) : ℚ)) ∧
      rest = (scanMant p b!"." s).2.2 := by
  unfold Mantissa scanMant
  simp only [longestPrefix_iff hp, List.isEmpty_cons, Bool.not_false, Bool.true_and, startsWith_iff]
  constructor
  · rintro ⟨ip, a, ⟨rfl, rfl⟩, ⟨t, fp, h1, ⟨rfl, rfl⟩, rfl⟩ | ⟨h1, rfl, rfl⟩⟩
    · rw [h1, if_pos ⟨t, rfl⟩]
      refine ⟨?_, rfl⟩
      simp only [List.length_cons, List.length_nil, hv]
      push_cast
      rfl
    · rw [if_neg (by rintro ⟨t, ht⟩; exact h1 46 (by rw [← ht]; rfl) rfl)]
      refine ⟨?_, rfl⟩
      simp [hv, h0]
  · intro h
    refine ⟨_, _, ⟨rfl, rfl⟩, ?_⟩
    split at h
    · rename_i hd
      obtain ⟨t, ht⟩ := hd
      left
      refine ⟨t, _, ht.symm, ⟨rfl, ?_⟩, ?_⟩
      · rw [h.2, ← ht]; rfl
      · rw [h.1, ← ht]
        simp only [List.cons_append, List.nil_append, List.length_cons, List.length_nil, hv]
        push_cast
        rfl
    · rename_i hd
      right
      refine ⟨?_, h.2, ?_⟩
      · rintro c hc rfl
        apply hd
        cases e : List.dropWhile p s with
        | nil => rw [e] at hc; cases hc
        | cons x t =>
          rw [e] at hc
          cases hc
          exact ⟨t, rfl⟩
      · rw [h.1]
        simp [hv, h0]

theorem exponent_iff {l1 l2 : Byte} (hl : ∀ c, lowerByte c = l1 ↔ c = l1 ∨ c = l2) (s : Str) (e : Int) : Exponent l1 l2 s e ↔ e = scanExp l1 s := by
  unfold Exponent
  simp only [longestPrefix_iff isDec_iff, signed_iff]
  cases s with
  | nil =>
    constructor
    · rintro (⟨c, t, _, _, _, _, h, _⟩ | ⟨_, rfl⟩)
      · cases h
      · rfl
    · rintro rfl
      exact .inr ⟨by simp, rfl⟩
  | cons c t =>
    rw [scanExp]
    by_cases hc : lowerByte c = l1
    · rw [if_pos hc]
      constructor
      · rintro (⟨c', t', neg, cs, ds, rest, h, _, h2, ⟨rfl, rfl⟩, rfl⟩ | ⟨h, _⟩)
        · cases h
          rw [h2]
          simp only [takeDigits, decVal_takeDigits]
        · have := h c rfl
          rcases (hl c).1 hc with h' | h'
          · exact absurd h' this.1
          · exact absurd h' this.2
      · rintro rfl
        refine .inl ⟨c, t, _, _, _, _, rfl, (hl c).1 hc, rfl, ⟨rfl, rfl⟩, ?_⟩
        simp only [takeDigits, decVal_takeDigits]
        rfl
    · rw [if_neg hc]
      constructor
      · rintro (⟨c', t', neg, cs, ds, rest, h, h1, _⟩ | ⟨_, h⟩)
        · cases h
          exact absurd ((hl c).2 h1) hc
        · exact h
      · rintro rfl
        refine .inr ⟨?_, rfl⟩
        intro c' h
        cases h
        rw [hl c, not_or] at hc
        exact hc

theorem noCase_iff (s v : Str) : startsWithNoCase s v = true ↔ ∃ u r, s = u ++ r ∧ InAnyCase u v := by
  unfold startsWithNoCase
  rw [startsWith_iff]
  simp only [inAnyCase_iff]
  unfold toLower
  constructor
  · rintro ⟨t, ht⟩
    obtain ⟨u, r, e, h1, _⟩ := List.map_eq_append_iff.1 ht.symm
    exact ⟨u, r, e, h1⟩
  · rintro ⟨u, r, rfl, rfl⟩
    exact ⟨r.map lowerByte, by simp⟩

theorem hexStart_iff (cs : Str) : startsWithNoCase cs b!"0x" = true ↔ ∃ x t, cs = 48 :: x :: t ∧ (x = 120 ∨ x = 88) := by
  have h0 : ∀ c : Byte, lowerByte c = 48 ↔ c = 48 := forall_byte (p := fun c => lowerByte c = 48 ↔ c = 48) (by decide +kernel)
  have hx : ∀ c : Byte, lowerByte c = 120 ↔ c = 120 ∨ c = 88 := forall_byte (p := fun c => lowerByte c = 120 ↔ c = 120 ∨ c = 88) (by decide +kernel)
  rw [noCase_iff]
  constructor
  · rintro ⟨u, r, rfl, h⟩
    rw [inAnyCase_iff] at h
    obtain ⟨a, u, rfl, h1, h2⟩ := List.map_eq_cons_iff.1 h
    obtain ⟨b, u, rfl, h3, h4⟩ := List.map_eq_cons_iff.1 h2
    rw [List.map_eq_nil_iff.1 h4, (h0 a).1 h1]
    exact ⟨b, r, rfl, (hx b).1 h3⟩
  · rintro ⟨x, t, rfl, h⟩
    refine ⟨[48, x], t, rfl, ?_⟩
    rcases h with rfl | rfl <;> rfl

theorem unsigned_iff (cs : Str) (v : ℚ) : Unsigned cs v ↔ v = if startsWithNoCase cs b!"0x" then scanHexadecimal b!"." (cs.drop 2) else scanDecimal b!"." cs := by
  have he : ∀ c : Byte, lowerByte c = 101 ↔ c = 101 ∨ c = 69 := forall_byte (p := fun c => lowerByte c = 101 ↔ c = 101 ∨ c = 69) (by decide +kernel)
  have hp : ∀ c : Byte, lowerByte c = 112 ↔ c = 112 ∨ c = 80 := forall_byte (p := fun c => lowerByte c = 112 ↔ c = 112 ∨ c = 80) (by decide +kernel)
  unfold Unsigned
  simp only [mantissa_iff isHex_iff 16 hexVal_takeHex rfl, mantissa_iff isDec_iff 10 decVal_takeDigits rfl, exponent_iff he, exponent_iff hp]
  by_cases h : startsWithNoCase cs b!"0x" = true
  · rw [if_pos h]
    obtain ⟨x, t, rfl, hx⟩ := (hexStart_iff cs).1 h
    unfold scanHexadecimal
    simp only [powInt_zpow]
    constructor
    · rintro (⟨x', t', m, rest, e, h1, _, ⟨rfl, rfl⟩, rfl, rfl⟩ | ⟨h1, _⟩)
      · cases h1
        rfl
      · rcases hx with hx | hx
        · exact absurd hx (h1 x t rfl).1
        · exact absurd hx (h1 x t rfl).2
    · rintro rfl
      exact .inl ⟨x, t, _, _, _, rfl, hx, ⟨rfl, rfl⟩, rfl, rfl⟩
  · rw [if_neg h]
    rw [hexStart_iff] at h
    unfold scanDecimal
    simp only [powInt_zpow]
    constructor
    · rintro (⟨x, t, m, rest, e, h1, h2, _⟩ | ⟨_, m, rest, e, ⟨rfl, rfl⟩, rfl, rfl⟩)
      · exact absurd ⟨x, t, h1, h2⟩ h
      · rfl
    · rintro rfl
      refine .inr ⟨?_, _, _, _, ⟨rfl, rfl⟩, rfl, rfl⟩
      intro x t e
      exact ⟨fun hx => h ⟨x, t, e, .inl hx⟩, fun hx => h ⟨x, t, e, .inr hx⟩⟩

/-! ### Numbers -/

/-- C117: the `float` that the library makes of a text. -/
theorem C117_float (s : Str) (y : ℚ) : rawConvertFloat s = .ok y ↔ FloatText s y := by
  unfold rawConvertFloat rawConvertFloatIn FloatText
  rw [makeLocal_classic]
  unfold scanFloat
  simp only [signedAfterBlanks_iff, unsigned_iff]
  have hi : ∀ cs : Str, (∀ u r, cs = u ++ r → ¬ InAnyCase u b!"inf" ∧ ¬ InAnyCase u b!"nan") ↔ ¬ ((startsWithNoCase cs b!"inf" || startsWithNoCase cs b!"nan") = true) := by
    intro cs
    rw [Bool.or_eq_true, noCase_iff, noCase_iff, not_or]
    constructor
    · intro h
      exact ⟨fun ⟨u, r, e, hu⟩ => (h u r e).1 hu, fun ⟨u, r, e, hu⟩ => (h u r e).2 hu⟩
    · rintro ⟨h1, h2⟩ u r e
      exact ⟨fun hu => h1 ⟨u, r, e, hu⟩, fun hu => h2 ⟨u, r, e, hu⟩⟩
  have hf : ∀ v : ℚ, floatSafe v = true ↔ v = 0 ∨ (1 / 2 ^ 90 ≤ v ∧ v ≤ 2 ^ 90) := by
    intro v
    unfold floatSafe
    rw [Bool.or_eq_true, Bool.and_eq_true, beq_iff_eq, decide_eq_true_iff, decide_eq_true_iff]
  simp only [hi, show Locale.c.decimalPoint = b!"." from rfl]
  constructor
  · intro h
    by_cases h1 : (startsWithNoCase (takeSign (s.dropWhile isSpace)).2 b!"inf" || startsWithNoCase (takeSign (s.dropWhile isSpace)).2 b!"nan") = true
    · rw [if_pos h1] at h
      cases h
    · rw [if_neg h1] at h
      refine ⟨_, _, _, rfl, h1, rfl, ?_⟩
      by_cases h2 : floatSafe (if startsWithNoCase (takeSign (s.dropWhile isSpace)).2 b!"0x" = true then scanHexadecimal b!"." ((takeSign (s.dropWhile isSpace)).2.drop 2)
          else scanDecimal b!"." (takeSign (s.dropWhile isSpace)).2) = true
      · rw [if_pos h2] at h
        exact ⟨(hf _).1 h2, (Except.ok.inj h).symm⟩
      · rw [if_neg h2] at h
        cases h
  · rintro ⟨neg, cs, v, h1, h2, rfl, h4, rfl⟩
    rw [h1]
    simp only
    rw [if_neg h2, if_pos ((hf _).2 h4)]

/-- ` -1.5e1)` is -15. -/
example : FloatText b!" -1.5e1)" (-15) := (C117_float _ _).1 (by decide +kernel)

/-- C117: the `int` that the library makes of a text. -/
theorem C117_int (s : Str) (v : Int) : rawConvertInt s = .ok v ↔ IntAtStart s v := by
  unfold rawConvertInt rawConvertIntIn IntAtStart
  rw [makeLocal_classic]
  unfold scanInt
  simp only [signedAfterBlanks_iff, longestPrefix_iff isDec_iff, takeDigits, decVal_takeDigits]
  constructor
  · intro h
    refine ⟨_, _, _, _, rfl, ⟨rfl, rfl⟩, ?_⟩
    by_cases h1 : InInt (if (takeSign (s.dropWhile isSpace)).1 = true then -(textVal ((takeSign (s.dropWhile isSpace)).2.takeWhile isDigit) : Int)
        else textVal ((takeSign (s.dropWhile isSpace)).2.takeWhile isDigit))
    · rw [if_pos h1] at h
      have e := Except.ok.inj h
      rw [e] at h1
      unfold InInt at h1
      exact ⟨e.symm, by omega, by omega⟩
    · rw [if_neg h1] at h
      cases h
  · rintro ⟨neg, cs, ds, rest, h1, ⟨rfl, rfl⟩, rfl, h2, h3⟩
    rw [h1]
    simp only
    rw [if_pos (by unfold InInt; omega)]

example : IntAtStart b!" +12a" 12 := (C117_int _ _).1 (by decide +kernel)

/-- C117: the number that `strtoll` makes of a text in base 16. -/
theorem C117_hex (s : Str) (v : Int) : strtollHex s = v ↔ HexAtStart s v := by
  have strip : ∀ cs t : Str, stripHexPrefix cs = t ↔ ((∃ x d u, cs = 48 :: x :: d :: u ∧ (x = 120 ∨ x = 88) ∧ IsHex d ∧ t = d :: u) ∨
      ((∀ x d u, cs = 48 :: x :: d :: u → (x = 120 ∨ x = 88) → ¬ IsHex d) ∧ t = cs)) := by
    intro cs t
    unfold stripHexPrefix
    split
    · rename_i x d u
      split
      · rename_i h
        simp only [Bool.and_eq_true, Bool.or_eq_true, beq_iff_eq, isHex_iff] at h
        constructor
        · rintro rfl
          exact .inl ⟨x, d, u, rfl, h.1, h.2, rfl⟩
        · rintro (⟨x', d', u', h1, _, _, rfl⟩ | ⟨h1, _⟩)
          · cases h1; rfl
          · exact absurd h.2 (h1 x d u rfl h.1)
      · rename_i h
        simp only [Bool.and_eq_true, Bool.or_eq_true, beq_iff_eq, isHex_iff, not_and] at h
        constructor
        · rintro rfl
          refine .inr ⟨?_, rfl⟩
          intro x' d' u' h1 h2
          cases h1
          exact h h2
        · rintro (⟨x', d', u', h1, h2, h3, rfl⟩ | ⟨_, rfl⟩)
          · cases h1; exact absurd h3 (h h2)
          · rfl
    · rename_i h
      constructor
      · rintro rfl
        exact .inr ⟨fun x d u e => absurd e (h x d u), rfl⟩
      · rintro (⟨x, d, u, h1, _⟩ | ⟨_, rfl⟩)
        · exact absurd h1 (h x d u)
        · rfl
  unfold strtollHex HexAtStart
  simp only [signedAfterBlanks_iff, longestPrefix_iff isHex_iff, ← strip]
  have clamp : ∀ z : Int, (if z > 9223372036854775807 then 9223372036854775807 else if z < -9223372036854775808 then -9223372036854775808 else z) = max (-(2 ^ 63)) (min (2 ^ 63 - 1) z) := by
    intro z
    split
    · omega
    · split <;> omega
  simp only [clamp, hexVal_takeHex]
  constructor
  · rintro rfl
    exact ⟨_, _, _, _, _, rfl, rfl, ⟨rfl, rfl⟩, rfl⟩
  · rintro ⟨neg, cs, t, ds, rest, h1, rfl, ⟨rfl, rfl⟩, rfl⟩
    rw [h1]

example : HexAtStart b!"0x1fg" 31 := (C117_hex _ _).1 (by decide +kernel)

end LibSub
