/-
Property C69: conversions between strings and numbers do not depend on the locale.
-/
import Verif.Lemmas.Split
import Verif.Lemmas.Text

namespace LibSub

/-! ### Specification -/

/-- Letters. -/
def isLetter (c : Byte) : Bool := (65 ≤ c && c ≤ 90) || (97 ≤ c && c ≤ 122)

/-- What is assumed of a locale: the decimal point is not empty and its first byte is no white space, digit, sign or letter; the thousands separator
is empty or starts with something that is no digit.  (All locales of the C library are like this.) -/
structure SaneLocale (l : Locale) : Prop where
  point : ∃ d ds, l.decimalPoint = d :: ds ∧ isSpace d = false ∧ isDigit d = false ∧ d ≠ 43 ∧ d ≠ 45 ∧ isLetter d = false
  thousands : ∀ c, l.thousandsSep.head? = some c → isDigit c = false

/-! ### Proofs -/

private def sub1 (dp : Str) (v : Str) : Str := v.flatMap (fun c => if c = 46 then dp else [c])

private theorem makeLocal_eq (l : Locale) (v : Str) : makeLocal l v = sub1 l.decimalPoint v := by
  unfold makeLocal replaceAll
  rw [if_neg (by decide)]
  induction v with
  | nil => rfl
  | cons c cs ih =>
    rw [replaceAllGo]
    have : startsWith (c :: cs) b!"." = decide (c = 46) := by
      simp [startsWith, List.isPrefixOf, BEq.comm, beq_eq_decide, eq_comm]
    rw [this]
    unfold sub1 at *
    by_cases h : c = 46
    · simp [h, ih]
    · simp [h, ih]

private theorem makeLocal_c (v : Str) : makeLocal Locale.c v = v := by
  rw [makeLocal_eq]
  unfold sub1
  induction v with
  | nil => rfl
  | cons c cs ih =>
    rw [List.flatMap_cons, ih]
    by_cases h : c = 46 <;> simp [h, Locale.c]

private theorem sub1_cons (dp : Str) (c : Byte) (v : Str) : sub1 dp (c :: v) = (if c = 46 then dp else [c]) ++ sub1 dp v := rfl

private theorem sub1_dropWhile (d : Byte) (ds v : Str) (p : Byte → Bool) (hd : p d = false) (hp : p 46 = false) :
    (sub1 (d :: ds) v).dropWhile p = sub1 (d :: ds) (v.dropWhile p) := by
  induction v with
  | nil => rfl
  | cons c v ih =>
    rw [sub1_cons]
    by_cases h : c = 46
    · simp [h, List.dropWhile_cons, hd, hp, sub1_cons]
    · simp only [if_neg h, List.singleton_append, List.dropWhile_cons]
      split
      · exact ih
      · rw [sub1_cons, if_neg h]; rfl

private theorem sub1_takeWhile (d : Byte) (ds v : Str) (p : Byte → Bool) (hd : p d = false) (hp : p 46 = false) :
    (sub1 (d :: ds) v).takeWhile p = v.takeWhile p := by
  induction v with
  | nil => rfl
  | cons c v ih =>
    rw [sub1_cons]
    by_cases h : c = 46
    · simp [h, List.takeWhile_cons, hd, hp]
    · simp only [if_neg h, List.singleton_append, List.takeWhile_cons, ih]

private theorem drop_takeWhile (p : Byte → Bool) (v : Str) : v.drop (v.takeWhile p).length = v.dropWhile p := by
  induction v with
  | nil => rfl
  | cons c v ih =>
    simp only [List.takeWhile_cons, List.dropWhile_cons]
    split <;> simp [ih]

private theorem sub1_takeDigits (d : Byte) (ds v : Str) (hd : isDigit d = false) : takeDigits (sub1 (d :: ds) v) = takeDigits v :=
  sub1_takeWhile d ds v isDigit hd (by decide)

private theorem drop_takeDigits (v : Str) : v.drop (takeDigits v).length = v.dropWhile isDigit := drop_takeWhile _ _

private theorem sub1_drop (d : Byte) (ds v : Str) (hd : isDigit d = false) : (sub1 (d :: ds) v).drop (takeDigits v).length = sub1 (d :: ds) (v.dropWhile isDigit) := by
  rw [← sub1_takeDigits d ds v hd, drop_takeDigits, sub1_dropWhile d ds v isDigit hd (by decide)]

private theorem sub1_takeSign (d : Byte) (ds v : Str) (h1 : d ≠ 43) (h2 : d ≠ 45) :
    takeSign (sub1 (d :: ds) v) = ((takeSign v).1, sub1 (d :: ds) (takeSign v).2) := by
  cases v with
  | nil => rfl
  | cons c v =>
    by_cases h : c = 46
    · subst h
      have : takeSign (46 :: v) = (false, 46 :: v) := rfl
      rw [this, sub1_cons, if_pos rfl]
      simp [takeSign, h1, h2]
    · rw [sub1_cons, if_neg h]
      by_cases h3 : c = 45
      · subst h3; rfl
      · by_cases h4 : c = 43
        · subst h4; rfl
        · have e1 : takeSign (c :: v) = (false, c :: v) := by simp [takeSign, h3, h4]
          rw [e1]
          have e2 : ∀ w : Str, takeSign ([c] ++ w) = (false, [c] ++ w) := by intro w; simp [takeSign, h3, h4]
          rw [e2, sub1_cons, if_neg h]

private theorem sub1_startsNoCase (d : Byte) (ds v pre : Str) (hpre : ∀ c ∈ pre, c ≠ lowerByte d ∧ c ≠ 46) :
    startsWithNoCase (sub1 (d :: ds) v) pre = startsWithNoCase v pre := by
  induction pre generalizing v with
  | nil => simp [startsWithNoCase, startsWith]
  | cons a pre ih =>
    cases v with
    | nil => rfl
    | cons c v =>
      obtain ⟨ha, hb⟩ := hpre a (by simp)
      by_cases h : c = 46
      · subst h
        rw [sub1_cons, if_pos rfl]
        have : lowerByte 46 = 46 := by decide
        have e1 : (a == lowerByte d) = false := by simpa using ha
        have e2 : (a == 46) = false := by simpa using hb
        simp [startsWithNoCase, startsWith, toLower, List.isPrefixOf, e1, e2, this]
      · rw [sub1_cons, if_neg h]
        have := ih v (fun c hc => hpre c (by simp [hc]))
        unfold startsWithNoCase startsWith toLower at *
        simp only [List.singleton_append, List.map_cons, List.isPrefixOf, this]

private theorem sub1_mant (d : Byte) (ds cs : Str) (p : Byte → Bool) (hd : p d = false) (hp : p 46 = false) (hv : d ∉ cs) :
    scanMant p (d :: ds) (sub1 (d :: ds) cs) = ((scanMant p b!"." cs).1, (scanMant p b!"." cs).2.1, sub1 (d :: ds) (scanMant p b!"." cs).2.2) := by
  unfold scanMant
  simp only [sub1_takeWhile d ds cs p hd hp, sub1_dropWhile d ds cs p hd hp]
  have hdv2 : d ∉ cs.dropWhile p := fun hm => hv ((List.dropWhile_sublist _).subset hm)
  revert hdv2
  generalize cs.dropWhile p = a
  intro hdv2
  cases a with
  | nil => rfl
  | cons c a =>
    by_cases h : c = 46
    · subst h
      have e1 : startsWith (sub1 (d :: ds) (46 :: a)) (d :: ds) = true := by
        rw [sub1_cons, if_pos rfl, startsWith, List.isPrefixOf_iff_prefix]
        exact List.prefix_append _ _
      have e2 : (sub1 (d :: ds) (46 :: a)).drop (d :: ds).length = sub1 (d :: ds) a := by
        rw [sub1_cons, if_pos rfl, List.drop_left]
      have e3 : startsWith (46 :: a) b!"." = true := by simp [startsWith, List.isPrefixOf]
      have e4 : (46 :: a).drop (b!"." : Str).length = a := rfl
      rw [e1, e2, e3, e4, sub1_takeWhile d ds a p hd hp, sub1_dropWhile d ds a p hd hp]
      rfl
    · have hcd : c ≠ d := fun e => hdv2 (by simp [e])
      have e1 : startsWith (sub1 (d :: ds) (c :: a)) (d :: ds) = false := by
        rw [sub1_cons, if_neg h]
        simp [startsWith, List.isPrefixOf, Ne.symm hcd]
      have e3 : startsWith (c :: a) b!"." = false := by simp [startsWith, List.isPrefixOf, Ne.symm h]
      rw [e1, e3]
      rfl

private theorem sub1_exp (d : Byte) (ds v : Str) (e : Byte) (h1 : d ≠ 43) (h2 : d ≠ 45) (hd : isDigit d = false) (he : e ≠ lowerByte d ∧ e ≠ 46) :
    scanExp e (sub1 (d :: ds) v) = scanExp e v := by
  cases v with
  | nil => rfl
  | cons c v =>
    rw [sub1_cons]
    by_cases h : c = 46
    · subst h
      have : lowerByte 46 = 46 := by decide
      simp [scanExp, Ne.symm he.1, Ne.symm he.2, this]
    · rw [if_neg h, List.singleton_append]
      simp only [scanExp, sub1_takeSign d ds v h1 h2, sub1_takeDigits d ds _ hd]

/-! ### C69 -/

/-- Reading an integer gives the same in every locale. -/
theorem C69_int (l : Locale) (hl : SaneLocale l) (v : Str) : rawConvertIntIn l v = rawConvertIntIn Locale.c v := by
  obtain ⟨d, ds, hp, hsp, hdg, h43, h45, hlt⟩ := hl.point
  unfold rawConvertIntIn
  rw [makeLocal_c, makeLocal_eq, hp]
  unfold scanInt
  rw [sub1_dropWhile d ds v isSpace hsp (by decide), sub1_takeSign d ds _ h43 h45]
  simp only [sub1_takeDigits d ds _ hdg]

/-- Reading a float gives the same in every locale, for strings which do not themselves contain (the first byte of) the locale's decimal point,
unless that is a full stop. -/
theorem C69_float_partial (l : Locale) (hl : SaneLocale l) (v : Str) (hv : l.decimalPoint = b!"." ∨ ∀ c, l.decimalPoint.head? = some c → c ∉ v) :
    rawConvertFloatIn l v = rawConvertFloatIn Locale.c v := by
  obtain ⟨d, ds, hp, hsp, hdg, h43, h45, hlt⟩ := hl.point
  unfold rawConvertFloatIn
  rw [makeLocal_c, makeLocal_eq]
  rcases hv with hv | hv
  · have : sub1 l.decimalPoint v = v := by
      have := makeLocal_c v
      rw [makeLocal_eq] at this
      rw [hv]; exact this
    rw [this, hv]; rfl
  · rw [hp] at hv ⊢
    have hdv : d ∉ v := hv d rfl
    have hlow : ∀ c ∈ b!"infnan0xep", c ≠ lowerByte d ∧ c ≠ 46 := by
      have := forall_byte (p := fun d => isLetter d = false → isDigit d = false → ∀ c ∈ b!"infnan0xep", c ≠ lowerByte d ∧ c ≠ 46) (by decide +kernel) d
      exact this hlt hdg
    have hx : isXDigit d = false := by
      have := forall_byte (p := fun d => isLetter d = false → isDigit d = false → isXDigit d = false) (by decide +kernel) d
      exact this hlt hdg
    unfold scanFloat
    rw [sub1_dropWhile d ds v isSpace hsp (by decide), sub1_takeSign d ds _ h43 h45]
    have hdv' : d ∉ (takeSign (v.dropWhile isSpace)).2 := by
      intro hm
      apply hdv
      have h1 : (takeSign (v.dropWhile isSpace)).2 ⊆ v.dropWhile isSpace := by
        generalize v.dropWhile isSpace = w
        unfold takeSign
        split <;> simp
      exact (List.dropWhile_sublist _).subset (h1 hm)
    revert hdv'
    generalize takeSign (v.dropWhile isSpace) = q
    obtain ⟨neg, cs⟩ := q
    intro hdv'
    simp only at hdv' ⊢
    rw [sub1_startsNoCase d ds cs b!"inf" (fun c hc => hlow c (by revert hc; simp; grind)),
      sub1_startsNoCase d ds cs b!"nan" (fun c hc => hlow c (by revert hc; simp; grind)),
      sub1_startsNoCase d ds cs b!"0x" (fun c hc => hlow c (by revert hc; simp; grind))]
    have ex1 : scanDecimal (d :: ds) (sub1 (d :: ds) cs) = scanDecimal Locale.c.decimalPoint cs := by
      unfold scanDecimal
      rw [sub1_mant d ds cs isDigit hdg (by decide) hdv']
      simp only [sub1_exp d ds _ 101 h43 h45 hdg (hlow 101 (by simp))]
      rfl
    have ex2 : startsWithNoCase cs b!"0x" = true → scanHexadecimal (d :: ds) ((sub1 (d :: ds) cs).drop 2) = scanHexadecimal Locale.c.decimalPoint (cs.drop 2) := by
      intro h0
      obtain ⟨c1, c2, cs', rfl⟩ : ∃ c1 c2 cs', cs = c1 :: c2 :: cs' := by
        match cs, h0 with
        | [], h => exact absurd h (by decide)
        | [c], h => simp [startsWithNoCase, startsWith, toLower, List.isPrefixOf] at h
        | c1 :: c2 :: cs', _ => exact ⟨_, _, _, rfl⟩
      have hne : c1 ≠ 46 ∧ c2 ≠ 46 := by
        simp only [startsWithNoCase, startsWith, toLower, List.map_cons, List.isPrefixOf, Bool.and_eq_true, beq_iff_eq, Bool.and_true] at h0
        constructor
        · rintro rfl; exact absurd h0.1 (by decide)
        · rintro rfl; exact absurd h0.2 (by decide)
      rw [sub1_cons, if_neg hne.1, sub1_cons, if_neg hne.2]
      simp only [List.singleton_append, List.drop_succ_cons, List.drop_zero]
      unfold scanHexadecimal
      rw [sub1_mant d ds cs' isXDigit hx (by decide) (fun hm => hdv' (by simp [hm]))]
      simp only [sub1_exp d ds _ 112 h43 h45 hdg (hlow 112 (by simp))]
      rfl
    by_cases h0 : startsWithNoCase cs b!"0x" = true
    · simp only [h0, if_true, ex2 h0]
    · simp only [h0, if_false, ex1, Bool.false_eq_true]

/-- A German locale is sane, and "12.5" does not contain its decimal point. -/
example : SaneLocale ⟨b!",", b!"."⟩ ∧ (∀ c, (b!"," : Str).head? = some c → c ∉ b!"12.5") ∧
    rawConvertFloatIn ⟨b!",", b!"."⟩ b!"12.5" = .ok (25 / 2) ∧ rawConvertFloatIn ⟨b!",", b!"."⟩ b!"1.25e+1" = .ok (25 / 2) ∧
    rawConvertFloatIn ⟨b!",", b!"."⟩ b!"0x1.9p3" = .ok (25 / 2) ∧ rawConvertFloatIn ⟨b!",", b!"."⟩ b!"1e" = .ok 1 ∧ rawConvertIntIn ⟨b!",", b!"."⟩ b!"12.5" = .ok 12 := by
  refine ⟨⟨⟨44, [], rfl, by decide, by decide, by decide, by decide, by decide⟩, ?_⟩, ?_, by decide +kernel, by decide +kernel, by decide +kernel, by decide +kernel, by decide +kernel⟩
  · intro c hc; cases hc; decide
  · intro c hc; cases hc; decide

/-- Without that restriction it is false: "1,5" is 1 in the "C" locale but 1.5 where the decimal point is a comma. -/
theorem C69_comma_witness : rawConvertFloatIn ⟨b!",", b!"."⟩ b!"1,5" = .ok (3 / 2) ∧ rawConvertFloatIn Locale.c b!"1,5" = .ok 1 := by
  constructor <;> decide +kernel

private theorem replaceAll_digits (s search repl : Str) (hs : ∀ c ∈ s, isDigit c = true) (hp : ∀ c, search.head? = some c → isDigit c = false) :
    replaceAll s search repl = s := by
  unfold replaceAll
  cases search with
  | nil => rfl
  | cons p ps =>
    rw [if_neg (by simp)]
    induction s with
    | nil => rfl
    | cons c s ih =>
      have hne : p ≠ c := fun e => isDigit_ne (hs c (by simp)) p (hp p rfl) e.symm
      rw [replaceAllGo, startsWith, List.isPrefixOf, if_neg (by simp [hne]), ih (fun c hc => hs c (by simp [hc]))]

/-- Writing an unsigned long gives its decimal digits in every locale, and reading them back as an int in any other gives the number. -/
theorem C69_ulong (l m : Locale) (hl : SaneLocale l) (hm : SaneLocale m) (n : Nat) (hn : n < 2 ^ 31) :
    rawConvertULong l n = natDec n ∧ rawConvertIntIn m (rawConvertULong l n) = .ok n := by
  obtain ⟨d, ds, hp, hsp, hdg, h43, h45, hlt⟩ := hl.point
  have h1 : rawConvertULong l n = natDec n := by
    unfold rawConvertULong makeRaw
    rw [replaceAll_digits _ _ _ (natDec_digits n) hl.thousands, replaceAll_digits _ _ _ (natDec_digits n)]
    intro c hc
    rw [hp] at hc
    cases hc
    exact hdg
  refine ⟨h1, ?_⟩
  rw [h1, C69_int m hm, rawConvertIntIn, makeLocal_c]
  have hsp : (natDec n).dropWhile isSpace = natDec n := by
    have h := natDec_digits n
    cases hn : natDec n with
    | nil => rfl
    | cons c cs =>
      have hc := h c (by rw [hn]; simp)
      have := forall_byte (p := fun c => isDigit c = true → isSpace c = false) (by decide +kernel) _ hc
      simp [List.dropWhile_cons, this]
  have htd : takeDigits (natDec n) = natDec n := by
    have h := natDec_digits n
    revert h
    generalize natDec n = s
    intro h
    induction s with
    | nil => rfl
    | cons c cs ih =>
      have e := ih (fun c hc => h c (by simp [hc]))
      unfold takeDigits at e ⊢
      rw [List.takeWhile_cons, if_pos (h c (by simp)), e]
  unfold scanInt
  rw [hsp, takeSign_digits (natDec_digits n)]
  simp only [htd, decVal_natDec, Bool.false_eq_true, if_false]
  rw [if_pos]
  constructor <;> omega

example : SaneLocale ⟨b!",", b!"."⟩ ∧ 1234567 < 2 ^ 31 ∧ rawConvertULong ⟨b!",", b!"."⟩ 1234567 = b!"1234567" := by
  refine ⟨⟨⟨44, [], rfl, by decide, by decide, by decide, by decide, by decide⟩, ?_⟩, by decide, by decide +kernel⟩
  intro c hc; cases hc; decide

end LibSub
