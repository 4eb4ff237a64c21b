/-
Property C88: what override tags do to the text of an SSA dialogue.
-/
import Verif.Props.SsaStack
import Verif.Props.SsaTags

namespace LibSub

/-! ### Specification -/

/-- A number in decimal notation: sign, whole part, maybe a fraction given by zeros after the point and the number after them,
and maybe an exponent, which may be negative. -/
structure DecNum where
  neg : Bool := false
  whole : Nat
  frac : Option (Nat × Nat) := none
  expo : Option (Bool × Nat) := none
  deriving DecidableEq

def expText (e : Option (Bool × Nat)) : Str := match e with | none => [] | some (neg, k) => b!"e" ++ (if neg then b!"-" else []) ++ decSpec k

def expValue (e : Option (Bool × Nat)) : ℚ := match e with | none => 1 | some (neg, k) => if neg then 1 / 10 ^ k else 10 ^ k

def DecNum.text (n : DecNum) : Str :=
  (if n.neg then b!"-" else []) ++ decSpec n.whole ++ (match n.frac with | none => [] | some (z, f) => b!"." ++ List.replicate z 48 ++ decSpec f) ++ expText n.expo

def DecNum.value (n : DecNum) : ℚ :=
  (if n.neg then -1 else 1) * ((n.whole + (match n.frac with | none => 0 | some (z, f) => (f : ℚ) / 10 ^ (z + (decSpec f).length))) * expValue n.expo)

/-- A number which `float` can hold with some room: 0, or of a size between 2^-90 and 2^90. -/
def DecNum.Fits (n : DecNum) : Prop := n.value = 0 ∨ (1 / 2 ^ 90 ≤ |n.value| ∧ |n.value| ≤ 2 ^ 90)

/-- Two hex digits. -/
def hexPair (upper : Bool) (n : Fin 256) : Str :=
  let digit (k : Nat) : Byte := (if upper then b!"0123456789ABCDEF" else b!"0123456789abcdef").getD k 0
  [digit (n.val / 16), digit (n.val % 16)]

/-- An override tag. -/
inductive STag where
  | italic (on : Bool)
  | bold (on : Bool)
  | underline (on : Bool)
  | align (key : Nat)
  | pos (x y : DecNum)
  | size (n : DecNum)
  | colour (upper : Bool) (r g b : Fin 256)
  | plainColour
  | other (s : Str)

/-- How a tag is written, after its backslash. -/
def STag.text : STag → Str
  | .italic on => if on then b!"i1" else b!"i0"
  | .bold on => if on then b!"b1" else b!"b0"
  | .underline on => if on then b!"u1" else b!"u0"
  | .align k => b!"an" ++ decSpec k
  | .pos x y => b!"pos(" ++ x.text ++ b!"," ++ y.text ++ b!")"
  | .size n => b!"fs" ++ n.text
  | .colour u r g b => b!"c&H" ++ hexPair u b ++ hexPair u g ++ hexPair u r ++ b!"&"
  | .plainColour => b!"c"
  | .other s => s

/-- Alignments are keys of the numeric keypad; numbers fit into `float`; other tags do not begin like the known ones. -/
def STag.Ok : STag → Prop
  | .align k => 1 ≤ k ∧ k ≤ 9
  | .pos x y => x.Fits ∧ y.Fits
  | .size n => n.Fits
  | .other s => (∀ c ∈ s, c ∉ b!"\\}") ∧ s.head? ≠ some 110 ∧ s.head? ≠ some 78 ∧ 92 :: s ∉ plainTags ∧ ¬ b!"pos" <+: s ∧ ¬ b!"fs" <+: s ∧ ¬ b!"c" <+: s
  | _ => True

/-- The appearance of text, and the height at which it is. -/
structure SState where
  raw : Raw
  y : ℚ

/-- What a tag does. -/
def STag.apply (ctx : SsaContext) (s : SState) : STag → SState
  | .italic on => { s with raw := { s.raw with italic := on } }
  | .bold on => { s with raw := { s.raw with bold := on } }
  | .underline on => { s with raw := { s.raw with underline := on } }
  | .align k => { s with raw := { s.raw with hpos := ⟨keypadH k, f32 (hOffset ctx.lmargin ctx.rmargin ctx.resX (keypadH k))⟩, vpos := { s.raw.vpos with ref := some (keypadV k) } } }
  | .pos x y => { raw := { s.raw with hpos := ⟨.left, f32 (f32 x.value / ctx.resX)⟩, vpos := { s.raw.vpos with ref := some .topOfScreen } }, y := y.value / ctx.resY }
  | .size n => { s with raw := { s.raw with fontSize := { s.raw.fontSize with prop := some (f32 (f32 n.value / ctx.resY)) } } }
  | .colour _ r g b => { s with raw := { s.raw with colour := ⟨component r, component g, component b⟩ } }
  | .plainColour => { s with raw := { s.raw with colour := ctx.primaryColour } }
  | .other _ => s

/-- Pieces of the text of a dialogue. -/
inductive SItem where
  /-- plain text -/
  | text (s : Str)
  /-- `{`, a comment, and tags each after a backslash, `}` -/
  | block (comment : Str) (tags : List STag)
  /-- `\N` or `\n` -/
  | newLine (upper : Bool)
  /-- a backslash before some other character -/
  | escape (c : Byte)

def SItem.chars : SItem → Str
  | .text s => s
  | .block comment tags => b!"{" ++ comment ++ (tags.map (fun t => 92 :: t.text)).flatten ++ b!"}"
  | .newLine upper => if upper then b!"\\N" else b!"\\n"
  | .escape c => [92, c]

def SItem.Ok : SItem → Prop
  | .text s => StackLine s
  | .block comment tags => (∀ c ∈ comment, c ∉ b!"\\}") ∧ ∀ t ∈ tags, t.Ok
  | .newLine _ => True
  | .escape c => c ∉ b!"nN\\"

/-- Is it a line break? -/
def SItem.isBreak : SItem → Bool
  | .newLine _ => true
  | _ => false

/-- One line of height `h` further down. -/
def SState.down (h : ℚ) (s : SState) : SState := { s with y := if s.raw.vpos.ref = some .bottomOfScreen then s.y - h else s.y + h }

/-- Text, if there is some, with its appearance. -/
def sRun (s : SState) (text : Str) : List (Str × SState) := if text = [] then [] else [(text, s)]

/-- The runs of text between blocks and line breaks, each with its appearance; `text` is what has been read since the last of those. -/
def sRuns (ctx : SsaContext) (h : ℚ) (s : SState) (text : Str) : List SItem → List (Str × SState)
  | [] => sRun s text
  | .text t :: is => sRuns ctx h s (text ++ t) is
  | .escape _ :: is => sRuns ctx h s text is
  | .block _ tags :: is => sRun s text ++ sRuns ctx h (tags.foldl (STag.apply ctx) s) [] is
  | .newLine _ :: is => sRun s text ++ sRuns ctx h (s.down h) [] is

/-- The final position, for a margin `m` and `n` lines of height `h`. -/
def finalPos (m h : ℚ) (n : Nat) (s : SState) : ℚ :=
  match s.raw.vpos.ref with
  | some .bottomOfScreen => s.y + m + ((n : ℚ) - 1) * h
  | some .centreOfScreen => s.y - n * h / 2
  | _ => s.y + m

/-! ### Numbers -/

private theorem digits_dec (n : Nat) : ∀ c ∈ decSpec n, isDigit c = true := by
  rw [← natDec_eq_decSpec]; exact natDec_digits n

private theorem takeWhile_digits {ds rest : Str} (hd : ∀ c ∈ ds, isDigit c = true) (hr : ∀ c, rest.head? = some c → isDigit c = false) : takeDigits (ds ++ rest) = ds := by
  unfold takeDigits
  rw [List.takeWhile_append_of_pos hd]
  cases rest with
  | nil => simp
  | cons c r => rw [List.takeWhile_cons_of_neg (by simp [hr c rfl])]; simp

private theorem dropWhile_digits {ds rest : Str} (hd : ∀ c ∈ ds, isDigit c = true) (hr : ∀ c, rest.head? = some c → isDigit c = false) : (ds ++ rest).dropWhile isDigit = rest := by
  rw [List.dropWhile_append_of_pos hd]
  cases rest with
  | nil => rfl
  | cons c r => rw [List.dropWhile_cons_of_neg (by simp [hr c rfl])]

private theorem powInt_exp (e : Option (Bool × Nat)) {rest : Str} (hr : ∀ c ∈ rest, c = 41) : powInt 10 (scanExp 101 (expText e ++ rest)) = expValue e := by
  cases e with
  | none =>
    have : scanExp 101 (expText none ++ rest) = 0 := by
      cases rest with
      | nil => rfl
      | cons c r => rw [hr c (by simp)]; rfl
    rw [this]; rfl
  | some nk =>
    obtain ⟨neg, k⟩ := nk
    have hrd : ∀ c, rest.head? = some c → isDigit c = false := by
      intro c hc
      rw [hr c (List.mem_of_mem_head? hc)]; decide
    have hs : takeSign ((if neg then b!"-" else []) ++ decSpec k ++ rest) = (neg, decSpec k ++ rest) := by
      cases hd : decSpec k with
      | nil => exact absurd hd (by rw [← natDec_eq_decSpec]; exact natDec_ne_nil k)
      | cons a l =>
        have ha := digits_dec k a (by simp [hd])
        have hf := forall_byte (p := fun c => isDigit c = true → c ≠ 45 ∧ c ≠ 43) (by decide +kernel) a ha
        cases neg with
        | true => rfl
        | false => simp [takeSign, hf.1, hf.2]
    have he : scanExp 101 (expText (some (neg, k)) ++ rest) = if neg then -(k : Int) else k := by
      have h0 : expText (some (neg, k)) ++ rest = 101 :: ((if neg then b!"-" else []) ++ decSpec k ++ rest) := by simp [expText]
      rw [h0, scanExp, if_pos (by decide), hs]
      simp only
      rw [takeWhile_digits (digits_dec k) hrd, ← natDec_eq_decSpec, decVal_natDec]
    rw [he]
    cases neg with
    | false => simp [powInt, expValue]
    | true =>
      rcases Nat.eq_zero_or_pos k with rfl | hk
      · simp [powInt, expValue]
      · simp [powInt, expValue, hk]

private theorem expText_head (e : Option (Bool × Nat)) {rest : Str} (hr : ∀ c ∈ rest, c = 41) : ∀ c, (expText e ++ rest).head? = some c → c = 101 ∨ c = 41 := by
  intro c hc
  cases e with
  | none => exact .inr (hr c (List.mem_of_mem_head? hc))
  | some nk => simp [expText] at hc; exact .inl hc.symm

private theorem expText_chars (e : Option (Bool × Nat)) : ∀ c ∈ expText e, isDigit c = true ∨ c = 101 ∨ c = 45 := by
  intro c hc
  cases e with
  | none => cases hc
  | some nk =>
    obtain ⟨neg, k⟩ := nk
    simp only [expText, List.mem_append] at hc
    rcases hc with (hc | hc) | hc
    · exact .inr (.inl (by simpa using hc))
    · split at hc
      · exact .inr (.inr (by simpa using hc))
      · cases hc
    · exact .inl (digits_dec k c hc)

private theorem expValue_nonneg (e : Option (Bool × Nat)) : 0 ≤ expValue e := by
  unfold expValue
  split
  · norm_num
  · split <;> positivity

private theorem noPrefix {s pre : Str} {x : Byte} (hx : x ∈ pre) (h : ∀ c ∈ s, lowerByte c ≠ x) : startsWithNoCase s pre = false := by
  unfold startsWithNoCase
  rw [Bool.eq_false_iff, ne_eq, startsWith_iff]
  rintro ⟨t, ht⟩
  have : x ∈ toLower s := by rw [← ht]; simp [hx]
  unfold toLower at this
  obtain ⟨c, hc, e⟩ := List.mem_map.1 this
  exact h c hc e

private theorem safe_of_fits {n : DecNum} (hn : n.Fits) {v : ℚ} (h0 : 0 ≤ v) (hv : n.value = if n.neg then -v else v) :
    (if floatSafe v then .ok (f32 (if n.neg then -v else v)) else .error .unmodelled : R ℚ) = .ok (f32 n.value) := by
  have ha : |n.value| = v := by rw [hv]; split <;> simp [abs_of_nonneg h0]
  have hz : n.value = 0 ↔ v = 0 := by rw [← ha, abs_eq_zero]
  have hs : floatSafe v = true := by
    unfold floatSafe
    rcases hn with h | h
    · simp [hz.1 h]
    · rw [ha] at h
      simp [-one_div, h.1, h.2]
  rw [if_pos hs, hv]

/-- `raw_convert<float>` of a number in decimal notation, with something after it that does not belong to it. -/
theorem rawConvertFloat_num (n : DecNum) (hn : n.Fits) (rest : Str) (hr : ∀ c ∈ rest, c = 41) : rawConvertFloat (n.text ++ rest) = .ok (f32 n.value) := by
  unfold rawConvertFloat rawConvertFloatIn
  rw [makeLocal_classic]
  obtain ⟨neg, w, fr, ex⟩ := n
  -- what follows the sign
  obtain ⟨tail, htail⟩ : ∃ tail, tail = (match (generalizing := false) fr with | none => [] | some (z, f) => b!"." ++ List.replicate z 48 ++ decSpec f) ++ (expText ex ++ rest) := ⟨_, rfl⟩
  have htext : (DecNum.mk neg w fr ex).text ++ rest = (if neg then b!"-" else []) ++ (decSpec w ++ tail) := by
    rw [htail]; simp [DecNum.text]
  have hw := digits_dec w
  have hwne : decSpec w ≠ [] := by rw [← natDec_eq_decSpec]; exact natDec_ne_nil w
  have hchars : ∀ c ∈ decSpec w ++ tail, isDigit c = true ∨ c = 46 ∨ c = 41 ∨ c = 101 ∨ c = 45 := by
    intro c hc
    rcases List.mem_append.1 hc with hc | hc
    · exact .inl (hw c hc)
    · rw [htail] at hc
      rcases List.mem_append.1 hc with hc | hc
      · cases fr with
        | none => cases hc
        | some zf =>
          simp only [List.mem_append] at hc
          rcases hc with (hc | hc) | hc
          · exact .inr (.inl (by simpa using hc))
          · rw [List.eq_of_mem_replicate hc]; exact .inl (by decide)
          · exact .inl (digits_dec _ c hc)
      · rcases List.mem_append.1 hc with hc | hc
        · rcases expText_chars ex c hc with h | h | h
          · exact .inl h
          · exact .inr (.inr (.inr (.inl h)))
          · exact .inr (.inr (.inr (.inr h)))
        · exact .inr (.inr (.inl (hr c hc)))
  have hlow : ∀ c ∈ decSpec w ++ tail, lowerByte c ≠ 110 ∧ lowerByte c ≠ 120 := by
    intro c hc
    have := forall_byte (p := fun c => (isDigit c = true ∨ c = 46 ∨ c = 41 ∨ c = 101 ∨ c = 45) → (lowerByte c ≠ 110 ∧ lowerByte c ≠ 120)) (by decide +kernel) c
    exact this (hchars c hc)
  have hsign : takeSign (((DecNum.mk neg w fr ex).text ++ rest).dropWhile isSpace) = (neg, decSpec w ++ tail) := by
    rw [htext]
    cases hd : decSpec w with
    | nil => exact absurd hd hwne
    | cons a l =>
      have ha := hw a (by simp [hd])
      have hf := forall_byte (p := fun c => isDigit c = true → isSpace c = false ∧ c ≠ 45 ∧ c ≠ 43) (by decide +kernel) a ha
      cases neg with
      | true => rfl
      | false =>
        simp only [Bool.false_eq_true, if_false, List.nil_append, List.cons_append]
        rw [List.dropWhile_cons_of_neg (by simp [hf.1])]
        simp [takeSign, hf.2.1, hf.2.2]
  have hrd : ∀ c, (expText ex ++ rest).head? = some c → isDigit c = false := by
    intro c hc
    rcases expText_head ex hr c hc with rfl | rfl <;> decide
  have hth : ∀ c, tail.head? = some c → isDigit c = false := by
    intro c hc
    rw [htail] at hc
    cases fr with
    | none =>
      rw [List.nil_append] at hc
      exact hrd c hc
    | some zf =>
      simp at hc
      rw [← hc]; decide
  unfold scanFloat
  rw [hsign]
  simp only
  rw [noPrefix (x := 110) (by simp) (fun c hc => (hlow c hc).1), noPrefix (x := 110) (by simp) (fun c hc => (hlow c hc).1), noPrefix (x := 120) (by simp) (fun c hc => (hlow c hc).2)]
  simp only [Bool.or_self, Bool.false_eq_true, if_false]
  unfold scanDecimal scanMant
  rw [dropWhile_digits hw hth, show (decSpec w ++ tail).takeWhile isDigit = _ from takeWhile_digits hw hth]
  have hve : (decVal (decSpec w) : ℚ) = w := by rw [← natDec_eq_decSpec, decVal_natDec]
  cases fr with
  | none =>
    rw [List.nil_append] at htail
    subst htail
    have hp : startsWith (expText ex ++ rest) b!"." = false := by
      rw [Bool.eq_false_iff, ne_eq, startsWith_iff]
      rintro ⟨t, ht⟩
      have := expText_head ex hr 46 (by rw [← ht]; rfl)
      revert this; decide
    simp only [Locale.c, hp, Bool.and_false, Bool.false_eq_true, if_false, hve, powInt_exp ex hr]
    exact safe_of_fits hn (mul_nonneg (by positivity) (expValue_nonneg ex)) (by unfold DecNum.value; cases neg <;> simp [decVal])
  | some zf =>
    obtain ⟨z, f⟩ := zf
    have ht2 : tail = b!"." ++ ((List.replicate z 48 ++ decSpec f) ++ (expText ex ++ rest)) := by rw [htail]; simp
    have hp : startsWith tail b!"." = true := by rw [startsWith_iff, ht2]; simp
    have hdr : tail.drop b!".".length = (List.replicate z 48 ++ decSpec f) ++ (expText ex ++ rest) := by rw [ht2]; rfl
    have hfd : ∀ c ∈ List.replicate z (48 : Byte) ++ decSpec f, isDigit c = true := by
      intro c hc
      rcases List.mem_append.1 hc with hc | hc
      · rw [List.eq_of_mem_replicate hc]; decide
      · exact digits_dec f c hc
    simp only [Locale.c, hp]
    rw [hdr, dropWhile_digits hfd hrd, show ((List.replicate z (48 : Byte) ++ decSpec f) ++ (expText ex ++ rest)).takeWhile isDigit = List.replicate z 48 ++ decSpec f from takeWhile_digits hfd hrd]
    simp only [List.isEmpty_cons, Bool.not_false, Bool.and_self, if_true, hve, powInt_exp ex hr]
    have hfv : (decVal (List.replicate z 48 ++ decSpec f) : ℚ) = f := by rw [← natDec_eq_decSpec, decVal_zeros_append, decVal_natDec]
    rw [hfv]
    exact safe_of_fits hn (mul_nonneg (by positivity) (expValue_nonneg ex)) (by unfold DecNum.value; cases neg <;> simp)

example : (DecNum.mk true 12 (some (1, 5)) none).text = b!"-12.05" ∧ (DecNum.mk true 12 (some (1, 5)) none).value = -241 / 20 := by
  constructor
  · decide
  · have : (decSpec 5).length = 1 := by decide
    simp only [DecNum.value, this, expValue]; norm_num

example : (DecNum.mk false 1 (some (0, 2)) (some (false, 3))).text = b!"1.2e3" ∧ (DecNum.mk false 1 (some (0, 2)) (some (false, 3))).value = 1200 := by
  constructor
  · decide
  · have : (decSpec 2).length = 1 := by decide
    simp only [DecNum.value, this, expValue]; norm_num

/-! ### Tags -/

/-- Text at a raw position. -/
def Raw.put (r : Raw) (text : Str) (p : ℚ) : Raw := { r with text := text, vpos := { r.vpos with prop := some p } }

private theorem hexPair_facts (u : Bool) (n : Fin 256) : ∃ a b, hexPair u n = [a, b] ∧ hexOf a = some (n.val / 16) ∧ hexOf b = some (n.val % 16) := by
  refine ⟨_, _, rfl, ?_, ?_⟩
  · have : ∀ u : Bool, ∀ n : Fin 256, hexOf ((if u then b!"0123456789ABCDEF" else b!"0123456789abcdef").getD (n.val / 16) 0) = some (n.val / 16) := by decide +kernel
    exact this u n
  · have : ∀ u : Bool, ∀ n : Fin 256, hexOf ((if u then b!"0123456789ABCDEF" else b!"0123456789abcdef").getD (n.val % 16) 0) = some (n.val % 16) := by decide +kernel
    exact this u n

private theorem dec_chars (n : DecNum) : ∀ c ∈ n.text, c ∉ b!"\\}(,)" := by
  intro c hc
  have hd := forall_byte (p := fun c => isDigit c = true → c ∉ b!"\\}(,)") (by decide +kernel)
  unfold DecNum.text at hc
  simp only [List.mem_append] at hc
  rcases hc with ((hc | hc) | hc) | hc
  rotate_left 3
  · rcases expText_chars _ c hc with h | rfl | rfl
    · exact hd c h
    · decide
    · decide
  · split at hc
    · simp at hc; subst hc; decide
    · cases hc
  · exact hd c (digits_dec _ c hc)
  · split at hc
    · cases hc
    · simp only [List.mem_append] at hc
      rcases hc with (hc | hc) | hc
      · simp at hc; subst hc; decide
      · rw [List.eq_of_mem_replicate hc]; decide
      · exact hd c (digits_dec _ c hc)

private theorem pos_skip (ctx : SsaContext) (sub : Raw) (s : Str) : ssaParseTag ctx sub (b!"\\pos" ++ s) =
    (match splitAny (fun c => c == 40 || c == 44) (b!"\\pos" ++ s) with
    | [_, x, y] => do
      let fx ← rawConvertFloat x
      let hp ← fdiv fx (f32 ctx.resX)
      let fy ← rawConvertFloat y
      let vp ← fdiv fy (f32 ctx.resY)
      pure { sub with hpos := ⟨.left, f32 hp⟩, vpos := { sub.vpos with ref := some .topOfScreen, prop := some (f32 vp) } }
    | _ => .error .programming) := by
  have hn : ∀ t : Str, (∀ u, t ≠ 92 :: 112 :: u) → b!"\\pos" ++ s ≠ t := fun t ht e => ht (b!"os" ++ s) e.symm
  unfold ssaParseTag
  rw [if_neg (hn _ (by simp)), if_neg (by rintro (h | h) <;> exact hn _ (by simp) h), if_neg (hn _ (by simp)), if_neg (hn _ (by simp)), if_neg (hn _ (by simp)), if_neg (hn _ (by simp)), if_neg (hn _ (by simp)),
    if_neg (hn _ (by simp)), if_neg (hn _ (by simp)), if_neg (hn _ (by simp)), if_neg (hn _ (by simp)), if_neg (hn _ (by simp)), if_neg (hn _ (by simp)), if_neg (hn _ (by simp)), if_neg (hn _ (by simp)),
    if_pos (by simp [startsWith, List.isPrefixOf])]
  rfl

private theorem size_skip (ctx : SsaContext) (sub : Raw) (s : Str) (hs : s ≠ []) : ssaParseTag ctx sub (b!"\\fs" ++ s) = (do
    let f ← rawConvertFloat s
    let q ← fdiv f (f32 ctx.resY)
    pure { sub with fontSize := { sub.fontSize with prop := some (f32 q) } }) := by
  have hn : ∀ t : Str, (∀ u, t ≠ 92 :: 102 :: u) → b!"\\fs" ++ s ≠ t := fun t ht e => ht (b!"s" ++ s) e.symm
  unfold ssaParseTag
  rw [if_neg (hn _ (by simp)), if_neg (by rintro (h | h) <;> exact hn _ (by simp) h), if_neg (hn _ (by simp)), if_neg (hn _ (by simp)), if_neg (hn _ (by simp)), if_neg (hn _ (by simp)), if_neg (hn _ (by simp)),
    if_neg (hn _ (by simp)), if_neg (hn _ (by simp)), if_neg (hn _ (by simp)), if_neg (hn _ (by simp)), if_neg (hn _ (by simp)), if_neg (hn _ (by simp)), if_neg (hn _ (by simp)), if_neg (hn _ (by simp)),
    if_neg (by simp [startsWith, List.isPrefixOf]), if_pos (by simp [startsWith, List.isPrefixOf])]
  have : decide ((b!"\\fs" ++ s).length > 3) = true := by
    cases s with
    | nil => exact absurd rfl hs
    | cons a l => simp
  rw [this]
  rfl

private theorem res_f32 {ctx : SsaContext} (h : ctx.Sane) : f32 (ctx.resX : ℚ) = ctx.resX ∧ f32 (ctx.resY : ℚ) = ctx.resY ∧ (ctx.resX : ℚ) ≠ 0 ∧ (ctx.resY : ℚ) ≠ 0 := by
  obtain ⟨_, _, hx, hy⟩ := h
  refine ⟨f32_int (by rw [abs_le]; constructor <;> omega), f32_int (by rw [abs_le]; constructor <;> omega), ?_, ?_⟩
  · exact_mod_cast (by omega : ctx.resX ≠ 0)
  · exact_mod_cast (by omega : ctx.resY ≠ 0)

private theorem fdiv_ne {a b : ℚ} (h : b ≠ 0) : fdiv a b = .ok (a / b) := by
  unfold fdiv
  rw [if_neg h]

/-- The new vertical position after a tag. -/
private def STag.move (ctx : SsaContext) (p : ℚ) : STag → ℚ
  | .pos _ y => f32 (f32 y.value / ctx.resY)
  | _ => p

private theorem tag_apply (ctx : SsaContext) (hctx : ctx.Sane) (s : SState) (p : ℚ) (t : STag) (ht : t.Ok) (text : Str) :
    ssaParseTag ctx (s.raw.put text p) (92 :: t.text) = .ok ((t.apply ctx s).raw.put text (t.move ctx p)) := by
  obtain ⟨fx, fy, nx, ny⟩ := res_f32 hctx
  cases t with
  | italic on => cases on <;> rfl
  | bold on => cases on <;> rfl
  | underline on => cases on <;> rfl
  | align k => exact C45_tag ctx hctx _ k ht.1 ht.2
  | pos x y =>
    have e : (92 :: (STag.pos x y).text : Str) = b!"\\pos" ++ (40 :: (x.text ++ 44 :: (y.text ++ b!")"))) := by simp [STag.text]
    rw [e, pos_skip]
    have hx : ∀ c ∈ x.text, (c == 40 || c == 44) = false := by
      intro c hc
      have := dec_chars x c hc
      simp at this ⊢
      exact ⟨this.2.2.1, this.2.2.2.1⟩
    have hy : ∀ c ∈ y.text ++ b!")", (c == 40 || c == 44) = false := by
      intro c hc
      rcases List.mem_append.1 hc with hc | hc
      · have := dec_chars y c hc
        simp at this ⊢
        exact ⟨this.2.2.1, this.2.2.2.1⟩
      · simp at hc; subst hc; decide
    rw [splitAny_append (by decide) (by decide), splitAny_append hx (by decide), splitAny_noSep hy]
    simp only
    have h1 := rawConvertFloat_num x ht.1 [] (by simp)
    rw [List.append_nil] at h1
    rw [h1, ok_bind, fx, fdiv_ne nx, ok_bind, rawConvertFloat_num y ht.2 b!")" (by simp), ok_bind, fy, fdiv_ne ny, ok_bind]
    rfl
  | size n =>
    have hne : n.text ≠ [] := by
      unfold DecNum.text
      have := natDec_ne_nil n.whole
      rw [natDec_eq_decSpec] at this
      simp [this]
    have h1 := rawConvertFloat_num n ht [] (by simp)
    rw [List.append_nil] at h1
    show ssaParseTag ctx _ (b!"\\fs" ++ n.text) = _
    rw [size_skip _ _ _ hne, h1, ok_bind, fy, fdiv_ne ny, ok_bind]
    rfl
  | colour u r g b =>
    obtain ⟨r1, r0, hr, hr1, hr0⟩ := hexPair_facts u r
    obtain ⟨g1, g0, hg, hg1, hg0⟩ := hexPair_facts u g
    obtain ⟨b1, b0, hb, hb1, hb0⟩ := hexPair_facts u b
    have e : (92 :: (STag.colour u r g b).text : Str) = b!"\\c" ++ (b!"&H" ++ [] ++ [b1, b0, g1, g0, r1, r0]) ++ [38] := by
      simp [STag.text, hr, hg, hb]
    rw [e, C48_tag, C48_bgr [] [] rfl (.inl rfl) b1 b0 g1 g0 r1 r0 _ _ _ _ _ _ hb1 hb0 hg1 hg0 hr1 hr0]
    have : ∀ n : Nat, 16 * (n / 16) + n % 16 = n := by omega
    simp only [this]
    rfl
  | plainColour => rfl
  | other x =>
    obtain ⟨_, _, _, h1, h2, h3, h4⟩ := ht
    have hp : ∀ q : Str, ¬ q <+: x → ¬ (92 :: q) <+: (92 :: x) := by
      rintro q hq ⟨t, e⟩
      exact hq ⟨t, (List.cons.inj e).2⟩
    exact C49_ignored_partial ctx _ _ h1 (hp _ h2) (hp _ h3) (hp _ h4)

private theorem comment_apply (ctx : SsaContext) (sub : Raw) (s : Str) (h : ∀ c ∈ s, c ∉ b!"\\}") : ssaParseTag ctx sub s = .ok sub := by
  have h92 : ∀ q : Str, ¬ (92 :: q) <+: s := by
    rintro q ⟨t, e⟩
    exact h 92 (by rw [← e]; simp) (by simp)
  refine C49_ignored_partial ctx sub s (fun hm => ?_) (h92 _) (h92 _) (h92 _)
  have : ∀ t ∈ plainTags, ∃ q, t = 92 :: q := by
    intro t ht
    simp only [plainTags, List.mem_cons, List.not_mem_nil, or_false] at ht
    rcases ht with rfl | rfl | rfl | rfl | rfl | rfl | rfl | rfl | rfl | rfl | rfl | rfl | rfl | rfl | rfl | rfl <;> exact ⟨_, rfl⟩
  obtain ⟨q, rfl⟩ := this s hm
  exact h92 q (List.prefix_refl _)

/-! ### The loop -/

private theorem flush_put (st : SsaState) (subs : List Raw) (r : Raw) (text : Str) (p : ℚ) (tag : Str) :
    (SsaLoop.mk st subs (r.put text p) tag).flush = ⟨st, subs ++ (if text = [] then [] else [r.put text p]), r.put [] p, tag⟩ := by
  unfold SsaLoop.flush
  cases text with
  | nil => simp [Raw.put]
  | cons c t => simp [Raw.put]

private theorem run_tagChars (ctx : SsaContext) (h : ℚ) (subs : List Raw) (cur : Raw) (tag s rest : Str) (hs : ∀ c ∈ s, c ∉ b!"\\}") :
    ssaRun ctx h ⟨.tag, subs, cur, tag⟩ (s ++ rest) = ssaRun ctx h ⟨.tag, subs, cur, tag ++ s⟩ rest := by
  induction s generalizing tag with
  | nil => simp
  | cons c s ih =>
    have hc := hs c (by simp)
    simp only [List.mem_cons, List.not_mem_nil, or_false, not_or] at hc
    rw [List.cons_append, ssaRun]
    have : ssaStep ctx h ⟨.tag, subs, cur, tag⟩ c = .ok ⟨.tag, subs, cur, tag ++ [c]⟩ := by
      unfold ssaStep
      simp [hc.1, hc.2]
    rw [this, ok_bind, ih _ (fun d hd => hs d (by simp [hd]))]
    simp

/-- The characters of a tag. -/
private theorem tag_chars (t : STag) (ht : t.Ok) : ∀ c ∈ t.text, c ∉ b!"\\}" := by
  have hd := forall_byte (p := fun c => isDigit c = true → c ∉ b!"\\}") (by decide +kernel)
  have hn : ∀ n : DecNum, ∀ c ∈ n.text, c ∉ b!"\\}" := by
    intro n c hc
    have := dec_chars n c hc
    simp at this ⊢
    exact ⟨this.1, this.2.1⟩
  have hh : ∀ u n, ∀ c ∈ hexPair u n, c ∉ b!"\\}" := by
    intro u n c hc
    have : ∀ u : Bool, ∀ n : Fin 256, ∀ c ∈ hexPair u n, c ∉ b!"\\}" := by decide +kernel
    exact this u n c hc
  cases t with
  | italic on => cases on <;> decide
  | bold on => cases on <;> decide
  | underline on => cases on <;> decide
  | align k =>
    intro c hc
    rw [STag.text, List.mem_append] at hc
    rcases hc with hc | hc
    · revert c; decide
    · exact hd c (digits_dec k c hc)
  | pos x y =>
    intro c hc
    simp only [STag.text, List.mem_append] at hc
    rcases hc with (((hc | hc) | hc) | hc) | hc
    · revert c; decide
    · exact hn x c hc
    · revert c; decide
    · exact hn y c hc
    · revert c; decide
  | size n =>
    intro c hc
    rw [STag.text, List.mem_append] at hc
    rcases hc with hc | hc
    · revert c; decide
    · exact hn n c hc
  | colour u r g b =>
    intro c hc
    simp only [STag.text, List.mem_append] at hc
    rcases hc with (((hc | hc) | hc) | hc) | hc
    · revert c; decide
    · exact hh _ _ c hc
    · exact hh _ _ c hc
    · exact hh _ _ c hc
    · revert c; decide
  | plainColour => decide
  | other s => exact ht.1

private def moves (ctx : SsaContext) (p : ℚ) (tags : List STag) : ℚ := tags.foldl (fun p t => t.move ctx p) p

/-- From inside a block, with the tag `tag` being read: the rest of the block. -/
private theorem run_tags (ctx : SsaContext) (hctx : ctx.Sane) (h : ℚ) (tags : List STag) (ht : ∀ t ∈ tags, t.Ok) (rest : Str) (subs : List Raw) (r : Raw) (text : Str) (p : ℚ) (tag : Str)
    (s : SState) (p' : ℚ) (hp : ssaParseTag ctx (r.put [] p) tag = .ok (s.raw.put [] p')) :
    ssaRun ctx h ⟨.tag, subs, r.put text p, tag⟩ ((tags.map (fun t => 92 :: t.text)).flatten ++ 125 :: rest) =
      ssaRun ctx h ⟨.text, subs ++ (if text = [] then [] else [r.put text p]), (tags.foldl (STag.apply ctx) s).raw.put [] (moves ctx p' tags), []⟩ rest := by
  induction tags generalizing subs r text p tag s p' with
  | nil =>
    rw [List.map_nil, List.flatten_nil, List.nil_append, ssaRun]
    have : ssaStep ctx h ⟨.tag, subs, r.put text p, tag⟩ 125 = .ok ⟨.text, subs ++ (if text = [] then [] else [r.put text p]), s.raw.put [] p', []⟩ := by
      unfold ssaStep
      simp only [beq_self_eq_true, if_true]
      rw [flush_put]
      simp only [hp, ok_bind]
      rfl
    rw [this, ok_bind]
    rfl
  | cons t tags ih =>
    have e : ((t :: tags).map (fun t => 92 :: t.text)).flatten ++ 125 :: rest = 92 :: (t.text ++ ((tags.map (fun t => 92 :: t.text)).flatten ++ 125 :: rest)) := by simp
    rw [e, ssaRun]
    have : ssaStep ctx h ⟨.tag, subs, r.put text p, tag⟩ 92 = .ok ⟨.tag, subs ++ (if text = [] then [] else [r.put text p]), s.raw.put [] p', [92]⟩ := by
      unfold ssaStep
      simp only [beq_self_eq_true, if_true]
      rw [if_neg (by decide), flush_put]
      simp only [hp, ok_bind]
      rfl
    have hok := ht t (by simp)
    rw [this, ok_bind, run_tagChars _ _ _ _ _ _ _ (tag_chars t hok)]
    have ih := ih (fun t h => ht t (by simp [h])) (subs ++ (if text = [] then [] else [r.put text p])) s.raw [] p' (92 :: t.text) (t.apply ctx s) (t.move ctx p') (tag_apply ctx hctx s p' t hok [])
    rw [List.singleton_append, ih]
    simp [moves]

private theorem run_block (ctx : SsaContext) (hctx : ctx.Sane) (h : ℚ) (comment : Str) (hc : ∀ c ∈ comment, c ∉ b!"\\}") (tags : List STag) (ht : ∀ t ∈ tags, t.Ok) (rest : Str)
    (subs : List Raw) (s : SState) (text : Str) (p : ℚ) :
    ssaRun ctx h ⟨.text, subs, s.raw.put text p, []⟩ ((SItem.block comment tags).chars ++ rest) =
      ssaRun ctx h ⟨.text, subs ++ (if text = [] then [] else [s.raw.put text p]), (tags.foldl (STag.apply ctx) s).raw.put [] (moves ctx p tags), []⟩ rest := by
  have e : (SItem.block comment tags).chars ++ rest = 123 :: (comment ++ ((tags.map (fun t => 92 :: t.text)).flatten ++ 125 :: rest)) := by simp [SItem.chars]
  rw [e, ssaRun, show ssaStep ctx h ⟨.text, subs, s.raw.put text p, []⟩ 123 = .ok ⟨.tag, subs, s.raw.put text p, []⟩ from rfl, ok_bind, run_tagChars _ _ _ _ _ _ _ hc, List.nil_append]
  exact run_tags ctx hctx h tags ht rest subs s.raw text p comment s p (comment_apply ctx _ _ hc)

private def stepDown (ref : Option VRef) (h p : ℚ) : ℚ := if ref = some .bottomOfScreen then f32 (f64 (p - h)) else f32 (f64 (p + h))

private theorem run_newLine (ctx : SsaContext) (h : ℚ) (upper : Bool) (rest : Str) (subs : List Raw) (s : SState) (hs : s.raw.vpos.ref.isSome = true) (text : Str) (p : ℚ) :
    ssaRun ctx h ⟨.text, subs, s.raw.put text p, []⟩ ((SItem.newLine upper).chars ++ rest) =
      ssaRun ctx h ⟨.text, subs ++ (if text = [] then [] else [s.raw.put text p]), s.raw.put [] (stepDown s.raw.vpos.ref h p), []⟩ rest := by
  have key : ∀ n : Byte, (n == 110 || n == 78) = true → ssaRun ctx h ⟨.text, subs, s.raw.put text p, []⟩ (92 :: n :: rest) =
      ssaRun ctx h ⟨.text, subs ++ (if text = [] then [] else [s.raw.put text p]), s.raw.put [] (stepDown s.raw.vpos.ref h p), []⟩ rest := by
    intro n hn
    rw [ssaRun, show ssaStep ctx h ⟨.text, subs, s.raw.put text p, []⟩ 92 = .ok ⟨.backslash, subs, s.raw.put text p, []⟩ from rfl, ok_bind, ssaRun]
    have e2 : ssaStep ctx h ⟨.backslash, subs, s.raw.put text p, []⟩ n =
        .ok ⟨.text, subs ++ (if text = [] then [] else [s.raw.put text p]), s.raw.put [] (stepDown s.raw.vpos.ref h p), []⟩ := by
      unfold ssaStep
      simp only [hn, if_true]
      rw [flush_put]
      obtain ⟨ref, href⟩ := Option.isSome_iff_exists.1 hs
      have e3 : ssaMoveDown h (s.raw.put [] p).vpos = .ok { s.raw.vpos with prop := some (stepDown s.raw.vpos.ref h p) } := by
        unfold ssaMoveDown stepDown
        simp only [Raw.put, href, optGet]
        by_cases hr : ref = .bottomOfScreen
        · simp [hr]
        · simp [hr]
      simp only [e3, ok_bind]
      rfl
    rw [e2, ok_bind]
  cases upper
  · exact key 110 (by decide)
  · exact key 78 (by decide)

private theorem run_escape (ctx : SsaContext) (h : ℚ) (c : Byte) (hc : c ∉ b!"nN\\") (rest : Str) (subs : List Raw) (cur : Raw) :
    ssaRun ctx h ⟨.text, subs, cur, []⟩ ((SItem.escape c).chars ++ rest) = ssaRun ctx h ⟨.text, subs, cur, []⟩ rest := by
  show ssaRun ctx h ⟨.text, subs, cur, []⟩ (92 :: c :: rest) = _
  rw [ssaRun, show ssaStep ctx h ⟨.text, subs, cur, []⟩ 92 = .ok ⟨.backslash, subs, cur, []⟩ from rfl, ok_bind, ssaRun]
  simp only [List.mem_cons, List.not_mem_nil, or_false, not_or] at hc
  have : ssaStep ctx h ⟨.backslash, subs, cur, []⟩ c = .ok ⟨.text, subs, cur, []⟩ := by
    unfold ssaStep
    simp [hc.1, hc.2.1]
  rw [this, ok_bind]

/-! ### Line breaks -/

private theorem breaks_two (a b : Byte) (s : Str) (hb : b ≠ 92) : ssaLineBreaks (a :: b :: s) = (if a = 92 ∧ (b = 110 ∨ b = 78) then 1 else 0) + ssaLineBreaks s := by
  rw [ssaLineBreaks]
  have : ssaLineBreaks (b :: s) = ssaLineBreaks s := breaks_plain [b] s (by simpa using Ne.symm hb)
  rw [this]
  simp

private theorem text_head (t : STag) (ht : t.Ok) : t.text.head? ≠ some 110 ∧ t.text.head? ≠ some 78 := by
  cases t with
  | italic on => cases on <;> decide
  | bold on => cases on <;> decide
  | underline on => cases on <;> decide
  | align k => simp [STag.text]
  | pos x y => simp [STag.text]
  | size n => simp [STag.text]
  | colour u r g b => simp [STag.text]
  | plainColour => decide
  | other s => exact ⟨ht.2.1, ht.2.2.1⟩

private theorem breaks_item (i : SItem) (hi : i.Ok) (rest : Str) : ssaLineBreaks (i.chars ++ rest) = (if i.isBreak then 1 else 0) + ssaLineBreaks rest := by
  cases i with
  | text s =>
    simp only [SItem.isBreak, Bool.false_eq_true, if_false, Nat.zero_add]
    exact breaks_plain _ _ fun hc => hi 92 hc (by simp)
  | newLine u =>
    cases u
    · exact breaks_two 92 110 rest (by decide)
    · exact breaks_two 92 78 rest (by decide)
  | escape c =>
    simp only [SItem.Ok, List.mem_cons, List.not_mem_nil, or_false, not_or] at hi
    show ssaLineBreaks (92 :: c :: rest) = _
    rw [breaks_two _ _ _ hi.2.2]
    simp [hi.1, hi.2.1, SItem.isBreak]
  | block comment tags =>
    obtain ⟨hc, ht⟩ := hi
    have e : (SItem.block comment tags).chars ++ rest = (123 :: comment) ++ ((tags.map (fun t => 92 :: t.text)).flatten ++ 125 :: rest) := by simp [SItem.chars]
    rw [e, breaks_plain _ _ (by
      simp only [List.mem_cons, not_or]
      exact ⟨by decide, fun h => hc 92 h (by simp)⟩)]
    simp only [SItem.isBreak, Bool.false_eq_true, if_false, Nat.zero_add]
    have key : ∀ tags : List STag, (∀ t ∈ tags, t.Ok) → ssaLineBreaks ((tags.map (fun t => 92 :: t.text)).flatten ++ 125 :: rest) = ssaLineBreaks rest := by
      intro tags
      induction tags with
      | nil => intro _; exact breaks_plain [125] rest (by decide)
      | cons t tags ih =>
        intro ht
        have ih := ih fun t h => ht t (by simp [h])
        have hok := ht t (by simp)
        obtain ⟨h1, h2⟩ := text_head t hok
        have h92 : (92 : Byte) ∉ t.text := fun h => tag_chars t hok 92 h (by simp)
        rw [List.map_cons, List.flatten_cons, List.append_assoc, List.cons_append]
        cases htx : t.text with
        | nil =>
          -- the next character is a backslash or the end of the block
          have hnext : ∃ b s, ((tags.map (fun t => 92 :: t.text)).flatten ++ 125 :: rest) = b :: s ∧ b ≠ 110 ∧ b ≠ 78 := by
            cases tags with
            | nil => exact ⟨125, rest, rfl, by decide, by decide⟩
            | cons u us => exact ⟨92, _, rfl, by decide, by decide⟩
          obtain ⟨b, s, e, hb1, hb2⟩ := hnext
          rw [List.nil_append, ← ih, e, ssaLineBreaks]
          simp [hb1, hb2]
        | cons b s =>
          rw [htx] at h1 h2 h92
          simp only [List.head?_cons, ne_eq, Option.some.injEq] at h1 h2
          simp only [List.mem_cons, not_or] at h92
          rw [List.cons_append, breaks_two _ _ _ (Ne.symm h92.1), breaks_plain _ _ h92.2, ih]
          simp [h1, h2]
    exact key tags ht

private theorem breaks_items (is : List SItem) (h : ∀ i ∈ is, i.Ok) : ssaLineBreaks (is.map SItem.chars).flatten = is.countP SItem.isBreak := by
  induction is with
  | nil => rfl
  | cons i is ih =>
    rw [List.map_cons, List.flatten_cons, breaks_item i (h i (by simp)), ih (fun i hi => h i (by simp [hi])), List.countP_cons]
    omega

/-! ### Rounding -/

/-- Sizes: of a line of text `fs`, bounds `Y` for the positions given by tags, `m` the margin, `N` line breaks. -/
private structure Sizes where
  fs : ℚ
  Y : ℚ
  m : ℚ
  N : Nat
  fs0 : 0 ≤ fs
  Y0 : 0 ≤ Y
  N0 : N ≤ 2 ^ 20

private def Sizes.B (z : Sizes) : ℚ := z.Y + 2 * (z.N + 1) * z.fs + |z.m|

private def Sizes.h (z : Sizes) : ℚ := f64 (z.fs * f64 (6 / 5))

/-- `p` is near the ideal position `q` after `j` line breaks. -/
private def Near (z : Sizes) (j : Nat) (p q : ℚ) : Prop := |p - q| ≤ (j + 1) * (z.B / 2 ^ 22) ∧ |q| ≤ z.Y + j * (6 / 5 * z.fs)

private theorem Sizes.facts (z : Sizes) : 0 ≤ z.B ∧ z.Y ≤ z.B ∧ 2 * z.fs ≤ z.B ∧ |z.m| ≤ z.B ∧ |z.h - 6 / 5 * z.fs| ≤ z.fs / 2 ^ 51 ∧ 0 ≤ z.h ∧ z.h ≤ 2 * z.fs := by
  have h1 := z.fs0
  have h2 := z.Y0
  have h3 := abs_nonneg z.m
  have hh := height_err z.fs h1
  have h4 : (0 : ℚ) ≤ z.N * z.fs := by positivity
  have hB : z.B = z.Y + 2 * (z.N * z.fs) + 2 * z.fs + |z.m| := by unfold Sizes.B; ring
  have hh' := hh
  rw [abs_le] at hh'
  refine ⟨by linarith, by linarith, by linarith, by linarith, hh, ?_, ?_⟩
  · unfold Sizes.h; linarith
  · unfold Sizes.h; linarith

private theorem Near.small {z : Sizes} {j : Nat} {p q : ℚ} (hj : j ≤ z.N) (h : Near z j p q) : |p - q| ≤ z.B / 2 ∧ |q| ≤ z.B := by
  obtain ⟨f1, f2, f3, f4, f5, f6, f7⟩ := z.facts
  have hjn : (j : ℚ) ≤ z.N := by exact_mod_cast hj
  have hN : (z.N : ℚ) ≤ 2 ^ 20 := by exact_mod_cast z.N0
  have hB : z.B = z.Y + 2 * (z.N * z.fs) + 2 * z.fs + |z.m| := by unfold Sizes.B; ring
  have h0 := z.fs0
  have hm := abs_nonneg z.m
  constructor
  · calc |p - q| ≤ (j + 1) * (z.B / 2 ^ 22) := h.1
      _ ≤ (2 ^ 20 + 1) * (z.B / 2 ^ 22) := by gcongr; linarith
      _ ≤ z.B / 2 := by linarith
  · have : (j : ℚ) * (6 / 5 * z.fs) ≤ z.N * (6 / 5 * z.fs) := by gcongr
    have h3 : (0 : ℚ) ≤ z.N * z.fs := by positivity
    linarith [h.2]

private theorem near_down {z : Sizes} {j : Nat} {p q : ℚ} (hj : j + 1 ≤ z.N) (h : Near z j p q) (ref : Option VRef) :
    Near z (j + 1) (stepDown ref z.h p) (if ref = some .bottomOfScreen then q - 6 / 5 * z.fs else q + 6 / 5 * z.fs) := by
  obtain ⟨f1, f2, f3, f4, f5, f6, f7⟩ := z.facts
  obtain ⟨s1, s2⟩ := h.small (by omega)
  obtain ⟨h1, h2⟩ := h
  have h0 := z.fs0
  rw [abs_le] at f5 s1 s2 h1 h2
  have e1 : ((j : ℚ) + 1 + 1) * (z.B / 2 ^ 22) = (j + 1) * (z.B / 2 ^ 22) + z.B / 2 ^ 22 := by ring
  have e2 : z.Y + ((j : ℚ) + 1) * (6 / 5 * z.fs) = z.Y + j * (6 / 5 * z.fs) + 6 / 5 * z.fs := by ring
  unfold Near stepDown
  push_cast
  rw [e1, e2]
  split
  · have := two_rounds (x := p - z.h) (B := 3 * z.B) (by rw [abs_le]; constructor <;> linarith)
    rw [abs_le] at this ⊢
    refine ⟨⟨by linarith, by linarith⟩, ?_⟩
    rw [abs_le]
    constructor <;> linarith
  · have := two_rounds (x := p + z.h) (B := 3 * z.B) (by rw [abs_le]; constructor <;> linarith)
    rw [abs_le] at this ⊢
    refine ⟨⟨by linarith, by linarith⟩, ?_⟩
    rw [abs_le]
    constructor <;> linarith

private theorem near_pos {z : Sizes} (j : Nat) (v w : ℚ) (hw : 0 < w) (hv : |v / w| ≤ z.Y) : Near z j (f32 (f32 v / w)) (v / w) := by
  obtain ⟨f1, f2, f3, f4, f5, f6, f7⟩ := z.facts
  have h0 := z.fs0
  have h1 : |f32 v / w - v / w| ≤ z.B / 2 ^ 24 := by
    rw [← sub_div, abs_div, abs_of_pos hw]
    calc |f32 v - v| / w ≤ (|v| / 2 ^ 24) / w := by
          apply div_le_div_of_nonneg_right (f32_err v) hw.le
      _ = |v / w| / 2 ^ 24 := by rw [abs_div, abs_of_pos hw]; ring
      _ ≤ z.B / 2 ^ 24 := by
          apply div_le_div_of_nonneg_right (le_trans hv f2); positivity
  have h2 := f32_err (f32 v / w)
  have h3 : |f32 v / w| ≤ 2 * z.B := by
    rw [abs_le] at h1 hv ⊢
    constructor <;> linarith
  have h4 : |f32 v / w| / 2 ^ 24 ≤ 2 * z.B / 2 ^ 24 := by gcongr
  have hj : (0 : ℚ) ≤ j := by positivity
  have hjB : 0 ≤ (j : ℚ) * (z.B / 2 ^ 22) := by positivity
  have e1 : ((j : ℚ) + 1) * (z.B / 2 ^ 22) = j * (z.B / 2 ^ 22) + z.B / 2 ^ 22 := by ring
  refine ⟨?_, ?_⟩
  · rw [e1]
    rw [abs_le] at h1 h2 ⊢
    constructor <;> linarith
  · have : 0 ≤ (j : ℚ) * (6 / 5 * z.fs) := by positivity
    linarith

/-- The final position as the program computes it. -/
private def finishP (ref : Option VRef) (m h : ℚ) (breaks : Nat) (p : ℚ) : ℚ :=
  match ref with
  | some .centreOfScreen => f32 (f64 (p - f64 (f64 ((breaks + 1 : Nat) * h) / 2)))
  | some .bottomOfScreen => f32 (f64 (f32 (p + m) + f64 (breaks * h)))
  | _ => f32 (p + m)

private theorem near_finish {z : Sizes} {j : Nat} {p q : ℚ} (hj : j ≤ z.N) (h : Near z j p q) (s : SState) (hq : s.y = q) :
    |finishP s.raw.vpos.ref z.m z.h z.N p - finalPos z.m (6 / 5 * z.fs) (z.N + 1) s| ≤ (z.N + 6) * (z.B / 2 ^ 22) := by
  obtain ⟨f1, f2, f3, f4, f5, f6, f7⟩ := z.facts
  obtain ⟨s1, s2⟩ := h.small hj
  obtain ⟨h1, -⟩ := h
  subst hq
  have h0 := z.fs0
  have hN : (0 : ℚ) ≤ z.N := by positivity
  have hjn : (j : ℚ) ≤ z.N := by exact_mod_cast hj
  have h1' : |p - s.y| ≤ (z.N + 1) * (z.B / 2 ^ 22) := le_trans h1 (by gcongr)
  have e0 : ((z.N : ℚ) + 6) * (z.B / 2 ^ 22) = (z.N + 1) * (z.B / 2 ^ 22) + 5 * (z.B / 2 ^ 22) := by ring
  have hB : z.B = z.Y + 2 * (z.N * z.fs) + 2 * z.fs + |z.m| := by unfold Sizes.B; ring
  have hm := abs_nonneg z.m
  have hY := z.Y0
  have hNf : (0 : ℚ) ≤ z.N * z.fs := by positivity
  have hNh : (z.N : ℚ) * z.h ≤ 2 * (z.N * z.fs) := by
    calc (z.N : ℚ) * z.h ≤ z.N * (2 * z.fs) := by gcongr
      _ = 2 * (z.N * z.fs) := by ring
  have hNh0 : (0 : ℚ) ≤ z.N * z.h := by positivity
  have hNd : |(z.N : ℚ) * z.h - z.N * (6 / 5 * z.fs)| ≤ z.B / 2 ^ 51 := by
    have e : (z.N : ℚ) * z.h - z.N * (6 / 5 * z.fs) = z.N * (z.h - 6 / 5 * z.fs) := by ring
    rw [e, abs_mul, abs_of_nonneg hN]
    calc (z.N : ℚ) * |z.h - 6 / 5 * z.fs| ≤ z.N * (z.fs / 2 ^ 51) := by gcongr
      _ = z.N * z.fs / 2 ^ 51 := by ring
      _ ≤ z.B / 2 ^ 51 := by gcongr; linarith
  rw [abs_le] at f5 s1 s2 h1' hNd f4
  rw [e0]
  have top : |f32 (p + z.m) - (s.y + z.m)| ≤ (z.N + 1) * (z.B / 2 ^ 22) + 5 * (z.B / 2 ^ 22) := by
    have g1 : |p + z.m| ≤ 3 * z.B := by rw [abs_le]; constructor <;> linarith
    have g2 := f32_err (p + z.m)
    have g3 : |p + z.m| / 2 ^ 24 ≤ 3 * z.B / 2 ^ 24 := by gcongr
    rw [abs_le] at g2 ⊢
    constructor <;> linarith
  unfold finishP finalPos
  cases hr : s.raw.vpos.ref with
  | none => exact top
  | some ref =>
    cases ref with
    | topOfScreen => exact top
    | topOfSubtitle => exact top
    | centreOfScreen =>
      simp only
      push_cast
      have e1 : ((z.N : ℚ) + 1) * z.h = z.N * z.h + z.h := by ring
      have e2 : ((z.N : ℚ) + 1) * (6 / 5 * z.fs) = z.N * (6 / 5 * z.fs) + 6 / 5 * z.fs := by ring
      rw [e1, e2]
      have g1 := f64_err (z.N * z.h + z.h)
      rw [abs_of_nonneg (show (0 : ℚ) ≤ z.N * z.h + z.h by linarith), abs_le] at g1
      have g2 := f64_err (f64 (z.N * z.h + z.h) / 2)
      have g3 : |f64 (z.N * z.h + z.h) / 2| ≤ z.B := by rw [abs_le]; constructor <;> linarith
      have g4 : |f64 (z.N * z.h + z.h) / 2| / 2 ^ 53 ≤ z.B / 2 ^ 53 := by gcongr
      rw [abs_le] at g2
      have g5 := two_rounds (x := p - f64 (f64 (z.N * z.h + z.h) / 2)) (B := 4 * z.B) (by rw [abs_le]; constructor <;> linarith)
      rw [abs_le] at g5 ⊢
      constructor <;> linarith
    | bottomOfScreen =>
      simp only
      push_cast
      have e2 : ((z.N : ℚ) + 1 - 1) * (6 / 5 * z.fs) = z.N * (6 / 5 * z.fs) := by ring
      rw [e2]
      have g1 := f64_err (z.N * z.h)
      rw [abs_of_nonneg hNh0, abs_le] at g1
      have g2 : |p + z.m| ≤ 3 * z.B := by rw [abs_le]; constructor <;> linarith
      have g3 := f32_err (p + z.m)
      have g4 : |p + z.m| / 2 ^ 24 ≤ 3 * z.B / 2 ^ 24 := by gcongr
      rw [abs_le] at g3
      have g5 := two_rounds (x := f32 (p + z.m) + f64 (z.N * z.h)) (B := 5 * z.B) (by rw [abs_le]; constructor <;> linarith)
      rw [abs_le] at g5 ⊢
      constructor <;> linarith

/-! ### The theorem -/

private theorem apply_ref (ctx : SsaContext) (s : SState) (t : STag) (h : s.raw.vpos.ref.isSome = true) : (t.apply ctx s).raw.vpos.ref.isSome = true := by
  cases t <;> first | exact h | rfl

private theorem near_tags {z : Sizes} (ctx : SsaContext) (hctx : ctx.Sane) (j : Nat) (tags : List STag) (hY : ∀ x y, STag.pos x y ∈ tags → |y.value / ctx.resY| ≤ z.Y)
    (s : SState) (p : ℚ) (hs : s.raw.vpos.ref.isSome = true) (h : Near z j p s.y) :
    (tags.foldl (STag.apply ctx) s).raw.vpos.ref.isSome = true ∧ Near z j (moves ctx p tags) (tags.foldl (STag.apply ctx) s).y := by
  induction tags generalizing s p with
  | nil => exact ⟨hs, h⟩
  | cons t tags ih =>
    refine ih (fun x y hm => hY x y (by simp [hm])) (t.apply ctx s) (t.move ctx p) (apply_ref ctx s t hs) ?_
    have hres : (0 : ℚ) < ctx.resY := by exact_mod_cast hctx.y.1
    cases t with
    | pos x y => exact near_pos j y.value ctx.resY hres (hY x y (by simp))
    | _ => exact h

/-- What has been found, before the position is finished. -/
private def Found (z : Sizes) (r : Raw) (x : Str × SState) : Prop := x.2.raw.vpos.ref.isSome = true ∧ ∃ p j, r = x.2.raw.put x.1 p ∧ j ≤ z.N ∧ Near z j p x.2.y

private theorem found_run {z : Sizes} {j : Nat} {p : ℚ} (hj : j ≤ z.N) (s : SState) (hs : s.raw.vpos.ref.isSome = true) (h : Near z j p s.y) (text : Str) :
    List.Forall₂ (Found z) (if text = [] then [] else [s.raw.put text p]) (sRun s text) := by
  unfold sRun
  split
  · exact .nil
  · exact .cons ⟨hs, p, j, rfl, hj, h⟩ .nil

private theorem run_items {z : Sizes} (ctx : SsaContext) (hctx : ctx.Sane) (items : List SItem) (hok : ∀ i ∈ items, i.Ok)
    (hY : ∀ c tags, SItem.block c tags ∈ items → ∀ x y, STag.pos x y ∈ tags → |y.value / ctx.resY| ≤ z.Y) (j : Nat) (hj : j + items.countP SItem.isBreak ≤ z.N)
    (subs : List Raw) (s : SState) (hs : s.raw.vpos.ref.isSome = true) (text : Str) (p : ℚ) (h : Near z j p s.y) :
    ∃ l new, ssaRun ctx z.h ⟨.text, subs, s.raw.put text p, []⟩ (items.map SItem.chars).flatten = .ok l ∧ l.flush.subs = subs ++ new ∧
      List.Forall₂ (Found z) new (sRuns ctx (6 / 5 * z.fs) s text items) := by
  induction items generalizing j subs s text p with
  | nil =>
    refine ⟨_, _, rfl, ?_, found_run (by omega) s hs h text⟩
    rw [flush_put]
  | cons i items ih =>
    rw [List.map_cons, List.flatten_cons]
    have hi := hok i (by simp)
    have ih := ih (fun i h => hok i (by simp [h])) (fun c t h => hY c t (by simp [h]))
    rw [List.countP_cons] at hj
    cases i with
    | text t =>
      rw [show (SItem.text t).chars = t from rfl, run_plain ctx z.h t hi _ _ rfl]
      exact ih j (by omega) subs s hs (text ++ t) p h
    | escape c =>
      rw [run_escape _ _ c hi]
      exact ih j (by omega) subs s hs text p h
    | newLine u =>
      simp only [SItem.isBreak, if_true] at hj
      rw [run_newLine _ _ _ _ _ _ hs]
      obtain ⟨l, new, h1, h2, h3⟩ := ih (j + 1) (by omega) (subs ++ (if text = [] then [] else [s.raw.put text p])) (s.down (6 / 5 * z.fs)) hs [] (stepDown s.raw.vpos.ref z.h p) (near_down (by omega) h _)
      exact ⟨l, _, h1, by rw [h2, List.append_assoc], List.rel_append (found_run (by omega) s hs h text) h3⟩
    | block c tags =>
      rw [run_block ctx hctx _ c hi.1 tags hi.2]
      obtain ⟨g1, g2⟩ := near_tags ctx hctx j tags (hY c tags (by simp)) s p hs h
      obtain ⟨l, new, h1, h2, h3⟩ := ih j (by omega) (subs ++ (if text = [] then [] else [s.raw.put text p])) _ g1 [] _ g2
      exact ⟨l, _, h1, by rw [h2, List.append_assoc], List.rel_append (found_run (by omega) s hs h text) h3⟩

private theorem finish_found {z : Sizes} (base : VPos) (hm : z.m = base.prop.getD 0) (new : List Raw) (rs : List (Str × SState)) (h : List.Forall₂ (Found z) new rs) :
    ∃ subs, ssaFinishAll base z.N z.h new = .ok subs ∧
      List.Forall₂ (fun (r : Raw) (x : Str × SState) => ∃ p, r = x.2.raw.put x.1 p ∧ |p - finalPos z.m (6 / 5 * z.fs) (z.N + 1) x.2| ≤ (z.N + 6) * (z.B / 2 ^ 22)) subs rs := by
  induction h with
  | nil => exact ⟨[], rfl, .nil⟩
  | cons hf _ ih =>
    rename_i r x new rs _
    obtain ⟨subs, h1, h2⟩ := ih
    obtain ⟨hs, p, j, rfl, hj, hn⟩ := hf
    have : ssaFinishPos base z.N z.h (x.2.raw.put x.1 p) = .ok (x.2.raw.put x.1 (finishP x.2.raw.vpos.ref z.m z.h z.N p)) := by
      unfold ssaFinishPos finishP
      rw [hm]
      obtain ⟨ref, href⟩ := Option.isSome_iff_exists.1 hs
      simp only [Raw.put, href, optGet]
      cases ref <;> rfl
    refine ⟨_, ?_, .cons ⟨_, rfl, near_finish hj hn x.2 rfl⟩ h2⟩
    rw [ssaFinishAll, this, ok_bind, h1, ok_bind]
    rfl

/-- The appearance of the first text of a dialogue. -/
def startState (ctx : SsaContext) (base : Raw) (fs : ℚ) : SState where
  raw := { base with
    hpos := ⟨base.hpos.ref, f32 (hOffset ctx.lmargin ctx.rmargin ctx.resX base.hpos.ref)⟩
    fontSize := { base.fontSize with prop := some fs }
    vpos := { base.vpos with ref := some (base.vpos.ref.getD .bottomOfScreen) } }
  y := 0

/-- C88: a dialogue becomes one subtitle for each run of text between blocks and line breaks.  The style of each is that of the dialogue changed by all tags before it, and by nothing else; and each is where it
should be, up to rounding to single precision. -/
theorem C88_runs (ctx : SsaContext) (hctx : ctx.Sane) (base : Raw) (hb : base.text = []) (items : List SItem) (hok : ∀ i ∈ items, i.Ok)
    (fs : ℚ) (hfs : fs = base.fontSize.prop.getD (f32 (f64 (72 / ctx.resY)))) (h0 : 0 ≤ fs) (n : Nat) (hn : n = items.countP SItem.isBreak + 1) (hn' : n ≤ 2 ^ 20)
    (m : ℚ) (hm : m = base.vpos.prop.getD 0) (Y : ℚ) (hY0 : 0 ≤ Y) (hY : ∀ c tags, SItem.block c tags ∈ items → ∀ x y, STag.pos x y ∈ tags → |y.value / ctx.resY| ≤ Y) :
    ∃ subs, ssaParseLine ctx base (items.map SItem.chars).flatten = .ok subs ∧
      List.Forall₂ (fun (r : Raw) (x : Str × SState) => ∃ p, r = x.2.raw.put x.1 p ∧ |p - finalPos m (6 / 5 * fs) n x.2| ≤ (n + 5) * ((Y + 2 * n * fs + |m|) / 2 ^ 22)) subs
        (sRuns ctx (6 / 5 * fs) (startState ctx base fs) [] items) := by
  obtain ⟨z, hz⟩ : ∃ z : Sizes, z = ⟨fs, Y, m, items.countP SItem.isBreak, h0, hY0, by omega⟩ := ⟨_, rfl⟩
  have z1 : z.fs = fs := by rw [hz]
  have z2 : z.Y = Y := by rw [hz]
  have z3 : z.m = m := by rw [hz]
  have z4 : z.N = items.countP SItem.isBreak := by rw [hz]
  have hnear : Near z 0 0 0 := by
    obtain ⟨f1, f2, _⟩ := z.facts
    have := z.Y0
    refine ⟨?_, ?_⟩
    · simp; positivity
    · simp; exact this
  obtain ⟨l, new, h1, h2, h3⟩ := run_items (z := z) ctx hctx items hok (by rw [z2]; exact hY) 0 (by omega) [] (startState ctx base fs) rfl [] 0 hnear
  obtain ⟨subs, h4, h5⟩ := finish_found base.vpos (z3.trans hm) new _ h3
  refine ⟨subs, ?_, ?_⟩
  · unfold ssaParseLine
    rw [prepare_eq ctx hctx, ok_bind, ← hfs, hb, breaks_items items hok]
    have e1 : (stackRaw ctx base fs [] 0).fontSize.proportionalAt ctx.resY = .ok fs := rfl
    simp only [e1, ok_bind]
    have e2 : f64 (fs * f64 (6 / 5)) = z.h := by rw [Sizes.h, z1]
    have e3 : stackRaw ctx base fs [] 0 = (startState ctx base fs).raw.put [] 0 := rfl
    rw [e2, e3]
    rw [h1, ok_bind, h2, List.nil_append, ← z4]
    exact h4
  · rw [z1, z3] at h5
    have e4 : z.N + 1 = n := by omega
    have e5 : ((z.N : ℚ) + 6) * (z.B / 2 ^ 22) = (n + 5) * ((Y + 2 * n * fs + |m|) / 2 ^ 22) := by
      unfold Sizes.B
      rw [z1, z2, z3, ← e4]
      push_cast
      ring
    rw [e4, e5] at h5
    exact h5

/-! ### Without tags that place text -/

/-- Does the tag place text? -/
def STag.places : STag → Bool
  | .align _ | .pos _ _ => true
  | _ => false

/-- No tag places text. -/
def SItem.Unplaced : SItem → Prop
  | .block _ tags => ∀ t ∈ tags, t.places = false
  | _ => True

/-- The runs of text with the number of their line. -/
def lineRuns (ctx : SsaContext) (s : SState) (k : Nat) (text : Str) : List SItem → List (Nat × Str × SState)
  | [] => (sRun s text).map (fun x => (k, x))
  | .text t :: is => lineRuns ctx s k (text ++ t) is
  | .escape _ :: is => lineRuns ctx s k text is
  | .block _ tags :: is => (sRun s text).map (fun x => (k, x)) ++ lineRuns ctx (tags.foldl (STag.apply ctx) s) k [] is
  | .newLine _ :: is => (sRun s text).map (fun x => (k, x)) ++ lineRuns ctx s (k + 1) [] is

private def lineY (ref : Option VRef) (h : ℚ) : Nat → ℚ
  | 0 => 0
  | k + 1 => stepDown ref h (lineY ref h k)

private theorem unplaced_tags (ctx : SsaContext) (tags : List STag) (h : ∀ t ∈ tags, t.places = false) (s : SState) (p : ℚ) :
    moves ctx p tags = p ∧ (tags.foldl (STag.apply ctx) s).raw.vpos = s.raw.vpos := by
  induction tags generalizing s p with
  | nil => exact ⟨rfl, rfl⟩
  | cons t tags ih =>
    have ht := h t (by simp)
    obtain ⟨i1, i2⟩ := ih (fun t hm => h t (by simp [hm])) (t.apply ctx s) (t.move ctx p)
    have e : t.move ctx p = p ∧ (t.apply ctx s).raw.vpos = s.raw.vpos := by
      cases t <;> first | exact ⟨rfl, rfl⟩ | cases ht
    exact ⟨i1.trans e.1, i2.trans e.2⟩

private theorem unplaced_run (ctx : SsaContext) (hctx : ctx.Sane) (h : ℚ) (items : List SItem) (hok : ∀ i ∈ items, i.Ok) (hu : ∀ i ∈ items, i.Unplaced)
    (ref : VRef) (k : Nat) (subs : List Raw) (s : SState) (hs : s.raw.vpos.ref = some ref) (text : Str) :
    ∃ l, ssaRun ctx h ⟨.text, subs, s.raw.put text (lineY (some ref) h k), []⟩ (items.map SItem.chars).flatten = .ok l ∧
      l.flush.subs = subs ++ (lineRuns ctx s k text items).map (fun x => x.2.2.raw.put x.2.1 (lineY (some ref) h x.1)) ∧
      ∀ x ∈ lineRuns ctx s k text items, x.2.2.raw.vpos.ref = some ref ∧ x.1 ≤ k + items.countP SItem.isBreak := by
  have one : ∀ (k : Nat) (s : SState) (text : Str), ((sRun s text).map (fun x => (k, x))).map (fun x => x.2.2.raw.put x.2.1 (lineY (some ref) h x.1)) =
      if text = [] then [] else [s.raw.put text (lineY (some ref) h k)] := by
    intro k s text
    unfold sRun
    split <;> rfl
  have oneMem : ∀ (k : Nat) (s : SState) (text : Str) (x : Nat × Str × SState), x ∈ (sRun s text).map (fun x => (k, x)) → x.1 = k ∧ x.2.2 = s := by
    intro k s text x hx
    unfold sRun at hx
    split at hx
    · cases hx
    · rw [List.map_singleton, List.mem_singleton] at hx
      subst hx
      exact ⟨rfl, rfl⟩
  induction items generalizing k subs s text with
  | nil =>
    refine ⟨_, rfl, ?_, ?_⟩
    · rw [lineRuns, one, flush_put]
    · intro x hx
      obtain ⟨e1, e2⟩ := oneMem _ _ _ _ hx
      rw [e1, e2]
      exact ⟨hs, by simp⟩
  | cons i items ih =>
    rw [List.map_cons, List.flatten_cons]
    have hi := hok i (by simp)
    have hui := hu i (by simp)
    have ih := ih (fun i h => hok i (by simp [h])) (fun i h => hu i (by simp [h]))
    cases i with
    | text t =>
      rw [show (SItem.text t).chars = t from rfl, run_plain ctx h t hi _ _ rfl]
      obtain ⟨l, h1, h2, h3⟩ := ih k subs s hs (text ++ t)
      exact ⟨l, h1, h2, fun x hx => by simpa [SItem.isBreak] using h3 x hx⟩
    | escape c =>
      rw [run_escape _ _ c hi]
      obtain ⟨l, h1, h2, h3⟩ := ih k subs s hs text
      exact ⟨l, h1, h2, fun x hx => by simpa [SItem.isBreak] using h3 x hx⟩
    | newLine u =>
      rw [run_newLine _ _ _ _ _ _ (by rw [hs]; rfl), hs]
      obtain ⟨l, h1, h2, h3⟩ := ih (k + 1) (subs ++ (if text = [] then [] else [s.raw.put text (lineY (some ref) h k)])) s hs []
      refine ⟨l, h1, ?_, ?_⟩
      · rw [h2, lineRuns, List.map_append, one, List.append_assoc]
      · intro x hx
        rw [lineRuns, List.mem_append] at hx
        have e : (SItem.newLine u :: items).countP SItem.isBreak = items.countP SItem.isBreak + 1 := by rw [List.countP_cons]; rfl
        rw [e]
        rcases hx with hx | hx
        · obtain ⟨e1, e2⟩ := oneMem _ _ _ _ hx
          rw [e1, e2]
          exact ⟨hs, by omega⟩
        · obtain ⟨g1, g2⟩ := h3 x hx
          exact ⟨g1, by omega⟩
    | block c tags =>
      rw [run_block ctx hctx _ c hi.1 tags hi.2]
      obtain ⟨e1, e2⟩ := unplaced_tags ctx tags hui s (lineY (some ref) h k)
      rw [e1]
      obtain ⟨l, h1, h2, h3⟩ := ih k (subs ++ (if text = [] then [] else [s.raw.put text (lineY (some ref) h k)])) _ (by rw [e2]; exact hs) []
      refine ⟨l, h1, ?_, ?_⟩
      · rw [h2, lineRuns, List.map_append, one, List.append_assoc]
      · intro x hx
        rw [lineRuns, List.mem_append] at hx
        have e : (SItem.block c tags :: items).countP SItem.isBreak = items.countP SItem.isBreak := by rw [List.countP_cons]; rfl
        rw [e]
        rcases hx with hx | hx
        · obtain ⟨e1, e2⟩ := oneMem _ _ _ _ hx
          rw [e1, e2]
          exact ⟨hs, by omega⟩
        · exact h3 x hx

private theorem near_line (z : Sizes) (ref : Option VRef) (k : Nat) (hk : k ≤ z.N) :
    Near z k (lineY ref z.h k) (if ref = some .bottomOfScreen then -(k * (6 / 5 * z.fs)) else k * (6 / 5 * z.fs)) := by
  induction k with
  | zero =>
    obtain ⟨f1, f2, _⟩ := z.facts
    have := z.Y0
    refine ⟨?_, ?_⟩
    · have e : (if ref = some .bottomOfScreen then -(((0 : Nat) : ℚ) * (6 / 5 * z.fs)) else ((0 : Nat) : ℚ) * (6 / 5 * z.fs)) = 0 := by split <;> simp
      rw [e, lineY, sub_zero, abs_zero]
      positivity
    · have e : (if ref = some .bottomOfScreen then -(((0 : Nat) : ℚ) * (6 / 5 * z.fs)) else ((0 : Nat) : ℚ) * (6 / 5 * z.fs)) = 0 := by split <;> simp
      rw [e, abs_zero]
      simpa using this
  | succ k ih =>
    have := near_down (ref := ref) (by omega) (ih (by omega))
    rw [lineY]
    convert this using 1
    split <;> push_cast <;> ring

/-- C88: when no tag places text, all runs of a line are at exactly the same position, which is the ideal one of that line up to rounding. -/
theorem C88_lines (ctx : SsaContext) (hctx : ctx.Sane) (base : Raw) (hb : base.text = []) (items : List SItem) (hok : ∀ i ∈ items, i.Ok) (hu : ∀ i ∈ items, i.Unplaced)
    (fs : ℚ) (hfs : fs = base.fontSize.prop.getD (f32 (f64 (72 / ctx.resY)))) (h0 : 0 ≤ fs) (n : Nat) (hn : n = items.countP SItem.isBreak + 1) (hn' : n ≤ 2 ^ 20)
    (m : ℚ) (hm : m = base.vpos.prop.getD 0) (ref : VRef) (href : ref = base.vpos.ref.getD .bottomOfScreen) :
    ∃ place : Nat → ℚ, (∀ k < n, |place k - stackPos ref m (6 / 5 * fs) n k| ≤ (n + 5) * ((2 * n * fs + |m|) / 2 ^ 22)) ∧
      ssaParseLine ctx base (items.map SItem.chars).flatten = .ok ((lineRuns ctx (startState ctx base fs) 0 [] items).map (fun x => x.2.2.raw.put x.2.1 (place x.1))) ∧
      ∀ x ∈ lineRuns ctx (startState ctx base fs) 0 [] items, x.2.2.raw.vpos.ref = some ref ∧ x.1 < n := by
  obtain ⟨z, hz⟩ : ∃ z : Sizes, z = ⟨fs, 0, m, items.countP SItem.isBreak, h0, le_refl _, by omega⟩ := ⟨_, rfl⟩
  have z1 : z.fs = fs := by rw [hz]
  have z2 : z.Y = 0 := by rw [hz]
  have z3 : z.m = m := by rw [hz]
  have z4 : z.N = items.countP SItem.isBreak := by rw [hz]
  have hsr : (startState ctx base fs).raw.vpos.ref = some ref := by rw [href]; rfl
  obtain ⟨l, h1, h2, h3⟩ := unplaced_run ctx hctx z.h items hok hu ref 0 [] (startState ctx base fs) hsr []
  rw [Nat.zero_add] at h3
  refine ⟨fun k => finishP (some ref) z.m z.h z.N (lineY (some ref) z.h k), ?_, ?_, fun x hx => ⟨(h3 x hx).1, by have := (h3 x hx).2; omega⟩⟩
  · intro k hk
    have hn1 := near_line z (some ref) k (by omega)
    obtain ⟨q, hq⟩ : ∃ q : ℚ, q = if some ref = some VRef.bottomOfScreen then -(k * (6 / 5 * z.fs)) else k * (6 / 5 * z.fs) := ⟨_, rfl⟩
    rw [← hq] at hn1
    have := near_finish (by omega : k ≤ z.N) hn1 ⟨{ vpos := { ref := some ref } }, q⟩ rfl
    have e5 : ((z.N : ℚ) + 6) * (z.B / 2 ^ 22) = (n + 5) * ((2 * n * fs + |m|) / 2 ^ 22) := by
      unfold Sizes.B
      rw [z1, z2, z3, z4, hn]
      push_cast
      ring
    rw [e5] at this
    refine le_trans (le_of_eq ?_) this
    congr 2
    have e6 : (n : ℚ) = z.N + 1 := by rw [hn, z4]; push_cast; ring
    cases ref
    all_goals
      simp only [if_true, reduceCtorEq, if_false, Option.some.injEq] at hq
      simp only [stackPos, finalPos, z3, e6, hq, z1]
      push_cast
      ring
  · unfold ssaParseLine
    rw [prepare_eq ctx hctx, ok_bind, ← hfs, hb, breaks_items items hok]
    have e1 : (stackRaw ctx base fs [] 0).fontSize.proportionalAt ctx.resY = .ok fs := rfl
    simp only [e1, ok_bind]
    have e2 : f64 (fs * f64 (6 / 5)) = z.h := by rw [Sizes.h, z1]
    have e3 : stackRaw ctx base fs [] 0 = (startState ctx base fs).raw.put [] (lineY (some ref) z.h 0) := rfl
    rw [e2, e3]
    rw [h1, ok_bind, h2, List.nil_append, ← z4]
    have fin : ∀ xs : List (Nat × Str × SState), (∀ x ∈ xs, x.2.2.raw.vpos.ref = some ref) →
        ssaFinishAll base.vpos z.N z.h (xs.map (fun x => x.2.2.raw.put x.2.1 (lineY (some ref) z.h x.1))) =
          .ok (xs.map (fun x => x.2.2.raw.put x.2.1 (finishP (some ref) z.m z.h z.N (lineY (some ref) z.h x.1)))) := by
      intro xs hxs
      induction xs with
      | nil => rfl
      | cons x xs ih =>
        have hr := hxs x (by simp)
        have : ssaFinishPos base.vpos z.N z.h (x.2.2.raw.put x.2.1 (lineY (some ref) z.h x.1)) = .ok (x.2.2.raw.put x.2.1 (finishP (some ref) z.m z.h z.N (lineY (some ref) z.h x.1))) := by
          unfold ssaFinishPos finishP
          rw [z3, hm]
          simp only [Raw.put, hr, optGet]
          cases ref <;> rfl
        rw [List.map_cons, ssaFinishAll, this, ok_bind, ih fun x hx => hxs x (by simp [hx]), ok_bind]
        rfl
    exact fin _ fun x hx => (h3 x hx).1

private def exItems : List SItem := [.text b!"One ", .block b!"note" [.italic true, .colour true 255 128 0], .text b!"two", .newLine true, .block [] [.pos { whole := 100 } { whole := 20, frac := some (0, 5) }, .other b!"fade(1,2)"], .text b!"three"]

-- the hypotheses hold of a dialogue with a comment, tags, a line break and a tag that is not known
example : (SsaContext.mk 384 288 ⟨255, 255, 255⟩ 10 10).Sane ∧ (∀ i ∈ exItems, i.Ok) ∧ exItems.countP SItem.isBreak = 1 ∧
    (∀ c tags, SItem.block c tags ∈ exItems → ∀ x y, STag.pos x y ∈ tags → |y.value / (288 : ℚ)| ≤ 1) ∧
    (exItems.map SItem.chars).flatten = b!"One {note\\i1\\c&H0080FF&}two\\N{\\pos(100,20.5)\\fade(1,2)}three" := by
  refine ⟨⟨by decide, by decide, by decide, by decide⟩, ?_, by decide, ?_, by decide +kernel⟩
  · intro i hi
    simp only [exItems, List.mem_cons, List.not_mem_nil, or_false] at hi
    rcases hi with rfl | rfl | rfl | rfl | rfl | rfl
    · unfold SItem.Ok StackLine; decide
    · refine ⟨by decide, fun t ht => ?_⟩
      simp only [List.mem_cons, List.not_mem_nil, or_false] at ht
      rcases ht with rfl | rfl <;> trivial
    · unfold SItem.Ok StackLine; decide
    · trivial
    · refine ⟨by decide, fun t ht => ?_⟩
      simp only [List.mem_cons, List.not_mem_nil, or_false] at ht
      rcases ht with rfl | rfl
      · have h5 : (decSpec 5).length = 1 := by decide
        constructor <;> refine .inr ?_ <;> simp only [DecNum.value, expValue, h5] <;> norm_num [abs_of_pos]
      · refine ⟨by decide, by decide, by decide, by decide, by decide, by decide, by decide⟩
    · unfold SItem.Ok StackLine; decide
  · intro c tags hm x y ht
    simp only [exItems, List.mem_cons, List.not_mem_nil, or_false, SItem.block.injEq, reduceCtorEq, false_or, or_false] at hm
    rcases hm with ⟨_, rfl⟩ | ⟨_, rfl⟩
    · simp at ht
    · simp only [List.mem_cons, STag.pos.injEq, reduceCtorEq, List.not_mem_nil, or_false] at ht
      obtain ⟨rfl, rfl⟩ := ht
      have : (decSpec 5).length = 1 := by decide +kernel
      simp only [DecNum.value, expValue, this]
      norm_num [abs_le]

-- and there are three runs: plain; italic and coloured; placed
example : (sRuns ⟨384, 288, ⟨255, 255, 255⟩, 10, 10⟩ (1 / 10) ⟨{}, 0⟩ [] exItems).map (fun x => (x.1, x.2.raw.italic, x.2.raw.vpos.ref)) =
    [(b!"One ", false, none), (b!"two", true, none), (b!"three", true, some .topOfScreen)] := by decide +kernel

/-- Items that meet the conditions of C88_lines. -/
example : (∀ i ∈ exItems.take 4, i.Unplaced) ∧ (lineRuns ⟨384, 288, ⟨255, 255, 255⟩, 10, 10⟩ ⟨{}, 0⟩ 0 [] (exItems.take 4 ++ [.text b!"x"])).map (fun x => (x.1, x.2.1)) = [(0, b!"One "), (0, b!"two"), (1, b!"x")] := by
  refine ⟨fun i hi => ?_, by decide +kernel⟩
  simp only [exItems, List.take, List.mem_cons, List.not_mem_nil, or_false] at hi
  rcases hi with rfl | rfl | rfl | rfl <;> first | trivial | (unfold SItem.Unplaced; decide)

/-! ### Property C89: where `\pos` puts text -/

/-- C89: the position of text after `\pos`, exactly.  The margin `m` of the style or of the event is added. -/
theorem C89_exact (ctx : SsaContext) (hctx : ctx.Sane) (base : Raw) (hb : base.text = []) (x y : DecNum) (hx : x.Fits) (hy : y.Fits) (t : Str) (ht : StackLine t) (h0 : t ≠ []) :
    ∃ r, ssaParseLine ctx base (b!"{\\pos(" ++ x.text ++ b!"," ++ y.text ++ b!")}" ++ t) = .ok [r] ∧ r.text = t ∧
      r.hpos.ref = .left ∧ r.hpos.prop = f32 (f32 x.value / ctx.resX) ∧
      r.vpos.ref = some .topOfScreen ∧ r.vpos.prop = some (f32 (f32 (f32 y.value / ctx.resY) + base.vpos.prop.getD 0)) := by
  obtain ⟨fs, hfs⟩ : ∃ fs, fs = base.fontSize.prop.getD (f32 (f64 (72 / ctx.resY))) := ⟨_, rfl⟩
  have e0 : b!"{\\pos(" ++ x.text ++ b!"," ++ y.text ++ b!")}" ++ t = ([SItem.block [] [.pos x y], .text t].map SItem.chars).flatten := by
    simp [SItem.chars, STag.text]
  have hok : ∀ i ∈ [SItem.block [] [.pos x y], .text t], i.Ok := by
    intro i hi
    simp only [List.mem_cons, List.not_mem_nil, or_false] at hi
    rcases hi with rfl | rfl
    · refine ⟨by simp, fun t ht => ?_⟩
      rw [List.mem_singleton.1 ht]; exact ⟨hx, hy⟩
    · exact ht
  have e1 : (stackRaw ctx base fs [] 0).fontSize.proportionalAt ctx.resY = .ok fs := rfl
  have e3 : stackRaw ctx base fs [] 0 = (startState ctx base fs).raw.put [] 0 := rfl
  refine ⟨((startState ctx base fs).raw.put t (f32 (f32 (f32 y.value / ctx.resY) + base.vpos.prop.getD 0))) |> fun r => { r with hpos := ⟨.left, f32 (f32 x.value / ctx.resX)⟩, vpos := { r.vpos with ref := some .topOfScreen } },
    ?_, rfl, rfl, rfl, rfl, rfl⟩
  unfold ssaParseLine
  rw [prepare_eq ctx hctx, ok_bind, ← hfs, hb, e0, breaks_items _ hok]
  simp only [e1, ok_bind]
  rw [e3, List.map_cons, List.flatten_cons, run_block ctx hctx _ [] (by simp) [.pos x y] (by intro t ht; rw [List.mem_singleton.1 ht]; exact ⟨hx, hy⟩)]
  have e4 : ([SItem.text t].map SItem.chars).flatten = t ++ [] := by simp [SItem.chars]
  rw [e4, run_plain ctx _ t ht _ _ rfl]
  cases t with
  | nil => exact absurd rfl h0
  | cons c t => rfl

/-- C89: the text is where `\pos` says, with the margin added to the height, up to rounding. -/
theorem C89_pos (ctx : SsaContext) (hctx : ctx.Sane) (base : Raw) (hb : base.text = []) (m : ℚ) (hm : m = base.vpos.prop.getD 0) (x y : DecNum) (hx : x.Fits) (hy : y.Fits) (t : Str) (ht : StackLine t) (h0 : t ≠ []) :
    ∃ r q, ssaParseLine ctx base (b!"{\\pos(" ++ x.text ++ b!"," ++ y.text ++ b!")}" ++ t) = .ok [r] ∧ r.text = t ∧ r.hpos.ref = .left ∧ r.vpos.ref = some .topOfScreen ∧ r.vpos.prop = some q ∧
      |r.hpos.prop - x.value / ctx.resX| ≤ |x.value / ctx.resX| / 2 ^ 22 ∧ |q - (y.value / ctx.resY + m)| ≤ (|y.value / ctx.resY| + |m|) / 2 ^ 21 := by
  obtain ⟨r, h1, h2, h3, h4, h5, h6⟩ := C89_exact ctx hctx base hb x y hx hy t ht h0
  have key : ∀ v w : ℚ, 0 < w → |f32 (f32 v / w) - v / w| ≤ 3 * |v / w| / 2 ^ 24 := by
    intro v w hw
    have g1 : |f32 v / w - v / w| ≤ |v / w| / 2 ^ 24 := by
      rw [← sub_div, abs_div, abs_of_pos hw]
      calc |f32 v - v| / w ≤ (|v| / 2 ^ 24) / w := div_le_div_of_nonneg_right (f32_err v) hw.le
        _ = |v / w| / 2 ^ 24 := by rw [abs_div, abs_of_pos hw]; ring
    have g2 := f32_err (f32 v / w)
    have g3 : |f32 v / w| ≤ 2 * |v / w| := by
      have := abs_sub_abs_le_abs_sub (f32 v / w) (v / w)
      have h := abs_nonneg (v / w)
      linarith
    have g4 : |f32 v / w| / 2 ^ 24 ≤ 2 * |v / w| / 2 ^ 24 := by gcongr
    have := abs_sub_le (f32 (f32 v / w)) (f32 v / w) (v / w)
    linarith
  have hx : (0 : ℚ) < ctx.resX := by exact_mod_cast hctx.x.1
  have hy : (0 : ℚ) < ctx.resY := by exact_mod_cast hctx.y.1
  rw [← hm] at h6
  refine ⟨r, _, h1, h2, h3, h5, h6, ?_, ?_⟩
  · rw [h4]
    have := key x.value ctx.resX hx
    have h := abs_nonneg (x.value / ctx.resX)
    linarith
  · have k := key y.value ctx.resY hy
    have k2 := f32_err (f32 (f32 y.value / ctx.resY) + m)
    have h := abs_nonneg (y.value / ctx.resY)
    have hm0 := abs_nonneg m
    have k3 : |f32 (f32 y.value / ctx.resY) + m| ≤ 2 * |y.value / ctx.resY| + |m| := by
      have := abs_sub_abs_le_abs_sub (f32 (f32 y.value / ctx.resY)) (y.value / ctx.resY)
      have := abs_add_le (f32 (f32 y.value / ctx.resY)) m
      linarith
    have k4 : |f32 (f32 y.value / ctx.resY) + m| / 2 ^ 24 ≤ (2 * |y.value / ctx.resY| + |m|) / 2 ^ 24 := by gcongr
    have := abs_sub_le (f32 (f32 (f32 y.value / ctx.resY) + m)) (f32 (f32 y.value / ctx.resY) + m) (y.value / ctx.resY + m)
    rw [add_sub_add_right_eq_sub] at this
    linarith

-- the case in the tests of the project: 300 from the top with a margin of 10
example : ({ vpos := { prop := some (10 / 1080) } } : Raw).vpos.prop.getD 0 = 10 / 1080 ∧ StackLine b!"positioning." ∧ (DecNum.mk false 300 none none).value / 1080 + 10 / 1080 = 310 / 1080 :=
  ⟨rfl, by unfold StackLine; decide, by norm_num [DecNum.value, expValue]⟩

example : (DecNum.mk false 300 none none).Fits := by
  refine .inr ?_
  simp only [DecNum.value, expValue]
  norm_num

/-- C89: the margin counts.  A vertical margin of a quarter of the screen moves text from the middle of the screen to three quarters. -/
theorem C89_margin_witness :
    (ssaParseLine ⟨384, 288, ⟨255, 255, 255⟩, 0, 0⟩ { vpos := { prop := some (1 / 4), ref := some .bottomOfScreen } } b!"{\\pos(192,144)}Hi").toOption.map (fun l => l.map (fun r => (r.text, r.vpos.ref, r.vpos.prop))) =
      some [(b!"Hi", some .topOfScreen, some (3 / 4))] := by decide +kernel

end LibSub
