/-
Property C123: what `write_stl_binary` writes, exactly (src/stl_binary_writer.cc), and what the conversion from UTF-8 to
ISO 6937 that it uses gives, exactly (src/iso6937.cc).
-/
import Verif.Props.StlWriter
import Verif.Props.DumpExact
import Verif.Lemmas.Utf8
import Mathlib.Tactic.Linarith
import Mathlib.Tactic.Ring
import Mathlib.Tactic.NormNum

namespace LibSub

/-! ### Specification: characters -/

/-- The first byte of a sequence of bytes for one character, and how many must follow. -/
def LeadByte (c : Byte) (n : Nat) : Prop := (194 ≤ c ∧ c < 224 ∧ n = 1) ∨ (224 ≤ c ∧ c < 240 ∧ n = 2) ∨ (240 ≤ c ∧ c ≤ 244 ∧ n = 3)

/-- A byte that may follow. -/
def TrailByte (c : Byte) : Prop := 128 ≤ c ∧ c < 192

/-- The characters of a text in UTF-8, leaving out what is malformed. -/
inductive Utf8Chars : Str → List WChar → Prop where
  | done : Utf8Chars [] []
  | char (c : Char) (s : Str) (w : List WChar) : Utf8Chars s w → Utf8Chars (String.utf8EncodeChar c ++ s) (c.toNat :: w)
  /-- a byte that begins nothing -/
  | stray (c : Byte) (s : Str) (w : List WChar) : 128 ≤ c → (∀ n, ¬ LeadByte c n) → Utf8Chars s w → Utf8Chars (c :: s) w
  /-- too few bytes follow; the byte that does not belong is left out, too -/
  | broken (c : Byte) (n : Nat) (t : Str) (x : Byte) (s : Str) (w : List WChar) : LeadByte c n → (∀ y ∈ t, TrailByte y) → t.length < n → ¬ TrailByte x →
      Utf8Chars s w → Utf8Chars (c :: t ++ x :: s) w
  /-- too few bytes follow, at the end -/
  | cut (c : Byte) (n : Nat) (t : Str) : LeadByte c n → (∀ y ∈ t, TrailByte y) → t.length < n → Utf8Chars (c :: t) []
  /-- enough bytes follow but together they are no character -/
  | invalid (c : Byte) (n : Nat) (t : Str) (s : Str) (w : List WChar) : LeadByte c n → (∀ y ∈ t, TrailByte y) → t.length = n →
      (∀ x : Char, String.utf8EncodeChar x ≠ c :: t) → Utf8Chars s w → Utf8Chars (c :: t ++ s) w

/-- The bytes for a character.  The dollar is the one character with two codes. -/
inductive CodedAs : WChar → Str → Prop where
  | dollar : CodedAs 0x24 [0xa4]
  | main (k : Byte) : mainChar k ≠ 0 → mainChar k ≠ 0x24 → CodedAs (mainChar k) [k]
  | accent (d k : Byte) (c : WChar) : accented d k = some c → c ≠ 0 → CodedAs c [d, k]
  | substitute (c : WChar) (b : Byte) : (c, b) ∈ substitutes → CodedAs c [b]
  | dropped (c : WChar) : (c = 0 ∨ (∀ k, mainChar k ≠ c) ∧ (∀ d k, accented d k ≠ some c) ∧ (∀ b, (c, b) ∉ substitutes)) → CodedAs c []

/-- A text in UTF-8 in the character set of STL. -/
def TextCoded (t x : Str) : Prop := ∃ w cs, Utf8Chars t w ∧ List.Forall₂ CodedAs w cs ∧ x = cs.flatten

/-! ### Specification: numbers -/

/-- `r` is the `int` nearest to `x`, the even one of two. -/
def Nearest (x : ℚ) (r : Int) : Prop := |x - r| ≤ 1 / 2 ∧ (|x - r| = 1 / 2 → r % 2 = 0) ∧ InInt r

/-- `r` is `x` without its fraction, and an `int`. -/
def WithoutFraction (x : ℚ) (r : Int) : Prop := |(r : ℚ)| ≤ |x| ∧ |x| < |(r : ℚ)| + 1 ∧ 0 ≤ r * x ∧ InInt r

/-- The row of a line, of the 23 rows of the screen. -/
inductive RowFor : VPos → Int → Prop where
  | top (v : VPos) (p : ℚ) (r : Int) : v.prop = some p → v.ref = some .topOfScreen ∨ v.ref = none → Nearest (f32 (p * 23)) r → RowFor v r
  | centre (v : VPos) (p : ℚ) (r : Int) : v.prop = some p → v.ref = some .centreOfScreen → Nearest (f64 (f32 (p * 23) + 23 / 2)) r → RowFor v r
  | bottom (v : VPos) (p : ℚ) (r : Int) : v.prop = some p → v.ref = some .bottomOfScreen → Nearest (f32 (23 - f32 (p * 23))) r → RowFor v r
  | subtitle (v : VPos) (p : ℚ) : v.prop = some p → v.ref = some .topOfSubtitle → RowFor v 0
  | lineTop (v : VPos) (l n r : Int) : v.prop = none → v.line = some l → v.lines = some n → f32 n ≠ 0 → v.ref = some .topOfScreen ∨ v.ref = none →
      WithoutFraction (f32 (f32 (f32 l / f32 n) * 23)) r → RowFor v r
  | lineCentre (v : VPos) (l n r : Int) : v.prop = none → v.line = some l → v.lines = some n → f32 n ≠ 0 → v.ref = some .centreOfScreen →
      WithoutFraction (f64 (f64 (f32 (f32 l / f32 n) + 1 / 2) * 23)) r → RowFor v r
  | lineBottom (v : VPos) (l n r : Int) : v.prop = none → v.line = some l → v.lines = some n → f32 n ≠ 0 → v.ref = some .bottomOfScreen →
      WithoutFraction (f32 (f32 (1 - f32 (f32 l / f32 n)) * 23)) r → RowFor v r
  | lineSubtitle (v : VPos) (l n : Int) : v.prop = none → v.line = some l → v.lines = some n → f32 n ≠ 0 → v.ref = some .topOfSubtitle → RowFor v 0
  | none (v : VPos) : v.prop = none → v.line = none → RowFor v 0

/-- A number of seconds as hours, minutes and seconds, all of one sign. -/
structure Clock (secs h m s : Int) : Prop where
  sum : secs = h * 3600 + m * 60 + s
  minutes : |m| < 60
  seconds : |s| < 60
  pos : 0 ≤ secs → 0 ≤ h ∧ 0 ≤ m ∧ 0 ≤ s
  neg : secs ≤ 0 → h ≤ 0 ∧ m ≤ 0 ∧ s ≤ 0

/-- The four bytes of a time: hours, minutes, seconds, and the frames in terms of `n` per 1000 seconds. -/
inductive TimeCoded (n : Int) : Time → Str → Prop where
  | mk (t : Time) (r : FRate) (h m s f : Int) : t.rate = some r → r.num ≠ 0 → InInt (r.num * 1000) → Clock t.secs h m s →
      Nearest (f64 (f64 (f64 (f64 t.frames * r.den) * n) / ((r.num * 1000 : Int) : ℚ))) f → TimeCoded n t [UInt8.ofInt h, UInt8.ofInt m, UInt8.ofInt s, UInt8.ofInt f]

/-! ### Specification: text and blocks -/

/-- The blocks of a line after `i` (italics) and `u` (underlining); the styles at the end. -/
inductive BlocksCoded : Bool → Bool → List Block → Str → Bool → Bool → Prop where
  | done (i u : Bool) : BlocksCoded i u [] [] i u
  | block (i u : Bool) (k : Block) (ks : List Block) (t rest : Str) (i' u' : Bool) : TextCoded k.text t → BlocksCoded k.italic k.underline ks rest i' u' →
      BlocksCoded i u (k :: ks) (switchText [0x82] [0x83] u k.underline ++ switchText [0x80] [0x81] i k.italic ++ t ++ rest) i' u'

/-- From one row down to another; up is not possible. -/
def downTo : Option Int → Int → Str
  | none, _ => []
  | some l, r => List.replicate (r - l).toNat 0x8a

/-- Lines in rows. -/
inductive LinesCoded : Bool → Bool → Option Int → List Line → List Int → Str → Bool → Bool → Prop where
  | done (i u : Bool) (last : Option Int) : LinesCoded i u last [] [] [] i u
  | line (i u : Bool) (last : Option Int) (j : Line) (js : List Line) (r : Int) (rs : List Int) (t rest : Str) (i' u' i'' u'' : Bool) :
      BlocksCoded i u j.blocks t i' u' → LinesCoded i' u' (some r) js rs rest i'' u'' →
      LinesCoded i u last (j :: js) (r :: rs) (downTo last r ++ t ++ rest) i'' u''

/-- The text of a subtitle. -/
def LinesText (js : List Line) (rs : List Int) (x : Str) : Prop :=
  ∃ t i u, LinesCoded false false none js rs t i u ∧ x = t ++ switchText [0x82] [0x83] u false ++ switchText [0x80] [0x81] i false ++ [0x8f]

/-- A text in pieces of 112 bytes with their numbers, the last filled up. -/
inductive CutUp : Nat → Str → List (Byte × Str) → Prop where
  | last (n : Nat) (t : Str) : t.length ≤ 112 → CutUp n t [(0xff, t ++ List.replicate (112 - t.length) 0x8f)]
  | more (n : Nat) (t rest : Str) (cs : List (Byte × Str)) : t.length = 112 → rest ≠ [] → CutUp (n + 1) rest cs → CutUp n (t ++ rest) ((UInt8.ofNat n, t) :: cs)

/-- The code for the alignment. -/
def alignByte : HRef → Byte
  | .left => 1
  | .centre => 2
  | .right => 3

/-- The blocks for one subtitle. -/
inductive SubtitleCoded (fps : ℚ) (s : Subtitle) : List Str → Prop where
  | mk (first : Line) (js : List Line) (rows : List Int) (top n : Int) (text from_ to_ : Str) (cs : List (Byte × Str)) : s.lines = first :: js →
      List.Forall₂ (fun j r => RowFor j.vpos r) s.lines rows → LinesText s.lines rows text → top ∈ rows → (∀ r ∈ rows, top ≤ r) →
      WithoutFraction (f32 (fps * 1000)) n → TimeCoded n s.from_ from_ → TimeCoded n s.to_ to_ → CutUp 0 text cs →
      SubtitleCoded fps s (cs.map (fun c => [1, 0, 0, c.1, 0] ++ from_ ++ to_ ++ [UInt8.ofInt top, alignByte first.hpos.ref, 0] ++ c.2))

/-- The blocks for subtitles. -/
def SubtitlesCoded (fps : ℚ) (ss : List Subtitle) (bs : List Str) : Prop := ∃ bss, List.Forall₂ (SubtitleCoded fps) ss bss ∧ bs = bss.flatten

/-! ### Characters -/

theorem encode_char (c : Char) : utf8EncodeChar c.toNat = String.utf8EncodeChar c := by
  have hc : c.toNat ≤ 0x10ffff := by
    have := c.valid
    unfold UInt32.isValidChar Nat.isValidChar at this
    show c.val.toNat ≤ _
    omega
  unfold utf8EncodeChar String.utf8EncodeChar
  simp only []
  change (if c.toNat ≤ 0x7f then _ else _) = (if c.toNat ≤ 0x7f then _ else _)
  have e : c.val.toNat = c.toNat := rfl
  rw [e]
  generalize c.toNat = v at *
  by_cases h1 : v ≤ 0x7f
  · rw [if_pos h1, if_pos h1]
  rw [if_neg h1, if_neg h1]
  by_cases h2 : v ≤ 0x7ff
  · rw [if_pos h2, if_pos h2, Nat.mod_eq_of_lt (a := v / 64) (by omega)]
  rw [if_neg h2, if_neg h2]
  by_cases h3 : v ≤ 0xffff
  · rw [if_pos h3, if_pos h3, Nat.mod_eq_of_lt (a := v / 4096) (by omega)]
  rw [if_neg h3, if_neg h3, Nat.mod_eq_of_lt (a := v / 262144) (by omega)]

theorem valid_char (c : Char) : validCodePoint c.toNat = true := by
  have := c.valid
  unfold UInt32.isValidChar Nat.isValidChar at this
  change _ ∨ _ at this
  unfold validCodePoint
  have e : c.val.toNat = c.toNat := rfl
  rw [e] at this
  simp
  omega

private theorem char_of {v : Nat} (h : validCodePoint v = true) : ∃ c : Char, c.toNat = v := by
  unfold validCodePoint at h
  simp only [Bool.and_eq_true, decide_eq_true_eq, Bool.not_eq_true', Bool.and_eq_false_iff, decide_eq_false_iff_not] at h
  have hv : v.isValidChar := by unfold Nat.isValidChar; omega
  exact ⟨Char.ofNatAux v hv, rfl⟩

private theorem lead_iff (c : Byte) (n : Nat) : LeadByte c n ↔ 0 < n ∧ trailLength c = some n := by
  unfold LeadByte trailLength
  constructor
  · rintro (⟨h1, h2, rfl⟩ | ⟨h1, h2, rfl⟩ | ⟨h1, h2, rfl⟩)
    · rw [if_neg (by grind), if_neg (by grind), if_pos h2]; exact ⟨by omega, rfl⟩
    · rw [if_neg (by grind), if_neg (by grind), if_neg (by grind), if_pos h2]; exact ⟨by omega, rfl⟩
    · rw [if_neg (by grind), if_neg (by grind), if_neg (by grind), if_neg (by grind), if_pos h2]; exact ⟨by omega, rfl⟩
  · rintro ⟨h0, h⟩
    rcases ite_cases h with ⟨e, h⟩ | ⟨e1, h⟩
    · cases h; omega
    rcases ite_cases h with ⟨e, h⟩ | ⟨e2, h⟩
    · cases h
    rcases ite_cases h with ⟨e, h⟩ | ⟨e3, h⟩
    · cases h; left; grind
    rcases ite_cases h with ⟨e, h⟩ | ⟨e4, h⟩
    · cases h; right; left; grind
    rcases ite_cases h with ⟨e, h⟩ | ⟨e5, h⟩
    · cases h; right; right; grind
    · cases h

private theorem trail_iff (c : Byte) : TrailByte c ↔ isTrail c = true := by unfold TrailByte isTrail; simp

private theorem lead_fun {c : Byte} {n m : Nat} (h : LeadByte c n) (h' : LeadByte c m) : n = m := by
  have := ((lead_iff c n).1 h).2.symm.trans ((lead_iff c m).1 h').2
  exact Option.some.inj this

private theorem stray_none {c : Byte} (h : 128 ≤ c) (hn : ∀ n, ¬ LeadByte c n) : trailLength c = none := by
  cases e : trailLength c with
  | none => rfl
  | some n =>
    exfalso
    rcases Nat.eq_zero_or_pos n with rfl | h0
    · unfold trailLength at e
      rw [if_neg (by grind)] at e
      repeat' (rcases ite_cases e with ⟨_, e⟩ | ⟨_, e⟩ <;> first | cases e | skip)
    · exact hn n ((lead_iff c n).2 ⟨h0, e⟩)

/-- The value of bytes of a sequence so far. -/
private def accOf (a : Nat) (t : Str) : Nat := t.foldl (fun a y => a * 64 + y.toNat % 64) a

/-- Bytes that belong, but not enough of them. -/
private theorem go_some (tot : Nat) : ∀ (t : Str) (need a : Nat) (s : Str), (∀ y ∈ t, isTrail y = true) → t.length < need →
    utf8DecodeGo (some ⟨tot, need, a⟩) (t ++ s) = utf8DecodeGo (some ⟨tot, need - t.length, accOf a t⟩) s := by
  intro t
  induction t with
  | nil => intro need a s _ _; rfl
  | cons y t ih =>
    intro need a s ht hl
    rw [List.length_cons] at hl
    rw [List.cons_append, utf8DecodeGo, if_pos (ht y (by simp))]
    simp only []
    rw [if_neg (by omega), ih (need - 1) _ s (fun z hz => ht z (by simp [hz])) (by omega), List.length_cons]
    have : need - 1 - t.length = need - (t.length + 1) := by omega
    rw [this]; rfl

private theorem go_lead {c : Byte} {n : Nat} (h : LeadByte c n) (s : Str) :
    utf8DecodeGo none (c :: s) = utf8DecodeGo (some ⟨n, n, c.toNat % 2 ^ (6 - n)⟩) s := by
  obtain ⟨h0, h1⟩ := (lead_iff c n).1 h
  rw [utf8DecodeGo, h1]
  obtain ⟨m, rfl⟩ : ∃ m, n = m + 1 := ⟨n - 1, by omega⟩
  rfl

/-- A complete sequence. -/
private theorem go_full {c : Byte} {n : Nat} (h : LeadByte c n) (t : Str) (ht : ∀ y ∈ t, isTrail y = true) (hl : t.length = n) (s : Str) :
    utf8DecodeGo none (c :: t ++ s) =
      let v := accOf (c.toNat % 2 ^ (6 - n)) t
      if validCodePoint v && utf8Width v == n + 1 then v :: utf8DecodeGo none s else utf8DecodeGo none s := by
  obtain ⟨h0, h1⟩ := (lead_iff c n).1 h
  rw [List.cons_append, go_lead h]
  obtain ⟨t', y, rfl⟩ : ∃ t' y, t = t' ++ [y] := by
    rcases List.eq_nil_or_concat t with rfl | ⟨t', y, e⟩
    · simp at hl; omega
    · exact ⟨t', y, by rw [e]; simp⟩
  rw [List.length_append, List.length_singleton] at hl
  rw [List.append_assoc, go_some n t' n _ _ (fun z hz => ht z (by simp [hz])) (by omega)]
  have e1 : n - t'.length = 1 := by omega
  rw [e1, List.singleton_append, utf8DecodeGo, if_pos (ht y (by simp))]
  simp only []
  rw [if_pos (by omega)]
  have e2 : accOf (c.toNat % 2 ^ (6 - n)) (t' ++ [y]) = accOf (c.toNat % 2 ^ (6 - n)) t' * 64 + y.toNat % 64 := by unfold accOf; rw [List.foldl_append]; rfl
  rw [e2]

private theorem byte_eq {y : Byte} {n : Nat} (h : n = y.toNat) : UInt8.ofNat n = y := by rw [h]; exact UInt8.ofNat_toNat

private theorem trail_nat {y : Byte} (h : isTrail y = true) : 128 ≤ y.toNat ∧ y.toNat < 192 := by
  unfold isTrail at h
  simp only [Bool.and_eq_true, decide_eq_true_eq, UInt8.le_iff_toNat_le, UInt8.lt_iff_toNat_lt] at h
  exact h

private theorem encodeChar_eq (v : Nat) : utf8EncodeChar v =
    if v ≤ 0x7f then [UInt8.ofNat v]
    else if v ≤ 0x7ff then [UInt8.ofNat (v / 64 + 0xc0), UInt8.ofNat (v % 64 + 0x80)]
    else if v ≤ 0xffff then [UInt8.ofNat (v / 4096 + 0xe0), UInt8.ofNat (v / 64 % 64 + 0x80), UInt8.ofNat (v % 64 + 0x80)]
    else [UInt8.ofNat (v / 262144 + 0xf0), UInt8.ofNat (v / 4096 % 64 + 0x80), UInt8.ofNat (v / 64 % 64 + 0x80), UInt8.ofNat (v % 64 + 0x80)] := rfl

/-- A complete sequence of a valid value of the right length is the encoding of the value. -/
private theorem encode_of {c : Byte} {n : Nat} (h : LeadByte c n) (t : Str) (ht : ∀ y ∈ t, isTrail y = true) (hl : t.length = n)
    (hw : utf8Width (accOf (c.toNat % 2 ^ (6 - n)) t) = n + 1) : utf8EncodeChar (accOf (c.toNat % 2 ^ (6 - n)) t) = c :: t := by
  unfold LeadByte at h
  simp only [UInt8.le_iff_toNat_le, UInt8.lt_iff_toNat_lt] at h
  rcases h with ⟨h1, h2, rfl⟩ | ⟨h1, h2, rfl⟩ | ⟨h1, h2, rfl⟩
  · change 194 ≤ _ at h1
    change _ < 224 at h2
    obtain ⟨y, rfl⟩ := List.length_eq_one_iff.1 hl
    have hy := trail_nat (ht y (by simp))
    have e : accOf (c.toNat % 2 ^ (6 - 1)) [y] = c.toNat % 2 ^ (6 - 1) * 64 + y.toNat % 64 := rfl
    rw [e] at hw ⊢
    unfold utf8Width at hw
    rw [encodeChar_eq]
    rw [if_neg (by omega), if_pos (by omega), byte_eq (y := c) (by omega), byte_eq (y := y) (by omega)]
  · change 224 ≤ _ at h1
    change _ < 240 at h2
    obtain ⟨y, z, rfl⟩ := List.length_eq_two.1 hl
    have hy := trail_nat (ht y (by simp))
    have hz := trail_nat (ht z (by simp))
    have e : accOf (c.toNat % 2 ^ (6 - 2)) [y, z] = (c.toNat % 2 ^ (6 - 2) * 64 + y.toNat % 64) * 64 + z.toNat % 64 := rfl
    rw [e] at hw ⊢
    unfold utf8Width at hw
    have hlt : ¬ (c.toNat % 2 ^ (6 - 2) * 64 + y.toNat % 64) * 64 + z.toNat % 64 ≤ 0x7ff := by
      intro hle
      by_cases h7 : (c.toNat % 2 ^ (6 - 2) * 64 + y.toNat % 64) * 64 + z.toNat % 64 ≤ 0x7f
      · rw [if_pos h7] at hw; cases hw
      · rw [if_neg h7, if_pos hle] at hw; cases hw
    rw [encodeChar_eq]
    rw [if_neg (by omega), if_neg hlt, if_pos (by omega), byte_eq (y := c) (by omega), byte_eq (y := y) (by omega), byte_eq (y := z) (by omega)]
  · change 240 ≤ _ at h1
    change _ ≤ 244 at h2
    obtain ⟨y, z, x, rfl⟩ := List.length_eq_three.1 hl
    have hy := trail_nat (ht y (by simp))
    have hz := trail_nat (ht z (by simp))
    have hx := trail_nat (ht x (by simp))
    have e : accOf (c.toNat % 2 ^ (6 - 3)) [y, z, x] = ((c.toNat % 2 ^ (6 - 3) * 64 + y.toNat % 64) * 64 + z.toNat % 64) * 64 + x.toNat % 64 := rfl
    rw [e] at hw ⊢
    unfold utf8Width at hw
    have hlt : ¬ ((c.toNat % 2 ^ (6 - 3) * 64 + y.toNat % 64) * 64 + z.toNat % 64) * 64 + x.toNat % 64 ≤ 0xffff := by
      intro hle
      split at hw
      · cases hw
      · split at hw
        · cases hw
        · cases hw
    rw [encodeChar_eq]
    rw [if_neg (by omega), if_neg (by omega), if_neg hlt, byte_eq (y := c) (by omega), byte_eq (y := y) (by omega), byte_eq (y := z) (by omega),
      byte_eq (y := x) (by omega)]

private theorem chars_sound {s : Str} {w : List WChar} (h : Utf8Chars s w) : utf8DecodeGo none s = w := by
  induction h with
  | done => rfl
  | char c s w _ ih => rw [← encode_char, utf8Decode_char _ (valid_char c), ih]
  | stray c s w h1 h2 _ ih => rw [utf8DecodeGo, stray_none h1 h2]; exact ih
  | broken c n t x s w hc ht hl hx _ ih =>
    rw [List.cons_append, go_lead hc, go_some n t n _ _ (fun y hy => (trail_iff y).1 (ht y hy)) hl, utf8DecodeGo, if_neg (by rw [← trail_iff]; exact hx), ih]
  | cut c n t hc ht hl =>
    have := go_some n t n (c.toNat % 2 ^ (6 - n)) [] (fun y hy => (trail_iff y).1 (ht y hy)) hl
    rw [List.append_nil] at this
    rw [go_lead hc, this]
    rfl
  | invalid c n t s w hc ht hl hx _ ih =>
    have ht' : ∀ y ∈ t, isTrail y = true := fun y hy => (trail_iff y).1 (ht y hy)
    rw [go_full hc t ht' hl]
    simp only []
    rw [if_neg, ih]
    rintro hv
    rw [Bool.and_eq_true, beq_iff_eq] at hv
    obtain ⟨ch, e⟩ := char_of hv.1
    refine hx ch ?_
    rw [← encode_char, e]
    exact encode_of hc t ht' hl hv.2

private theorem chars_total (m : Nat) : ∀ s : Str, s.length ≤ m → ∃ w, Utf8Chars s w := by
  induction m with
  | zero => intro s hs; rw [List.length_eq_zero_iff.1 (Nat.le_zero.1 hs)]; exact ⟨[], .done⟩
  | succ m ih =>
    intro s hs
    cases s with
    | nil => exact ⟨[], .done⟩
    | cons c s =>
      rw [List.length_cons] at hs
      by_cases h1 : 128 ≤ c
      · by_cases h2 : ∃ n, LeadByte c n
        · obtain ⟨n, hc⟩ := h2
          -- the bytes that belong
          obtain ⟨t, r, e, ht, hl, hr⟩ : ∃ t r, s = t ++ r ∧ (∀ y ∈ t, TrailByte y) ∧ t.length ≤ n ∧ (t.length < n → ∀ x r', r = x :: r' → ¬ TrailByte x) := by
            clear ih hs
            clear hc
            induction n generalizing s with
            | zero => exact ⟨[], s, rfl, by simp, by simp, by simp⟩
            | succ n ihn =>
              cases s with
              | nil => exact ⟨[], [], rfl, by simp, by simp, by simp⟩
              | cons y s =>
                by_cases hy : TrailByte y
                · obtain ⟨t, r, e, ht, hl, hr⟩ := ihn s
                  refine ⟨y :: t, r, by rw [e]; rfl, ?_, by simpa using hl, ?_⟩
                  · intro z hz; rcases List.mem_cons.1 hz with rfl | hz; exacts [hy, ht z hz]
                  · intro hlt; exact hr (by simpa using hlt)
                · refine ⟨[], y :: s, rfl, by simp, by simp, ?_⟩
                  rintro _ x r' e
                  cases e; exact hy
          subst e
          rcases Nat.lt_or_eq_of_le hl with hlt | heq
          · cases r with
            | nil => rw [List.append_nil]; exact ⟨[], .cut c n t hc ht hlt⟩
            | cons x r =>
              obtain ⟨w, hw⟩ := ih r (by simp at hs; omega)
              exact ⟨w, .broken c n t x r w hc ht hlt (hr hlt x r rfl) hw⟩
          · obtain ⟨w, hw⟩ := ih r (by simp at hs; omega)
            by_cases hx : ∃ x : Char, String.utf8EncodeChar x = c :: t
            · obtain ⟨x, hx⟩ := hx
              exact ⟨x.toNat :: w, by have := Utf8Chars.char x r w hw; rw [hx] at this; exact this⟩
            · exact ⟨w, .invalid c n t r w hc ht heq (fun x e => hx ⟨x, e⟩) hw⟩
        · obtain ⟨w, hw⟩ := ih s (by omega)
          exact ⟨w, .stray c s w h1 (fun n h => h2 ⟨n, h⟩) hw⟩
      · obtain ⟨w, hw⟩ := ih s (by omega)
        have hlt : c.toNat < 128 := by
          rw [UInt8.le_iff_toNat_le] at h1
          change ¬ 128 ≤ _ at h1
          omega
        obtain ⟨x, hx⟩ := char_of (v := c.toNat) (by unfold validCodePoint; simp; omega)
        refine ⟨x.toNat :: w, ?_⟩
        have := Utf8Chars.char x s w hw
        rw [← encode_char, hx, encodeChar_eq] at this
        rw [if_pos (by omega), byte_eq (y := c) rfl, ← hx] at this
        exact this

/-- C123: converting from UTF-8 gives exactly the characters that are there. -/
theorem C123_chars (s : Str) (w : List WChar) : utf8Decode s = w ↔ Utf8Chars s w := by
  refine ⟨?_, fun h => chars_sound h⟩
  rintro rfl
  obtain ⟨w, hw⟩ := chars_total s.length s (le_refl _)
  rw [show utf8Decode s = w from chars_sound hw]
  exact hw

/-- An e with an acute accent, a stray byte, a broken sequence that takes a letter with it, and a letter. -/
example : Utf8Chars [0xc3, 0xa9, 0x80, 0xe2, 0x82, 0x41, 0x42] [0xe9, 0x42] := (C123_chars _ _).1 (by decide +kernel)

private def MainCoded (k : Byte) : Prop := mainChar k ≠ 0 → mainChar k ≠ 0x24 → (isoEncodeCharSt isoMade (mainChar k)).toOption = some [k]

private instance (k : Byte) : Decidable (MainCoded k) := by unfold MainCoded; infer_instance

private theorem main_coded (k : Byte) : MainCoded k := forall_byte (p := MainCoded) (by decide +kernel) k

private def accentEntries : List (Byte × Byte × WChar) := isoDiacriticals.flatMap (fun e => e.2.map (fun q => (e.1, q.1, q.2)))

private theorem accents_coded : ∀ e ∈ accentEntries, (isoEncodeCharSt isoMade e.2.2).toOption = some [e.1, e.2.1] := by decide +kernel

private theorem lookup_entry {α β : Type} [BEq α] [LawfulBEq α] {a : α} {b : β} : ∀ {l : List (α × β)}, l.lookup a = some b → (a, b) ∈ l := by
  intro l h
  induction l with
  | nil => cases h
  | cons p l ih =>
    rw [List.lookup_cons] at h
    split at h
    · rename_i e
      rw [eq_of_beq e]; cases h; simp
    · simp [ih h]

private theorem accent_entry {d k : Byte} {c : WChar} (h : accented d k = some c) (h0 : c ≠ 0) : (d, k, c) ∈ accentEntries := by
  unfold accented at h
  obtain ⟨l, hl, e⟩ := Option.map_eq_some_iff.1 h
  cases e' : l.lookup k with
  | none => rw [e'] at e; exact absurd e.symm h0
  | some v =>
    rw [e'] at e
    subst e
    exact List.mem_flatMap.2 ⟨_, lookup_entry hl, List.mem_map.2 ⟨_, lookup_entry e', rfl⟩⟩

private theorem ok_of_toOption {α : Type} {x : R α} {a : α} (h : x.toOption = some a) : x = .ok a := by
  cases x with
  | error e => cases h
  | ok b => cases h; rfl

private theorem loop_single {t : IsoTables} {c : WChar} {x : Str} (h : isoEncodeLoop t [c] = .ok x) : isoEncodeCharSt t c = .ok x := by
  rw [isoEncodeLoop] at h
  obtain ⟨a, ha, h3⟩ := bind_eq_ok.1 h
  obtain ⟨b, hb, h4⟩ := bind_eq_ok.1 h3
  cases hb
  cases h4
  rw [ha, List.append_nil]

private theorem st_single {t t' : IsoTables} {s : List WChar} {x : Str} (h : isoEncodeSt t s = .ok (t', x)) : isoEncodeLoop (isoEnsure t) s = .ok x := by
  unfold isoEncodeSt at h
  generalize isoEnsure t = u at *
  obtain ⟨o, h1, h2⟩ := bind_eq_ok.1 h
  cases h2
  exact h1

private theorem encode_single {c : WChar} {x : Str} (h : ∃ t', isoEncodeSt {} [c] = .ok (t', x)) : isoEncodeCharSt isoMade c = .ok x := by
  obtain ⟨t', h⟩ := h
  have h1 := st_single h
  rw [isoEnsure_start] at h1
  exact loop_single h1

private theorem all_main : ∀ p ∈ isoMain, mainChar p.1 = p.2 := by decide +kernel

private theorem all_accents : ∀ e ∈ isoDiacriticals, ∀ q ∈ e.2, accented e.1 q.1 = some q.2 := by decide +kernel

private theorem coded_sound {c : WChar} {x : Str} (h : CodedAs c x) : isoEncodeCharSt isoMade c = .ok x := by
  cases h with
  | dollar => decide +kernel
  | main k h1 h2 => exact ok_of_toOption (main_coded k h1 h2)
  | accent d k c h1 h2 => exact ok_of_toOption (accents_coded (d, k, c) (accent_entry h1 h2))
  | substitute c b h => exact encode_single (C52_substitute .start c b h)
  | dropped c h =>
    rcases h with rfl | ⟨h1, h2, h3⟩
    · decide +kernel
    · by_cases h0 : c = 0
      · subst h0; decide +kernel
      · obtain ⟨t', h, _⟩ := C52_dropped .start c h0 (fun k hk => h1 k (all_main _ hk)) (fun d l k hl hk => h2 d k (all_accents _ hl _ hk)) h3
        exact encode_single ⟨t', h⟩

private theorem coded_total (c : WChar) : ∃ x, CodedAs c x := by
  by_cases h0 : c = 0
  · exact ⟨[], .dropped c (.inl h0)⟩
  by_cases hd : c = 0x24
  · subst hd; exact ⟨_, .dollar⟩
  by_cases h1 : ∃ k, mainChar k = c
  · obtain ⟨k, rfl⟩ := h1; exact ⟨_, .main k h0 hd⟩
  by_cases h2 : ∃ d k, accented d k = some c
  · obtain ⟨d, k, h⟩ := h2; exact ⟨_, .accent d k c h h0⟩
  by_cases h3 : ∃ b, (c, b) ∈ substitutes
  · obtain ⟨b, h⟩ := h3; exact ⟨_, .substitute c b h⟩
  exact ⟨[], .dropped c (.inr ⟨fun k e => h1 ⟨k, e⟩, fun d k e => h2 ⟨d, k, e⟩, fun b e => h3 ⟨b, e⟩⟩)⟩

private theorem coded_iff (c : WChar) (x : Str) : isoEncodeCharSt isoMade c = .ok x ↔ CodedAs c x := by
  refine ⟨fun h => ?_, coded_sound⟩
  obtain ⟨y, hy⟩ := coded_total c
  rw [coded_sound hy] at h
  cases h
  exact hy

private theorem isoEncode_iff : ∀ (w : List WChar) (x : Str), isoEncode w = .ok x ↔ ∃ cs, List.Forall₂ CodedAs w cs ∧ x = cs.flatten := by
  intro w
  induction w with
  | nil =>
    intro x
    rw [show isoEncode [] = .ok [] by decide +kernel]
    constructor
    · intro h; cases h; exact ⟨[], .nil, rfl⟩
    · rintro ⟨cs, h, rfl⟩; cases h; rfl
  | cons c w ih =>
    intro x
    rw [isoEncode_cons]
    constructor
    · intro h
      obtain ⟨a, ha, h⟩ := bind_eq_ok.1 h
      obtain ⟨b, hb, h⟩ := bind_eq_ok.1 h
      cases h
      obtain ⟨cs, hcs, rfl⟩ := (ih b).1 hb
      exact ⟨a :: cs, .cons ((coded_iff c a).1 ha) hcs, rfl⟩
    · rintro ⟨cs, h, rfl⟩
      cases h with
      | @cons _ a _ cs h1 h2 =>
      rw [(coded_iff c a).2 h1, ok_bind, (ih _).2 ⟨cs, h2, rfl⟩, ok_bind]
      rfl

/-- C123: the conversion to the character set of STL, exactly. -/
theorem C123_text (t x : Str) : isoEncode (utf8Decode t) = .ok x ↔ TextCoded t x := by
  rw [isoEncode_iff]
  constructor
  · rintro ⟨cs, h1, h2⟩; exact ⟨_, cs, (C123_chars t _).1 rfl, h1, h2⟩
  · rintro ⟨w, cs, h0, h1, h2⟩; rw [(C123_chars t w).2 h0]; exact ⟨cs, h1, h2⟩

example : TextCoded b!"caf\u00e9 $ \u2013" [0x63, 0x61, 0x66, 0xc2, 0x65, 0x20, 0xa4, 0x20, 208] := (C123_text _ _).1 (by decide +kernel)

/-! ### Numbers -/

theorem nearest_iff (x : ℚ) (r : Int) : toInt (rint x : ℚ) = .ok r ↔ Nearest x r := by
  unfold toInt
  rw [truncR_int]
  have key : (|x - r| ≤ 1 / 2 ∧ (|x - r| = 1 / 2 → r % 2 = 0)) ↔ rint x = r := by
    have h1 := floor_le x
    have h2 := lt_floor_add_one x
    unfold rint
    simp only []
    generalize x.floor = f at h1 h2
    constructor
    · rintro ⟨ha, hb⟩
      rw [abs_le] at ha
      obtain ⟨ha1, ha2⟩ := ha
      have hr1 : (f : ℚ) - 1 < r := by linarith
      have hr2 : (r : ℚ) < f + 2 := by linarith
      have hr1' : f - 1 < r := by exact_mod_cast hr1
      have hr2' : r < f + 2 := by exact_mod_cast hr2
      rcases (by omega : r = f ∨ r = f + 1) with rfl | rfl
      · by_cases h : x - (r : ℚ) < 1 / 2
        · rw [if_pos h]
        · have e : x - (r : ℚ) = 1 / 2 := by linarith
          have := hb (by rw [e]; norm_num)
          rw [if_neg h, if_neg (by rw [e]; exact lt_irrefl _), if_pos this]
      · push_cast at ha1 ha2 hb
        rw [if_neg (by linarith)]
        by_cases h : 1 / 2 < x - (f : ℚ)
        · rw [if_pos h]
        · have e : x - ((f : ℚ) + 1) = -(1 / 2) := by linarith
          have := hb (by rw [e]; norm_num)
          rw [if_neg h, if_neg (by omega)]
    · rintro rfl
      by_cases c1 : x - (f : ℚ) < 1 / 2
      · rw [if_pos c1]
        have : |x - (f : ℚ)| < 1 / 2 := by rw [abs_lt]; constructor <;> linarith
        exact ⟨this.le, fun e => absurd e this.ne⟩
      rw [if_neg c1]
      by_cases c2 : 1 / 2 < x - (f : ℚ)
      · rw [if_pos c2]
        push_cast
        have : |x - ((f : ℚ) + 1)| < 1 / 2 := by rw [abs_lt]; constructor <;> linarith
        exact ⟨this.le, fun e => absurd e this.ne⟩
      rw [if_neg c2]
      have e : x = f + 1 / 2 := by linarith
      by_cases c3 : f % 2 = 0
      · rw [if_pos c3]
        refine ⟨?_, fun _ => c3⟩
        rw [e, abs_le]; constructor <;> linarith
      · rw [if_neg c3]
        refine ⟨?_, fun _ => by omega⟩
        push_cast
        rw [e, abs_le]; constructor <;> linarith
  unfold Nearest
  rw [← and_assoc, key]
  constructor
  · intro h
    rcases ite_cases h with ⟨e, h⟩ | ⟨e, h⟩
    · cases h; exact ⟨rfl, e⟩
    · cases h
  · rintro ⟨rfl, h⟩; rw [if_pos h]

theorem trunc_iff (x : ℚ) (r : Int) : toInt x = .ok r ↔ WithoutFraction x r := by
  have key : (|(r : ℚ)| ≤ |x| ∧ |x| < |(r : ℚ)| + 1 ∧ 0 ≤ r * x) ↔ truncR x = r := by
    unfold truncR
    constructor
    · rintro ⟨h1, h2, h3⟩
      by_cases h0 : 0 ≤ x
      · rw [if_pos h0]
        rw [abs_of_nonneg h0] at h1 h2
        have hr : 0 ≤ (r : ℚ) := by
          by_contra hn
          push Not at hn
          have h4 := abs_of_neg hn
          have : r ≤ -1 := by
            have : r < 0 := by exact_mod_cast hn
            omega
          have h5 : (r : ℚ) ≤ -1 := by exact_mod_cast this
          have : 0 < x := by linarith
          nlinarith
        rw [abs_of_nonneg hr] at h1 h2
        exact floor_unique h1 h2
      · rw [if_neg h0]
        push Not at h0
        rw [abs_of_neg h0] at h1 h2
        have hr : (r : ℚ) ≤ 0 := by
          by_contra hn
          push Not at hn
          nlinarith
        rw [abs_of_nonpos hr] at h1 h2
        rw [floor_unique (n := -r) (by push_cast; exact h1) (by push_cast; exact h2)]
        omega
    · rintro rfl
      by_cases h0 : 0 ≤ x
      · rw [if_pos h0]
        have h1 := floor_le x
        have h2 := lt_floor_add_one x
        have h3 : 0 ≤ x.floor := Rat.le_floor_iff.2 (by simpa using h0)
        have h4 : (0 : ℚ) ≤ x.floor := by exact_mod_cast h3
        rw [abs_of_nonneg h4, abs_of_nonneg h0]
        exact ⟨h1, h2, mul_nonneg h4 h0⟩
      · rw [if_neg h0]
        push Not at h0
        have h1 := floor_le (-x)
        have h2 := lt_floor_add_one (-x)
        have h3 : 0 ≤ (-x).floor := Rat.le_floor_iff.2 (by push_cast; linarith)
        have h4 : (0 : ℚ) ≤ (-x).floor := by exact_mod_cast h3
        push_cast
        rw [abs_neg, abs_of_nonneg h4, abs_of_neg h0]
        exact ⟨h1, h2, by nlinarith⟩
  unfold WithoutFraction toInt
  constructor
  · intro h
    rcases ite_cases h with ⟨e, h⟩ | ⟨e, h⟩
    · injection h with h
      have := key.2 h
      exact ⟨this.1, this.2.1, this.2.2, h ▸ e⟩
    · cases h
  · rintro ⟨h1, h2, h3, h4⟩
    have := key.1 ⟨h1, h2, h3⟩
    rw [this, if_pos h4]

private theorem rows_eq : ((stlRows : Int) : ℚ) = 23 := by norm_num [stlRows]

theorem fdiv_ok_iff (a b q : ℚ) : fdiv a b = .ok q ↔ b ≠ 0 ∧ q = a / b := by
  unfold fdiv
  constructor
  · intro h
    rcases ite_cases h with ⟨e, h⟩ | ⟨e, h⟩
    · cases h
    · cases h; exact ⟨e, rfl⟩
  · rintro ⟨h, rfl⟩; rw [if_neg h]

theorem writerRow_iff (j : Line) (r : Int) : writerVpos j = .ok r ↔ RowFor j.vpos r := by
  unfold writerVpos
  rw [rows_eq]
  cases hp : j.vpos.prop with
  | some p =>
    simp only []
    constructor
    · intro h
      cases hr : j.vpos.ref with
      | none => rw [hr] at h; exact .top _ p r hp (.inr hr) ((nearest_iff _ _).1 h)
      | some ref =>
        rw [hr] at h
        cases ref with
        | topOfScreen => exact .top _ p r hp (.inl hr) ((nearest_iff _ _).1 h)
        | centreOfScreen => exact .centre _ p r hp hr ((nearest_iff _ _).1 h)
        | bottomOfScreen => exact .bottom _ p r hp hr ((nearest_iff _ _).1 h)
        | topOfSubtitle => cases h; exact .subtitle _ p hp hr
    · intro h
      cases h with
      | top p' _ e1 e2 e3 => cases hp.symm.trans e1; rcases e2 with e2 | e2 <;> rw [e2] <;> exact (nearest_iff _ _).2 e3
      | centre p' _ e1 e2 e3 => cases hp.symm.trans e1; rw [e2]; exact (nearest_iff _ _).2 e3
      | bottom p' _ e1 e2 e3 => cases hp.symm.trans e1; rw [e2]; exact (nearest_iff _ _).2 e3
      | subtitle p' e1 e2 => rw [e2]; rfl
      | lineTop l n _ e1 => cases hp.symm.trans e1
      | lineCentre l n _ e1 => cases hp.symm.trans e1
      | lineBottom l n _ e1 => cases hp.symm.trans e1
      | lineSubtitle l n e1 => cases hp.symm.trans e1
      | none e1 => cases hp.symm.trans e1
  | none =>
    simp only []
    cases hl : j.vpos.line with
    | none =>
      constructor
      · intro h; cases h; exact .none _ hp hl
      · intro h
        cases h with
        | top p' _ e1 => cases hp.symm.trans e1
        | centre p' _ e1 => cases hp.symm.trans e1
        | bottom p' _ e1 => cases hp.symm.trans e1
        | subtitle p' e1 => cases hp.symm.trans e1
        | lineTop l n _ e1 e2 => cases hl.symm.trans e2
        | lineCentre l n _ e1 e2 => cases hl.symm.trans e2
        | lineBottom l n _ e1 e2 => cases hl.symm.trans e2
        | lineSubtitle l n e1 e2 => cases hl.symm.trans e2
        | none e1 => rfl
    | some l =>
      simp only []
      constructor
      · intro h
        obtain ⟨n, hn, h⟩ := bind_eq_ok.1 h
        obtain ⟨q, hq, h⟩ := bind_eq_ok.1 h
        have hn' : j.vpos.lines = some n := by
          cases e : j.vpos.lines with
          | none => rw [e] at hn; cases hn
          | some m => rw [e] at hn; cases hn; rfl
        obtain ⟨h0, rfl⟩ := (fdiv_ok_iff _ _ _).1 hq
        cases hr : j.vpos.ref with
        | none => rw [hr] at h; exact .lineTop _ l n r hp hl hn' h0 (.inr hr) ((trunc_iff _ _).1 h)
        | some ref =>
          rw [hr] at h
          cases ref with
          | topOfScreen => exact .lineTop _ l n r hp hl hn' h0 (.inl hr) ((trunc_iff _ _).1 h)
          | centreOfScreen => exact .lineCentre _ l n r hp hl hn' h0 hr ((trunc_iff _ _).1 h)
          | bottomOfScreen => exact .lineBottom _ l n r hp hl hn' h0 hr ((trunc_iff _ _).1 h)
          | topOfSubtitle => cases h; exact .lineSubtitle _ l n hp hl hn' h0 hr
      · intro h
        cases h with
        | top p' _ e1 => cases hp.symm.trans e1
        | centre p' _ e1 => cases hp.symm.trans e1
        | bottom p' _ e1 => cases hp.symm.trans e1
        | subtitle p' e1 => cases hp.symm.trans e1
        | lineTop l' n _ e1 e2 e3 e4 e5 e6 =>
          cases hl.symm.trans e2
          rw [e3, show optGet (some n) = .ok n from rfl, ok_bind, (fdiv_ok_iff _ _ _).2 ⟨e4, rfl⟩, ok_bind]
          rcases e5 with e5 | e5 <;> rw [e5] <;> exact (trunc_iff _ _).2 e6
        | lineCentre l' n _ e1 e2 e3 e4 e5 e6 =>
          cases hl.symm.trans e2
          rw [e3, show optGet (some n) = .ok n from rfl, ok_bind, (fdiv_ok_iff _ _ _).2 ⟨e4, rfl⟩, ok_bind, e5]
          exact (trunc_iff _ _).2 e6
        | lineBottom l' n _ e1 e2 e3 e4 e5 e6 =>
          cases hl.symm.trans e2
          rw [e3, show optGet (some n) = .ok n from rfl, ok_bind, (fdiv_ok_iff _ _ _).2 ⟨e4, rfl⟩, ok_bind, e5]
          exact (trunc_iff _ _).2 e6
        | lineSubtitle l' n e1 e2 e3 e4 e5 =>
          cases hl.symm.trans e2
          rw [e3, show optGet (some n) = .ok n from rfl, ok_bind, (fdiv_ok_iff _ _ _).2 ⟨e4, rfl⟩, ok_bind, e5]
          rfl
        | none e1 e2 => cases hl.symm.trans e2

private theorem rows_iff : ∀ (js : List Line) (rs : List Int), writerVposes js = .ok rs ↔ List.Forall₂ (fun j r => RowFor j.vpos r) js rs := by
  intro js
  induction js with
  | nil =>
    intro rs
    constructor
    · intro h; cases h; exact .nil
    · intro h; cases h; rfl
  | cons j js ih =>
    intro rs
    rw [writerVposes]
    constructor
    · intro h
      obtain ⟨v, hv, h⟩ := bind_eq_ok.1 h
      obtain ⟨vs, hvs, h⟩ := bind_eq_ok.1 h
      cases h
      exact .cons ((writerRow_iff j v).1 hv) ((ih vs).1 hvs)
    · intro h
      cases h with
      | cons h1 h2 => rw [(writerRow_iff j _).2 h1, ok_bind, (ih _).2 h2, ok_bind]; rfl

private theorem byte_int (v : Int) : lowByte v = UInt8.ofInt v := by
  unfold lowByte UInt8.ofInt
  rfl

private theorem tdiv_iff (a q : Int) (b : Int) (hb : 0 < b) : a.tdiv b = q ↔ (0 ≤ a → 0 ≤ q ∧ b * q ≤ a ∧ a < b * q + b) ∧ (a ≤ 0 → q ≤ 0 ∧ a ≤ b * q ∧ b * q - b < a) := by
  have h1 := Int.mul_tdiv_add_tmod a b
  constructor
  · rintro rfl
    constructor
    · intro h0
      have := Int.tmod_nonneg b h0
      have := Int.tmod_lt_of_pos a hb
      exact ⟨Int.tdiv_nonneg h0 hb.le, by omega, by omega⟩
    · intro h0
      have e1 : (-a).tmod b = - a.tmod b := Int.neg_tmod a b
      have e2 : (-a).tdiv b = - a.tdiv b := Int.neg_tdiv a b
      have := Int.tmod_nonneg b (show 0 ≤ -a by omega)
      have := Int.tmod_lt_of_pos (-a) hb
      have := Int.tdiv_nonneg (show 0 ≤ -a by omega) hb.le
      exact ⟨by omega, by omega, by omega⟩
  · rintro ⟨h2, h3⟩
    rcases le_total 0 a with h0 | h0
    · obtain ⟨h4, h5, h6⟩ := h2 h0
      have := Int.tmod_nonneg b h0
      have := Int.tmod_lt_of_pos a hb
      by_contra hne
      rcases lt_or_gt_of_ne hne with hlt | hgt
      · nlinarith
      · nlinarith
    · obtain ⟨h4, h5, h6⟩ := h3 h0
      have e1 : (-a).tmod b = - a.tmod b := Int.neg_tmod a b
      have := Int.tmod_nonneg b (show 0 ≤ -a by omega)
      have := Int.tmod_lt_of_pos (-a) hb
      by_contra hne
      rcases lt_or_gt_of_ne hne with hlt | hgt
      · nlinarith
      · nlinarith

private theorem clock_iff (t : Time) (h m s : Int) : Clock t.secs h m s ↔ h = t.hours ∧ m = t.minutes ∧ s = t.seconds := by
  have a1 := (tdiv_iff t.secs t.hours 3600 (by omega)).1 rfl
  have a2 := (tdiv_iff (t.secs - t.hours * 3600) t.minutes 60 (by omega)).1 rfl
  have a3 : t.seconds = t.secs - t.hours * 3600 - t.minutes * 60 := rfl
  generalize t.hours = H at *
  generalize t.minutes = M at *
  generalize t.seconds = S at *
  generalize t.secs = x at *
  constructor
  · rintro ⟨c1, c2, c3, c4, c5⟩
    rw [abs_lt] at c2 c3
    rcases le_total 0 x with h0 | h0
    · have := c4 h0
      have := a1.1 h0
      have := a2.1 (by omega)
      omega
    · have := c5 h0
      have := a1.2 h0
      have := a2.2 (by omega)
      omega
  · rintro ⟨rfl, rfl, rfl⟩
    rcases le_total 0 x with h0 | h0
    · have := a1.1 h0
      have := a2.1 (by omega)
      exact ⟨by omega, by rw [abs_lt]; omega, by rw [abs_lt]; omega, fun _ => by omega, fun _ => by omega⟩
    · have := a1.2 h0
      have := a2.2 (by omega)
      exact ⟨by omega, by rw [abs_lt]; omega, by rw [abs_lt]; omega, fun _ => by omega, fun _ => by omega⟩

private theorem frames_iff (t : Time) (n f : Int) : t.framesAt ⟨n, 1000⟩ = .ok f ↔ ∃ r, t.rate = some r ∧ r.num ≠ 0 ∧ InInt (r.num * 1000) ∧
    Nearest (f64 (f64 (f64 (f64 t.frames * r.den) * n) / ((r.num * 1000 : Int) : ℚ))) f := by
  unfold Time.framesAt
  cases hr : t.rate with
  | none => simp
  | some r =>
    simp only []
    constructor
    · intro h
      obtain ⟨d, hd, h⟩ := bind_eq_ok.1 h
      obtain ⟨q, hq, h⟩ := bind_eq_ok.1 h
      obtain ⟨hi, rfl⟩ := ck_eq_ok.1 hd
      obtain ⟨h0, rfl⟩ := (fdiv_ok_iff _ _ _).1 hq
      refine ⟨r, rfl, ?_, hi, (nearest_iff _ _).1 h⟩
      rintro e
      rw [e] at h0
      norm_num at h0
    · rintro ⟨r', e, h0, hi, hn⟩
      cases e
      rw [ck_eq_ok.2 ⟨hi, rfl⟩, ok_bind, (fdiv_ok_iff _ _ _).2 ⟨by
        have : r.num * 1000 ≠ 0 := by omega
        exact_mod_cast this, rfl⟩, ok_bind]
      exact (nearest_iff _ _).2 hn

theorem timeCoded_iff (t : Time) (n : Int) (x : Str) : TimeCoded n t x ↔
    ∃ f, t.framesAt ⟨n, 1000⟩ = .ok f ∧ x = [lowByte t.hours, lowByte t.minutes, lowByte t.seconds, lowByte f] := by
  simp only [byte_int]
  constructor
  · intro hx
    cases hx with
    | mk r h m s f e h0 hi hc hn =>
    obtain ⟨rfl, rfl, rfl⟩ := (clock_iff t h m s).1 hc
    exact ⟨f, (frames_iff t n f).2 ⟨r, e, h0, hi, hn⟩, rfl⟩
  · rintro ⟨f, hf, rfl⟩
    obtain ⟨r, e, h0, hi, hn⟩ := (frames_iff t n f).1 hf
    exact .mk t r _ _ _ f e h0 hi ((clock_iff t _ _ _).2 ⟨rfl, rfl, rfl⟩) hn

/-! ### Text and blocks -/

private theorem codes_eq (i u : Bool) (k : Block) : styleCodes ⟨i, u⟩ k = switchText [0x82] [0x83] u k.underline ++ switchText [0x80] [0x81] i k.italic := by
  unfold styleCodes
  cases i <;> cases u <;> cases k.italic <;> cases k.underline <;> rfl

private theorem blocks_iff : ∀ (ks : List Block) (i u : Bool) (x : Str) (i' u' : Bool), writerBlocks ⟨i, u⟩ ks = .ok (x, ⟨i', u'⟩) ↔ BlocksCoded i u ks x i' u' := by
  intro ks
  induction ks with
  | nil =>
    intro i u x i' u'
    constructor
    · intro h; cases h; exact .done i u
    · intro h; cases h; rfl
  | cons k ks ih =>
    intro i u x i' u'
    rw [writerBlocks, codes_eq]
    constructor
    · intro h
      obtain ⟨t, ht, h⟩ := bind_eq_ok.1 h
      obtain ⟨⟨rest, st'⟩, hr, h⟩ := bind_eq_ok.1 h
      cases h
      exact .block i u k ks t rest i' u' ((C123_text _ _).1 ht) ((ih _ _ _ _ _).1 hr)
    · intro h
      cases h with
      | block _ _ _ _ t rest _ _ h1 h2 => rw [(C123_text _ _).2 h1, ok_bind, (ih _ _ _ _ _).2 h2, ok_bind]; rfl

private theorem breaks_eq (last : Option Int) (r : Int) : writerBreaks last r = downTo last r := by cases last <;> rfl

private theorem lines_iff : ∀ (js : List Line) (rs : List Int) (i u : Bool) (last : Option Int) (x : Str) (i' u' : Bool), js.length = rs.length →
    (writerLines ⟨i, u⟩ last (js.zip rs) = .ok (x, ⟨i', u'⟩) ↔ LinesCoded i u last js rs x i' u') := by
  intro js
  induction js with
  | nil =>
    intro rs i u last x i' u' hl
    obtain rfl : rs = [] := List.length_eq_zero_iff.1 hl.symm
    constructor
    · intro h; cases h; exact .done i u last
    · intro h; cases h; rfl
  | cons j js ih =>
    intro rs i u last x i' u' hl
    cases rs with
    | nil => cases hl
    | cons r rs =>
    rw [List.zip_cons_cons, writerLines, breaks_eq]
    constructor
    · intro h
      obtain ⟨⟨t, ⟨a, b⟩⟩, ht, h⟩ := bind_eq_ok.1 h
      obtain ⟨⟨rest, st'⟩, hr, h⟩ := bind_eq_ok.1 h
      cases h
      exact .line i u last j js r rs t rest a b i' u' ((blocks_iff _ _ _ _ _ _).1 ht) ((ih rs _ _ _ _ _ _ (by simpa using hl)).1 hr)
    · intro h
      cases h with
      | line _ _ _ _ _ _ _ t rest a b _ _ h1 h2 =>
      rw [(blocks_iff _ _ _ _ _ _).2 h1, ok_bind]
      simp only []
      rw [(ih rs _ _ _ _ _ _ (by simpa using hl)).2 h2, ok_bind]
      rfl

private theorem text_iff (js : List Line) (rs : List Int) (x : Str) (hl : js.length = rs.length) : writerText (js.zip rs) = .ok x ↔ LinesText js rs x := by
  unfold writerText LinesText
  have e : ∀ (t : Str) (i u : Bool), t ++ (if u then [0x83] else []) ++ (if i then [0x81] else []) ++ [0x8f] =
      t ++ switchText [0x82] [0x83] u false ++ switchText [0x80] [0x81] i false ++ [(0x8f : Byte)] := by
    intro t i u; cases i <;> cases u <;> rfl
  constructor
  · intro h
    obtain ⟨⟨t, ⟨i, u⟩⟩, ht, h⟩ := bind_eq_ok.1 h
    cases h
    exact ⟨t, i, u, (lines_iff js rs _ _ _ _ _ _ hl).1 ht, e t i u⟩
  · rintro ⟨t, i, u, h, rfl⟩
    rw [show ({} : StyleState) = ⟨false, false⟩ from rfl, (lines_iff js rs _ _ _ _ _ _ hl).2 h, ok_bind, ← e]
    rfl

private theorem byte_nat (n : Nat) : lowByte n = UInt8.ofNat n := by
  unfold lowByte
  have : (Int.emod (n : Int) 256).toNat = n % 256 := by
    have : Int.emod (n : Int) 256 = ((n % 256 : Nat) : Int) := rfl
    rw [this]; rfl
  rw [this]
  apply UInt8.toNat_inj.1
  simp

private theorem cut_iff : ∀ (fuel n : Nat) (t : Str) (cs : List (Byte × Str)), t ≠ [] → t.length ≤ fuel → (writerChunks fuel n t = cs ↔ CutUp n t cs) := by
  intro fuel
  induction fuel with
  | zero => intro n t cs h0 h; exact absurd (List.length_eq_zero_iff.1 (Nat.le_zero.1 h)) h0
  | succ fuel ih =>
    intro n t cs h0 hl
    rw [writerChunks, if_neg (by simpa using h0)]
    simp only []
    by_cases h : t.length ≤ 112
    · have e1 : t.drop 112 = [] := List.drop_eq_nil_of_le h
      have e2 : t.take 112 = t := List.take_of_length_le h
      have e3 : ∀ f m, writerChunks f m [] = [] := by intro f m; cases f <;> rfl
      rw [e1, e2, e3]
      constructor
      · rintro rfl; exact .last n t h
      · intro hc
        generalize et : t = t' at hc h
        cases hc with
        | last _ _ _ => subst et; rfl
        | more _ t1 rest cs' h1 h2 h3 =>
          exfalso
          rw [List.length_append, h1] at h
          exact h2 (List.length_eq_zero_iff.1 (by omega))
    · have e1 : t.drop 112 ≠ [] := by intro e; exact h (List.drop_eq_nil_iff.1 e)
      have e2 : (t.take 112).length = 112 := by rw [List.length_take]; omega
      have e3 : (t.drop 112).length ≤ fuel := by rw [List.length_drop]; omega
      rw [if_neg (by simpa using e1), e2, byte_nat, List.replicate_zero, List.append_nil]
      constructor
      · rintro rfl
        have := CutUp.more n (t.take 112) (t.drop 112) _ e2 e1 ((ih (n + 1) _ _ e1 e3).1 rfl)
        rw [List.take_append_drop] at this
        exact this
      · intro hc
        generalize et : t = t' at hc
        cases hc with
        | last _ _ h' => exact absurd (by rw [et]; exact h') h
        | more _ t1 rest cs' h1 h2 h3 =>
          rw [List.drop_left' h1, List.take_left' h1]
          rw [et, List.drop_left' h1] at e3
          rw [(ih (n + 1) rest cs' h2 e3).2 h3]

private theorem top_iff : ∀ (rs : List Int) (r top : Int), writerTop (some r) rs = some top ↔ top ∈ r :: rs ∧ ∀ q ∈ r :: rs, top ≤ q := by
  intro rs
  induction rs with
  | nil =>
    intro r top
    rw [writerTop]
    constructor
    · intro h; cases h; simp
    · rintro ⟨h, _⟩; simp at h; rw [h]
  | cons q rs ih =>
    intro r top
    rw [writerTop]
    refine (ih _ _).trans ?_
    simp only [List.mem_cons, forall_eq_or_imp]
    split <;> rename_i hq
    · constructor
      · rintro ⟨h1, h2, h3⟩; exact ⟨.inr h1, by omega, h2, h3⟩
      · rintro ⟨h1, h2, h3, h4⟩
        refine ⟨?_, h3, h4⟩
        rcases h1 with h1 | h1
        · omega
        · exact h1
    · constructor
      · rintro ⟨h1, h2, h3⟩
        refine ⟨?_, h2, by omega, h3⟩
        rcases h1 with h1 | h1
        · exact .inl h1
        · exact .inr (.inr h1)
      · rintro ⟨h1, h2, h3, h4⟩
        refine ⟨?_, h2, h4⟩
        rcases h1 with h1 | h1 | h1
        · exact .inl h1
        · exact .inl (by omega)
        · exact .inr h1

private theorem linesText_ne {js : List Line} {rs : List Int} {x : Str} (h : LinesText js rs x) : x ≠ [] := by
  obtain ⟨t, i, u, _, rfl⟩ := h
  simp

private theorem forall₂_length {α β : Type} {R : α → β → Prop} {l : List α} {m : List β} (h : List.Forall₂ R l m) : l.length = m.length := by
  induction h with
  | nil => rfl
  | cons _ _ ih => simp [ih]

/-- C123: the blocks for a subtitle, exactly; there are none only if the subtitle has no blocks that follow the rules. -/
theorem C123_subtitle (fps : ℚ) (s : Subtitle) (bs : List Str) : ttiBlocks fps s = .ok bs ↔ SubtitleCoded fps s bs := by
  have hcum : cumulativeStatusEnumToFile .notCumulative = .ok 0 := by decide +kernel
  have hcom : commentEnumToFile .no = .ok 0 := by decide +kernel
  have hjust : ∀ r, ∃ v, justificationEnumToFile (hrefJustification r) = .ok v ∧ lowByte v = alignByte r := by
    intro r
    cases r
    · exact ⟨1, by decide +kernel, by decide +kernel⟩
    · exact ⟨2, by decide +kernel, by decide +kernel⟩
    · exact ⟨3, by decide +kernel, by decide +kernel⟩
  unfold ttiBlocks
  rw [hcum]
  constructor
  · intro h
    obtain ⟨rows, hrows, h⟩ := bind_eq_ok.1 h
    obtain ⟨text, htext, h⟩ := bind_eq_ok.1 h
    rw [ok_bind] at h
    obtain ⟨n, hn, h⟩ := bind_eq_ok.1 h
    obtain ⟨ff, hff, h⟩ := bind_eq_ok.1 h
    obtain ⟨tf, htf, h⟩ := bind_eq_ok.1 h
    obtain ⟨top, htop, h⟩ := bind_eq_ok.1 h
    have hr := (rows_iff _ _).1 hrows
    have hlen := forall₂_length hr
    have ht := (text_iff _ _ _ hlen).1 htext
    cases hl : s.lines with
    | nil => rw [hl] at h; cases h
    | cons first js =>
      rw [hl] at h
      simp only [] at h
      obtain ⟨v, hv, hv'⟩ := hjust first.hpos.ref
      rw [hv, ok_bind, hcom, ok_bind] at h
      have h := Except.ok.inj h
      have htop' : top ∈ rows ∧ ∀ r ∈ rows, top ≤ r := by
        cases hrs : rows with
        | nil => rw [hrs, hl] at hlen; cases hlen
        | cons q rs =>
          rw [hrs, writerTop] at htop
          refine (top_iff rs q top).1 ?_
          cases e : writerTop (some q) rs with
          | none => rw [e] at htop; cases htop
          | some w => rw [e] at htop; cases htop; rfl
      have := SubtitleCoded.mk (fps := fps) (s := s) first js rows top n text _ _ _ hl hr ht htop'.1 htop'.2 ((trunc_iff _ _).1 hn)
        ((timeCoded_iff s.from_ n _).2 ⟨ff, hff, rfl⟩) ((timeCoded_iff s.to_ n _).2 ⟨tf, htf, rfl⟩) ((cut_iff text.length 0 text _ (linesText_ne ht) (le_refl _)).1 rfl)
      rw [← h]
      rw [hv']
      simp only [byte_int] at this ⊢
      exact this
  · intro h
    cases h with
    | mk first js rows top n text from_ to_ cs hl hr ht h1 h2 hn hf ht' hc =>
    have hlen := forall₂_length hr
    obtain ⟨ff, hff, rfl⟩ := (timeCoded_iff _ _ _).1 hf
    obtain ⟨tf, htf, rfl⟩ := (timeCoded_iff _ _ _).1 ht'
    obtain ⟨v, hv, hv'⟩ := hjust first.hpos.ref
    have htop : writerTop none rows = some top := by
      cases rows with
      | nil => cases h1
      | cons q rs => rw [writerTop]; exact (top_iff rs q top).2 ⟨h1, h2⟩
    rw [(rows_iff _ _).2 hr, ok_bind, (text_iff _ _ _ hlen).2 ht, ok_bind, ok_bind, (trunc_iff _ _).2 hn, ok_bind]
    simp only []
    rw [hff, ok_bind, htf, ok_bind, htop, show optGet (some top) = .ok top from rfl, ok_bind, hl]
    simp only []
    rw [hv, ok_bind, hcom, ok_bind, (cut_iff text.length 0 text cs (linesText_ne ht) (le_refl _)).2 hc, hv', ← byte_int]
    rfl

/-- C123: the blocks for subtitles, exactly. -/
theorem C123_subtitles (fps : ℚ) : ∀ (ss : List Subtitle) (bs : List Str), makeTtiBlocks fps ss = .ok bs ↔ SubtitlesCoded fps ss bs := by
  intro ss
  unfold SubtitlesCoded
  induction ss with
  | nil =>
    intro bs
    constructor
    · intro h; cases h; exact ⟨[], .nil, rfl⟩
    · rintro ⟨bss, h, rfl⟩; cases h; rfl
  | cons s ss ih =>
    intro bs
    rw [makeTtiBlocks]
    constructor
    · intro h
      obtain ⟨a, ha, h⟩ := bind_eq_ok.1 h
      obtain ⟨b, hb, h⟩ := bind_eq_ok.1 h
      cases h
      obtain ⟨bss, h1, rfl⟩ := (ih b).1 hb
      exact ⟨a :: bss, .cons ((C123_subtitle _ _ _).1 ha) h1, rfl⟩
    · rintro ⟨bss, h, rfl⟩
      cases h with
      | @cons _ a _ bss h1 h2 =>
      rw [(C123_subtitle _ _ _).2 h1, ok_bind, (ih _).2 ⟨bss, h2, rfl⟩, ok_bind]
      rfl

/-- C123: what is written, exactly, for whatever arguments: the header for those arguments, zeros up to 1024 bytes, and
the blocks.  There is a file if and only if there are such blocks and the arguments are acceptable. -/
theorem C123_exact (l : Locale) (hl : SaneLocale l) (ht : l.thousandsSep.head? ≠ some 45) (a : StlArgs) (file : Str)
    (hc : ∀ bs, SubtitlesCoded a.fps a.subtitles bs → a.Counts bs) :
    writeStlIn l a = .ok file ↔ a.Valid ∧ ∃ bs, SubtitlesCoded a.fps a.subtitles bs ∧
      file = ((gsiSpec a bs.length).map (·.2.2)).flatten ++ List.replicate 651 0 ++ bs.flatten := by
  constructor
  · intro h
    have hv : a.Valid := by
      by_contra hv
      rw [C55_refuses l a hv] at h
      cases h
    refine ⟨hv, ?_⟩
    have h' := h
    unfold writeStlIn at h'
    obtain ⟨_, _, h'⟩ := bind_eq_ok.1 h'
    obtain ⟨bs, hbs, _⟩ := bind_eq_ok.1 h'
    have hs := (C123_subtitles _ _ _).1 hbs
    have := (C55_layout l hl ht a bs hv hbs (hc bs hs)).1
    rw [h] at this
    exact ⟨bs, hs, Except.ok.inj this⟩
  · rintro ⟨hv, bs, hs, rfl⟩
    exact (C55_layout l hl ht a bs hv ((C123_subtitles _ _ _).2 hs) (hc bs hs)).1

/-- C123: arguments determine the file. -/
theorem C123_unique (fps : ℚ) (ss : List Subtitle) (bs bs' : List Str) (h : SubtitlesCoded fps ss bs) (h' : SubtitlesCoded fps ss bs') : bs = bs' := by
  have := ((C123_subtitles fps ss bs).2 h).symm.trans ((C123_subtitles fps ss bs').2 h')
  exact Except.ok.inj this

/-- Two lines, one below the other, with italics that go on from the first into the second. -/
private def twoRows : Subtitle :=
  { from_ := ⟨3723, 12, some ⟨25, 1⟩⟩, to_ := ⟨3725, 500, some ⟨1000, 1⟩⟩,
    lines := [{ vpos := { prop := some (1 / 2), ref := some .topOfScreen }, hpos := ⟨.right, 0⟩, blocks := [{ text := b!"A" }, { text := b!"B", italic := true }] },
      { vpos := { line := some 20, lines := some 24, ref := some .topOfScreen }, blocks := [{ text := b!"\u00e9", italic := true }] }] }

example : SubtitleCoded 25 twoRows [[1, 0, 0, 0xff, 0, 1, 2, 3, 12, 1, 2, 5, 12, 12, 3, 0, 0x41, 0x80, 0x42] ++
    List.replicate 7 0x8a ++ [0xc2, 0x65, 0x81, 0x8f] ++ List.replicate 98 0x8f] := (C123_subtitle _ _ _).1 (by decide +kernel)

example : ∀ bs, SubtitlesCoded stlDemo.fps stlDemo.subtitles bs → stlDemo.Counts bs := by
  intro bs h
  have := stlDemo_blocks
  rw [(C123_subtitles _ _ _).2 h] at this
  have hl : bs.length = 2 := Option.some.inj this
  exact ⟨by decide, by rw [hl]; decide, by decide, by decide⟩

example : ∃ bs, SubtitlesCoded stlDemo.fps stlDemo.subtitles bs := by
  have := stlDemo_blocks
  cases h : makeTtiBlocks stlDemo.fps stlDemo.subtitles with
  | error e => rw [h] at this; cases this
  | ok bs => exact ⟨bs, (C123_subtitles _ _ _).1 h⟩

end LibSub
