/-
Property C97: decoding and encoding agree with the code table of ISO 6937.
-/
import Verif.Props.Iso6937

namespace LibSub

/-! ### Specification: the code table of the standard

The tables below were not taken from the code: they are the code table of ISO 6937 as known to GNU libc (`iconv -f ISO_6937`),
with these additions.  A4 is the dollar sign (the 1983 edition; not assigned in glibc).  D0 may be read as EM DASH (glibc) or
HORIZONTAL BAR, and E2, the letter D with a stroke, as U+00D0 (glibc) or U+0110.  The letter g with an acute or cedilla (C2 67, CB 67), about
which the editions differ, is left out. -/

/-- Columns A, B and D to F. -/
def latinHigh : List (Byte × Char) := [
  (0xA0, '\u00A0'), (0xA1, '¡'), (0xA2, '¢'), (0xA3, '£'), (0xA4, '$'), (0xA5, '¥'), (0xA7, '§'), (0xA8, '¤'), (0xA9, '‘'), (0xAA, '“'), (0xAB, '«'), (0xAC, '←'),
  (0xAD, '↑'), (0xAE, '→'), (0xAF, '↓'), (0xB0, '°'), (0xB1, '±'), (0xB2, '²'), (0xB3, '³'), (0xB4, '×'), (0xB5, 'µ'), (0xB6, '¶'), (0xB7, '·'), (0xB8, '÷'),
  (0xB9, '’'), (0xBA, '”'), (0xBB, '»'), (0xBC, '¼'), (0xBD, '½'), (0xBE, '¾'), (0xBF, '¿'), (0xD0, '—'), (0xD0, '―'), (0xD1, '¹'), (0xD2, '®'), (0xD3, '©'),
  (0xD4, '™'), (0xD5, '♪'), (0xD6, '¬'), (0xD7, '¦'), (0xDC, '⅛'), (0xDD, '⅜'), (0xDE, '⅝'), (0xDF, '⅞'), (0xE0, 'Ω'), (0xE1, 'Æ'), (0xE2, 'Ð'), (0xE2, 'Đ'),
  (0xE3, 'ª'), (0xE4, 'Ħ'), (0xE6, 'Ĳ'), (0xE7, 'Ŀ'), (0xE8, 'Ł'), (0xE9, 'Ø'), (0xEA, 'Œ'), (0xEB, 'º'), (0xEC, 'Þ'), (0xED, 'Ŧ'), (0xEE, 'Ŋ'), (0xEF, 'ŉ'),
  (0xF0, 'ĸ'), (0xF1, 'æ'), (0xF2, 'đ'), (0xF3, 'ð'), (0xF4, 'ħ'), (0xF5, 'ı'), (0xF6, 'ĳ'), (0xF7, 'ŀ'), (0xF8, 'ł'), (0xF9, 'ø'), (0xFA, 'œ'), (0xFB, 'ß'),
  (0xFC, 'þ'), (0xFD, 'ŧ'), (0xFE, 'ŋ'), (0xFF, '\u00AD')]

/-- Two bytes: an accent (column C) and a letter; an accent and a space is the accent by itself. -/
def latinAccents : List (Byte × List (Char × Char)) := [
  (0xC1, [('A', 'À'), ('E', 'È'), ('I', 'Ì'), ('O', 'Ò'), ('U', 'Ù'), ('a', 'à'), ('e', 'è'), ('i', 'ì'), ('o', 'ò'), ('u', 'ù')]),
  (0xC2, [(' ', '´'), ('A', 'Á'), ('C', 'Ć'), ('E', 'É'), ('I', 'Í'), ('L', 'Ĺ'), ('N', 'Ń'), ('O', 'Ó'), ('R', 'Ŕ'), ('S', 'Ś'),
    ('U', 'Ú'), ('Y', 'Ý'), ('Z', 'Ź'), ('a', 'á'), ('c', 'ć'), ('e', 'é'), ('i', 'í'), ('l', 'ĺ'), ('n', 'ń'), ('o', 'ó'),
    ('r', 'ŕ'), ('s', 'ś'), ('u', 'ú'), ('y', 'ý'), ('z', 'ź')]),
  (0xC3, [('A', 'Â'), ('C', 'Ĉ'), ('E', 'Ê'), ('G', 'Ĝ'), ('H', 'Ĥ'), ('I', 'Î'), ('J', 'Ĵ'), ('O', 'Ô'), ('S', 'Ŝ'), ('U', 'Û'),
    ('W', 'Ŵ'), ('Y', 'Ŷ'), ('a', 'â'), ('c', 'ĉ'), ('e', 'ê'), ('g', 'ĝ'), ('h', 'ĥ'), ('i', 'î'), ('j', 'ĵ'), ('o', 'ô'),
    ('s', 'ŝ'), ('u', 'û'), ('w', 'ŵ'), ('y', 'ŷ')]),
  (0xC4, [('A', 'Ã'), ('I', 'Ĩ'), ('N', 'Ñ'), ('O', 'Õ'), ('U', 'Ũ'), ('a', 'ã'), ('i', 'ĩ'), ('n', 'ñ'), ('o', 'õ'), ('u', 'ũ')]),
  (0xC5, [(' ', '¯'), ('A', 'Ā'), ('E', 'Ē'), ('I', 'Ī'), ('O', 'Ō'), ('U', 'Ū'), ('a', 'ā'), ('e', 'ē'), ('i', 'ī'), ('o', 'ō'),
    ('u', 'ū')]),
  (0xC6, [(' ', '˘'), ('A', 'Ă'), ('G', 'Ğ'), ('U', 'Ŭ'), ('a', 'ă'), ('g', 'ğ'), ('u', 'ŭ')]),
  (0xC7, [(' ', '˙'), ('C', 'Ċ'), ('E', 'Ė'), ('G', 'Ġ'), ('I', 'İ'), ('Z', 'Ż'), ('c', 'ċ'), ('e', 'ė'), ('g', 'ġ'), ('z', 'ż')]),
  (0xC8, [(' ', '¨'), ('A', 'Ä'), ('E', 'Ë'), ('I', 'Ï'), ('O', 'Ö'), ('U', 'Ü'), ('Y', 'Ÿ'), ('a', 'ä'), ('e', 'ë'), ('i', 'ï'),
    ('o', 'ö'), ('u', 'ü'), ('y', 'ÿ')]),
  (0xCA, [(' ', '˚'), ('A', 'Å'), ('U', 'Ů'), ('a', 'å'), ('u', 'ů')]),
  (0xCB, [(' ', '¸'), ('C', 'Ç'), ('G', 'Ģ'), ('K', 'Ķ'), ('L', 'Ļ'), ('N', 'Ņ'), ('R', 'Ŗ'), ('S', 'Ş'), ('T', 'Ţ'), ('c', 'ç'),
    ('k', 'ķ'), ('l', 'ļ'), ('n', 'ņ'), ('r', 'ŗ'), ('s', 'ş'), ('t', 'ţ')]),
  (0xCD, [(' ', '˝'), ('O', 'Ő'), ('U', 'Ű'), ('o', 'ő'), ('u', 'ű')]),
  (0xCE, [(' ', '˛'), ('A', 'Ą'), ('E', 'Ę'), ('I', 'Į'), ('U', 'Ų'), ('a', 'ą'), ('e', 'ę'), ('i', 'į'), ('u', 'ų')]),
  (0xCF, [(' ', 'ˇ'), ('C', 'Č'), ('D', 'Ď'), ('E', 'Ě'), ('L', 'Ľ'), ('N', 'Ň'), ('R', 'Ř'), ('S', 'Š'), ('T', 'Ť'), ('Z', 'Ž'),
    ('c', 'č'), ('d', 'ď'), ('e', 'ě'), ('l', 'ľ'), ('n', 'ň'), ('r', 'ř'), ('s', 'š'), ('t', 'ť'), ('z', 'ž')])]

/-- The byte `b` is the character `c`: ASCII, or the table. -/
def LatinMain (b : Byte) (c : WChar) : Prop := (32 ≤ b ∧ b ≤ 126 ∧ c = b.toNat) ∨ ∃ ch, (b, ch) ∈ latinHigh ∧ c = ch.toNat

/-- The bytes `d` and `b` are the character `c`. -/
def LatinAccent (d b : Byte) (c : WChar) : Prop := ∃ row base ch, (d, row) ∈ latinAccents ∧ (base, ch) ∈ row ∧ b.toNat = base.toNat ∧ c = ch.toNat

/-- Text in ISO 6937, and what it says. -/
inductive Latin : Str → List WChar → Prop where
  | nil : Latin [] []
  | main {b c s w} : LatinMain b c → Latin s w → Latin (b :: s) (c :: w)
  | accent {d b c s w} : LatinAccent d b c → Latin s w → Latin (d :: b :: s) (c :: w)

/-- A character of the standard. -/
def LatinChar (c : WChar) : Prop := (∃ b, LatinMain b c) ∨ ∃ d b, LatinAccent d b c

/-- The accents. -/
def IsAccent (d : Byte) : Prop := d ∈ latinAccents.map (·.1)

/-! ### The tables agree -/

private theorem ascii_ok : ∀ b : Byte, 32 ≤ b → b ≤ 126 → b ≠ 0 ∧ ¬ Diacritic b ∧ mainChar b = b.toNat :=
  forall_byte (p := fun b => 32 ≤ b → b ≤ 126 → b ≠ 0 ∧ ¬ Diacritic b ∧ mainChar b = b.toNat) (by decide +kernel)

private theorem high_ok : ∀ p ∈ latinHigh, p.1 ≠ 0xA0 →
    p.1 ≠ 0 ∧ ¬ Diacritic p.1 ∧ ∃ q ∈ latinHigh, q.1 = p.1 ∧ mainChar p.1 = q.2.toNat := by decide +kernel

private theorem accent_ok : ∀ p ∈ latinAccents, ∀ q ∈ p.2, q.1.toNat ≠ 32 →
    Diacritic p.1 ∧ UInt8.ofNat q.1.toNat ≠ 0 ∧ ¬ Diacritic (UInt8.ofNat q.1.toNat) ∧ accented p.1 (UInt8.ofNat q.1.toNat) = some q.2.toNat := by
  decide +kernel

/-! ### C97 -/

/-- C97 in full: text in ISO 6937 is decoded to what it says (where the standard leaves a choice, to one of the readings), whatever was
converted before. -/
def C97_statement : Prop := ∀ (t : IsoTables) (s : Str) (w : List WChar), IsoReach t → Latin s w → ∃ t' w', isoDecodeSt t s = .ok (t', w') ∧ Latin s w'

private theorem latin_text {s w} (h : Latin s w) (h1 : (0xA0 : Byte) ∉ s) (h2 : ∀ d, IsAccent d → ¬ [d, 32] <:+: s) : ∃ w', IsoText s w' ∧ Latin s w' := by
  induction h with
  | nil => exact ⟨[], .nil, .nil⟩
  | @main b c s w hm hs ih =>
    obtain ⟨w', i1, i2⟩ := ih (fun h => h1 (by simp [h])) (fun d hd h => h2 d hd (h.trans (List.suffix_cons _ _).isInfix))
    rcases hm with ⟨ha, hb, rfl⟩ | ⟨ch, hm, rfl⟩
    · obtain ⟨k1, k2, k3⟩ := ascii_ok b ha hb
      exact ⟨_, .char k1 k2 i1, .main (.inl ⟨ha, hb, k3⟩) i2⟩
    · obtain ⟨k1, k2, q, hq, e, k3⟩ := high_ok (b, ch) hm (fun e => h1 (by simp [← e]))
      exact ⟨_, .char k1 k2 i1, .main (.inr ⟨q.2, by rw [← show q.1 = b from e]; exact hq, k3⟩) i2⟩
  | @accent d b c s w hm hs ih =>
    obtain ⟨w', i1, i2⟩ := ih (fun h => h1 (by simp [h]))
      (fun d' hd h => h2 d' hd (h.trans ((List.suffix_cons _ _).trans (List.suffix_cons _ _)).isInfix))
    have hm' := hm
    obtain ⟨row, base, ch, hr, hc, e, rfl⟩ := hm
    have eb : UInt8.ofNat base.toNat = b := by rw [← e]; simp
    have h32 : base.toNat ≠ 32 := by
      intro e'
      have : b = 32 := by rw [← eb, e']; rfl
      subst this
      exact h2 d (List.mem_map.2 ⟨_, hr, rfl⟩) ⟨[], s, rfl⟩
    obtain ⟨k1, k2, k3, k4⟩ := accent_ok _ hr _ hc h32
    simp only [eb] at k2 k3 k4
    exact ⟨_, .accent k1 k2 k3 k4 i1, .accent hm' i2⟩

/-- C97, the part that holds: text without no-break spaces and without accents standing by themselves. -/
theorem C97_decode_partial (t : IsoTables) (s : Str) (w : List WChar) (ht : IsoReach t) (h : Latin s w) (h1 : (0xA0 : Byte) ∉ s)
    (h2 : ∀ d, IsAccent d → ¬ [d, 32] <:+: s) : ∃ t' w', isoDecodeSt t s = .ok (t', w') ∧ Latin s w' := by
  obtain ⟨w', i1, i2⟩ := latin_text h h1 h2
  obtain ⟨t', e⟩ := C53_value ht i1
  exact ⟨t', w', e, i2⟩

/-- `Größe: £“Þór”—™` -/
example : Latin [0x47, 0x72, 0xC8, 0x6F, 0xFB, 0x65, 0x3A, 0x20, 0xA3, 0xAA, 0xEC, 0xC2, 0x6F, 0x72, 0xBA, 0xD0, 0xD4]
    [0x47, 0x72, 0xF6, 0xDF, 0x65, 0x3A, 0x20, 0xA3, 0x201C, 0xDE, 0xF3, 0x72, 0x201D, 0x2014, 0x2122] := by
  refine .main (.inl (by decide)) (.main (.inl (by decide)) (.accent ⟨_, 'o', 'ö', List.mem_of_getElem (i := 7) (h := by decide) rfl, by decide, rfl, rfl⟩
    (.main (.inr ⟨'ß', by decide, rfl⟩) (.main (.inl (by decide)) (.main (.inl (by decide)) (.main (.inl (by decide)) (.main (.inr ⟨'£', by decide, rfl⟩)
    (.main (.inr ⟨'“', by decide, rfl⟩) (.main (.inr ⟨'Þ', by decide, rfl⟩) (.accent ⟨_, 'o', 'ó', List.mem_of_getElem (i := 1) (h := by decide) rfl, by decide, rfl, rfl⟩
    (.main (.inl (by decide)) (.main (.inr ⟨'”', by decide, rfl⟩) (.main (.inr ⟨'—', by decide, rfl⟩) (.main (.inr ⟨'™', by decide, rfl⟩) .nil))))))))))))))

example : (0xA0 : Byte) ∉ [0x47, 0x72, 0xC8, 0x6F, 0xFB, 0x65, 0x3A, 0x20, 0xA3] ∧ ∀ d, IsAccent d → ¬ [d, 32] <:+: [0x47, 0x72, 0xC8, 0x6F, 0xFB, 0x65, 0x3A, 0x20, 0xA3] :=
  ⟨by decide, fun d hd => (by decide +kernel : ∀ d ∈ latinAccents.map (·.1), ¬ [d, 32] <:+: [0x47, 0x72, 0xC8, 0x6F, 0xFB, 0x65, 0x3A, 0x20, 0xA3]) d hd⟩

/-- It is decoded, with the bar for D0. -/
example : isoDecode [0x47, 0x72, 0xC8, 0x6F, 0xFB, 0x65, 0x3A, 0x20, 0xA3, 0xAA, 0xEC, 0xC2, 0x6F, 0x72, 0xBA, 0xD0, 0xD4] =
    .ok [0x47, 0x72, 0xF6, 0xDF, 0x65, 0x3A, 0x20, 0xA3, 0x201C, 0xDE, 0xF3, 0x72, 0x201D, 0x2015, 0x2122] := by decide +kernel

/-- The no-break space and the accents by themselves are decoded to U+0000, whatever was converted before. -/
theorem C97_lost_witness (t : IsoTables) (ht : IsoReach t) :
    (∃ t', isoDecodeSt t [0xA0] = .ok (t', [0])) ∧ ∀ d c, LatinAccent d 32 c → ∃ t', isoDecodeSt t [d, 32] = .ok (t', [0]) := by
  refine ⟨C53_value ht (show IsoText [0xA0] [0] from .char (by decide) (by decide) .nil), ?_⟩
  rintro d c ⟨row, base, ch, hr, hc, e, rfl⟩
  have key : ∀ p ∈ latinAccents, Diacritic p.1 ∧ accented p.1 32 = some 0 := by decide +kernel
  obtain ⟨k1, k2⟩ := key _ hr
  exact C53_value ht (.accent k1 (by decide) (by decide) k2 .nil)

/-- C97 in full is false: a no-break space is decoded to U+0000. -/
theorem C97_false : ¬ C97_statement := by
  intro h
  have hl : Latin [0xA0] [0xA0] := .main (.inr ⟨'\u00A0', by decide, rfl⟩) .nil
  obtain ⟨t', w', e, hw⟩ := h {} [0xA0] [0xA0] .start hl
  obtain ⟨t2, e2⟩ := C53_value .start (show IsoText [0xA0] [0] from .char (by decide) (by decide) .nil)
  rw [e2] at e
  simp only [Except.ok.injEq, Prod.mk.injEq] at e
  obtain ⟨-, rfl⟩ := e
  cases hw with
  | main hm _ =>
    rcases hm with ⟨_, h, _⟩ | ⟨ch, hm, e⟩
    · exact absurd h (by decide)
    · have key : ∀ p ∈ latinHigh, p.2.toNat ≠ 0 := by decide +kernel
      exact key _ hm e.symm

/-! ### Encoding -/

/-- The characters of the standard for which there is no code in libsub: no-break space, the eth reading of E2, and
accents by themselves. -/
def latinLost : List WChar := ['\u00A0', 'Ð', '´', '¯', '˘', '˙', '¨', '˚', '¸', '˝', '˛', 'ˇ'].map Char.toNat

private def latinChars : List WChar :=
  (List.range' 32 95) ++ latinHigh.map (·.2.toNat) ++ latinAccents.flatMap (fun p => p.2.map (·.2.toNat))

private def stdUnit (c : WChar) : Bool :=
  match isoEncodeCharSt isoMade c with
  | .ok [b] => (decide (32 ≤ b ∧ b ≤ 126) && c == b.toNat) || latinHigh.any (fun p => p.1 == b && c == p.2.toNat)
  | .ok [d, b] => latinAccents.any (fun p => p.1 == d && p.2.any (fun q => b.toNat == q.1.toNat && c == q.2.toNat))
  | _ => false

private theorem stdUnit_all : ∀ c ∈ latinChars, c ∈ latinLost ∨ (c ≠ 0 ∧ stdUnit c = true) := by decide +kernel

private theorem latinChar_mem {c} (h : LatinChar c) : c ∈ latinChars := by
  unfold latinChars
  rcases h with ⟨b, ⟨h1, h2, rfl⟩ | ⟨ch, hm, rfl⟩⟩ | ⟨d, b, row, base, ch, hr, hc, e, rfl⟩
  · simp only [List.mem_append, List.mem_range']
    left; left
    have h1' : 32 ≤ b.toNat := UInt8.le_iff_toNat_le.1 h1
    have h2' : b.toNat ≤ 126 := UInt8.le_iff_toNat_le.1 h2
    exact ⟨b.toNat - 32, by omega, by omega⟩
  · exact List.mem_append_left _ (List.mem_append_right _ (List.mem_map.2 ⟨_, hm, rfl⟩))
  · exact List.mem_append_right _ (List.mem_flatMap.2 ⟨_, hr, List.mem_map.2 ⟨_, hc, rfl⟩⟩)

private theorem stdUnit_text {c} (h : stdUnit c = true) : ∃ o, isoEncodeCharSt isoMade c = .ok o ∧ ∀ s w, Latin s w → Latin (o ++ s) (c :: w) := by
  unfold stdUnit at h
  split at h
  · rename_i b hb
    refine ⟨_, hb, fun s w hs => .main ?_ hs⟩
    rcases Bool.or_eq_true _ _ ▸ h with h | h
    · simp only [Bool.and_eq_true, decide_eq_true_eq, beq_iff_eq] at h
      exact .inl ⟨h.1.1, h.1.2, h.2⟩
    · obtain ⟨p, hp, h⟩ := List.any_eq_true.mp h
      simp only [Bool.and_eq_true, beq_iff_eq] at h
      exact .inr ⟨p.2, by rw [← h.1]; exact hp, h.2⟩
  · rename_i d b hb
    refine ⟨_, hb, fun s w hs => .accent ?_ hs⟩
    obtain ⟨p, hp, h⟩ := List.any_eq_true.mp h
    simp only [Bool.and_eq_true, beq_iff_eq, List.any_eq_true] at h
    obtain ⟨h0, q, hq, h1, h2⟩ := h
    exact ⟨p.2, q.1, q.2, by rw [← h0]; exact hp, hq, h1, h2⟩
  · cases h

/-- C97: any text over the characters of the standard, except those listed above, is encoded as the standard says, whatever was
converted before. -/
theorem C97_encode (t : IsoTables) (ht : IsoReach t) (s : List WChar) (h : ∀ c ∈ s, LatinChar c ∧ c ∉ latinLost) :
    ∃ t' o, isoEncodeSt t s = .ok (t', o) ∧ Latin o s := by
  have key : ∃ o, isoEncode s = .ok o ∧ Latin o s := by
    induction s with
    | nil => exact ⟨[], rfl, .nil⟩
    | cons c s ih =>
      obtain ⟨b, hb, hl⟩ := ih (fun c hc => h c (by simp [hc]))
      obtain ⟨h1, h2⟩ := h c (by simp)
      obtain ⟨o, ho, hlo⟩ := stdUnit_text ((stdUnit_all c (latinChar_mem h1)).resolve_left h2).2
      exact ⟨o ++ b, by rw [isoEncode_cons, ho, hb]; rfl, hlo b s hl⟩
  have h0 : (0 : WChar) ∉ s := fun h' => by
    obtain ⟨h1, h2⟩ := h 0 h'
    exact ((stdUnit_all 0 (latinChar_mem h1)).resolve_left h2).1 rfl
  obtain ⟨o, ho, hl⟩ := key
  have := C54_encode ht h0
  rw [ho] at this
  cases he : isoEncodeSt t s with
  | error e => rw [he] at this; cases this
  | ok r =>
    rw [he] at this
    cases this
    exact ⟨_, _, rfl, hl⟩

/-- `Ķ`, `½`, `a` and `$` (as A4). -/
example : isoEncode [0x136, 0xBD, 0x61, 0x24] = .ok [0xCB, 0x4B, 0xBD, 0x61, 0xA4] := by decide +kernel

example : LatinChar 0x136 ∧ 0x136 ∉ latinLost :=
  ⟨.inr ⟨0xCB, 0x4B, _, 'K', 'Ķ', List.mem_of_getElem (i := 9) (h := by decide) rfl, by decide, rfl, rfl⟩, by decide⟩

/-- The characters listed are left out. -/
theorem C97_lost_encode_witness : ∀ c ∈ latinLost, (isoEncode [c]).toOption = some [] := by decide +kernel

end LibSub
