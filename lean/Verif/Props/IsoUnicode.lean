/-
Property C78: the accented letters are those of Unicode.
-/
import Verif.Props.Iso6937

namespace LibSub

/-- Canonical compositions of the Unicode Character Database: a basic Latin letter, a combining mark, and the
precomposed character they are equivalent to; all those for the thirteen marks of ISO 6937.  (This table is
from Unicode, not from the repository.) -/
def unicodeComposed : List (WChar × WChar × WChar) := [
  (65, 0x0300, 0x00C0), (69, 0x0300, 0x00C8), (73, 0x0300, 0x00CC), (78, 0x0300, 0x01F8),
  (79, 0x0300, 0x00D2), (85, 0x0300, 0x00D9), (87, 0x0300, 0x1E80), (89, 0x0300, 0x1EF2),
  (97, 0x0300, 0x00E0), (101, 0x0300, 0x00E8), (105, 0x0300, 0x00EC), (110, 0x0300, 0x01F9),
  (111, 0x0300, 0x00F2), (117, 0x0300, 0x00F9), (119, 0x0300, 0x1E81), (121, 0x0300, 0x1EF3),
  (65, 0x0301, 0x00C1), (67, 0x0301, 0x0106), (69, 0x0301, 0x00C9), (71, 0x0301, 0x01F4),
  (73, 0x0301, 0x00CD), (75, 0x0301, 0x1E30), (76, 0x0301, 0x0139), (77, 0x0301, 0x1E3E),
  (78, 0x0301, 0x0143), (79, 0x0301, 0x00D3), (80, 0x0301, 0x1E54), (82, 0x0301, 0x0154),
  (83, 0x0301, 0x015A), (85, 0x0301, 0x00DA), (87, 0x0301, 0x1E82), (89, 0x0301, 0x00DD),
  (90, 0x0301, 0x0179), (97, 0x0301, 0x00E1), (99, 0x0301, 0x0107), (101, 0x0301, 0x00E9),
  (103, 0x0301, 0x01F5), (105, 0x0301, 0x00ED), (107, 0x0301, 0x1E31), (108, 0x0301, 0x013A),
  (109, 0x0301, 0x1E3F), (110, 0x0301, 0x0144), (111, 0x0301, 0x00F3), (112, 0x0301, 0x1E55),
  (114, 0x0301, 0x0155), (115, 0x0301, 0x015B), (117, 0x0301, 0x00FA), (119, 0x0301, 0x1E83),
  (121, 0x0301, 0x00FD), (122, 0x0301, 0x017A), (65, 0x0302, 0x00C2), (67, 0x0302, 0x0108),
  (69, 0x0302, 0x00CA), (71, 0x0302, 0x011C), (72, 0x0302, 0x0124), (73, 0x0302, 0x00CE),
  (74, 0x0302, 0x0134), (79, 0x0302, 0x00D4), (83, 0x0302, 0x015C), (85, 0x0302, 0x00DB),
  (87, 0x0302, 0x0174), (89, 0x0302, 0x0176), (90, 0x0302, 0x1E90), (97, 0x0302, 0x00E2),
  (99, 0x0302, 0x0109), (101, 0x0302, 0x00EA), (103, 0x0302, 0x011D), (104, 0x0302, 0x0125),
  (105, 0x0302, 0x00EE), (106, 0x0302, 0x0135), (111, 0x0302, 0x00F4), (115, 0x0302, 0x015D),
  (117, 0x0302, 0x00FB), (119, 0x0302, 0x0175), (121, 0x0302, 0x0177), (122, 0x0302, 0x1E91),
  (65, 0x0303, 0x00C3), (69, 0x0303, 0x1EBC), (73, 0x0303, 0x0128), (78, 0x0303, 0x00D1),
  (79, 0x0303, 0x00D5), (85, 0x0303, 0x0168), (86, 0x0303, 0x1E7C), (89, 0x0303, 0x1EF8),
  (97, 0x0303, 0x00E3), (101, 0x0303, 0x1EBD), (105, 0x0303, 0x0129), (110, 0x0303, 0x00F1),
  (111, 0x0303, 0x00F5), (117, 0x0303, 0x0169), (118, 0x0303, 0x1E7D), (121, 0x0303, 0x1EF9),
  (65, 0x0304, 0x0100), (69, 0x0304, 0x0112), (71, 0x0304, 0x1E20), (73, 0x0304, 0x012A),
  (79, 0x0304, 0x014C), (85, 0x0304, 0x016A), (89, 0x0304, 0x0232), (97, 0x0304, 0x0101),
  (101, 0x0304, 0x0113), (103, 0x0304, 0x1E21), (105, 0x0304, 0x012B), (111, 0x0304, 0x014D),
  (117, 0x0304, 0x016B), (121, 0x0304, 0x0233), (65, 0x0306, 0x0102), (69, 0x0306, 0x0114),
  (71, 0x0306, 0x011E), (73, 0x0306, 0x012C), (79, 0x0306, 0x014E), (85, 0x0306, 0x016C),
  (97, 0x0306, 0x0103), (101, 0x0306, 0x0115), (103, 0x0306, 0x011F), (105, 0x0306, 0x012D),
  (111, 0x0306, 0x014F), (117, 0x0306, 0x016D), (65, 0x0307, 0x0226), (66, 0x0307, 0x1E02),
  (67, 0x0307, 0x010A), (68, 0x0307, 0x1E0A), (69, 0x0307, 0x0116), (70, 0x0307, 0x1E1E),
  (71, 0x0307, 0x0120), (72, 0x0307, 0x1E22), (73, 0x0307, 0x0130), (77, 0x0307, 0x1E40),
  (78, 0x0307, 0x1E44), (79, 0x0307, 0x022E), (80, 0x0307, 0x1E56), (82, 0x0307, 0x1E58),
  (83, 0x0307, 0x1E60), (84, 0x0307, 0x1E6A), (87, 0x0307, 0x1E86), (88, 0x0307, 0x1E8A),
  (89, 0x0307, 0x1E8E), (90, 0x0307, 0x017B), (97, 0x0307, 0x0227), (98, 0x0307, 0x1E03),
  (99, 0x0307, 0x010B), (100, 0x0307, 0x1E0B), (101, 0x0307, 0x0117), (102, 0x0307, 0x1E1F),
  (103, 0x0307, 0x0121), (104, 0x0307, 0x1E23), (109, 0x0307, 0x1E41), (110, 0x0307, 0x1E45),
  (111, 0x0307, 0x022F), (112, 0x0307, 0x1E57), (114, 0x0307, 0x1E59), (115, 0x0307, 0x1E61),
  (116, 0x0307, 0x1E6B), (119, 0x0307, 0x1E87), (120, 0x0307, 0x1E8B), (121, 0x0307, 0x1E8F),
  (122, 0x0307, 0x017C), (65, 0x0308, 0x00C4), (69, 0x0308, 0x00CB), (72, 0x0308, 0x1E26),
  (73, 0x0308, 0x00CF), (79, 0x0308, 0x00D6), (85, 0x0308, 0x00DC), (87, 0x0308, 0x1E84),
  (88, 0x0308, 0x1E8C), (89, 0x0308, 0x0178), (97, 0x0308, 0x00E4), (101, 0x0308, 0x00EB),
  (104, 0x0308, 0x1E27), (105, 0x0308, 0x00EF), (111, 0x0308, 0x00F6), (116, 0x0308, 0x1E97),
  (117, 0x0308, 0x00FC), (119, 0x0308, 0x1E85), (120, 0x0308, 0x1E8D), (121, 0x0308, 0x00FF),
  (65, 0x030A, 0x00C5), (85, 0x030A, 0x016E), (97, 0x030A, 0x00E5), (117, 0x030A, 0x016F),
  (119, 0x030A, 0x1E98), (121, 0x030A, 0x1E99), (67, 0x0327, 0x00C7), (68, 0x0327, 0x1E10),
  (69, 0x0327, 0x0228), (71, 0x0327, 0x0122), (72, 0x0327, 0x1E28), (75, 0x0327, 0x0136),
  (76, 0x0327, 0x013B), (78, 0x0327, 0x0145), (82, 0x0327, 0x0156), (83, 0x0327, 0x015E),
  (84, 0x0327, 0x0162), (99, 0x0327, 0x00E7), (100, 0x0327, 0x1E11), (101, 0x0327, 0x0229),
  (103, 0x0327, 0x0123), (104, 0x0327, 0x1E29), (107, 0x0327, 0x0137), (108, 0x0327, 0x013C),
  (110, 0x0327, 0x0146), (114, 0x0327, 0x0157), (115, 0x0327, 0x015F), (116, 0x0327, 0x0163),
  (79, 0x030B, 0x0150), (85, 0x030B, 0x0170), (111, 0x030B, 0x0151), (117, 0x030B, 0x0171),
  (65, 0x0328, 0x0104), (69, 0x0328, 0x0118), (73, 0x0328, 0x012E), (79, 0x0328, 0x01EA),
  (85, 0x0328, 0x0172), (97, 0x0328, 0x0105), (101, 0x0328, 0x0119), (105, 0x0328, 0x012F),
  (111, 0x0328, 0x01EB), (117, 0x0328, 0x0173), (65, 0x030C, 0x01CD), (67, 0x030C, 0x010C),
  (68, 0x030C, 0x010E), (69, 0x030C, 0x011A), (71, 0x030C, 0x01E6), (72, 0x030C, 0x021E),
  (73, 0x030C, 0x01CF), (75, 0x030C, 0x01E8), (76, 0x030C, 0x013D), (78, 0x030C, 0x0147),
  (79, 0x030C, 0x01D1), (82, 0x030C, 0x0158), (83, 0x030C, 0x0160), (84, 0x030C, 0x0164),
  (85, 0x030C, 0x01D3), (90, 0x030C, 0x017D), (97, 0x030C, 0x01CE), (99, 0x030C, 0x010D),
  (100, 0x030C, 0x010F), (101, 0x030C, 0x011B), (103, 0x030C, 0x01E7), (104, 0x030C, 0x021F),
  (105, 0x030C, 0x01D0), (106, 0x030C, 0x01F0), (107, 0x030C, 0x01E9), (108, 0x030C, 0x013E),
  (110, 0x030C, 0x0148), (111, 0x030C, 0x01D2), (114, 0x030C, 0x0159), (115, 0x030C, 0x0161),
  (116, 0x030C, 0x0165), (117, 0x030C, 0x01D4), (122, 0x030C, 0x017E)]

/-- The marks of ISO 6937's diacritical column: grave, acute, circumflex, tilde, macron, breve, dot above,
diaeresis, ring above, cedilla, double acute, ogonek, caron. -/
def isoMark (d : Byte) : Option WChar :=
  ([(0xC1, 0x0300), (0xC2, 0x0301), (0xC3, 0x0302), (0xC4, 0x0303), (0xC5, 0x0304), (0xC6, 0x0306), (0xC7, 0x0307),
    (0xC8, 0x0308), (0xCA, 0x030A), (0xCB, 0x0327), (0xCD, 0x030B), (0xCE, 0x0328), (0xCF, 0x030C)] :
    List (Byte × WChar)).lookup d

private theorem table_ok : ∀ p ∈ isoDiacriticals, ∃ m ∈ isoMark p.1, ∀ q ∈ p.2, (q.1.toNat, m, q.2) ∈ unicodeComposed := by
  decide +kernel

private theorem lookup_mem {α : Type} (l : List (Byte × α)) (k : Byte) (v : α) (h : l.lookup k = some v) : (k, v) ∈ l := by
  induction l with
  | nil => cases h
  | cons p l ih =>
    obtain ⟨a, b⟩ := p
    rw [List.lookup_cons] at h
    split at h
    · rename_i e; cases h; rw [beq_iff_eq] at e; simp [e]
    · simp [ih h]

/-- C78: an accent and a letter decode to U+0000, or to the precomposed Unicode character of that letter with
that accent. -/
theorem C78_composed {t} (ht : IsoReach t) (d u : Byte) (hd : Diacritic d) (h0 : u ≠ 0) (hu : ¬ Diacritic u) (t') (w : List WChar)
    (h : isoDecodeSt t [d, u] = .ok (t', w)) :
    w = [0] ∨ ∃ m c, isoMark d = some m ∧ w = [c] ∧ (u.toNat, m, c) ∈ unicodeComposed := by
  cases hacc : accented d u with
  | none =>
    exfalso
    have hb : BadAccent [d, u] := by
      by_contra hb
      have := isoDecodeLoop_pure [d, u] _ ht.same none []
      have h1 : isoPure none [d, u] = .error (.ub .nullDeref) := by
        have e1 : isDiacritical d = true := (isDiacritical_iff d).mpr hd
        have e2 : d ≠ 0 := by rintro rfl; exact absurd hd (by decide)
        have e3 : isDiacritical u = false := by rw [← Bool.not_eq_true, isDiacritical_iff]; exact hu
        rw [isoPure_cons, if_neg e2, if_pos e1, isoPure_cons, if_neg h0, e3]
        simp [hacc]
      rw [h1] at this
      simp only at this
      rw [isoDecodeSt, this] at h
      cases h
    obtain ⟨e, he⟩ := (C53_ub_iff ht).1.mpr hb
    rw [he] at h
    cases h
  | some c =>
    obtain ⟨t2, h2⟩ := C53_value ht (.accent hd h0 hu hacc .nil)
    rw [h2] at h
    cases h
    unfold accented at hacc
    obtain ⟨l, hl, hc⟩ := Option.map_eq_some_iff.mp hacc
    cases hlu : l.lookup u with
    | none => rw [hlu] at hc; exact .inl (by rw [← hc]; rfl)
    | some v =>
      rw [hlu] at hc
      cases hc
      obtain ⟨m, hm, hq⟩ := table_ok _ (lookup_mem _ _ _ hl)
      exact .inr ⟨m, v, hm, rfl, hq _ (lookup_mem _ _ _ hlu)⟩

/-- `é` -/
example : ((isoDecodeSt {} [0xC2, 101]).toOption.map (·.2)) = some [0xE9] := by decide +kernel

/-- C78: the lone marks of the main table are the combining marks of the accents; but for CE it is U+032B
(inverted double arch below) instead of U+0328 (ogonek). -/
theorem C78_marks (d : Byte) (m : WChar) (h : isoMark d = some m) :
    mainChar d = if d = 0xCE then 0x032B else m := by
  have : ∀ d : Byte, ∀ m ∈ isoMark d, mainChar d = if d = 0xCE then 0x032B else m :=
    forall_byte (p := fun d => ∀ m ∈ isoMark d, mainChar d = if d = 0xCE then 0x032B else m) (by decide +kernel)
  exact this d m h

example : isoMark 0xC8 = some 0x0308 := by decide

end LibSub
