/-
Specification used by the ISO 6937 theorems: the character set and the meaning of a string of bytes, in
terms of the tables as written in src/iso6937_tables.cc.
-/
import Verif.Model.Iso6937

namespace LibSub

/-! ### Specification of the character set -/

/-- A byte of the diacritical column. -/
def Diacritic (u : Byte) : Prop := 0xc1 ≤ u ∧ u ≤ 0xcf

instance (u : Byte) : Decidable (Diacritic u) := inferInstanceAs (Decidable (_ ∧ _))

/-- The character at `k` in a table as written in the source. -/
def tableValue (l : List (Byte × WChar)) (k : Byte) (c : WChar) : Prop := (k, c) ∈ l

/-- A character of the set: in the main table outside the diacritical column, or an accented letter. -/
def Representable (c : WChar) : Prop :=
  (∃ k, (k, c) ∈ isoMain ∧ ¬ Diacritic k) ∨ (∃ d l k, (d, l) ∈ isoDiacriticals ∧ (k, c) ∈ l)

/-- The calls a process can make to the two conversions, from the state in which the tables have not
been made. -/
inductive IsoReach : IsoTables → Prop where
  | start : IsoReach {}
  | decode {t t' s o} : IsoReach t → isoDecodeSt t s = .ok (t', o) → IsoReach t'
  | encode {t t' s o} : IsoReach t → isoEncodeSt t s = .ok (t', o) → IsoReach t'

/-! ### What a string of bytes means -/

/-- The character of a byte outside the diacritical column; U+0000 if the table has none. -/
def mainChar (u : Byte) : WChar := (isoMain.lookup u).getD 0

/-- The character of a letter after a diacritical byte: U+0000 if that letter has no such accent, nothing
if there is no table for the byte. -/
def accented (d u : Byte) : Option WChar := (isoDiacriticals.lookup d).map (fun l => (l.lookup u).getD 0)

/-- The characters denoted by a string of bytes: a diacritical byte applies to the next byte that is not one;
of several in a row the last counts; a NUL ends the string. -/
inductive IsoText : Str → List WChar → Prop where
  | nil : IsoText [] []
  | nul (rest) : IsoText (0 :: rest) []
  | char {u rest w} : u ≠ 0 → ¬ Diacritic u → IsoText rest w → IsoText (u :: rest) (mainChar u :: w)
  | accent {d u c rest w} : Diacritic d → u ≠ 0 → ¬ Diacritic u → accented d u = some c → IsoText rest w →
      IsoText (d :: u :: rest) (c :: w)
  | again {d d' rest w} : Diacritic d → Diacritic d' → IsoText (d' :: rest) w → IsoText (d :: d' :: rest) w
  | lone {d} : Diacritic d → IsoText [d] []
  | loneNul {d} (rest) : Diacritic d → IsoText (d :: 0 :: rest) []

end LibSub
