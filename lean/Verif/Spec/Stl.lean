/-
Specification used by the binary STL theorems: how a decoder walks through the text of a subtitle
(EBU Tech 3264).
-/
import Verif.Model.Subtitle

namespace LibSub

/-- Where and how the next character is shown: row below the first, colour, italic, underline. -/
structure Pen where
  row : Nat := 0
  colour : Colour := ⟨1, 1, 1⟩
  italic : Bool := false
  underline : Bool := false
  deriving DecidableEq, Repr

/-- The control codes that change the pen: 0…7 select a colour (bits: red, green, blue), 80…83 switch italic and
underline. -/
def Pen.code (p : Pen) (c : Byte) : Option Pen :=
  if c ≤ 7 then some { p with colour := ⟨(c.toNat % 2 : Nat), (c.toNat / 2 % 2 : Nat), (c.toNat / 4 : Nat)⟩ }
  else if c = 0x80 then some { p with italic := true }
  else if c = 0x81 then some { p with italic := false }
  else if c = 0x82 then some { p with underline := true }
  else if c = 0x83 then some { p with underline := false }
  else none

/-- The bytes shown, each with its pen.  8A starts a row, in white; 8F ends one (`ended`). -/
def play (p : Pen) (ended : Bool) : Str → List (Pen × Byte)
  | [] => []
  | c :: cs =>
    if c = 0x8a then play { p with row := p.row + 1, colour := ⟨1, 1, 1⟩ } false cs
    else if ended || c == 0x8f then play p true cs
    else
      match p.code c with
      | some p' => play p' false cs
      | none => (p, c) :: play p false cs

/-- The state after some bytes. -/
def playEnd (p : Pen) (ended : Bool) : Str → Pen × Bool
  | [] => (p, ended)
  | c :: cs =>
    if c = 0x8a then playEnd { p with row := p.row + 1, colour := ⟨1, 1, 1⟩ } false cs
    else if ended || c == 0x8f then playEnd p true cs
    else
      match p.code c with
      | some p' => playEnd p' false cs
      | none => playEnd p false cs

/-- `on` and `off` alternate, beginning with `on` if the state is off, and end switched off. -/
def switched (on off : Byte) : Bool → Str → Bool
  | state, [] => !state
  | state, c :: cs =>
    if c = on then !state && switched on off true cs
    else if c = off then state && switched on off false cs
    else switched on off state cs

end LibSub
