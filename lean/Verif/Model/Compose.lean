/-
src/compose.hpp (arguments already converted to strings by `locale_convert<string>`)
-/
import Verif.Model.Text

namespace LibSub

/-- An element of `output` with the specification, if any, that points at it, and the text inserted
directly after it (src/compose.hpp:62-76). -/
structure Piece where
  lit : Str
  spec : Option Int
  filled : Str := []
  deriving DecidableEq, Repr

/-- The `do … while` over the digits of a specification (src/compose.hpp:155-164): `int` arithmetic. -/
def specNumber (spec : Int) : Str → R Int
  | [] => cdiv spec 10
  | d :: ds => do
    let a ← ck (spec + digitVal d)
    let b ← ck (a * 10)
    specNumber b ds

/-- `Composition::Composition` (src/compose.hpp:138-183).  `acc` is `fmt.substr (b, i - b)` so far.
Every step consumes at least one character: `fmt.length` is enough fuel. -/
def composeParse : Nat → Str → Str → R (List Piece)
  | 0, acc, _ => .ok (if acc.isEmpty then [] else [⟨acc, none, []⟩])
  | _ + 1, acc, [] => .ok (if acc.isEmpty then [] else [⟨acc, none, []⟩])
  | fuel + 1, acc, c :: cs =>
    if c = 37 then
      match cs with
      | [] => composeParse fuel (acc ++ [c]) cs
      | d :: ds =>
        if d = 37 then composeParse fuel (acc ++ [37]) ds
        else if isDigit d then do
          let digits := takeDigits cs
          let n ← specNumber 0 digits
          let rest ← composeParse fuel [] (cs.drop digits.length)
          pure (⟨acc, some n, []⟩ :: rest)
        else composeParse fuel (acc ++ [c]) cs
    else composeParse fuel (acc ++ [c]) cs

/-- State of a `Composition`: `arg_no` and `output`. -/
structure Composition where
  argNo : Int := 1
  pieces : List Piece
  deriving DecidableEq, Repr

/-- `Composition::arg` (src/compose.hpp:118-136): nothing happens, not even counting the argument, if it
is empty.  `os` is always empty on entry. -/
def Composition.arg (c : Composition) (s : Str) : Composition :=
  if s.isEmpty then c
  else
    { argNo := c.argNo + 1
      pieces := c.pieces.map (fun p => if p.spec = some c.argNo then { p with filled := s ++ p.filled } else p) }

/-- `Composition::str` (src/compose.hpp:185-195). -/
def Composition.str (c : Composition) : Str := (c.pieces.map (fun p => p.lit ++ p.filled)).flatten

/-- `String::compose (fmt, o1, …, on)` (src/compose.hpp:204-388). -/
def composeStr (fmt : Str) (args : List Str) : R Str := do
  let ps ← composeParse (fmt.length + 1) [] fmt
  pure ((args.foldl Composition.arg { pieces := ps }).str)

end LibSub
