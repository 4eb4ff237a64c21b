/-
src/colour.cc once more, with `%2x` as the scanf of glibc has it: there `0x` is the number 0 even if no digit can follow, where ISO C has a matching failure (Subtitle.lean).
-/
import Verif.Model.SubRip

namespace LibSub

/-- `sscanf (s, "%2x", &i)` in glibc, otherwise as `scanHex2`: after a zero the `x` is taken as a part of the prefix, and the number is what is left, the zero. -/
def scanHex2G (s : Str) : Option (Int × Str) :=
  match s.dropWhile isSpace with
  | 45 :: b :: rest => if isXDigit b then some (-(digitVal b : Int), rest) else none
  | 43 :: b :: rest => if isXDigit b then some ((digitVal b : Int), rest) else none
  | a :: b :: rest =>
    if isXDigit a then
      if isXDigit b then some ((16 * digitVal a + digitVal b : Nat), rest)
      else if a == 48 && (b == 120 || b == 88) then some (0, rest)
      else some ((digitVal a : Int), b :: rest)
    else none
  | [a] => if isXDigit a then some ((digitVal a : Int), []) else none
  | [] => none

/-- `Colour::from_rgba_hex` (src/colour.cc:29-38). -/
def fromRgbaHexG (s : Str) : R Colour :=
  match scanHex2G s with
  | none => .error (.xml b!"could not parse colour string")
  | some (r, s1) =>
    match scanHex2G s1 with
    | none => .error (.xml b!"could not parse colour string")
    | some (g, s2) =>
      match scanHex2G s2 with
      | none => .error (.xml b!"could not parse colour string")
      | some (b, s3) =>
        match scanHex2G s3 with
        | none => .error (.xml b!"could not parse colour string")
        | some _ => .ok ⟨comp255 r, comp255 g, comp255 b⟩

/-- `Colour::from_rgb_hex` (src/colour.cc:41-50). -/
def fromRgbHexG (s : Str) : R Colour :=
  match scanHex2G s with
  | none => .error (.xml b!"could not parse colour string")
  | some (r, s1) =>
    match scanHex2G s1 with
    | none => .error (.xml b!"could not parse colour string")
    | some (g, s2) =>
      match scanHex2G s2 with
      | none => .error (.xml b!"could not parse colour string")
      | some (b, _) => .ok ⟨comp255 r, comp255 g, comp255 b⟩

/-- The colour given by a `<font` tag (src/subrip_reader.cc:265-300). -/
def fontColourG (lineNumber : Nat) (ctx : List Str) (tag : Str) : R Colour :=
  match lastMatch fontHexAt tag with
  | some g =>
    if g.length = 6 then fromRgbHexG g
    else if g.length = 8 then fromRgbaHexG g
    else .error (.subrip lineNumber tag badColourText ctx)
  | none =>
    match lastMatch fontRgbaAt tag with
    | some (r, g, b) => do
      let r ← decComp r
      let g ← decComp g
      let b ← decComp b
      pure ⟨r, g, b⟩
    | none => .error (.subrip lineNumber tag badColourText ctx)

end LibSub
