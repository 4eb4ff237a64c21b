/-
src/exceptions.cc and src/exceptions.h: the texts of exceptions.
-/
import Verif.Model.Compose

namespace LibSub

/-- What is left of a string that goes through a `char const *`. -/
def cString (s : Str) : Str := s.takeWhile (· != 0)

/-- The text of a `SubripError` (src/exceptions.cc:34-41).  `line_number` is an `int` written with `%d`
(src/locale_convert.h:40-46). -/
def subripWhat (line : Nat) (saw expecting : Str) : R Str := do
  let s ← composeStr b!"Error in SubRip file line %1: saw %2 when expecting %3" [natDec line, if saw.isEmpty then b!"an empty string" else saw, expecting]
  pure (cString s)

/-- The text of a `WebVTTError` with three arguments (src/exceptions.cc:44-50). -/
def webvttWhat (saw expecting : Str) : Str :=
  cString (b!"Error in WebVTT file: saw " ++ (if saw.isEmpty then b!"an empty string" else saw) ++ b!" when expecting " ++ expecting)

/-- The text of a `ProgrammingError` (src/exceptions.cc:27-31). -/
def programmingWhat (file : Str) (line : Nat) : R Str := do
  let s ← composeStr b!"Programming error at %1:%2" [file, natDec line]
  pure (cString s)

/-- `what ()` of an exception of the library (src/exceptions.h).  Of a `ProgrammingError` the model does not keep
where it was raised; `bad_lexical_cast` is not an exception of the library. -/
def Err.what : Err → R (Option Str)
  | .xml m => .ok (some (cString m))
  | .stl m => .ok (some (cString m))
  | .subrip n saw ex _ => do
    let s ← subripWhat n saw ex
    pure (some s)
  | .webvttHeader => .ok (some b!"No WEBVTT header found")
  | .webvtt saw ex _ => .ok (some (webvttWhat saw ex))
  | .ssa m => .ok (some (cString m))
  | .unknownFrameRate => .ok (some b!"unknown frame rate")
  | _ => .ok none

end LibSub
