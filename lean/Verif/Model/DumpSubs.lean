/-
tools/dumpsubs.cc, and `ostream << float` as `sub::dump` uses it.
-/
import Verif.Model.Dump

namespace LibSub

/-! ### `ostream << float` -/

/-- `10^e` for an integer exponent. -/
def pow10 (e : Int) : Rat :=
  if 0 ≤ e then ((10 ^ e.toNat : Nat) : Rat) else 1 / ((10 ^ (-e).toNat : Nat) : Rat)

/-- `⌊log₁₀ v⌋` for `v > 0`: from the number of digits of `⌊v⌋`, or of `⌈1/v⌉ - 1`. -/
def ilog10 (v : Rat) : Int :=
  if 1 ≤ v then ((natDec v.floor.toNat).length : Int) - 1
  else -((natDec ((1 / v).ceil.toNat - 1)).length : Int)

/-- A fraction after the decimal point, without the zeros at its end, and without point if nothing is left. -/
def trimFraction (ds : Str) : Str :=
  match (ds.reverse.dropWhile (· == 48)).reverse with
  | [] => []
  | f => b!"." ++ f

/-- `printf ("%.6g")` of a positive number with six digits `m` (100000 to 999999) and exponent `e`, standing for `m * 10^(e-5)`:
without exponent for -4 ≤ e < 6. -/
def showSix (m : Nat) (e : Int) : Str :=
  let ds := natDec m
  if 0 ≤ e ∧ e < 6 then ds.take (e.toNat + 1) ++ trimFraction (ds.drop (e.toNat + 1))
  else if -4 ≤ e ∧ e < 0 then b!"0" ++ trimFraction (List.replicate ((-e).toNat - 1) 48 ++ ds)
  else ds.take 1 ++ trimFraction (ds.drop 1) ++ b!"e" ++ (if e < 0 then b!"-" else b!"+") ++ setwPad 2 e.natAbs

/-- `os << f` for a `float` on a stream with default formatting in the "C" locale (src/util.cc:117): `printf ("%g")`, that is six significant
digits, rounded to nearest (the exact value, ties to even), without zeros at the end of the fraction.  No infinities, NaN or negative zero. -/
def showFloat (x : Rat) : Str :=
  if x = 0 then b!"0"
  else
    let v := absR x
    let e := ilog10 v
    let m := (rint (v * pow10 (5 - e))).toNat
    (if x < 0 then b!"-" else []) ++ (if m = 1000000 then showSix 100000 (e + 1) else showSix m e)

/-! ### tools/dumpsubs.cc -/

/-- What a path leads to: nothing, something that cannot be opened, or a file. -/
inductive Entry where
  | missing
  | unreadable
  | file (contents : Str)

/-- How `dumpsubs` ends.  Its own messages go to standard error, the dump goes to standard output, and before it what the reader prints. -/
inductive Exit where
  /-- `-h`: the syntax, exit code 0 (tools/dumpsubs.cc:57-59) -/
  | help
  /-- not one file name: the syntax, exit code 1 (tools/dumpsubs.cc:63-66) -/
  | usage
  /-- no such file: exit code 1 (tools/dumpsubs.cc:68-71) -/
  | notFound (path : Str)
  /-- no reader for it: exit code 1 (tools/dumpsubs.cc:73-77) -/
  | noReader (path : Str)
  /-- standard output, exit code 0 (tools/dumpsubs.cc:79-81) -/
  | done (out : Str)
  /-- an exception that nobody catches, or undefined behaviour, after `out` has been written to `cout` -/
  | failed (e : Err) (out : Str)

/-- `getopt_long` with the option `-h`/`--help` (tools/dumpsubs.cc:45-61), glibc without `POSIXLY_CORRECT`: options may be anywhere before `--`,
`--help` may be abbreviated, `--help=x` and unknown options are complained about and passed over.
`none` if there is a request for help, else the other arguments. -/
def dumpsubsArgs : List Str → Option (List Str)
  | [] => some []
  | a :: as =>
    if a = b!"--" then some as
    else if startsWith a b!"--" then
      if startsWith b!"help" (a.drop 2) then none else dumpsubsArgs as
    else if startsWith a b!"-" && a != b!"-" then
      if a.contains 104 then none else dumpsubsArgs as
    else (dumpsubsArgs as).map (a :: ·)

/-- `Reader::metadata` of the reader that `reader_factory` has found (src/reader.h:44-46, src/stl_binary_reader.h). -/
def FactoryResult.metadata : FactoryResult → List (Str × Str)
  | .stlBinary info _ => stlMetadataSorted info
  | _ => []

/-- The subtitles of the reader. -/
def FactoryResult.subs : FactoryResult → List Raw
  | .none => []
  | .stlBinary _ s => s
  | .stlText s => s
  | .subrip s => s

/-- What `reader_factory` prints: only `STLTextReader` prints anything (src/reader.cc:28-33). -/
def factoryPrinted (path : Str) (contents : Option Str) : Str :=
  if toLower (extension path) = b!".stl" then
    match contents with
    | none => []
    | some s => if 11 ≤ s.length ∧ (s.drop 3).take 3 ≠ b!"STL" then stlTextPrinted s else []
  else []

/-- What can be read of a file. -/
def Entry.contents : Entry → Option Str
  | .file s => some s
  | _ => none

/-- `main` of tools/dumpsubs.cc, given the arguments after the name of the program. -/
def dumpsubs (fs : Str → Entry) (args : List Str) : Exit :=
  match dumpsubsArgs args with
  | none => .help
  | some [path] =>
    match fs path with
    | .missing => .notFound path
    | entry =>
      match readerFactory path entry.contents with
      | .error e => .failed e (factoryPrinted path entry.contents)
      | .ok .none => .noReader path
      | .ok r =>
        match dump showFloat r.metadata r.subs with
        | .ok out => .done (factoryPrinted path entry.contents ++ out)
        | .error e => .failed e (factoryPrinted path entry.contents ++ (r.metadata.map (fun kv => kv.1 ++ b!": " ++ kv.2 ++ b!"\n")).flatten)
  | some _ => .usage

end LibSub
