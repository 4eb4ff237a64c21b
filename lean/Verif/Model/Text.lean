/-
String helpers: src/util.cc, src/raw_convert.cc, src/locale_convert.cc, and the parts of Boost.String,
boost::lexical_cast and C stdio that the readers call.  The Boost and C functions are external
to the repository; they are modelled from their documentation, in the "C" locale unless a locale is given.
-/
import Verif.Model.Float

namespace LibSub

/-! ### Characters -/

/-- `isspace` in the classic locale (used by `boost::trim`, `sscanf`): space, \t, \n, \v, \f, \r. -/
def isSpace (c : Byte) : Bool := c == 32 || (9 ≤ c && c ≤ 13)

/-- `isdigit`. -/
def isDigit (c : Byte) : Bool := 48 ≤ c && c ≤ 57

/-- `isxdigit`. -/
def isXDigit (c : Byte) : Bool := isDigit c || (65 ≤ c && c ≤ 70) || (97 ≤ c && c ≤ 102)

/-- Value of a (hex) digit; `0` for other bytes (callers only use it on digits). -/
def digitVal (c : Byte) : Nat :=
  if 48 ≤ c && c ≤ 57 then c.toNat - 48
  else if 65 ≤ c && c ≤ 70 then c.toNat - 55
  else if 97 ≤ c && c ≤ 102 then c.toNat - 87
  else 0

/-- `tolower` in the classic locale. -/
def lowerByte (c : Byte) : Byte := if 65 ≤ c && c ≤ 90 then c + 32 else c

/-- `boost::to_lower`. -/
def toLower (s : Str) : Str := s.map lowerByte

/-! ### Boost.String algorithms -/

/-- `boost::trim_left_if`. -/
def trimLeftIf (p : Byte → Bool) (s : Str) : Str := s.dropWhile p

/-- `boost::trim_right_if`. -/
def trimRightIf (p : Byte → Bool) (s : Str) : Str := (s.reverse.dropWhile p).reverse

/-- `boost::trim` (white space at both ends). -/
def trim (s : Str) : Str := trimLeftIf isSpace (trimRightIf isSpace s)

/-- `boost::is_any_of ("\n\r")`. -/
def isNlCr (c : Byte) : Bool := c == 10 || c == 13

/-- `boost::starts_with`. -/
def startsWith (s pre : Str) : Bool := pre.isPrefixOf s

/-- `boost::split (out, s, pred)` with `token_compress_off`: `n` separators give `n+1` tokens. -/
def splitAny (p : Byte → Bool) : Str → List Str
  | [] => [[]]
  | c :: cs =>
    if p c then [] :: splitAny p cs
    else
      match splitAny p cs with
      | [] => [[c]]
      | t :: ts => (c :: t) :: ts

/-- `boost::split (out, s, pred, boost::token_compress_on)`: a run of separators counts as one
(a leading/trailing run still produces an empty first/last token).
`prevSep` says that the previous character was a separator. -/
def splitCompressGo (p : Byte → Bool) (prevSep : Bool) : Str → List Str
  | [] => [[]]
  | c :: cs =>
    if p c then
      if prevSep then splitCompressGo p true cs
      else [] :: splitCompressGo p true cs
    else
      match splitCompressGo p false cs with
      | [] => [[c]]
      | t :: ts => (c :: t) :: ts

@[inherit_doc splitCompressGo]
def splitCompress (p : Byte → Bool) (s : Str) : List Str := splitCompressGo p false s

/-- `boost::algorithm::split_regex` with a regex that is the literal, non-empty string `sep`:
tokens between successive leftmost non-overlapping occurrences.  `skip` counts the bytes of an
occurrence still to be passed over. -/
def splitStrGo (sep : Str) : Nat → Str → List Str
  | _, [] => [[]]
  | skip + 1, _ :: cs => splitStrGo sep skip cs
  | 0, c :: cs =>
    if startsWith (c :: cs) sep then [] :: splitStrGo sep (sep.length - 1) cs
    else
      match splitStrGo sep 0 cs with
      | [] => [[c]]
      | t :: ts => (c :: t) :: ts

@[inherit_doc splitStrGo]
def splitStr (sep s : Str) : List Str := splitStrGo sep 0 s

/-- `boost::replace_all (s, search, with)`; an empty search string changes nothing. -/
def replaceAllGo (search repl : Str) : Nat → Str → Str
  | _, [] => []
  | skip + 1, _ :: cs => replaceAllGo search repl skip cs
  | 0, c :: cs =>
    if startsWith (c :: cs) search then repl ++ replaceAllGo search repl (search.length - 1) cs
    else c :: replaceAllGo search repl 0 cs

@[inherit_doc replaceAllGo]
def replaceAll (s search repl : Str) : Str :=
  if search.isEmpty then s else replaceAllGo search repl 0 s

/-! ### Numbers in text -/

/-- Longest prefix of digits. -/
def takeDigits (s : Str) : Str := s.takeWhile isDigit

/-- Value of a string of decimal digits. -/
def decVal (s : Str) : Nat := s.foldl (fun n c => 10 * n + digitVal c) 0

/-- Value of a string of hex digits. -/
def hexVal (s : Str) : Nat := s.foldl (fun n c => 16 * n + digitVal c) 0

/-- An optional sign: (is negative, rest). -/
def takeSign (s : Str) : Bool × Str :=
  match s with
  | 45 :: cs => (true, cs)
  | 43 :: cs => (false, cs)
  | cs => (false, cs)

/-- `boost::lexical_cast<int> (s)`: optional sign then digits only, in range; otherwise
`bad_lexical_cast`.  (Classic global C++ locale: no digit grouping.) -/
def lexicalCastInt (s : Str) : R Int :=
  let (neg, ds) := takeSign s
  if ds.isEmpty || !ds.all isDigit then .error .badLexicalCast
  else
    let v : Int := if neg then -(decVal ds : Int) else decVal ds
    if InInt v then .ok v else .error .badLexicalCast

/-- `sscanf (s, "%d", &y)` with `y = 0` beforehand (src/locale_convert.cc:76-83): skip white space,
optional sign, digits; no digits leaves 0; a value out of range is undefined behaviour in C.
A NUL byte ends the string for `sscanf` and is no digit, space or sign, so it needs no special case. -/
def scanInt (s : Str) : R Int :=
  let (neg, cs) := takeSign (s.dropWhile isSpace)
  let ds := takeDigits cs
  let v : Int := if neg then -(decVal ds : Int) else decVal ds
  if InInt v then .ok v else .error (.ub .scanfRange)

/-- A locale as far as `localeconv` is consulted: decimal point and thousands separator. -/
structure Locale where
  decimalPoint : Str
  thousandsSep : Str

/-- The "C" locale. -/
def Locale.c : Locale := ⟨b!".", []⟩

/-- `starts_with` ignoring case, used to recognise inputs whose meaning to `%f` is not modelled. -/
def startsWithNoCase (s pre : Str) : Bool := startsWith (toLower s) pre

/-- The number without its sign is 0 or between 2^-90 and 2^90.  Dividing a float in this range by an `int` does not
leave the range 2^-126 .. 2^128 of normal floats, where rounding to 24 bits is what `float` does. -/
def floatSafe (v : Rat) : Bool := v == 0 || (decide (1 / 2 ^ 90 ≤ v) && decide (v ≤ 2 ^ 90))

/-- The digits of a number before and after the decimal point `dp`, and what follows them; `p` tells what a digit is. -/
def scanMant (p : Byte → Bool) (dp cs : Str) : Str × Str × Str :=
  let a := cs.dropWhile p
  if !dp.isEmpty && startsWith a dp then (cs.takeWhile p, (a.drop dp.length).takeWhile p, (a.drop dp.length).dropWhile p)
  else (cs.takeWhile p, [], a)

/-- An exponent: the letter `e` in either case, an optional sign, digits.  Without digits the letter does not belong to the number. -/
def scanExp (e : Byte) (s : Str) : Int :=
  match s with
  | [] => 0
  | c :: cs =>
    if lowerByte c = e then
      let (neg, ds) := takeSign cs
      if neg then -(decVal (takeDigits ds) : Int) else decVal (takeDigits ds)
    else 0

/-- A power with a positive or negative exponent. -/
def powInt (b : Nat) (e : Int) : Rat := if e < 0 then 1 / ((b ^ e.natAbs : Nat) : Rat) else ((b ^ e.natAbs : Nat) : Rat)

/-- A decimal number without sign: digits, optionally `dp` and digits, optionally an exponent; 0 if there are no digits. -/
def scanDecimal (dp cs : Str) : Rat :=
  let (ip, fp, rest) := scanMant isDigit dp cs
  ((decVal ip : Rat) + (decVal fp : Rat) / ((10 ^ fp.length : Nat) : Rat)) * powInt 10 (scanExp 101 rest)

/-- A hexadecimal number without sign and `0x`; its exponent is one of 2, after a `p`. -/
def scanHexadecimal (dp cs : Str) : Rat :=
  let (ip, fp, rest) := scanMant isXDigit dp cs
  ((hexVal ip : Rat) + (hexVal fp : Rat) / ((16 ^ fp.length : Nat) : Rat)) * powInt 2 (scanExp 112 rest)

/-- `sscanf (s, "%f", &y)` with `y = 0` beforehand (src/locale_convert.cc:85-92), in a locale with
decimal point `dp`: white space, sign, a decimal or (after `0x`) a hexadecimal number; 0 if there is none.
Not modelled (`Err.unmodelled`): "inf", "nan", and numbers so large or
so small that arithmetic with them could leave the range of normal floats (`floatSafe`). -/
def scanFloat (dp : Str) (s : Str) : R Rat :=
  let (neg, cs) := takeSign (s.dropWhile isSpace)
  if startsWithNoCase cs b!"inf" || startsWithNoCase cs b!"nan" then .error .unmodelled
  else
    let v := if startsWithNoCase cs b!"0x" then scanHexadecimal dp (cs.drop 2) else scanDecimal dp cs
    if floatSafe v then .ok (f32 (if neg then -v else v)) else .error .unmodelled

/-- `make_local` (src/raw_convert.cc:26-34). -/
def makeLocal (l : Locale) (v : Str) : Str := replaceAll v b!"." l.decimalPoint

/-- `make_raw` (src/raw_convert.cc:36-46). -/
def makeRaw (l : Locale) (v : Str) : Str :=
  replaceAll (replaceAll v l.thousandsSep []) l.decimalPoint b!"."

/-- `raw_convert<int> (string)` (src/raw_convert.cc:48-53). -/
def rawConvertIntIn (l : Locale) (v : Str) : R Int := scanInt (makeLocal l v)

/-- `raw_convert<float> (string)` (src/raw_convert.cc:55-60). -/
def rawConvertFloatIn (l : Locale) (v : Str) : R Rat := scanFloat l.decimalPoint (makeLocal l v)

/-- `raw_convert<int>` in the "C" locale; the other readers use this (see the locale-independence
theorems for why that loses nothing). -/
def rawConvertInt (v : Str) : R Int := rawConvertIntIn Locale.c v

/-- `raw_convert<float>` in the "C" locale. -/
def rawConvertFloat (v : Str) : R Rat := rawConvertFloatIn Locale.c v

/-- Decimal digits of a natural number (`%lu`, `%d` of a non-negative value).
The first argument is fuel; `n + 1` always suffices. -/
def natDecGo : Nat → Nat → Str
  | 0, _ => []
  | fuel + 1, n =>
    if n < 10 then [UInt8.ofNat (48 + n)]
    else natDecGo fuel (n / 10) ++ [UInt8.ofNat (48 + n % 10)]

@[inherit_doc natDecGo]
def natDec (n : Nat) : Str := natDecGo (n + 1) n

/-- `%d`. -/
def intDec (n : Int) : Str := if n < 0 then 45 :: natDec n.natAbs else natDec n.natAbs

/-- `%0<w>d`: zero padding between the sign and the digits. -/
def printfPad (w : Nat) (n : Int) : Str :=
  let ds := natDec n.natAbs
  if n < 0 then 45 :: (List.replicate (w - 1 - ds.length) 48 ++ ds)
  else List.replicate (w - ds.length) 48 ++ ds

/-- `os << setw (w) << setfill ('0') << n`: padding on the left of everything, sign included. -/
def setwPad (w : Nat) (n : Int) : Str :=
  let ds := intDec n
  List.replicate (w - ds.length) 48 ++ ds

/-- `raw_convert<string> (unsigned long)` (src/raw_convert.cc:62-67, src/locale_convert.cc:47-54). -/
def rawConvertULong (l : Locale) (n : Nat) : Str := makeRaw l (natDec n)

/-! ### src/util.cc -/

/-- `sub::empty_or_white_space` (src/util.cc:42-52). -/
def emptyOrWhiteSpace : Str → Bool
  | [] => true
  | c :: cs => if c != 32 && c != 10 && c != 9 then false else emptyOrWhiteSpace cs

/-- `sub::get_line_string` (src/util.cc:54-71): the line and the remaining string. -/
def getLineString (s : Str) : Option (Str × Str) :=
  if s.length = 0 then none
  else
    match s.findIdx? (· == 10) with
    | none => some (s, [])
    | some pos => some (s.take pos, s.drop (pos + 1))

/-- `sub::get_line_file` (src/util.cc:73-83).  `fgets (buffer, 256, f)` reads at most 255 bytes,
stopping after a newline; `string (buffer)` stops at the first NUL.  The state is what is left of the
file.  (Read errors are not modelled.) -/
def fgetsTake : Nat → Str → Str
  | 0, _ => []
  | _, [] => []
  | n + 1, c :: cs => if c == 10 then [c] else c :: fgetsTake n cs

@[inherit_doc fgetsTake]
def getLineFile (f : Str) : Option (Str × Str) :=
  if f.isEmpty then none
  else
    let r := fgetsTake 255 f
    some (r.takeWhile (· != 0), f.drop r.length)

/-- All lines a reader obtains by calling `get_line` until it returns nothing.
(`fuel`: each call consumes at least one byte, so `s.length` calls suffice.) -/
def allLinesGo (getLine : Str → Option (Str × Str)) : Nat → Str → List Str
  | 0, _ => []
  | fuel + 1, s =>
    match getLine s with
    | none => []
    | some (l, rest) => l :: allLinesGo getLine fuel rest

/-- The lines seen by a reader constructed from a string. -/
def linesOfString (s : Str) : List Str := allLinesGo getLineString (s.length + 1) s

/-- The lines seen by a reader constructed from a `FILE*` with contents `s`. -/
def linesOfFile (s : Str) : List Str := allLinesGo getLineFile (s.length + 1) s

/-- `sub::remove_unicode_bom` (src/util.cc:85-98). -/
def removeBom (line : Str) : Str :=
  match line with
  | 0xef :: 0xbb :: 0xbf :: rest => rest
  | l => l

end LibSub
