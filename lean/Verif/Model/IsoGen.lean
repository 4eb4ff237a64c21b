/-
src/iso6937.py, the script that made src/iso6937_tables.cc and src/iso6937_tables.h from a file of the Unicode consortium.
-/
import Verif.Model.Utf8
import Verif.Model.Text

namespace LibSub

/-- Lines as `print` writes them: each followed by a newline. -/
def printed (ls : List Str) : Str := (ls.map (· ++ [10])).flatten

/-- `data.splitlines ()` of `bytes` (src/iso6937.py:13): lines end with LF, CR or CR LF; a last line without an end counts if it is not empty. -/
def pyLines : Str → List Str
  | [] => []
  | 13 :: 10 :: cs => [] :: pyLines cs
  | c :: cs =>
    if c = 10 || c = 13 then [] :: pyLines cs
    else
      match pyLines cs with
      | [] => [[c]]
      | l :: ls => (c :: l) :: ls

/-- What `find_unicode` comes to: a result, `sys.exit (1)`, or an exception (a line that is not UTF-8, or one without a semicolon). -/
inductive PyFind where
  | found (s : Str)
  | missing
  | raised
  deriving DecidableEq, Repr

/-- `find_unicode (n)` (src/iso6937.py:12-19) on the lines of `data`.  `decode ('UTF-8')` succeeds where nothing is left out by the decoder of Model/Utf8.lean;
splitting and comparing are done on the bytes, which is the same for UTF-8. -/
def findUnicode (n : Str) : List Str → PyFind
  | [] => .missing
  | l :: ls =>
    if utf8Encode (utf8Decode l) ≠ l then .raised
    else
      match splitAny (· == 59) l with
      | s0 :: s1 :: _ => if s1 = n then .found s0 else findUnicode n ls
      | _ => .raised

/-- How the script ends, with the two files it has written until then. -/
inductive GenResult where
  | done (cc h : Str)
  /-- "Could not find `name`" on standard output and exit code 1 -/
  | missing (name cc h : Str)
  | raised (cc h : Str)
  deriving DecidableEq, Repr

/-- `letter.isupper ()` for the letters of `groups`. -/
def pyUpper (c : Byte) : Bool := 65 ≤ c && c ≤ 90

/-- `letter.upper ()` for the letters of `groups`. -/
def pyToUpper (c : Byte) : Byte := if 97 ≤ c && c ≤ 122 then c - 32 else c

/-- `unicode_name` (src/iso6937.py:29-34). -/
def unicodeName (mark : Str) (letter : Byte) : Str :=
  b!"LATIN " ++ (if pyUpper letter then b!"CAPITAL" else b!"SMALL") ++ b!" LETTER " ++ [pyToUpper letter] ++ b!" WITH " ++ mark

/-- Why `fill` stops. -/
inductive PyFindStop where
  | missing (name : Str)
  | raised
  deriving DecidableEq, Repr

/-- The loop of `fill` over letters (src/iso6937.py:28-35): what it writes to the .cc file, and whether it gets to the end (`none`) or where it stops. -/
def fillLetters (data : List Str) (mark table : Str) : Str → Str × Option PyFindStop
  | [] => ([], none)
  | c :: cs =>
    match findUnicode (unicodeName mark c) data with
    | .found s =>
      let r := fillLetters data mark table cs
      (b!"\t" ++ table ++ b!"['" ++ [c] ++ b!"'] = 0x" ++ s ++ b!";\n" ++ r.1, r.2)
    | .missing => ([], some (.missing (unicodeName mark c)))
    | .raised => ([], some .raised)

/-- `groups` (src/iso6937.py:96-110): byte, name of the mark in Unicode, name of the table, letters. -/
def isoGroups : List (Byte × Str × Str × Str) := [
  (0xC1, b!"GRAVE", b!"grave", b!"AEIOUaeiou"),
  (0xC2, b!"ACUTE", b!"acute", b!"ACEILNORSUYZacegilnorsuyz"),
  (0xC3, b!"CIRCUMFLEX", b!"circumflex", b!"ACEGHIJOSUWYaceghijosuwy"),
  (0xC4, b!"TILDE", b!"tilde", b!"AINOUainou"),
  (0xC5, b!"MACRON", b!"macron", b!"AEIOUaeiou"),
  (0xC6, b!"BREVE", b!"breve", b!"AGUagu"),
  (0xC7, b!"DOT ABOVE", b!"dot", b!"CEGIZcegz"),
  (0xC8, b!"DIAERESIS", b!"diaeresis", b!"AEIOUYaeiouy"),
  (0xCA, b!"RING ABOVE", b!"ring", b!"AUau"),
  (0xCB, b!"CEDILLA", b!"cedilla", b!"CGKLNRSTcklnrst"),
  (0xCD, b!"DOUBLE ACUTE", b!"double_acute", b!"OUou"),
  (0xCE, b!"OGONEK", b!"ogonek", b!"AEIUaeui"),
  (0xCF, b!"CARON", b!"caron", b!"CDELNRSTZcdelnrstz")]

/-- The head of the .cc file (src/iso6937.py:39-64). -/
def isoHeadCc : List Str := [
  b!"/*",
  b!"    Copyright (C) 2014 Carl Hetherington <cth@carlh.net>",
  b!"",
  b!"    This program is free software; you can redistribute it and/or modify",
  b!"    it under the terms of the GNU General Public License as published by",
  b!"    the Free Software Foundation; either version 2 of the License, or",
  b!"    (at your option) any later version.",
  b!"",
  b!"    This program is distributed in the hope that it will be useful,",
  b!"    but WITHOUT ANY WARRANTY; without even the implied warranty of",
  b!"    MERCHANTABILITY or FITNESS FOR A PARTICULAR PURPOSE.  See the",
  b!"    GNU General Public License for more details.",
  b!"",
  b!"    You should have received a copy of the GNU General Public License",
  b!"    along with this program; if not, write to the Free Software",
  b!"    Foundation, Inc., 675 Mass Ave, Cambridge, MA 02139, USA.",
  b!"",
  b!"*/",
  b!"",
  b!"/* THIS FILE WAS AUTO-GENERATED BY iso6937.py */",
  b!"",
  b!"#include <map>",
  b!"#include \"iso6937_tables.h\"",
  b!"",
  b!"using std::map;",
  b!""]

/-- The head of the .h file (src/iso6937.py:66-94). -/
def isoHeadH : List Str := [
  b!"/*",
  b!"    Copyright (C) 2014 Carl Hetherington <cth@carlh.net>",
  b!"",
  b!"    This program is free software; you can redistribute it and/or modify",
  b!"    it under the terms of the GNU General Public License as published by",
  b!"    the Free Software Foundation; either version 2 of the License, or",
  b!"    (at your option) any later version.",
  b!"",
  b!"    This program is distributed in the hope that it will be useful,",
  b!"    but WITHOUT ANY WARRANTY; without even the implied warranty of",
  b!"    MERCHANTABILITY or FITNESS FOR A PARTICULAR PURPOSE.  See the",
  b!"    GNU General Public License for more details.",
  b!"",
  b!"    You should have received a copy of the GNU General Public License",
  b!"    along with this program; if not, write to the Free Software",
  b!"    Foundation, Inc., 675 Mass Ave, Cambridge, MA 02139, USA.",
  b!"",
  b!"*/",
  b!"",
  b!"/* THIS FILE WAS AUTO-GENERATED BY iso6937.py */",
  b!"",
  b!"#include <map>",
  b!"",
  b!"namespace sub {",
  b!"",
  b!"extern void make_iso6937_tables ();",
  b!"",
  b!"namespace iso6937 {",
  b!""]

/-- The head of the function (src/iso6937.py:120-125). -/
def isoFunction : List Str := [
  b!"",
  b!"void",
  b!"sub::make_iso6937_tables ()",
  b!"{",
  b!"\tusing namespace sub::iso6937;",
  b!""]

/-- The lines for ASCII characters (src/iso6937.py:132-136). -/
def isoAscii : List Str := (List.range' 32 95).map fun i =>
  (if i = 39 || i = 92 then b!"\tmain['\\" ++ [UInt8.ofNat i] else b!"\tmain['" ++ [UInt8.ofNat i]) ++ b!"'] = 0x00" ++ (Nat.toDigits 16 i).map (fun c => UInt8.ofNat c.toNat) ++ b!";"

/-- The lines for other characters (src/iso6937.py:140-227). -/
def isoOthers : List Str := [
  b!"\tmain[161U] = 0x00A1;",
  b!"\tmain[162U] = 0x00A2;",
  b!"\tmain[163U] = 0x00A3;",
  b!"\tmain[164U] = 0x0024;",
  b!"\tmain[165U] = 0x00A5;",
  b!"\tmain[167U] = 0x00A7;",
  b!"\tmain[168U] = 0x00A4;",
  b!"\tmain[169U] = 0x2018;",
  b!"\tmain[170U] = 0x201C;",
  b!"\tmain[171U] = 0x00AB;",
  b!"\tmain[172U] = 0x2190;",
  b!"\tmain[173U] = 0x2191;",
  b!"\tmain[174U] = 0x2192;",
  b!"\tmain[175U] = 0x2193;",
  b!"\tmain[176U] = 0x00B0;",
  b!"\tmain[177U] = 0x00B1;",
  b!"\tmain[178U] = 0x00B2;",
  b!"\tmain[179U] = 0x00B3;",
  b!"\tmain[180U] = 0x00D7;",
  b!"\tmain[181U] = 0x00B5;",
  b!"\tmain[182U] = 0x00B6;",
  b!"\tmain[183U] = 0x00B7;",
  b!"\tmain[184U] = 0x00F7;",
  b!"\tmain[185U] = 0x2019;",
  b!"\tmain[186U] = 0x201D;",
  b!"\tmain[187U] = 0x00BB;",
  b!"\tmain[188U] = 0x00BC;",
  b!"\tmain[189U] = 0x00BD;",
  b!"\tmain[190U] = 0x00BE;",
  b!"\tmain[191U] = 0x00BF;",
  b!"\tmain[193U] = 0x0300;",
  b!"\tmain[194U] = 0x0301;",
  b!"\tmain[195U] = 0x0302;",
  b!"\tmain[196U] = 0x0303;",
  b!"\tmain[197U] = 0x0304;",
  b!"\tmain[198U] = 0x0306;",
  b!"\tmain[199U] = 0x0307;",
  b!"\tmain[200U] = 0x0308;",
  b!"\tmain[202U] = 0x030A;",
  b!"\tmain[203U] = 0x0327;",
  b!"\tmain[205U] = 0x030B;",
  b!"\tmain[206U] = 0x032B;",
  b!"\tmain[207U] = 0x030C;",
  b!"\tmain[208U] = 0x2015;",
  b!"\tmain[209U] = 0x00B9;",
  b!"\tmain[210U] = 0x00AE;",
  b!"\tmain[211U] = 0x00A9;",
  b!"\tmain[212U] = 0x2122;",
  b!"\tmain[213U] = 0x266A;",
  b!"\tmain[214U] = 0x00AC;",
  b!"\tmain[215U] = 0x00A6;",
  b!"\tmain[220U] = 0x215B;",
  b!"\tmain[221U] = 0x215C;",
  b!"\tmain[222U] = 0x215D;",
  b!"\tmain[223U] = 0x215E;",
  b!"\tmain[224U] = 0x2126;",
  b!"\tmain[225U] = 0x00C6;",
  b!"\tmain[226U] = 0x0110;",
  b!"\tmain[227U] = 0x00AA;",
  b!"\tmain[228U] = 0x0126;",
  b!"\tmain[230U] = 0x0132;",
  b!"\tmain[231U] = 0x013F;",
  b!"\tmain[232U] = 0x0141;",
  b!"\tmain[233U] = 0x00D8;",
  b!"\tmain[234U] = 0x0152;",
  b!"\tmain[235U] = 0x00BA;",
  b!"\tmain[236U] = 0x00DE;",
  b!"\tmain[237U] = 0x0166;",
  b!"\tmain[238U] = 0x014A;",
  b!"\tmain[239U] = 0x0149;",
  b!"\tmain[240U] = 0x0138;",
  b!"\tmain[241U] = 0x00E6;",
  b!"\tmain[242U] = 0x0111;",
  b!"\tmain[243U] = 0x00F0;",
  b!"\tmain[244U] = 0x0127;",
  b!"\tmain[245U] = 0x0131;",
  b!"\tmain[246U] = 0x0133;",
  b!"\tmain[247U] = 0x0140;",
  b!"\tmain[248U] = 0x0142;",
  b!"\tmain[249U] = 0x00F8;",
  b!"\tmain[250U] = 0x0153;",
  b!"\tmain[251U] = 0x00DF;",
  b!"\tmain[252U] = 0x00FE;",
  b!"\tmain[253U] = 0x0167;",
  b!"\tmain[254U] = 0x014B;",
  b!"\tmain[255U] = 0x00AD;"]

/-- The calls of `fill` (src/iso6937.py:127-128), the files so far being `cc` and `h`. -/
def fillAll (data : List Str) : List (Byte × Str × Str × Str) → Str → Str → GenResult
  | [], cc, h => .done cc h
  | (_, mark, table, letters) :: gs, cc, h =>
    let h := h ++ b!"extern std::map<char, wchar_t> " ++ table ++ b!";\n"
    match fillLetters data mark table letters with
    | (s, none) => fillAll data gs (cc ++ s ++ b!"\n") h
    | (s, some (.missing n)) => .missing n (cc ++ s) h
    | (s, some .raised) => .raised (cc ++ s) h

/-- The script, given the contents of UnicodeData.txt (src/iso6937.py:1-236). -/
def isoGenerate (data : Str) : GenResult :=
  let cc := printed isoHeadCc ++ printed (isoGroups.map fun g => b!"map<char, wchar_t> sub::iso6937::" ++ g.2.2.1 ++ b!";") ++
    printed [b!"map<char, wchar_t> sub::iso6937::main;", b!"map<char, map<char, wchar_t> *> sub::iso6937::diacriticals;"] ++ printed isoFunction
  let h := printed isoHeadH ++ printed [b!"extern std::map<char, wchar_t> main;", b!"extern std::map<char, std::map<char, wchar_t> *> diacriticals;"]
  match fillAll (pyLines data) isoGroups cc h with
  | .done cc h =>
    .done (cc ++ printed ([b!"\tmain[10] = 0x000A;"] ++ isoAscii ++ isoOthers ++ [[]] ++
        isoGroups.map (fun g => b!"\tdiacriticals[0x" ++ (Nat.toDigits 16 g.1.toNat).map (fun c => UInt8.ofNat c.toNat) ++ b!"] = &" ++ g.2.2.1 ++ b!";") ++ [b!"}"]))
      (h ++ printed [[], b!"}", b!"}"])
  | r => r

end LibSub
