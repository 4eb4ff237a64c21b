/-
`boost::locale::conv::utf_to_utf<wchar_t> (string)` and `utf_to_utf<char> (wstring)`, as used in
src/stl_binary_writer.cc:203 and src/stl_binary_reader.cc:253, 313.  External code, modelled from
boost/locale/utf.hpp and encoding_utf.hpp; the default method skips malformed input.
-/
import Verif.Model.Iso6937

namespace LibSub

/-- `utf_traits<char, 1>::trail_length`; `none` for an invalid lead byte. -/
def trailLength (c : Byte) : Option Nat :=
  if c < 128 then some 0
  else if c < 194 then none
  else if c < 224 then some 1
  else if c < 240 then some 2
  else if c ≤ 244 then some 3
  else none

/-- `utf_traits<char, 1>::is_trail`. -/
def isTrail (c : Byte) : Bool := 128 ≤ c && c < 192

/-- `is_valid_codepoint`. -/
def validCodePoint (v : Nat) : Bool := v ≤ 0x10ffff && !(0xd800 ≤ v && v ≤ 0xdfff)

/-- `utf_traits<char, 1>::width`. -/
def utf8Width (v : Nat) : Nat := if v ≤ 0x7f then 1 else if v ≤ 0x7ff then 2 else if v ≤ 0xffff then 3 else 4

/-- What `decode` is doing: `need` more trail bytes for a sequence of `total` trail bytes, value so far. -/
structure Utf8Pending where
  total : Nat
  need : Nat
  acc : Nat

/-- `utf_to_utf<wchar_t>`: the loop over `decode`.  A byte that is not a trail byte where one is needed
is consumed by the failing `decode`; a sequence cut off by the end of input is dropped. -/
def utf8DecodeGo : Option Utf8Pending → Str → List WChar
  | _, [] => []
  | none, c :: cs =>
    match trailLength c with
    | none => utf8DecodeGo none cs
    | some 0 => c.toNat :: utf8DecodeGo none cs
    | some n => utf8DecodeGo (some ⟨n, n, c.toNat % 2 ^ (6 - n)⟩) cs
  | some p, c :: cs =>
    if isTrail c then
      let acc := p.acc * 64 + c.toNat % 64
      if p.need ≤ 1 then
        if validCodePoint acc && utf8Width acc == p.total + 1 then acc :: utf8DecodeGo none cs
        else utf8DecodeGo none cs
      else utf8DecodeGo (some ⟨p.total, p.need - 1, acc⟩) cs
    else utf8DecodeGo none cs

/-- `utf_to_utf<wchar_t> (s)`. -/
def utf8Decode (s : Str) : List WChar := utf8DecodeGo none s

/-- `utf_traits<char, 1>::encode`. -/
def utf8EncodeChar (v : WChar) : Str :=
  if v ≤ 0x7f then [UInt8.ofNat v]
  else if v ≤ 0x7ff then [UInt8.ofNat (v / 64 + 0xc0), UInt8.ofNat (v % 64 + 0x80)]
  else if v ≤ 0xffff then
    [UInt8.ofNat (v / 4096 + 0xe0), UInt8.ofNat (v / 64 % 64 + 0x80), UInt8.ofNat (v % 64 + 0x80)]
  else
    [UInt8.ofNat (v / 262144 + 0xf0), UInt8.ofNat (v / 4096 % 64 + 0x80), UInt8.ofNat (v / 64 % 64 + 0x80),
      UInt8.ofNat (v % 64 + 0x80)]

/-- `utf_to_utf<char> (w)`: invalid code points are skipped. -/
def utf8Encode : List WChar → Str
  | [] => []
  | v :: vs => (if validCodePoint v then utf8EncodeChar v else []) ++ utf8Encode vs

end LibSub
