/-
src/stl_binary_writer.cc
-/
import Verif.Model.Subtitle
import Verif.Model.StlTables
import Verif.Model.StlUtil
import Verif.Model.Utf8

namespace LibSub

/-- `ROWS` (src/stl_binary_writer.cc:57). -/
def stlRows : Int := 23

/-- `memcpy (buffer + off, s, s.length ())` into a buffer; writing past the end is undefined
(src/stl_binary_writer.cc:59-63). -/
def putString (off : Nat) (s : Str) (buf : Str) : R Str :=
  if off + s.length ≤ buf.length then .ok (buf.take off ++ s ++ buf.drop (off + s.length))
  else .error (.ub .bufferOverrun)

/-- `put_string (buffer + off, n, s)` (src/stl_binary_writer.cc:65-72). -/
def putStringPad (off n : Nat) (s : Str) (buf : Str) : R Str := do
  subAssert (decide (s.length ≤ n))
  putString off (s ++ List.replicate (n - s.length) 32) buf

/-- `put_int_as_string` (src/stl_binary_writer.cc:77-100). -/
def putIntAsString (l : Locale) (off : Nat) (v : Int) (n : Nat) (buf : Str) : R Str := do
  subAssert (n == 2 || n == 5)
  putString off (makeRaw l (printfPad n v)) buf

/-- `put_int_as_int (p, v, 1)` (src/stl_binary_writer.cc:102-108): the low byte. -/
def lowByte (v : Int) : Byte := UInt8.ofNat (v.emod 256).toNat

/-- The static function `vertical_position` (src/stl_binary_writer.cc:110-146). -/
def writerVpos (line : Line) : R Int :=
  match line.vpos.prop with
  | some p =>
    match line.vpos.ref.getD .topOfScreen with
    | .topOfScreen => toInt (rint (f32 (p * stlRows)))
    | .centreOfScreen => toInt (rint (f64 (f32 (p * stlRows) + 23 / 2)))
    | .bottomOfScreen => toInt (rint (f32 (stlRows - f32 (p * stlRows))))
    | .topOfSubtitle => .ok 0
  | none =>
    match line.vpos.line with
    | some l => do
      let n ← optGet line.vpos.lines
      let q ← fdiv (f32 l) (f32 n)
      let prop := f32 q
      match line.vpos.ref.getD .topOfScreen with
      | .topOfScreen => toInt (f32 (prop * stlRows))
      | .centreOfScreen => toInt (f64 (f64 (prop + 1/2) * stlRows))
      | .bottomOfScreen => toInt (f32 (f32 (1 - prop) * stlRows))
      | .topOfSubtitle => .ok 0
    | none => .ok 0

/-- Vertical positions of all lines, in order (the calls in src/stl_binary_writer.cc:161-166 and 177). -/
def writerVposes : List Line → R (List Int)
  | [] => .ok []
  | l :: ls => do
    let v ← writerVpos l
    let vs ← writerVposes ls
    pure (v :: vs)

/-- The top position (src/stl_binary_writer.cc:160-166). -/
def writerTop : Option Int → List Int → Option Int
  | top, [] => top
  | none, v :: vs => writerTop (some v) vs
  | some t, v :: vs => writerTop (some (if v < t then v else t)) vs

/-- `italic` and `underline` (src/stl_binary_writer.cc:170-171). -/
structure StyleState where
  italic : Bool := false
  underline : Bool := false
  deriving DecidableEq, Repr

/-- The style codes before a block (src/stl_binary_writer.cc:188-201). -/
def styleCodes (st : StyleState) (k : Block) : Str :=
  (if k.underline && !st.underline then [0x82] else if st.underline && !k.underline then [0x83] else [])
  ++ (if k.italic && !st.italic then [0x80] else if st.italic && !k.italic then [0x81] else [])

/-- The blocks of a line (src/stl_binary_writer.cc:187-204). -/
def writerBlocks (st : StyleState) : List Block → R (Str × StyleState)
  | [] => .ok ([], st)
  | k :: ks => do
    let t ← isoEncode (utf8Decode k.text)
    let (rest, st') ← writerBlocks ⟨k.italic, k.underline⟩ ks
    pure (styleCodes st k ++ t ++ rest, st')

/-- The line breaks before a line at `vp` (src/stl_binary_writer.cc:179-183). -/
def writerBreaks (last : Option Int) (vp : Int) : Str :=
  match last with
  | some l => List.replicate (vp - l).toNat 0x8a
  | none => []

/-- The lines of a subtitle (src/stl_binary_writer.cc:174-205), with their vertical positions. -/
def writerLines (st : StyleState) (last : Option Int) : List (Line × Int) → R (Str × StyleState)
  | [] => .ok ([], st)
  | (j, vp) :: js => do
    let (t, st') ← writerBlocks st j.blocks
    let (rest, st'') ← writerLines st' (some vp) js
    pure (writerBreaks last vp ++ t ++ rest, st'')

/-- The text of a subtitle (src/stl_binary_writer.cc:168-216). -/
def writerText (lines : List (Line × Int)) : R Str := do
  let (t, st) ← writerLines {} none lines
  pure (t ++ (if st.underline then [0x83] else []) ++ (if st.italic then [0x81] else []) ++ [0x8f])

/-- The blocks made from `text` (src/stl_binary_writer.cc:262-278), each as (EBN, 112 text bytes).
`fuel`: at most `text.length` blocks. -/
def writerChunks : Nat → Nat → Str → List (Byte × Str)
  | 0, _, _ => []
  | fuel + 1, number, text =>
    if text.isEmpty then []
    else
      let this := text.take 112
      let rest := text.drop 112
      ((if rest.isEmpty then 0xff else lowByte number), this ++ List.replicate (112 - this.length) 0x8f)
        :: writerChunks fuel (number + 1) rest

/-- Justification for a horizontal reference (src/stl_binary_writer.cc:247-257). -/
def hrefJustification : HRef → Justification
  | .left => .left
  | .centre => .centre
  | .right => .right

/-- The blocks for one subtitle (src/stl_binary_writer.cc:157-279). -/
def ttiBlocks (fps : Rat) (i : Subtitle) : R (List Str) := do
  let vps ← writerVposes i.lines
  let text ← writerText (i.lines.zip vps)
  let cum ← cumulativeStatusEnumToFile .notCumulative
  let rn ← toInt (f32 (fps * 1000))
  let rate : FRate := ⟨rn, 1000⟩
  let ff ← i.from_.framesAt rate
  let tf ← i.to_.framesAt rate
  let top ← optGet (writerTop none vps)
  match i.lines with
  | [] => .error (.ub .emptyContainer)
  | first :: _ => do
    let just ← justificationEnumToFile (hrefJustification first.hpos.ref)
    let comment ← commentEnumToFile .no
    pure ((writerChunks text.length 0 text).map (fun c =>
      [1, 0, 0, c.1, lowByte cum,
        lowByte i.from_.hours, lowByte i.from_.minutes, lowByte i.from_.seconds, lowByte ff,
        lowByte i.to_.hours, lowByte i.to_.minutes, lowByte i.to_.seconds, lowByte tf,
        lowByte top, lowByte just, lowByte comment] ++ c.2))

/-- `make_tti_blocks` (src/stl_binary_writer.cc:148-282). -/
def makeTtiBlocks (fps : Rat) : List Subtitle → R (List Str)
  | [] => .ok []
  | s :: ss => do
    let a ← ttiBlocks fps s
    let b ← makeTtiBlocks fps ss
    pure (a ++ b)

/-- Arguments of `write_stl_binary` (src/stl_binary_writer.cc:288-306), without the file name. -/
structure StlArgs where
  subtitles : List Subtitle
  fps : Rat
  language : Language
  originalProgrammeTitle : Str
  originalEpisodeTitle : Str
  translatedProgrammeTitle : Str
  translatedEpisodeTitle : Str
  translatorName : Str
  translatorContactDetails : Str
  creationDate : Str
  revisionDate : Str
  revisionNumber : Int
  countryOfOrigin : Str
  publisher : Str
  editorName : Str
  editorContactDetails : Str

/-- `longest` (src/stl_binary_writer.cc:326-338); counts are not bounded to `int`. -/
def stlLongest (subs : List Subtitle) : Nat :=
  (subs.flatMap (fun s => s.lines.map (fun l => (l.blocks.map (fun b => b.text.length)).sum))).foldl max 0

/-- The assertions on the arguments (src/stl_binary_writer.cc:308-320). -/
def StlArgs.check (a : StlArgs) : R Unit := do
  subAssert (decide (a.originalProgrammeTitle.length ≤ 32))
  subAssert (decide (a.originalEpisodeTitle.length ≤ 32))
  subAssert (decide (a.translatedProgrammeTitle.length ≤ 32))
  subAssert (decide (a.translatedEpisodeTitle.length ≤ 32))
  subAssert (decide (a.translatorName.length ≤ 32))
  subAssert (decide (a.translatorContactDetails.length ≤ 32))
  subAssert (decide (a.creationDate.length = 6))
  subAssert (decide (a.revisionDate.length = 6))
  subAssert (decide (a.revisionNumber ≤ 99))
  subAssert (decide (a.countryOfOrigin.length = 3))
  subAssert (decide (a.publisher.length ≤ 32))
  subAssert (decide (a.editorName.length ≤ 32))
  subAssert (decide (a.editorContactDetails.length ≤ 32))

/-- The GSI block (src/stl_binary_writer.cc:322-323, 342-385), given the number of TTI blocks. -/
def stlGsi (l : Locale) (a : StlArgs) (tti : Nat) : R Str := do
  let b := List.replicate 1024 (0 : Byte)
  let b ← putString 0 b!"850" b
  let b ← putString 3 (stlFrameRateToDfc a.fps) b
  let b ← putString 11 b!"0" b
  let b ← putString 12 b!"00" b
  let lang ← languageEnumToFile a.language
  let b ← putString 14 lang b
  let b ← putStringPad 16 32 a.originalProgrammeTitle b
  let b ← putStringPad 48 32 a.originalEpisodeTitle b
  let b ← putStringPad 80 32 a.translatedProgrammeTitle b
  let b ← putStringPad 112 32 a.translatedEpisodeTitle b
  let b ← putStringPad 144 32 a.translatorName b
  let b ← putStringPad 176 32 a.translatorContactDetails b
  let b ← putString 208 b!"0000000000000000" b
  let b ← putString 224 a.creationDate b
  let b ← putString 230 a.revisionDate b
  let b ← putIntAsString l 236 a.revisionNumber 2 b
  let b ← putIntAsString l 238 tti 5 b
  let b ← putIntAsString l 243 a.subtitles.length 5 b
  let b ← putString 248 b!"001" b
  let b ← putIntAsString l 251 (stlLongest a.subtitles) 2 b
  let b ← putIntAsString l 253 stlRows 2 b
  let b ← putString 255 b!"1" b
  let b ← putString 256 b!"00000000" b
  let b ← putString 264 b!"00000000" b
  let b ← putString 272 b!"1" b
  let b ← putString 273 b!"1" b
  let b ← putStringPad 274 3 a.countryOfOrigin b
  let b ← putStringPad 277 32 a.publisher b
  let b ← putStringPad 309 32 a.editorName b
  putStringPad 341 32 a.editorContactDetails b

/-- `sub::write_stl_binary` (src/stl_binary_writer.cc:287-393) under locale `l`: the bytes written to the
file.  (Errors of the file system: Model/Output.lean.) -/
def writeStlIn (l : Locale) (a : StlArgs) : R Str := do
  a.check
  let tti ← makeTtiBlocks a.fps a.subtitles
  let gsi ← stlGsi l a tti.length
  pure (gsi ++ tti.flatten)

/-- `sub::write_stl_binary` in the "C" locale. -/
def writeStl (a : StlArgs) : R Str := writeStlIn Locale.c a

end LibSub
