/-
src/stl_binary_reader.h, src/stl_binary_reader.cc
-/
import Verif.Model.Subtitle
import Verif.Model.StlTables
import Verif.Model.StlUtil
import Verif.Model.Utf8

namespace LibSub

/-- `InputReader::get_string` (src/stl_binary_reader.cc:60-68). -/
def getString (buf : Str) (off len : Nat) : Str := (buf.drop off).take len

/-- `get_int (offset, 1)` (src/stl_binary_reader.cc:70-78); the reader uses only length 1. -/
def getByte (buf : Str) (off : Nat) : Nat := (buf.getD off 0).toNat

/-- `atoi`: white space, sign, digits.  The callers pass at most five characters, so the value fits. -/
def atoi (s : Str) : Int :=
  let (neg, cs) := takeSign (s.dropWhile isSpace)
  let v : Int := decVal (takeDigits cs)
  if neg then -v else v

/-- `InputReader::read` (src/stl_binary_reader.cc:99-105, 120-126): the block and the rest of the file. -/
def readBlock (file : Str) (size : Nat) (what : Str) : R (Str × Str) :=
  if size ≤ file.length then .ok (file.take size, file.drop size)
  else .error (.stl (b!"Could not read " ++ what ++ b!" block from binary STL file"))

/-- The public data of `STLBinaryReader` (src/stl_binary_reader.h:42-70). -/
structure StlInfo where
  codePageNumber : Int
  frameRate : Int
  displayStandard : DisplayStandard
  languageGroup : LanguageGroup
  language : Language
  originalProgrammeTitle : Str
  originalEpisodeTitle : Str
  translatedProgrammeTitle : Str
  translatedEpisodeTitle : Str
  translatorName : Str
  translatorContactDetails : Str
  subtitleListReferenceCode : Str
  creationDate : Str
  revisionDate : Str
  revisionNumber : Str
  ttiBlocks : Int
  numberOfSubtitles : Int
  subtitleGroups : Int
  maximumCharacters : Int
  maximumRows : Int
  timecodeStatus : TimecodeStatus
  startOfProgramme : Str
  firstInCue : Str
  disks : Int
  diskSequenceNumber : Int
  countryOfOrigin : Str
  publisher : Str
  editorName : Str
  editorContactDetails : Str
  deriving DecidableEq, Repr

/-- The GSI block (src/stl_binary_reader.cc:148-188). -/
def parseGsi (g : Str) : R StlInfo := do
  let fr ← stlDfcToFrameRate (getString g 3 8)
  let frame ← toInt fr
  let ds ← displayStandardFileToEnum (getString g 11 1)
  let lg ← languageGroupFileToEnum (getString g 12 2)
  let lang ← languageFileToEnum (getString g 14 2)
  let rows := atoi (getString g 253 2)
  let tc ← timecodeStatusFileToEnum (getString g 255 1)
  pure {
    codePageNumber := atoi (getString g 0 3)
    frameRate := frame
    displayStandard := ds
    languageGroup := lg
    language := lang
    originalProgrammeTitle := getString g 16 32
    originalEpisodeTitle := getString g 48 32
    translatedProgrammeTitle := getString g 80 32
    translatedEpisodeTitle := getString g 112 32
    translatorName := getString g 144 32
    translatorContactDetails := getString g 176 32
    subtitleListReferenceCode := getString g 208 16
    creationDate := getString g 224 6
    revisionDate := getString g 230 6
    revisionNumber := getString g 236 2
    ttiBlocks := atoi (getString g 238 5)
    numberOfSubtitles := atoi (getString g 243 5)
    subtitleGroups := atoi (getString g 248 3)
    maximumCharacters := atoi (getString g 251 2)
    maximumRows := if rows = 99 then 12 else rows
    timecodeStatus := tc
    startOfProgramme := getString g 256 8
    firstInCue := getString g 264 8
    disks := atoi (getString g 272 1)
    diskSequenceNumber := atoi (getString g 273 1)
    countryOfOrigin := getString g 274 3
    publisher := getString g 277 32
    editorName := getString g 309 32
    editorContactDetails := getString g 341 32 }

/-- `reader->get_timecode` (src/stl_binary_reader.cc:80-83). -/
def getTimecode (buf : Str) (off : Nat) (rate : Int) : R Time :=
  Time.fromHmsf (getByte buf off) (getByte buf (off + 1)) (getByte buf (off + 2)) (getByte buf (off + 3)) (some ⟨rate, 1⟩)

/-- The colour selected by a control code 0…7 (src/stl_binary_reader.cc:259-290). -/
def stlColour (c : Byte) : Option Colour :=
  if c = 0 then some ⟨0, 0, 0⟩
  else if c = 1 then some ⟨1, 0, 0⟩
  else if c = 2 then some ⟨0, 1, 0⟩
  else if c = 3 then some ⟨1, 1, 0⟩
  else if c = 4 then some ⟨0, 0, 1⟩
  else if c = 5 then some ⟨1, 0, 1⟩
  else if c = 6 then some ⟨0, 1, 1⟩
  else if c = 7 then some ⟨1, 1, 1⟩
  else none

/-- Variables of the loop over characters: `italic`, `underline`, `sub`, `text`, `_subs`. -/
structure StlChars where
  italic : Bool := false
  underline : Bool := false
  sub : Raw := {}
  text : Str := []
  subs : List Raw := []
  deriving DecidableEq, Repr

/-- `sub.text = utf_to_utf<char> (iso6937_to_utf16 (text.c_str ())); _subs.push_back (sub);`
(src/stl_binary_reader.cc:253-254, 313-314). -/
def StlChars.push (s : StlChars) : R StlChars := do
  let w ← isoDecode s.text
  let sub := { s.sub with text := utf8Encode w }
  pure { s with sub := sub, subs := s.subs ++ [sub] }

/-- A control code that ends the current run (src/stl_binary_reader.cc:251). -/
def isStyleCode (c : Byte) : Bool := c ≤ 7 || (0x80 ≤ c && c ≤ 0x83)

/-- The effect of the `switch` (src/stl_binary_reader.cc:258-309). -/
def StlChars.apply (s : StlChars) (c : Byte) : StlChars :=
  let s :=
    match stlColour c with
    | some col => { s with sub := { s.sub with colour := col } }
    | none =>
      if c = 0x80 then { s with italic := true }
      else if c = 0x81 then { s with italic := false }
      else if c = 0x82 then { s with underline := true }
      else if c = 0x83 then { s with underline := false }
      else { s with text := s.text ++ [c] }
  { s with sub := { s.sub with italic := s.italic, underline := s.underline } }

/-- The loop over the characters of a line (src/stl_binary_reader.cc:242-315). -/
def stlChars (s : StlChars) : Str → R StlChars
  | [] => if s.text.isEmpty then .ok s else s.push
  | c :: cs =>
    if c = 0x8f then (if s.text.isEmpty then .ok s else s.push)
    else if isStyleCode c then do
      let s ← s.push
      stlChars ({ s with text := [] }.apply c) cs
    else stlChars (s.apply c) cs

/-- The horizontal reference for a justification code (src/stl_binary_reader.cc:226-238). -/
def stlHref (h : Nat) : HRef := if h = 1 then .left else if h = 3 then .right else .centre

/-- Variables that live across lines and blocks. -/
structure StlBlocks where
  highest : Int := 0
  subs : List Raw := []
  deriving DecidableEq, Repr

/-- The loop over lines (src/stl_binary_reader.cc:211-318); `j` is the index of the first line given. -/
def stlLines (info : StlInfo) (blk : Str) (italic underline : Bool) (st : StlBlocks) (j : Nat) : List Str → R StlBlocks
  | [] => .ok st
  | l :: ls => do
    let from_ ← getTimecode blk 5 info.frameRate
    let to_ ← getTimecode blk 9 info.frameRate
    let line : Int := (getByte blk 13 : Int) + j
    let sub : Raw :=
      { from_ := from_, to_ := to_,
        vpos := { line := some line, lines := some info.maximumRows, ref := some .topOfScreen },
        hpos := { ref := stlHref (getByte blk 14) },
        italic := italic, underline := underline }
    let r ← stlChars { italic := italic, underline := underline, sub := sub, subs := st.subs } l
    stlLines info blk r.italic r.underline { highest := max st.highest line, subs := r.subs } (j + 1) ls

/-- One TTI block (src/stl_binary_reader.cc:195-319). -/
def stlBlock (info : StlInfo) (st : StlBlocks) (blk : Str) : R StlBlocks := do
  let c ← commentFileToEnum (getByte blk 15)
  if c = .yes then pure st
  else stlLines info blk false false st 0 (splitAny (· == 0x8a) (getString blk 16 112))

/-- The loop over TTI blocks (src/stl_binary_reader.cc:191-319); `n` blocks remain. -/
def stlBlocks (info : StlInfo) (st : StlBlocks) (file : Str) : Nat → R StlBlocks
  | 0 => .ok st
  | n + 1 => do
    let (blk, rest) ← readBlock file 128 b!"TTI"
    let st ← stlBlock info st blk
    stlBlocks info st rest n

/-- The correction of line numbers (src/stl_binary_reader.cc:321-327). -/
def stlCorrect (info : StlInfo) (st : StlBlocks) : List Raw :=
  if st.highest > info.maximumRows then
    st.subs.map (fun i => { i with vpos := { i.vpos with line := i.vpos.line.map (· - (st.highest - info.maximumRows)) } })
  else st.subs

/-- `STLBinaryReader::read` (src/stl_binary_reader.cc:144-328): public data and raw subtitles. -/
def stlRead (file : Str) : R (StlInfo × List Raw) := do
  let (gsi, rest) ← readBlock file 1024 b!"GSI"
  let info ← parseGsi gsi
  let st ← stlBlocks info {} rest info.ttiBlocks.toNat
  pure (info, stlCorrect info st)

/-- `STLBinaryReader::metadata` (src/stl_binary_reader.cc:330-366), in the order of the source (a
`std::map` iterates in key order, see `stlMetadataSorted`). -/
def stlMetadata (i : StlInfo) : List (Str × Str) := [
  (b!"Code page number", intDec i.codePageNumber),
  (b!"Frame rate", intDec i.frameRate),
  (b!"Display standard", displayStandardDescription i.displayStandard),
  (b!"Language group", languageGroupDescription i.languageGroup),
  (b!"Language", languageDescription i.language),
  (b!"Original programme title", i.originalProgrammeTitle),
  (b!"Original episode title", i.originalEpisodeTitle),
  (b!"Translated programme title", i.translatedProgrammeTitle),
  (b!"Translated episode title", i.translatedEpisodeTitle),
  (b!"Translator name", i.translatorName),
  (b!"Translator contact details", i.translatorContactDetails),
  (b!"Subtitle list reference code", i.subtitleListReferenceCode),
  (b!"Creation date", i.creationDate),
  (b!"Revision date", i.revisionDate),
  (b!"Revision number", i.revisionNumber),
  (b!"TTI blocks", intDec i.ttiBlocks),
  (b!"Number of subtitles", intDec i.numberOfSubtitles),
  (b!"Subtitle groups", intDec i.subtitleGroups),
  (b!"Maximum characters", intDec i.maximumCharacters),
  (b!"Maximum rows", intDec i.maximumRows),
  (b!"Timecode status", timecodeStatusDescription i.timecodeStatus),
  (b!"Start of programme", i.startOfProgramme),
  (b!"First in cue", i.firstInCue),
  (b!"Disks", intDec i.disks),
  (b!"Disk sequence number", intDec i.diskSequenceNumber),
  (b!"Country of origin", i.countryOfOrigin),
  (b!"Publisher", i.publisher),
  (b!"Editor name", i.editorName),
  (b!"Editor contact details", i.editorContactDetails)]

/-- Insertion in key order. -/
def insertKey (kv : Str × Str) : List (Str × Str) → List (Str × Str)
  | [] => [kv]
  | x :: xs => if strLt kv.1 x.1 then kv :: x :: xs else x :: insertKey kv xs

/-- The iteration order of the `std::map` returned by `metadata ()`. -/
def stlMetadataSorted (i : StlInfo) : List (Str × Str) := (stlMetadata i).foldr insertKey []

end LibSub
