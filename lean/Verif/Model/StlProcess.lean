/-
src/stl_binary_reader.cc and src/stl_binary_writer.cc again, with each call of the ISO 6937 conversions in view: these
keep tables in global variables which they change (src/iso6937.cc, src/iso6937_tables.cc), so that what a process has read and written
before could matter.  Model/StlReader.lean and Model/StlWriter.lean have the conversions as they are in a fresh process.
-/
import Verif.Model.StlReader
import Verif.Model.StlWriter

namespace LibSub

/-- A piece of the program, between whose calls of `iso6937_to_utf16` and `utf16_to_iso6937` nothing touches their
tables. -/
inductive IsoProg (α : Type) where
  /-- it has returned or thrown -/
  | done (r : R α)
  /-- it calls `iso6937_to_utf16 (s)` and goes on with the result -/
  | decode (s : Str) (k : List WChar → IsoProg α)
  /-- it calls `utf16_to_iso6937 (w)` and goes on with the result -/
  | encode (w : List WChar) (k : Str → IsoProg α)

/-- One piece after another. -/
def IsoProg.bind {α β : Type} (p : IsoProg α) (f : α → IsoProg β) : IsoProg β :=
  match p with
  | .done (.ok a) => f a
  | .done (.error e) => .done (.error e)
  | .decode s k => .decode s (fun w => (k w).bind f)
  | .encode w k => .encode w (fun o => (k o).bind f)

instance : Monad IsoProg where
  pure a := .done (.ok a)
  bind := IsoProg.bind

instance : MonadLift R IsoProg where
  monadLift r := .done r

/-- A call of `iso6937_to_utf16`. -/
def callDecode (s : Str) : IsoProg (List WChar) := .decode s (fun w => .done (.ok w))

/-- A call of `utf16_to_iso6937`. -/
def callEncode (w : List WChar) : IsoProg Str := .encode w (fun o => .done (.ok o))

/-! ### The reader (src/stl_binary_reader.cc) -/

/-- As `StlChars.push` (src/stl_binary_reader.cc:253-254, 313-314). -/
def StlChars.pushP (s : StlChars) : IsoProg StlChars := do
  let w ← callDecode s.text
  let sub := { s.sub with text := utf8Encode w }
  pure { s with sub := sub, subs := s.subs ++ [sub] }

/-- As `stlChars` (src/stl_binary_reader.cc:242-315). -/
def stlCharsP (s : StlChars) : Str → IsoProg StlChars
  | [] => if s.text.isEmpty then pure s else s.pushP
  | c :: cs =>
    if c = 0x8f then (if s.text.isEmpty then pure s else s.pushP)
    else if isStyleCode c then do
      let s ← s.pushP
      stlCharsP ({ s with text := [] }.apply c) cs
    else stlCharsP (s.apply c) cs

/-- As `stlLines` (src/stl_binary_reader.cc:211-318). -/
def stlLinesP (info : StlInfo) (blk : Str) (italic underline : Bool) (st : StlBlocks) (j : Nat) : List Str → IsoProg StlBlocks
  | [] => pure st
  | l :: ls => do
    let from_ ← getTimecode blk 5 info.frameRate
    let to_ ← getTimecode blk 9 info.frameRate
    let line : Int := (getByte blk 13 : Int) + j
    let sub : Raw :=
      { from_ := from_, to_ := to_,
        vpos := { line := some line, lines := some info.maximumRows, ref := some .topOfScreen },
        hpos := { ref := stlHref (getByte blk 14) },
        italic := italic, underline := underline }
    let r ← stlCharsP { italic := italic, underline := underline, sub := sub, subs := st.subs } l
    stlLinesP info blk r.italic r.underline { highest := max st.highest line, subs := r.subs } (j + 1) ls

/-- As `stlBlock` (src/stl_binary_reader.cc:195-319). -/
def stlBlockP (info : StlInfo) (st : StlBlocks) (blk : Str) : IsoProg StlBlocks := do
  let c ← commentFileToEnum (getByte blk 15)
  if c = .yes then pure st
  else stlLinesP info blk false false st 0 (splitAny (· == 0x8a) (getString blk 16 112))

/-- As `stlBlocks` (src/stl_binary_reader.cc:191-319). -/
def stlBlocksP (info : StlInfo) (st : StlBlocks) (file : Str) : Nat → IsoProg StlBlocks
  | 0 => pure st
  | n + 1 => do
    let b ← readBlock file 128 b!"TTI"
    let st ← stlBlockP info st b.1
    stlBlocksP info st b.2 n

/-- As `stlRead`: `STLBinaryReader::read` (src/stl_binary_reader.cc:144-328). -/
def stlReadP (file : Str) : IsoProg (StlInfo × List Raw) := do
  let b ← readBlock file 1024 b!"GSI"
  let info ← parseGsi b.1
  let st ← stlBlocksP info {} b.2 info.ttiBlocks.toNat
  pure (info, stlCorrect info st)

/-! ### The writer (src/stl_binary_writer.cc) -/

/-- As `writerBlocks` (src/stl_binary_writer.cc:187-204). -/
def writerBlocksP (st : StyleState) : List Block → IsoProg (Str × StyleState)
  | [] => pure ([], st)
  | k :: ks => do
    let t ← callEncode (utf8Decode k.text)
    let r ← writerBlocksP ⟨k.italic, k.underline⟩ ks
    pure (styleCodes st k ++ t ++ r.1, r.2)

/-- As `writerLines` (src/stl_binary_writer.cc:174-205). -/
def writerLinesP (st : StyleState) (last : Option Int) : List (Line × Int) → IsoProg (Str × StyleState)
  | [] => pure ([], st)
  | (j, vp) :: js => do
    let a ← writerBlocksP st j.blocks
    let r ← writerLinesP a.2 (some vp) js
    pure (writerBreaks last vp ++ a.1 ++ r.1, r.2)

/-- As `writerText` (src/stl_binary_writer.cc:168-216). -/
def writerTextP (lines : List (Line × Int)) : IsoProg Str := do
  let r ← writerLinesP {} none lines
  pure (r.1 ++ (if r.2.underline then [0x83] else []) ++ (if r.2.italic then [0x81] else []) ++ [0x8f])

/-- As `ttiBlocks` (src/stl_binary_writer.cc:157-279). -/
def ttiBlocksP (fps : Rat) (i : Subtitle) : IsoProg (List Str) := do
  let vps ← writerVposes i.lines
  let text ← writerTextP (i.lines.zip vps)
  let cum ← cumulativeStatusEnumToFile .notCumulative
  let rn ← toInt (f32 (fps * 1000))
  let rate : FRate := ⟨rn, 1000⟩
  let ff ← i.from_.framesAt rate
  let tf ← i.to_.framesAt rate
  let top ← optGet (writerTop none vps)
  match i.lines with
  | [] => .done (.error (.ub .emptyContainer))
  | first :: _ => do
    let just ← justificationEnumToFile (hrefJustification first.hpos.ref)
    let comment ← commentEnumToFile .no
    pure ((writerChunks text.length 0 text).map (fun c =>
      [1, 0, 0, c.1, lowByte cum,
        lowByte i.from_.hours, lowByte i.from_.minutes, lowByte i.from_.seconds, lowByte ff,
        lowByte i.to_.hours, lowByte i.to_.minutes, lowByte i.to_.seconds, lowByte tf,
        lowByte top, lowByte just, lowByte comment] ++ c.2))

/-- As `makeTtiBlocks` (src/stl_binary_writer.cc:148-282). -/
def makeTtiBlocksP (fps : Rat) : List Subtitle → IsoProg (List Str)
  | [] => pure []
  | s :: ss => do
    let a ← ttiBlocksP fps s
    let b ← makeTtiBlocksP fps ss
    pure (a ++ b)

/-- As `writeStlIn`: `sub::write_stl_binary` (src/stl_binary_writer.cc:287-393). -/
def writeStlP (l : Locale) (a : StlArgs) : IsoProg Str := do
  a.check
  let tti ← makeTtiBlocksP a.fps a.subtitles
  let gsi ← stlGsi l a tti.length
  pure (gsi ++ tti.flatten)

/-! ### A process -/

/-- A piece of the program on the tables as they are: the tables afterwards, and the outcome.  After undefined behaviour the tables mean nothing. -/
def IsoProg.run {α : Type} (t : IsoTables) : IsoProg α → IsoTables × R α
  | .done r => (t, r)
  | .decode s k =>
    match isoDecodeSt t s with
    | .ok (t', w) => (k w).run t'
    | .error e => (t, .error e)
  | .encode w k =>
    match isoEncodeSt t w with
    | .ok (t', o) => (k o).run t'
    | .error e => (t, .error e)

/-- Something done with a binary STL file. -/
inductive StlAction where
  | read (file : Str)
  | write (l : Locale) (a : StlArgs)

/-- What came of it. -/
inductive StlOutcome where
  | read (r : R (StlInfo × List Raw))
  | wrote (r : R Str)

/-- Whether the process is past saving. -/
def StlOutcome.undefined : StlOutcome → Bool
  | .read (.error (.ub _)) => true
  | .wrote (.error (.ub _)) => true
  | _ => false

/-- An action on the tables as they are. -/
def StlAction.run (t : IsoTables) : StlAction → IsoTables × StlOutcome
  | .read file => let r := (stlReadP file).run t; (r.1, .read r.2)
  | .write l a => let r := (writeStlP l a).run t; (r.1, .wrote r.2)

/-- A process that does several things, one after another, up to undefined behaviour. -/
def stlProcess (t : IsoTables) : List StlAction → List StlOutcome
  | [] => []
  | a :: as =>
    let r := a.run t
    r.2 :: if r.2.undefined then [] else stlProcess r.1 as

end LibSub
