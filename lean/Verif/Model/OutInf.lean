/-
src/util.cc (`dump`), tools/dumpsubs.cc and src/stl_binary_writer.cc once more, for subtitles at places that may be infinite or no numbers.  Only what holds such places is
repeated; Dump.lean, DumpSubs.lean and StlWriter.lean have the rest.
-/
import Verif.Model.SrtInf
import Verif.Model.DumpSubs
import Verif.Model.StlWriter

namespace LibSub

/-! ### src/util.cc -/

/-- `os << f` for a `float` (src/util.cc:117), as `showFloat`.  The sign of "not a number" is not modelled here, as that of zero: the program may print `-nan` (see SignBits.lean). -/
def showFloatX : XF → Str
  | .fin x => showFloat x
  | .inf neg => if neg then b!"-inf" else b!"inf"
  | .nan => b!"nan"

/-- The position part of a line (src/util.cc:114-139). -/
def dumpPosX (v : VPos) (prop : Option XF) : Str :=
  b!"\t" ++
  (match prop with
    | some p => showFloatX p ++ b!" of screen"
    | none =>
      match v.line, v.lines with
      | some l, some n => intDec l ++ b!" lines of " ++ intDec n
      | _, _ => [])
  ++ (match v.ref with
    | some r => b!" from " ++ vrefText r
    | none => [])
  ++ b!"\t"

/-- One line (src/util.cc:112-167). -/
def dumpLineX (l : XLine) : Str := dumpPosX l.vpos l.vprop ++ dumpBlocks false false (l.blocks.map XBlock.block) ++ b!"\n"

/-- The subtitles (src/util.cc:109-170), numbered from `n`. -/
def dumpSubsX (n : Nat) : List XSubtitle → Str
  | [] => []
  | i :: is =>
    b!"Subtitle " ++ natDec n ++ b!" at " ++ timeToStr i.from_ ++ b!" -> " ++ timeToStr i.to_ ++ b!"\n"
    ++ (i.lines.map dumpLineX).flatten ++ dumpSubsX (n + 1) is

/-- `sub::dump` (src/util.cc:100-171) of a reader without metadata. -/
def dumpX (raws : List XRaw) : R Str := do
  let subs ← collectX raws
  pure (dumpSubsX 0 subs)

/-! ### tools/dumpsubs.cc -/

/-- `main` of tools/dumpsubs.cc (tools/dumpsubs.cc:38-82): only in SubRip files may there be such places (src/reader_factory.cc:51-59). -/
def dumpsubsX (fs : Str → Entry) (args : List Str) : Exit :=
  match dumpsubsArgs args with
  | some [path] =>
    if toLower (extension path) = b!".srt" then
      match fs path with
      | .file s =>
        match srtReadX (linesOfFile s) with
        | .error e => .failed e []
        | .ok raws =>
          match dumpX raws with
          | .ok out => .done out
          | .error e => .failed e []
      | _ => dumpsubs fs args
    else dumpsubs fs args
  | _ => dumpsubs fs args

/-! ### src/stl_binary_writer.cc -/

/-- C++ conversion of a floating value to `int`: undefined if the truncated value does not fit, and for all that is no number. -/
def toIntX : XF → R Int
  | .fin x => toInt x
  | _ => .error (.ub .floatToInt)

/-- `rint` leaves infinities and NaN as they are. -/
def XF.rint : XF → XF
  | .fin x => .fin (LibSub.rint x)
  | x => x

/-- The static function `vertical_position` (src/stl_binary_writer.cc:110-146). -/
def writerVposX (line : XLine) : R Int :=
  match line.vprop with
  | some p =>
    let a := (p.mul (.fin stlRows)).f32
    match line.vpos.ref.getD .topOfScreen with
    | .topOfScreen => toIntX a.rint
    | .centreOfScreen => toIntX (a.add (.fin (23 / 2))).f64.rint
    | .bottomOfScreen => toIntX ((XF.fin stlRows).sub a).f32.rint
    | .topOfSubtitle => .ok 0
  | none =>
    match line.vpos.line with
    | some l => do
      let n ← optGet line.vpos.lines
      let prop := intRatioX l n
      match line.vpos.ref.getD .topOfScreen with
      | .topOfScreen => toIntX (prop.mul (.fin stlRows)).f32
      | .centreOfScreen => toIntX ((prop.add (.fin (1 / 2))).f64.mul (.fin stlRows)).f64
      | .bottomOfScreen => toIntX (((XF.fin 1).sub prop).f32.mul (.fin stlRows)).f32
      | .topOfSubtitle => .ok 0
    | none => .ok 0

/-- Vertical positions of all lines, in order (src/stl_binary_writer.cc:161-166, 177). -/
def writerVposesX : List XLine → R (List Int)
  | [] => .ok []
  | l :: ls => do
    let v ← writerVposX l
    let vs ← writerVposesX ls
    pure (v :: vs)

/-- A line without the places and sizes that are apart: the rest of the writer does not use them. -/
def XLine.line (l : XLine) : Line := { blocks := l.blocks.map XBlock.block, hpos := l.hpos, vpos := l.vpos }

/-- The blocks for one subtitle (src/stl_binary_writer.cc:157-279). -/
def ttiBlocksX (fps : Rat) (i : XSubtitle) : R (List Str) := do
  let vps ← writerVposesX i.lines
  let text ← writerText ((i.lines.map XLine.line).zip vps)
  let cum ← cumulativeStatusEnumToFile .notCumulative
  let rn ← toInt (f32 (fps * 1000))
  let rate : FRate := ⟨rn, 1000⟩
  let ff ← i.from_.framesAt rate
  let tf ← i.to_.framesAt rate
  let top ← optGet (writerTop none vps)
  match i.lines with
  | [] => .error (.ub .emptyContainer)
  | first :: _ => do
    let just ← justificationEnumToFile (hrefJustification first.hpos.ref)
    let comment ← commentEnumToFile .no
    pure ((writerChunks text.length 0 text).map (fun c =>
      [1, 0, 0, c.1, lowByte cum,
        lowByte i.from_.hours, lowByte i.from_.minutes, lowByte i.from_.seconds, lowByte ff,
        lowByte i.to_.hours, lowByte i.to_.minutes, lowByte i.to_.seconds, lowByte tf,
        lowByte top, lowByte just, lowByte comment] ++ c.2))

/-- `make_tti_blocks` (src/stl_binary_writer.cc:148-282). -/
def makeTtiBlocksX (fps : Rat) : List XSubtitle → R (List Str)
  | [] => .ok []
  | s :: ss => do
    let a ← ttiBlocksX fps s
    let b ← makeTtiBlocksX fps ss
    pure (a ++ b)

end LibSub
