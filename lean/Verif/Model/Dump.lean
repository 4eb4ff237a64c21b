/-
src/util.cc:100-171 (`sub::dump`), src/sub_time.cc:97-110 (`operator<<`), src/reader_factory.cc
-/
import Verif.Model.Collect
import Verif.Model.SubRip
import Verif.Model.StlText
import Verif.Model.StlReader

namespace LibSub

/-- `operator<< (ostream&, Time)` (src/sub_time.cc:97-110), on a stream with default formatting. -/
def timeToStr (t : Time) : Str :=
  setwPad 2 t.hours ++ b!":" ++ setwPad 2 t.minutes ++ b!":" ++ setwPad 2 t.seconds ++ b!":" ++ intDec t.frames
    ++ match t.rate with
      | some r => b!" @ " ++ intDec r.num ++ b!"/" ++ intDec r.den
      | none => []

/-- The text of a reference (src/util.cc:123-136). -/
def vrefText : VRef → Str
  | .topOfScreen => b!"top"
  | .centreOfScreen => b!"centre"
  | .bottomOfScreen => b!"bottom"
  | .topOfSubtitle => b!"top of subtitle"

/-- The position part of a line (src/util.cc:114-139); `showF` is `ostream << float`. -/
def dumpPos (showF : Rat → Str) (v : VPos) : Str :=
  b!"\t" ++
  (match v.prop with
    | some p => showF p ++ b!" of screen"
    | none =>
      match v.line, v.lines with
      | some l, some n => intDec l ++ b!" lines of " ++ intDec n
      | _, _ => [])
  ++ (match v.ref with
    | some r => b!" from " ++ vrefText r
    | none => [])
  ++ b!"\t"

/-- The blocks of a line (src/util.cc:140-165). -/
def dumpBlocks (italic underline : Bool) : List Block → Str
  | [] => (if italic then b!"</i>" else []) ++ (if underline then b!"</u>" else [])
  | k :: ks =>
    (if k.italic && !italic then b!"<i>" else if italic && !k.italic then b!"</i>" else [])
    ++ (if k.underline && !underline then b!"<u>" else if underline && !k.underline then b!"</u>" else [])
    ++ k.text ++ dumpBlocks k.italic k.underline ks

/-- One line (src/util.cc:112-167). -/
def dumpLine (showF : Rat → Str) (l : Line) : Str := dumpPos showF l.vpos ++ dumpBlocks false false l.blocks ++ b!"\n"

/-- The subtitles (src/util.cc:109-170), numbered from `n`. -/
def dumpSubs (showF : Rat → Str) (n : Nat) : List Subtitle → Str
  | [] => []
  | i :: is =>
    b!"Subtitle " ++ natDec n ++ b!" at " ++ timeToStr i.from_ ++ b!" -> " ++ timeToStr i.to_ ++ b!"\n"
    ++ (i.lines.map (dumpLine showF)).flatten ++ dumpSubs showF (n + 1) is

/-- `sub::dump` (src/util.cc:100-171) of a reader with the given metadata and subtitles. -/
def dump (showF : Rat → Str) (metadata : List (Str × Str)) (raws : List Raw) : R Str := do
  let subs ← collect raws
  pure ((metadata.map (fun kv => kv.1 ++ b!": " ++ kv.2 ++ b!"\n")).flatten ++ dumpSubs showF 0 subs)

/-! ### reader_factory -/

/-- `path::filename` for a path without a trailing slash: what follows the last `/`. -/
def fileName (path : Str) : Str := (path.reverse.takeWhile (· != 47)).reverse

/-- `path::extension` (Boost.Filesystem v3): from the last `.` of the file name; empty for `.` and `..`
and when there is no `.`. -/
def extension (path : Str) : Str :=
  let f := fileName path
  if f = b!"." ∨ f = b!".." then []
  else if f.contains 46 then 46 :: (f.reverse.takeWhile (· != 46)).reverse
  else []

/-- What `reader_factory` returns: no reader, or a reader with its metadata and subtitles. -/
inductive FactoryResult where
  | none
  | stlBinary (info : StlInfo) (subs : List Raw)
  | stlText (subs : List Raw)
  | subrip (subs : List Raw)
  deriving DecidableEq, Repr

/-- `sub::reader_factory` (src/reader_factory.cc:34-62); `contents` is the file, `none` if it cannot be
opened.  With fewer than 11 bytes `f.read` sets `failbit`, `seekg` does not clear it, and `STLTextReader`
finds the stream not `good ()`. -/
def readerFactory (path : Str) (contents : Option Str) : R FactoryResult :=
  let ext := toLower (extension path)
  if ext = b!".stl" then
    match contents with
    | none => .ok (.stlText [])
    | some s =>
      if 11 ≤ s.length then
        if (s.drop 3).take 3 = b!"STL" then do
          let (info, subs) ← stlRead s
          pure (.stlBinary info subs)
        else do
          let subs ← stlTextRead s
          pure (.stlText subs)
      else .ok (.stlText [])
  else if ext = b!".srt" then
    match contents with
    | none => .error .programming
    | some s => do
      let subs ← srtReadFile s
      pure (.subrip subs)
  else .ok .none

end LibSub
