/-
src/subrip_reader.cc, src/collect.h, src/util.cc (`dump`) and tools/dumpsubs.cc once more, with the sign bit of `vertical_position.proportional`: a number that is written with a minus sign
keeps it even if it is zero or "not a number", and `dump` prints it.  The only place of a SubRip file that such a number comes from is a tag `\pos`.  Only what holds the sign bit is
repeated; SrtInf.lean and OutInf.lean have the rest.
-/
import Verif.Model.OutInf

namespace LibSub

/-- Whether `%f` finds a number here, after a sign: "inf", "infinity", "nan", or digits, after `0x` hexadecimal ones (glibc, as `scanFloatX`). -/
def numberHere (cs : Str) : Bool :=
  if startsWithNoCase cs b!"inf" then !startsWithNoCase cs b!"infi" || startsWithNoCase cs b!"infinity"
  else if startsWithNoCase cs b!"nan" then true
  else
    let m := if startsWithNoCase cs b!"0x" then scanMant isXDigit b!"." (cs.drop 2) else scanMant isDigit b!"." cs
    !m.1.isEmpty || !m.2.1.isEmpty

/-- The sign bit of `raw_convert<float> (v)` (src/raw_convert.cc:55-60, src/locale_convert.cc:85-92): without a number it is that of the 0 that was there before.  `strtof` gives
a number that is rounded to zero its sign. -/
def floatSign (v : Str) : Bool :=
  let (neg, cs) := takeSign ((makeLocal Locale.c v).dropWhile isSpace)
  neg && numberHere cs

/-- A raw subtitle and the sign bit of its vertical position. -/
structure SRaw where
  x : XRaw
  neg : Bool := false
  deriving DecidableEq, Repr

/-- `SSAReader::parse_tag` (src/ssa_reader.cc:227-300): `\pos` sets the vertical position (src/ssa_reader.cc:285), with the sign of the number, as the height of the screen is positive. -/
def ssaParseTagS (sub : SRaw) (tag : Str) : R SRaw := do
  let x ← ssaParseTagX srtSsaContext sub.x tag
  if startsWith tag b!"\\pos" then
    match splitAny (fun c => c == 40 || c == 44) tag with
    | [_, _, y] => pure ⟨x, floatSign y⟩
    | _ => pure ⟨x, sub.neg⟩
  else pure ⟨x, sub.neg⟩

/-- Variables of `convert_line`. -/
structure SrtLineS where
  p : SRaw
  colours : List Colour
  subs : List SRaw
  deriving DecidableEq, Repr

/-- `SubripReader::maybe_content` (src/subrip_reader.cc:330-338). -/
def SrtLineS.maybeContent (s : SrtLineS) : SrtLineS :=
  if s.p.x.raw.text.isEmpty then s
  else { s with subs := s.subs ++ [s.p], p := ⟨{ s.p.x with raw := { s.p.x.raw with text := [] } }, s.p.neg⟩ }

/-- The action for one token (src/subrip_reader.cc:245-319). -/
def SrtLineS.exec (lineNumber : Nat) (ctx : List Str) (s : SrtLineS) : Tok → R SrtLineS
  | .bold b => .ok (let s := s.maybeContent; { s with p := ⟨{ s.p.x with raw := { s.p.x.raw with bold := b } }, s.p.neg⟩ })
  | .italic b => .ok (let s := s.maybeContent; { s with p := ⟨{ s.p.x with raw := { s.p.x.raw with italic := b } }, s.p.neg⟩ })
  | .underline b => .ok (let s := s.maybeContent; { s with p := ⟨{ s.p.x with raw := { s.p.x.raw with underline := b } }, s.p.neg⟩ })
  | .fontOpen tag => do
    let s := s.maybeContent
    let c ← fontColour lineNumber ctx tag
    pure { s with p := ⟨{ s.p.x with raw := { s.p.x.raw with colour := c } }, s.p.neg⟩, colours := s.colours ++ [c] }
  | .fontClose =>
    let s := s.maybeContent
    if s.colours.isEmpty then .ok s
    else
      match s.colours.dropLast.getLast? with
      | some c => .ok { s with p := ⟨{ s.p.x with raw := { s.p.x.raw with colour := c } }, s.p.neg⟩, colours := s.colours.dropLast }
      | none => .error (.ub .emptyContainer)
  | .ssa tag => do
    let p ← ssaParseTagS s.p tag
    pure { s with p := p }
  | .chr c => .ok { s with p := ⟨{ s.p.x with raw := { s.p.x.raw with text := s.p.x.raw.text ++ [c] } }, s.p.neg⟩ }

/-- The loop of `convert_line` (src/subrip_reader.cc:243-320). -/
def srtLoopS (lineNumber : Nat) (ctx : List Str) : Nat → SrtLineS → Str → R SrtLineS
  | _, s, [] => .ok s
  | 0, s, _ :: _ => .ok s
  | fuel + 1, s, c :: cs => do
    let s' ← s.exec lineNumber ctx (nextTok c cs).1
    srtLoopS lineNumber ctx fuel s' (nextTok c cs).2

/-- `SubripReader::convert_line` (src/subrip_reader.cc:225-328). -/
def convertLineS (lineNumber : Nat) (ctx : List Str) (t : Str) (p : SRaw) (subs : List SRaw) : R (SRaw × List SRaw) := do
  let s ← srtLoopS lineNumber ctx t.length { p := p, colours := [⟨1, 1, 1⟩], subs := subs } t
  let s := { s with p := ⟨{ s.p.x with raw := { s.p.x.raw with text := replaceAll s.p.x.raw.text rle [] } }, s.p.neg⟩ }
  let s := s.maybeContent
  pure (s.p, s.subs)

/-- The loop over sub-lines (src/subrip_reader.cc:158-162). -/
def convertSubLinesS (lineNumber : Nat) (ctx : List Str) : List Str → SRaw → List SRaw → R (SRaw × List SRaw)
  | [], p, subs => .ok (p, subs)
  | t :: ts, p, subs => do
    let (p, subs) ← convertLineS lineNumber ctx t p subs
    let l ← optGet p.x.raw.vpos.line
    let l' ← ck (l + 1)
    convertSubLinesS lineNumber ctx ts ⟨{ p.x with raw := { p.x.raw with vpos := { p.x.raw.vpos with line := some l' }, text := [] } }, p.neg⟩ subs

/-- The loop of `SubripReader::read` (src/subrip_reader.cc:84-166). -/
def srtLinesS : Nat → SrtState → List Str → SRaw → List SRaw → List Str → R (List SRaw)
  | _, _, _, _, subs, [] => .ok subs
  | n, state, ctx, rs, subs, raw :: rest =>
    let line := removeBom (trimRightIf isNlCr raw)
    let ctx := pushContext ctx line
    match state with
    | .counter =>
      if line = [] then srtLinesS (n + 1) .counter ctx rs subs rest
      else srtLinesS (n + 1) .metadata ctx ⟨{ raw := srtFresh }, false⟩ subs rest
    | .metadata => do
      let r ← srtMetadata (n + 1) ctx line rest rs.x.raw
      srtLinesS (n + 1) .content ctx ⟨{ rs.x with raw := r }, rs.neg⟩ subs rest
    | .content =>
      if line = [] then srtLinesS (n + 1) .counter ctx rs subs rest
      else do
        let (rs, subs) ← convertSubLinesS (n + 1) ctx (splitStr lineSep line) rs subs
        srtLinesS (n + 1) .content ctx rs subs rest

/-- `SubripReader::read` (src/subrip_reader.cc:65-167). -/
def srtReadS (lines : List Str) : R (List SRaw) := srtLinesS 0 .counter [] ⟨{ raw := srtFresh }, false⟩ [] lines

/-! ### src/collect.h -/

/-- `sub::Line` (src/subtitle.h:77-96) and the sign bit of its vertical position. -/
structure SLine where
  x : XLine
  neg : Bool
  deriving DecidableEq, Repr

/-- `sub::Subtitle` (src/subtitle.h:106-126): the lines are apart, `x` has none. -/
structure SSubtitle where
  x : XSubtitle
  lines : List SLine
  deriving DecidableEq, Repr

/-- `Line::Line (RawSubtitle)` (src/subtitle.cc:39-44). -/
def SLine.ofRaw (s : SRaw) : SLine := ⟨XLine.ofRaw s.x, s.neg⟩

/-- `Subtitle::Subtitle (RawSubtitle)` (src/subtitle.cc:24-31). -/
def SSubtitle.ofRaw (s : SRaw) : SSubtitle := ⟨{ XSubtitle.ofRaw s.x with lines := [] }, [SLine.ofRaw s]⟩

/-- The body of the loop in `collect` (src/collect.h:42-58).  `==` of floats does not see the sign of zero. -/
def collectStepS (st : List SSubtitle × Option SSubtitle) (i : SRaw) : R (List SSubtitle × Option SSubtitle) :=
  match st.2 with
  | none => .ok (st.1, some (SSubtitle.ofRaw i))
  | some cur => do
    let same ← cur.x.sameMetadata i.x
    if same then
      match cur.lines.getLast? with
      | some l =>
        if l.x.sameMetadata i.x then
          pure (st.1, some { cur with lines := cur.lines.dropLast ++ [⟨{ l.x with blocks := l.x.blocks ++ [XBlock.ofRaw i.x] }, l.neg⟩] })
        else
          pure (st.1, some { cur with lines := cur.lines ++ [SLine.ofRaw i] })
      | none => pure (st.1, some { cur with lines := cur.lines ++ [SLine.ofRaw i] })
    else
      pure (st.1 ++ [cur], some (SSubtitle.ofRaw i))

/-- The loop of `collect` (src/collect.h:41-58), over the sorted vector. -/
def collectLoopS (st : List SSubtitle × Option SSubtitle) : List SRaw → R (List SSubtitle × Option SSubtitle)
  | [] => .ok st
  | i :: is => do
    let st' ← collectStepS st i
    collectLoopS st' is

/-- The end of `collect` (src/collect.h:60-64). -/
def collectFinishS (st : List SSubtitle × Option SSubtitle) : List SSubtitle :=
  match st.2 with
  | none => st.1
  | some cur => st.1 ++ [cur]

/-- Puts `a` before the first element that it may precede. -/
def insertS (le : Raw → Raw → Bool) (a : SRaw) : List SRaw → List SRaw
  | [] => [a]
  | b :: l => if le a.x.raw b.x.raw then a :: b :: l else b :: insertS le a l

/-- Insertion sort, stable. -/
def sortS (le : Raw → Raw → Bool) : List SRaw → List SRaw
  | [] => []
  | a :: l => insertS le a (sortS le l)

/-- `sub::collect` (src/collect.h:33-67), with `std::stable_sort` as in `stableSortX`. -/
def collectS (raws : List SRaw) : R (List SSubtitle) := do
  allComparable (raws.map fun r => r.x.raw)
  let sorted := sortS (fun a b => match b.lt a with | .ok true => false | _ => true) raws
  let st ← collectLoopS ([], none) sorted
  pure (collectFinishS st)

/-! ### src/util.cc, tools/dumpsubs.cc -/

/-- `os << f` for a `float` (src/util.cc:117): zero and "not a number" are printed with their sign (glibc). -/
def showFloatS (neg : Bool) (x : XF) : Str :=
  match x with
  | .fin x => if x = 0 ∧ neg then b!"-0" else showFloat x
  | .inf neg => if neg then b!"-inf" else b!"inf"
  | .nan => if neg then b!"-nan" else b!"nan"

/-- The position part of a line (src/util.cc:114-139). -/
def dumpPosS (v : VPos) (prop : Option XF) (neg : Bool) : Str :=
  b!"\t" ++
  (match prop with
    | some p => showFloatS neg p ++ b!" of screen"
    | none =>
      match v.line, v.lines with
      | some l, some n => intDec l ++ b!" lines of " ++ intDec n
      | _, _ => [])
  ++ (match v.ref with
    | some r => b!" from " ++ vrefText r
    | none => [])
  ++ b!"\t"

/-- One line (src/util.cc:112-167). -/
def dumpLineS (l : SLine) : Str := dumpPosS l.x.vpos l.x.vprop l.neg ++ dumpBlocks false false (l.x.blocks.map XBlock.block) ++ b!"\n"

/-- The subtitles (src/util.cc:109-170), numbered from `n`. -/
def dumpSubsS (n : Nat) : List SSubtitle → Str
  | [] => []
  | i :: is =>
    b!"Subtitle " ++ natDec n ++ b!" at " ++ timeToStr i.x.from_ ++ b!" -> " ++ timeToStr i.x.to_ ++ b!"\n"
    ++ (i.lines.map dumpLineS).flatten ++ dumpSubsS (n + 1) is

/-- `sub::dump` (src/util.cc:100-171) of a reader without metadata. -/
def dumpS (raws : List SRaw) : R Str := do
  let subs ← collectS raws
  pure (dumpSubsS 0 subs)

/-- `main` of tools/dumpsubs.cc (tools/dumpsubs.cc:38-82), as `dumpsubsX`. -/
def dumpsubsS (fs : Str → Entry) (args : List Str) : Exit :=
  match dumpsubsArgs args with
  | some [path] =>
    if toLower (extension path) = b!".srt" then
      match fs path with
      | .file s =>
        match srtReadS (linesOfFile s) with
        | .error e => .failed e []
        | .ok raws =>
          match dumpS raws with
          | .ok out => .done out
          | .error e => .failed e []
      | _ => dumpsubs fs args
    else dumpsubs fs args
  | _ => dumpsubs fs args

end LibSub
