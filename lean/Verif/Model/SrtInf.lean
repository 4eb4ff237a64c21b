/-
src/subrip_reader.cc once more, with all of IEEE 754 except the sign of zero: the override tags of SSA (`\pos`, `\fs`) may have infinities, "not a number" and
numbers of any size in SubRip files too.  Only what holds positions and sizes is repeated; SubRip.lean has the rest.
-/
import Verif.Model.SsaInf
import Verif.Model.SubRip
import Verif.Model.Collect

namespace LibSub

/-- Variables of `convert_line`. -/
structure SrtLineX where
  p : XRaw
  colours : List Colour
  subs : List XRaw
  deriving DecidableEq, Repr

/-- `SubripReader::maybe_content` (src/subrip_reader.cc:330-338). -/
def SrtLineX.maybeContent (s : SrtLineX) : SrtLineX :=
  if s.p.raw.text.isEmpty then s
  else { s with subs := s.subs ++ [s.p], p := { s.p with raw := { s.p.raw with text := [] } } }

/-- The action for one token (src/subrip_reader.cc:245-319). -/
def SrtLineX.exec (lineNumber : Nat) (ctx : List Str) (s : SrtLineX) : Tok → R SrtLineX
  | .bold b => .ok (let s := s.maybeContent; { s with p := { s.p with raw := { s.p.raw with bold := b } } })
  | .italic b => .ok (let s := s.maybeContent; { s with p := { s.p with raw := { s.p.raw with italic := b } } })
  | .underline b => .ok (let s := s.maybeContent; { s with p := { s.p with raw := { s.p.raw with underline := b } } })
  | .fontOpen tag => do
    let s := s.maybeContent
    let c ← fontColour lineNumber ctx tag
    pure { s with p := { s.p with raw := { s.p.raw with colour := c } }, colours := s.colours ++ [c] }
  | .fontClose =>
    let s := s.maybeContent
    if s.colours.isEmpty then .ok s
    else
      match s.colours.dropLast.getLast? with
      | some c => .ok { s with p := { s.p with raw := { s.p.raw with colour := c } }, colours := s.colours.dropLast }
      | none => .error (.ub .emptyContainer)
  | .ssa tag => do
    let p ← ssaParseTagX srtSsaContext s.p tag
    pure { s with p := p }
  | .chr c => .ok { s with p := { s.p with raw := { s.p.raw with text := s.p.raw.text ++ [c] } } }

/-- The loop of `convert_line` (src/subrip_reader.cc:243-320). -/
def srtLoopX (lineNumber : Nat) (ctx : List Str) : Nat → SrtLineX → Str → R SrtLineX
  | _, s, [] => .ok s
  | 0, s, _ :: _ => .ok s
  | fuel + 1, s, c :: cs => do
    let s' ← s.exec lineNumber ctx (nextTok c cs).1
    srtLoopX lineNumber ctx fuel s' (nextTok c cs).2

/-- `SubripReader::convert_line` (src/subrip_reader.cc:225-328). -/
def convertLineX (lineNumber : Nat) (ctx : List Str) (t : Str) (p : XRaw) (subs : List XRaw) : R (XRaw × List XRaw) := do
  let s ← srtLoopX lineNumber ctx t.length { p := p, colours := [⟨1, 1, 1⟩], subs := subs } t
  let s := { s with p := { s.p with raw := { s.p.raw with text := replaceAll s.p.raw.text rle [] } } }
  let s := s.maybeContent
  pure (s.p, s.subs)

/-- The loop over sub-lines (src/subrip_reader.cc:158-162). -/
def convertSubLinesX (lineNumber : Nat) (ctx : List Str) : List Str → XRaw → List XRaw → R (XRaw × List XRaw)
  | [], p, subs => .ok (p, subs)
  | t :: ts, p, subs => do
    let (p, subs) ← convertLineX lineNumber ctx t p subs
    let l ← optGet p.raw.vpos.line
    let l' ← ck (l + 1)
    convertSubLinesX lineNumber ctx ts { p with raw := { p.raw with vpos := { p.raw.vpos with line := some l' }, text := [] } } subs

/-- The loop of `SubripReader::read` (src/subrip_reader.cc:84-166). -/
def srtLinesX : Nat → SrtState → List Str → XRaw → List XRaw → List Str → R (List XRaw)
  | _, _, _, _, subs, [] => .ok subs
  | n, state, ctx, rs, subs, raw :: rest =>
    let line := removeBom (trimRightIf isNlCr raw)
    let ctx := pushContext ctx line
    match state with
    | .counter =>
      if line = [] then srtLinesX (n + 1) .counter ctx rs subs rest
      else srtLinesX (n + 1) .metadata ctx { raw := srtFresh } subs rest
    | .metadata => do
      let r ← srtMetadata (n + 1) ctx line rest rs.raw
      srtLinesX (n + 1) .content ctx { rs with raw := r } subs rest
    | .content =>
      if line = [] then srtLinesX (n + 1) .counter ctx rs subs rest
      else do
        let (rs, subs) ← convertSubLinesX (n + 1) ctx (splitStr lineSep line) rs subs
        srtLinesX (n + 1) .content ctx rs subs rest

/-- `SubripReader::read` (src/subrip_reader.cc:65-167). -/
def srtReadX (lines : List Str) : R (List XRaw) := srtLinesX 0 .counter [] { raw := srtFresh } [] lines

/-! ### src/collect.h and what it uses -/

/-- IEEE 754: `a == b`. -/
def XF.eq : XF → XF → Bool
  | .fin a, .fin b => a == b
  | .inf s, .inf t => s == t
  | _, _ => false

/-- `operator== (optional<float>, optional<float>)` (Boost). -/
def optXFEq (a b : Option XF) : Bool :=
  match a, b with
  | none, none => true
  | some x, some y => x.eq y
  | _, _ => false

/-- `sub::Block` (src/subtitle.h:41-68) and `Block::Block (RawSubtitle)` (src/subtitle.cc:52-64): the size is apart. -/
structure XBlock where
  block : Block
  fprop : Option XF
  deriving DecidableEq, Repr

/-- `sub::Line` (src/subtitle.h:77-96): the positions are apart. -/
structure XLine where
  hpos : HPos
  vpos : VPos
  hprop : XF
  vprop : Option XF
  blocks : List XBlock
  deriving DecidableEq, Repr

/-- `sub::Subtitle` (src/subtitle.h:106-126). -/
structure XSubtitle where
  from_ : Time
  to_ : Time
  fadeUp : Option Time
  fadeDown : Option Time
  lines : List XLine
  deriving DecidableEq, Repr

/-- `Block::Block (RawSubtitle)` (src/subtitle.cc:52-64). -/
def XBlock.ofRaw (s : XRaw) : XBlock := ⟨Block.ofRaw s.raw, s.fprop⟩

/-- `Line::Line (RawSubtitle)` (src/subtitle.cc:39-44). -/
def XLine.ofRaw (s : XRaw) : XLine := ⟨s.raw.hpos, s.raw.vpos, s.hprop, s.vprop, [XBlock.ofRaw s]⟩

/-- `Subtitle::Subtitle (RawSubtitle)` (src/subtitle.cc:24-31). -/
def XSubtitle.ofRaw (s : XRaw) : XSubtitle := ⟨s.raw.from_, s.raw.to_, s.raw.fadeUp, s.raw.fadeDown, [XLine.ofRaw s]⟩

/-- `VerticalPosition::operator==` (src/vertical_position.cc:48-60). -/
def vposEqX (a : VPos) (p : Option XF) (b : VPos) (q : Option XF) : Bool :=
  if p.isSome && a.ref.isSome && q.isSome && b.ref.isSome then
    optXFEq p q && a.ref == b.ref
  else if a.ref.isSome && a.line.isSome && a.lines.isSome && b.ref.isSome && b.line.isSome && b.lines.isSome then
    a.line == b.line && a.lines == b.lines && a.ref == b.ref
  else if a.ref.isSome && a.line.isSome && b.ref.isSome && b.line.isSome then
    a.ref == b.ref && a.line == b.line
  else false

/-- `Line::same_metadata` (src/subtitle.cc:46-50). -/
def XLine.sameMetadata (l : XLine) (s : XRaw) : Bool := vposEqX l.vpos l.vprop s.raw.vpos s.vprop

/-- `Subtitle::same_metadata` (src/subtitle.cc:33-37). -/
def XSubtitle.sameMetadata (t : XSubtitle) (s : XRaw) : R Bool :=
  andM (t.from_.eq s.raw.from_) (andM (t.to_.eq s.raw.to_)
    (andM (optTimeEq t.fadeUp s.raw.fadeUp) (optTimeEq t.fadeDown s.raw.fadeDown)))

/-- The body of the loop in `collect` (src/collect.h:42-58). -/
def collectStepX (st : List XSubtitle × Option XSubtitle) (i : XRaw) : R (List XSubtitle × Option XSubtitle) :=
  match st.2 with
  | none => .ok (st.1, some (XSubtitle.ofRaw i))
  | some cur => do
    let same ← cur.sameMetadata i
    if same then
      match cur.lines.getLast? with
      | some l =>
        if l.sameMetadata i then
          pure (st.1, some { cur with lines := cur.lines.dropLast ++ [{ l with blocks := l.blocks ++ [XBlock.ofRaw i] }] })
        else
          pure (st.1, some { cur with lines := cur.lines ++ [XLine.ofRaw i] })
      | none => pure (st.1, some { cur with lines := cur.lines ++ [XLine.ofRaw i] })
    else
      pure (st.1 ++ [cur], some (XSubtitle.ofRaw i))

/-- The loop of `collect` (src/collect.h:41-58), over the sorted vector. -/
def collectLoopX (st : List XSubtitle × Option XSubtitle) : List XRaw → R (List XSubtitle × Option XSubtitle)
  | [] => .ok st
  | i :: is => do
    let st' ← collectStepX st i
    collectLoopX st' is

/-- The end of `collect` (src/collect.h:60-64). -/
def collectFinishX (st : List XSubtitle × Option XSubtitle) : List XSubtitle :=
  match st.2 with
  | none => st.1
  | some cur => st.1 ++ [cur]

/-- Puts `a` before the first element that it may precede. -/
def insertX (le : Raw → Raw → Bool) (a : XRaw) : List XRaw → List XRaw
  | [] => [a]
  | b :: l => if le a.raw b.raw then a :: b :: l else b :: insertX le a l

/-- Insertion sort, stable. -/
def sortX (le : Raw → Raw → Bool) : List XRaw → List XRaw
  | [] => []
  | a :: l => insertX le a (sortX le l)

/-- `std::stable_sort (raw.begin(), raw.end())` (src/collect.h:37), as `stableSort`: only times are compared. -/
def stableSortX (raws : List XRaw) : R (List XRaw) := do
  allComparable (raws.map XRaw.raw)
  pure (sortX (fun a b => match b.lt a with | .ok true => false | _ => true) raws)

/-- `sub::collect` (src/collect.h:33-67). -/
def collectX (raws : List XRaw) : R (List XSubtitle) := do
  let sorted ← stableSortX raws
  let st ← collectLoopX ([], none) sorted
  pure (collectFinishX st)

end LibSub
