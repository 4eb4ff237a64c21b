/-
src/subrip_reader.cc
-/
import Verif.Model.Ssa

namespace LibSub

/-- `SubripReader::convert_time` (src/subrip_reader.cc:169-223).  The inner `Except` is the
`optional<Time>` with the text stored through `expected` on failure.  (The message built by
`String::compose ("time in the format h:m:s%1ms", sep)` is written out.) -/
def convertTime (t sep : Str) : R (Except Str Time) :=
  match splitAny (· == 58) t with
  | [a0, a1, a2] =>
    match splitAny (fun c => sep.contains c) a2 with
    | [b0, b1] =>
      match lexicalCastInt a0 with
      | .error _ => .ok (.error b!"integer hour value")
      | .ok h =>
        match lexicalCastInt a1 with
        | .error _ => .ok (.error b!"integer minute value")
        | .ok m =>
          match lexicalCastInt b0 with
          | .error _ => .ok (.error b!"integer second value")
          | .ok s =>
            match lexicalCastInt b1 with
            | .error _ => .ok (.error b!"integer millisecond value")
            | .ok ms => do
              let t ← Time.fromHms h m s ms
              pure (.ok t)
    | _ => .ok (.error (b!"time in the format h:m:s" ++ sep ++ b!"ms"))
  | _ => .ok (.error b!"time in the format h:m:s,ms")

/-- What the chain of `has_next` tests in `convert_line` finds at the current position
(src/subrip_reader.cc:245-319). -/
inductive Tok where
  | bold (b : Bool)
  | italic (b : Bool)
  | underline (b : Bool)
  /-- `<font`; `tag` is what follows up to `>` -/
  | fontOpen (tag : Str)
  | fontClose
  /-- `{\`; `tag` starts with the backslash and goes up to `}` -/
  | ssa (tag : Str)
  | chr (c : Byte)
  deriving DecidableEq, Repr

/-- `has_next` (src/subrip_reader.cc:231-241): the next characters, in lower case, are `s`
(all the patterns used are equal to their own lower case). -/
def hasNext (t s : Str) : Bool := toLower (t.take s.length) == s

/-- The token at the start of the non-empty string `c :: cs`, and the rest
(src/subrip_reader.cc:245-319).  For tags with an argument the rest starts after the terminator
(`++i` may step past the end of the string, which ends the loop). -/
def nextTok (c : Byte) (cs : Str) : Tok × Str :=
  let t := c :: cs
  if hasNext t b!"<b>" || hasNext t b!"{b}" then (.bold true, t.drop 3)
  else if hasNext t b!"</b>" || hasNext t b!"{/b}" then (.bold false, t.drop 4)
  else if hasNext t b!"<i>" || hasNext t b!"{i}" then (.italic true, t.drop 3)
  else if hasNext t b!"</i>" || hasNext t b!"{/i}" then (.italic false, t.drop 4)
  else if hasNext t b!"<u>" || hasNext t b!"{u}" then (.underline true, t.drop 3)
  else if hasNext t b!"</u>" || hasNext t b!"{/u}" then (.underline false, t.drop 4)
  else if hasNext t b!"<font" then
    let tag := (t.drop 5).takeWhile (· != 62)
    (.fontOpen tag, (t.drop 5).drop (tag.length + 1))
  else if hasNext t b!"</font>" then (.fontClose, t.drop 7)
  else if hasNext t b!"{\\" then
    let tag := (t.drop 2).takeWhile (· != 125)
    (.ssa (92 :: tag), (t.drop 2).drop (tag.length + 1))
  else (.chr c, cs)

/-- `regex_search` with a pattern `.*X`: `X` must match at some position and, `.*` being greedy, the
last such position is used.  `f` is the match of `X` at the start of a string. -/
def lastMatch {α : Type} (f : Str → Option α) : Str → Option α
  | [] => f []
  | c :: cs =>
    match lastMatch f cs with
    | some r => some r
    | none => f (c :: cs)

/-- `color=["']?#([[:xdigit:]]+)["']?` at the start of `s`; the captured group
(src/subrip_reader.cc:265). -/
def fontHexAt (s : Str) : Option Str :=
  if startsWith s b!"color=" then
    let r := s.drop 6
    let r := match r with
      | 34 :: r' => r'
      | 39 :: r' => r'
      | _ => r
    match r with
    | 35 :: ds =>
      let g := ds.takeWhile isXDigit
      if g.isEmpty then none else some g
    | _ => none
  else none

/-- `[[:space:]]*([[:digit:]]+)[[:space:]]*` followed by the byte `stop`: the group and the rest. -/
def spacedInt (stop : Byte) (s : Str) : Option (Str × Str) :=
  let s1 := s.dropWhile isSpace
  let ds := takeDigits s1
  if ds.isEmpty then none
  else
    match (s1.drop ds.length).dropWhile isSpace with
    | c :: rest => if c == stop then some (ds, rest) else none
    | [] => none

/-- `color="rgba\(…\)"` at the start of `s`: the first three captured groups
(src/subrip_reader.cc:284-291). -/
def fontRgbaAt (s : Str) : Option (Str × Str × Str) :=
  if startsWith s b!"color=\"rgba(" then
    match spacedInt 44 (s.drop 12) with
    | none => none
    | some (r, s1) =>
      match spacedInt 44 s1 with
      | none => none
      | some (g, s2) =>
        match spacedInt 44 s2 with
        | none => none
        | some (b, s3) =>
          match spacedInt 41 s3 with
          | none => none
          | some (_, s4) => if startsWith s4 b!"\"" then some (r, g, b) else none
  else none

/-- The text given to `SubripError` for a bad colour (src/subrip_reader.cc:281, 298). -/
def badColourText : Str := b!"a colour in the format #rrggbb #rrggbbaa or rgba(rr,gg,bb,aa)"

/-- `raw_convert<int> (s) / 255.0` stored in a `float` (src/subrip_reader.cc:293-295). -/
def decComp (s : Str) : R Rat := do
  let i ← rawConvertInt s
  pure (f32 (f64 (i / 255)))

/-- The colour given by a `<font` tag (src/subrip_reader.cc:265-300). -/
def fontColour (lineNumber : Nat) (ctx : List Str) (tag : Str) : R Colour :=
  match lastMatch fontHexAt tag with
  | some g =>
    if g.length = 6 then Colour.fromRgbHex g
    else if g.length = 8 then Colour.fromRgbaHex g
    else .error (.subrip lineNumber tag badColourText ctx)
  | none =>
    match lastMatch fontRgbaAt tag with
    | some (r, g, b) => do
      let r ← decComp r
      let g ← decComp g
      let b ← decComp b
      pure ⟨r, g, b⟩
    | none => .error (.subrip lineNumber tag badColourText ctx)

/-- Variables of `convert_line`: the subtitle under construction, the colour stack (top last) and
`_subs`. -/
structure SrtLine where
  p : Raw
  colours : List Colour
  subs : List Raw
  deriving DecidableEq, Repr

/-- `SubripReader::maybe_content` (src/subrip_reader.cc:330-338). -/
def SrtLine.maybeContent (s : SrtLine) : SrtLine :=
  if s.p.text.isEmpty then s
  else { s with subs := s.subs ++ [s.p], p := { s.p with text := [] } }

/-- The context passed to `parse_tag` (src/subrip_reader.cc:315). -/
def srtSsaContext : SsaContext := { resX := 288, resY := 288, primaryColour := ⟨1, 1, 1⟩ }

/-- The action for one token (src/subrip_reader.cc:245-319). -/
def SrtLine.exec (lineNumber : Nat) (ctx : List Str) (s : SrtLine) : Tok → R SrtLine
  | .bold b => .ok (let s := s.maybeContent; { s with p := { s.p with bold := b } })
  | .italic b => .ok (let s := s.maybeContent; { s with p := { s.p with italic := b } })
  | .underline b => .ok (let s := s.maybeContent; { s with p := { s.p with underline := b } })
  | .fontOpen tag => do
    let s := s.maybeContent
    let c ← fontColour lineNumber ctx tag
    pure { s with p := { s.p with colour := c }, colours := s.colours ++ [c] }
  | .fontClose =>
    let s := s.maybeContent
    if s.colours.isEmpty then .ok s
    else
      match s.colours.dropLast.getLast? with
      | some c => .ok { s with p := { s.p with colour := c }, colours := s.colours.dropLast }
      | none => .error (.ub .emptyContainer)
  | .ssa tag => do
    let p ← ssaParseTag srtSsaContext s.p tag
    pure { s with p := p }
  | .chr c => .ok { s with p := { s.p with text := s.p.text ++ [c] } }

/-- The loop of `convert_line` (src/subrip_reader.cc:243-320); every iteration consumes at least one
byte, so `t.length` is enough fuel. -/
def srtLoop (lineNumber : Nat) (ctx : List Str) : Nat → SrtLine → Str → R SrtLine
  | _, s, [] => .ok s
  | 0, s, _ :: _ => .ok s
  | fuel + 1, s, c :: cs => do
    let s' ← s.exec lineNumber ctx (nextTok c cs).1
    srtLoop lineNumber ctx fuel s' (nextTok c cs).2

/-- U+202B in UTF-8. -/
def rle : Str := [0xe2, 0x80, 0xab]

/-- U+2028 in UTF-8. -/
def lineSep : Str := [0xe2, 0x80, 0xa8]

/-- `SubripReader::convert_line` (src/subrip_reader.cc:225-328): the new `p` and `_subs`. -/
def convertLine (lineNumber : Nat) (ctx : List Str) (t : Str) (p : Raw) (subs : List Raw) : R (Raw × List Raw) := do
  let s ← srtLoop lineNumber ctx t.length { p := p, colours := [⟨1, 1, 1⟩], subs := subs } t
  let s := { s with p := { s.p with text := replaceAll s.p.text rle [] } }
  let s := s.maybeContent
  pure (s.p, s.subs)

/-- The loop over sub-lines (src/subrip_reader.cc:158-162). -/
def convertSubLines (lineNumber : Nat) (ctx : List Str) : List Str → Raw → List Raw → R (Raw × List Raw)
  | [], p, subs => .ok (p, subs)
  | t :: ts, p, subs => do
    let (p, subs) ← convertLine lineNumber ctx t p subs
    let l ← optGet p.vpos.line
    let l' ← ck (l + 1)
    convertSubLines lineNumber ctx ts { p with vpos := { p.vpos with line := some l' }, text := [] } subs

/-- `state` in `SubripReader::read` (src/subrip_reader.cc:68-72). -/
inductive SrtState where
  | counter
  | metadata
  | content
  deriving DecidableEq, Repr

/-- A `RawSubtitle` after `prepare` (src/subrip_reader.cc:75-78). -/
def srtFresh : Raw := { vpos := { line := some 0, ref := some .topOfSubtitle } }

/-- `_context` after pushing a line: at most 5 lines (src/subrip_reader.cc:94-98). -/
def pushContext (ctx : List Str) (line : Str) : List Str :=
  let ctx := ctx ++ [line]
  if ctx.length > 5 then ctx.drop 1 else ctx

/-- A time/position line (src/subrip_reader.cc:115-142); `rest` are the lines not yet read. -/
def srtMetadata (lineNumber : Nat) (ctx : List Str) (line : Str) (rest : List Str) (rs : Raw) : R Raw :=
  let line := trimRightIf (· == 32) line
  let p := splitCompress (· == 32) line
  if p.length ≠ 3 ∧ p.length ≠ 7 then
    .error (.subrip lineNumber line b!"a time/position line" (ctx ++ rest.take 2))
  else
    let p0 := p.getD 0 []
    let p2 := p.getD 2 []
    do
      match ← convertTime p0 b!"," with
      | .error e => .error (.subrip lineNumber p0 e ctx)
      | .ok from_ =>
        match ← convertTime p2 b!"," with
        | .error e => .error (.subrip lineNumber p2 e ctx)
        | .ok to_ => pure { rs with from_ := from_, to_ := to_ }

/-- The loop of `SubripReader::read` (src/subrip_reader.cc:84-166).  `n` is `line_number` before the
line is read; it is not bounded (an `int` in the code: files of more than 2^31 lines are out of scope). -/
def srtLines : Nat → SrtState → List Str → Raw → List Raw → List Str → R (List Raw)
  | _, _, _, _, subs, [] => .ok subs
  | n, state, ctx, rs, subs, raw :: rest =>
    let line := removeBom (trimRightIf isNlCr raw)
    let ctx := pushContext ctx line
    match state with
    | .counter =>
      if line = [] then srtLines (n + 1) .counter ctx rs subs rest
      else srtLines (n + 1) .metadata ctx srtFresh subs rest
    | .metadata => do
      let rs ← srtMetadata (n + 1) ctx line rest rs
      srtLines (n + 1) .content ctx rs subs rest
    | .content =>
      if line = [] then srtLines (n + 1) .counter ctx rs subs rest
      else do
        let (rs, subs) ← convertSubLines (n + 1) ctx (splitStr lineSep line) rs subs
        srtLines (n + 1) .content ctx rs subs rest

/-- `SubripReader::read` (src/subrip_reader.cc:65-167). -/
def srtRead (lines : List Str) : R (List Raw) := srtLines 0 .counter [] srtFresh [] lines

/-- `SubripReader (string)` (src/subrip_reader.cc:54-57). -/
def srtReadString (s : Str) : R (List Raw) := srtRead (linesOfString s)

/-- `SubripReader (FILE*)` (src/subrip_reader.cc:60-63). -/
def srtReadFile (s : Str) : R (List Raw) := srtRead (linesOfFile s)

end LibSub
