/-
src/web_vtt_reader.cc
-/
import Verif.Model.SubRip

namespace LibSub

/-- `State` in `WebVTTReader::read` (src/web_vtt_reader.cc:55-64). -/
inductive VttState where
  | header
  | data
  | subtitle
  | note
  deriving DecidableEq, Repr

/-- `s.find (sub) != npos`. -/
def containsStr (sub : Str) : Str → Bool
  | [] => startsWith [] sub
  | c :: cs => startsWith (c :: cs) sub || containsStr sub cs

/-- A timing line (src/web_vtt_reader.cc:97-126); `rest` are the lines not yet read. -/
def vttTiming (ctx : List Str) (line : Str) (rest : List Str) (rs : Raw) : R Raw :=
  let line := trimRightIf (· == 32) line
  let p := splitCompress (· == 32) line
  if p.length ≠ 3 ∧ p.length ≠ 7 then
    .error (.webvtt line b!"a time line" (ctx ++ rest.take 2))
  else
    let p0 := p.getD 0 []
    let p2 := p.getD 2 []
    do
      match ← convertTime p0 b!"." with
      | .error e => .error (.webvtt p0 e ctx)
      | .ok from_ =>
        match ← convertTime p2 b!"." with
        | .error e => .error (.webvtt p2 e ctx)
        | .ok to_ => pure { rs with from_ := from_, to_ := to_, vpos := { rs.vpos with line := some 0 } }

/-- The loop over sub-lines (src/web_vtt_reader.cc:139-143). -/
def vttSubLines : List Str → Raw → List Raw → R (Raw × List Raw)
  | [], rs, subs => .ok (rs, subs)
  | t :: ts, rs, subs => do
    let rs := { rs with text := t }
    let l ← optGet rs.vpos.line
    let l' ← ck (l + 1)
    vttSubLines ts { rs with vpos := { rs.vpos with line := some l' } } (subs ++ [rs])

/-- The loop of `WebVTTReader::read` (src/web_vtt_reader.cc:71-153). -/
def vttLines : VttState → List Str → Raw → List Raw → List Str → R (List Raw)
  | _, _, _, subs, [] => .ok subs
  | state, ctx, rs, subs, raw :: rest =>
    let line := removeBom (trimRightIf isNlCr raw)
    let ctx := pushContext ctx line
    match state with
    | .header =>
      if startsWith line b!"WEBVTT" then vttLines .data ctx rs subs rest
      else .error .webvttHeader
    | .data =>
      if startsWith line b!"NOTE" then vttLines .note ctx rs subs rest
      else if containsStr b!"-->" line then do
        let rs ← vttTiming ctx line rest rs
        vttLines .subtitle ctx rs subs rest
      else vttLines .data ctx rs subs rest
    | .subtitle =>
      if line = [] then vttLines .data ctx rs subs rest
      else do
        let (rs, subs) ← vttSubLines (splitStr lineSep line) rs subs
        vttLines .subtitle ctx rs subs rest
    | .note =>
      if line = [] then vttLines .data ctx rs subs rest
      else vttLines .note ctx rs subs rest

/-- `WebVTTReader::read` (src/web_vtt_reader.cc:52-154). -/
def vttRead (lines : List Str) : R (List Raw) :=
  vttLines .header [] { vpos := { line := some 0, ref := some .topOfSubtitle } } [] lines

/-- `WebVTTReader (string)` (src/web_vtt_reader.cc:46-49). -/
def vttReadString (s : Str) : R (List Raw) := vttRead (linesOfString s)

/-- `WebVTTReader (FILE*)` (src/web_vtt_reader.cc:40-43). -/
def vttReadFile (s : Str) : R (List Raw) := vttRead (linesOfFile s)

end LibSub
