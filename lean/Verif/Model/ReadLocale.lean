/-
src/ssa_reader.cc and src/subrip_reader.cc once more, in any locale of the C library (`setlocale`): `raw_convert` consults it for the decimal point
(src/raw_convert.cc:26-33).  Only the functions that convert numbers, and what calls them, are repeated; Ssa.lean and SubRip.lean have the rest.
-/
import Verif.Model.SubRip

namespace LibSub

/-- `Style::colour` (src/ssa_reader.cc:177-191). -/
def SsaStyle.colourIn (loc : Locale) (c : Str) : R Colour :=
  match c with
  | 38 :: _ => hColour c
  | _ => do
    let i ← rawConvertIntIn loc c
    pure ⟨byteComp i 0, byteComp i 1, byteComp i 2⟩

/-- One iteration of the loop in `Style::Style` (src/ssa_reader.cc:112-157); `key` and `v` are already
trimmed. -/
def SsaStyle.fieldIn (loc : Locale) (s : SsaStyle) (key v : Str) : R SsaStyle :=
  if key = b!"Name" then .ok { s with name := v }
  else if key = b!"Fontname" then .ok { s with fontName := some v }
  else if key = b!"Fontsize" then do let x ← rawConvertIntIn loc v; pure { s with fontSize := x }
  else if key = b!"PrimaryColour" then do let x ← SsaStyle.colourIn loc v; pure { s with primaryColour := x }
  else if key = b!"BackColour" then do let x ← SsaStyle.colourIn loc v; pure { s with backColour := some x }
  else if key = b!"Bold" then .ok { s with bold := v == b!"-1" }
  else if key = b!"Italic" then .ok { s with italic := v == b!"-1" }
  else if key = b!"Underline" then .ok { s with underline := v == b!"-1" }
  else if key = b!"BorderStyle" then .ok (if v = b!"1" then { s with effect := some .shadow } else s)
  else if key = b!"Alignment" then
    .ok { s with
      vref :=
        if v = b!"7" ∨ v = b!"8" ∨ v = b!"9" then .topOfScreen
        else if v = b!"4" ∨ v = b!"5" ∨ v = b!"6" then .centreOfScreen
        else .bottomOfScreen
      href :=
        if v = b!"1" ∨ v = b!"4" ∨ v = b!"7" then .left
        else if v = b!"3" ∨ v = b!"6" ∨ v = b!"9" then .right
        else .centre }
  else if key = b!"MarginV" then do let x ← rawConvertIntIn loc v; pure { s with vmargin := x }
  else if key = b!"MarginL" then do let x ← rawConvertIntIn loc v; pure { s with lmargin := x }
  else if key = b!"MarginR" then do let x ← rawConvertIntIn loc v; pure { s with rmargin := x }
  else .ok s

/-- The loop in `Style::Style` (src/ssa_reader.cc:112-157). -/
def SsaStyle.fieldsIn (loc : Locale) (s : SsaStyle) : List (Str × Str) → R SsaStyle
  | [] => .ok s
  | (k, v) :: rest => do
    let s' ← s.fieldIn loc (trim k) (trim v)
    s'.fieldsIn loc rest

/-- `Style::Style (format_line, style_line)` (src/ssa_reader.cc:93-158). -/
def SsaStyle.makeIn (loc : Locale) (formatLine styleLine : Str) : R SsaStyle := do
  let keys := splitAny isComma formatLine
  let style := splitAny isComma styleLine
  subAssert (!keys.isEmpty)
  subAssert (!style.isEmpty)
  subAssert (keys.length == style.length)
  SsaStyle.fieldsIn loc {} (keys.zip style)

/-- `SSAReader::parse_time` (src/ssa_reader.cc:212-224). -/
def ssaParseTimeIn (loc : Locale) (t : Str) : R Time :=
  match splitAny (fun c => c == 58 || c == 46) t with
  | [a, b, c, d] => do
    let h ← rawConvertIntIn loc a
    let m ← rawConvertIntIn loc b
    let s ← rawConvertIntIn loc c
    let cs ← rawConvertIntIn loc d
    let ms ← ck (cs * 10)
    Time.fromHms h m s ms
  | _ => .error .programming

/-- `SSAReader::parse_tag` (src/ssa_reader.cc:227-299). -/
def ssaParseTagIn (loc : Locale) (ctx : SsaContext) (sub : Raw) (tag : Str) : R Raw :=
  if tag = b!"\\i1" then .ok { sub with italic := true }
  else if tag = b!"\\i0" ∨ tag = b!"\\i" then .ok { sub with italic := false }
  else if tag = b!"\\b1" then .ok { sub with bold := true }
  else if tag = b!"\\b0" then .ok { sub with bold := false }
  else if tag = b!"\\u1" then .ok { sub with underline := true }
  else if tag = b!"\\u0" then .ok { sub with underline := false }
  else if tag = b!"\\an1" then ssaAlign ctx sub .left .bottomOfScreen
  else if tag = b!"\\an2" then ssaAlign ctx sub .centre .bottomOfScreen
  else if tag = b!"\\an3" then ssaAlign ctx sub .right .bottomOfScreen
  else if tag = b!"\\an4" then ssaAlign ctx sub .left .centreOfScreen
  else if tag = b!"\\an5" then ssaAlign ctx sub .centre .centreOfScreen
  else if tag = b!"\\an6" then ssaAlign ctx sub .right .centreOfScreen
  else if tag = b!"\\an7" then ssaAlign ctx sub .left .topOfScreen
  else if tag = b!"\\an8" then ssaAlign ctx sub .centre .topOfScreen
  else if tag = b!"\\an9" then ssaAlign ctx sub .right .topOfScreen
  else if startsWith tag b!"\\pos" then
    match splitAny (fun c => c == 40 || c == 44) tag with
    | [_, x, y] => do
      let fx ← rawConvertFloatIn loc x
      let hp ← fdiv fx (f32 ctx.resX)
      let fy ← rawConvertFloatIn loc y
      let vp ← fdiv fy (f32 ctx.resY)
      pure { sub with hpos := ⟨.left, f32 hp⟩, vpos := { sub.vpos with ref := some .topOfScreen, prop := some (f32 vp) } }
    | _ => .error .programming
  else if startsWith tag b!"\\fs" then do
    subAssert (decide (tag.length > 3))
    let f ← rawConvertFloatIn loc (tag.drop 3)
    let q ← fdiv f (f32 ctx.resY)
    pure { sub with fontSize := { sub.fontSize with prop := some (f32 q) } }
  else if startsWith tag b!"\\c" then
    if tag.length > 2 then do
      let c ← hColour ((tag.drop 2).take (tag.length - 3))
      pure { sub with colour := c }
    else .ok { sub with colour := ctx.primaryColour }
  else .ok sub

/-- One iteration of the loop in `parse_line` (src/ssa_reader.cc:352-396). -/
def ssaStepIn (loc : Locale) (ctx : SsaContext) (lineSize : Rat) (l : SsaLoop) (c : Byte) : R SsaLoop :=
  match l.state with
  | .text =>
    if c == 123 then .ok { l with state := .tag }
    else if c == 92 then .ok { l with state := .backslash }
    else if c != 13 && c != 10 then .ok { l with current := { l.current with text := l.current.text ++ [c] } }
    else .ok l
  | .tag =>
    if c == 125 then do
      let l := l.flush
      let cur ← ssaParseTagIn loc ctx l.current l.tag
      pure { l with current := cur, tag := [], state := .text }
    else if c == 92 then do
      let l := l.flush
      let cur ← ssaParseTagIn loc ctx l.current l.tag
      pure { l with current := cur, tag := [c] }
    else .ok { l with tag := l.tag ++ [c] }
  | .backslash =>
    if c == 110 || c == 78 then do
      let l := l.flush
      let v ← ssaMoveDown lineSize l.current.vpos
      pure { l with current := { l.current with vpos := v }, state := .text }
    else .ok { l with state := .text }

/-- The loop in `parse_line` (src/ssa_reader.cc:352-396). -/
def ssaRunIn (loc : Locale) (ctx : SsaContext) (lineSize : Rat) (l : SsaLoop) : Str → R SsaLoop
  | [] => .ok l
  | c :: cs => do
    let l' ← ssaStepIn loc ctx lineSize l c
    ssaRunIn loc ctx lineSize l' cs

/-- `SSAReader::parse_line` (src/ssa_reader.cc:305-425). -/
def ssaParseLineIn (loc : Locale) (ctx : SsaContext) (base : Raw) (line : Str) : R (List Raw) := do
  let cur ← ssaPrepare ctx base
  let breaks := ssaLineBreaks line
  let fs ← cur.fontSize.proportionalAt ctx.resY
  let lineSize := f64 (fs * f64 (6/5))
  let l ← ssaRunIn loc ctx lineSize { current := cur } line
  ssaFinishAll base.vpos breaks lineSize l.flush.subs

/-- One iteration of the event loop (src/ssa_reader.cc:518-573). -/
def ssaEventFieldIn (loc : Locale) (r : SsaRead) (ev : SsaEvent) (fmt raw : Str) : R SsaEvent :=
  let v := trim raw
  if fmt = b!"Start" then do
    let t ← ssaParseTimeIn loc v
    pure { ev with sub := { ev.sub with from_ := t } }
  else if fmt = b!"End" then do
    let t ← ssaParseTimeIn loc v
    pure { ev with sub := { ev.sub with to_ := t } }
  else if fmt = b!"Style" then
    match ssaFindStyle r.styles (trimLeftIf (· == 42) v) with
    | none => .ok ev
    | some st => ssaApplyStyle r.resY ev st
  else if fmt = b!"MarginV" then
    if v ≠ b!"0" ∧ ev.sub.vpos.ref ≠ some .centreOfScreen then do
      let f ← rawConvertFloatIn loc v
      let q ← fdiv f (f32 r.resY)
      pure { ev with sub := { ev.sub with vpos := { ev.sub.vpos with prop := some (f32 q) } } }
    else .ok ev
  else if fmt = b!"MarginL" then
    if v ≠ b!"0" then do let x ← rawConvertIntIn loc v; pure { ev with lmargin := x } else .ok ev
  else if fmt = b!"MarginR" then
    if v ≠ b!"0" then do let x ← rawConvertIntIn loc v; pure { ev with rmargin := x } else .ok ev
  else if fmt = b!"Text" then do
    let ctx : SsaContext :=
      { resX := r.resX, resY := r.resY,
        primaryColour := match ev.style with | some s => s.primaryColour | none => ⟨1, 1, 1⟩,
        lmargin := ev.lmargin, rmargin := ev.rmargin }
    let subs ← ssaParseLineIn loc ctx ev.sub v
    pure { ev with subs := ev.subs ++ subs }
  else .ok ev

@[inherit_doc ssaEventFieldIn]
def ssaEventFieldsIn (loc : Locale) (r : SsaRead) (ev : SsaEvent) : List (Str × Str) → R SsaEvent
  | [] => .ok ev
  | (k, v) :: rest => do
    let ev' ← ssaEventFieldIn loc r ev k v
    ssaEventFieldsIn loc r ev' rest

/-- A `Dialogue` line (src/ssa_reader.cc:497-573). -/
def ssaDialogueIn (loc : Locale) (r : SsaRead) (body : Str) : R SsaRead := do
  subAssert (!r.eventFormat.isEmpty)
  let parts := splitAny isComma body
  let event := ssaRejoin r.eventFormat.length parts.length parts
  subAssert (!event.isEmpty)
  subAssert (r.eventFormat.length == event.length)
  let ev ← ssaEventFieldsIn loc r {} (r.eventFormat.zip event)
  pure { r with subs := r.subs ++ ev.subs }

/-- One line of the file (src/ssa_reader.cc:448-575). -/
def ssaLineIn (loc : Locale) (r : SsaRead) (raw : Str) : R SsaRead :=
  let line := removeBom (trim raw)
  if startsWith line b!";" ∨ line = [] then .ok r
  else if startsWith line b!"[" then
    if line = b!"[Script Info]" then .ok { r with part := .info }
    else if line = b!"[V4 Styles]" ∨ line = b!"[V4+ Styles]" then .ok { r with part := .styles }
    else if line = b!"[Events]" then .ok { r with part := .events }
    else .ok r
  else
    match line.findIdx? (· == 58) with
    | none => .error .programming
    | some colon =>
      let type := line.take colon
      let body := trim (line.drop (colon + 1))
      match r.part with
      | .info =>
        if type = b!"PlayResX" then do let x ← rawConvertIntIn loc body; pure { r with resX := x }
        else if type = b!"PlayResY" then do let x ← rawConvertIntIn loc body; pure { r with resY := x }
        else .ok r
      | .styles =>
        if type = b!"Format" then .ok { r with styleFormat := body }
        else if type = b!"Style" then do
          subAssert (!r.styleFormat.isEmpty)
          let s ← SsaStyle.makeIn loc r.styleFormat body
          pure { r with styles := (s.name, s) :: r.styles }
        else .ok r
      | .events =>
        if type = b!"Format" then .ok { r with eventFormat := (splitAny isComma body).map trim }
        else if type = b!"Dialogue" then ssaDialogueIn loc r body
        else .ok r

/-- `SSAReader::read` (src/ssa_reader.cc:427-578) over the lines supplied by `get_line`. -/
def ssaLinesIn (loc : Locale) (r : SsaRead) : List Str → R SsaRead
  | [] => .ok r
  | l :: ls => do
    let r' ← ssaLineIn loc r l
    ssaLinesIn loc r' ls

/-- `SSAReader (string)`: the raw subtitles. -/
def ssaReadStringIn (loc : Locale) (s : Str) : R (List Raw) := do
  let r ← ssaLinesIn loc {} (linesOfString s)
  pure r.subs

/-- `SSAReader (FILE*)`: the raw subtitles. -/
def ssaReadFileIn (loc : Locale) (s : Str) : R (List Raw) := do
  let r ← ssaLinesIn loc {} (linesOfFile s)
  pure r.subs

/-- `raw_convert<int> (s) / 255.0` stored in a `float` (src/subrip_reader.cc:293-295). -/
def decCompIn (loc : Locale) (s : Str) : R Rat := do
  let i ← rawConvertIntIn loc s
  pure (f32 (f64 (i / 255)))

/-- The colour given by a `<font` tag (src/subrip_reader.cc:265-300). -/
def fontColourIn (loc : Locale) (lineNumber : Nat) (ctx : List Str) (tag : Str) : R Colour :=
  match lastMatch fontHexAt tag with
  | some g =>
    if g.length = 6 then Colour.fromRgbHex g
    else if g.length = 8 then Colour.fromRgbaHex g
    else .error (.subrip lineNumber tag badColourText ctx)
  | none =>
    match lastMatch fontRgbaAt tag with
    | some (r, g, b) => do
      let r ← decCompIn loc r
      let g ← decCompIn loc g
      let b ← decCompIn loc b
      pure ⟨r, g, b⟩
    | none => .error (.subrip lineNumber tag badColourText ctx)

/-- The action for one token (src/subrip_reader.cc:245-319). -/
def SrtLine.execIn (loc : Locale) (lineNumber : Nat) (ctx : List Str) (s : SrtLine) : Tok → R SrtLine
  | .bold b => .ok (let s := s.maybeContent; { s with p := { s.p with bold := b } })
  | .italic b => .ok (let s := s.maybeContent; { s with p := { s.p with italic := b } })
  | .underline b => .ok (let s := s.maybeContent; { s with p := { s.p with underline := b } })
  | .fontOpen tag => do
    let s := s.maybeContent
    let c ← fontColourIn loc lineNumber ctx tag
    pure { s with p := { s.p with colour := c }, colours := s.colours ++ [c] }
  | .fontClose =>
    let s := s.maybeContent
    if s.colours.isEmpty then .ok s
    else
      match s.colours.dropLast.getLast? with
      | some c => .ok { s with p := { s.p with colour := c }, colours := s.colours.dropLast }
      | none => .error (.ub .emptyContainer)
  | .ssa tag => do
    let p ← ssaParseTagIn loc srtSsaContext s.p tag
    pure { s with p := p }
  | .chr c => .ok { s with p := { s.p with text := s.p.text ++ [c] } }

/-- The loop of `convert_line` (src/subrip_reader.cc:243-320); every iteration consumes at least one
byte, so `t.length` is enough fuel. -/
def srtLoopIn (loc : Locale) (lineNumber : Nat) (ctx : List Str) : Nat → SrtLine → Str → R SrtLine
  | _, s, [] => .ok s
  | 0, s, _ :: _ => .ok s
  | fuel + 1, s, c :: cs => do
    let s' ← s.execIn loc lineNumber ctx (nextTok c cs).1
    srtLoopIn loc lineNumber ctx fuel s' (nextTok c cs).2

/-- `SubripReader::convert_line` (src/subrip_reader.cc:225-328): the new `p` and `_subs`. -/
def convertLineIn (loc : Locale) (lineNumber : Nat) (ctx : List Str) (t : Str) (p : Raw) (subs : List Raw) : R (Raw × List Raw) := do
  let s ← srtLoopIn loc lineNumber ctx t.length { p := p, colours := [⟨1, 1, 1⟩], subs := subs } t
  let s := { s with p := { s.p with text := replaceAll s.p.text rle [] } }
  let s := s.maybeContent
  pure (s.p, s.subs)

/-- The loop over sub-lines (src/subrip_reader.cc:158-162). -/
def convertSubLinesIn (loc : Locale) (lineNumber : Nat) (ctx : List Str) : List Str → Raw → List Raw → R (Raw × List Raw)
  | [], p, subs => .ok (p, subs)
  | t :: ts, p, subs => do
    let (p, subs) ← convertLineIn loc lineNumber ctx t p subs
    let l ← optGet p.vpos.line
    let l' ← ck (l + 1)
    convertSubLinesIn loc lineNumber ctx ts { p with vpos := { p.vpos with line := some l' }, text := [] } subs

/-- The loop of `SubripReader::read` (src/subrip_reader.cc:84-166).  `n` is `line_number` before the
line is read; it is not bounded (an `int` in the code: files of more than 2^31 lines are out of scope). -/
def srtLinesIn (loc : Locale) : Nat → SrtState → List Str → Raw → List Raw → List Str → R (List Raw)
  | _, _, _, _, subs, [] => .ok subs
  | n, state, ctx, rs, subs, raw :: rest =>
    let line := removeBom (trimRightIf isNlCr raw)
    let ctx := pushContext ctx line
    match state with
    | .counter =>
      if line = [] then srtLinesIn loc (n + 1) .counter ctx rs subs rest
      else srtLinesIn loc (n + 1) .metadata ctx srtFresh subs rest
    | .metadata => do
      let rs ← srtMetadata (n + 1) ctx line rest rs
      srtLinesIn loc (n + 1) .content ctx rs subs rest
    | .content =>
      if line = [] then srtLinesIn loc (n + 1) .counter ctx rs subs rest
      else do
        let (rs, subs) ← convertSubLinesIn loc (n + 1) ctx (splitStr lineSep line) rs subs
        srtLinesIn loc (n + 1) .content ctx rs subs rest

/-- `SubripReader::read` (src/subrip_reader.cc:65-167). -/
def srtReadIn (loc : Locale) (lines : List Str) : R (List Raw) := srtLinesIn loc 0 .counter [] srtFresh [] lines

/-- `SubripReader (string)` (src/subrip_reader.cc:54-57). -/
def srtReadStringIn (loc : Locale) (s : Str) : R (List Raw) := srtReadIn loc (linesOfString s)

/-- `SubripReader (FILE*)` (src/subrip_reader.cc:60-63). -/
def srtReadFileIn (loc : Locale) (s : Str) : R (List Raw) := srtReadIn loc (linesOfFile s)

end LibSub
