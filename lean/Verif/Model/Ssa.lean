/-
src/ssa_reader.h, src/ssa_reader.cc
-/
import Verif.Model.Subtitle

namespace LibSub

/-- The optional `0x` in front of hex digits. -/
def stripHexPrefix (cs : Str) : Str :=
  match cs with
  | 48 :: x :: d :: rest => if (x == 120 || x == 88) && isXDigit d then d :: rest else cs
  | _ => cs

/-- `strtoll (s, nullptr, 16)`: white space, optional sign, optional `0x`, hex digits; saturating. -/
def strtollHex (s : Str) : Int :=
  let (neg, cs) := takeSign (s.dropWhile isSpace)
  let v : Int := hexVal ((stripHexPrefix cs).takeWhile isXDigit)
  let v := if neg then -v else v
  if v > 9223372036854775807 then 9223372036854775807
  else if v < -9223372036854775808 then -9223372036854775808 else v

/-- `((v & (0xff << 8*k)) >> 8*k) / 255.0` stored in a `float` (src/ssa_reader.cc:73-75, 186-188). -/
def byteComp (v : Int) (k : Nat) : Rat :=
  f32 (f64 (((v.fdiv (2 ^ (8 * k))).fmod 256 : Int) / 255))

/-- `h_colour` (src/ssa_reader.cc:56-77).  `s[1]` of a one-character string is the terminating NUL. -/
def hColour (s : Str) : R Colour :=
  match s with
  | 38 :: 72 :: _ =>
    let v := strtollHex (s.dropWhile (fun c => c == 38 || c == 72))
    .ok ⟨byteComp v 0, byteComp v 1, byteComp v 2⟩
  | _ => .error (.ssa (b!"Badly formatted colour tag " ++ s))

/-- `Style` (src/ssa_reader.cc:79-192), with the defaults of its constructors. -/
structure SsaStyle where
  name : Str := []
  fontName : Option Str := none
  fontSize : Int := 72
  primaryColour : Colour := ⟨255, 255, 255⟩
  backColour : Option Colour := none
  bold : Bool := false
  italic : Bool := false
  underline : Bool := false
  effect : Option Effect := none
  href : HRef := .centre
  vref : VRef := .bottomOfScreen
  vmargin : Int := 0
  lmargin : Int := 0
  rmargin : Int := 0
  deriving DecidableEq, Repr

/-- `Style::colour` (src/ssa_reader.cc:177-191). -/
def SsaStyle.colour (c : Str) : R Colour :=
  match c with
  | 38 :: _ => hColour c
  | _ => do
    let i ← rawConvertInt c
    pure ⟨byteComp i 0, byteComp i 1, byteComp i 2⟩

/-- One iteration of the loop in `Style::Style` (src/ssa_reader.cc:112-157); `key` and `v` are already
trimmed. -/
def SsaStyle.field (s : SsaStyle) (key v : Str) : R SsaStyle :=
  if key = b!"Name" then .ok { s with name := v }
  else if key = b!"Fontname" then .ok { s with fontName := some v }
  else if key = b!"Fontsize" then do let x ← rawConvertInt v; pure { s with fontSize := x }
  else if key = b!"PrimaryColour" then do let x ← SsaStyle.colour v; pure { s with primaryColour := x }
  else if key = b!"BackColour" then do let x ← SsaStyle.colour v; pure { s with backColour := some x }
  else if key = b!"Bold" then .ok { s with bold := v == b!"-1" }
  else if key = b!"Italic" then .ok { s with italic := v == b!"-1" }
  else if key = b!"Underline" then .ok { s with underline := v == b!"-1" }
  else if key = b!"BorderStyle" then .ok (if v = b!"1" then { s with effect := some .shadow } else s)
  else if key = b!"Alignment" then
    .ok { s with
      vref :=
        if v = b!"7" ∨ v = b!"8" ∨ v = b!"9" then .topOfScreen
        else if v = b!"4" ∨ v = b!"5" ∨ v = b!"6" then .centreOfScreen
        else .bottomOfScreen
      href :=
        if v = b!"1" ∨ v = b!"4" ∨ v = b!"7" then .left
        else if v = b!"3" ∨ v = b!"6" ∨ v = b!"9" then .right
        else .centre }
  else if key = b!"MarginV" then do let x ← rawConvertInt v; pure { s with vmargin := x }
  else if key = b!"MarginL" then do let x ← rawConvertInt v; pure { s with lmargin := x }
  else if key = b!"MarginR" then do let x ← rawConvertInt v; pure { s with rmargin := x }
  else .ok s

/-- The loop in `Style::Style` (src/ssa_reader.cc:112-157). -/
def SsaStyle.fields (s : SsaStyle) : List (Str × Str) → R SsaStyle
  | [] => .ok s
  | (k, v) :: rest => do
    let s' ← s.field (trim k) (trim v)
    s'.fields rest

/-- `b` is a comma, for `is_any_of (",")`. -/
def isComma (c : Byte) : Bool := c == 44

/-- `Style::Style (format_line, style_line)` (src/ssa_reader.cc:93-158). -/
def SsaStyle.make (formatLine styleLine : Str) : R SsaStyle := do
  let keys := splitAny isComma formatLine
  let style := splitAny isComma styleLine
  subAssert (!keys.isEmpty)
  subAssert (!style.isEmpty)
  subAssert (keys.length == style.length)
  SsaStyle.fields {} (keys.zip style)

/-- `SSAReader::Context` (src/ssa_reader.h:44-62). -/
structure SsaContext where
  resX : Int
  resY : Int
  primaryColour : Colour
  lmargin : Int := 0
  rmargin : Int := 0

/-- `float (a) / b` for `int`s. -/
def intRatio (a b : Int) : R Rat := do
  let q ← fdiv (f32 a) (f32 b)
  pure (f32 q)

/-- `SSAReader::Context::update_horizontal_position` (src/ssa_reader.cc:195-209). -/
def SsaContext.updateH (ctx : SsaContext) (sub : Raw) : R Raw := do
  let p ←
    match sub.hpos.ref with
    | .left => intRatio ctx.lmargin ctx.resX
    | .centre => do
      let d ← ck (ctx.lmargin - ctx.rmargin)
      let w ← ck (2 * ctx.resX)
      intRatio d w
    | .right => intRatio ctx.rmargin ctx.resX
  pure { sub with hpos := { sub.hpos with prop := p } }

/-- `SSAReader::parse_time` (src/ssa_reader.cc:212-224). -/
def ssaParseTime (t : Str) : R Time :=
  match splitAny (fun c => c == 58 || c == 46) t with
  | [a, b, c, d] => do
    let h ← rawConvertInt a
    let m ← rawConvertInt b
    let s ← rawConvertInt c
    let cs ← rawConvertInt d
    let ms ← ck (cs * 10)
    Time.fromHms h m s ms
  | _ => .error .programming

/-- Set both references, then `update_horizontal_position`: the body shared by the nine
`\an` cases (src/ssa_reader.cc:242-277). -/
def ssaAlign (ctx : SsaContext) (sub : Raw) (h : HRef) (v : VRef) : R Raw :=
  ctx.updateH { sub with hpos := { sub.hpos with ref := h }, vpos := { sub.vpos with ref := some v } }

/-- `SSAReader::parse_tag` (src/ssa_reader.cc:227-299). -/
def ssaParseTag (ctx : SsaContext) (sub : Raw) (tag : Str) : R Raw :=
  if tag = b!"\\i1" then .ok { sub with italic := true }
  else if tag = b!"\\i0" ∨ tag = b!"\\i" then .ok { sub with italic := false }
  else if tag = b!"\\b1" then .ok { sub with bold := true }
  else if tag = b!"\\b0" then .ok { sub with bold := false }
  else if tag = b!"\\u1" then .ok { sub with underline := true }
  else if tag = b!"\\u0" then .ok { sub with underline := false }
  else if tag = b!"\\an1" then ssaAlign ctx sub .left .bottomOfScreen
  else if tag = b!"\\an2" then ssaAlign ctx sub .centre .bottomOfScreen
  else if tag = b!"\\an3" then ssaAlign ctx sub .right .bottomOfScreen
  else if tag = b!"\\an4" then ssaAlign ctx sub .left .centreOfScreen
  else if tag = b!"\\an5" then ssaAlign ctx sub .centre .centreOfScreen
  else if tag = b!"\\an6" then ssaAlign ctx sub .right .centreOfScreen
  else if tag = b!"\\an7" then ssaAlign ctx sub .left .topOfScreen
  else if tag = b!"\\an8" then ssaAlign ctx sub .centre .topOfScreen
  else if tag = b!"\\an9" then ssaAlign ctx sub .right .topOfScreen
  else if startsWith tag b!"\\pos" then
    match splitAny (fun c => c == 40 || c == 44) tag with
    | [_, x, y] => do
      let fx ← rawConvertFloat x
      let hp ← fdiv fx (f32 ctx.resX)
      let fy ← rawConvertFloat y
      let vp ← fdiv fy (f32 ctx.resY)
      pure { sub with hpos := ⟨.left, f32 hp⟩, vpos := { sub.vpos with ref := some .topOfScreen, prop := some (f32 vp) } }
    | _ => .error .programming
  else if startsWith tag b!"\\fs" then do
    subAssert (decide (tag.length > 3))
    let f ← rawConvertFloat (tag.drop 3)
    let q ← fdiv f (f32 ctx.resY)
    pure { sub with fontSize := { sub.fontSize with prop := some (f32 q) } }
  else if startsWith tag b!"\\c" then
    if tag.length > 2 then do
      let c ← hColour ((tag.drop 2).take (tag.length - 3))
      pure { sub with colour := c }
    else .ok { sub with colour := ctx.primaryColour }
  else .ok sub

/-- The number of `i` with `line[i] = '\\'` and `line[i+1] = 'n'` or `'N'`
(src/ssa_reader.cc:339-347). -/
def ssaLineBreaks : Str → Nat
  | a :: b :: rest => (if a == 92 && (b == 110 || b == 78) then 1 else 0) + ssaLineBreaks (b :: rest)
  | _ => 0

/-- States of the loop in `parse_line` (src/ssa_reader.cc:308-312). -/
inductive SsaState where
  | text
  | tag
  | backslash
  deriving DecidableEq, Repr

/-- Local variables of the loop in `parse_line`. -/
structure SsaLoop where
  state : SsaState := .text
  subs : List Raw := []
  current : Raw
  tag : Str := []
  deriving DecidableEq, Repr

/-- `if (!current.text.empty ()) { subs.push_back (current); current.text = ""; }`
(src/ssa_reader.cc:366-369, 382-385). -/
def SsaLoop.flush (l : SsaLoop) : SsaLoop :=
  if l.current.text.isEmpty then l
  else { l with subs := l.subs ++ [l.current], current := { l.current with text := [] } }

/-- `x ± line_size`: a `float` and a `double`, stored back to `float` (src/ssa_reader.cc:387-391). -/
def ssaMoveDown (lineSize : Rat) (v : VPos) : R VPos := do
  let ref ← optGet v.ref
  let p ← optGet v.prop
  if ref = .bottomOfScreen then pure { v with prop := some (f32 (f64 (p - lineSize))) }
  else pure { v with prop := some (f32 (f64 (p + lineSize))) }

/-- One iteration of the loop in `parse_line` (src/ssa_reader.cc:352-396). -/
def ssaStep (ctx : SsaContext) (lineSize : Rat) (l : SsaLoop) (c : Byte) : R SsaLoop :=
  match l.state with
  | .text =>
    if c == 123 then .ok { l with state := .tag }
    else if c == 92 then .ok { l with state := .backslash }
    else if c != 13 && c != 10 then .ok { l with current := { l.current with text := l.current.text ++ [c] } }
    else .ok l
  | .tag =>
    if c == 125 then do
      let l := l.flush
      let cur ← ssaParseTag ctx l.current l.tag
      pure { l with current := cur, tag := [], state := .text }
    else if c == 92 then do
      let l := l.flush
      let cur ← ssaParseTag ctx l.current l.tag
      pure { l with current := cur, tag := [c] }
    else .ok { l with tag := l.tag ++ [c] }
  | .backslash =>
    if c == 110 || c == 78 then do
      let l := l.flush
      let v ← ssaMoveDown lineSize l.current.vpos
      pure { l with current := { l.current with vpos := v }, state := .text }
    else .ok { l with state := .text }

/-- The loop in `parse_line` (src/ssa_reader.cc:352-396). -/
def ssaRun (ctx : SsaContext) (lineSize : Rat) (l : SsaLoop) : Str → R SsaLoop
  | [] => .ok l
  | c :: cs => do
    let l' ← ssaStep ctx lineSize l c
    ssaRun ctx lineSize l' cs

/-- The final positioning of one sub (src/ssa_reader.cc:403-422). -/
def ssaFinishPos (basePos : VPos) (breaks : Nat) (lineSize : Rat) (sub : Raw) : R Raw := do
  let ref ← optGet sub.vpos.ref
  let p ← optGet sub.vpos.prop
  let margin := basePos.prop.getD 0
  let p' :=
    match ref with
    | .topOfScreen => f32 (p + margin)
    | .topOfSubtitle => f32 (p + margin)
    | .centreOfScreen => f32 (f64 (p - f64 (f64 ((breaks + 1 : Nat) * lineSize) / 2)))
    | .bottomOfScreen => f32 (f64 (f32 (p + margin) + f64 (breaks * lineSize)))
  pure { sub with vpos := { sub.vpos with prop := some p' } }

@[inherit_doc ssaFinishPos]
def ssaFinishAll (basePos : VPos) (breaks : Nat) (lineSize : Rat) : List Raw → R (List Raw)
  | [] => .ok []
  | s :: ss => do
    let s' ← ssaFinishPos basePos breaks lineSize s
    let ss' ← ssaFinishAll basePos breaks lineSize ss
    pure (s' :: ss')

/-- The preparation of `current` at the start of `parse_line` (src/ssa_reader.cc:315-337). -/
def ssaPrepare (ctx : SsaContext) (base : Raw) : R Raw := do
  let cur := { base with vpos := { base.vpos with ref := some (base.vpos.ref.getD .bottomOfScreen), prop := some 0 } }
  let cur ← ctx.updateH cur
  match cur.fontSize.prop with
  | some _ => pure cur
  | none => do
    let q ← fdiv 72 ctx.resY
    pure { cur with fontSize := { cur.fontSize with prop := some (f32 (f64 q)) } }

/-- `SSAReader::parse_line` (src/ssa_reader.cc:305-425). -/
def ssaParseLine (ctx : SsaContext) (base : Raw) (line : Str) : R (List Raw) := do
  let cur ← ssaPrepare ctx base
  let breaks := ssaLineBreaks line
  let fs ← cur.fontSize.proportionalAt ctx.resY
  let lineSize := f64 (fs * f64 (6/5))
  let l ← ssaRun ctx lineSize { current := cur } line
  ssaFinishAll base.vpos breaks lineSize l.flush.subs

/-- `part` in `SSAReader::read` (src/ssa_reader.cc:430-434). -/
inductive SsaPart where
  | info
  | styles
  | events
  deriving DecidableEq, Repr

/-- State of `SSAReader::read` (src/ssa_reader.cc:430-440).  `styles` is a `map`; here an association
list in which the first entry for a name is the current one. -/
structure SsaRead where
  part : SsaPart := .info
  resX : Int := 288
  resY : Int := 288
  styles : List (Str × SsaStyle) := []
  styleFormat : Str := []
  eventFormat : List Str := []
  subs : List Raw := []
  deriving DecidableEq, Repr

/-- Variables of the event loop (src/ssa_reader.cc:513-516). -/
structure SsaEvent where
  sub : Raw := {}
  style : Option SsaStyle := none
  lmargin : Int := 0
  rmargin : Int := 0
  subs : List Raw := []
  deriving DecidableEq, Repr

/-- `styles.find`: the specified style, else "Default", else none (src/ssa_reader.cc:529-538). -/
def ssaFindStyle (styles : List (Str × SsaStyle)) (name : Str) : Option SsaStyle :=
  match styles.lookup name with
  | some s => some s
  | none => styles.lookup b!"Default"

/-- Applying a style to the subtitle under construction (src/ssa_reader.cc:539-553). -/
def ssaApplyStyle (resY : Int) (ev : SsaEvent) (st : SsaStyle) : R SsaEvent := do
  let fs ← intRatio st.fontSize resY
  let vp ←
    if st.vref != .centreOfScreen then do
      let q ← intRatio st.vmargin resY
      pure (some q)
    else pure ev.sub.vpos.prop
  pure { ev with
    style := some st
    lmargin := st.lmargin
    rmargin := st.rmargin
    sub := { ev.sub with
      font := st.fontName
      fontSize := FontSize.fromProportional fs
      colour := st.primaryColour
      effectColour := st.backColour
      bold := st.bold
      italic := st.italic
      underline := st.underline
      effect := st.effect
      hpos := { ev.sub.hpos with ref := st.href }
      vpos := { ev.sub.vpos with ref := some st.vref, prop := vp } } }

/-- One iteration of the event loop (src/ssa_reader.cc:518-573). -/
def ssaEventField (r : SsaRead) (ev : SsaEvent) (fmt raw : Str) : R SsaEvent :=
  let v := trim raw
  if fmt = b!"Start" then do
    let t ← ssaParseTime v
    pure { ev with sub := { ev.sub with from_ := t } }
  else if fmt = b!"End" then do
    let t ← ssaParseTime v
    pure { ev with sub := { ev.sub with to_ := t } }
  else if fmt = b!"Style" then
    match ssaFindStyle r.styles (trimLeftIf (· == 42) v) with
    | none => .ok ev
    | some st => ssaApplyStyle r.resY ev st
  else if fmt = b!"MarginV" then
    if v ≠ b!"0" ∧ ev.sub.vpos.ref ≠ some .centreOfScreen then do
      let f ← rawConvertFloat v
      let q ← fdiv f (f32 r.resY)
      pure { ev with sub := { ev.sub with vpos := { ev.sub.vpos with prop := some (f32 q) } } }
    else .ok ev
  else if fmt = b!"MarginL" then
    if v ≠ b!"0" then do let x ← rawConvertInt v; pure { ev with lmargin := x } else .ok ev
  else if fmt = b!"MarginR" then
    if v ≠ b!"0" then do let x ← rawConvertInt v; pure { ev with rmargin := x } else .ok ev
  else if fmt = b!"Text" then do
    let ctx : SsaContext :=
      { resX := r.resX, resY := r.resY,
        primaryColour := match ev.style with | some s => s.primaryColour | none => ⟨1, 1, 1⟩,
        lmargin := ev.lmargin, rmargin := ev.rmargin }
    let subs ← ssaParseLine ctx ev.sub v
    pure { ev with subs := ev.subs ++ subs }
  else .ok ev

@[inherit_doc ssaEventField]
def ssaEventFields (r : SsaRead) (ev : SsaEvent) : List (Str × Str) → R SsaEvent
  | [] => .ok ev
  | (k, v) :: rest => do
    let ev' ← ssaEventField r ev k v
    ssaEventFields r ev' rest

/-- The `while (event.size() > event_format.size())` loop (src/ssa_reader.cc:504-508): join the last
two parts with a comma.  `fuel` = number of parts is enough. -/
def ssaRejoin (n : Nat) : Nat → List Str → List Str
  | 0, ev => ev
  | fuel + 1, ev =>
    if ev.length > n then
      match ev.reverse with
      | ex :: b :: rest => ssaRejoin n fuel (rest.reverse ++ [b ++ [44] ++ ex])
      | _ => ev
    else ev

/-- A `Dialogue` line (src/ssa_reader.cc:497-573). -/
def ssaDialogue (r : SsaRead) (body : Str) : R SsaRead := do
  subAssert (!r.eventFormat.isEmpty)
  let parts := splitAny isComma body
  let event := ssaRejoin r.eventFormat.length parts.length parts
  subAssert (!event.isEmpty)
  subAssert (r.eventFormat.length == event.length)
  let ev ← ssaEventFields r {} (r.eventFormat.zip event)
  pure { r with subs := r.subs ++ ev.subs }

/-- One line of the file (src/ssa_reader.cc:448-575). -/
def ssaLine (r : SsaRead) (raw : Str) : R SsaRead :=
  let line := removeBom (trim raw)
  if startsWith line b!";" ∨ line = [] then .ok r
  else if startsWith line b!"[" then
    if line = b!"[Script Info]" then .ok { r with part := .info }
    else if line = b!"[V4 Styles]" ∨ line = b!"[V4+ Styles]" then .ok { r with part := .styles }
    else if line = b!"[Events]" then .ok { r with part := .events }
    else .ok r
  else
    match line.findIdx? (· == 58) with
    | none => .error .programming
    | some colon =>
      let type := line.take colon
      let body := trim (line.drop (colon + 1))
      match r.part with
      | .info =>
        if type = b!"PlayResX" then do let x ← rawConvertInt body; pure { r with resX := x }
        else if type = b!"PlayResY" then do let x ← rawConvertInt body; pure { r with resY := x }
        else .ok r
      | .styles =>
        if type = b!"Format" then .ok { r with styleFormat := body }
        else if type = b!"Style" then do
          subAssert (!r.styleFormat.isEmpty)
          let s ← SsaStyle.make r.styleFormat body
          pure { r with styles := (s.name, s) :: r.styles }
        else .ok r
      | .events =>
        if type = b!"Format" then .ok { r with eventFormat := (splitAny isComma body).map trim }
        else if type = b!"Dialogue" then ssaDialogue r body
        else .ok r

/-- `SSAReader::read` (src/ssa_reader.cc:427-578) over the lines supplied by `get_line`. -/
def ssaLines (r : SsaRead) : List Str → R SsaRead
  | [] => .ok r
  | l :: ls => do
    let r' ← ssaLine r l
    ssaLines r' ls

/-- `SSAReader (string)`: the raw subtitles. -/
def ssaReadString (s : Str) : R (List Raw) := do
  let r ← ssaLines {} (linesOfString s)
  pure r.subs

/-- `SSAReader (FILE*)`: the raw subtitles. -/
def ssaReadFile (s : Str) : R (List Raw) := do
  let r ← ssaLines {} (linesOfFile s)
  pure r.subs

end LibSub
