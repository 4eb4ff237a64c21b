/-
The parts of the readers and of `Time` that calculate with `float` and `double`, once more, with the arithmetic of
IEEE 754 binary32 and binary64: smallest and largest exponents, gradual underflow, and overflow as a distinct outcome.
Model/Float.lean leaves out the limits of the exponent; Props/Ieee.lean shows that this makes no difference.
Each definition repeats the one of the same name in Model/Time.lean, Model/Text.lean, Model/Ssa.lean or Model/SubRip.lean.
-/
import Verif.Model.SubRip
import Verif.Model.StlWriter

namespace LibSub.Ieee

/-- Rounding to nearest, ties to even, with `p` significant bits, numbers being multiples of `2 ^ emin`.
A result of `2 ^ emax` or more is an infinity, which is not a number of the model. -/
def ieee (p : Nat) (emin emax : Int) (x : Rat) : R Rat :=
  if x = 0 then .ok 0
  else
    let u := pow2 (max (ilog2 x - ((p : Int) - 1)) emin)
    let r := (rint (x / u) : Rat) * u
    if absR r < pow2 emax then .ok r else .error .nonFinite

/-- binary32 (`float`). -/
def ieee32 (x : Rat) : R Rat := ieee 24 (-149) 128 x

/-- binary64 (`double`). -/
def ieee64 (x : Rat) : R Rat := ieee 53 (-1074) 1024 x

/-! ### src/rational.h, src/sub_time.cc -/

/-- `Rational::fraction` (src/rational.h:33-35). -/
def fraction (r : FRate) : R Rat := do
  let a ← ieee64 r.num
  let b ← ieee64 r.den
  let q ← fdiv a b
  ieee64 q

/-- `sub::max (Rational, Rational)` (src/rational.cc:35-43). -/
def rateMax (a b : FRate) : R FRate := do
  let fa ← fraction a
  let fb ← fraction b
  pure (if fa > fb then a else b)

/-- `Time::frames_at` (src/sub_time.cc:130-138). -/
def framesAt (t : Time) (rate : FRate) : R Int :=
  match t.rate with
  | none => .error .unknownFrameRate
  | some r => do
    let d ← ck (r.num * rate.den)
    let f ← ieee64 t.frames
    let x ← ieee64 r.den
    let a ← ieee64 (f * x)
    let y ← ieee64 rate.num
    let b ← ieee64 (a * y)
    let z ← ieee64 d
    let q ← fdiv b z
    let q ← ieee64 q
    toInt (rint q)

/-- `Time::all_as_seconds` (src/sub_time.cc:169-173). -/
def allAsSeconds (t : Time) : R Rat := do
  let ms ← framesAt t ⟨1000, 1⟩
  let a ← ieee64 ms
  let b ← ieee64 (a / 1000)
  let s ← ieee64 t.secs
  ieee64 (s + b)

/-- `Time::add` (src/sub_time.cc:176-184). -/
def add (a t : Time) : R Time :=
  match a.rate, t.rate with
  | some ra, some rt => do
    let rr ← rateMax ra rt
    let x ← allAsSeconds a
    let y ← allAsSeconds t
    let fr ← fraction rr
    let s ← ieee64 (x + y)
    let p ← ieee64 (s * fr)
    let n ← toInt p
    Time.fromFrames n rr
  | _, _ => .error .programming

/-- `Time::scale` (src/sub_time.cc:186-196). -/
def scale (t : Time) (f : Rat) : R Time :=
  match t.rate with
  | none => .error .programming
  | some r => do
    subAssert (r.den != 0)
    let i ← r.integer
    subAssert i
    let all ← allAsSeconds t
    let s ← ieee64 (all * f)
    let secs ← toInt s.floor
    let fr ← fraction r
    let w ← ieee64 secs
    let d ← ieee64 (s - w)
    let g ← ieee64 (d * fr)
    let frames ← toInt (rint g)
    pure ⟨secs, frames, some r⟩

/-! ### src/locale_convert.cc -/

/-- `sscanf (s, "%f", &y)` (src/locale_convert.cc:85-92), for numbers of any size. -/
def scanFloat (s : Str) : R Rat :=
  let (neg, cs) := takeSign (s.dropWhile isSpace)
  if startsWithNoCase cs b!"inf" || startsWithNoCase cs b!"nan" then .error .unmodelled
  else
    let v := if startsWithNoCase cs b!"0x" then scanHexadecimal b!"." (cs.drop 2) else scanDecimal b!"." cs
    ieee32 (if neg then -v else v)

/-- `raw_convert<float> (string)` (src/raw_convert.cc:55-60), in the "C" locale. -/
def rawConvertFloat (v : Str) : R Rat := scanFloat (makeLocal Locale.c v)

/-! ### src/ssa_reader.cc -/

/-- A component of a colour (src/ssa_reader.cc:73-75, 186-188). -/
def byteComp (v : Int) (k : Nat) : R Rat := do
  let a ← ieee64 (((v.fdiv (2 ^ (8 * k))).fmod 256 : Int) / 255)
  ieee32 a

/-- The three components. -/
def byteColour (v : Int) : R Colour := do
  let r ← byteComp v 0
  let g ← byteComp v 1
  let b ← byteComp v 2
  pure ⟨r, g, b⟩

/-- `h_colour` (src/ssa_reader.cc:56-77). -/
def hColour (s : Str) : R Colour :=
  match s with
  | 38 :: 72 :: _ => byteColour (strtollHex (s.dropWhile (fun c => c == 38 || c == 72)))
  | _ => .error (.ssa (b!"Badly formatted colour tag " ++ s))

/-- `Style::colour` (src/ssa_reader.cc:177-191). -/
def styleColour (c : Str) : R Colour :=
  match c with
  | 38 :: _ => hColour c
  | _ => do
    let i ← rawConvertInt c
    byteColour i

/-- One iteration of the loop in `Style::Style` (src/ssa_reader.cc:112-157); only colours are calculated with. -/
def styleField (s : SsaStyle) (key v : Str) : R SsaStyle :=
  if key = b!"PrimaryColour" then do let x ← styleColour v; pure { s with primaryColour := x }
  else if key = b!"BackColour" then do let x ← styleColour v; pure { s with backColour := some x }
  else s.field key v

/-- The loop in `Style::Style` (src/ssa_reader.cc:112-157). -/
def styleFields (s : SsaStyle) : List (Str × Str) → R SsaStyle
  | [] => .ok s
  | (k, v) :: rest => do
    let s' ← styleField s (trim k) (trim v)
    styleFields s' rest

/-- `Style::Style (format_line, style_line)` (src/ssa_reader.cc:93-158). -/
def styleMake (formatLine styleLine : Str) : R SsaStyle := do
  let keys := splitAny isComma formatLine
  let style := splitAny isComma styleLine
  subAssert (!keys.isEmpty)
  subAssert (!style.isEmpty)
  subAssert (keys.length == style.length)
  styleFields {} (keys.zip style)

/-- `float (a) / b` for `int`s. -/
def intRatio (a b : Int) : R Rat := do
  let x ← ieee32 a
  let y ← ieee32 b
  let q ← fdiv x y
  ieee32 q

/-- `SSAReader::Context::update_horizontal_position` (src/ssa_reader.cc:195-209). -/
def updateH (ctx : SsaContext) (sub : Raw) : R Raw := do
  let p ←
    match sub.hpos.ref with
    | .left => intRatio ctx.lmargin ctx.resX
    | .centre => do
      let d ← ck (ctx.lmargin - ctx.rmargin)
      let w ← ck (2 * ctx.resX)
      intRatio d w
    | .right => intRatio ctx.rmargin ctx.resX
  pure { sub with hpos := { sub.hpos with prop := p } }

/-- The body shared by the nine `\an` cases (src/ssa_reader.cc:242-277). -/
def ssaAlign (ctx : SsaContext) (sub : Raw) (h : HRef) (v : VRef) : R Raw :=
  updateH ctx { sub with hpos := { sub.hpos with ref := h }, vpos := { sub.vpos with ref := some v } }

/-- A number from the file divided by an `int` (src/ssa_reader.cc:283, 285, 288, 556). -/
def textRatio (v : Str) (res : Int) : R Rat := do
  let f ← rawConvertFloat v
  let y ← ieee32 res
  let q ← fdiv f y
  ieee32 q

/-- `SSAReader::parse_tag` (src/ssa_reader.cc:227-299). -/
def ssaParseTag (ctx : SsaContext) (sub : Raw) (tag : Str) : R Raw :=
  if tag = b!"\\an1" then ssaAlign ctx sub .left .bottomOfScreen
  else if tag = b!"\\an2" then ssaAlign ctx sub .centre .bottomOfScreen
  else if tag = b!"\\an3" then ssaAlign ctx sub .right .bottomOfScreen
  else if tag = b!"\\an4" then ssaAlign ctx sub .left .centreOfScreen
  else if tag = b!"\\an5" then ssaAlign ctx sub .centre .centreOfScreen
  else if tag = b!"\\an6" then ssaAlign ctx sub .right .centreOfScreen
  else if tag = b!"\\an7" then ssaAlign ctx sub .left .topOfScreen
  else if tag = b!"\\an8" then ssaAlign ctx sub .centre .topOfScreen
  else if tag = b!"\\an9" then ssaAlign ctx sub .right .topOfScreen
  else if startsWith tag b!"\\pos" then
    match splitAny (fun c => c == 40 || c == 44) tag with
    | [_, x, y] => do
      let hp ← textRatio x ctx.resX
      let vp ← textRatio y ctx.resY
      pure { sub with hpos := ⟨.left, hp⟩, vpos := { sub.vpos with ref := some .topOfScreen, prop := some vp } }
    | _ => .error .programming
  else if startsWith tag b!"\\fs" then do
    subAssert (decide (tag.length > 3))
    let q ← textRatio (tag.drop 3) ctx.resY
    pure { sub with fontSize := { sub.fontSize with prop := some q } }
  else if startsWith tag b!"\\c" then
    if tag.length > 2 then do
      let c ← hColour ((tag.drop 2).take (tag.length - 3))
      pure { sub with colour := c }
    else .ok { sub with colour := ctx.primaryColour }
  else LibSub.ssaParseTag ctx sub tag

/-- `x ± line_size` (src/ssa_reader.cc:387-391). -/
def ssaMoveDown (lineSize : Rat) (v : VPos) : R VPos := do
  let ref ← optGet v.ref
  let p ← optGet v.prop
  let a ← ieee64 (if ref = .bottomOfScreen then p - lineSize else p + lineSize)
  let b ← ieee32 a
  pure { v with prop := some b }

/-- One iteration of the loop in `parse_line` (src/ssa_reader.cc:352-396). -/
def ssaStep (ctx : SsaContext) (lineSize : Rat) (l : SsaLoop) (c : Byte) : R SsaLoop :=
  match l.state with
  | .text =>
    if c == 123 then .ok { l with state := .tag }
    else if c == 92 then .ok { l with state := .backslash }
    else if c != 13 && c != 10 then .ok { l with current := { l.current with text := l.current.text ++ [c] } }
    else .ok l
  | .tag =>
    if c == 125 then do
      let l := l.flush
      let cur ← ssaParseTag ctx l.current l.tag
      pure { l with current := cur, tag := [], state := .text }
    else if c == 92 then do
      let l := l.flush
      let cur ← ssaParseTag ctx l.current l.tag
      pure { l with current := cur, tag := [c] }
    else .ok { l with tag := l.tag ++ [c] }
  | .backslash =>
    if c == 110 || c == 78 then do
      let l := l.flush
      let v ← ssaMoveDown lineSize l.current.vpos
      pure { l with current := { l.current with vpos := v }, state := .text }
    else .ok { l with state := .text }

/-- The loop in `parse_line` (src/ssa_reader.cc:352-396). -/
def ssaRun (ctx : SsaContext) (lineSize : Rat) (l : SsaLoop) : Str → R SsaLoop
  | [] => .ok l
  | c :: cs => do
    let l' ← ssaStep ctx lineSize l c
    ssaRun ctx lineSize l' cs

/-- The final positioning of one sub (src/ssa_reader.cc:403-422). -/
def ssaFinishPos (basePos : VPos) (breaks : Nat) (lineSize : Rat) (sub : Raw) : R Raw := do
  let ref ← optGet sub.vpos.ref
  let p ← optGet sub.vpos.prop
  let margin := basePos.prop.getD 0
  let p' ←
    match ref with
    | .topOfScreen => ieee32 (p + margin)
    | .topOfSubtitle => ieee32 (p + margin)
    | .centreOfScreen => do
      let a ← ieee64 ((breaks + 1 : Nat) * lineSize)
      let b ← ieee64 (a / 2)
      let c ← ieee64 (p - b)
      ieee32 c
    | .bottomOfScreen => do
      let a ← ieee32 (p + margin)
      let b ← ieee64 (breaks * lineSize)
      let c ← ieee64 (a + b)
      ieee32 c
  pure { sub with vpos := { sub.vpos with prop := some p' } }

@[inherit_doc ssaFinishPos]
def ssaFinishAll (basePos : VPos) (breaks : Nat) (lineSize : Rat) : List Raw → R (List Raw)
  | [] => .ok []
  | s :: ss => do
    let s' ← ssaFinishPos basePos breaks lineSize s
    let ss' ← ssaFinishAll basePos breaks lineSize ss
    pure (s' :: ss')

/-- The preparation of `current` at the start of `parse_line` (src/ssa_reader.cc:315-337). -/
def ssaPrepare (ctx : SsaContext) (base : Raw) : R Raw := do
  let cur := { base with vpos := { base.vpos with ref := some (base.vpos.ref.getD .bottomOfScreen), prop := some 0 } }
  let cur ← updateH ctx cur
  match cur.fontSize.prop with
  | some _ => pure cur
  | none => do
    let y ← ieee64 ctx.resY
    let q ← fdiv 72 y
    let a ← ieee64 q
    let b ← ieee32 a
    pure { cur with fontSize := { cur.fontSize with prop := some b } }

/-- `SSAReader::parse_line` (src/ssa_reader.cc:305-425).  The proportional font size is always set here
(src/ssa_reader.cc:335-337), so `FontSize::proportional` only returns it. -/
def ssaParseLine (ctx : SsaContext) (base : Raw) (line : Str) : R (List Raw) := do
  let cur ← ssaPrepare ctx base
  let breaks := ssaLineBreaks line
  let fs ← cur.fontSize.proportionalAt ctx.resY
  let k ← ieee64 (6/5)
  let lineSize ← ieee64 (fs * k)
  let l ← ssaRun ctx lineSize { current := cur } line
  ssaFinishAll base.vpos breaks lineSize l.flush.subs

/-- Applying a style to the subtitle under construction (src/ssa_reader.cc:539-553). -/
def ssaApplyStyle (resY : Int) (ev : SsaEvent) (st : SsaStyle) : R SsaEvent := do
  let fs ← intRatio st.fontSize resY
  let vp ←
    if st.vref != .centreOfScreen then do
      let q ← intRatio st.vmargin resY
      pure (some q)
    else pure ev.sub.vpos.prop
  pure { ev with
    style := some st
    lmargin := st.lmargin
    rmargin := st.rmargin
    sub := { ev.sub with
      font := st.fontName
      fontSize := FontSize.fromProportional fs
      colour := st.primaryColour
      effectColour := st.backColour
      bold := st.bold
      italic := st.italic
      underline := st.underline
      effect := st.effect
      hpos := { ev.sub.hpos with ref := st.href }
      vpos := { ev.sub.vpos with ref := some st.vref, prop := vp } } }

/-- One iteration of the event loop (src/ssa_reader.cc:518-573). -/
def ssaEventField (r : SsaRead) (ev : SsaEvent) (fmt raw : Str) : R SsaEvent :=
  let v := trim raw
  if fmt = b!"Style" then
    match ssaFindStyle r.styles (trimLeftIf (· == 42) v) with
    | none => .ok ev
    | some st => ssaApplyStyle r.resY ev st
  else if fmt = b!"MarginV" then
    if v ≠ b!"0" ∧ ev.sub.vpos.ref ≠ some .centreOfScreen then do
      let q ← textRatio v r.resY
      pure { ev with sub := { ev.sub with vpos := { ev.sub.vpos with prop := some q } } }
    else .ok ev
  else if fmt = b!"Text" then do
    let ctx : SsaContext :=
      { resX := r.resX, resY := r.resY,
        primaryColour := match ev.style with | some s => s.primaryColour | none => ⟨1, 1, 1⟩,
        lmargin := ev.lmargin, rmargin := ev.rmargin }
    let subs ← ssaParseLine ctx ev.sub v
    pure { ev with subs := ev.subs ++ subs }
  else LibSub.ssaEventField r ev fmt raw

@[inherit_doc ssaEventField]
def ssaEventFields (r : SsaRead) (ev : SsaEvent) : List (Str × Str) → R SsaEvent
  | [] => .ok ev
  | (k, v) :: rest => do
    let ev' ← ssaEventField r ev k v
    ssaEventFields r ev' rest

/-- A `Dialogue` line (src/ssa_reader.cc:497-573). -/
def ssaDialogue (r : SsaRead) (body : Str) : R SsaRead := do
  subAssert (!r.eventFormat.isEmpty)
  let parts := splitAny isComma body
  let event := ssaRejoin r.eventFormat.length parts.length parts
  subAssert (!event.isEmpty)
  subAssert (r.eventFormat.length == event.length)
  let ev ← ssaEventFields r {} (r.eventFormat.zip event)
  pure { r with subs := r.subs ++ ev.subs }

/-- One line of the file (src/ssa_reader.cc:448-575). -/
def ssaLine (r : SsaRead) (raw : Str) : R SsaRead :=
  let line := removeBom (trim raw)
  if startsWith line b!";" ∨ line = [] then .ok r
  else if startsWith line b!"[" then
    if line = b!"[Script Info]" then .ok { r with part := .info }
    else if line = b!"[V4 Styles]" ∨ line = b!"[V4+ Styles]" then .ok { r with part := .styles }
    else if line = b!"[Events]" then .ok { r with part := .events }
    else .ok r
  else
    match line.findIdx? (· == 58) with
    | none => .error .programming
    | some colon =>
      let type := line.take colon
      let body := trim (line.drop (colon + 1))
      match r.part with
      | .info =>
        if type = b!"PlayResX" then do let x ← rawConvertInt body; pure { r with resX := x }
        else if type = b!"PlayResY" then do let x ← rawConvertInt body; pure { r with resY := x }
        else .ok r
      | .styles =>
        if type = b!"Format" then .ok { r with styleFormat := body }
        else if type = b!"Style" then do
          subAssert (!r.styleFormat.isEmpty)
          let s ← styleMake r.styleFormat body
          pure { r with styles := (s.name, s) :: r.styles }
        else .ok r
      | .events =>
        if type = b!"Format" then .ok { r with eventFormat := (splitAny isComma body).map trim }
        else if type = b!"Dialogue" then ssaDialogue r body
        else .ok r

/-- `SSAReader::read` (src/ssa_reader.cc:427-578). -/
def ssaLines (r : SsaRead) : List Str → R SsaRead
  | [] => .ok r
  | l :: ls => do
    let r' ← ssaLine r l
    ssaLines r' ls

/-- `SSAReader (string)`. -/
def ssaReadString (s : Str) : R (List Raw) := do
  let r ← ssaLines {} (linesOfString s)
  pure r.subs

/-- `SSAReader (FILE*)`. -/
def ssaReadFile (s : Str) : R (List Raw) := do
  let r ← ssaLines {} (linesOfFile s)
  pure r.subs

/-! ### src/colour.cc, src/subrip_reader.cc -/

/-- `float (i) / 255` (src/colour.cc:37, 49). -/
def comp255 (i : Int) : R Rat := do
  let a ← ieee32 i
  ieee32 (a / 255)

/-- The three components. -/
def hexColour (r g b : Int) : R Colour := do
  let r ← comp255 r
  let g ← comp255 g
  let b ← comp255 b
  pure ⟨r, g, b⟩

/-- `Colour::from_rgba_hex` (src/colour.cc:29-38). -/
def fromRgbaHex (s : Str) : R Colour :=
  match scanHex2 s with
  | none => .error (.xml b!"could not parse colour string")
  | some (r, s1) =>
    match scanHex2 s1 with
    | none => .error (.xml b!"could not parse colour string")
    | some (g, s2) =>
      match scanHex2 s2 with
      | none => .error (.xml b!"could not parse colour string")
      | some (b, s3) =>
        match scanHex2 s3 with
        | none => .error (.xml b!"could not parse colour string")
        | some _ => hexColour r g b

/-- `Colour::from_rgb_hex` (src/colour.cc:41-50). -/
def fromRgbHex (s : Str) : R Colour :=
  match scanHex2 s with
  | none => .error (.xml b!"could not parse colour string")
  | some (r, s1) =>
    match scanHex2 s1 with
    | none => .error (.xml b!"could not parse colour string")
    | some (g, s2) =>
      match scanHex2 s2 with
      | none => .error (.xml b!"could not parse colour string")
      | some (b, _) => hexColour r g b

/-- `raw_convert<int> (s) / 255.0` stored in a `float` (src/subrip_reader.cc:293-295). -/
def decComp (s : Str) : R Rat := do
  let i ← rawConvertInt s
  let a ← ieee64 i
  let q ← ieee64 (a / 255)
  ieee32 q

/-- The colour given by a `<font` tag (src/subrip_reader.cc:265-300). -/
def fontColour (lineNumber : Nat) (ctx : List Str) (tag : Str) : R Colour :=
  match lastMatch fontHexAt tag with
  | some g =>
    if g.length = 6 then fromRgbHex g
    else if g.length = 8 then fromRgbaHex g
    else .error (.subrip lineNumber tag badColourText ctx)
  | none =>
    match lastMatch fontRgbaAt tag with
    | some (r, g, b) => do
      let r ← decComp r
      let g ← decComp g
      let b ← decComp b
      pure ⟨r, g, b⟩
    | none => .error (.subrip lineNumber tag badColourText ctx)

/-- The action for one token (src/subrip_reader.cc:245-319). -/
def srtExec (lineNumber : Nat) (ctx : List Str) (s : SrtLine) : Tok → R SrtLine
  | .fontOpen tag => do
    let s := s.maybeContent
    let c ← fontColour lineNumber ctx tag
    pure { s with p := { s.p with colour := c }, colours := s.colours ++ [c] }
  | .ssa tag => do
    let p ← ssaParseTag srtSsaContext s.p tag
    pure { s with p := p }
  | t => s.exec lineNumber ctx t

/-- The loop of `convert_line` (src/subrip_reader.cc:243-320). -/
def srtLoop (lineNumber : Nat) (ctx : List Str) : Nat → SrtLine → Str → R SrtLine
  | _, s, [] => .ok s
  | 0, s, _ :: _ => .ok s
  | fuel + 1, s, c :: cs => do
    let s' ← srtExec lineNumber ctx s (nextTok c cs).1
    srtLoop lineNumber ctx fuel s' (nextTok c cs).2

/-- `SubripReader::convert_line` (src/subrip_reader.cc:225-328). -/
def convertLine (lineNumber : Nat) (ctx : List Str) (t : Str) (p : Raw) (subs : List Raw) : R (Raw × List Raw) := do
  let s ← srtLoop lineNumber ctx t.length { p := p, colours := [⟨1, 1, 1⟩], subs := subs } t
  let s := { s with p := { s.p with text := replaceAll s.p.text rle [] } }
  let s := s.maybeContent
  pure (s.p, s.subs)

/-- The loop over sub-lines (src/subrip_reader.cc:158-162). -/
def convertSubLines (lineNumber : Nat) (ctx : List Str) : List Str → Raw → List Raw → R (Raw × List Raw)
  | [], p, subs => .ok (p, subs)
  | t :: ts, p, subs => do
    let (p, subs) ← convertLine lineNumber ctx t p subs
    let l ← optGet p.vpos.line
    let l' ← ck (l + 1)
    convertSubLines lineNumber ctx ts { p with vpos := { p.vpos with line := some l' }, text := [] } subs

/-- The loop of `SubripReader::read` (src/subrip_reader.cc:84-166). -/
def srtLines : Nat → SrtState → List Str → Raw → List Raw → List Str → R (List Raw)
  | _, _, _, _, subs, [] => .ok subs
  | n, state, ctx, rs, subs, raw :: rest =>
    let line := removeBom (trimRightIf isNlCr raw)
    let ctx := pushContext ctx line
    match state with
    | .counter =>
      if line = [] then srtLines (n + 1) .counter ctx rs subs rest
      else srtLines (n + 1) .metadata ctx srtFresh subs rest
    | .metadata => do
      let rs ← srtMetadata (n + 1) ctx line rest rs
      srtLines (n + 1) .content ctx rs subs rest
    | .content =>
      if line = [] then srtLines (n + 1) .counter ctx rs subs rest
      else do
        let (rs, subs) ← convertSubLines (n + 1) ctx (splitStr lineSep line) rs subs
        srtLines (n + 1) .content ctx rs subs rest

/-- `SubripReader (string)` (src/subrip_reader.cc:54-57). -/
def srtReadString (s : Str) : R (List Raw) := srtLines 0 .counter [] srtFresh [] (linesOfString s)

/-- `SubripReader (FILE*)` (src/subrip_reader.cc:60-63). -/
def srtReadFile (s : Str) : R (List Raw) := srtLines 0 .counter [] srtFresh [] (linesOfFile s)

/-! ### src/font_size.cc, src/horizontal_position.cc, src/vertical_position.cc, src/stl_util.cc, src/stl_binary_writer.cc -/

/-- `FontSize::proportional (int)` (src/font_size.cc:24-32). -/
def proportionalAt (s : FontSize) (screenHeight : Int) : R Rat :=
  match s.prop with
  | some p => .ok p
  | none => do
    let p ← optGet s.pts
    intRatio p screenHeight

/-- `FontSize::points (int)` (src/font_size.cc:34-42). -/
def pointsAt (s : FontSize) (screenHeight : Int) : R Int :=
  match s.pts with
  | some p => .ok p
  | none => do
    let p ← optGet s.prop
    let h ← ieee32 screenHeight
    let q ← ieee32 (p * h)
    toInt q

/-- `HorizontalPosition::operator==` (src/horizontal_position.cc:27-32). -/
def hposEq (a b : HPos) : R Bool := do
  let d ← ieee32 (a.prop - b.prop)
  let e ← ieee64 (1 / 1998)
  pure (a.ref == b.ref && decide (absR d < e))

/-- `VerticalPosition::fraction_from_screen_top` (src/vertical_position.cc:25-46). -/
def fractionFromTop (v : VPos) : R Rat :=
  match v.ref with
  | none => .ok 0
  | some ref =>
    if v.prop.isNone && v.line.isNone then .ok 0
    else do
      let prop ←
        match v.prop with
        | some p => pure p
        | none => do
          let l ← optGet v.line
          let n ← optGet v.lines
          intRatio l n
      match ref with
      | .topOfScreen => pure prop
      | .centreOfScreen => do
        let a ← ieee64 (prop + 1/2)
        ieee32 a
      | .bottomOfScreen => ieee32 (1 - prop)
      | .topOfSubtitle => pure prop

/-- `about_equal` (src/stl_util.cc:29-33). -/
def aboutEqual (a b : Rat) : R Bool := do
  let d ← ieee32 (a - b)
  let e ← ieee64 (1 / 10000)
  pure (decide (absR d < e))

/-- `sub::stl_frame_rate_to_dfc` (src/stl_util.cc:35-50). -/
def stlFrameRateToDfc (r : Rat) : R Str := do
  let film ← ieee32 (23976 / 1000)
  if ← aboutEqual r film then pure b!"STL23.01"
  else if ← aboutEqual r 24 then pure b!"STL24.01"
  else if ← aboutEqual r 25 then pure b!"STL25.01"
  else if ← aboutEqual r 30 then pure b!"STL30.01"
  else pure b!"STL25.01"

/-- `vertical_position` (src/stl_binary_writer.cc:110-146). -/
def writerVpos (line : Line) : R Int :=
  match line.vpos.prop with
  | some p =>
    match line.vpos.ref.getD .topOfScreen with
    | .topOfScreen => do
      let a ← ieee32 (p * stlRows)
      toInt (rint a)
    | .centreOfScreen => do
      let a ← ieee32 (p * stlRows)
      let b ← ieee64 (a + 23 / 2)
      toInt (rint b)
    | .bottomOfScreen => do
      let a ← ieee32 (p * stlRows)
      let b ← ieee32 (stlRows - a)
      toInt (rint b)
    | .topOfSubtitle => .ok 0
  | none =>
    match line.vpos.line with
    | some l => do
      let n ← optGet line.vpos.lines
      let prop ← intRatio l n
      match line.vpos.ref.getD .topOfScreen with
      | .topOfScreen => do
        let a ← ieee32 (prop * stlRows)
        toInt a
      | .centreOfScreen => do
        let a ← ieee64 (prop + 1/2)
        let b ← ieee64 (a * stlRows)
        toInt b
      | .bottomOfScreen => do
        let a ← ieee32 (1 - prop)
        let b ← ieee32 (a * stlRows)
        toInt b
      | .topOfSubtitle => .ok 0
    | none => .ok 0

/-- The frame rate, in thousandths, with which the writer makes time codes (src/stl_binary_writer.cc:236, 241). -/
def writerRate (fps : Rat) : R Int := do
  let a ← ieee32 (fps * 1000)
  toInt a

end LibSub.Ieee
