/-
src/ssa_reader.cc once more, with all of IEEE 754 except the sign of zero: infinities and "not a number", which the code gets when the width or height of
the screen is 0 and from texts such as "inf" and "nan", and numbers of any size.  Only what calculates with such numbers is repeated; Ssa.lean has the rest.
-/
import Verif.Model.Ieee

namespace LibSub

/-- A `float` or `double`: a number, an infinity (negative or not) or "not a number".  Zero has no sign. -/
inductive XF where
  | fin (x : Rat)
  | inf (neg : Bool)
  | nan
  deriving DecidableEq, Repr

/-- Rounding to `float`: what is too large becomes an infinity. -/
def XF.f32 : XF → XF
  | .fin x => match Ieee.ieee32 x with | .ok r => .fin r | .error _ => .inf (decide (x < 0))
  | x => x

/-- Rounding to `double`. -/
def XF.f64 : XF → XF
  | .fin x => match Ieee.ieee64 x with | .ok r => .fin r | .error _ => .inf (decide (x < 0))
  | x => x

/-- IEEE 754, before rounding: unlike infinities have no sum. -/
def XF.add : XF → XF → XF
  | .fin a, .fin b => .fin (a + b)
  | .nan, _ => .nan
  | _, .nan => .nan
  | .inf s, .inf t => if s = t then .inf s else .nan
  | .inf s, .fin _ => .inf s
  | .fin _, .inf s => .inf s

/-- IEEE 754: changing the sign. -/
def XF.neg : XF → XF
  | .fin a => .fin (-a)
  | .inf s => .inf (!s)
  | .nan => .nan

/-- IEEE 754: `a - b`. -/
def XF.sub (a b : XF) : XF := a.add b.neg

/-- IEEE 754, before rounding: zero times infinity is no number. -/
def XF.mul : XF → XF → XF
  | .fin a, .fin b => .fin (a * b)
  | .nan, _ => .nan
  | _, .nan => .nan
  | .inf s, .inf t => .inf (s != t)
  | .inf s, .fin b => if b = 0 then .nan else .inf (s != decide (b < 0))
  | .fin a, .inf s => if a = 0 then .nan else .inf (s != decide (a < 0))

/-- IEEE 754, before rounding: `a / b`.  Where the code divides by 0, this comes from an `int` and is positive. -/
def XF.div : XF → XF → XF
  | .nan, _ => .nan
  | _, .nan => .nan
  | .inf _, .inf _ => .nan
  | .fin _, .inf _ => .fin 0
  | .inf s, .fin b => .inf (s != decide (b < 0))
  | .fin a, .fin b => if b = 0 then (if a = 0 then .nan else .inf (decide (a < 0))) else .fin (a / b)

/-- An `int` as a `float`. -/
def XF.ofInt (n : Int) : XF := (XF.fin n).f32

/-- `sscanf (s, "%f", &y)` with `y = 0` beforehand (src/locale_convert.cc:85-92): now also "inf", "infinity" (in glibc "infi" must be followed by the rest of it) and
"nan" in either case.  A number too large for `float` is undefined behaviour (ISO C, 7.21.6.2p10). -/
def scanFloatX (s : Str) : R XF :=
  let (neg, cs) := takeSign (s.dropWhile isSpace)
  if startsWithNoCase cs b!"inf" then
    if startsWithNoCase cs b!"infi" && !startsWithNoCase cs b!"infinity" then .ok (.fin 0) else .ok (.inf neg)
  else if startsWithNoCase cs b!"nan" then .ok .nan
  else
    let v := if startsWithNoCase cs b!"0x" then scanHexadecimal b!"." (cs.drop 2) else scanDecimal b!"." cs
    match Ieee.ieee32 (if neg then -v else v) with
    | .ok r => .ok (.fin r)
    | .error _ => .error (.ub .scanfRange)

/-- `raw_convert<float> (string)` (src/raw_convert.cc:55-60), in the "C" locale. -/
def rawConvertFloatX (v : Str) : R XF := scanFloatX (makeLocal Locale.c v)

/-- A number from the file divided by an `int` (src/ssa_reader.cc:283, 285, 288, 556). -/
def textRatioX (v : Str) (res : Int) : R XF := do
  let f ← rawConvertFloatX v
  pure (f.div (.ofInt res)).f32

/-- A `RawSubtitle` (src/raw_subtitle.h:38-70): `raw` has all of it except the three numbers, which are apart. -/
structure XRaw where
  raw : Raw := {}
  /-- `horizontal_position.proportional` -/
  hprop : XF := .fin 0
  /-- `vertical_position.proportional` -/
  vprop : Option XF := none
  /-- `font_size._proportional` -/
  fprop : Option XF := none
  deriving DecidableEq, Repr

/-- `float (a) / b` for `int`s. -/
def intRatioX (a b : Int) : XF := ((XF.ofInt a).div (.ofInt b)).f32

/-- `SSAReader::Context::update_horizontal_position` (src/ssa_reader.cc:195-209). -/
def SsaContext.updateHX (ctx : SsaContext) (sub : XRaw) : R XRaw := do
  let p ←
    match sub.raw.hpos.ref with
    | .left => .ok (intRatioX ctx.lmargin ctx.resX)
    | .centre => do
      let d ← ck (ctx.lmargin - ctx.rmargin)
      let w ← ck (2 * ctx.resX)
      .ok (intRatioX d w)
    | .right => .ok (intRatioX ctx.rmargin ctx.resX)
  pure { sub with hprop := p }

/-- The body shared by the nine `\an` cases (src/ssa_reader.cc:242-277). -/
def ssaAlignX (ctx : SsaContext) (sub : XRaw) (h : HRef) (v : VRef) : R XRaw :=
  ctx.updateHX { sub with raw := { sub.raw with hpos := { sub.raw.hpos with ref := h }, vpos := { sub.raw.vpos with ref := some v } } }

/-- `SSAReader::parse_tag` (src/ssa_reader.cc:227-299). -/
def ssaParseTagX (ctx : SsaContext) (sub : XRaw) (tag : Str) : R XRaw :=
  if tag = b!"\\i1" then .ok { sub with raw := { sub.raw with italic := true } }
  else if tag = b!"\\i0" ∨ tag = b!"\\i" then .ok { sub with raw := { sub.raw with italic := false } }
  else if tag = b!"\\b1" then .ok { sub with raw := { sub.raw with bold := true } }
  else if tag = b!"\\b0" then .ok { sub with raw := { sub.raw with bold := false } }
  else if tag = b!"\\u1" then .ok { sub with raw := { sub.raw with underline := true } }
  else if tag = b!"\\u0" then .ok { sub with raw := { sub.raw with underline := false } }
  else if tag = b!"\\an1" then ssaAlignX ctx sub .left .bottomOfScreen
  else if tag = b!"\\an2" then ssaAlignX ctx sub .centre .bottomOfScreen
  else if tag = b!"\\an3" then ssaAlignX ctx sub .right .bottomOfScreen
  else if tag = b!"\\an4" then ssaAlignX ctx sub .left .centreOfScreen
  else if tag = b!"\\an5" then ssaAlignX ctx sub .centre .centreOfScreen
  else if tag = b!"\\an6" then ssaAlignX ctx sub .right .centreOfScreen
  else if tag = b!"\\an7" then ssaAlignX ctx sub .left .topOfScreen
  else if tag = b!"\\an8" then ssaAlignX ctx sub .centre .topOfScreen
  else if tag = b!"\\an9" then ssaAlignX ctx sub .right .topOfScreen
  else if startsWith tag b!"\\pos" then
    match splitAny (fun c => c == 40 || c == 44) tag with
    | [_, x, y] => do
      let hp ← textRatioX x ctx.resX
      let vp ← textRatioX y ctx.resY
      pure { sub with
        raw := { sub.raw with hpos := { sub.raw.hpos with ref := .left }, vpos := { sub.raw.vpos with ref := some .topOfScreen } }
        hprop := hp
        vprop := some vp }
    | _ => .error .programming
  else if startsWith tag b!"\\fs" then do
    subAssert (decide (tag.length > 3))
    let q ← textRatioX (tag.drop 3) ctx.resY
    pure { sub with fprop := some q }
  else if startsWith tag b!"\\c" then
    if tag.length > 2 then do
      let c ← hColour ((tag.drop 2).take (tag.length - 3))
      pure { sub with raw := { sub.raw with colour := c } }
    else .ok { sub with raw := { sub.raw with colour := ctx.primaryColour } }
  else .ok sub

/-- Local variables of the loop in `parse_line`. -/
structure SsaLoopX where
  state : SsaState := .text
  subs : List XRaw := []
  current : XRaw
  tag : Str := []
  deriving DecidableEq, Repr

/-- `if (!current.text.empty ()) { subs.push_back (current); current.text = ""; }` (src/ssa_reader.cc:366-369, 382-385). -/
def SsaLoopX.flush (l : SsaLoopX) : SsaLoopX :=
  if l.current.raw.text.isEmpty then l
  else { l with subs := l.subs ++ [l.current], current := { l.current with raw := { l.current.raw with text := [] } } }

/-- `x ± line_size` (src/ssa_reader.cc:387-391). -/
def ssaMoveDownX (lineSize : XF) (s : XRaw) : R XRaw := do
  let ref ← optGet s.raw.vpos.ref
  let p ← optGet s.vprop
  if ref = .bottomOfScreen then pure { s with vprop := some (p.sub lineSize).f64.f32 }
  else pure { s with vprop := some (p.add lineSize).f64.f32 }

/-- One iteration of the loop in `parse_line` (src/ssa_reader.cc:352-396). -/
def ssaStepX (ctx : SsaContext) (lineSize : XF) (l : SsaLoopX) (c : Byte) : R SsaLoopX :=
  match l.state with
  | .text =>
    if c == 123 then .ok { l with state := .tag }
    else if c == 92 then .ok { l with state := .backslash }
    else if c != 13 && c != 10 then .ok { l with current := { l.current with raw := { l.current.raw with text := l.current.raw.text ++ [c] } } }
    else .ok l
  | .tag =>
    if c == 125 then do
      let l := l.flush
      let cur ← ssaParseTagX ctx l.current l.tag
      pure { l with current := cur, tag := [], state := .text }
    else if c == 92 then do
      let l := l.flush
      let cur ← ssaParseTagX ctx l.current l.tag
      pure { l with current := cur, tag := [c] }
    else .ok { l with tag := l.tag ++ [c] }
  | .backslash =>
    if c == 110 || c == 78 then do
      let l := l.flush
      let cur ← ssaMoveDownX lineSize l.current
      pure { l with current := cur, state := .text }
    else .ok { l with state := .text }

/-- The loop in `parse_line` (src/ssa_reader.cc:352-396). -/
def ssaRunX (ctx : SsaContext) (lineSize : XF) (l : SsaLoopX) : Str → R SsaLoopX
  | [] => .ok l
  | c :: cs => do
    let l' ← ssaStepX ctx lineSize l c
    ssaRunX ctx lineSize l' cs

/-- The final positioning of one sub (src/ssa_reader.cc:403-422). -/
def ssaFinishPosX (margin : XF) (breaks : Nat) (lineSize : XF) (sub : XRaw) : R XRaw := do
  let ref ← optGet sub.raw.vpos.ref
  let p ← optGet sub.vprop
  let p' :=
    match ref with
    | .topOfScreen => (p.add margin).f32
    | .topOfSubtitle => (p.add margin).f32
    | .centreOfScreen => (p.sub (((XF.fin (breaks + 1 : Nat)).mul lineSize).f64.div (.fin 2)).f64).f64.f32
    | .bottomOfScreen => ((p.add margin).f32.add ((XF.fin breaks).mul lineSize).f64).f64.f32
  pure { sub with vprop := some p' }

@[inherit_doc ssaFinishPosX]
def ssaFinishAllX (margin : XF) (breaks : Nat) (lineSize : XF) : List XRaw → R (List XRaw)
  | [] => .ok []
  | s :: ss => do
    let s' ← ssaFinishPosX margin breaks lineSize s
    let ss' ← ssaFinishAllX margin breaks lineSize ss
    pure (s' :: ss')

/-- The preparation of `current` at the start of `parse_line` (src/ssa_reader.cc:315-337). -/
def ssaPrepareX (ctx : SsaContext) (base : XRaw) : R XRaw := do
  let cur := { base with raw := { base.raw with vpos := { base.raw.vpos with ref := some (base.raw.vpos.ref.getD .bottomOfScreen) } }, vprop := some (.fin 0) }
  let cur ← ctx.updateHX cur
  match cur.fprop with
  | some _ => pure cur
  | none => pure { cur with fprop := some ((XF.fin 72).div (XF.fin ctx.resY).f64).f64.f32 }

/-- `FontSize::proportional (int)` (src/font_size.cc:24-32). -/
def XRaw.proportionalAt (s : XRaw) (screenHeight : Int) : R XF :=
  match s.fprop with
  | some p => .ok p
  | none => do
    let p ← optGet s.raw.fontSize.pts
    pure ((XF.ofInt p).div (.ofInt screenHeight)).f32

/-- `SSAReader::parse_line` (src/ssa_reader.cc:305-425). -/
def ssaParseLineX (ctx : SsaContext) (base : XRaw) (line : Str) : R (List XRaw) := do
  let cur ← ssaPrepareX ctx base
  let breaks := ssaLineBreaks line
  let fs ← cur.proportionalAt ctx.resY
  let lineSize := (fs.mul (XF.fin (6/5)).f64).f64
  let l ← ssaRunX ctx lineSize { current := cur } line
  ssaFinishAllX (base.vprop.getD (.fin 0)) breaks lineSize l.flush.subs

/-- State of `SSAReader::read` (src/ssa_reader.cc:430-440): as `SsaRead`, whose own `subs` are not used. -/
structure SsaReadX where
  read : SsaRead := {}
  subs : List XRaw := []
  deriving DecidableEq, Repr

/-- Variables of the event loop (src/ssa_reader.cc:513-516). -/
structure SsaEventX where
  sub : XRaw := {}
  style : Option SsaStyle := none
  lmargin : Int := 0
  rmargin : Int := 0
  subs : List XRaw := []
  deriving DecidableEq, Repr

/-- Applying a style to the subtitle under construction (src/ssa_reader.cc:539-553). -/
def ssaApplyStyleX (resY : Int) (ev : SsaEventX) (st : SsaStyle) : SsaEventX :=
  { ev with
    style := some st
    lmargin := st.lmargin
    rmargin := st.rmargin
    sub := { ev.sub with
      raw := { ev.sub.raw with
        font := st.fontName
        fontSize := {}
        colour := st.primaryColour
        effectColour := st.backColour
        bold := st.bold
        italic := st.italic
        underline := st.underline
        effect := st.effect
        hpos := { ev.sub.raw.hpos with ref := st.href }
        vpos := { ev.sub.raw.vpos with ref := some st.vref } }
      fprop := some (intRatioX st.fontSize resY)
      vprop := if st.vref != .centreOfScreen then some (intRatioX st.vmargin resY) else ev.sub.vprop } }

/-- One iteration of the event loop (src/ssa_reader.cc:518-573). -/
def ssaEventFieldX (r : SsaRead) (ev : SsaEventX) (fmt raw : Str) : R SsaEventX :=
  let v := trim raw
  if fmt = b!"Start" then do
    let t ← ssaParseTime v
    pure { ev with sub := { ev.sub with raw := { ev.sub.raw with from_ := t } } }
  else if fmt = b!"End" then do
    let t ← ssaParseTime v
    pure { ev with sub := { ev.sub with raw := { ev.sub.raw with to_ := t } } }
  else if fmt = b!"Style" then
    match ssaFindStyle r.styles (trimLeftIf (· == 42) v) with
    | none => .ok ev
    | some st => .ok (ssaApplyStyleX r.resY ev st)
  else if fmt = b!"MarginV" then
    if v ≠ b!"0" ∧ ev.sub.raw.vpos.ref ≠ some .centreOfScreen then do
      let q ← textRatioX v r.resY
      pure { ev with sub := { ev.sub with vprop := some q } }
    else .ok ev
  else if fmt = b!"MarginL" then
    if v ≠ b!"0" then do let x ← rawConvertInt v; pure { ev with lmargin := x } else .ok ev
  else if fmt = b!"MarginR" then
    if v ≠ b!"0" then do let x ← rawConvertInt v; pure { ev with rmargin := x } else .ok ev
  else if fmt = b!"Text" then do
    let ctx : SsaContext :=
      { resX := r.resX, resY := r.resY,
        primaryColour := match ev.style with | some s => s.primaryColour | none => ⟨1, 1, 1⟩,
        lmargin := ev.lmargin, rmargin := ev.rmargin }
    let subs ← ssaParseLineX ctx ev.sub v
    pure { ev with subs := ev.subs ++ subs }
  else .ok ev

@[inherit_doc ssaEventFieldX]
def ssaEventFieldsX (r : SsaRead) (ev : SsaEventX) : List (Str × Str) → R SsaEventX
  | [] => .ok ev
  | (k, v) :: rest => do
    let ev' ← ssaEventFieldX r ev k v
    ssaEventFieldsX r ev' rest

/-- A `Dialogue` line (src/ssa_reader.cc:497-573). -/
def ssaDialogueX (r : SsaReadX) (body : Str) : R SsaReadX := do
  subAssert (!r.read.eventFormat.isEmpty)
  let parts := splitAny isComma body
  let event := ssaRejoin r.read.eventFormat.length parts.length parts
  subAssert (!event.isEmpty)
  subAssert (r.read.eventFormat.length == event.length)
  let ev ← ssaEventFieldsX r.read {} (r.read.eventFormat.zip event)
  pure { r with subs := r.subs ++ ev.subs }

/-- One line of the file (src/ssa_reader.cc:448-575). -/
def ssaLineX (r : SsaReadX) (raw : Str) : R SsaReadX :=
  let line := removeBom (trim raw)
  if startsWith line b!";" ∨ line = [] then .ok r
  else if startsWith line b!"[" then
    if line = b!"[Script Info]" then .ok { r with read := { r.read with part := .info } }
    else if line = b!"[V4 Styles]" ∨ line = b!"[V4+ Styles]" then .ok { r with read := { r.read with part := .styles } }
    else if line = b!"[Events]" then .ok { r with read := { r.read with part := .events } }
    else .ok r
  else
    match line.findIdx? (· == 58) with
    | none => .error .programming
    | some colon =>
      let type := line.take colon
      let body := trim (line.drop (colon + 1))
      match r.read.part with
      | .info =>
        if type = b!"PlayResX" then do let x ← rawConvertInt body; pure { r with read := { r.read with resX := x } }
        else if type = b!"PlayResY" then do let x ← rawConvertInt body; pure { r with read := { r.read with resY := x } }
        else .ok r
      | .styles =>
        if type = b!"Format" then .ok { r with read := { r.read with styleFormat := body } }
        else if type = b!"Style" then do
          subAssert (!r.read.styleFormat.isEmpty)
          let s ← SsaStyle.make r.read.styleFormat body
          pure { r with read := { r.read with styles := (s.name, s) :: r.read.styles } }
        else .ok r
      | .events =>
        if type = b!"Format" then .ok { r with read := { r.read with eventFormat := (splitAny isComma body).map trim } }
        else if type = b!"Dialogue" then ssaDialogueX r body
        else .ok r

/-- `SSAReader::read` (src/ssa_reader.cc:427-578) over the lines supplied by `get_line`. -/
def ssaLinesX (r : SsaReadX) : List Str → R SsaReadX
  | [] => .ok r
  | l :: ls => do
    let r' ← ssaLineX r l
    ssaLinesX r' ls

/-- `SSAReader (string)`: the raw subtitles. -/
def ssaReadStringX (s : Str) : R (List XRaw) := do
  let r ← ssaLinesX {} (linesOfString s)
  pure r.subs

/-- `SSAReader (FILE*)`: the raw subtitles. -/
def ssaReadFileX (s : Str) : R (List XRaw) := do
  let r ← ssaLinesX {} (linesOfFile s)
  pure r.subs

end LibSub
