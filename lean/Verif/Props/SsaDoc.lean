/-
Property C91: SSA files end to end.
-/
import Verif.Props.SsaFile
import Verif.Props.SsaRuns

namespace LibSub

/-! ### Specification -/

/-- Three components of a colour. -/
structure SRgb where
  r : Fin 256
  g : Fin 256
  b : Fin 256

/-- How a colour is written in a style. -/
def SRgb.text (c : SRgb) : Str := b!"&H00" ++ hexPair true c.b ++ hexPair true c.g ++ hexPair true c.r

def SRgb.colour (c : SRgb) : Colour := ⟨component c.r, component c.g, component c.b⟩

/-- A style. -/
structure SDef where
  name : Str
  font : Str
  size : Nat
  primary : SRgb
  back : SRgb
  bold : Bool := false
  italic : Bool := false
  underline : Bool := false
  shadow : Bool := true
  key : Nat := 2
  marginL : Nat := 0
  marginR : Nat := 0
  marginV : Nat := 0

/-- Values between commas. -/
def commas : List Str → Str
  | [] => []
  | [f] => f
  | f :: fs => f ++ 44 :: commas fs

def yes (b : Bool) : Str := if b then b!"-1" else b!"0"

/-- The columns of a style, as in files written by Aegisub. -/
def styleFormatLine : Str := b!"Name, Fontname, Fontsize, PrimaryColour, SecondaryColour, OutlineColour, BackColour, Bold, Italic, Underline, StrikeOut, ScaleX, ScaleY, Spacing, Angle, BorderStyle, Outline, Shadow, Alignment, MarginL, MarginR, MarginV, Encoding"

def SDef.fields (s : SDef) : List Str :=
  [s.name, s.font, decSpec s.size, s.primary.text, b!"&H000000FF", b!"&H00000000", s.back.text, yes s.bold, yes s.italic, yes s.underline, b!"0", b!"100", b!"100", b!"0", b!"0",
    (if s.shadow then b!"1" else b!"3"), b!"2", b!"2", decSpec s.key, decSpec s.marginL, decSpec s.marginR, decSpec s.marginV, b!"1"]

def SDef.line (s : SDef) : Str := b!"Style: " ++ commas s.fields

/-- Names are without commas and without space around them; numbers are not too big. -/
structure SDef.Ok (s : SDef) : Prop where
  name : (44 : Byte) ∉ s.name ∧ Trimmed s.name
  font : (44 : Byte) ∉ s.font ∧ Trimmed s.font
  first : s.name ≠ []
  size : s.size ≤ 2 ^ 24
  key : 1 ≤ s.key ∧ s.key ≤ 9
  margins : s.marginL ≤ 2 ^ 24 ∧ s.marginR ≤ 2 ^ 24 ∧ s.marginV ≤ 2 ^ 24

/-- A dialogue. -/
structure SDialogue where
  from_ : Stamp
  to_ : Stamp
  /-- the number of asterisks before the name of the style -/
  stars : Nat := 0
  style : Str
  marginL : Nat := 0
  marginR : Nat := 0
  marginV : Nat := 0
  items : List SItem

def eventFormatLine : Str := b!"Layer, Start, End, Style, Name, MarginL, MarginR, MarginV, Effect, Text"

def SDialogue.fields (d : SDialogue) : List Str :=
  [b!"0", d.from_.text 46, d.to_.text 46, List.replicate d.stars 42 ++ d.style, [], decSpec d.marginL, decSpec d.marginR, decSpec d.marginV, []]

def SDialogue.text (d : SDialogue) : Str := (d.items.map SItem.chars).flatten

def SDialogue.line (d : SDialogue) : Str := b!"Dialogue: " ++ ((d.fields.map (· ++ [44])).flatten ++ d.text)

structure SDialogue.Ok (d : SDialogue) : Prop where
  times : d.from_.Fits ∧ d.to_.Fits
  style : (44 : Byte) ∉ d.style ∧ Trimmed d.style ∧ d.style.head? ≠ some 42
  margins : d.marginL ≤ 2 ^ 24 ∧ d.marginR ≤ 2 ^ 24 ∧ d.marginV ≤ 2 ^ 24
  items : ∀ i ∈ d.items, i.Ok
  text : Trimmed d.text
  lines : d.items.countP SItem.isBreak < 2 ^ 20

/-- A file. -/
structure SDoc where
  resX : Nat
  resY : Nat
  styles : List SDef
  dialogues : List SDialogue

def SDoc.lines (d : SDoc) : List Str :=
  [b!"[Script Info]", b!"PlayResX: " ++ decSpec d.resX, b!"PlayResY: " ++ decSpec d.resY, b!"[V4+ Styles]", b!"Format: " ++ styleFormatLine] ++ d.styles.map SDef.line ++
    [b!"[Events]", b!"Format: " ++ eventFormatLine] ++ d.dialogues.map SDialogue.line

structure SDoc.Ok (d : SDoc) : Prop where
  resX : 0 < d.resX ∧ d.resX ≤ 2 ^ 23
  resY : 0 < d.resY ∧ d.resY ≤ 2 ^ 23
  styles : ∀ s ∈ d.styles, s.Ok
  dialogues : ∀ e ∈ d.dialogues, e.Ok

/-- The style of a dialogue: the last one defined with its name, else the last one called `Default`. -/
def SDoc.styleOf (d : SDoc) (e : SDialogue) : Option SDef :=
  ((d.styles.filter (fun s => s.name = e.style)).getLast?).or ((d.styles.filter (fun s => s.name = b!"Default")).getLast?)

/-- A margin of a dialogue replaces that of its style unless it is zero. -/
def orMargin (own style : Nat) : Nat := if own = 0 then style else own

/-- Screen, colour and margins for a dialogue. -/
def SDoc.context (d : SDoc) (e : SDialogue) : SsaContext where
  resX := d.resX
  resY := d.resY
  primaryColour := match d.styleOf e with | none => ⟨1, 1, 1⟩ | some s => s.primary.colour
  lmargin := orMargin e.marginL (match d.styleOf e with | none => 0 | some s => s.marginL)
  rmargin := orMargin e.marginR (match d.styleOf e with | none => 0 | some s => s.marginR)

/-- The appearance of a dialogue. -/
def SDoc.base (d : SDoc) (e : SDialogue) : Raw :=
  match d.styleOf e with
  | none => { from_ := e.from_.hundredths, to_ := e.to_.hundredths, vpos := { prop := if e.marginV = 0 then none else some (f32 ((e.marginV : ℚ) / d.resY)) } }
  | some s =>
    { from_ := e.from_.hundredths, to_ := e.to_.hundredths
      font := some s.font
      fontSize := ⟨some (f32 ((s.size : ℚ) / d.resY)), none⟩
      colour := s.primary.colour
      effectColour := some s.back.colour
      bold := s.bold, italic := s.italic, underline := s.underline
      effect := if s.shadow then some .shadow else none
      hpos := { ({} : HPos) with ref := keypadH s.key }
      vpos := { ref := some (keypadV s.key), prop := if keypadV s.key = .centreOfScreen then none else some (f32 ((orMargin e.marginV s.marginV : ℚ) / d.resY)) } }

/-- `subs` are the runs of text in `items`, each with its appearance and at its place up to rounding (see C88). -/
def Renders (ctx : SsaContext) (base : Raw) (items : List SItem) (subs : List Raw) : Prop :=
  let fs := base.fontSize.prop.getD (f32 (f64 (72 / ctx.resY)))
  let n := items.countP SItem.isBreak + 1
  let m := base.vpos.prop.getD 0
  ∀ Y, 0 ≤ Y → (∀ c tags, SItem.block c tags ∈ items → ∀ x y, STag.pos x y ∈ tags → |y.value / ctx.resY| ≤ Y) →
    List.Forall₂ (fun (r : Raw) (x : Str × SState) => ∃ p, r = x.2.raw.put x.1 p ∧ |p - finalPos m (6 / 5 * fs) n x.2| ≤ (n + 5) * ((Y + 2 * n * fs + |m|) / 2 ^ 22)) subs
      (sRuns ctx (6 / 5 * fs) (startState ctx base fs) [] items)

/-- The file as text, with the line ends of Windows or of Unix. -/
def SDoc.text (d : SDoc) (crlf : Bool) : Str := (d.lines.map (fun l => l ++ (if crlf then b!"\r\n" else b!"\n"))).flatten

/-! ### Proofs -/

private theorem trim_self {s : Str} (h : Trimmed s) : trim s = s := by
  have := trim_around (a := []) (b := []) (s := s) (by simp) (by simp) h
  simpa using this

private theorem trim_space {s : Str} (h : Trimmed s) : trim (32 :: s) = s := by
  have := trim_around (a := [32]) (b := []) (s := s) (by decide) (by simp) h
  simpa using this

/-- What happens to a line with a type. -/
private def typed (r : SsaRead) (type body : Str) : R SsaRead :=
  match r.part with
  | .info =>
    if type = b!"PlayResX" then do let x ← rawConvertInt body; pure { r with resX := x }
    else if type = b!"PlayResY" then do let x ← rawConvertInt body; pure { r with resY := x }
    else .ok r
  | .styles =>
    if type = b!"Format" then .ok { r with styleFormat := body }
    else if type = b!"Style" then do
      subAssert (!r.styleFormat.isEmpty)
      let s ← SsaStyle.make r.styleFormat body
      pure { r with styles := (s.name, s) :: r.styles }
    else .ok r
  | .events =>
    if type = b!"Format" then .ok { r with eventFormat := (splitAny isComma body).map trim }
    else if type = b!"Dialogue" then ssaDialogue r body
    else .ok r

private theorem line_typed (r : SsaRead) (c : Byte) (t body : Str) (hc : isSpace c = false ∧ c ≠ 59 ∧ c ≠ 91 ∧ c ≠ 0xef) (ht : (58 : Byte) ∉ c :: t) (hb : Trimmed body) (h0 : body ≠ []) :
    ssaLine r (c :: t ++ b!": " ++ body) = typed r (c :: t) body := by
  have e1 : c :: t ++ b!": " ++ body = c :: (t ++ 58 :: 32 :: body) := by simp
  have e2 : trim (c :: (t ++ 58 :: 32 :: body)) = c :: (t ++ 58 :: 32 :: body) := by
    apply trim_self
    refine ⟨fun x hx => ?_, fun x hx => hb.2 x ?_⟩
    · cases hx; exact hc.1
    · rw [← hx]
      have : c :: (t ++ 58 :: 32 :: body) = (c :: (t ++ [58, 32])) ++ body := by simp
      rw [this, List.getLast?_append]
      cases hq : body.getLast? with
      | none => exact absurd (List.getLast?_eq_none_iff.1 hq) h0
      | some y => rfl
  have e3 : removeBom (c :: (t ++ 58 :: 32 :: body)) = c :: (t ++ 58 :: 32 :: body) := by
    unfold removeBom
    split
    · rename_i h
      exact absurd (List.cons.inj h).1 hc.2.2.2
    · rfl
  have e4 : (c :: (t ++ 58 :: 32 :: body)).findIdx? (· == 58) = some (c :: t).length := by
    have : c :: (t ++ 58 :: 32 :: body) = (c :: t) ++ 58 :: 32 :: body := rfl
    rw [this, List.findIdx?_append]
    have hn : (c :: t).findIdx? (· == 58) = none := by
      rw [List.findIdx?_eq_none_iff]
      intro x hx
      simp only [beq_eq_false_iff_ne, ne_eq]
      rintro rfl
      exact ht hx
    rw [hn]
    simp [List.findIdx?_cons]
  unfold ssaLine
  rw [e1, e2, e3]
  simp only [e4]
  rw [if_neg, if_neg]
  · have e5 : (c :: (t ++ 58 :: 32 :: body)).take (c :: t).length = c :: t := by
      rw [show c :: (t ++ 58 :: 32 :: body) = (c :: t) ++ 58 :: 32 :: body from rfl, List.take_left]
    have e6 : (c :: (t ++ 58 :: 32 :: body)).drop ((c :: t).length + 1) = 32 :: body := by
      rw [show c :: (t ++ 58 :: 32 :: body) = (c :: t ++ [58]) ++ 32 :: body by simp, show (c :: t).length + 1 = (c :: t ++ [58]).length by simp, List.drop_left]
    rw [e5, e6, trim_space hb]
    rfl
  · simp [startsWith, List.isPrefixOf, Ne.symm hc.2.2.1]
  · simp [startsWith, List.isPrefixOf, Ne.symm hc.2.1]

theorem split_commas (fs : List Str) (h0 : fs ≠ []) (h : ∀ f ∈ fs, (44 : Byte) ∉ f) : splitAny isComma (commas fs) = fs := by
  have hn : ∀ f : Str, (44 : Byte) ∉ f → ∀ c ∈ f, isComma c = false := by
    intro f hf c hc
    simp only [isComma, beq_eq_false_iff_ne, ne_eq]
    rintro rfl
    exact hf hc
  induction fs with
  | nil => exact absurd rfl h0
  | cons f fs ih =>
    cases fs with
    | nil => exact splitAny_noSep (hn f (h f (by simp)))
    | cons g fs =>
      rw [commas, splitAny_append (hn f (h f (by simp))) rfl, ih (by simp) (fun f hf => h f (by simp [hf]))]
      simp

private theorem dec_digits (n : Nat) : ∀ c ∈ decSpec n, isDigit c = true := by
  rw [← natDec_eq_decSpec]; exact natDec_digits n

private theorem dec_trimmed (n : Nat) : Trimmed (decSpec n) :=
  have h : ∀ c ∈ decSpec n, isSpace c = false := fun c hc => forall_byte (p := fun c => isDigit c = true → isSpace c = false) (by decide +kernel) c (dec_digits n c hc)
  ⟨fun c hc => h c (List.mem_of_mem_head? hc), fun c hc => h c (List.mem_of_getLast? hc)⟩

private theorem dec_comma (n : Nat) : (44 : Byte) ∉ decSpec n := fun h => absurd (dec_digits n _ h) (by decide)

private theorem dec_ne (n : Nat) : decSpec n ≠ [] := by rw [← natDec_eq_decSpec]; exact natDec_ne_nil n

private theorem dec_int (n : Nat) (h : n < 2 ^ 31) : rawConvertInt (decSpec n) = .ok (n : Int) := rawConvertInt_padded 0 n h

private theorem plain_trimmed {s : Str} (h : ∀ c ∈ s, isSpace c = false) : Trimmed s := ⟨fun c hc => h c (List.mem_of_mem_head? hc), fun c hc => h c (List.mem_of_getLast? hc)⟩

private theorem hexPair_chars (u : Bool) (n : Fin 256) : ∀ c ∈ hexPair u n, isSpace c = false ∧ c ≠ 44 := by
  revert u n; decide +kernel

private theorem rgb_chars (c : SRgb) : ∀ x ∈ c.text, isSpace x = false ∧ x ≠ 44 := by
  intro x hx
  simp only [SRgb.text, List.mem_append] at hx
  rcases hx with ((hx | hx) | hx) | hx
  · revert x; decide
  · exact hexPair_chars _ _ x hx
  · exact hexPair_chars _ _ x hx
  · exact hexPair_chars _ _ x hx

private theorem rgb_colour (c : SRgb) : SsaStyle.colour c.text = .ok c.colour := by
  have hp : ∀ n : Fin 256, ∃ a b, hexPair true n = [a, b] ∧ hexOf a = some (n.val / 16) ∧ hexOf b = some (n.val % 16) := by
    intro n
    refine ⟨_, _, rfl, ?_, ?_⟩
    · revert n; decide +kernel
    · revert n; decide +kernel
  obtain ⟨b1, b0, eb, hb1, hb0⟩ := hp c.b
  obtain ⟨g1, g0, eg, hg1, hg0⟩ := hp c.g
  obtain ⟨r1, r0, er, hr1, hr0⟩ := hp c.r
  have := C48_bgr b!"00" [0, 0] (by decide) (.inr rfl) b1 b0 g1 g0 r1 r0 _ _ _ _ _ _ hb1 hb0 hg1 hg0 hr1 hr0
  have hd : ∀ n : Nat, 16 * (n / 16) + n % 16 = n := by omega
  rw [hd, hd, hd] at this
  show hColour c.text = _
  unfold SRgb.text SRgb.colour
  rw [eb, eg, er, ← this]
  rfl

/-- The style that the program makes of a line. -/
private def SDef.style (s : SDef) : SsaStyle :=
  { name := s.name, fontName := some s.font, fontSize := s.size, primaryColour := s.primary.colour, backColour := some s.back.colour, bold := s.bold, italic := s.italic, underline := s.underline,
    effect := if s.shadow then some .shadow else none, href := keypadH s.key, vref := keypadV s.key, vmargin := s.marginV, lmargin := s.marginL, rmargin := s.marginR }

private def fieldsT (s : SsaStyle) : List (Str × Str) → R SsaStyle
  | [] => .ok s
  | (k, v) :: rest => do
    let s' ← s.field k v
    fieldsT s' rest

private theorem fields_trimmed (ks vs : List Str) (h : ∀ v ∈ vs, Trimmed v) (s : SsaStyle) : SsaStyle.fields s (ks.zip vs) = fieldsT s ((ks.map trim).zip vs) := by
  induction ks generalizing vs s with
  | nil => rfl
  | cons k ks ih =>
    cases vs with
    | nil => rfl
    | cons v vs =>
      rw [List.zip_cons_cons, List.map_cons, List.zip_cons_cons, SsaStyle.fields, fieldsT, trim_self (h v (by simp))]
      congr 1
      funext s'
      exact ih vs (fun v hv => h v (by simp [hv])) s'

private theorem yes_eq (b : Bool) : (yes b == b!"-1") = b := by cases b <;> rfl

private theorem fields_all {P : Str → Prop} (s : SDef) (h1 : P s.name) (h2 : P s.font) (hd : ∀ n, P (decSpec n)) (hy : ∀ b, P (yes b)) (hc : ∀ c : SRgb, P c.text)
    (hl : ∀ f ∈ [b!"&H000000FF", b!"&H00000000", b!"0", b!"1", b!"2", b!"3", b!"100"], P f) : ∀ f ∈ s.fields, P f := by
  have hs : P (if s.shadow then b!"1" else b!"3") := by split <;> exact hl _ (by simp)
  unfold SDef.fields
  simp only [List.forall_mem_cons]
  exact ⟨h1, h2, hd _, hc _, hl _ (by simp), hl _ (by simp), hc _, hy _, hy _, hy _, hl _ (by simp), hl _ (by simp), hl _ (by simp), hl _ (by simp), hl _ (by simp), hs, hl _ (by simp), hl _ (by simp),
    hd _, hd _, hd _, hd _, hl _ (by simp), by simp⟩

private theorem fields_comma (s : SDef) (hs : s.Ok) : ∀ f ∈ s.fields, (44 : Byte) ∉ f :=
  fields_all s hs.name.1 hs.font.1 dec_comma (by decide) (fun _ h => (rgb_chars _ _ h).2 rfl) (by decide)

private theorem fields_trim (s : SDef) (hs : s.Ok) : ∀ f ∈ s.fields, Trimmed f :=
  fields_all s hs.name.2 hs.font.2 dec_trimmed (by intro b; cases b <;> exact plain_trimmed (by decide)) (fun _ => plain_trimmed (fun c hc => (rgb_chars _ c hc).1))
    (fun f hf => plain_trimmed (by revert f; decide))

private def styleKeys : List Str := [b!"Name", b!"Fontname", b!"Fontsize", b!"PrimaryColour", b!"SecondaryColour", b!"OutlineColour", b!"BackColour", b!"Bold", b!"Italic", b!"Underline",
    b!"StrikeOut", b!"ScaleX", b!"ScaleY", b!"Spacing", b!"Angle", b!"BorderStyle", b!"Outline", b!"Shadow", b!"Alignment", b!"MarginL", b!"MarginR", b!"MarginV", b!"Encoding"]

private theorem keys_eq : (splitAny isComma styleFormatLine).map trim = styleKeys := by decide +kernel

private theorem f_name (t : SsaStyle) (v : Str) : t.field b!"Name" v = .ok { t with name := v } := rfl
private theorem f_font (t : SsaStyle) (v : Str) : t.field b!"Fontname" v = .ok { t with fontName := some v } := rfl
private theorem f_size (t : SsaStyle) (n : Nat) (h : n ≤ 2 ^ 24) : t.field b!"Fontsize" (decSpec n) = .ok { t with fontSize := n } := by
  show (rawConvertInt (decSpec n) >>= fun x => pure { t with fontSize := x }) = _
  rw [dec_int _ (by omega)]; rfl
private theorem f_primary (t : SsaStyle) (c : SRgb) : t.field b!"PrimaryColour" c.text = .ok { t with primaryColour := c.colour } := by
  show (SsaStyle.colour c.text >>= fun x => pure { t with primaryColour := x }) = _
  rw [rgb_colour]; rfl
private theorem f_back (t : SsaStyle) (c : SRgb) : t.field b!"BackColour" c.text = .ok { t with backColour := some c.colour } := by
  show (SsaStyle.colour c.text >>= fun x => pure { t with backColour := some x }) = _
  rw [rgb_colour]; rfl
private theorem f_bold (t : SsaStyle) (b : Bool) : t.field b!"Bold" (yes b) = .ok { t with bold := b } := by
  show Except.ok { t with bold := yes b == b!"-1" } = _
  rw [yes_eq]
private theorem f_italic (t : SsaStyle) (b : Bool) : t.field b!"Italic" (yes b) = .ok { t with italic := b } := by
  show Except.ok { t with italic := yes b == b!"-1" } = _
  rw [yes_eq]
private theorem f_underline (t : SsaStyle) (b : Bool) : t.field b!"Underline" (yes b) = .ok { t with underline := b } := by
  show Except.ok { t with underline := yes b == b!"-1" } = _
  rw [yes_eq]
private theorem f_border (t : SsaStyle) (ht : t.effect = none) (b : Bool) : t.field b!"BorderStyle" (if b then b!"1" else b!"3") = .ok { t with effect := if b then some .shadow else none } := by
  cases b with
  | true => rfl
  | false =>
    show Except.ok t = _
    cases t
    cases ht
    rfl
private theorem f_v (t : SsaStyle) (n : Nat) (h : n ≤ 2 ^ 24) : t.field b!"MarginV" (decSpec n) = .ok { t with vmargin := n } := by
  show (rawConvertInt (decSpec n) >>= fun x => pure { t with vmargin := x }) = _
  rw [dec_int _ (by omega)]; rfl
private theorem f_l (t : SsaStyle) (n : Nat) (h : n ≤ 2 ^ 24) : t.field b!"MarginL" (decSpec n) = .ok { t with lmargin := n } := by
  show (rawConvertInt (decSpec n) >>= fun x => pure { t with lmargin := x }) = _
  rw [dec_int _ (by omega)]; rfl
private theorem f_r (t : SsaStyle) (n : Nat) (h : n ≤ 2 ^ 24) : t.field b!"MarginR" (decSpec n) = .ok { t with rmargin := n } := by
  show (rawConvertInt (decSpec n) >>= fun x => pure { t with rmargin := x }) = _
  rw [dec_int _ (by omega)]; rfl
private theorem f_other (t : SsaStyle) (k v : Str) (hk : k ∈ [b!"SecondaryColour", b!"OutlineColour", b!"StrikeOut", b!"ScaleX", b!"ScaleY", b!"Spacing", b!"Angle", b!"Outline", b!"Shadow", b!"Encoding"]) :
    t.field k v = .ok t := by
  simp only [List.mem_cons, List.not_mem_nil, or_false] at hk
  rcases hk with rfl | rfl | rfl | rfl | rfl | rfl | rfl | rfl | rfl | rfl <;> rfl

private theorem step {s : SsaStyle} {k v : Str} {rest : List (Str × Str)} {s' : SsaStyle} (h : s.field k v = .ok s') : fieldsT s ((k, v) :: rest) = fieldsT s' rest := by
  rw [fieldsT, h, ok_bind]

private theorem style_fields (s : SDef) (hs : s.Ok) : fieldsT {} (styleKeys.zip s.fields) = .ok s.style := by
  obtain ⟨m1, m2, m3⟩ := hs.margins
  refine (step (f_name _ _)).trans <| (step (f_font _ _)).trans <| (step (f_size _ _ hs.size)).trans <| (step (f_primary _ _)).trans <| (step (f_other _ _ _ (by decide))).trans <|
    (step (f_other _ _ _ (by decide))).trans <| (step (f_back _ _)).trans <| (step (f_bold _ _)).trans <| (step (f_italic _ _)).trans <| (step (f_underline _ _)).trans <|
    (step (f_other _ _ _ (by decide))).trans <| (step (f_other _ _ _ (by decide))).trans <| (step (f_other _ _ _ (by decide))).trans <| (step (f_other _ _ _ (by decide))).trans <|
    (step (f_other _ _ _ (by decide))).trans <| (step (f_border _ rfl _)).trans <| (step (f_other _ _ _ (by decide))).trans <| (step (f_other _ _ _ (by decide))).trans <|
    (step (C45_style _ _ hs.key.1 hs.key.2)).trans <| (step (f_l _ _ m1)).trans <| (step (f_r _ _ m2)).trans <| (step (f_v _ _ m3)).trans <| (step (f_other _ _ _ (by decide))).trans ?_
  rfl

private theorem make_style (s : SDef) (hs : s.Ok) : SsaStyle.make styleFormatLine (commas s.fields) = .ok s.style := by
  unfold SsaStyle.make
  have hl : (splitAny isComma styleFormatLine).length = 23 := by decide +kernel
  rw [split_commas s.fields (by simp [SDef.fields]) (fields_comma s hs)]
  have a1 : (!(splitAny isComma styleFormatLine).isEmpty) = true := by decide +kernel
  have a2 : (!s.fields.isEmpty) = true := rfl
  have a3 : ((splitAny isComma styleFormatLine).length == s.fields.length) = true := by rw [hl]; rfl
  simp only [a1, a2, a3]
  rw [fields_trimmed _ _ (fields_trim s hs), keys_eq, style_fields s hs]
  rfl

/-! The header -/

/-- What has been read before the dialogues. -/
private def SDoc.read (d : SDoc) : SsaRead :=
  { part := .events, resX := d.resX, resY := d.resY, styles := (d.styles.map SDef.style).reverse.map (fun s => (s.name, s)), styleFormat := styleFormatLine,
    eventFormat := [b!"Layer", b!"Start", b!"End", b!"Style", b!"Name", b!"MarginL", b!"MarginR", b!"MarginV", b!"Effect"] ++ [b!"Text"] }

private theorem commas_last (fs : List Str) (f : Str) (hf : f ≠ []) : (commas (fs ++ [f])).getLast? = f.getLast? ∧ commas (fs ++ [f]) ≠ [] := by
  induction fs with
  | nil => exact ⟨rfl, hf⟩
  | cons g fs ih =>
    have : commas (g :: fs ++ [f]) = g ++ 44 :: commas (fs ++ [f]) := by
      cases fs <;> rfl
    rw [this]
    refine ⟨?_, by simp⟩
    rw [← List.singleton_append, ← List.append_assoc, List.getLast?_append, ih.1]
    cases hq : f.getLast? with
    | none => exact absurd (List.getLast?_eq_none_iff.1 hq) hf
    | some y => rfl

private theorem style_lines' (r : SsaRead) (hp : r.part = .styles) (hf : r.styleFormat = styleFormatLine) (l : List SDef) (h : ∀ s ∈ l, s.Ok) :
    ssaLines r (l.map SDef.line) = .ok { r with styles := (l.map SDef.style).reverse.map (fun s => (s.name, s)) ++ r.styles } := by
  induction l generalizing r with
  | nil => rfl
  | cons s l ih =>
    have hs := h s (by simp)
    have hsplit : s.fields = s.fields.dropLast ++ [b!"1"] := rfl
    obtain ⟨c1, c2⟩ := commas_last s.fields.dropLast b!"1" (by simp)
    rw [← hsplit] at c1 c2
    have hbody : Trimmed (commas s.fields) := by
      refine ⟨fun c hc => ?_, fun c hc => ?_⟩
      · have hn := hs.name.2.1
        have e : commas s.fields = s.name ++ 44 :: commas s.fields.tail := rfl
        rw [e] at hc
        cases hq : s.name with
        | nil => exact absurd hq hs.first
        | cons x n =>
          rw [hq] at hc hn
          exact hn c hc
      · rw [c1] at hc
        cases hc; decide
    have e1 : ssaLine r s.line = .ok { r with styles := (s.style.name, s.style) :: r.styles } := by
      have := line_typed r 83 b!"tyle" (commas s.fields) (by decide) (by decide) hbody c2
      have e : s.line = 83 :: b!"tyle" ++ b!": " ++ commas s.fields := rfl
      rw [e, this]
      unfold typed
      simp only [hp, hf, make_style s hs]
      rfl
    rw [List.map_cons, ssaLines, e1, ok_bind, ih { r with styles := (s.style.name, s.style) :: r.styles } hp hf (fun s hm => h s (by simp [hm]))]
    simp

private theorem header (d : SDoc) (hd : d.Ok) :
    ssaLines {} ([b!"[Script Info]", b!"PlayResX: " ++ decSpec d.resX, b!"PlayResY: " ++ decSpec d.resY, b!"[V4+ Styles]", b!"Format: " ++ styleFormatLine] ++ d.styles.map SDef.line ++
      [b!"[Events]", b!"Format: " ++ eventFormatLine]) = .ok d.read := by
  obtain ⟨x1, x2⟩ := hd.resX
  obtain ⟨y1, y2⟩ := hd.resY
  have l1 : ssaLine {} b!"[Script Info]" = .ok {} := by decide +kernel
  have l2 : ssaLine {} (b!"PlayResX: " ++ decSpec d.resX) = .ok { resX := d.resX } := by
    rw [show b!"PlayResX: " ++ decSpec d.resX = 80 :: b!"layResX" ++ b!": " ++ decSpec d.resX from rfl, line_typed _ _ _ _ (by decide) (by decide) (dec_trimmed _) (dec_ne _)]
    show (rawConvertInt (decSpec d.resX) >>= fun x => pure { ({} : SsaRead) with resX := x }) = _
    rw [dec_int _ (by omega)]; rfl
  have l3 : ssaLine { resX := d.resX } (b!"PlayResY: " ++ decSpec d.resY) = .ok { resX := d.resX, resY := d.resY } := by
    rw [show b!"PlayResY: " ++ decSpec d.resY = 80 :: b!"layResY" ++ b!": " ++ decSpec d.resY from rfl, line_typed _ _ _ _ (by decide) (by decide) (dec_trimmed _) (dec_ne _)]
    show (rawConvertInt (decSpec d.resY) >>= fun x => pure { ({ resX := d.resX } : SsaRead) with resY := x }) = _
    rw [dec_int _ (by omega)]; rfl
  have l4 : ∀ r : SsaRead, ssaLine r b!"[V4+ Styles]" = .ok { r with part := .styles } := fun _ => rfl
  have l5 : ∀ r : SsaRead, r.part = .styles → ssaLine r (b!"Format: " ++ styleFormatLine) = .ok { r with styleFormat := styleFormatLine } := by
    intro r hr
    rw [show b!"Format: " ++ styleFormatLine = 70 :: b!"ormat" ++ b!": " ++ styleFormatLine from rfl,
      line_typed _ _ _ _ (by decide) (by decide) ⟨by decide, by decide +kernel⟩ (by unfold styleFormatLine; simp)]
    unfold typed
    simp only [hr]
    rfl
  have l6 : ∀ r : SsaRead, ssaLine r b!"[Events]" = .ok { r with part := .events } := fun _ => rfl
  have l7 : ∀ r : SsaRead, r.part = .events → ssaLine r (b!"Format: " ++ eventFormatLine) = .ok { r with eventFormat := (splitAny isComma eventFormatLine).map trim } := by
    intro r hr
    rw [show b!"Format: " ++ eventFormatLine = 70 :: b!"ormat" ++ b!": " ++ eventFormatLine from rfl,
      line_typed _ _ _ _ (by decide) (by decide) ⟨by decide, by decide +kernel⟩ (by unfold eventFormatLine; simp)]
    unfold typed
    simp only [hr]
    rfl
  have hk : (splitAny isComma eventFormatLine).map trim = [b!"Layer", b!"Start", b!"End", b!"Style", b!"Name", b!"MarginL", b!"MarginR", b!"MarginV", b!"Effect"] ++ [b!"Text"] := by decide +kernel
  rw [ssaLines_append, ssaLines_append]
  have h1 : ssaLines {} [b!"[Script Info]", b!"PlayResX: " ++ decSpec d.resX, b!"PlayResY: " ++ decSpec d.resY, b!"[V4+ Styles]", b!"Format: " ++ styleFormatLine] =
      .ok { part := .styles, resX := d.resX, resY := d.resY, styleFormat := styleFormatLine } := by
    rw [ssaLines, l1, ok_bind, ssaLines, l2, ok_bind, ssaLines, l3, ok_bind, ssaLines, l4, ok_bind, ssaLines, l5 _ rfl, ok_bind, ssaLines]
  rw [h1, ok_bind, style_lines' _ rfl rfl _ hd.styles, ok_bind, ssaLines, l6, ok_bind, ssaLines, l7 _ rfl, ok_bind, ssaLines, hk]
  simp [SDoc.read]

/-! A dialogue -/

private theorem stamp_chars (t : Stamp) : ∀ c ∈ t.text 46, isSpace c = false ∧ c ≠ 44 := by
  intro c hc
  have hd : ∀ n, ∀ c ∈ decSpec n, isSpace c = false ∧ c ≠ 44 := by
    intro n c hc
    exact forall_byte (p := fun c => isDigit c = true → isSpace c = false ∧ c ≠ 44) (by decide +kernel) c (dec_digits n c hc)
  have hr : ∀ n, ∀ c ∈ List.replicate n (48 : Byte), isSpace c = false ∧ c ≠ 44 := by
    intro n c hc
    rw [List.eq_of_mem_replicate hc]; decide
  simp only [Stamp.text, List.mem_append] at hc
  rcases hc with (((((((((hc | hc) | hc) | hc) | hc) | hc) | hc) | hc) | hc) | hc) | hc
  all_goals first
    | exact hd _ c hc
    | exact hr _ c hc
    | (rw [List.mem_singleton.1 hc]; decide)

private theorem e_start (r : SsaRead) (ev : SsaEvent) (t : Stamp) (ht : t.Fits) : ssaEventField r ev b!"Start" (t.text 46) = .ok { ev with sub := { ev.sub with from_ := t.hundredths } } := by
  show (ssaParseTime (trim (t.text 46)) >>= fun t => pure { ev with sub := { ev.sub with from_ := t } }) = _
  rw [trim_self (plain_trimmed (fun c hc => (stamp_chars t c hc).1)), C42_time t ht]; rfl

private theorem e_end (r : SsaRead) (ev : SsaEvent) (t : Stamp) (ht : t.Fits) : ssaEventField r ev b!"End" (t.text 46) = .ok { ev with sub := { ev.sub with to_ := t.hundredths } } := by
  show (ssaParseTime (trim (t.text 46)) >>= fun t => pure { ev with sub := { ev.sub with to_ := t } }) = _
  rw [trim_self (plain_trimmed (fun c hc => (stamp_chars t c hc).1)), C42_time t ht]; rfl

private theorem stars_trimmed (n : Nat) (s : Str) (hs : Trimmed s) : Trimmed (List.replicate n 42 ++ s) := by
  refine ⟨fun c hc => ?_, fun c hc => ?_⟩
  · cases n with
    | zero => exact hs.1 c hc
    | succ n => cases hc; decide
  · rw [List.getLast?_append] at hc
    cases hq : s.getLast? with
    | none =>
      rw [hq, Option.none_or] at hc
      rw [List.eq_of_mem_replicate (List.mem_of_getLast? hc)]; decide
    | some y => rw [hq] at hc; cases hc; exact hs.2 _ hq

private theorem lastNamed_style (l : List SDef) (n : Str) : lastNamed (l.map SDef.style) n = ((l.filter (fun s => s.name = n)).getLast?).map SDef.style := by
  unfold lastNamed
  rw [List.filter_map, List.getLast?_map]
  rfl

private theorem e_style (d : SDoc) (ev : SsaEvent) (e : SDialogue) (he : e.Ok) :
    ssaEventField d.read ev b!"Style" (List.replicate e.stars 42 ++ e.style) = match d.styleOf e with | none => .ok ev | some s => ssaApplyStyle d.resY ev s.style := by
  obtain ⟨_, h2, h3⟩ := he.style
  have ht : trimLeftIf (· == 42) (List.replicate e.stars 42 ++ e.style) = e.style := by
    unfold trimLeftIf
    rw [List.dropWhile_append_of_pos (by intro c hc; rw [List.eq_of_mem_replicate hc]; rfl)]
    cases hq : e.style with
    | nil => rfl
    | cons x n =>
      rw [List.dropWhile_cons_of_neg]
      rw [hq] at h3
      simpa using h3
  show (match ssaFindStyle d.read.styles (trimLeftIf (· == 42) (trim (List.replicate e.stars 42 ++ e.style))) with | none => (.ok ev : R SsaEvent) | some st => ssaApplyStyle d.read.resY ev st) = _
  rw [trim_self (stars_trimmed _ _ h2), ht]
  unfold ssaFindStyle
  have hl : ∀ n, d.read.styles.lookup n = ((d.styles.filter (fun s => s.name = n)).getLast?).map SDef.style := by
    intro n
    show ((d.styles.map SDef.style).reverse.map (fun s => (s.name, s))).lookup n = _
    rw [lookup_reverse, lastNamed_style]
  rw [hl, hl]
  unfold SDoc.styleOf
  cases (d.styles.filter (fun s => s.name = e.style)).getLast? with
  | some s => rfl
  | none =>
    cases (d.styles.filter (fun s => s.name = b!"Default")).getLast? <;> rfl

private theorem dec_zero (n : Nat) : decSpec n = b!"0" ↔ n = 0 := by
  constructor
  · intro h
    have := decVal_natDec n
    rw [natDec_eq_decSpec, h] at this
    exact this.symm
  · rintro rfl; decide

private theorem e_l (r : SsaRead) (ev : SsaEvent) (n : Nat) (h : n ≤ 2 ^ 24) : ssaEventField r ev b!"MarginL" (decSpec n) = .ok (if n = 0 then ev else { ev with lmargin := n }) := by
  show (if trim (decSpec n) ≠ b!"0" then do let x ← rawConvertInt (trim (decSpec n)); pure { ev with lmargin := x } else .ok ev) = _
  rw [trim_self (dec_trimmed n)]
  by_cases h0 : n = 0
  · rw [if_neg (not_not.2 ((dec_zero n).2 h0)), if_pos h0]
  · rw [if_pos (fun hh => h0 ((dec_zero n).1 hh)), if_neg h0, dec_int _ (by omega)]; rfl

private theorem e_r (r : SsaRead) (ev : SsaEvent) (n : Nat) (h : n ≤ 2 ^ 24) : ssaEventField r ev b!"MarginR" (decSpec n) = .ok (if n = 0 then ev else { ev with rmargin := n }) := by
  show (if trim (decSpec n) ≠ b!"0" then do let x ← rawConvertInt (trim (decSpec n)); pure { ev with rmargin := x } else .ok ev) = _
  rw [trim_self (dec_trimmed n)]
  by_cases h0 : n = 0
  · rw [if_neg (not_not.2 ((dec_zero n).2 h0)), if_pos h0]
  · rw [if_pos (fun hh => h0 ((dec_zero n).1 hh)), if_neg h0, dec_int _ (by omega)]; rfl

private theorem f32_nat {n : Nat} (h : n ≤ 2 ^ 24) : f32 (n : ℚ) = n := by
  have := f32_int (m := (n : Int)) (by rw [abs_le]; constructor <;> omega)
  simpa using this

private theorem e_v (r : SsaRead) (w : Nat) (hw : 0 < w ∧ w ≤ 2 ^ 23) (hr : r.resY = w) (ev : SsaEvent) (n : Nat) (h : n ≤ 2 ^ 24) :
    ssaEventField r ev b!"MarginV" (decSpec n) =
      .ok (if n = 0 ∨ ev.sub.vpos.ref = some .centreOfScreen then ev else { ev with sub := { ev.sub with vpos := { ev.sub.vpos with prop := some (f32 ((n : ℚ) / w)) } } }) := by
  show (if trim (decSpec n) ≠ b!"0" ∧ ev.sub.vpos.ref ≠ some .centreOfScreen then do
      let f ← rawConvertFloat (trim (decSpec n))
      let q ← fdiv f (f32 r.resY)
      pure { ev with sub := { ev.sub with vpos := { ev.sub.vpos with prop := some (f32 q) } } }
    else .ok ev) = _
  rw [trim_self (dec_trimmed n)]
  by_cases h0 : n = 0 ∨ ev.sub.vpos.ref = some .centreOfScreen
  · rw [if_pos h0, if_neg]
    rintro ⟨a, b⟩
    rcases h0 with h0 | h0
    · exact a ((dec_zero n).2 h0)
    · exact b h0
  · rw [if_neg h0, if_pos ⟨fun hh => h0 (.inl ((dec_zero n).1 hh)), fun hh => h0 (.inr hh)⟩]
    have e1 := rawConvertFloat_num { whole := n } (.inr (by
      have h1 : (1 : ℚ) ≤ n := by exact_mod_cast Nat.one_le_iff_ne_zero.2 fun hh => h0 (.inl hh)
      have h2 : (n : ℚ) ≤ 2 ^ 24 := by exact_mod_cast h
      simp only [DecNum.value, expValue, mul_one, Bool.false_eq_true, if_false, add_zero, one_mul, Nat.abs_cast]
      constructor <;> norm_num at h2 ⊢ <;> linarith)) [] (by simp)
    have e2 : (DecNum.mk false n none none).text ++ [] = decSpec n := by simp [DecNum.text, expText]
    have e3 : (DecNum.mk false n none none).value = n := by simp [DecNum.value, expValue]
    rw [e2, e3, f32_nat h] at e1
    have e4 : f32 (r.resY : ℚ) = w := by
      rw [hr]
      have := f32_nat (n := w) (by omega)
      simpa using this
    rw [e1, ok_bind, e4]
    unfold fdiv
    rw [if_neg (by exact_mod_cast (by omega : w ≠ 0))]
    rfl

private theorem apply_style (w : Nat) (hw : 0 < w ∧ w ≤ 2 ^ 23) (ev : SsaEvent) (s : SDef) (hs : s.Ok) :
    ssaApplyStyle w ev s.style = .ok { ev with
      style := some s.style
      lmargin := s.marginL
      rmargin := s.marginR
      sub := { ev.sub with
        font := some s.font
        fontSize := ⟨some (f32 ((s.size : ℚ) / w)), none⟩
        colour := s.primary.colour
        effectColour := some s.back.colour
        bold := s.bold
        italic := s.italic
        underline := s.underline
        effect := if s.shadow then some .shadow else none
        hpos := { ev.sub.hpos with ref := keypadH s.key }
        vpos := { ev.sub.vpos with ref := some (keypadV s.key), prop := if keypadV s.key = .centreOfScreen then ev.sub.vpos.prop else some (f32 ((s.marginV : ℚ) / w)) } } } := by
  obtain ⟨_, _, m3⟩ := hs.margins
  have h1 : intRatio s.size w = .ok (f32 ((s.size : ℚ) / w)) := by
    have := intRatio_eq (a := s.size) (b := w) (by rw [abs_le]; have := hs.size; constructor <;> omega) (by rw [abs_le]; constructor <;> omega) (by omega)
    simpa using this
  have h2 : intRatio s.marginV w = .ok (f32 ((s.marginV : ℚ) / w)) := by
    have := intRatio_eq (a := s.marginV) (b := w) (by rw [abs_le]; constructor <;> omega) (by rw [abs_le]; constructor <;> omega) (by omega)
    simpa using this
  unfold ssaApplyStyle
  have e1 : s.style.fontSize = s.size := rfl
  have e2 : s.style.vmargin = s.marginV := rfl
  have e3 : s.style.vref = keypadV s.key := rfl
  simp only [e1, e2, e3, h1, h2, ok_bind]
  by_cases hc : keypadV s.key = .centreOfScreen
  · have : (keypadV s.key != .centreOfScreen) = false := by simp [hc]
    simp only [this, if_pos hc]
    rfl
  · have : (keypadV s.key != .centreOfScreen) = true := by simp [hc]
    simp only [this, if_neg hc]
    rfl

private theorem step' {r : SsaRead} {ev : SsaEvent} {k v : Str} {rest : List (Str × Str)} {ev' : SsaEvent} (h : ssaEventField r ev k v = .ok ev') : ssaEventFields r ev ((k, v) :: rest) = ssaEventFields r ev' rest := by
  rw [ssaEventFields, h, ok_bind]

private theorem event_fields (d : SDoc) (hd : d.Ok) (e : SDialogue) (he : e.Ok) (hst : ∀ s, d.styleOf e = some s → s.Ok) :
    ssaEventFields d.read {} ([b!"Layer", b!"Start", b!"End", b!"Style", b!"Name", b!"MarginL", b!"MarginR", b!"MarginV", b!"Effect"].zip e.fields) =
      .ok { sub := d.base e, style := (d.styleOf e).map SDef.style, lmargin := (d.context e).lmargin, rmargin := (d.context e).rmargin } := by
  obtain ⟨m1, m2, m3⟩ := he.margins
  refine (step' (show ssaEventField d.read {} b!"Layer" b!"0" = .ok {} from rfl)).trans <| (step' (e_start _ _ _ he.times.1)).trans <| (step' (e_end _ _ _ he.times.2)).trans ?_
  cases hs : d.styleOf e with
  | none =>
    have h := e_style d { ({} : SsaEvent) with sub := { from_ := e.from_.hundredths, to_ := e.to_.hundredths } } e he
    rw [hs] at h
    refine (step' h).trans <| (step' (show ssaEventField d.read _ b!"Name" [] = .ok _ from rfl)).trans <| (step' (e_l _ _ _ m1)).trans <| (step' (e_r _ _ _ m2)).trans <|
      (step' (e_v _ _ hd.resY rfl _ _ m3)).trans <| (step' (show ssaEventField d.read _ b!"Effect" [] = .ok _ from rfl)).trans ?_
    refine (show ssaEventFields d.read _ [] = .ok _ from rfl).trans ?_
    unfold SDoc.base SDoc.context orMargin
    simp only [hs]
    by_cases h1 : e.marginL = 0 <;> by_cases h2 : e.marginR = 0 <;> by_cases h3 : e.marginV = 0 <;> simp [h1, h2, h3]
  | some s =>
    have h := e_style d { ({} : SsaEvent) with sub := { from_ := e.from_.hundredths, to_ := e.to_.hundredths } } e he
    rw [hs] at h
    have h := h.trans (apply_style d.resY hd.resY _ s (hst s hs))
    refine (step' h).trans <| (step' (show ssaEventField d.read _ b!"Name" [] = .ok _ from rfl)).trans <| (step' (e_l _ _ _ m1)).trans <| (step' (e_r _ _ _ m2)).trans <|
      (step' (e_v _ _ hd.resY rfl _ _ m3)).trans <| (step' (show ssaEventField d.read _ b!"Effect" [] = .ok _ from rfl)).trans ?_
    refine (show ssaEventFields d.read _ [] = .ok _ from rfl).trans ?_
    unfold SDoc.base SDoc.context orMargin
    simp only [hs]
    by_cases h1 : e.marginL = 0 <;> by_cases h2 : e.marginR = 0 <;> by_cases h3 : e.marginV = 0 <;> by_cases h4 : keypadV s.key = .centreOfScreen <;> simp [h1, h2, h3, h4]

/-- All heights in tags are below something. -/
private theorem some_bound (w : ℚ) (items : List SItem) : ∃ Y, 0 ≤ Y ∧ ∀ c tags, SItem.block c tags ∈ items → ∀ x y, STag.pos x y ∈ tags → |y.value / w| ≤ Y := by
  have tagB : ∀ tags : List STag, ∃ Y, 0 ≤ Y ∧ ∀ x y, STag.pos x y ∈ tags → |y.value / w| ≤ Y := by
    intro tags
    induction tags with
    | nil => exact ⟨0, le_refl _, by simp⟩
    | cons t tags ih =>
      obtain ⟨Y, h0, h⟩ := ih
      cases t with
      | pos x y =>
        refine ⟨Y + |y.value / w|, by positivity, fun x' y' hm => ?_⟩
        rcases List.mem_cons.1 hm with hm | hm
        · cases hm; linarith
        · have := h x' y' hm
          have := abs_nonneg (y.value / w)
          linarith
      | _ =>
        refine ⟨Y, h0, fun x' y' hm => ?_⟩
        rcases List.mem_cons.1 hm with hm | hm
        · cases hm
        · exact h x' y' hm
  induction items with
  | nil => exact ⟨0, le_refl _, by simp⟩
  | cons i items ih =>
    obtain ⟨Y, h0, h⟩ := ih
    cases i with
    | block c tags =>
      obtain ⟨Z, z0, z⟩ := tagB tags
      refine ⟨Y + Z, by linarith, fun c' t' hm x y hp => ?_⟩
      rcases List.mem_cons.1 hm with hm | hm
      · cases hm
        have := z x y hp
        linarith
      · have := h c' t' hm x y hp
        linarith
    | _ =>
      refine ⟨Y, h0, fun c' t' hm => ?_⟩
      rcases List.mem_cons.1 hm with hm | hm
      · cases hm
      · exact h c' t' hm

private theorem f32_nonneg' {x : ℚ} (h : 0 ≤ x) : 0 ≤ f32 x := by
  have := f32_mono h
  rwa [f32_zero] at this

private theorem f64_nonneg' {x : ℚ} (h : 0 ≤ x) : 0 ≤ f64 x := by
  have h1 := f64_mono h
  have h2 : f64 0 = 0 := by decide +kernel
  rwa [h2] at h1

theorem SDoc.styleOf_mem (d : SDoc) (e : SDialogue) (s : SDef) (h : d.styleOf e = some s) : s ∈ d.styles := by
  unfold SDoc.styleOf at h
  rw [Option.or_eq_some_iff] at h
  rcases h with h | ⟨_, h⟩ <;> exact (List.mem_filter.1 (List.mem_of_getLast? h)).1

theorem SDoc.context_sane (d : SDoc) (hd : d.Ok) (e : SDialogue) (he : e.Ok) : (d.context e).Sane := by
  obtain ⟨m1, m2, m3⟩ := he.margins
  obtain ⟨x1, x2⟩ := hd.resX
  obtain ⟨y1, y2⟩ := hd.resY
  unfold SDoc.context orMargin
  cases hs : d.styleOf e with
  | none =>
    refine ⟨?_, ?_, ?_, ?_⟩ <;> simp only <;> (try split) <;> constructor <;> omega
  | some s =>
    obtain ⟨s1, s2, s3⟩ := (hd.styles s (d.styleOf_mem e s hs)).margins
    refine ⟨?_, ?_, ?_, ?_⟩ <;> simp only <;> (try split) <;> constructor <;> omega

theorem SDoc.base_text (d : SDoc) (e : SDialogue) : (d.base e).text = [] := by
  unfold SDoc.base
  split <;> rfl

theorem SDoc.size_nonneg (d : SDoc) (hd : d.Ok) (e : SDialogue) (he : e.Ok) : 0 ≤ (d.base e).fontSize.prop.getD (f32 (f64 (72 / (d.context e).resY))) := by
  have hs := d.context_sane hd e he
  unfold SDoc.base
  split
  · apply f32_nonneg'
    apply f64_nonneg'
    have : (0 : ℚ) ≤ (d.context e).resY := by exact_mod_cast hs.y.1.le
    positivity
  · apply f32_nonneg'
    positivity

private theorem dialogue_renders (d : SDoc) (hd : d.Ok) (e : SDialogue) (he : e.Ok) :
    ∃ subs, ssaParseLine (d.context e) (d.base e) e.text = .ok subs ∧ Renders (d.context e) (d.base e) e.items subs := by
  have hs := d.context_sane hd e he
  have key := fun Y h0 h => C88_runs (d.context e) hs (d.base e) (d.base_text e) e.items he.items _ rfl (d.size_nonneg hd e he) _ rfl (by have := he.lines; omega) _ rfl Y h0 h
  obtain ⟨Y, h0, h⟩ := some_bound ((d.context e).resY : ℚ) e.items
  obtain ⟨subs, p, -⟩ := key Y h0 h
  refine ⟨subs, p, fun Y' h0' h' => ?_⟩
  obtain ⟨subs', p', q⟩ := key Y' h0' h'
  rw [p] at p'
  cases p'
  exact q

private theorem body_facts (e : SDialogue) (he : e.Ok) : Trimmed ((e.fields.map (· ++ [44])).flatten ++ e.text) ∧ (e.fields.map (· ++ [44])).flatten ++ e.text ≠ [] := by
  have h1 : ∃ t, (e.fields.map (· ++ [44])).flatten = 48 :: (t ++ [44]) := by
    refine ⟨44 :: ((e.fields.tail.dropLast).map (· ++ [44])).flatten, ?_⟩
    simp [SDialogue.fields]
  obtain ⟨t, ht⟩ := h1
  rw [ht]
  refine ⟨⟨fun c hc => ?_, fun c hc => ?_⟩, by simp⟩
  · cases hc; decide
  · rw [List.getLast?_append] at hc
    cases hq : e.text.getLast? with
    | some y => rw [hq] at hc; cases hc; exact he.text.2 _ hq
    | none =>
      rw [hq, Option.none_or, ← List.cons_append, List.getLast?_append] at hc
      cases hc; decide

private theorem dialogue_read (d : SDoc) (hd : d.Ok) (e : SDialogue) (he : e.Ok) (subs : List Raw) (h1 : ssaParseLine (d.context e) (d.base e) e.text = .ok subs) :
    ssaLine d.read e.line = .ok { d.read with subs := subs } := by
  obtain ⟨b1, b2⟩ := body_facts e he
  have e0 : e.line = 68 :: b!"ialogue" ++ b!": " ++ ((e.fields.map (· ++ [44])).flatten ++ e.text) := rfl
  rw [e0, line_typed _ _ _ _ (by decide) (by decide) b1 b2]
  have hf : ∀ f ∈ e.fields, (44 : Byte) ∉ f := by
    have hdec : ∀ n, (44 : Byte) ∉ decSpec n := fun n hm => absurd (dec_digits n _ hm) (by decide)
    have hst : ∀ t : Stamp, (44 : Byte) ∉ t.text 46 := fun t hm => (stamp_chars t _ hm).2 rfl
    intro f hf
    simp only [SDialogue.fields, List.mem_cons, List.not_mem_nil, or_false] at hf
    rcases hf with rfl | rfl | rfl | rfl | rfl | rfl | rfl | rfl | rfl
    · decide
    · exact hst _
    · exact hst _
    · intro hm
      rcases List.mem_append.1 hm with hm | hm
      · exact absurd (List.eq_of_mem_replicate hm) (by decide)
      · exact he.style.1 hm
    · simp
    · exact hdec _
    · exact hdec _
    · exact hdec _
    · simp
  have h := C43_text d.read _ e.fields e.text rfl rfl hf _ (event_fields d hd e he fun s hs => hd.styles s (d.styleOf_mem e s hs))
  have ht : typed d.read (68 :: b!"ialogue") ((e.fields.map (· ++ [44])).flatten ++ e.text) = ssaDialogue d.read ((e.fields.map (· ++ [44])).flatten ++ e.text) := rfl
  rw [ht, h, trim_self he.text]
  have hc : (⟨d.read.resX, d.read.resY, (((d.styleOf e).map SDef.style).map SsaStyle.primaryColour).getD ⟨1, 1, 1⟩, (d.context e).lmargin, (d.context e).rmargin⟩ : SsaContext) = d.context e := by
    unfold SDoc.context
    cases d.styleOf e <;> rfl
  simp only [hc, h1]
  rfl

/-- From the dialogues to the file. -/
theorem SDoc.read_lines (d : SDoc) (hd : d.Ok) (f : SDialogue → List Raw) (hf : ∀ e ∈ d.dialogues, ssaParseLine (d.context e) (d.base e) e.text = .ok (f e)) :
    ssaReadLines d.lines = .ok (d.dialogues.flatMap f) := by
  have hh := header d hd
  unfold SDoc.lines
  rw [C87_dialogues]
  · refine ⟨[], d.dialogues.map f, ?_, ?_, by simp [List.flatMap]⟩
    · unfold ssaReadLines
      rw [hh]
      rfl
    · rw [List.forall₂_map_left_iff, List.forall₂_map_right_iff, List.forall₂_same]
      intro e he
      unfold ssaReadLines
      rw [ssaLines_append, hh, ok_bind, ssaLines, dialogue_read d hd e (hd.dialogues e he) _ (hf e he), ok_bind, ssaLines]
      rfl
  · intro l hl
    obtain ⟨e, he, rfl⟩ := List.mem_map.1 hl
    obtain ⟨b1, b2⟩ := body_facts e (hd.dialogues e he)
    have htr : Trimmed e.line := by
      refine ⟨fun c hc => ?_, fun c hc => b1.2 c ?_⟩
      · cases hc; decide
      · unfold SDialogue.line at hc
        rw [List.getLast?_append] at hc
        cases hq : ((e.fields.map (· ++ [44])).flatten ++ e.text).getLast? with
        | none => exact absurd (List.getLast?_eq_none_iff.1 hq) b2
        | some y => rw [hq] at hc; exact hc
    unfold IsDialogue ssaClean
    rw [trim_self htr]
    exact ⟨32 :: ((e.fields.map (· ++ [44])).flatten ++ e.text), rfl⟩

/-- C91: every file made of a script header, styles and dialogues in the usual columns is read, and what is read are the runs of text of its dialogues, in order; times are those written, to hundredths of a
second; the appearance is that of the style of the dialogue, changed by its override tags; and each run is at its place. -/
theorem C91_lines (d : SDoc) (hd : d.Ok) :
    ∃ parts, List.Forall₂ (fun e p => Renders (d.context e) (d.base e) e.items p) d.dialogues parts ∧ ssaReadLines d.lines = .ok parts.flatten := by
  classical
  have one : ∀ e, ∃ p, e ∈ d.dialogues → ssaParseLine (d.context e) (d.base e) e.text = .ok p ∧ Renders (d.context e) (d.base e) e.items p := by
    intro e
    by_cases he : e ∈ d.dialogues
    · obtain ⟨p, h⟩ := dialogue_renders d hd e (hd.dialogues e he)
      exact ⟨p, fun _ => h⟩
    · exact ⟨[], fun h => absurd h he⟩
  obtain ⟨f, hf⟩ := Classical.axiomOfChoice one
  refine ⟨d.dialogues.map f, ?_, ?_⟩
  · rw [List.forall₂_map_right_iff, List.forall₂_same]
    exact fun e he => (hf e he).2
  · rw [d.read_lines hd f fun e he => (hf e he).1]
    rfl

private theorem line_end (r : SsaRead) (c : Byte) (hc : isSpace c = true) (l : Str) : ssaLine r (l ++ [c]) = ssaLine r l := by
  have : trim (l ++ [c]) = trim l := by
    unfold trim trimRightIf
    rw [List.reverse_append, List.reverse_singleton, List.singleton_append, List.dropWhile_cons_of_pos hc]
  unfold ssaLine
  rw [this]

private theorem lines_end (r : SsaRead) (c : Byte) (hc : isSpace c = true) (ls : List Str) : ssaLines r (ls.map (· ++ [c])) = ssaLines r ls := by
  induction ls generalizing r with
  | nil => rfl
  | cons l ls ih =>
    rw [List.map_cons, ssaLines, ssaLines, line_end r c hc]
    congr 1; funext r'; exact ih r'

private theorem joined (ls : List Str) (h : ∀ l ∈ ls, (10 : Byte) ∉ l) : linesOfString ((ls.map (· ++ [10])).flatten) = ls := by
  induction ls with
  | nil => rfl
  | cons l ls ih =>
    rw [List.map_cons, List.flatten_cons, List.append_assoc, List.singleton_append, linesOfString_newline (h l (by simp)), ih fun x hx => h x (by simp [hx])]

private theorem joined_file (ls : List Str) (h : ∀ l ∈ ls, (10 : Byte) ∉ l ∧ (0 : Byte) ∉ l ∧ l.length ≤ 254) : linesOfFile ((ls.map (· ++ [10])).flatten) = ls.map (· ++ [10]) := by
  induction ls with
  | nil => rfl
  | cons l ls ih =>
    rw [List.map_cons, List.flatten_cons, List.append_assoc, List.singleton_append, linesOfFile_newline (h l (by simp)).1 (h l (by simp)).2.1 (h l (by simp)).2.2, ih fun x hx => h x (by simp [hx])]

/-- C91: the same from the text of the file held in memory. -/
theorem C91_text (d : SDoc) (hd : d.Ok) (hn : ∀ l ∈ d.lines, (10 : Byte) ∉ l) (crlf : Bool) :
    ∃ parts, List.Forall₂ (fun e p => Renders (d.context e) (d.base e) e.items p) d.dialogues parts ∧ ssaReadString (d.text crlf) = .ok parts.flatten := by
  obtain ⟨parts, h1, h2⟩ := C91_lines d hd
  refine ⟨parts, h1, ?_⟩
  have e : ssaLines {} (linesOfString (d.text crlf)) = ssaLines {} d.lines := by
    cases crlf with
    | false =>
      have : d.text false = (d.lines.map (· ++ [10])).flatten := rfl
      rw [this, joined _ hn]
    | true =>
      have : d.text true = ((d.lines.map (· ++ [13])).map (· ++ [10])).flatten := by
        unfold SDoc.text
        rw [List.map_map]
        congr 2
        funext l
        simp
      rw [this, joined _ (by
        intro l hl
        obtain ⟨k, hk, rfl⟩ := List.mem_map.1 hl
        simp [hn k hk]), lines_end _ _ rfl]
  unfold ssaReadString
  rw [e]
  unfold ssaReadLines at h2
  cases hs : ssaLines {} d.lines with
  | error e => rw [hs] at h2; cases h2
  | ok r => rw [hs] at h2; exact h2

/-- C91: the same from a file, if its lines are of at most 253 characters. -/
theorem C91_file (d : SDoc) (hd : d.Ok) (hn : ∀ l ∈ d.lines, (10 : Byte) ∉ l ∧ (0 : Byte) ∉ l ∧ l.length ≤ 253) (crlf : Bool) :
    ∃ parts, List.Forall₂ (fun e p => Renders (d.context e) (d.base e) e.items p) d.dialogues parts ∧ ssaReadFile (d.text crlf) = .ok parts.flatten := by
  obtain ⟨parts, h1, h2⟩ := C91_lines d hd
  refine ⟨parts, h1, ?_⟩
  have e : ssaLines {} (linesOfFile (d.text crlf)) = ssaLines {} d.lines := by
    cases crlf with
    | false =>
      have : d.text false = (d.lines.map (· ++ [10])).flatten := rfl
      rw [this, joined_file _ fun l hl => ⟨(hn l hl).1, (hn l hl).2.1, by have := (hn l hl).2.2; omega⟩, lines_end _ _ rfl]
    | true =>
      have : d.text true = ((d.lines.map (· ++ [13])).map (· ++ [10])).flatten := by
        unfold SDoc.text
        rw [List.map_map]
        congr 2
        funext l
        simp
      rw [this, joined_file _ (by
        intro l hl
        obtain ⟨k, hk, rfl⟩ := List.mem_map.1 hl
        have := hn k hk
        simp [this.1, this.2.1, this.2.2]), lines_end _ _ rfl, lines_end _ _ rfl]
  unfold ssaReadFile
  rw [e]
  unfold ssaReadLines at h2
  cases hs : ssaLines {} d.lines with
  | error e => rw [hs] at h2; cases h2
  | ok r => rw [hs] at h2; exact h2

/-- An ordinary document. -/
private def exDoc : SDoc where
  resX := 1920
  resY := 1080
  styles := [{ name := b!"Default", font := b!"Arial", size := 48, primary := ⟨255, 255, 255⟩, back := ⟨0, 0, 0⟩, marginV := 54 },
    { name := b!"Top", font := b!"Arial", size := 48, primary := ⟨255, 255, 0⟩, back := ⟨0, 0, 0⟩, italic := true, key := 8, marginV := 27 }]
  dialogues := [{ from_ := ⟨0, 1, 2, 50, 0, 1, 1, 0⟩, to_ := ⟨0, 1, 4, 5, 0, 1, 1, 1⟩, style := b!"Top", items := [.text b!"Hello, ", .block [] [.italic false], .text b!"world"] }]

example : exDoc.Ok ∧ (∀ l ∈ exDoc.lines, (10 : Byte) ∉ l ∧ (0 : Byte) ∉ l ∧ l.length ≤ 253) ∧
    exDoc.dialogues.map SDialogue.line = [b!"Dialogue: 0,0:01:02.50,0:01:04.05,Top,,0,0,0,,Hello, {\\i0}world"] := by
  refine ⟨⟨by decide, by decide, ?_, ?_⟩, by decide +kernel, by decide +kernel⟩
  · intro s hs
    simp only [exDoc, List.mem_cons, List.not_mem_nil, or_false] at hs
    rcases hs with rfl | rfl <;>
    exact ⟨⟨by decide, by decide, by decide⟩, ⟨by decide, by decide, by decide⟩, by decide, by decide, by decide, by decide⟩
  · intro e he
    simp only [exDoc, List.mem_cons, List.not_mem_nil, or_false] at he
    subst he
    refine ⟨⟨by unfold Stamp.Fits; decide, by unfold Stamp.Fits; decide⟩, ⟨by decide, ⟨by decide, by decide⟩, by decide⟩, by decide, fun i hi => ?_, ⟨by decide, by decide⟩, by decide⟩
    simp only [List.mem_cons, List.not_mem_nil, or_false] at hi
    rcases hi with rfl | rfl | rfl
    · unfold SItem.Ok StackLine; decide
    · refine ⟨by decide, fun t ht => ?_⟩
      simp only [List.mem_cons, List.not_mem_nil, or_false] at ht
      rcases ht with rfl; trivial
    · unfold SItem.Ok StackLine; decide

example : (ssaReadLines exDoc.lines).toOption.map (fun l => l.map (fun r => (r.text, r.italic, r.vpos.ref))) =
    some [(b!"Hello, ", true, some .topOfScreen), (b!"world", false, some .topOfScreen)] := by decide +kernel

end LibSub
