/-
src/colour.h, src/colour.cc, src/effect.cc, src/font_size.h/.cc, src/horizontal_position.h/.cc,
src/vertical_position.h/.cc, src/vertical_reference.cc, src/raw_subtitle.h/.cc, src/subtitle.h/.cc
-/
import Verif.Model.Time
import Verif.Model.Text

namespace LibSub

/-- `sub::Colour` (src/colour.h:35-59); components are `float`s. -/
structure Colour where
  r : Rat := 0
  g : Rat := 0
  b : Rat := 0
  deriving DecidableEq, Repr

/-- `sscanf (s, "%2x", &i)`: skip white space, then at most two characters: optional sign, optional
`0x`, hex digits.  Returns the `unsigned` bit pattern read as `int`, and the rest of the input.
Two characters are at most a sign and one digit, two digits, or `0x` (which has no digits after the
prefix, a matching failure). -/
def scanHex2 (s : Str) : Option (Int × Str) :=
  match s.dropWhile isSpace with
  | 45 :: b :: rest => if isXDigit b then some (-(digitVal b : Int), rest) else none
  | 43 :: b :: rest => if isXDigit b then some ((digitVal b : Int), rest) else none
  | a :: b :: rest =>
    if isXDigit a then
      if isXDigit b then some ((16 * digitVal a + digitVal b : Nat), rest)
      else if a == 48 && (b == 120 || b == 88) then none
      else some ((digitVal a : Int), b :: rest)
    else none
  | [a] => if isXDigit a then some ((digitVal a : Int), []) else none
  | [] => none

/-- `float (i) / 255` (src/colour.cc:37, 49). -/
def comp255 (i : Int) : Rat := f32 (f32 i / 255)

/-- `Colour::from_rgba_hex` (src/colour.cc:29-38); the string ends at a NUL for `sscanf`, which is
not a hex digit, sign or space, so that needs no special case. -/
def Colour.fromRgbaHex (s : Str) : R Colour :=
  match scanHex2 s with
  | none => .error (.xml b!"could not parse colour string")
  | some (r, s1) =>
    match scanHex2 s1 with
    | none => .error (.xml b!"could not parse colour string")
    | some (g, s2) =>
      match scanHex2 s2 with
      | none => .error (.xml b!"could not parse colour string")
      | some (b, s3) =>
        match scanHex2 s3 with
        | none => .error (.xml b!"could not parse colour string")
        | some _ => .ok ⟨comp255 r, comp255 g, comp255 b⟩

/-- `Colour::from_rgb_hex` (src/colour.cc:41-50). -/
def Colour.fromRgbHex (s : Str) : R Colour :=
  match scanHex2 s with
  | none => .error (.xml b!"could not parse colour string")
  | some (r, s1) =>
    match scanHex2 s1 with
    | none => .error (.xml b!"could not parse colour string")
    | some (g, s2) =>
      match scanHex2 s2 with
      | none => .error (.xml b!"could not parse colour string")
      | some (b, _) => .ok ⟨comp255 r, comp255 g, comp255 b⟩

/-- `sub::operator== (Colour, Colour)` (src/colour.cc:52-56). -/
def Colour.eq (a b : Colour) : Bool := a.r == b.r && a.g == b.g && a.b == b.b

/-- `sub::Effect` (src/effect.h:28-32). -/
inductive Effect where
  | border
  | shadow
  deriving DecidableEq, Repr

/-- `sub::string_to_effect` (src/effect.cc:28-40). -/
def stringToEffect (s : Str) : R (Option Effect) :=
  if s = b!"none" then .ok none
  else if s = b!"border" then .ok (some .border)
  else if s = b!"shadow" then .ok (some .shadow)
  else .error (.xml b!"unknown subtitle effect type")

/-- `sub::FontSize` (src/font_size.h:33-66). -/
structure FontSize where
  /-- `_proportional` -/
  prop : Option Rat := none
  /-- `_points` -/
  pts : Option Int := none
  deriving DecidableEq, Repr

/-- `FontSize::proportional (int)` (src/font_size.cc:24-32). -/
def FontSize.proportionalAt (s : FontSize) (screenHeight : Int) : R Rat :=
  match s.prop with
  | some p => .ok p
  | none => do
    let p ← optGet s.pts
    let q ← fdiv (f32 p) (f32 screenHeight)
    pure (f32 q)

/-- `FontSize::points (int)` (src/font_size.cc:34-42): `float * int` truncated to `int`. -/
def FontSize.pointsAt (s : FontSize) (screenHeight : Int) : R Int :=
  match s.pts with
  | some p => .ok p
  | none => do
    let p ← optGet s.prop
    toInt (f32 (p * f32 screenHeight))

/-- `FontSize::from_points` (src/font_size.cc:44-50). -/
def FontSize.fromPoints (p : Int) : FontSize := ⟨none, some p⟩

/-- `FontSize::from_proportional` (src/font_size.cc:52-58). -/
def FontSize.fromProportional (p : Rat) : FontSize := ⟨some p, none⟩

/-- `FontSize::specified` (src/font_size.cc:60-64). -/
def FontSize.specified (s : FontSize) : Bool := s.prop.isSome || s.pts.isSome

/-- `sub::operator== (FontSize, FontSize)` (src/font_size.cc:66-70). -/
def FontSize.eq (a b : FontSize) : Bool := a.prop == b.prop && a.pts == b.pts

/-- `sub::HorizontalReference` (src/horizontal_reference.h:27-35). -/
inductive HRef where
  | left
  | centre
  | right
  deriving DecidableEq, Repr

/-- `sub::HorizontalPosition` (src/horizontal_position.h:27-40). -/
structure HPos where
  ref : HRef := .centre
  /-- `proportional` -/
  prop : Rat := 0
  deriving DecidableEq, Repr

/-- `HorizontalPosition::operator==` (src/horizontal_position.cc:27-32): `fabs` of a `float`
difference against the `double` `1.0 / 1998`. -/
def HPos.eq (a b : HPos) : Bool :=
  a.ref == b.ref && decide (absR (f32 (a.prop - b.prop)) < f64 (1 / 1998))

/-- `sub::VerticalReference` (src/vertical_reference.h:27-39). -/
inductive VRef where
  | topOfScreen
  | centreOfScreen
  | bottomOfScreen
  | topOfSubtitle
  deriving DecidableEq, Repr

/-- `sub::string_to_vertical_reference` (src/vertical_reference.cc:27-39). -/
def stringToVRef (s : Str) : R VRef :=
  if s = b!"top" then .ok .topOfScreen
  else if s = b!"center" then .ok .centreOfScreen
  else if s = b!"bottom" then .ok .bottomOfScreen
  else .error (.xml b!"unknown subtitle valign type")

/-- `sub::VerticalPosition` (src/vertical_position.h:31-47). -/
structure VPos where
  prop : Option Rat := none
  line : Option Int := none
  lines : Option Int := none
  ref : Option VRef := none
  deriving DecidableEq, Repr

/-- `VerticalPosition::fraction_from_screen_top` (src/vertical_position.cc:25-46).
`prop + 0.5` is computed in `double` and returned as `float`. -/
def VPos.fractionFromTop (v : VPos) : R Rat :=
  match v.ref with
  | none => .ok 0
  | some ref =>
    if v.prop.isNone && v.line.isNone then .ok 0
    else do
      let prop ←
        match v.prop with
        | some p => pure p
        | none => do
          let l ← optGet v.line
          let n ← optGet v.lines
          let q ← fdiv (f32 l) (f32 n)
          pure (f32 q)
      match ref with
      | .topOfScreen => pure prop
      | .centreOfScreen => pure (f32 (f64 (prop + 1/2)))
      | .bottomOfScreen => pure (f32 (1 - prop))
      | .topOfSubtitle => pure prop

/-- `VerticalPosition::operator==` (src/vertical_position.cc:48-60). -/
def VPos.eq (a b : VPos) : Bool :=
  if a.prop.isSome && a.ref.isSome && b.prop.isSome && b.ref.isSome then
    a.prop == b.prop && a.ref == b.ref
  else if a.ref.isSome && a.line.isSome && a.lines.isSome && b.ref.isSome && b.line.isSome && b.lines.isSome then
    a.line == b.line && a.lines == b.lines && a.ref == b.ref
  else if a.ref.isSome && a.line.isSome && b.ref.isSome && b.line.isSome then
    a.ref == b.ref && a.line == b.line
  else false

/-- `VerticalPosition::operator<` (src/vertical_position.cc:62-66). -/
def VPos.lt (a b : VPos) : R Bool := do
  let x ← a.fractionFromTop
  let y ← b.fractionFromTop
  pure (decide (x < y))

/-- `sub::RawSubtitle` (src/raw_subtitle.h:39-76), default member values as in its constructor. -/
structure Raw where
  text : Str := []
  font : Option Str := none
  fontSize : FontSize := {}
  effect : Option Effect := none
  effectColour : Option Colour := none
  colour : Colour := ⟨1, 1, 1⟩
  bold : Bool := false
  italic : Bool := false
  underline : Bool := false
  hpos : HPos := {}
  vpos : VPos := {}
  from_ : Time := {}
  to_ : Time := {}
  fadeUp : Option Time := none
  fadeDown : Option Time := none
  deriving DecidableEq, Repr

/-- `sub::operator< (RawSubtitle, RawSubtitle)` (src/raw_subtitle.cc:24-28). -/
def Raw.lt (a b : Raw) : R Bool := a.from_.lt b.from_

/-- `sub::Block` (src/subtitle.h:41-68). -/
structure Block where
  text : Str := []
  font : Option Str := none
  fontSize : FontSize := {}
  effect : Option Effect := none
  effectColour : Option Colour := none
  colour : Colour := ⟨1, 1, 1⟩
  bold : Bool := false
  italic : Bool := false
  underline : Bool := false
  deriving DecidableEq, Repr

/-- `sub::Line` (src/subtitle.h:77-96). -/
structure Line where
  hpos : HPos := {}
  vpos : VPos := {}
  blocks : List Block := []
  deriving DecidableEq, Repr

/-- `sub::Subtitle` (src/subtitle.h:106-126). -/
structure Subtitle where
  from_ : Time := {}
  to_ : Time := {}
  fadeUp : Option Time := none
  fadeDown : Option Time := none
  lines : List Line := []
  deriving DecidableEq, Repr

/-- `Block::Block (RawSubtitle)` (src/subtitle.cc:52-64). -/
def Block.ofRaw (s : Raw) : Block :=
  { text := s.text, font := s.font, fontSize := s.fontSize, effect := s.effect,
    effectColour := s.effectColour, colour := s.colour, bold := s.bold, italic := s.italic,
    underline := s.underline }

/-- `Line::Line (RawSubtitle)` (src/subtitle.cc:39-44). -/
def Line.ofRaw (s : Raw) : Line := { hpos := s.hpos, vpos := s.vpos, blocks := [Block.ofRaw s] }

/-- `Subtitle::Subtitle (RawSubtitle)` (src/subtitle.cc:24-31). -/
def Subtitle.ofRaw (s : Raw) : Subtitle :=
  { from_ := s.from_, to_ := s.to_, fadeUp := s.fadeUp, fadeDown := s.fadeDown, lines := [Line.ofRaw s] }

/-- `operator== (optional<Time>, optional<Time>)` (Boost): equal if both empty, or both full with
equal (possibly throwing) contents. -/
def optTimeEq (a b : Option Time) : R Bool :=
  match a, b with
  | none, none => .ok true
  | some x, some y => x.eq y
  | _, _ => .ok false

/-- `Subtitle::same_metadata` (src/subtitle.cc:33-37). -/
def Subtitle.sameMetadata (t : Subtitle) (s : Raw) : R Bool :=
  andM (t.from_.eq s.from_) (andM (t.to_.eq s.to_)
    (andM (optTimeEq t.fadeUp s.fadeUp) (optTimeEq t.fadeDown s.fadeDown)))

/-- `Line::same_metadata` (src/subtitle.cc:46-50). -/
def Line.sameMetadata (l : Line) (s : Raw) : Bool := l.vpos.eq s.vpos

/-- `operator== (optional<Colour>, optional<Colour>)` (Boost, using src/colour.cc:52-56). -/
def optColourEq (a b : Option Colour) : Bool :=
  match a, b with
  | none, none => true
  | some x, some y => x.eq y
  | _, _ => false

/-- `sub::operator== (Block, Block)` (src/subtitle.cc:78-83). -/
def Block.eq (a b : Block) : Bool :=
  a.text == b.text && a.font == b.font && a.fontSize.eq b.fontSize && a.effect == b.effect
    && optColourEq a.effectColour b.effectColour && a.colour.eq b.colour
    && a.bold == b.bold && a.italic == b.italic && a.underline == b.underline

/-- `operator==` of two vectors given element equality (no exceptions). -/
def listEq {α : Type} (eq : α → α → Bool) : List α → List α → Bool
  | [], [] => true
  | a :: as, b :: bs => eq a b && listEq eq as bs
  | _, _ => false

/-- `sub::operator== (Line, Line)` (src/subtitle.cc:72-76). -/
def Line.eq (a b : Line) : Bool := a.hpos.eq b.hpos && a.vpos.eq b.vpos && listEq Block.eq a.blocks b.blocks

/-- `sub::operator== (Subtitle, Subtitle)` (src/subtitle.cc:66-70). -/
def Subtitle.eq (a b : Subtitle) : R Bool :=
  andM (a.from_.eq b.from_) (andM (a.to_.eq b.to_) (andM (optTimeEq a.fadeUp b.fadeUp)
    (andM (optTimeEq a.fadeDown b.fadeDown) (.ok (listEq Line.eq a.lines b.lines)))))

end LibSub
