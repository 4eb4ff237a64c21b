/-
src/stl_text_reader.cc
-/
import Verif.Model.Subtitle

namespace LibSub

/-- The lines processed by the `while (in.good ())` loop (src/stl_text_reader.cc:47-52):
`getline` that reaches the end of the stream sets `eofbit`, and the line it read is dropped; so exactly
the lines terminated by a newline are processed. -/
def streamLines (s : Str) : List Str := (splitAny (· == 10) s).dropLast

/-- State of the reader: `_subtitle` and `_subs`. -/
structure StlTextSt where
  sub : Raw := { vpos := { line := some 0, ref := some .topOfSubtitle } }
  subs : List Raw := []
  deriving DecidableEq, Repr

/-- `STLTextReader::time` (src/stl_text_reader.cc:135-146). -/
def stlTextTime (t : Str) : R (Option Time) :=
  match splitAny (· == 58) t with
  | [a, b, c, d] => do
    let h ← lexicalCastInt a
    let m ← lexicalCastInt b
    let s ← lexicalCastInt c
    let f ← lexicalCastInt d
    let t ← Time.fromHmsf h m s f none
    pure (some t)
  | _ => .ok none

/-- `STLTextReader::set` (src/stl_text_reader.cc:148-162). -/
def StlTextSt.set (s : StlTextSt) (name value : Str) : R StlTextSt :=
  if name = b!"$FontName" then .ok { s with sub := { s.sub with font := some value } }
  else if name = b!"$Bold" then .ok { s with sub := { s.sub with bold := value == b!"True" } }
  else if name = b!"$Italic" then .ok { s with sub := { s.sub with italic := value == b!"True" } }
  else if name = b!"$Underlined" then .ok { s with sub := { s.sub with underline := value == b!"True" } }
  else if name = b!"$FontSize" then do
    let i ← lexicalCastInt value
    pure { s with sub := { s.sub with fontSize := { s.sub.fontSize with pts := some i } } }
  else .ok s

/-- `STLTextReader::maybe_push` (src/stl_text_reader.cc:164-172). -/
def StlTextSt.maybePush (s : StlTextSt) : StlTextSt :=
  if s.sub.text.isEmpty then s
  else { sub := { s.sub with text := [], vpos := { s.sub.vpos with line := some 0 } }, subs := s.subs ++ [s.sub] }

/-- The loop over the text (src/stl_text_reader.cc:105-128). -/
def stlTextChars : StlTextSt → Str → R StlTextSt
  | s, [] => .ok s
  | s, 124 :: cs => do
    let s := s.maybePush
    let l ← optGet s.sub.vpos.line
    let l' ← ck (l + 1)
    stlTextChars { s with sub := { s.sub with vpos := { s.sub.vpos with line := some l' } } } cs
  | s, [94] => .ok s.maybePush
  | s, 94 :: d :: cs =>
    let s := s.maybePush
    let s :=
      if d == 66 then { s with sub := { s.sub with bold := !s.sub.bold } }
      else if d == 73 then { s with sub := { s.sub with italic := !s.sub.italic } }
      else if d == 85 then { s with sub := { s.sub with underline := !s.sub.underline } }
      else s
    stlTextChars s cs
  | s, c :: cs => stlTextChars { s with sub := { s.sub with text := s.sub.text ++ [c] } } cs

/-- One line (src/stl_text_reader.cc:54-131).  For what `warn` prints see `stlTextLineOut`. -/
def stlTextLine (s : StlTextSt) (raw : Str) : R StlTextSt :=
  let line := trim raw
  if startsWith line b!"//" then .ok s
  else if startsWith line b!"$" then
    match splitAny (· == 61) line with
    | [n, v] => s.set (trim n) (trim v)
    | _ => .ok s
  else
    match line.findIdx? (· == 44) with
    | none => .ok s
    | some d0 =>
      match (line.drop (d0 + 1)).findIdx? (· == 44) with
      | none => .ok s
      | some k =>
        let d1 := d0 + 1 + k
        if d0 ≤ 1 ∨ d1 ≥ line.length - 1 then .ok s
        else do
          let from_ ← stlTextTime (trim (line.take (d0 - 1)))
          let to_ ← stlTextTime (trim ((line.drop (d0 + 1)).take (d1 - d0 - 1)))
          match from_, to_ with
          | some f, some t => do
            let s ← stlTextChars { s with sub := { s.sub with from_ := f, to_ := t } } (line.drop (d1 + 1))
            pure s.maybePush
          | _, _ => pure s

@[inherit_doc stlTextLine]
def stlTextLines (s : StlTextSt) : List Str → R StlTextSt
  | [] => .ok s
  | l :: ls => do
    let s' ← stlTextLine s l
    stlTextLines s' ls

/-- `STLTextReader (istream&)` (src/stl_text_reader.cc:39-133). -/
def stlTextRead (s : Str) : R (List Raw) := do
  let st ← stlTextLines {} (streamLines s)
  pure st.subs

/-! ### What is printed: `Reader::warn` (src/reader.cc:28-33) writes a message and a newline to `std::cout` -/

/-- `warn (String::compose ("Unrecognised line %1", line))` (src/stl_text_reader.cc:72, 83, 96). -/
def warnLine (line : Str) : Str := b!"Unrecognised line " ++ line ++ b!"\n"

/-- `warn (String::compose ("Unrecognised time %1", t))` (src/stl_text_reader.cc:141). -/
def warnTime (t : Str) : Str := b!"Unrecognised time " ++ t ++ b!"\n"

/-- What `STLTextReader::time` prints (src/stl_text_reader.cc:138-143). -/
def stlTextTimeOut (t : Str) : Str :=
  match splitAny (· == 58) t with
  | [_, _, _, _] => []
  | _ => warnTime t

/-- What is printed for one line (src/stl_text_reader.cc:54-98), up to an exception if there is one. -/
def stlTextLineOut (raw : Str) : Str :=
  let line := trim raw
  if startsWith line b!"//" then []
  else if startsWith line b!"$" then
    match splitAny (· == 61) line with
    | [_, _] => []
    | _ => warnLine line
  else
    match line.findIdx? (· == 44) with
    | none => warnLine line
    | some d0 =>
      match (line.drop (d0 + 1)).findIdx? (· == 44) with
      | none => warnLine line
      | some k =>
        let d1 := d0 + 1 + k
        if d0 ≤ 1 ∨ d1 ≥ line.length - 1 then warnLine line
        else
          let f := trim (line.take (d0 - 1))
          let t := trim ((line.drop (d0 + 1)).take (d1 - d0 - 1))
          stlTextTimeOut f ++
          match stlTextTime f with
          | .error _ => []
          | .ok from_ =>
            stlTextTimeOut t ++
            match stlTextTime t with
            | .error _ => []
            | .ok to_ => if from_.isNone || to_.isNone then warnLine line else []

/-- What is printed for all lines (src/stl_text_reader.cc:47-132), up to an exception if there is one. -/
def stlTextOut (s : StlTextSt) : List Str → Str
  | [] => []
  | l :: ls =>
    stlTextLineOut l ++
    match stlTextLine s l with
    | .ok s' => stlTextOut s' ls
    | .error _ => []

/-- What `STLTextReader (istream&)` prints. -/
def stlTextPrinted (s : Str) : Str := stlTextOut {} (streamLines s)

end LibSub
