/-
Properties C24 and C25: inline tags of SubRip lines.
-/
import Verif.Model.SubRip
import Verif.Lemmas.SubRip
import Verif.Props.Values
import Verif.Props.Timestamp

namespace LibSub

/-! ### Specification -/

/-- The style in force at some point of a subtitle. -/
structure Style where
  bold : Bool
  italic : Bool
  underline : Bool
  colour : Colour
  deriving DecidableEq

/-- Bold, italic or underline. -/
inductive Face where
  | bold
  | italic
  | underline
  deriving DecidableEq

/-- White, the colour of text outside all font tags. -/
def white : Colour := ⟨1, 1, 1⟩

/-- Some letters of `s` changed to upper case, as told by the flags. -/
def withCase : List Bool → Str → Str
  | true :: fs, c :: cs => (if c ∈ b!"abcdefghijklmnopqrstuvwxyz" then c - 32 else c) :: withCase fs cs
  | false :: fs, c :: cs => c :: withCase fs cs
  | _, cs => cs

/-- A tag of a SubRip line. -/
inductive Mark where
  /-- `<b>`, `</b>`, `{i}`, `<U>`, … -/
  | face (f : Face) (on brace upper : Bool)
  /-- `<font …>` where `…`, here `tag`, gives colour `c` -/
  | fontOpen (caps : List Bool) (tag : Str) (c : Colour)
  | fontClose (caps : List Bool)

/-- The letter that names a face. -/
def Face.letter : Face → Str
  | .bold => b!"b"
  | .italic => b!"i"
  | .underline => b!"u"

/-- How a tag is written. -/
def Mark.text : Mark → Str
  | .face f on brace upper =>
    (if brace then b!"{" else b!"<") ++ (if on then [] else b!"/") ++ withCase [upper] f.letter ++ (if brace then b!"}" else b!">")
  | .fontOpen caps tag _ => b!"<" ++ withCase caps b!"font" ++ tag ++ b!">"
  | .fontClose caps => b!"</" ++ withCase caps b!"font" ++ b!">"

/-- What a tag does to the style in force, and to the colours of the font tags that are open (innermost first).
`none`: a `</font>` with no open font tag. -/
def Mark.apply : Mark → Style × List Colour → Option (Style × List Colour)
  | .face .bold on _ _, (s, k) => some ({ s with bold := on }, k)
  | .face .italic on _ _, (s, k) => some ({ s with italic := on }, k)
  | .face .underline on _ _, (s, k) => some ({ s with underline := on }, k)
  | .fontOpen _ _ c, (s, k) => some ({ s with colour := c }, c :: k)
  | .fontClose _, (s, _ :: k) => some ({ s with colour := k.headD white }, k)
  | .fontClose _, (_, []) => none

/-- A line: text, then tags each followed by text. -/
def lineText (t : Str) : List (Mark × Str) → Str
  | [] => t
  | (m, t') :: r => t ++ m.text ++ lineText t' r

/-- The text of a line with its style, if there is any text. -/
def run (t : Str) (s : Style) : List (Str × Style) := if t = [] then [] else [(t, s)]

/-- The runs of text of a line, each with the style in force there, and the style at the end. -/
def runs : Style × List Colour → Str → List (Mark × Str) → Option (List (Str × Style) × Style)
  | (s, _), t, [] => some (run t s, s)
  | (s, k), t, (m, t') :: r =>
    match m.apply (s, k) with
    | none => none
    | some st =>
      match runs st t' r with
      | none => none
      | some (rs, e) => some (run t s ++ rs, e)

/-- The raw subtitle `p` with another text and style. -/
def Raw.styled (p : Raw) (t : Str) (s : Style) : Raw :=
  { p with text := t, bold := s.bold, italic := s.italic, underline := s.underline, colour := s.colour }

/-- The style of a raw subtitle. -/
def Raw.style (p : Raw) : Style := ⟨p.bold, p.italic, p.underline, p.colour⟩

/-! ### Proofs -/

theorem withCase_length (fs : List Bool) (s : Str) : (withCase fs s).length = s.length := by
  induction s generalizing fs with
  | nil => cases fs with
    | nil => rfl
    | cons f fs => cases f <;> rfl
  | cons c cs ih =>
    cases fs with
    | nil => rfl
    | cons f fs => cases f <;> simp [withCase, ih]

private theorem lower_upper (c : Byte) :
    lowerByte (if c ∈ b!"abcdefghijklmnopqrstuvwxyz" then c - 32 else c) = lowerByte c :=
  forall_byte (p := fun c => lowerByte (if c ∈ b!"abcdefghijklmnopqrstuvwxyz" then c - 32 else c) = lowerByte c)
    (by decide +kernel) c

theorem toLower_withCase (fs : List Bool) (s : Str) : toLower (withCase fs s) = toLower s := by
  induction s generalizing fs with
  | nil => cases fs with
    | nil => rfl
    | cons f fs => cases f <;> rfl
  | cons c cs ih =>
    cases fs with
    | nil => rfl
    | cons f fs =>
      have := ih fs
      unfold toLower at this
      cases f <;> simp only [withCase, toLower, List.map_cons, lower_upper, this]

private theorem hasNext_ne {a b : Str} (r : Str) (s : Str) (h : a.length = b.length) (hl : toLower a = b) (hne : ¬ s <+: b) (hs : s.length ≤ b.length) :
    hasNext (a ++ r) s = false := by
  cases hn : hasNext (a ++ r) s with
  | false => rfl
  | true =>
    unfold hasNext at hn
    rw [beq_iff_eq, List.take_append_of_le_length (by omega)] at hn
    exfalso
    apply hne
    rw [← hn, ← hl]
    unfold toLower
    exact (List.take_prefix _ _).map _

private theorem hasNext_pos {a b : Str} (r : Str) (s : Str) (h : a.length = b.length) (hl : toLower a = b) (hs : s <+: b) :
    hasNext (a ++ r) s = true := by
  unfold hasNext
  rw [beq_iff_eq, List.take_append_of_le_length (by rw [h]; exact hs.length_le)]
  unfold toLower at hl ⊢
  rw [List.map_take, hl]
  exact (List.prefix_iff_eq_take.1 hs).symm

/-- The token read at a face tag. -/
def Face.tok : Face → Bool → Tok
  | .bold, b => .bold b
  | .italic, b => .italic b
  | .underline, b => .underline b

private theorem nextTok_face (f : Face) (on brace upper : Bool) (r : Str) :
    ∃ c cs, (Mark.face f on brace upper).text ++ r = c :: cs ∧ nextTok c cs = (f.tok on, r) := by
  cases f <;> cases on <;> cases brace <;> cases upper <;>
    exact ⟨_, _, rfl, rfl⟩

private theorem takeWhile_gt {tag r : Str} (h : (62 : Byte) ∉ tag) : (tag ++ 62 :: r).takeWhile (· != 62) = tag := by
  rw [List.takeWhile_append_of_pos]
  · simp
  · intro c hc
    simp only [bne_iff_ne, ne_eq]
    rintro rfl
    exact h hc

private theorem fontOpen_tok (caps : List Bool) (tag : Str) (h : (62 : Byte) ∉ tag) (r : Str) :
    ∃ cs, b!"<" ++ withCase caps b!"font" ++ tag ++ b!">" ++ r = 60 :: cs ∧ nextTok 60 cs = (.fontOpen tag, r) := by
  have hlen : (b!"<" ++ withCase caps b!"font").length = b!"<font".length := by simp [withCase_length]
  have hlow : toLower (b!"<" ++ withCase caps b!"font") = b!"<font" := by
    have := toLower_withCase caps b!"font"
    unfold toLower at this ⊢
    rw [List.map_append, this]
    decide
  refine ⟨withCase caps b!"font" ++ (tag ++ 62 :: r), by simp, ?_⟩
  have e : (60 : Byte) :: (withCase caps b!"font" ++ (tag ++ 62 :: r)) = (b!"<" ++ withCase caps b!"font") ++ (tag ++ 62 :: r) := rfl
  have d5 : ((b!"<" ++ withCase caps b!"font") ++ (tag ++ 62 :: r)).drop 5 = tag ++ 62 :: r := by
    rw [show 5 = (b!"<" ++ withCase caps b!"font").length by rw [hlen]; rfl, List.drop_left']
    rfl
  unfold nextTok
  simp only [e, d5, takeWhile_gt h]
  rw [hasNext_ne _ b!"<b>" hlen hlow (by decide) (by decide), hasNext_ne _ b!"{b}" hlen hlow (by decide) (by decide),
    hasNext_ne _ b!"</b>" hlen hlow (by decide) (by decide), hasNext_ne _ b!"{/b}" hlen hlow (by decide) (by decide),
    hasNext_ne _ b!"<i>" hlen hlow (by decide) (by decide), hasNext_ne _ b!"{i}" hlen hlow (by decide) (by decide),
    hasNext_ne _ b!"</i>" hlen hlow (by decide) (by decide), hasNext_ne _ b!"{/i}" hlen hlow (by decide) (by decide),
    hasNext_ne _ b!"<u>" hlen hlow (by decide) (by decide), hasNext_ne _ b!"{u}" hlen hlow (by decide) (by decide),
    hasNext_ne _ b!"</u>" hlen hlow (by decide) (by decide), hasNext_ne _ b!"{/u}" hlen hlow (by decide) (by decide),
    hasNext_pos _ b!"<font" hlen hlow (by decide)]
  simp only [Bool.or_self, Bool.false_eq_true, if_false, if_true]
  congr 1
  rw [show tag ++ 62 :: r = (tag ++ [62]) ++ r by simp, show tag.length + 1 = (tag ++ [62]).length by simp, List.drop_left']
  rfl

private theorem fontClose_tok (caps : List Bool) (r : Str) :
    ∃ cs, b!"</" ++ withCase caps b!"font" ++ b!">" ++ r = 60 :: cs ∧ nextTok 60 cs = (.fontClose, r) := by
  have hlen : (b!"</" ++ withCase caps b!"font" ++ b!">").length = b!"</font>".length := by simp [withCase_length]
  have hlow : toLower (b!"</" ++ withCase caps b!"font" ++ b!">") = b!"</font>" := by
    have := toLower_withCase caps b!"font"
    unfold toLower at this ⊢
    rw [List.map_append, List.map_append, this]
    decide
  refine ⟨47 :: (withCase caps b!"font" ++ b!">" ++ r), by simp, ?_⟩
  have e : (60 : Byte) :: 47 :: (withCase caps b!"font" ++ b!">" ++ r) = (b!"</" ++ withCase caps b!"font" ++ b!">") ++ r := by simp
  have d7 : ((b!"</" ++ withCase caps b!"font" ++ b!">") ++ r).drop 7 = r := by
    rw [show 7 = (b!"</" ++ withCase caps b!"font" ++ b!">").length by rw [hlen]; rfl, List.drop_left']
    rfl
  unfold nextTok
  simp only [e, d7]
  rw [hasNext_ne _ b!"<b>" hlen hlow (by decide) (by decide), hasNext_ne _ b!"{b}" hlen hlow (by decide) (by decide),
    hasNext_ne _ b!"</b>" hlen hlow (by decide) (by decide), hasNext_ne _ b!"{/b}" hlen hlow (by decide) (by decide),
    hasNext_ne _ b!"<i>" hlen hlow (by decide) (by decide), hasNext_ne _ b!"{i}" hlen hlow (by decide) (by decide),
    hasNext_ne _ b!"</i>" hlen hlow (by decide) (by decide), hasNext_ne _ b!"{/i}" hlen hlow (by decide) (by decide),
    hasNext_ne _ b!"<u>" hlen hlow (by decide) (by decide), hasNext_ne _ b!"{u}" hlen hlow (by decide) (by decide),
    hasNext_ne _ b!"</u>" hlen hlow (by decide) (by decide), hasNext_ne _ b!"{/u}" hlen hlow (by decide) (by decide),
    hasNext_ne _ b!"<font" hlen hlow (by decide) (by decide), hasNext_pos _ b!"</font>" hlen hlow (by decide)]
  simp only [Bool.or_self, Bool.false_eq_true, if_false, if_true]

/-- The tag is one the reader accepts: a font tag has no `>` inside and its colour is the one stated. -/
def Mark.Valid : Mark → Prop
  | .fontOpen _ tag c => (62 : Byte) ∉ tag ∧ ∀ n ctx, fontColour n ctx tag = .ok c
  | _ => True

/-- A line all of whose tags are acceptable and whose text contains nothing that looks like a tag. -/
def ValidLine (t : Str) (r : List (Mark × Str)) : Prop :=
  PlainText t ∧ ∀ x ∈ r, x.1.Valid ∧ PlainText x.2

/-- The model state for a style, the open colours, and the text so far. -/
private def st (p : Raw) (s : Style) (k : List Colour) (t : Str) (subs : List Raw) : SrtLine :=
  ⟨p.styled t s, white :: k.reverse, subs⟩

private theorem st_maybeContent (p : Raw) (s : Style) (k : List Colour) (t : Str) (subs : List Raw) :
    (st p s k t subs).maybeContent = st p s k [] (subs ++ (run t s).map (fun q => p.styled q.1 q.2)) := by
  unfold SrtLine.maybeContent st run
  cases t with
  | nil => simp [Raw.styled]
  | cons c cs => simp [Raw.styled]

private theorem exec_mark (n : Nat) (ctx : List Str) (p : Raw) (s : Style) (k : List Colour) (t : Str) (subs : List Raw) (m : Mark) (hm : m.Valid) (r : Str) :
    srtRun n ctx (st p s k t subs) (m.text ++ r) =
      match m.apply (s, k) with
      | none => .error (.ub .emptyContainer)
      | some (s', k') => srtRun n ctx (st p s' k' [] (subs ++ (run t s).map (fun q => p.styled q.1 q.2))) r := by
  cases m with
  | face f on brace upper =>
    obtain ⟨c, cs, e, h⟩ := nextTok_face f on brace upper r
    rw [e, srtRun_cons, h]
    cases f <;> simp only [Face.tok, SrtLine.exec, st_maybeContent, Mark.apply] <;> rfl
  | fontOpen caps tag c =>
    obtain ⟨cs, e, h⟩ := fontOpen_tok caps tag hm.1 r
    show srtRun n ctx _ (b!"<" ++ withCase caps b!"font" ++ tag ++ b!">" ++ r) = _
    rw [e, srtRun_cons, h]
    simp only [SrtLine.exec, st_maybeContent, Mark.apply, hm.2 n ctx]
    show srtRun n ctx _ r = _
    congr 1
    simp [st, Raw.styled]
  | fontClose caps =>
    obtain ⟨cs, e, h⟩ := fontClose_tok caps r
    show srtRun n ctx _ (b!"</" ++ withCase caps b!"font" ++ b!">" ++ r) = _
    rw [e, srtRun_cons, h]
    simp only [SrtLine.exec, st_maybeContent]
    cases k with
    | nil => rfl
    | cons c k =>
      simp only [Mark.apply]
      have e1 : (st p s (c :: k) [] (subs ++ (run t s).map (fun q => p.styled q.1 q.2))).colours.isEmpty = false := rfl
      have e2 : (st p s (c :: k) [] (subs ++ (run t s).map (fun q => p.styled q.1 q.2))).colours.dropLast = white :: k.reverse := by
        show (white :: (c :: k).reverse).dropLast = _
        rw [List.reverse_cons, ← List.cons_append, List.dropLast_concat]
      have e3 : (white :: k.reverse).getLast? = some (k.headD white) := by
        cases k with
        | nil => rfl
        | cons d k => simp [List.getLast?_cons]
      rw [e1, e2, e3]
      rfl

/-- The text after the last tag. -/
def lastText : Str → List (Mark × Str) → Str
  | t, [] => t
  | _, (_, t') :: r => lastText t' r

private theorem line_aux (n : Nat) (ctx : List Str) (p : Raw) (s : Style) (k : List Colour) (t : Str) (subs : List Raw) (r : List (Mark × Str))
    (hv : ValidLine t r) (hr : ¬ rle <:+: lastText t r) :
    (srtRun n ctx (st p s k [] subs) (lineText t r)).bind (fun s =>
      .ok ((SrtLine.maybeContent ⟨{ s.p with text := replaceAll s.p.text rle [] }, s.colours, s.subs⟩).p,
        (SrtLine.maybeContent ⟨{ s.p with text := replaceAll s.p.text rle [] }, s.colours, s.subs⟩).subs)) =
      match runs (s, k) t r with
      | none => .error (.ub .emptyContainer)
      | some (rs, s') => .ok (p.styled [] s', subs ++ rs.map (fun q => p.styled q.1 q.2)) := by
  induction r generalizing s k t subs with
  | nil =>
    have := srtRun_text n ctx (st p s k [] subs) hv.1 []
    rw [List.append_nil] at this
    rw [lineText, this, srtRun_nil]
    simp only [runs]
    show Except.ok ((SrtLine.maybeContent ⟨p.styled (replaceAll t rle []) s, white :: k.reverse, subs⟩).p,
      (SrtLine.maybeContent ⟨p.styled (replaceAll t rle []) s, white :: k.reverse, subs⟩).subs) = Except.ok _
    rw [replaceAll_none (a := t) (noOcc_of_not_infix hr)]
    have := st_maybeContent p s k t subs
    unfold st at this
    rw [this]
  | cons x r ih =>
    obtain ⟨m, t'⟩ := x
    rw [lineText, List.append_assoc, srtRun_text n ctx _ hv.1]
    show (srtRun n ctx (st p s k t subs) _).bind _ = _
    rw [exec_mark n ctx p s k t subs m (hv.2 (m, t') (by simp)).1, runs]
    cases m.apply (s, k) with
    | none => rfl
    | some sk =>
      obtain ⟨s', k'⟩ := sk
      simp only
      rw [ih s' k' t' _ ⟨(hv.2 (m, t') (by simp)).2, fun x hx => hv.2 x (by simp [hx])⟩ hr]
      cases runs (s', k') t' r with
      | none => rfl
      | some q => simp

private theorem convertLine_line (n : Nat) (ctx : List Str) (p : Raw) (hp : p.text = []) (t : Str) (subs : List Raw) (r : List (Mark × Str))
    (hv : ValidLine t r) (hr : ¬ rle <:+: lastText t r) :
    convertLine n ctx (lineText t r) p subs =
      match runs (p.style, []) t r with
      | none => .error (.ub .emptyContainer)
      | some (rs, s') => .ok (p.styled [] s', subs ++ rs.map (fun q => p.styled q.1 q.2)) := by
  rw [← line_aux n ctx p p.style [] t subs r hv hr, convertLine_eq]
  congr 2
  unfold st Raw.styled Raw.style white
  rw [← hp]
  rfl

/-! ### C24 -/

/-- C24, C25: a line of text and tags gives exactly the runs of text, each with the style in force at it, and leaves the style in force
at its end; undefined behaviour exactly if some `</font>` has no open font tag. -/
theorem C24_line (n : Nat) (ctx : List Str) (p : Raw) (hp : p.text = []) (t : Str) (subs : List Raw) (r : List (Mark × Str))
    (hv : ValidLine t r) (hr : ¬ b!"\u202B" <:+: lastText t r) :
    convertLine n ctx (lineText t r) p subs =
      match runs (p.style, []) t r with
      | none => .error (.ub .emptyContainer)
      | some (rs, s') => .ok (p.styled [] s', subs ++ rs.map (fun q => p.styled q.1 q.2)) :=
  convertLine_line n ctx p hp t subs r hv hr

/-- The face tags among the tags before some point decide the faces there. -/
def faceAt (f : Face) (init : Bool) : List Mark → Bool
  | [] => init
  | .face g on _ _ :: ms => faceAt f (if g = f then on else init) ms
  | _ :: ms => faceAt f init ms

/-- C24: which style each run has.  Every run of non-empty text, numbered `i`, has the faces set by the last tag of each kind before it;
texts are the texts of the line. -/
theorem C24_runs (s : Style) (k : List Colour) (t : Str) (r : List (Mark × Str)) (rs : List (Str × Style)) (e : Style)
    (h : runs (s, k) t r = some (rs, e)) :
    rs.map (fun q => (q.1, q.2.bold, q.2.italic, q.2.underline)) =
      ((List.range (r.length + 1)).map (fun i => ((t :: r.map Prod.snd).getD i [], faceAt .bold s.bold ((r.map Prod.fst).take i),
        faceAt .italic s.italic ((r.map Prod.fst).take i), faceAt .underline s.underline ((r.map Prod.fst).take i)))).filter (fun q => q.1 ≠ []) := by
  induction r generalizing s k t rs with
  | nil =>
    simp only [runs, Option.some.injEq, Prod.mk.injEq] at h
    obtain ⟨rfl, rfl⟩ := h
    unfold run
    by_cases ht : t = [] <;> simp [ht, faceAt]
  | cons x r ih =>
    obtain ⟨m, t'⟩ := x
    rw [runs] at h
    cases hm : m.apply (s, k) with
    | none => rw [hm] at h; cases h
    | some sk =>
      obtain ⟨s', k'⟩ := sk
      rw [hm] at h
      simp only at h
      cases hrs : runs (s', k') t' r with
      | none => rw [hrs] at h; cases h
      | some q =>
        obtain ⟨rs', e'⟩ := q
        rw [hrs] at h
        simp only [Option.some.injEq, Prod.mk.injEq] at h
        obtain ⟨rfl, rfl⟩ := h
        have := ih s' k' t' rs' hrs
        have hf : s'.bold = faceAt .bold s.bold [m] ∧ s'.italic = faceAt .italic s.italic [m] ∧ s'.underline = faceAt .underline s.underline [m] := by
          cases m with
          | face f on brace upper => cases f <;> (simp only [Mark.apply, Option.some.injEq, Prod.mk.injEq] at hm; obtain ⟨rfl, rfl⟩ := hm; simp [faceAt])
          | fontOpen caps tag c => simp only [Mark.apply, Option.some.injEq, Prod.mk.injEq] at hm; obtain ⟨rfl, rfl⟩ := hm; simp [faceAt]
          | fontClose caps =>
            cases k with
            | nil => cases hm
            | cons c k => simp only [Mark.apply, Option.some.injEq, Prod.mk.injEq] at hm; obtain ⟨rfl, rfl⟩ := hm; simp [faceAt]
        have hc : ∀ (f : Face) (b : Bool) (ms : List Mark), faceAt f (faceAt f b [m]) ms = faceAt f b (m :: ms) := by
          intro f b ms
          cases m <;> simp [faceAt]
        rw [List.map_append, this, hf.1, hf.2.1, hf.2.2]
        rw [List.length_cons, List.range_succ_eq_map (n := r.length + 1), List.map_cons, List.filter_cons, List.map_map]
        unfold run
        simp only [hc]
        by_cases ht : t = []
        · simp [ht, Function.comp_def]
        · simp [ht, faceAt, Function.comp_def]

/-- C24: the texts of the runs, put together, are the line without its tags. -/
theorem C24_text (s : Style) (k : List Colour) (t : Str) (r : List (Mark × Str)) (rs : List (Str × Style)) (e : Style)
    (h : runs (s, k) t r = some (rs, e)) : (rs.map Prod.fst).flatten = t ++ (r.map Prod.snd).flatten := by
  induction r generalizing s k t rs with
  | nil =>
    simp only [runs, Option.some.injEq, Prod.mk.injEq] at h
    obtain ⟨rfl, rfl⟩ := h
    unfold run
    by_cases ht : t = [] <;> simp [ht]
  | cons x r ih =>
    obtain ⟨m, t'⟩ := x
    rw [runs] at h
    cases hm : m.apply (s, k) with
    | none => rw [hm] at h; cases h
    | some sk =>
      rw [hm] at h
      simp only at h
      cases hrs : runs sk t' r with
      | none => rw [hrs] at h; cases h
      | some q =>
        obtain ⟨rs', e'⟩ := q
        rw [hrs] at h
        simp only [Option.some.injEq, Prod.mk.injEq] at h
        obtain ⟨rfl, rfl⟩ := h
        have := ih sk.1 sk.2 t' rs' hrs
        rw [List.map_append, List.flatten_append, this]
        unfold run
        by_cases ht : t = [] <;> simp [ht]

example : convertLine 3 [] b!"a<b>b{I}c</b>d" { srtFresh with text := [] } [] =
    .ok ({ srtFresh with italic := true },
      [{ srtFresh with text := b!"a" }, { srtFresh with text := b!"b", bold := true },
       { srtFresh with text := b!"c", bold := true, italic := true }, { srtFresh with text := b!"d", italic := true }]) := by
  decide +kernel


example : ValidLine b!"a < b" [(.face .bold true false true, b!"x{1}"), (.face .bold false true false, [])] := by
  refine ⟨plainText_of_b (by decide), ?_⟩
  intro x hx
  simp only [List.mem_cons, List.not_mem_nil, or_false] at hx
  rcases hx with rfl | rfl
  · exact ⟨trivial, plainText_of_b (by decide)⟩
  · exact ⟨trivial, plainText_of_b (by decide)⟩

/-! ### C25 -/

/-- Number of opening and closing font tags. -/
def opens (ms : List Mark) : Nat := ms.countP (fun m => match m with | .fontOpen .. => true | _ => false)
@[inherit_doc opens]
def closes (ms : List Mark) : Nat := ms.countP (fun m => match m with | .fontClose .. => true | _ => false)

private theorem apply_cases (m : Mark) (s : Style) (k : List Colour) :
    (m.apply (s, k) = none ∧ opens [m] = 0 ∧ closes [m] = 1 ∧ k = []) ∨
    (∃ s' k', m.apply (s, k) = some (s', k') ∧ k'.length + closes [m] = k.length + opens [m]) := by
  cases m with
  | face f on brace upper => right; cases f <;> exact ⟨_, _, rfl, rfl⟩
  | fontOpen caps tag c => right; exact ⟨_, _, rfl, rfl⟩
  | fontClose caps =>
    cases k with
    | nil => left; exact ⟨rfl, rfl, rfl, rfl⟩
    | cons c k => right; exact ⟨_, _, rfl, rfl⟩

private theorem opens_cons (m : Mark) (ms : List Mark) : opens (m :: ms) = opens [m] + opens ms := by
  show List.countP _ ([m] ++ ms) = _
  rw [List.countP_append]; rfl

private theorem closes_cons (m : Mark) (ms : List Mark) : closes (m :: ms) = closes [m] + closes ms := by
  show List.countP _ ([m] ++ ms) = _
  rw [List.countP_append]; rfl

private theorem open_close_one (m : Mark) : opens [m] = 0 ∨ closes [m] = 0 := by
  cases m with
  | fontOpen => exact .inr rfl
  | face => exact .inr rfl
  | fontClose => exact .inl rfl

private theorem runs_none_iff (s : Style) (k : List Colour) (t : Str) (r : List (Mark × Str)) :
    runs (s, k) t r = none ↔ ∃ i, opens ((r.map Prod.fst).take i) + k.length < closes ((r.map Prod.fst).take i) := by
  induction r generalizing s k t with
  | nil =>
    simp only [runs, List.map_nil, List.take_nil]
    constructor
    · intro h; cases h
    · rintro ⟨i, hi⟩; simp [opens, closes] at hi
  | cons x r ih =>
    obtain ⟨m, t'⟩ := x
    rw [runs]
    rcases apply_cases m s k with ⟨h, ho, hc, rfl⟩ | ⟨s', k', h, hl⟩
    · rw [h]
      simp only [true_iff]
      refine ⟨1, ?_⟩
      show opens [m] + 0 < closes [m]
      omega
    · rw [h]
      simp only
      have : (match runs (s', k') t' r with | none => none | some (rs, e) => some (run t s ++ rs, e)) = none ↔ runs (s', k') t' r = none := by
        cases runs (s', k') t' r <;> simp
      rw [this, ih]
      constructor
      · rintro ⟨i, hi⟩
        refine ⟨i + 1, ?_⟩
        rw [List.map_cons, List.take_succ_cons, opens_cons, closes_cons]
        dsimp only
        omega
      · rintro ⟨i, hi⟩
        cases i with
        | zero => simp [opens, closes] at hi
        | succ i =>
          refine ⟨i, ?_⟩
          rw [List.map_cons, List.take_succ_cons, opens_cons, closes_cons] at hi
          dsimp only at hi
          rcases open_close_one m with h0 | h0 <;> omega

/-- C25: undefined behaviour is reached exactly if some part of the line up to a point has more `</font>` than `<font`. -/
theorem C25_ub_iff (n : Nat) (ctx : List Str) (p : Raw) (hp : p.text = []) (t : Str) (subs : List Raw) (r : List (Mark × Str))
    (hv : ValidLine t r) (hr : ¬ b!"\u202B" <:+: lastText t r) :
    (∃ e, convertLine n ctx (lineText t r) p subs = .error e) ↔
      ∃ i, opens ((r.map Prod.fst).take i) < closes ((r.map Prod.fst).take i) := by
  rw [C24_line n ctx p hp t subs r hv hr]
  have := runs_none_iff p.style [] t r
  simp only [List.length_nil, Nat.add_zero] at this
  rw [← this]
  cases runs (p.style, []) t r with
  | none => simp
  | some q => simp

/-- C25: `</font>` on its own reads past the end of an empty stack. -/
theorem C25_unmatched_witness : convertLine 3 [] b!"a</font>b" srtFresh [] = .error (.ub .emptyContainer) := by decide +kernel

/-- Apply tags in order. -/
def applyAll : List Mark → Style × List Colour → Option (Style × List Colour)
  | [], st => some st
  | m :: ms, st => (m.apply st).bind (applyAll ms)

private theorem applyAll_append (a b : List Mark) (st : Style × List Colour) : applyAll (a ++ b) st = (applyAll a st).bind (applyAll b) := by
  induction a generalizing st with
  | nil => rfl
  | cons m a ih =>
    show (m.apply st).bind (applyAll (a ++ b)) = ((m.apply st).bind (applyAll a)).bind (applyAll b)
    cases m.apply st with
    | none => rfl
    | some st' => exact ih st'

/-- Font tags that match up: as many closed as opened, and never more closed than opened. -/
def Balanced (ms : List Mark) : Prop := opens ms = closes ms ∧ ∀ i, closes (ms.take i) ≤ opens (ms.take i)

private theorem balanced_stack (ms : List Mark) (s : Style) (k x : List Colour) (h : ∀ i, closes (ms.take i) ≤ opens (ms.take i) + x.length) :
    ∃ s' x', applyAll ms (s, x ++ k) = some (s', x' ++ k) ∧ x'.length + closes ms = x.length + opens ms := by
  induction ms generalizing s x with
  | nil => exact ⟨s, x, rfl, by simp [opens, closes]⟩
  | cons m ms ih =>
    have key : ∃ s1 x1, m.apply (s, x ++ k) = some (s1, x1 ++ k) ∧ x1.length + closes [m] = x.length + opens [m] := by
      cases m with
      | face f on brace upper => cases f <;> exact ⟨_, x, rfl, rfl⟩
      | fontOpen caps tag c => exact ⟨_, c :: x, rfl, rfl⟩
      | fontClose caps =>
        have := h 1
        cases x with
        | nil => simp [closes, opens] at this
        | cons c x => exact ⟨_, x, rfl, rfl⟩
    obtain ⟨s1, x1, h1, hl⟩ := key
    obtain ⟨s', x', h2, hl2⟩ := ih s1 x1 (fun i => by
      have := h (i + 1)
      rw [List.take_succ_cons, opens_cons, closes_cons] at this
      rcases open_close_one m with h0 | h0 <;> omega)
    refine ⟨s', x', ?_, ?_⟩
    · show (m.apply (s, x ++ k)).bind (applyAll ms) = _
      rw [h1]; exact h2
    · rw [opens_cons, closes_cons]; omega

/-- C25: font tags nest.  Between `<font …>` and its `</font>` (with matched font tags inside) the open colours are those outside plus
the new one, and afterwards the colour is that of the enclosing font tag, or white if there is none. -/
theorem C25_nest (caps caps' : List Bool) (tag : Str) (c : Colour) (inner : List Mark) (hb : Balanced inner) (s : Style) (k : List Colour) :
    ∃ s', applyAll (.fontOpen caps tag c :: inner ++ [.fontClose caps']) (s, k) = some (s', k) ∧ s'.colour = k.headD white := by
  obtain ⟨s1, x1, h1, hl⟩ := balanced_stack inner { s with colour := c } (c :: k) [] (fun i => by simpa using hb.2 i)
  have : x1 = [] := by
    have := hb.1
    cases x1 with
    | nil => rfl
    | cons a b => simp at hl; omega
  subst this
  refine ⟨{ s1 with colour := k.headD white }, ?_, rfl⟩
  rw [applyAll_append]
  show ((applyAll inner ({ s with colour := c }, c :: k))).bind _ = _
  rw [show applyAll inner ({ s with colour := c }, c :: k) = some (s1, c :: k) from h1]
  rfl

/-- `<font>` with a bold passage and another font within. -/
example (s : Style) (k : List Colour) (caps : List Bool) (a b : Str) (c d : Colour) :
    ∃ s', applyAll (.fontOpen caps a c :: [.fontOpen caps b d, .fontClose caps] ++ [.fontClose caps]) (s, k) = some (s', k) ∧ s'.colour = k.headD white :=
  C25_nest caps caps a c _ ⟨rfl, fun i => by rcases i with _ | _ | _ | i <;> simp [opens, closes]⟩ s k

/-- C25: and inside, the colour is the new one at the start. -/
theorem C25_open (caps : List Bool) (tag : Str) (c : Colour) (s : Style) (k : List Colour) :
    applyAll [.fontOpen caps tag c] (s, k) = some ({ s with colour := c }, c :: k) := rfl

/-- C25: the style of each run is the style after the tags before it. -/
theorem C25_runs (s : Style) (k : List Colour) (t : Str) (r : List (Mark × Str)) (rs : List (Str × Style)) (e : Style)
    (h : runs (s, k) t r = some (rs, e)) :
    ∃ sts : List Style, sts.length = r.length + 1 ∧
      (∀ i (hi : i < sts.length), ∃ k', applyAll ((r.map Prod.fst).take i) (s, k) = some (sts[i], k')) ∧
      rs = ((t :: r.map Prod.snd).zip sts).filter (fun q => q.1 ≠ []) := by
  induction r generalizing s k t rs with
  | nil =>
    simp only [runs, Option.some.injEq, Prod.mk.injEq] at h
    obtain ⟨rfl, rfl⟩ := h
    refine ⟨[s], rfl, ?_, ?_⟩
    · intro i hi
      simp only [List.length_singleton, Nat.lt_one_iff] at hi
      subst hi
      exact ⟨k, rfl⟩
    · unfold run
      by_cases ht : t = [] <;> simp [ht]
  | cons x r ih =>
    obtain ⟨m, t'⟩ := x
    rw [runs] at h
    cases hm : m.apply (s, k) with
    | none => rw [hm] at h; cases h
    | some sk =>
      obtain ⟨s', k'⟩ := sk
      rw [hm] at h
      simp only at h
      cases hrs : runs (s', k') t' r with
      | none => rw [hrs] at h; cases h
      | some q =>
        obtain ⟨rs', e'⟩ := q
        rw [hrs] at h
        simp only [Option.some.injEq, Prod.mk.injEq] at h
        obtain ⟨rfl, rfl⟩ := h
        obtain ⟨sts, hl, hst, hrs'⟩ := ih s' k' t' rs' hrs
        refine ⟨s :: sts, by simp [hl], ?_, ?_⟩
        · intro i hi
          cases i with
          | zero => exact ⟨k, rfl⟩
          | succ i =>
            obtain ⟨k'', h''⟩ := hst i (by simpa using hi)
            refine ⟨k'', ?_⟩
            show (m.apply (s, k)).bind (applyAll _) = _
            rw [hm]
            exact h''
        · rw [hrs']
          unfold run
          by_cases ht : t = [] <;> simp [ht]

/-! ### C25: the colours of font tags -/

theorem lastMatch_suffix {α : Type} {f : Str → Option α} {a b : Str} {v : α} (hb : f b = some v)
    (hn : ∀ x u, b = x ++ u → x ≠ [] → f u = none) : lastMatch f (a ++ b) = some v := by
  have none_of : ∀ u : Str, (∀ x w, u = x ++ w → f w = none) → lastMatch f u = none := by
    intro u
    induction u with
    | nil => intro h; exact h [] [] rfl
    | cons c u ih =>
      intro h
      rw [lastMatch, ih (fun x w e => h (c :: x) w (by rw [e]; rfl))]
      exact h [] _ rfl
  have hb' : lastMatch f b = some v := by
    cases b with
    | nil => exact hb
    | cons c b =>
      rw [lastMatch, none_of b (fun x w e => hn (c :: x) w (by rw [e]; rfl) (by simp))]
      exact hb
  induction a with
  | nil => exact hb'
  | cons c a ih => rw [List.cons_append, lastMatch, ih]

theorem lastMatch_none {α : Type} {f : Str → Option α} {u : Str} (h : ∀ x w, u = x ++ w → f w = none) : lastMatch f u = none := by
  induction u with
  | nil => exact h [] [] rfl
  | cons c u ih =>
    rw [lastMatch, ih (fun x w e => h (c :: x) w (by rw [e]; rfl))]
    exact h [] _ rfl

private theorem fontHexAt_none {u : Str} (h : ¬ b!"color=" <+: u) : fontHexAt u = none := by
  unfold fontHexAt
  rw [if_neg (by rw [startsWith_iff]; exact h)]

private theorem fontRgbaAt_none {u : Str} (h : ¬ b!"color=" <+: u) : fontRgbaAt u = none := by
  unfold fontRgbaAt
  rw [if_neg]
  rw [startsWith_iff]
  intro h'
  exact h (List.IsPrefix.trans (by decide) h')

/-- `color=` does not occur in `xs`. -/
private def NoColor (xs : Str) : Prop := ∀ i u, xs = i ++ u → ¬ b!"color=" <+: u

private theorem noColor_of {xs : Str} (h : ¬ b!"color=" <:+: xs) : NoColor xs := by
  rintro i u rfl hu
  exact h (hu.isInfix.trans ⟨i, [], by simp⟩)

private theorem noColor_cons {c : Byte} {xs : Str} (h : c ≠ 99 ∨ xs.head? ≠ some 111) (hx : NoColor xs) : NoColor (c :: xs) := by
  rintro i u e hu
  cases i with
  | cons i0 i =>
    simp only [List.cons_append, List.cons.injEq] at e
    exact hx i u e.2 hu
  | nil =>
    rw [List.nil_append] at e
    subst e
    obtain ⟨w, hw⟩ := hu
    simp only [List.cons_append, List.nil_append, List.cons.injEq] at hw
    rcases h with h | h
    · exact h hw.1.symm
    · apply h
      rw [← hw.2]
      rfl

private theorem noColor_digits {ds post : Str} (h : ∀ c ∈ ds, c ≠ 111) (hp : post.head? ≠ some 111) (hx : NoColor post) : NoColor (ds ++ post) := by
  induction ds with
  | nil => exact hx
  | cons d ds ih =>
    refine noColor_cons (.inr ?_) (ih (fun c hc => h c (by simp [hc])))
    cases ds with
    | nil => exact hp
    | cons e ds =>
      have := h e (by simp)
      simpa using this

private theorem hex_ne (c : Byte) : isXDigit c = true → c ≠ 111 ∧ c ≠ 34 ∧ c ≠ 39 ∧ c ≠ 35 :=
  forall_byte (p := fun c => isXDigit c = true → c ≠ 111 ∧ c ≠ 34 ∧ c ≠ 39 ∧ c ≠ 35) (by decide +kernel) c

private theorem isXDigit_hexOf (c : Byte) : isXDigit c = true ↔ (hexOf c).isSome :=
  forall_byte (p := fun c => isXDigit c = true ↔ (hexOf c).isSome) (by decide +kernel) c

private theorem fontHex (pre q ds post : Str) (hq : q = [] ∨ q = b!"\"" ∨ q = b!"'") (hne : ds ≠ []) (hd : ∀ c ∈ ds, isXDigit c = true)
    (hpost : ∀ d, post.head? = some d → isXDigit d = false ∧ d ≠ 111) (hnc : ¬ b!"color=" <:+: post) :
    lastMatch fontHexAt (pre ++ b!"color=" ++ q ++ b!"#" ++ ds ++ post) = some ds := by
  have e : pre ++ b!"color=" ++ q ++ b!"#" ++ ds ++ post = pre ++ (b!"color=" ++ q ++ b!"#" ++ ds ++ post) := by simp
  have htw : (ds ++ post).takeWhile isXDigit = ds := by
    rw [List.takeWhile_append_of_pos hd]
    cases post with
    | nil => simp
    | cons d post => rw [List.takeWhile_cons_of_neg (by rw [(hpost d rfl).1]; simp)]; simp
  have hdi : NoColor (ds ++ post) := noColor_digits (fun c hc => (hex_ne c (hd c hc)).1) (fun h => (hpost 111 h).2 rfl) (noColor_of hnc)
  have hh : NoColor (35 :: (ds ++ post)) := noColor_cons (.inl (by decide)) hdi
  have hq' : NoColor (q ++ 35 :: (ds ++ post)) := by
    rcases hq with rfl | rfl | rfl
    · exact hh
    · exact noColor_cons (.inl (by decide)) hh
    · exact noColor_cons (.inl (by decide)) hh
  rw [e]
  refine lastMatch_suffix ?_ ?_
  · unfold fontHexAt
    rw [if_pos (by rw [startsWith_iff]; exact ⟨q ++ 35 :: (ds ++ post), by simp⟩)]
    have d6 : (b!"color=" ++ q ++ b!"#" ++ ds ++ post).drop 6 = q ++ 35 :: (ds ++ post) := by simp
    rw [d6]
    rcases hq with rfl | rfl | rfl <;> simp [htw, hne]
  · rintro x u eu hx
    apply fontHexAt_none
    cases x with
    | nil => exact absurd rfl hx
    | cons x0 x =>
      have eu : b!"olor=" ++ (q ++ 35 :: (ds ++ post)) = x ++ u := by
        simp only [List.cons_append, List.append_assoc, List.nil_append, List.cons.injEq] at eu ⊢
        exact eu.2
      exact (noColor_cons (.inl (by decide)) (noColor_cons (.inl (by decide)) (noColor_cons (.inl (by decide)) (noColor_cons (.inl (by decide))
        (noColor_cons (.inl (by decide)) hq'))))) x u eu

/-- C25: `color=#rrggbb`, in quotes or not, preceded by anything and followed by anything that is not a hex digit, `o` or another `color=`,
gives that colour. -/
theorem C25_hex6 (n : Nat) (ctx : List Str) (pre q post : Str) (a b c d e f : Byte) (r0 r1 g0 g1 b0 b1 : Nat)
    (hq : q = [] ∨ q = b!"\"" ∨ q = b!"'")
    (ha : hexOf a = some r0) (hb : hexOf b = some r1) (hc : hexOf c = some g0) (hd : hexOf d = some g1)
    (he : hexOf e = some b0) (hf : hexOf f = some b1)
    (hpost : ∀ x, post.head? = some x → hexOf x = none ∧ x ≠ 111) (hnc : ¬ b!"color=" <:+: post) :
    fontColour n ctx (pre ++ b!"color=" ++ q ++ b!"#" ++ [a, b, c, d, e, f] ++ post) =
      .ok ⟨component (16 * r0 + r1), component (16 * g0 + g1), component (16 * b0 + b1)⟩ := by
  unfold fontColour
  rw [fontHex pre q [a, b, c, d, e, f] post hq (by simp) ?_ ?_ hnc]
  · simp only [List.length_cons, List.length_nil, Nat.zero_add, Nat.reduceAdd, if_true]
    exact C72_rgb a b c d e f r0 r1 g0 g1 b0 b1 [] ha hb hc hd he hf
  · intro x hx
    rw [isXDigit_hexOf]
    simp only [List.mem_cons, List.not_mem_nil, or_false] at hx
    rcases hx with rfl | rfl | rfl | rfl | rfl | rfl <;> simp [*]
  · intro x hx
    obtain ⟨h1, h2⟩ := hpost x hx
    refine ⟨?_, h2⟩
    rw [Bool.eq_false_iff]
    intro h
    rw [isXDigit_hexOf, h1] at h
    simp at h

/-- C25: the same with eight digits; the last pair is ignored. -/
theorem C25_hex8 (n : Nat) (ctx : List Str) (pre q post : Str) (a b c d e f g h : Byte) (r0 r1 g0 g1 b0 b1 a0 a1 : Nat)
    (hq : q = [] ∨ q = b!"\"" ∨ q = b!"'")
    (ha : hexOf a = some r0) (hb : hexOf b = some r1) (hc : hexOf c = some g0) (hd : hexOf d = some g1)
    (he : hexOf e = some b0) (hf : hexOf f = some b1) (hg : hexOf g = some a0) (hh : hexOf h = some a1)
    (hpost : ∀ x, post.head? = some x → hexOf x = none ∧ x ≠ 111) (hnc : ¬ b!"color=" <:+: post) :
    fontColour n ctx (pre ++ b!"color=" ++ q ++ b!"#" ++ [a, b, c, d, e, f, g, h] ++ post) =
      .ok ⟨component (16 * r0 + r1), component (16 * g0 + g1), component (16 * b0 + b1)⟩ := by
  unfold fontColour
  rw [fontHex pre q [a, b, c, d, e, f, g, h] post hq (by simp) ?_ ?_ hnc]
  · simp only [List.length_cons, List.length_nil, Nat.zero_add, Nat.reduceAdd, Nat.reduceEqDiff, if_false, if_true]
    exact C72_rgba a b c d e f g h r0 r1 g0 g1 b0 b1 a0 a1 [] ha hb hc hd he hf hg hh
  · intro x hx
    rw [isXDigit_hexOf]
    simp only [List.mem_cons, List.not_mem_nil, or_false] at hx
    rcases hx with rfl | rfl | rfl | rfl | rfl | rfl | rfl | rfl <;> simp [*]
  · intro x hx
    obtain ⟨h1, h2⟩ := hpost x hx
    refine ⟨?_, h2⟩
    rw [Bool.eq_false_iff]
    intro h
    rw [isXDigit_hexOf, h1] at h
    simp at h

example : fontColour 1 [] b!"<font color=\"#ff8000c0\">" = .ok ⟨component 255, component 128, component 0⟩ :=
  C25_hex8 1 [] b!"<font " b!"\"" b!"\">" _ _ _ _ _ _ _ _ 15 15 8 0 0 0 12 0 (by simp) rfl rfl rfl rfl rfl rfl rfl rfl (by intro x hx; cases hx; decide) (by decide)

private theorem digit_not_space (c : Byte) : isDigit c = true → isSpace c = false :=
  forall_byte (p := fun c => isDigit c = true → isSpace c = false) (by decide +kernel) c

private theorem double_rounding : ∀ n : Fin 256, f32 (f64 ((n.val : ℚ) / 255)) = component n.val := by decide +kernel

private theorem decComp_digits {k n : Nat} (h : n < 256) : decComp (List.replicate k 48 ++ decSpec n) = .ok (component n) := by
  have hd : ∀ c ∈ List.replicate k 48 ++ decSpec n, isDigit c = true := by
    rw [← natDec_eq_decSpec]
    intro c hc
    rw [List.mem_append] at hc
    rcases hc with hc | hc
    · rw [List.eq_of_mem_replicate hc]; decide
    · exact natDec_digits _ _ hc
  have hv : decVal (List.replicate k 48 ++ decSpec n) = n := by
    rw [← natDec_eq_decSpec, decVal_zeros_append, decVal_natDec]
  generalize List.replicate k 48 ++ decSpec n = ds at hd hv
  have hs : rawConvertInt ds = .ok n := by
    unfold rawConvertInt rawConvertIntIn makeLocal
    rw [replaceAll_none]
    · unfold scanInt
      have e1 : ds.dropWhile isSpace = ds := by
        cases ds with
        | nil => rfl
        | cons c cs =>
          rw [List.dropWhile_cons_of_neg]
          rw [digit_not_space c (hd c (by simp))]
          simp
      rw [e1, takeSign_digits hd]
      have e2 : takeDigits ds = ds := by unfold takeDigits; simpa using List.takeWhile_append_of_pos (l₂ := []) hd
      simp only [e2, hv, Bool.false_eq_true, if_false]
      rw [if_pos ⟨by omega, by omega⟩]
    · apply noOcc_of_not_infix
      rintro ⟨a, b, e⟩
      have := hd 46 (by rw [← e]; simp)
      revert this
      decide
  unfold decComp
  rw [hs]
  show Except.ok _ = Except.ok _
  congr 1
  have := double_rounding ⟨n, h⟩
  simpa using this

/-- A byte of white space. -/
def isBlank (c : Byte) : Prop := c ∈ [32, 9, 10, 11, 12, 13]

theorem isBlank_isSpace {c : Byte} (h : isBlank c) : isSpace c = true := by
  unfold isBlank at h
  simp only [List.mem_cons, List.not_mem_nil, or_false] at h
  rcases h with rfl | rfl | rfl | rfl | rfl | rfl <;> decide

private theorem padded_digits (k n : Nat) : (∀ c ∈ List.replicate k 48 ++ decSpec n, isDigit c = true) ∧ List.replicate k 48 ++ decSpec n ≠ [] := by
  rw [← natDec_eq_decSpec]
  refine ⟨?_, by simp [natDec_ne_nil]⟩
  intro c hc
  rw [List.mem_append] at hc
  rcases hc with hc | hc
  · rw [List.eq_of_mem_replicate hc]; decide
  · exact natDec_digits _ _ hc

theorem spacedInt_ok (stop : Byte) (hs : isSpace stop = false ∧ isDigit stop = false) {a ds b : Str} (rest : Str)
    (ha : ∀ c ∈ a, isSpace c = true) (hb : ∀ c ∈ b, isSpace c = true) (hd : ∀ c ∈ ds, isDigit c = true) (hne : ds ≠ []) :
    spacedInt stop (a ++ (ds ++ (b ++ stop :: rest))) = some (ds, rest) := by
  have hsd : ∀ c : Byte, isSpace c = true → isDigit c = false :=
    forall_byte (p := fun c => isSpace c = true → isDigit c = false) (by decide +kernel)
  have e1 : (a ++ (ds ++ (b ++ stop :: rest))).dropWhile isSpace = ds ++ (b ++ stop :: rest) := by
    rw [List.dropWhile_append_of_pos ha]
    cases ds with
    | nil => exact absurd rfl hne
    | cons c cs => rw [List.cons_append, List.dropWhile_cons_of_neg]; rw [digit_not_space c (hd c (by simp))]; simp
  have e2 : takeDigits (ds ++ (b ++ stop :: rest)) = ds := by
    unfold takeDigits
    rw [List.takeWhile_append_of_pos hd]
    cases b with
    | nil => rw [List.nil_append, List.takeWhile_cons_of_neg (by rw [hs.2]; simp)]; simp
    | cons c cs => rw [List.cons_append, List.takeWhile_cons_of_neg (by rw [hsd c (hb c (by simp))]; simp)]; simp
  have e3 : (ds ++ (b ++ stop :: rest)).drop ds.length = b ++ stop :: rest := by rw [List.drop_left']; rfl
  have e4 : (b ++ stop :: rest).dropWhile isSpace = stop :: rest := by
    rw [List.dropWhile_append_of_pos hb, List.dropWhile_cons_of_neg (by rw [hs.1]; simp)]
  unfold spacedInt
  simp only [e1, e2, e3, e4]
  rw [if_neg (by simpa using hne)]
  simp

/-- C25: `color="rgba(r, g, b, a)"` with any white space around the numbers, which may have leading zeros, gives that colour. -/
theorem C25_rgba (n : Nat) (ctx : List Str) (pre post : Str) (s1 s2 s3 s4 s5 s6 s7 s8 : Str) (k1 k2 k3 k4 r g b a : Nat)
    (hr : r < 256) (hg : g < 256) (hb : b < 256)
    (hs : ∀ c ∈ s1 ++ s2 ++ s3 ++ s4 ++ s5 ++ s6 ++ s7 ++ s8, isBlank c)
    (hpre : (35 : Byte) ∉ pre) (hpost : (35 : Byte) ∉ post) (hnc : ¬ b!"color=" <:+: post) :
    fontColour n ctx (pre ++ b!"color=\"rgba(" ++ s1 ++ List.replicate k1 48 ++ decSpec r ++ s2 ++ b!"," ++
      s3 ++ List.replicate k2 48 ++ decSpec g ++ s4 ++ b!"," ++ s5 ++ List.replicate k3 48 ++ decSpec b ++ s6 ++ b!"," ++
      s7 ++ List.replicate k4 48 ++ decSpec a ++ s8 ++ b!")\"" ++ post) = .ok ⟨component r, component g, component b⟩ := by
  have sp : ∀ c ∈ s1 ++ s2 ++ s3 ++ s4 ++ s5 ++ s6 ++ s7 ++ s8, isSpace c = true := fun c hc => isBlank_isSpace (hs c hc)
  obtain ⟨dr, nr⟩ := padded_digits k1 r
  obtain ⟨dg, ng⟩ := padded_digits k2 g
  obtain ⟨db, nb⟩ := padded_digits k3 b
  obtain ⟨da, na⟩ := padded_digits k4 a
  have cr := decComp_digits (k := k1) hr
  have cg := decComp_digits (k := k2) hg
  have cb := decComp_digits (k := k3) hb
  generalize hR : List.replicate k1 48 ++ decSpec r = R at *
  generalize hG : List.replicate k2 48 ++ decSpec g = G at *
  generalize hB : List.replicate k3 48 ++ decSpec b = B at *
  generalize hA : List.replicate k4 48 ++ decSpec a = A at *
  have e : pre ++ b!"color=\"rgba(" ++ s1 ++ List.replicate k1 48 ++ decSpec r ++ s2 ++ b!"," ++
      s3 ++ List.replicate k2 48 ++ decSpec g ++ s4 ++ b!"," ++ s5 ++ List.replicate k3 48 ++ decSpec b ++ s6 ++ b!"," ++
      s7 ++ List.replicate k4 48 ++ decSpec a ++ s8 ++ b!")\"" ++ post =
      pre ++ (b!"color=\"rgba(" ++ (s1 ++ (R ++ (s2 ++ 44 :: (s3 ++ (G ++ (s4 ++ 44 :: (s5 ++ (B ++ (s6 ++ 44 :: (s7 ++ (A ++ (s8 ++ 41 :: (34 :: post)))))))))))))) := by
    rw [← hR, ← hG, ← hB, ← hA]; simp
  rw [e]
  -- everything after `rgba(` up to `post` consists of blanks, digits, commas, `)` and `"`
  have mem : ∀ c ∈ s1 ++ (R ++ (s2 ++ 44 :: (s3 ++ (G ++ (s4 ++ 44 :: (s5 ++ (B ++ (s6 ++ 44 :: (s7 ++ (A ++ (s8 ++ 41 :: [34])))))))))))
      , isSpace c = true ∨ isDigit c = true ∨ c = 44 ∨ c = 41 ∨ c = 34 := by
    have ss : ∀ s : Str, (∀ c ∈ s, isSpace c = true) → ∀ c ∈ s, isSpace c = true ∨ isDigit c = true ∨ c = 44 ∨ c = 41 ∨ c = 34 := fun s h c hc => .inl (h c hc)
    have dd : ∀ s : Str, (∀ c ∈ s, isDigit c = true) → ∀ c ∈ s, isSpace c = true ∨ isDigit c = true ∨ c = 44 ∨ c = 41 ∨ c = 34 := fun s h c hc => .inr (.inl (h c hc))
    simp only [List.forall_mem_append] at sp
    obtain ⟨⟨⟨⟨⟨⟨⟨h1, h2⟩, h3⟩, h4⟩, h5⟩, h6⟩, h7⟩, h8⟩ := sp
    simp only [List.forall_mem_append, List.forall_mem_cons]
    exact ⟨ss _ h1, dd _ dr, ss _ h2, by decide, ss _ h3, dd _ dg, ss _ h4, by decide, ss _ h5, dd _ db, ss _ h6, by decide, ss _ h7, dd _ da, ss _ h8, by decide, by decide, by simp⟩
  have good : ∀ c : Byte, (isSpace c = true ∨ isDigit c = true ∨ c = 44 ∨ c = 41 ∨ c = 34) → c ≠ 35 ∧ c ≠ 99 :=
    forall_byte (p := fun c => (isSpace c = true ∨ isDigit c = true ∨ c = 44 ∨ c = 41 ∨ c = 34) → c ≠ 35 ∧ c ≠ 99) (by decide +kernel)
  have e' : s1 ++ (R ++ (s2 ++ 44 :: (s3 ++ (G ++ (s4 ++ 44 :: (s5 ++ (B ++ (s6 ++ 44 :: (s7 ++ (A ++ (s8 ++ 41 :: (34 :: post)))))))))))) =
      (s1 ++ (R ++ (s2 ++ 44 :: (s3 ++ (G ++ (s4 ++ 44 :: (s5 ++ (B ++ (s6 ++ 44 :: (s7 ++ (A ++ (s8 ++ 41 :: [34]))))))))))))  ++ post := by simp
  have hno : NoColor (s1 ++ (R ++ (s2 ++ 44 :: (s3 ++ (G ++ (s4 ++ 44 :: (s5 ++ (B ++ (s6 ++ 44 :: (s7 ++ (A ++ (s8 ++ 41 :: (34 :: post))))))))))))) := by
    rw [e']
    generalize s1 ++ (R ++ (s2 ++ 44 :: (s3 ++ (G ++ (s4 ++ 44 :: (s5 ++ (B ++ (s6 ++ 44 :: (s7 ++ (A ++ (s8 ++ 41 :: [34]))))))))))) = X at mem
    induction X with
    | nil => exact noColor_of hnc
    | cons c X ih => exact noColor_cons (.inl (good c (mem c (by simp))).2) (ih (fun d hd => mem d (by simp [hd])))
  have hhash : ∀ c ∈ pre ++ (b!"color=\"rgba(" ++ (s1 ++ (R ++ (s2 ++ 44 :: (s3 ++ (G ++ (s4 ++ 44 :: (s5 ++ (B ++ (s6 ++ 44 :: (s7 ++ (A ++ (s8 ++ 41 :: (34 :: post)))))))))))))), c ≠ 35 := by
    rw [e']
    intro c hc
    rw [List.mem_append, List.mem_append, List.mem_append] at hc
    rcases hc with hc | hc | hc | hc
    · rintro rfl; exact hpre hc
    · rintro rfl; revert hc; decide
    · exact (good c (mem c hc)).1
    · rintro rfl; exact hpost hc
  unfold fontColour
  rw [lastMatch_none (f := fontHexAt)]
  · simp only
    rw [lastMatch_suffix (v := (R, G, B)) (f := fontRgbaAt)]
    · simp only [cr, cg, cb]; rfl
    · unfold fontRgbaAt
      rw [if_pos (by rw [startsWith_iff]; exact List.prefix_append _ _)]
      rw [show (12 : Nat) = b!"color=\"rgba(".length from rfl, List.drop_left' rfl]
      rw [spacedInt_ok 44 (by decide) _ (fun c hc => sp c (by simp [hc])) (fun c hc => sp c (by simp [hc])) dr nr]
      simp only
      rw [spacedInt_ok 44 (by decide) _ (fun c hc => sp c (by simp [hc])) (fun c hc => sp c (by simp [hc])) dg ng]
      simp only
      rw [spacedInt_ok 44 (by decide) _ (fun c hc => sp c (by simp [hc])) (fun c hc => sp c (by simp [hc])) db nb]
      simp only
      rw [spacedInt_ok 41 (by decide) _ (fun c hc => sp c (by simp [hc])) (fun c hc => sp c (by simp [hc])) da na]
      simp only
      rw [if_pos (by rw [startsWith_iff]; exact ⟨post, rfl⟩)]
    · rintro x u eu hx
      apply fontRgbaAt_none
      cases x with
      | nil => exact absurd rfl hx
      | cons x0 x =>
        simp only [List.cons_append, List.nil_append, List.cons.injEq] at eu
        exact (noColor_cons (.inl (by decide)) (noColor_cons (.inl (by decide)) (noColor_cons (.inl (by decide)) (noColor_cons (.inl (by decide))
          (noColor_cons (.inl (by decide)) (noColor_cons (.inl (by decide)) (noColor_cons (.inl (by decide)) (noColor_cons (.inl (by decide))
          (noColor_cons (.inl (by decide)) (noColor_cons (.inl (by decide)) (noColor_cons (.inl (by decide)) hno))))))))))) x u eu.2
  · intro x w ew
    have hw : ∀ c ∈ w, c ≠ 35 := fun c hc => hhash c (by rw [ew]; simp [hc])
    unfold fontHexAt
    split
    · simp only
      generalize hrr : (match w.drop 6 with | 34 :: r' => r' | 39 :: r' => r' | _ => w.drop 6) = rr
      have : ∀ c ∈ rr, c ≠ 35 := by
        intro c hc
        apply hw c
        have hsub : c ∈ w.drop 6 := by
          split at hrr
          · rename_i r' h; rw [h]; subst hrr; simp [hc]
          · rename_i r' h; rw [h]; subst hrr; simp [hc]
          · subst hrr; exact hc
        exact List.mem_of_mem_drop hsub
      split
      · rename_i heq; exact absurd rfl (this 35 (by rw [hrr.symm.trans heq]; simp))
      · rfl
    · rfl

/-- C25: anything else is rejected with a message naming the accepted forms: no `color=` at all. -/
theorem C25_bad (n : Nat) (ctx : List Str) (tag : Str) (h : ¬ b!"color=" <:+: tag) :
    fontColour n ctx tag = .error (.subrip n tag b!"a colour in the format #rrggbb #rrggbbaa or rgba(rr,gg,bb,aa)" ctx) := by
  have hn := noColor_of h
  unfold fontColour
  rw [lastMatch_none (f := fontHexAt) (fun x w e => fontHexAt_none (hn x w e)), lastMatch_none (f := fontRgbaAt) (fun x w e => fontRgbaAt_none (hn x w e))]
  rfl

example : fontColour 1 [] b!"<font face=x>" = .error (.subrip 1 b!"<font face=x>" b!"a colour in the format #rrggbb #rrggbbaa or rgba(rr,gg,bb,aa)" []) := C25_bad 1 [] _ (by decide)

/-- C25: a colour left open at the end of one line is in force at the start of the next, but is not what a font tag closed on the next
line gives back: the code's stack of colours is per line. -/
theorem C25_carry_witness :
    convertSubLines 3 [] [b!"<font color=#ff0000>a", b!"b<font color=#0000ff>c</font>d"] srtFresh [] =
      .ok ({ srtFresh with vpos := { srtFresh.vpos with line := some 2 } },
        [{ srtFresh with text := b!"a", colour := ⟨1, 0, 0⟩ },
         { srtFresh with text := b!"b", colour := ⟨1, 0, 0⟩, vpos := { srtFresh.vpos with line := some 1 } },
         { srtFresh with text := b!"c", colour := ⟨0, 0, 1⟩, vpos := { srtFresh.vpos with line := some 1 } },
         { srtFresh with text := b!"d", colour := ⟨1, 1, 1⟩, vpos := { srtFresh.vpos with line := some 1 } }]) := by
  decide +kernel

example : fontColour 3 [] b!" color=\"#FF8000\" face=\"Arial\"" = .ok ⟨component 255, component 128, component 0⟩ :=
  C25_hex6 3 [] b!" " b!"\"" b!"\" face=\"Arial\"" 70 70 56 48 48 48 15 15 8 0 0 0 (by decide) (by decide) (by decide) (by decide) (by decide) (by decide)
    (by decide) (fun x hx => by cases hx; decide) (by decide)

example : fontColour 3 [] b!" color=\"rgba(1, 02,3,4)\"" = .ok ⟨component 1, component 2, component 3⟩ := by decide +kernel

example : (Mark.fontOpen [true] b!" color=#102030" ⟨component 16, component 32, component 48⟩).Valid :=
  ⟨by decide, fun n ctx => C25_hex6 n ctx b!" " [] [] 49 48 50 48 51 48 1 0 2 0 3 0 (by decide) (by decide) (by decide) (by decide) (by decide)
    (by decide) (by decide) (fun x hx => by cases hx) (by decide)⟩

end LibSub
