/-
Properties C23, C26, C31 and C33: whole SubRip files.
-/
import Verif.Props.SubRipLine

namespace LibSub

/-! ### Specification of the file format -/

/-- A time stamp with some number of leading zeros in each field. -/
structure Stamp where
  h : Nat
  m : Nat
  s : Nat
  ms : Nat
  padH : Nat
  padM : Nat
  padS : Nat
  padMs : Nat

/-- Minutes and seconds below 60, milliseconds below 1000; the time in seconds fits in an `int`. -/
def Stamp.Valid (t : Stamp) : Prop := t.m ≤ 59 ∧ t.s ≤ 59 ∧ t.ms ≤ 999 ∧ 3600 * t.h + 60 * t.m + t.s < 2 ^ 31

/-- The time stamp in text, with `sep` before the milliseconds. -/
def Stamp.text (sep : Byte) (t : Stamp) : Str :=
  List.replicate t.padH 48 ++ decSpec t.h ++ b!":" ++ List.replicate t.padM 48 ++ decSpec t.m ++ b!":" ++
    List.replicate t.padS 48 ++ decSpec t.s ++ [sep] ++ List.replicate t.padMs 48 ++ decSpec t.ms

/-- The time it means. -/
def Stamp.time (t : Stamp) : Time := ⟨3600 * t.h + 60 * t.m + t.s, t.ms, some ⟨1000, 1⟩⟩

/-- A time/position line: two time stamps with `-->` between, separated by one or more spaces, then maybe four coordinates (each
with the number of spaces before it, minus one), and trailing spaces. -/
structure TimeLine where
  from_ : Stamp
  to_ : Stamp
  space1 : Nat
  space2 : Nat
  coords : List (Nat × Str)
  trail : Nat

/-- Valid times and no, or four, coordinates. -/
def TimeLine.Valid (t : TimeLine) : Prop :=
  t.from_.Valid ∧ t.to_.Valid ∧ (t.coords.length = 0 ∨ t.coords.length = 4) ∧ ∀ c ∈ t.coords, c.2 ≠ [] ∧ ∀ x ∈ c.2, x ∉ b!" \r\n"

/-- The coordinates in text. -/
def coordsText (cs : List (Nat × Str)) : Str := (cs.map (fun c => List.replicate (c.1 + 1) 32 ++ c.2)).flatten

@[inherit_doc TimeLine]
def TimeLine.text (sep : Byte) (t : TimeLine) : Str :=
  t.from_.text sep ++ List.replicate (t.space1 + 1) 32 ++ b!"-->" ++ List.replicate (t.space2 + 1) 32 ++ t.to_.text sep ++
    coordsText t.coords ++ List.replicate t.trail 32

/-- Text between two line separators: text, then tags each followed by text. -/
abbrev Part := Str × List (Mark × Str)

/-- The part as written. -/
def Part.text (p : Part) : Str := lineText p.1 p.2

/-- A part that can be written on a line. -/
def Part.Valid (p : Part) : Prop :=
  ValidLine p.1 p.2 ∧ ¬ b!"\u202B" <:+: lastText p.1 p.2 ∧ ¬ b!"\u2028" <:+: p.text ∧ (10 : Byte) ∉ p.text

/-- Parts joined by U+2028. -/
def partsText : List Part → Str
  | [] => []
  | [p] => p.text
  | p :: ps => p.text ++ b!"\u2028" ++ partsText ps

/-- A line that is not blank, does not end in a carriage return and does not start with a byte order mark. -/
def GoodLine (l : Str) : Prop := l ≠ [] ∧ l.getLast? ≠ some 13 ∧ (10 : Byte) ∉ l ∧ ¬ b!"\uFEFF" <+: l

/-- A cue: counter, times, lines of parts. -/
structure Cue where
  counter : Str
  time : TimeLine
  lines : List (List Part)

/-- A cue that can be written. -/
def Cue.Valid (c : Cue) : Prop :=
  GoodLine c.counter ∧ c.time.Valid ∧ (∀ l ∈ c.lines, l ≠ [] ∧ GoodLine (partsText l) ∧ ∀ p ∈ l, p.Valid) ∧ c.lines.flatten.length < 2 ^ 31

/-- The lines of a cue. -/
def Cue.text (c : Cue) : List Str := c.counter :: c.time.text 44 :: c.lines.map partsText

/-- The lines of a file of cues, each followed by the given number of blank lines, plus one except after the last. -/
def fileLines : List (Cue × Nat) → List Str
  | [] => []
  | [(c, gap)] => c.text ++ List.replicate gap []
  | (c, gap) :: cs => c.text ++ List.replicate (gap + 1) [] ++ fileLines cs

/-- Lines, each ended by a newline. -/
def unlines (ls : List Str) : Str := (ls.map (· ++ [10])).flatten

/-- The runs of text of successive parts, numbered from `i`.  The style carries over from one part to the next; font tags left open do
not count as open any more. -/
def partsRuns : Style → Nat → List Part → Option (List (Nat × Str × Style) × Style)
  | s, _, [] => some ([], s)
  | s, i, p :: ps =>
    match runs (s, []) p.1 p.2 with
    | none => none
    | some (rs, s') =>
      match partsRuns s' (i + 1) ps with
      | none => none
      | some (out, e) => some (rs.map (fun r => (i, r.1, r.2)) ++ out, e)

/-- The raw subtitle for a run of text on line `i` of a cue. -/
def cueRaw (c : Cue) (r : Nat × Str × Style) : Raw :=
  { text := r.2.1, bold := r.2.2.bold, italic := r.2.2.italic, underline := r.2.2.underline, colour := r.2.2.colour, from_ := c.time.from_.time, to_ := c.time.to_.time, vpos := { line := some (r.1 : Int), ref := some .topOfSubtitle } }

/-- The subtitles of a cue; `none` if some line has a `</font>` without open font tag. -/
def cueRaws (c : Cue) : Option (List Raw) :=
  match partsRuns ⟨false, false, false, white⟩ 0 c.lines.flatten with
  | none => none
  | some (out, _) => some (out.map (cueRaw c))

/-- The subtitles of a file. -/
def fileRaws : List Cue → Option (List Raw)
  | [] => some []
  | c :: cs =>
    match cueRaws c with
    | none => none
    | some rs => (fileRaws cs).map (rs ++ ·)

/-! ### Time lines -/

theorem stamp_digits (sep : Byte) (t : Stamp) : ∀ c ∈ t.text sep, isDigit c = true ∨ c = 58 ∨ c = sep := by
  have pd : ∀ k n : Nat, ∀ c ∈ List.replicate k 48 ++ decSpec n, isDigit c = true := by
    intro k n c hc
    rw [← natDec_eq_decSpec, List.mem_append] at hc
    rcases hc with hc | hc
    · rw [List.eq_of_mem_replicate hc]; decide
    · exact natDec_digits _ _ hc
  intro c hc
  unfold Stamp.text at hc
  have p1 := pd t.padH t.h c
  have p2 := pd t.padM t.m c
  have p3 := pd t.padS t.s c
  have p4 := pd t.padMs t.ms c
  simp only [List.mem_append, List.mem_cons, List.not_mem_nil, or_false] at hc p1 p2 p3 p4
  rcases hc with (((((((((hc | hc) | hc) | hc) | hc) | hc) | hc) | hc) | hc) | hc) | hc
  · exact .inl (p1 (.inl hc))
  · exact .inl (p1 (.inr hc))
  · exact .inr (.inl hc)
  · exact .inl (p2 (.inl hc))
  · exact .inl (p2 (.inr hc))
  · exact .inr (.inl hc)
  · exact .inl (p3 (.inl hc))
  · exact .inl (p3 (.inr hc))
  · exact .inr (.inr hc)
  · exact .inl (p4 (.inl hc))
  · exact .inl (p4 (.inr hc))

theorem stamp_ne_nil (sep : Byte) (t : Stamp) : t.text sep ≠ [] := by
  unfold Stamp.text
  simp

theorem stamp_noSpace {sep : Byte} (hsep : sep ∈ b!",.") (t : Stamp) : ∀ c ∈ t.text sep, c ∉ b!" \r\n" := by
  intro c hc
  rcases stamp_digits sep t c hc with h | rfl | rfl
  · revert h
    exact forall_byte (p := fun c => isDigit c = true → c ∉ b!" \r\n") (by decide +kernel) c
  · decide
  · simp only [List.mem_cons, List.not_mem_nil, or_false] at hsep
    rcases hsep with rfl | rfl <;> decide

private theorem eqSpace {a : Str} (h : ∀ c ∈ a, c ∉ b!" \r\n") : ∀ c ∈ a, (c == 32) = false := by
  intro c hc
  have := h c hc
  simp at this ⊢
  exact this.1

private theorem spaces (k : Nat) : ∀ c ∈ List.replicate k (32 : Byte), (c == 32) = true := by
  intro c hc
  rw [List.eq_of_mem_replicate hc]
  decide

/-- A token followed by coordinates. -/
private theorem split_coords (prev : Bool) (a : Str) (ha : ∀ c ∈ a, c ∉ b!" \r\n") (hne : a ≠ []) (cs : List (Nat × Str))
    (hc : ∀ c ∈ cs, c.2 ≠ [] ∧ ∀ x ∈ c.2, x ∉ b!" \r\n") :
    splitCompressGo (· == 32) prev (a ++ coordsText cs) = a :: cs.map Prod.snd := by
  induction cs generalizing prev a with
  | nil =>
    show splitCompressGo _ prev (a ++ []) = [a]
    rw [List.append_nil]
    exact splitCompressGo_token prev (eqSpace ha)
  | cons c cs ih =>
    have e : coordsText (c :: cs) = List.replicate (c.1 + 1) 32 ++ (c.2 ++ coordsText cs) := by
      unfold coordsText; simp
    rw [e, splitCompressGo_append prev (eqSpace ha) hne (spaces _) (by simp), ih true c.2 (hc c (by simp)).2 (hc c (by simp)).1 (fun x hx => hc x (by simp [hx]))]
    rfl

/-- The words of a time line. -/
theorem timeLine_words {sep : Byte} (hsep : sep ∈ b!",.") (t : TimeLine) (ht : t.Valid) :
    splitCompress (· == 32) (trimRightIf (· == 32) (t.text sep)) = t.from_.text sep :: b!"-->" :: t.to_.text sep :: t.coords.map Prod.snd := by
  have hlast : ∀ c, (t.to_.text sep ++ coordsText t.coords).getLast? = some c → (c == 32) = false := by
    intro c hc
    have key : ∀ (cs : List (Nat × Str)) (a : Str), a ≠ [] → (∀ x ∈ a, x ∉ b!" \r\n") → (∀ c ∈ cs, c.2 ≠ [] ∧ ∀ x ∈ c.2, x ∉ b!" \r\n") →
        ∀ c, (a ++ coordsText cs).getLast? = some c → (c == 32) = false := by
      intro cs
      induction cs with
      | nil =>
        intro a hne ha _ c hc
        have e : a ++ coordsText [] = a := List.append_nil a
        rw [e] at hc
        exact eqSpace ha c (List.mem_of_getLast? hc)
      | cons d cs ih =>
        intro a hne ha hd c hc
        have e : a ++ coordsText (d :: cs) = (a ++ List.replicate (d.1 + 1) 32) ++ (d.2 ++ coordsText cs) := by
          unfold coordsText; simp
        rw [e, List.getLast?_append_of_ne_nil _ (by simp [(hd d (by simp)).1])] at hc
        exact ih d.2 (hd d (by simp)).1 (hd d (by simp)).2 (fun x hx => hd x (by simp [hx])) c hc
    exact key t.coords _ (stamp_ne_nil sep _) (stamp_noSpace hsep _) ht.2.2.2 c hc
  have e : t.text sep = (t.from_.text sep ++ (List.replicate (t.space1 + 1) 32 ++ (b!"-->" ++ (List.replicate (t.space2 + 1) 32 ++ (t.to_.text sep ++ coordsText t.coords))))) ++ List.replicate t.trail 32 := by
    unfold TimeLine.text; simp
  rw [e, trimRightIf_append (spaces _), trimRightIf_of_last]
  · unfold splitCompress
    rw [splitCompressGo_append false (eqSpace (stamp_noSpace hsep _)) (stamp_ne_nil _ _) (spaces _) (by simp),
      splitCompressGo_append true (by decide) (by decide) (spaces _) (by simp),
      split_coords true _ (stamp_noSpace hsep _) (stamp_ne_nil _ _) _ ht.2.2.2]
  · intro c hc
    apply hlast c
    rw [← hc]
    have hne : t.to_.text sep ++ coordsText t.coords ≠ [] := by simp [stamp_ne_nil]
    have ap : ∀ x y : Str, y ≠ [] → (x ++ y).getLast? = y.getLast? ∧ x ++ y ≠ [] := fun x y h => ⟨List.getLast?_append_of_ne_nil _ h, by simp [h]⟩
    obtain ⟨a1, n1⟩ := ap (List.replicate (t.space2 + 1) 32) _ hne
    obtain ⟨a2, n2⟩ := ap b!"-->" _ n1
    obtain ⟨a3, n3⟩ := ap (List.replicate (t.space1 + 1) 32) _ n2
    rw [(ap _ _ n3).1, a3, a2, a1]

theorem stamp_convert {sep : Byte} (hsep : sep ∈ b!",.") (t : Stamp) (ht : t.Valid) : convertTime (t.text sep) [sep] = .ok (.ok t.time) := by
  obtain ⟨h1, h2, h3, h4⟩ := ht
  exact C21_timestamp t.padH t.padM t.padS t.padMs t.h t.m t.s t.ms sep hsep h1 h2 h3 h4

theorem srtMetadata_timeLine (n : Nat) (ctx : List Str) (t : TimeLine) (ht : t.Valid) (rest : List Str) (rs : Raw) :
    srtMetadata n ctx (t.text 44) rest rs = .ok { rs with from_ := t.from_.time, to_ := t.to_.time } := by
  unfold srtMetadata
  simp only [timeLine_words (sep := 44) (by decide) t ht]
  rw [if_neg]
  · show (convertTime (t.from_.text 44) [44] >>= _) = _
    rw [stamp_convert (by decide) _ ht.1]
    show (convertTime (t.to_.text 44) [44] >>= _) = _
    rw [stamp_convert (by decide) _ ht.2.1]
    rfl
  · simp only [List.length_cons, List.length_map]
    rcases ht.2.2.1 with h | h <;> rw [h] <;> decide

/-! ### Lines -/

theorem cleanLine_good {l : Str} (h : GoodLine l) : cleanLine l = l := by
  obtain ⟨h1, h2, h3, h4⟩ := h
  unfold cleanLine
  rw [trimRightIf_of_last]
  · apply removeBom_of_not
    intro r e
    exact h4 ⟨r, e.symm⟩
  · intro c hc
    unfold isNlCr
    rw [Bool.or_eq_false_iff]
    refine ⟨?_, ?_⟩
    · rw [beq_eq_false_iff_ne]; rintro rfl; exact h3 (List.mem_of_getLast? hc)
    · rw [beq_eq_false_iff_ne]; rintro rfl; exact h2 hc

theorem timeLine_good {sep : Byte} (hsep : sep ∈ b!",.") (t : TimeLine) (ht : t.Valid) : GoodLine (t.text sep) := by
  have hmem : ∀ c ∈ t.text sep, c ≠ 10 ∧ c ≠ 13 := by
    intro c hc
    have key : ∀ {s : Str}, (∀ x ∈ s, x ∉ b!" \r\n") → c ∈ s → c ≠ 10 ∧ c ≠ 13 := by
      intro s hs hc
      have := hs c hc
      simp at this
      exact ⟨this.2.2, this.2.1⟩
    have sp : ∀ {k : Nat}, c ∈ List.replicate k (32 : Byte) → c ≠ 10 ∧ c ≠ 13 := by
      intro k h
      rw [List.eq_of_mem_replicate h]; decide
    unfold TimeLine.text coordsText at hc
    simp only [List.mem_append] at hc
    rcases hc with (((((hc | hc) | hc) | hc) | hc) | hc) | hc
    · exact key (stamp_noSpace hsep _) hc
    · exact sp hc
    · exact key (s := b!"-->") (by decide) hc
    · exact sp hc
    · exact key (stamp_noSpace hsep _) hc
    · simp only [List.mem_flatten, List.mem_map] at hc
      obtain ⟨l, ⟨d, hd, rfl⟩, hc⟩ := hc
      rw [List.mem_append] at hc
      rcases hc with hc | hc
      · exact sp hc
      · exact key (ht.2.2.2 d hd).2 hc
    · exact sp hc
  refine ⟨?_, ?_, fun h => (hmem 10 h).1 rfl, ?_⟩
  · intro h
    have : t.from_.text sep = [] := by
      unfold TimeLine.text at h
      simp only [List.append_eq_nil_iff] at h
      exact h.1.1.1.1.1.1
    exact stamp_ne_nil _ _ this
  · intro h; exact (hmem 13 (List.mem_of_getLast? h)).2 rfl
  · rintro ⟨r, e⟩
    obtain ⟨c, cs, hcs⟩ := List.exists_cons_of_ne_nil (stamp_ne_nil sep t.from_)
    have h1 : t.text sep = c :: (cs ++ List.replicate (t.space1 + 1) 32 ++ b!"-->" ++ List.replicate (t.space2 + 1) 32 ++ t.to_.text sep ++ coordsText t.coords ++ List.replicate t.trail 32) := by
      unfold TimeLine.text; rw [hcs]; simp
    rw [h1] at e
    simp only [List.cons_append, List.cons.injEq] at e
    have hd := stamp_digits sep t.from_ c (by rw [hcs]; simp)
    rw [← e.1] at hd
    simp only [List.mem_cons, List.not_mem_nil, or_false] at hsep
    rcases hsep with rfl | rfl <;> revert hd <;> decide

/-- U+2028 cannot overlap with itself. -/
theorem noOcc_lineSep {a b : Str} (h : ¬ b!"\u2028" <:+: a) : NoOcc lineSep a (lineSep ++ b) := by
  intro x u e hu hp
  unfold lineSep at *
  match u with
  | [] => exact hu rfl
  | [u0] =>
    obtain ⟨w, hw⟩ := hp
    simp at hw
  | [u0, u1] =>
    obtain ⟨w, hw⟩ := hp
    simp at hw
  | u0 :: u1 :: u2 :: u =>
    obtain ⟨w, hw⟩ := hp
    simp only [List.cons_append, List.nil_append, List.cons.injEq] at hw
    obtain ⟨h0, h1, h2, _⟩ := hw
    apply h
    refine ⟨x, u, ?_⟩
    rw [e, ← h0, ← h1, ← h2]
    simp

theorem splitStr_parts (ps : List Part) (hne : ps ≠ []) (h : ∀ p ∈ ps, ¬ b!"\u2028" <:+: p.text) :
    splitStr lineSep (partsText ps) = ps.map Part.text := by
  induction ps with
  | nil => contradiction
  | cons p ps ih =>
    cases ps with
    | nil => exact splitStr_none (noOcc_of_not_infix (h p (by simp)))
    | cons q ps =>
      show splitStr lineSep (p.text ++ b!"\u2028" ++ partsText (q :: ps)) = _
      rw [List.append_assoc]
      have := splitStr_append (sep := lineSep) (a := p.text) (b := partsText (q :: ps)) (by decide) (noOcc_lineSep (h p (by simp)))
      rw [show b!"\u2028" = lineSep from rfl, this, ih (by simp) (fun x hx => h x (by simp [hx]))]
      rfl

/-- The raw subtitle `p` on line `i`. -/
def Raw.onLine (p : Raw) (i : Nat) : Raw := { p with vpos := { p.vpos with line := some (i : Int) } }

theorem convertSubLines_parts (n : Nat) (ctx : List Str) (p : Raw) (hp : p.text = []) (i : Nat) (hi : p.vpos.line = some (i : Int)) (ps : List Part)
    (hb : i + ps.length < 2 ^ 31) (hv : ∀ q ∈ ps, q.Valid) (subs : List Raw) :
    convertSubLines n ctx (ps.map Part.text) p subs =
      match partsRuns p.style i ps with
      | none => .error (.ub .emptyContainer)
      | some (out, s') => .ok ((p.styled [] s').onLine (i + ps.length), subs ++ out.map (fun r => (p.styled r.2.1 r.2.2).onLine r.1)) := by
  induction ps generalizing p i subs with
  | nil =>
    show Except.ok _ = Except.ok _
    simp only [List.map_nil, List.append_nil, List.length_nil, Nat.add_zero]
    congr 2
    unfold Raw.onLine Raw.styled Raw.style
    simp only
    rw [← hi, ← hp]
  | cons q ps ih =>
    rw [List.map_cons, convertSubLines]
    show (convertLine n ctx (lineText q.1 q.2) p subs >>= _) = _
    have hq := hv q (by simp)
    rw [C24_line n ctx p hp q.1 subs q.2 hq.1 hq.2.1, partsRuns]
    cases runs (p.style, []) q.1 q.2 with
    | none => rfl
    | some rs =>
      obtain ⟨rs, s'⟩ := rs
      simp only [ok_bind]
      have e : (p.styled [] s').vpos.line = some (i : Int) := hi
      simp only [List.length_cons] at hb
      rw [e, optGet, ok_bind, ck_ok (by unfold InInt; omega), ok_bind]
      have e2 : ({ p.styled [] s' with vpos := { (p.styled [] s').vpos with line := some ((i : Int) + 1) }, text := [] } : Raw) = (p.styled [] s').onLine (i + 1) := by
        unfold Raw.onLine Raw.styled; push_cast; rfl
      rw [e2, ih ((p.styled [] s').onLine (i + 1)) rfl (i + 1) (by unfold Raw.onLine; rfl) (by omega) (fun x hx => hv x (by simp [hx]))]
      have e3 : ((p.styled [] s').onLine (i + 1)).style = s' := rfl
      rw [e3]
      cases partsRuns s' (i + 1) ps with
      | none => rfl
      | some out =>
        obtain ⟨out, e⟩ := out
        simp only
        congr 1
        refine Prod.ext ?_ ?_
        · unfold Raw.onLine Raw.styled
          simp only [List.length_cons]
          congr 3
          omega
        · simp only [List.map_append, List.append_assoc, List.map_map]
          congr 1
          congr 1
          unfold Raw.onLine Raw.styled
          apply List.map_congr_left
          intro r hr
          simp only [Function.comp]
          rw [← hi]

private theorem partsRuns_append (s : Style) (i : Nat) (a b : List Part) :
    partsRuns s i (a ++ b) =
      match partsRuns s i a with
      | none => none
      | some (out, s') =>
        match partsRuns s' (i + a.length) b with
        | none => none
        | some (out', e) => some (out ++ out', e) := by
  induction a generalizing s i with
  | nil =>
    simp only [List.nil_append, partsRuns, List.length_nil, Nat.add_zero]
    cases partsRuns s i b with
    | none => rfl
    | some x => rfl
  | cons p a ih =>
    rw [List.cons_append, partsRuns, partsRuns]
    cases runs (s, []) p.1 p.2 with
    | none => rfl
    | some x =>
      obtain ⟨rs, s'⟩ := x
      simp only
      rw [ih]
      cases partsRuns s' (i + 1) a with
      | none => rfl
      | some y =>
        obtain ⟨out, s''⟩ := y
        simp only [List.length_cons]
        rw [show i + 1 + a.length = i + (a.length + 1) by omega]
        cases partsRuns s'' (i + (a.length + 1)) b with
        | none => rfl
        | some z => simp

private theorem srtLines_content (n : Nat) (ctx : List Str) (p : Raw) (hp : p.text = []) (i : Nat) (hi : p.vpos.line = some (i : Int)) (ls : List (List Part))
    (hb : i + ls.flatten.length < 2 ^ 31) (hv : ∀ l ∈ ls, l ≠ [] ∧ GoodLine (partsText l) ∧ ∀ q ∈ l, q.Valid) (subs : List Raw) (rest : List Str) :
    ∃ n' ctx', srtLines n .content ctx p subs (ls.map partsText ++ rest) =
      match partsRuns p.style i ls.flatten with
      | none => .error (.ub .emptyContainer)
      | some (out, s') => srtLines n' .content ctx' ((p.styled [] s').onLine (i + ls.flatten.length)) (subs ++ out.map (fun r => (p.styled r.2.1 r.2.2).onLine r.1)) rest := by
  induction ls generalizing n ctx p i subs with
  | nil =>
    refine ⟨n, ctx, ?_⟩
    simp only [List.map_nil, List.nil_append, List.flatten_nil, partsRuns, List.append_nil, List.length_nil, Nat.add_zero]
    congr 1
    unfold Raw.onLine Raw.styled Raw.style
    simp only
    rw [← hi, ← hp]
  | cons l ls ih =>
    have hl := hv l (by simp)
    have hc := cleanLine_good hl.2.1
    unfold cleanLine at hc
    simp only [List.flatten_cons, List.length_append] at hb
    have hs := convertSubLines_parts (n + 1) (pushContext ctx (partsText l)) p hp i hi l (by omega) hl.2.2 subs
    rw [← splitStr_parts l hl.1 (fun q hq => (hl.2.2 q hq).2.2.1)] at hs
    rw [List.flatten_cons, partsRuns_append]
    cases hr : partsRuns p.style i l with
    | none =>
      refine ⟨0, [], ?_⟩
      rw [hr] at hs
      simp only [List.map_cons, List.cons_append, srtLines, hc]
      rw [if_neg hl.2.1.1, hs]
      rfl
    | some x =>
      obtain ⟨out, s'⟩ := x
      rw [hr] at hs
      obtain ⟨n', ctx', h'⟩ := ih (n + 1) (pushContext ctx (partsText l)) ((p.styled [] s').onLine (i + l.length)) rfl (i + l.length) rfl
        (by omega) (fun x hx => hv x (by simp [hx])) (subs ++ out.map (fun r => (p.styled r.2.1 r.2.2).onLine r.1))
      refine ⟨n', ctx', ?_⟩
      simp only [List.map_cons, List.cons_append, srtLines, hc]
      rw [if_neg hl.2.1.1, hs]
      simp only [ok_bind]
      rw [h']
      have e3 : ((p.styled [] s').onLine (i + l.length)).style = s' := rfl
      rw [e3]
      cases partsRuns s' (i + l.length) ls.flatten with
      | none => rfl
      | some y =>
        obtain ⟨out', s''⟩ := y
        simp only [List.map_append, List.append_assoc, List.length_append]
        congr 1
        · unfold Raw.onLine Raw.styled
          simp only
          congr 3
          omega

/-! ### Cues and files -/

private theorem blanks (n : Nat) (ctx : List Str) (p : Raw) (subs : List Raw) (k : Nat) (rest : List Str) :
    ∃ n' ctx', srtLines n .counter ctx p subs (List.replicate k [] ++ rest) = srtLines n' .counter ctx' p subs rest := by
  induction k generalizing n ctx with
  | zero => exact ⟨n, ctx, rfl⟩
  | succ k ih =>
    obtain ⟨n', ctx', h⟩ := ih (n + 1) (pushContext ctx [])
    refine ⟨n', ctx', ?_⟩
    rw [List.replicate_succ, List.cons_append, srtLines]
    exact h

private theorem cue_start (n : Nat) (ctx : List Str) (p : Raw) (subs : List Raw) (c : Cue) (hc : c.Valid) (rest : List Str) :
    ∃ n' ctx' p', srtLines n .counter ctx p subs (c.text ++ rest) =
      match cueRaws c with
      | none => .error (.ub .emptyContainer)
      | some rs => srtLines n' .content ctx' p' (subs ++ rs) rest := by
  obtain ⟨h1, h2, h3, h4⟩ := hc
  have c1 := cleanLine_good h1
  have c2 := cleanLine_good (timeLine_good (sep := 44) (by decide) c.time h2)
  unfold cleanLine at c1 c2
  obtain ⟨n', ctx', h'⟩ := srtLines_content (n + 1 + 1) (pushContext (pushContext ctx c.counter) (c.time.text 44))
    { srtFresh with from_ := c.time.from_.time, to_ := c.time.to_.time } rfl 0 rfl c.lines (by simpa using h4) h3 subs rest
  have e : srtLines n .counter ctx p subs (c.text ++ rest) = srtLines (n + 1 + 1) .content (pushContext (pushContext ctx c.counter) (c.time.text 44))
      { srtFresh with from_ := c.time.from_.time, to_ := c.time.to_.time } subs (c.lines.map partsText ++ rest) := by
    unfold Cue.text
    rw [List.cons_append, List.cons_append, srtLines]
    simp only [c1]
    rw [if_neg h1.1, srtLines]
    simp only [c2]
    rw [srtMetadata_timeLine _ _ _ h2]
    rfl
  rw [e, h']
  unfold cueRaws
  have es : ({ srtFresh with from_ := c.time.from_.time, to_ := c.time.to_.time } : Raw).style = ⟨false, false, false, white⟩ := rfl
  rw [es]
  cases partsRuns ⟨false, false, false, white⟩ 0 c.lines.flatten with
  | none => exact ⟨n', ctx', srtFresh, rfl⟩
  | some x =>
    obtain ⟨out, s'⟩ := x
    exact ⟨n', ctx', _, rfl⟩

private theorem file_aux (n : Nat) (ctx : List Str) (p : Raw) (subs : List Raw) (cs : List (Cue × Nat)) (hv : ∀ c ∈ cs, c.1.Valid) :
    srtLines n .counter ctx p subs (fileLines cs) =
      match fileRaws (cs.map Prod.fst) with
      | none => .error (.ub .emptyContainer)
      | some rs => .ok (subs ++ rs) := by
  induction cs generalizing n ctx p subs with
  | nil => simp [fileLines, fileRaws, srtLines]
  | cons c cs ih =>
    obtain ⟨c, gap⟩ := c
    have hc := hv (c, gap) (by simp)
    simp only at hc
    cases cs with
    | nil =>
      obtain ⟨n', ctx', p', h⟩ := cue_start n ctx p subs c hc (List.replicate gap [])
      show srtLines n .counter ctx p subs (c.text ++ List.replicate gap []) = _
      rw [h]
      simp only [List.map_cons, List.map_nil, fileRaws]
      cases cueRaws c with
      | none => rfl
      | some rs =>
        simp only [Option.map_some, List.append_nil]
        cases gap with
        | zero => rfl
        | succ g =>
          obtain ⟨n'', ctx'', h2⟩ := blanks (n' + 1) (pushContext ctx' []) p' (subs ++ rs) g []
          rw [List.append_nil] at h2
          rw [List.replicate_succ, srtLines]
          exact h2
    | cons d cs =>
      obtain ⟨n', ctx', p', h⟩ := cue_start n ctx p subs c hc (List.replicate (gap + 1) [] ++ fileLines (d :: cs))
      show srtLines n .counter ctx p subs (c.text ++ List.replicate (gap + 1) [] ++ fileLines (d :: cs)) = _
      rw [List.append_assoc, h, List.map_cons, fileRaws]
      cases cueRaws c with
      | none => rfl
      | some rs =>
        simp only
        obtain ⟨n'', ctx'', h2⟩ := blanks (n' + 1) (pushContext ctx' []) p' (subs ++ rs) gap (fileLines (d :: cs))
        rw [List.replicate_succ, List.cons_append, srtLines]
        show srtLines (n' + 1) .counter (pushContext ctx' []) p' (subs ++ rs) (List.replicate gap [] ++ fileLines (d :: cs)) = _
        rw [h2, ih _ _ _ _ (fun x hx => hv x (by simp [hx]))]
        cases fileRaws ((d :: cs).map Prod.fst) with
        | none => rfl
        | some rs' => simp

theorem linesOfString_unlines (ls : List Str) (h : ∀ l ∈ ls, (10 : Byte) ∉ l) : linesOfString (unlines ls) = ls := by
  induction ls with
  | nil => rfl
  | cons l ls ih =>
    have e : unlines (l :: ls) = l ++ 10 :: unlines ls := by unfold unlines; simp
    rw [e, linesOfString_newline (h l (by simp)), ih (fun x hx => h x (by simp [hx]))]

/-- A missing newline at the end of the file makes no difference. -/
theorem linesOfString_final (s : Str) (hs : s ≠ []) (h : s.getLast? ≠ some 10) : linesOfString (s ++ [10]) = linesOfString s := by
  have key : ∀ (k : Nat) (s : Str), s.length ≤ k → s ≠ [] → s.getLast? ≠ some 10 → linesOfString (s ++ [10]) = linesOfString s := by
    intro k
    induction k with
    | zero => intro s hk hs; simp at hk; exact absurd hk hs
    | succ k ih =>
      intro s hk hs h
      rcases newline_cases s with h0 | ⟨a, b, rfl, ha⟩
      · rw [linesOfString_newline h0, linesOfString_last h0 hs, linesOfString_nil]
      · rw [List.append_assoc, List.cons_append, linesOfString_newline ha, linesOfString_newline ha]
        have hb : b ≠ [] := by
          rintro rfl
          simp at h
        rw [ih b (by simp at hk; omega) hb]
        intro h'
        apply h
        rw [List.getLast?_append_of_ne_nil _ (by simp), List.getLast?_cons, h']
        rfl
  exact key s.length s le_rfl hs h

private theorem fileLines_noNl (cs : List (Cue × Nat)) (hv : ∀ c ∈ cs, c.1.Valid) : ∀ l ∈ fileLines cs, (10 : Byte) ∉ l := by
  have hcue : ∀ c : Cue, c.Valid → ∀ l ∈ c.text, (10 : Byte) ∉ l := by
    intro c hc l hl
    unfold Cue.text at hl
    simp only [List.mem_cons, List.mem_map] at hl
    rcases hl with rfl | rfl | ⟨x, hx, rfl⟩
    · exact hc.1.2.2.1
    · exact (timeLine_good (sep := 44) (by decide) c.time hc.2.1).2.2.1
    · exact (hc.2.2.1 x hx).2.1.2.2.1
  have hbl : ∀ (k : Nat), ∀ l ∈ List.replicate k ([] : Str), (10 : Byte) ∉ l := by
    intro k l hl
    rw [List.eq_of_mem_replicate hl]
    simp
  induction cs with
  | nil => intro l hl; cases hl
  | cons c cs ih =>
    obtain ⟨c, gap⟩ := c
    intro l hl
    cases cs with
    | nil =>
      rw [fileLines, List.mem_append] at hl
      rcases hl with hl | hl
      · exact hcue c (hv (c, gap) (by simp)) l hl
      · exact hbl _ l hl
    | cons d cs =>
      rw [fileLines, List.mem_append, List.mem_append] at hl
      · rcases hl with (hl | hl) | hl
        · exact hcue c (hv (c, gap) (by simp)) l hl
        · exact hbl _ l hl
        · exact ih (fun x hx => hv x (by simp [hx])) l hl
      · simp

/-- C23, C26: reading the text of any list of cues, with tags and line separators, blank lines before and between, gives exactly the runs
of text of its lines, each with the times of its cue, the number of its line in the cue and the style in force there, where the style is plain
at the start of each cue and carries over from line to line. -/
theorem C23_styled (lead : Nat) (cs : List (Cue × Nat)) (hv : ∀ c ∈ cs, c.1.Valid) :
    srtReadString (unlines (List.replicate lead [] ++ fileLines cs)) =
      match fileRaws (cs.map Prod.fst) with
      | none => .error (.ub .emptyContainer)
      | some rs => .ok rs := by
  unfold srtReadString srtRead
  rw [linesOfString_unlines]
  · obtain ⟨n', ctx', h⟩ := blanks 0 [] srtFresh [] lead (fileLines cs)
    rw [h, file_aux _ _ _ _ cs hv]
    cases fileRaws (cs.map Prod.fst) <;> rfl
  · intro l hl
    rw [List.mem_append] at hl
    rcases hl with hl | hl
    · rw [List.eq_of_mem_replicate hl]; simp
    · exact fileLines_noNl cs hv l hl

/-- A file without a newline at the end reads the same. -/
theorem C23_no_final_newline (s : Str) (hs : s ≠ []) (h : s.getLast? ≠ some 10) : srtReadString (s ++ [10]) = srtReadString s := by
  unfold srtReadString
  rw [linesOfString_final s hs h]

/-! ### Plain text -/

/-- A cue of plain text. -/
structure PlainCue where
  counter : Str
  time : TimeLine
  lines : List Str

/-- A line of text without tags or special characters. -/
def PlainLine (l : Str) : Prop := GoodLine l ∧ (60 : Byte) ∉ l ∧ (123 : Byte) ∉ l ∧ ¬ b!"\u202B" <:+: l ∧ ¬ b!"\u2028" <:+: l

/-- A cue that can be written. -/
def PlainCue.Valid (c : PlainCue) : Prop := GoodLine c.counter ∧ c.time.Valid ∧ (∀ l ∈ c.lines, PlainLine l) ∧ c.lines.length < 2 ^ 31

/-- The lines of the cue in the file: counter, times, text and a blank line. -/
def PlainCue.text (c : PlainCue) : List Str := [c.counter, c.time.text 44] ++ c.lines ++ [[]]

/-- What a cue should be read as. -/
def PlainCue.raws (c : PlainCue) : List Raw :=
  c.lines.mapIdx (fun i l => { text := l, colour := white, from_ := c.time.from_.time, to_ := c.time.to_.time, vpos := { line := some (i : Int), ref := some .topOfSubtitle } })

private def PlainCue.cue (c : PlainCue) : Cue := ⟨c.counter, c.time, c.lines.map (fun l => [(l, [])])⟩

private theorem flatten_parts (ls : List Str) : (ls.map (fun l => [((l, []) : Part)])).flatten = ls.map (fun l => (l, [])) := by
  induction ls with
  | nil => rfl
  | cons l ls ih => simp only [List.map_cons, List.flatten_cons, ih, List.cons_append, List.nil_append]

private theorem cue_valid {c : PlainCue} (h : c.Valid) : c.cue.Valid := by
  obtain ⟨h1, h2, h3, h4⟩ := h
  refine ⟨h1, h2, ?_, ?_⟩
  · intro l hl
    unfold PlainCue.cue at hl
    simp only [List.mem_map] at hl
    obtain ⟨x, hx, rfl⟩ := hl
    obtain ⟨g, a, b, d, e⟩ := h3 x hx
    refine ⟨by simp, g, ?_⟩
    intro p hp
    rw [List.mem_singleton] at hp
    subst hp
    exact ⟨⟨plainText_of a b, by simp⟩, d, e, g.2.2.1⟩
  · unfold PlainCue.cue
    simp only [flatten_parts, List.length_map]
    exact h4

private theorem partsRuns_plain (s : Style) (i : Nat) (ls : List Str) (h : ∀ l ∈ ls, l ≠ []) :
    partsRuns s i (ls.map (fun l => ((l, []) : Part))) = some (ls.mapIdx (fun k l => (i + k, l, s)), s) := by
  induction ls generalizing i with
  | nil => rfl
  | cons l ls ih =>
    rw [List.map_cons, partsRuns]
    simp only [runs, run, if_neg (h l (by simp))]
    rw [ih (i + 1) (fun x hx => h x (by simp [hx]))]
    simp only [List.mapIdx_cons, List.map_cons, List.map_nil, List.cons_append, List.nil_append, Nat.add_zero]
    congr 3
    apply List.ext_getElem
    · simp
    · intro k hk hk'
      simp only [List.getElem_mapIdx]
      congr 1
      omega

private theorem cueRaws_plain {c : PlainCue} (h : c.Valid) : cueRaws c.cue = some c.raws := by
  unfold cueRaws
  have e : c.cue.lines.flatten = c.lines.map (fun l => ((l, []) : Part)) := flatten_parts c.lines
  rw [e, partsRuns_plain _ _ _ (fun l hl => (h.2.2.1 l hl).1.1)]
  simp only [Option.some.injEq]
  unfold PlainCue.raws
  apply List.ext_getElem
  · simp
  · intro k hk hk'
    simp only [List.getElem_map, List.getElem_mapIdx, Nat.zero_add]
    rfl

/-- C23: reading the text of any list of plain cues gives, in order, one subtitle per line with the text of the line, the times of the cue and
the number of the line in the cue. -/
theorem C23_round_trip (cs : List PlainCue) (h : ∀ c ∈ cs, c.Valid) :
    srtReadString (unlines (cs.map PlainCue.text).flatten) = .ok (cs.map PlainCue.raws).flatten := by
  have hr : ∀ cs : List PlainCue, (∀ c ∈ cs, c.Valid) → fileRaws (cs.map PlainCue.cue) = some (cs.map PlainCue.raws).flatten := by
    intro cs h
    induction cs with
    | nil => rfl
    | cons c cs ih =>
      rw [List.map_cons, fileRaws, cueRaws_plain (h c (by simp)), ih (fun x hx => h x (by simp [hx]))]
      rfl
  have hl : ∀ c : PlainCue, c.cue.text = [c.counter, c.time.text 44] ++ c.lines := by
    intro c
    unfold Cue.text PlainCue.cue
    simp only [List.map_map, List.cons_append, List.nil_append]
    congr 2
    calc _ = c.lines.map id := by apply List.map_congr_left; intro l _; rfl
      _ = c.lines := List.map_id _
  have hf : ∀ cs : List PlainCue, ∃ gs : List (Cue × Nat), gs.map Prod.fst = cs.map PlainCue.cue ∧ fileLines gs = (cs.map PlainCue.text).flatten := by
    intro cs
    induction cs with
    | nil => exact ⟨[], rfl, rfl⟩
    | cons c cs ih =>
      obtain ⟨gs, h1, h2⟩ := ih
      cases gs with
      | nil =>
        refine ⟨[(c.cue, 1)], ?_, ?_⟩
        · simp only [List.map_cons, List.map_nil, h1.symm]
        · simp only [List.map_cons, List.flatten_cons, ← h2, fileLines, hl, PlainCue.text, List.append_nil, List.replicate]
      | cons g gs =>
        refine ⟨(c.cue, 0) :: g :: gs, ?_, ?_⟩
        · simp only [List.map_cons] at h1 ⊢
          rw [h1]
        · rw [List.map_cons, List.flatten_cons, ← h2, fileLines, hl, PlainCue.text]
          · rfl
          · simp
  obtain ⟨gs, h1, h2⟩ := hf cs
  have := C23_styled 0 gs ?_
  · rw [h1, hr cs h, h2] at this
    exact this
  · intro g hg
    have : g.1 ∈ gs.map Prod.fst := List.mem_map_of_mem hg
    rw [h1, List.mem_map] at this
    obtain ⟨c, hc, e⟩ := this
    rw [← e]
    exact cue_valid (h c hc)

/-- C33: a line of plain text becomes exactly one subtitle with exactly that text, whatever the style in force. -/
theorem C33_plain (n : Nat) (ctx : List Str) (p : Raw) (hp : p.text = []) (l : Str) (hne : l ≠ []) (h1 : (60 : Byte) ∉ l) (h2 : (123 : Byte) ∉ l)
    (h3 : ¬ b!"\u202B" <:+: l) (subs : List Raw) :
    convertLine n ctx l p subs = .ok (p, subs ++ [{ p with text := l }]) := by
  have := C24_line n ctx p hp l subs [] ⟨plainText_of h1 h2, by simp⟩ h3
  rw [show lineText l [] = l from rfl] at this
  rw [this]
  simp only [runs, run, if_neg hne, List.map_cons, List.map_nil]
  congr 2
  unfold Raw.styled Raw.style
  rw [← hp]


/-! ### Examples -/

private def stamp1 : Stamp := ⟨1, 2, 3, 4, 1, 1, 1, 2⟩
private def stamp2 : Stamp := ⟨1, 2, 4, 500, 1, 1, 1, 0⟩
private def line1 : TimeLine := ⟨stamp1, stamp2, 0, 0, [], 0⟩
private def line2 : TimeLine := ⟨stamp2, stamp2, 0, 2, [(0, b!"X1:1"), (0, b!"X2:2"), (1, b!"Y1:3"), (0, b!"Y2:4")], 1⟩

example : line1.text 44 = b!"01:02:03,004 --> 01:02:04,500" := by decide +kernel
example : line2.text 46 = b!"01:02:04.500 -->   01:02:04.500 X1:1 X2:2  Y1:3 Y2:4 " := by decide +kernel

private theorem stamp1_valid : stamp1.Valid := by unfold Stamp.Valid; decide
private theorem stamp2_valid : stamp2.Valid := by unfold Stamp.Valid; decide
private theorem line1_valid : line1.Valid := ⟨stamp1_valid, stamp2_valid, .inl rfl, by simp [line1]⟩
private theorem line2_valid : line2.Valid := ⟨stamp2_valid, stamp2_valid, .inr rfl, by unfold line2; decide⟩

example : PlainCue.Valid ⟨b!"1", line1, [b!"Hello", b!" world }>"]⟩ := by
  refine ⟨by unfold GoodLine; decide, line1_valid, ?_, by decide⟩
  unfold PlainLine GoodLine
  decide

example : Cue.Valid ⟨b!"12", line2, [[(b!"a ", [(.face .bold true false true, b!"b")]), (b!"c", [])], [(b!"d", [(.face .bold false true false, [])])]]⟩ := by
  refine ⟨by unfold GoodLine; decide, line2_valid, ?_, by decide⟩
  intro l hl
  have hv : ∀ p : Part, plainTextB p.1 = true → (∀ x ∈ p.2, (match x.1 with | .face .. => true | _ => false) = true ∧ plainTextB x.2 = true) →
      (¬ b!"\u202B" <:+: lastText p.1 p.2 ∧ ¬ b!"\u2028" <:+: p.text ∧ (10 : Byte) ∉ p.text) → p.Valid := by
    intro p h1 h2 h3
    refine ⟨⟨plainText_of_b h1, ?_⟩, h3⟩
    intro x hx
    refine ⟨?_, plainText_of_b (h2 x hx).2⟩
    have := (h2 x hx).1
    revert this
    cases x.1 <;> simp [Mark.Valid]
  simp only [List.mem_cons, List.not_mem_nil, or_false] at hl
  rcases hl with rfl | rfl
  · refine ⟨by simp, by unfold GoodLine; decide, ?_⟩
    intro p hp
    simp only [List.mem_cons, List.not_mem_nil, or_false] at hp
    rcases hp with rfl | rfl <;> exact hv _ (by decide) (by simp [plainTextB]) (by decide)
  · refine ⟨by simp, by unfold GoodLine; decide, ?_⟩
    intro p hp
    simp only [List.mem_cons, List.not_mem_nil, or_false] at hp
    subst hp
    exact hv _ (by decide) (by simp [plainTextB]) (by decide)

/-- Bold set on the first line of a cue carries over to the second and the third, where it is ended, and the next cue starts in plain style. -/
example : srtReadString b!"1\n00:00:01,000 --> 00:00:02,000\na <b>b\nc\nd</b>e\n\n2\n00:00:03,000 --> 00:00:04,000\nf<i>\n\n3\n0:0:5,0 --> 0:0:6,0\ng" =
    .ok [{ srtFresh with text := b!"a ", from_ := ⟨1, 0, some ⟨1000, 1⟩⟩, to_ := ⟨2, 0, some ⟨1000, 1⟩⟩ },
      { srtFresh with text := b!"b", bold := true, from_ := ⟨1, 0, some ⟨1000, 1⟩⟩, to_ := ⟨2, 0, some ⟨1000, 1⟩⟩ },
      { srtFresh with text := b!"c", bold := true, from_ := ⟨1, 0, some ⟨1000, 1⟩⟩, to_ := ⟨2, 0, some ⟨1000, 1⟩⟩, vpos := { line := some 1, ref := some .topOfSubtitle } },
      { srtFresh with text := b!"d", bold := true, from_ := ⟨1, 0, some ⟨1000, 1⟩⟩, to_ := ⟨2, 0, some ⟨1000, 1⟩⟩, vpos := { line := some 2, ref := some .topOfSubtitle } },
      { srtFresh with text := b!"e", from_ := ⟨1, 0, some ⟨1000, 1⟩⟩, to_ := ⟨2, 0, some ⟨1000, 1⟩⟩, vpos := { line := some 2, ref := some .topOfSubtitle } },
      { srtFresh with text := b!"f", from_ := ⟨3, 0, some ⟨1000, 1⟩⟩, to_ := ⟨4, 0, some ⟨1000, 1⟩⟩ },
      { srtFresh with text := b!"g", from_ := ⟨5, 0, some ⟨1000, 1⟩⟩, to_ := ⟨6, 0, some ⟨1000, 1⟩⟩ }] := by
  decide +kernel

end LibSub
