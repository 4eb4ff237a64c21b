/-
Property C79: the order of the columns of the dialogues of a whole SSA file.
-/
import Verif.Props.SsaStyleOrder

namespace LibSub

/-! ### Specification -/

/-- A line of dialogue, with the values in `b`. -/
def HasDialogue (l b : Str) : Prop := OnLine l (some (.field b!"Dialogue" b))

/-- Two lines that say the same, if the columns of one are those of `f` and the columns of the other those of `f'`. -/
def SameDialogueBy (f f' l l' : Str) : Prop :=
  ∃ b b', HasDialogue l b ∧ HasDialogue l' b' ∧ ∀ (r : SsaRead) subs, DialogueMeans r.resX r.resY r.named f b subs ↔ DialogueMeans r.resX r.resY r.named f' b' subs

/-- Columns in another order: neighbours change places, but never two whose order matters. -/
inductive ColumnsMoved : List (Str × Str) → List (Str × Str) → Prop
  | same (l : List (Str × Str)) : ColumnsMoved l l
  | swap (l m k : List (Str × Str)) (p q : Str × Str) : ¬ Ordered p.1 q.1 → ColumnsMoved (l ++ q :: p :: m) k → ColumnsMoved (l ++ p :: q :: m) k

/-! ### Another format of dialogues -/

/-- Both fail, or the states differ at most in the names of the columns of dialogues. -/
private inductive Other : R SsaRead → R SsaRead → Prop
  | error (e e' : Err) : Other (.error e) (.error e')
  | ok (r : SsaRead) (g : List Str) : Other (.ok r) (.ok { r with eventFormat := g })

private theorem other_map {α : Type} (x : R α) (f : α → SsaRead) (g : List Str) : Other (x >>= fun a => pure (f a)) (x >>= fun a => pure { f a with eventFormat := g }) := by
  cases x with
  | error e => exact .error e e
  | ok a => exact .ok (f a) g

private theorem other_line (r : SsaRead) (g : List Str) (l : Str) (h : ∀ b, ¬ HasDialogue l b) : Other (ssaLine r l) (ssaLine { r with eventFormat := g } l) := by
  by_cases he : ∃ e, OnLine l e
  swap
  · have hn : ∀ e, ¬ OnLine l e := fun e k => he ⟨e, k⟩
    rw [line_none hn, line_none hn]
    exact .error _ _
  obtain ⟨e, he⟩ := he
  rw [line_entry he, line_entry he]
  obtain ⟨part, rx, ry, sts, sf, ef, sb⟩ := r
  cases e with
  | none => exact .ok _ g
  | some e =>
    cases e with
    | heading t => exact .ok { part := (sectionOf t).getD part, resX := rx, resY := ry, styles := sts, styleFormat := sf, eventFormat := ef, subs := sb } g
    | field t b =>
      cases part with
      | info =>
        simp only
        split
        · exact other_map _ (fun x => { part := .info, resX := x, resY := ry, styles := sts, styleFormat := sf, eventFormat := ef, subs := sb }) g
        split
        · exact other_map _ (fun x => { part := .info, resX := rx, resY := x, styles := sts, styleFormat := sf, eventFormat := ef, subs := sb }) g
        · exact .ok _ g
      | styles =>
        simp only
        split
        · exact .ok { part := .styles, resX := rx, resY := ry, styles := sts, styleFormat := b, eventFormat := ef, subs := sb } g
        split
        · cases subAssert (!sf.isEmpty) with
          | error e => exact .error e e
          | ok _ =>
            simp only [ok_bind]
            exact other_map _ (fun s : SsaStyle => { part := .styles, resX := rx, resY := ry, styles := (s.name, s) :: sts, styleFormat := sf, eventFormat := ef, subs := sb }) g
        · exact .ok _ g
      | events =>
        simp only
        split
        · exact .ok _ ((splitAny isComma b).map trim)
        split
        · rename_i ht
          rw [ht] at he
          exact absurd he (h b)
        · exact .ok _ g

private theorem other_rest (ls : List Str) (h : ∀ l ∈ ls, ∀ b, ¬ HasDialogue l b) : ∀ {x y : R SsaRead}, Other x y → Other (x >>= fun r => ssaLines r ls) (y >>= fun r => ssaLines r ls) := by
  induction ls with
  | nil =>
    intro x y k
    cases k with
    | error e e' => exact .error e e'
    | ok r g => exact .ok r g
  | cons l ls ih =>
    intro x y k
    cases k with
    | error e e' => exact .error e e'
    | ok r g =>
      simp only [ok_bind, ssaLines]
      exact ih (fun l hl => h l (by simp [hl])) (other_line r g l (h l (by simp)))

private theorem other_says {l b : Str} (h : HasDialogue l b) (r : SsaRead) (hp : r.part = .events) : ssaLine r l = ssaDialogue r b := by
  rw [line_entry h r]
  simp only [hp]
  rw [if_neg (by decide), if_pos trivial]

private theorem other_dialogues {f f' : Str} {ss ss' : List Str} (h : List.Forall₂ (SameDialogueBy f f') ss ss') : ∀ r : SsaRead, r.part = .events → r.eventFormat = (splitAny isComma f).map trim →
    Other (ssaLines r ss) (ssaLines { r with eventFormat := (splitAny isComma f').map trim } ss') := by
  induction h with
  | nil => intro r _ _; exact .ok r _
  | @cons l l' ss ss' hl _ ih =>
    intro r hp hf
    obtain ⟨b, b', hb, hb', hs⟩ := hl
    have d1 := fun r' => C118_dialogue r r' f b hf
    have d2 := fun r' => C118_dialogue { r with eventFormat := (splitAny isComma f').map trim } r' f' b' rfl
    rw [ssaLines, ssaLines, other_says hb r hp, other_says hb' { r with eventFormat := (splitAny isComma f').map trim } hp]
    cases e1 : ssaDialogue r b with
    | error e =>
      cases e2 : ssaDialogue { r with eventFormat := (splitAny isComma f').map trim } b' with
      | error e' => exact .error e e'
      | ok r' =>
        obtain ⟨subs, m, _⟩ := (d2 r').1 e2
        rw [(d1 _).2 ⟨subs, (hs r subs).2 m, rfl⟩] at e1
        cases e1
    | ok r' =>
      obtain ⟨subs, m, rfl⟩ := (d1 r').1 e1
      rw [(d2 _).2 ⟨subs, (hs r subs).1 m, rfl⟩]
      exact ih { r with subs := r.subs ++ subs } hp hf

private theorem other_append (ls ls' : List Str) : ∀ r, ssaLines r (ls ++ ls') = ssaLines r ls >>= fun r => ssaLines r ls' := by
  induction ls with
  | nil => intro r; rfl
  | cons l ls ih =>
    intro r
    rw [List.cons_append, ssaLines, ssaLines]
    cases ssaLine r l with
    | error e => rfl
    | ok r' => exact ih r'

private theorem other_place {p q : SsaPlace} {ls : List Str} (h : PlaceReached p ls q) : ∀ r r', r.part = p.sec ∧ r.styleFormat = p.format ∧ r.eventFormat = p.names → ssaLines r ls = .ok r' →
    r'.part = q.sec := by
  induction h with
  | here p => intro r r' hr h; cases h; exact hr.1
  | nothing p q l ls hl _ ih =>
    intro r r' hr h
    rw [ssaLines, line_entry hl r] at h
    exact ih r r' hr h
  | entry p q l e ls hl _ ih =>
    intro r r' hr h
    rw [ssaLines] at h
    obtain ⟨m, hm, h⟩ := bind_eq_ok.1 h
    exact ih m r' (place_after hr hl hm) h

private theorem moved_fields {l k : List (Str × Str)} (h : ColumnsMoved l k) (r : SsaRead) (ev ev' : SsaEvent) : ssaEventFields r ev l = .ok ev' ↔ ssaEventFields r ev k = .ok ev' := by
  induction h with
  | same l => rfl
  | swap l m k p q ho _ ih => rw [C79_swap r ev ev' l m p q ho, ih]

private theorem values_inj : ∀ (fs fs' : List Str) (rest rest' : Str), fs.length = fs'.length → (∀ f ∈ fs, (44 : Byte) ∉ f) → (∀ f ∈ fs', (44 : Byte) ∉ f) →
    (fs.map (· ++ [44])).flatten ++ rest = (fs'.map (· ++ [44])).flatten ++ rest' → fs = fs' ∧ rest = rest' := by
  intro fs
  induction fs with
  | nil =>
    intro fs' rest rest' hl _ _ h
    cases fs' with
    | nil => exact ⟨rfl, by simpa using h⟩
    | cons _ _ => cases hl
  | cons a fs ih =>
    intro fs' rest rest' hl h1 h2 h
    cases fs' with
    | nil => cases hl
    | cons a' fs' =>
      simp only [List.map_cons, List.flatten_cons, List.append_assoc, List.cons_append, List.nil_append] at h
      have e : a = a' ∧ (fs.map (· ++ [44])).flatten ++ rest = (fs'.map (· ++ [44])).flatten ++ rest' := by
        have n1 := h1 a (by simp)
        have n2 := h2 a' (by simp)
        clear h1 h2 hl ih
        induction a generalizing a' with
        | nil =>
          cases a' with
          | nil => exact ⟨rfl, by simpa using h⟩
          | cons c t => exact absurd (List.cons.inj h).1 fun e => n2 (by rw [← e]; simp)
        | cons c t ih =>
          cases a' with
          | nil => exact absurd (List.cons.inj h).1 fun e => n1 (by rw [e]; simp)
          | cons c' t' =>
            obtain ⟨e1, e2⟩ := List.cons.inj h
            obtain ⟨e3, e4⟩ := ih t' e2 (fun k => n1 (by simp [k])) (fun k => n2 (by simp [k]))
            exact ⟨by rw [e1, e3], e4⟩
      obtain ⟨rfl, e⟩ := e
      obtain ⟨rfl, er⟩ := ih fs' rest rest' (by simpa using hl) (fun f hf => h1 f (by simp [hf])) (fun f hf => h2 f (by simp [hf])) e
      exact ⟨rfl, er⟩

private theorem values_unique {b : Str} {vs vs' : List Str} (h : ValuesOf b vs) (h' : ValuesOf b vs') (hl : vs.length = vs'.length) : vs = vs' := by
  obtain ⟨fs, rest, rfl, e, k⟩ := h
  obtain ⟨fs', rest', rfl, e', k'⟩ := h'
  obtain ⟨rfl, rfl⟩ := values_inj fs fs' rest rest' (by simpa using hl) k k' (e.symm.trans e')
  rfl

private theorem means_fields {r : SsaRead} {f b : Str} {names values : List Str} (hf : CommaList f names) (hb : ValuesOf b values) (hn : names.length = values.length) (subs : List Raw) :
    DialogueMeans r.resX r.resY r.named f b subs ↔ ∃ ev, ssaEventFields r {} ((names.map trim).zip values) = .ok ev ∧ subs = ev.subs := by
  have hcol : ((names.map trim).zip values).map (fun c => (c.1, trim c.2)) = columns names values := by
    unfold columns
    rw [List.zip_map_right]
    apply List.map_congr_left
    intro c _
    rfl
  constructor
  · rintro ⟨ns, vs, ev, h1, h2, h3, h4, h5⟩
    have e1 : ns = names := ((commaList_iff _ _).1 h1).symm.trans ((commaList_iff _ _).1 hf)
    subst e1
    have e2 := values_unique h2 hb (h3.symm.trans hn)
    subst e2
    exact ⟨ev, (columns_iff r {} ev rfl _).2 (by rw [hcol]; exact h4), h5⟩
  · rintro ⟨ev, h1, h2⟩
    exact ⟨names, values, ev, hf, hb, hn, by rw [← hcol]; exact (columns_iff r {} ev rfl _).1 h1, h2⟩

/-! ### C79 -/

/-- C79: a table of dialogues, which is a line with the names of columns and the dialogues after it, may be replaced by one with other columns that says the same. -/
theorem C79_table (pre ss ss' post : List Str) (l l' f f' : Str) (p : SsaPlace) (hp : PlaceReached {} pre p) (hsec : p.sec = .events) (hl : OnLine l (some (.field b!"Format" f)))
    (hl' : OnLine l' (some (.field b!"Format" f'))) (hs : List.Forall₂ (SameDialogueBy f f') ss ss') (hpost : ∀ x ∈ post, ∀ b, ¬ HasDialogue x b) :
    (ssaReadLines (pre ++ l :: ss ++ post)).toOption = (ssaReadLines (pre ++ l' :: ss' ++ post)).toOption := by
  have key : Other (ssaLines {} (pre ++ l :: ss ++ post)) (ssaLines {} (pre ++ l' :: ss' ++ post)) := by
    rw [other_append, other_append, other_append, other_append]
    refine other_rest post hpost ?_
    cases hr : ssaLines {} pre with
    | error e => exact .error e e
    | ok r =>
      have hq := (other_place hp {} r ⟨rfl, rfl, rfl⟩ hr).trans hsec
      have e1 : ssaLine r l = .ok { r with eventFormat := (splitAny isComma f).map trim } := by rw [line_entry hl r, hq]; rfl
      have e2 : ssaLine r l' = .ok { r with eventFormat := (splitAny isComma f').map trim } := by rw [line_entry hl' r, hq]; rfl
      simp only [ok_bind, ssaLines]
      rw [e1, e2]
      exact other_dialogues hs { r with eventFormat := (splitAny isComma f).map trim } hq rfl
  unfold ssaReadLines
  generalize ssaLines {} (pre ++ l :: ss ++ post) = x at key
  generalize ssaLines {} (pre ++ l' :: ss' ++ post) = y at key
  cases key <;> rfl

/-- C79: columns may be moved, except that margins stay after the style and everything stays on its side of the text. -/
theorem C79_columns (l l' f f' b b' : Str) (names values names' values' : List Str) (hl : HasDialogue l b) (hl' : HasDialogue l' b') (hf : CommaList f names) (hb : ValuesOf b values)
    (hf' : CommaList f' names') (hb' : ValuesOf b' values') (hn : names.length = values.length) (hn' : names'.length = values'.length)
    (hm : ColumnsMoved ((names.map trim).zip values) ((names'.map trim).zip values')) : SameDialogueBy f f' l l' := by
  refine ⟨b, b', hl, hl', fun r subs => ?_⟩
  rw [means_fields hf hb hn, means_fields hf' hb' hn']
  simp only [moved_fields hm]

/-- The end before the start. -/
private theorem moved_example : SameDialogueBy b!"Start,End,Text" b!"End,Start,Text" b!"Dialogue: 0:00:01.00,0:00:02.00,a, b" b!"Dialogue: 0:00:02.00,0:00:01.00,a, b" := by
  refine C79_columns _ _ _ _ b!"0:00:01.00,0:00:02.00,a, b" b!"0:00:02.00,0:00:01.00,a, b" [b!"Start", b!"End", b!"Text"] [b!"0:00:01.00", b!"0:00:02.00", b!"a, b"]
    [b!"End", b!"Start", b!"Text"] [b!"0:00:02.00", b!"0:00:01.00", b!"a, b"]
    (.field b!"Dialogue" b!" 0:00:01.00,0:00:02.00,a, b" (by decide +kernel) (by decide) (by decide) (by decide))
    (.field b!"Dialogue" b!" 0:00:02.00,0:00:01.00,a, b" (by decide +kernel) (by decide) (by decide) (by decide))
    ⟨by decide, by decide, by decide⟩ ⟨[b!"0:00:01.00", b!"0:00:02.00"], b!"a, b", rfl, by decide, by decide⟩
    ⟨by decide, by decide, by decide⟩ ⟨[b!"0:00:02.00", b!"0:00:01.00"], b!"a, b", rfl, by decide, by decide⟩ rfl rfl ?_
  exact .swap [] [(b!"Text", b!"a, b")] _ (b!"Start", b!"0:00:01.00") (b!"End", b!"0:00:02.00") (by unfold Ordered; decide) (.same _)

example : SameDialogueBy b!"Start,End,Text" b!"End,Start,Text" b!"Dialogue: 0:00:01.00,0:00:02.00,a, b" b!"Dialogue: 0:00:02.00,0:00:01.00,a, b" := moved_example

/-- A whole file with its columns in both orders. -/
example : (ssaReadLines ([b!"[Events]"] ++ b!"Format: Start,End,Text" :: [b!"Dialogue: 0:00:01.00,0:00:02.00,a, b"] ++ [])).toOption =
    (ssaReadLines ([b!"[Events]"] ++ b!"Format: End,Start,Text" :: [b!"Dialogue: 0:00:02.00,0:00:01.00,a, b"] ++ [])).toOption :=
  C79_table _ _ _ _ _ _ b!"Start,End,Text" b!"End,Start,Text" { sec := .events } (.entry _ _ _ (.heading b!"[Events]") _ (.heading (by decide)) (.here _)) rfl
    (.field b!"Format" b!" Start,End,Text" (by decide +kernel) (by decide) (by decide) (by decide)) (.field b!"Format" b!" End,Start,Text" (by decide +kernel) (by decide) (by decide) (by decide))
    (.cons moved_example .nil) (by simp)

end LibSub
