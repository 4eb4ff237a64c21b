/-
Property C155: the order of the columns of the styles of an SSA file does not matter.
-/
import Verif.Props.SsaStyleOrder

namespace LibSub

/-! ### Specification -/

/-- Two lines that define the same style, if the columns of one are those of `f` and the columns of the other those of `f'`. -/
def SameStyleBy (f f' l l' : Str) : Prop := ∃ b b', DefinesStyle l b ∧ DefinesStyle l' b' ∧ ∀ s, StyleMeans f b s ↔ StyleMeans f' b' s

/-! ### Another format of styles -/

/-- Both fail, or the states differ at most in the format of styles. -/
private inductive Apart : R SsaRead → R SsaRead → Prop
  | error (e e' : Err) : Apart (.error e) (.error e')
  | ok (r : SsaRead) (g : Str) : Apart (.ok r) (.ok { r with styleFormat := g })

private theorem table_fields (r : SsaRead) (g : Str) : ∀ (l : List (Str × Str)) (ev : SsaEvent), ssaEventFields { r with styleFormat := g } ev l = ssaEventFields r ev l := by
  intro l
  induction l with
  | nil => intro ev; rfl
  | cons kv l ih =>
    intro ev
    obtain ⟨k, v⟩ := kv
    have e : ssaEventField { r with styleFormat := g } ev k v = ssaEventField r ev k v := rfl
    rw [ssaEventFields, ssaEventFields, e]
    cases ssaEventField r ev k v with
    | error e => rfl
    | ok ev' => exact ih ev'

private theorem table_map {α : Type} (x : R α) (f : α → SsaRead) (g : Str) : Apart (x >>= fun a => pure (f a)) (x >>= fun a => pure { f a with styleFormat := g }) := by
  cases x with
  | error e => exact .error e e
  | ok a => exact .ok (f a) g

private theorem table_dialogue (r : SsaRead) (g : Str) (b : Str) : Apart (ssaDialogue r b) (ssaDialogue { r with styleFormat := g } b) := by
  unfold ssaDialogue
  simp only [table_fields r g]
  cases subAssert (!r.eventFormat.isEmpty) with
  | error e => exact .error e e
  | ok _ =>
    simp only [ok_bind]
    cases subAssert (!(ssaRejoin r.eventFormat.length (splitAny isComma b).length (splitAny isComma b)).isEmpty) with
    | error e => exact .error e e
    | ok _ =>
      simp only [ok_bind]
      cases subAssert (r.eventFormat.length == (ssaRejoin r.eventFormat.length (splitAny isComma b).length (splitAny isComma b)).length) with
      | error e => exact .error e e
      | ok _ =>
        simp only [ok_bind]
        exact table_map _ (fun ev : SsaEvent => { r with subs := r.subs ++ ev.subs }) g

private theorem table_line (r : SsaRead) (g l : Str) (h : ∀ b, ¬ DefinesStyle l b) : Apart (ssaLine r l) (ssaLine { r with styleFormat := g } l) := by
  by_cases he : ∃ e, OnLine l e
  swap
  · have hn : ∀ e, ¬ OnLine l e := fun e k => he ⟨e, k⟩
    rw [line_none hn, line_none hn]
    exact .error _ _
  obtain ⟨e, he⟩ := he
  rw [line_entry he, line_entry he]
  obtain ⟨part, rx, ry, sts, sf, ef, sb⟩ := r
  cases e with
  | none => exact .ok _ g
  | some e =>
    cases e with
    | heading t => exact .ok { part := (sectionOf t).getD part, resX := rx, resY := ry, styles := sts, styleFormat := sf, eventFormat := ef, subs := sb } g
    | field t b =>
      cases part with
      | info =>
        simp only
        split
        · exact table_map _ (fun x => { part := .info, resX := x, resY := ry, styles := sts, styleFormat := sf, eventFormat := ef, subs := sb }) g
        split
        · exact table_map _ (fun x => { part := .info, resX := rx, resY := x, styles := sts, styleFormat := sf, eventFormat := ef, subs := sb }) g
        · exact .ok _ g
      | styles =>
        simp only
        split
        · exact .ok _ b
        split
        · rename_i ht
          rw [ht] at he
          exact absurd he (h b)
        · exact .ok _ g
      | events =>
        simp only
        split
        · exact .ok { part := .events, resX := rx, resY := ry, styles := sts, styleFormat := sf, eventFormat := (splitAny isComma b).map trim, subs := sb } g
        split
        · exact table_dialogue _ g b
        · exact .ok _ g

private theorem table_rest (ls : List Str) (h : ∀ l ∈ ls, ∀ b, ¬ DefinesStyle l b) : ∀ {x y : R SsaRead}, Apart x y → Apart (x >>= fun r => ssaLines r ls) (y >>= fun r => ssaLines r ls) := by
  induction ls with
  | nil =>
    intro x y k
    cases k with
    | error e e' => exact .error e e'
    | ok r g => exact .ok r g
  | cons l ls ih =>
    intro x y k
    cases k with
    | error e e' => exact .error e e'
    | ok r g =>
      simp only [ok_bind, ssaLines]
      exact ih (fun l hl => h l (by simp [hl])) (table_line r g l (h l (by simp)))

private theorem table_style {l b : Str} (h : DefinesStyle l b) (r : SsaRead) (hp : r.part = .styles) (h0 : r.styleFormat ≠ []) :
    ssaLine r l = SsaStyle.make r.styleFormat b >>= fun s => pure { r with styles := (s.name, s) :: r.styles } := by
  rw [line_entry h r, hp]
  simp only
  rw [if_neg (by decide), if_pos trivial]
  have : subAssert (!r.styleFormat.isEmpty) = .ok () := by
    cases hf : r.styleFormat with
    | nil => exact absurd hf h0
    | cons c t => rfl
  rw [this, ok_bind]

private theorem table_styles {f f' : Str} (h0 : f ≠ []) (h0' : f' ≠ []) {ss ss' : List Str} (h : List.Forall₂ (SameStyleBy f f') ss ss') : ∀ r : SsaRead, r.part = .styles → r.styleFormat = f →
    Apart (ssaLines r ss) (ssaLines { r with styleFormat := f' } ss') := by
  induction h with
  | nil => intro r _ _; exact .ok r f'
  | @cons l l' ss ss' hl _ ih =>
    intro r hp hf
    obtain ⟨b, b', hb, hb', hs⟩ := hl
    subst hf
    rw [ssaLines, ssaLines, table_style hb r hp h0, table_style hb' { r with styleFormat := f' } hp h0']
    simp only
    cases e1 : SsaStyle.make r.styleFormat b with
    | error e =>
      cases e2 : SsaStyle.make f' b' with
      | error e' => exact .error e e'
      | ok s =>
        rw [(C118_style _ _ _).2 ((hs s).2 ((C118_style _ _ _).1 e2))] at e1
        cases e1
    | ok s =>
      rw [(C118_style _ _ _).2 ((hs s).1 ((C118_style _ _ _).1 e1))]
      exact ih { r with styles := (s.name, s) :: r.styles } hp rfl

private theorem table_append (ls ls' : List Str) : ∀ r, ssaLines r (ls ++ ls') = ssaLines r ls >>= fun r => ssaLines r ls' := by
  induction ls with
  | nil => intro r; rfl
  | cons l ls ih =>
    intro r
    rw [List.cons_append, ssaLines, ssaLines]
    cases ssaLine r l with
    | error e => rfl
    | ok r' => exact ih r'

private theorem table_place {p q : SsaPlace} {ls : List Str} (h : PlaceReached p ls q) : ∀ r r', r.part = p.sec ∧ r.styleFormat = p.format ∧ r.eventFormat = p.names → ssaLines r ls = .ok r' →
    r'.part = q.sec := by
  induction h with
  | here p => intro r r' hr h; cases h; exact hr.1
  | nothing p q l ls hl _ ih =>
    intro r r' hr h
    rw [ssaLines, line_entry hl r] at h
    exact ih r r' hr h
  | entry p q l e ls hl _ ih =>
    intro r r' hr h
    rw [ssaLines] at h
    obtain ⟨m, hm, h⟩ := bind_eq_ok.1 h
    exact ih m r' (place_after hr hl hm) h

/-! ### C155 -/

/-- C155: a table of styles, which is a line with the format and the styles after it, may be replaced by one with another format that describes the same styles. -/
theorem C155_table (pre ss ss' post : List Str) (l l' f f' : Str) (p : SsaPlace) (hp : PlaceReached {} pre p) (hsec : p.sec = .styles) (hl : OnLine l (some (.field b!"Format" f)))
    (hl' : OnLine l' (some (.field b!"Format" f'))) (h0 : f ≠ []) (h0' : f' ≠ []) (hs : List.Forall₂ (SameStyleBy f f') ss ss') (hpost : ∀ x ∈ post, ∀ b, ¬ DefinesStyle x b) :
    (ssaReadLines (pre ++ l :: ss ++ post)).toOption = (ssaReadLines (pre ++ l' :: ss' ++ post)).toOption := by
  have key : Apart (ssaLines {} (pre ++ l :: ss ++ post)) (ssaLines {} (pre ++ l' :: ss' ++ post)) := by
    rw [table_append, table_append, table_append, table_append]
    refine table_rest post hpost ?_
    cases hr : ssaLines {} pre with
    | error e => exact .error e e
    | ok r =>
      have hq := (table_place hp {} r ⟨rfl, rfl, rfl⟩ hr).trans hsec
      have e1 : ssaLine r l = .ok { r with styleFormat := f } := by rw [line_entry hl r, hq]; rfl
      have e2 : ssaLine r l' = .ok { r with styleFormat := f' } := by rw [line_entry hl' r, hq]; rfl
      simp only [ok_bind, ssaLines]
      rw [e1, e2]
      exact table_styles h0 h0' hs { r with styleFormat := f } hq rfl
  unfold ssaReadLines
  generalize ssaLines {} (pre ++ l :: ss ++ post) = x at key
  generalize ssaLines {} (pre ++ l' :: ss' ++ post) = y at key
  cases key <;> rfl

/-- C155: so the columns may be in any order, provided that their names differ. -/
theorem C155_columns (l l' f f' b b' : Str) (names values names' values' : List Str) (hl : DefinesStyle l b) (hl' : DefinesStyle l' b') (hf : CommaList f names) (hb : CommaList b values)
    (hf' : CommaList f' names') (hb' : CommaList b' values') (hn : names.length = values.length) (hn' : names'.length = values'.length) (hp : (names.zip values).Perm (names'.zip values'))
    (hd : (names.map trim).Nodup) : SameStyleBy f f' l l' := by
  refine ⟨b, b', hl, hl', fun s => ?_⟩
  rw [← C118_style, ← C118_style, hf.2.1, hb.2.1, hf'.2.1, hb'.2.1]
  exact C101_order names values names' values' hf.2.2 hb.2.2 hf.1 hn hn' hp hd s

/-- The size before the name. -/
private theorem table_example : SameStyleBy b!"Name,Fontsize" b!"Fontsize,Name" b!"Style: Big,40" b!"Style: 40,Big" :=
  C155_columns _ _ _ _ b!"Big,40" b!"40,Big" [b!"Name", b!"Fontsize"] [b!"Big", b!"40"] [b!"Fontsize", b!"Name"] [b!"40", b!"Big"]
    (.field b!"Style" b!" Big,40" (by decide +kernel) (by decide) (by decide) (by decide)) (.field b!"Style" b!" 40,Big" (by decide +kernel) (by decide) (by decide) (by decide))
    ⟨by decide, by decide, by decide⟩ ⟨by decide, by decide, by decide⟩ ⟨by decide, by decide, by decide⟩ ⟨by decide, by decide, by decide⟩ rfl rfl (by decide) (by decide)

example : SameStyleBy b!"Name,Fontsize" b!"Fontsize,Name" b!"Style: Big,40" b!"Style: 40,Big" := table_example

/-- A whole file with the columns of its style in both orders. -/
example : (ssaReadLines ([b!"[V4+ Styles]"] ++ b!"Format: Name,Fontsize" :: [b!"Style: Big,40"] ++ [b!"[Events]", b!"Format: Start,End,Style,Text"])).toOption =
    (ssaReadLines ([b!"[V4+ Styles]"] ++ b!"Format: Fontsize,Name" :: [b!"Style: 40,Big"] ++ [b!"[Events]", b!"Format: Start,End,Style,Text"])).toOption := by
  refine C155_table _ _ _ _ _ _ b!"Name,Fontsize" b!"Fontsize,Name" { sec := .styles } (.entry _ _ _ (.heading b!"[V4+ Styles]") _ (.heading (by decide)) (.here _)) rfl
    (.field b!"Format" b!" Name,Fontsize" (by decide +kernel) (by decide) (by decide) (by decide)) (.field b!"Format" b!" Fontsize,Name" (by decide +kernel) (by decide) (by decide) (by decide))
    (by decide) (by decide) (.cons table_example .nil) ?_
  intro x hx b hb
  simp only [List.mem_cons, List.not_mem_nil, or_false] at hx
  rcases hx with rfl | rfl
  · cases onLine_unique hb (.heading (by decide) : OnLine b!"[Events]" (some (.heading b!"[Events]")))
  · have := onLine_unique hb (.field b!"Format" b!" Start,End,Style,Text" (by decide +kernel) (by decide) (by decide) (by decide) : OnLine b!"Format: Start,End,Style,Text" _)
    injection this with this
    injection this with h1 _
    exact absurd h1 (by decide)

/-- C155: if the format alone is in another order, something else is read. -/
theorem C155_columns_witness :
    (ssaReadLines [b!"[V4+ Styles]", b!"Format: Name,Fontsize,MarginV", b!"Style: Big,40,10", b!"[Events]", b!"Format: Start,End,Style,Text", b!"Dialogue: 0:00:01.00,0:00:02.00,Big,a"]).toOption.map
        (·.map (·.fontSize.prop)) ≠
      (ssaReadLines [b!"[V4+ Styles]", b!"Format: Name,MarginV,Fontsize", b!"Style: Big,40,10", b!"[Events]", b!"Format: Start,End,Style,Text", b!"Dialogue: 0:00:01.00,0:00:02.00,Big,a"]).toOption.map
        (·.map (·.fontSize.prop)) := by
  decide +kernel

end LibSub
