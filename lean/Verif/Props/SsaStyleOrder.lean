/-
Property C155: the order of the styles of an SSA file does not matter.
-/
import Verif.Props.AlikeMore

namespace LibSub

/-! ### Specification -/

/-- Where one is in an SSA file after some lines. -/
inductive PlaceReached : SsaPlace → List Str → SsaPlace → Prop
  | here (p : SsaPlace) : PlaceReached p [] p
  | nothing (p q : SsaPlace) (l : Str) (ls : List Str) : OnLine l none → PlaceReached p ls q → PlaceReached p (l :: ls) q
  | entry (p q : SsaPlace) (l : Str) (e : SsaEntry) (ls : List Str) : OnLine l (some e) → PlaceReached (p.after e) ls q → PlaceReached p (l :: ls) q

/-- A line that defines a style, by `b`. -/
def DefinesStyle (l b : Str) : Prop := OnLine l (some (.field b!"Style" b))

/-- Two lines do not define styles of the same name, if their columns are those of `format`. -/
def OtherStyles (format l l' : Str) : Prop := ∀ b b' s s', DefinesStyle l b → DefinesStyle l' b' → StyleMeans format b s → StyleMeans format b' s' → s.name ≠ s'.name

/-! ### Styles in another order -/

/-- Both fail, or the states differ at most in the order of styles. -/
private inductive Agree : R SsaRead → R SsaRead → Prop
  | error (e e' : Err) : Agree (.error e) (.error e')
  | ok (r : SsaRead) (st : List (Str × SsaStyle)) : (∀ n, r.styles.lookup n = st.lookup n) → Agree (.ok r) (.ok { r with styles := st })

private theorem Agree.trans {x y z : R SsaRead} (h : Agree x y) (h' : Agree y z) : Agree x z := by
  cases h with
  | error e e' => cases h' with
    | error _ e'' => exact .error e e''
  | ok r st hl => cases h' with
    | ok _ st' hl' => exact .ok r st' fun n => (hl n).trans (hl' n)

private theorem Agree.refl (x : R SsaRead) : Agree x x := by
  cases x with
  | error e => exact .error e e
  | ok r => exact .ok r r.styles fun _ => rfl

private theorem fields_agree (r : SsaRead) (st : List (Str × SsaStyle)) (h : ∀ n, r.styles.lookup n = st.lookup n) : ∀ (l : List (Str × Str)) (ev : SsaEvent),
    ssaEventFields { r with styles := st } ev l = ssaEventFields r ev l := by
  have hf : ssaFindStyle st = ssaFindStyle r.styles := by
    funext n
    unfold ssaFindStyle
    rw [h, h]
  have h1 : ∀ ev k v, ssaEventField { r with styles := st } ev k v = ssaEventField r ev k v := by
    intro ev k v
    unfold ssaEventField
    simp only [hf]
  intro l
  induction l with
  | nil => intro ev; rfl
  | cons kv l ih =>
    intro ev
    obtain ⟨k, v⟩ := kv
    rw [ssaEventFields, ssaEventFields, h1]
    cases ssaEventField r ev k v with
    | error e => rfl
    | ok ev' => exact ih ev'

private theorem agree_map {α : Type} (x : R α) (f g : α → SsaRead) (h : ∀ a, Agree (.ok (f a)) (.ok (g a))) : Agree (x >>= fun a => pure (f a)) (x >>= fun a => pure (g a)) := by
  cases x with
  | error e => exact .error e e
  | ok a => exact h a

private theorem dialogue_agree (r : SsaRead) (st : List (Str × SsaStyle)) (h : ∀ n, r.styles.lookup n = st.lookup n) (b : Str) : Agree (ssaDialogue r b) (ssaDialogue { r with styles := st } b) := by
  unfold ssaDialogue
  simp only [fields_agree r st h]
  cases subAssert (!r.eventFormat.isEmpty) with
  | error e => exact .error e e
  | ok _ =>
    simp only [ok_bind]
    cases subAssert (!(ssaRejoin r.eventFormat.length (splitAny isComma b).length (splitAny isComma b)).isEmpty) with
    | error e => exact .error e e
    | ok _ =>
      simp only [ok_bind]
      cases subAssert (r.eventFormat.length == (ssaRejoin r.eventFormat.length (splitAny isComma b).length (splitAny isComma b)).length) with
      | error e => exact .error e e
      | ok _ =>
        simp only [ok_bind]
        exact agree_map _ _ _ fun ev => .ok { r with subs := r.subs ++ ev.subs } st h

private theorem line_agree (r : SsaRead) (st : List (Str × SsaStyle)) (h : ∀ n, r.styles.lookup n = st.lookup n) (l : Str) : Agree (ssaLine r l) (ssaLine { r with styles := st } l) := by
  obtain ⟨part, rx, ry, sts, sf, ef, sb⟩ := r
  unfold ssaLine
  simp only
  split
  · exact .ok _ st h
  split
  · split
    · exact .ok _ st h
    split
    · exact .ok _ st h
    split
    · exact .ok _ st h
    · exact .ok _ st h
  split
  · exact .error _ _
  · cases part with
    | info =>
      simp only
      split
      · exact agree_map _ _ _ fun x => .ok _ st h
      split
      · exact agree_map _ _ _ fun x => .ok _ st h
      · exact .ok _ st h
    | styles =>
      simp only
      split
      · exact .ok _ st h
      split
      · cases subAssert (!sf.isEmpty) with
        | error e => exact .error e e
        | ok _ =>
          simp only [ok_bind]
          refine agree_map _ _ _ fun s => .ok _ _ fun n => ?_
          simp only [List.lookup_cons]
          rw [h n]
      · exact .ok _ st h
    | events =>
      simp only
      split
      · exact .ok _ st h
      split
      · exact dialogue_agree _ st h _
      · exact .ok _ st h

private theorem lines_agree (ls : List Str) : ∀ {x y : R SsaRead}, Agree x y → Agree (x >>= fun r => ssaLines r ls) (y >>= fun r => ssaLines r ls) := by
  induction ls with
  | nil =>
    intro x y h
    cases h with
    | error e e' => exact .error e e'
    | ok r st h => exact .ok r st h
  | cons l ls ih =>
    intro x y h
    cases h with
    | error e e' => exact .error e e'
    | ok r st h =>
      simp only [ok_bind, ssaLines]
      exact ih (line_agree r st h l)

/-- A line with a style, by the format. -/
private def styleBy (format b : Str) : R SsaStyle := do
  subAssert (!format.isEmpty)
  SsaStyle.make format b

private theorem style_line {l b : Str} (h : DefinesStyle l b) (r : SsaRead) : ssaLine r l =
    if r.part = .styles then styleBy r.styleFormat b >>= fun s => pure { r with styles := (s.name, s) :: r.styles } else .ok r := by
  rw [line_entry h r]
  cases r.part with
  | info => rfl
  | events => rfl
  | styles =>
    simp only [if_true]
    unfold styleBy
    cases subAssert (!r.styleFormat.isEmpty) <;> rfl

private theorem swap_agree {l l' : Str} (r : SsaRead) {b b' : Str} (h : DefinesStyle l b) (h' : DefinesStyle l' b') (hn : OtherStyles r.styleFormat l l') :
    Agree (ssaLine r l >>= fun r => ssaLine r l') (ssaLine r l' >>= fun r => ssaLine r l) := by
  by_cases hp : r.part = .styles
  swap
  · have e1 : ssaLine r l = .ok r := by rw [style_line h, if_neg hp]
    have e2 : ssaLine r l' = .ok r := by rw [style_line h', if_neg hp]
    simp only [e1, e2, ok_bind]
    exact .refl _
  rw [style_line h, if_pos hp, style_line h', if_pos hp]
  cases e1 : styleBy r.styleFormat b with
  | error e =>
    cases e2 : styleBy r.styleFormat b' with
    | error e' => exact .error e e'
    | ok s' =>
      refine (?_ : Agree (.error e) (ssaLine { r with styles := (s'.name, s') :: r.styles } l))
      rw [style_line h, if_pos hp, e1]
      exact .error e e
  | ok s =>
    refine (?_ : Agree (ssaLine { r with styles := (s.name, s) :: r.styles } l') _)
    rw [style_line h', if_pos hp]
    simp only
    cases e2 : styleBy r.styleFormat b' with
    | error e => exact .error e e
    | ok s' =>
      refine (?_ : Agree _ (ssaLine { r with styles := (s'.name, s') :: r.styles } l))
      rw [style_line h, if_pos hp]
      simp only
      rw [e1]
      refine .ok { r with styles := (s'.name, s') :: (s.name, s) :: r.styles } ((s.name, s) :: (s'.name, s') :: r.styles) fun n => ?_
      have hne : s.name ≠ s'.name := by
        unfold styleBy at e1 e2
        obtain ⟨_, _, e1⟩ := bind_eq_ok.1 e1
        obtain ⟨_, _, e2⟩ := bind_eq_ok.1 e2
        exact hn b b' s s' h h' ((C118_style _ _ _).1 e1) ((C118_style _ _ _).1 e2)
      simp only [List.lookup_cons]
      by_cases h1 : n = s.name
      · have h2 : (n == s'.name) = false := by rw [h1]; simpa using hne
        rw [h2]
      · have h2 : (n == s.name) = false := by simpa using h1
        rw [h2]

private theorem style_format {l b : Str} (h : DefinesStyle l b) {r r' : SsaRead} (hr : ssaLine r l = .ok r') : r'.styleFormat = r.styleFormat := by
  rw [style_line h] at hr
  split at hr
  · obtain ⟨s, _, hr⟩ := bind_eq_ok.1 hr
    cases hr
    rfl
  · cases hr
    rfl

private theorem perm_agree {ss ss' : List Str} (h : ss.Perm ss') : ∀ r : SsaRead, (∀ l ∈ ss, ∃ b, DefinesStyle l b) → ss.Pairwise (OtherStyles r.styleFormat) → Agree (ssaLines r ss) (ssaLines r ss') := by
  induction h with
  | nil => intro r _ _; exact .refl _
  | @cons l ss ss' _ ih =>
    intro r hs hn
    simp only [ssaLines]
    cases hr : ssaLine r l with
    | error e => exact .error e e
    | ok r' =>
      obtain ⟨b, hb⟩ := hs l (by simp)
      refine ih r' (fun l hl => hs l (by simp [hl])) ?_
      rw [style_format hb hr]
      exact (List.pairwise_cons.1 hn).2
  | swap l l' ss =>
    intro r hs hn
    obtain ⟨b, hb⟩ := hs l (by simp)
    obtain ⟨b', hb'⟩ := hs l' (by simp)
    have := lines_agree ss (swap_agree r hb' hb ((List.pairwise_cons.1 hn).1 l (by simp)))
    simp only [ssaLines]
    rw [bind_assoc, bind_assoc] at this
    exact this
  | trans h1 _ ih1 ih2 =>
    intro r hs hn
    refine (ih1 r hs hn).trans (ih2 r (fun l hl => hs l (h1.mem_iff.2 hl)) ?_)
    exact h1.pairwise hn fun hab b b' s s' k k' m m' e => hab b' b s' s k' k m' m e.symm

private theorem ssa_append (ls ls' : List Str) : ∀ r, ssaLines r (ls ++ ls') = ssaLines r ls >>= fun r => ssaLines r ls' := by
  induction ls with
  | nil => intro r; rfl
  | cons l ls ih =>
    intro r
    rw [List.cons_append, ssaLines, ssaLines]
    cases ssaLine r l with
    | error e => rfl
    | ok r' => exact ih r'

private theorem place_lines {p q : SsaPlace} {ls : List Str} (h : PlaceReached p ls q) : ∀ r r', r.part = p.sec ∧ r.styleFormat = p.format ∧ r.eventFormat = p.names → ssaLines r ls = .ok r' →
    r'.part = q.sec ∧ r'.styleFormat = q.format ∧ r'.eventFormat = q.names := by
  induction h with
  | here p => intro r r' hr h; cases h; exact hr
  | nothing p q l ls hl _ ih =>
    intro r r' hr h
    rw [ssaLines, line_entry hl r] at h
    exact ih r r' hr h
  | entry p q l e ls hl _ ih =>
    intro r r' hr h
    rw [ssaLines] at h
    obtain ⟨m, hm, h⟩ := bind_eq_ok.1 h
    exact ih m r' (place_after hr hl hm) h

/-! ### C155 -/

/-- C155: styles of different names, one after the other, may be in any order: the same is read, or there is an error in both cases. -/
theorem C155_styles (pre ss ss' post : List Str) (p : SsaPlace) (hp : PlaceReached {} pre p) (hs : ∀ l ∈ ss, ∃ b, DefinesStyle l b) (hn : ss.Pairwise (OtherStyles p.format)) (h : ss.Perm ss') :
    (ssaReadLines (pre ++ ss ++ post)).toOption = (ssaReadLines (pre ++ ss' ++ post)).toOption := by
  have key : Agree (ssaLines {} (pre ++ ss ++ post)) (ssaLines {} (pre ++ ss' ++ post)) := by
    rw [ssa_append, ssa_append, ssa_append, ssa_append]
    refine lines_agree post ?_
    cases hr : ssaLines {} pre with
    | error e => exact .error e e
    | ok r =>
      obtain ⟨-, hf, -⟩ := place_lines hp {} r ⟨rfl, rfl, rfl⟩ hr
      exact perm_agree h r hs (by rw [hf]; exact hn)
  unfold ssaReadLines
  generalize ssaLines {} (pre ++ ss ++ post) = x at key
  generalize ssaLines {} (pre ++ ss' ++ post) = y at key
  cases key <;> rfl

/-- C155: of two styles of the same name, one after the other, the last one counts. -/
theorem C155_last (pre post : List Str) (l l' b b' : Str) (s : SsaStyle) (p : SsaPlace) (hp : PlaceReached {} pre p) (h : DefinesStyle l b) (h' : DefinesStyle l' b') (hs : StyleMeans p.format b s)
    (hn : ∀ s', StyleMeans p.format b' s' → s'.name = s.name) : (ssaReadLines (pre ++ l :: l' :: post)).toOption = (ssaReadLines (pre ++ l' :: post)).toOption := by
  have key : Agree (ssaLines {} (pre ++ l :: l' :: post)) (ssaLines {} (pre ++ l' :: post)) := by
    rw [ssa_append, ssa_append]
    cases hr : ssaLines {} pre with
    | error e => exact .error e e
    | ok r =>
      obtain ⟨-, hf, -⟩ := place_lines hp {} r ⟨rfl, rfl, rfl⟩ hr
      rw [← hf] at hs hn
      have : Agree (ssaLine r l >>= fun r => ssaLine r l') (ssaLine r l') := by
        by_cases hp : r.part = .styles
        swap
        · have e1 : ssaLine r l = .ok r := by rw [style_line h, if_neg hp]
          simp only [e1, ok_bind]
          exact .refl _
        rw [style_line h, if_pos hp, style_line h', if_pos hp]
        unfold styleBy
        cases ha : subAssert (!r.styleFormat.isEmpty) with
        | error e => exact .error e e
        | ok _ =>
          rw [ok_bind, (C118_style _ _ _).2 hs]
          refine (?_ : Agree (ssaLine { r with styles := (s.name, s) :: r.styles } l') _)
          rw [style_line h', if_pos hp]
          simp only
          unfold styleBy
          rw [ha, ok_bind]
          cases e2 : SsaStyle.make r.styleFormat b' with
          | error e => exact .error e e
          | ok s' =>
            have e3 := hn s' ((C118_style _ _ _).1 e2)
            refine .ok { r with styles := (s'.name, s') :: (s.name, s) :: r.styles } ((s'.name, s') :: r.styles) fun n => ?_
            simp only [List.lookup_cons, e3]
            cases n == s.name <;> rfl
      have := lines_agree post this
      rw [bind_assoc] at this
      exact this
  unfold ssaReadLines
  generalize ssaLines {} (pre ++ l :: l' :: post) = x at key
  generalize ssaLines {} (pre ++ l' :: post) = y at key
  cases key <;> rfl

private theorem side_line {l t b : Str} (h : OnLine l (some (.field t b))) (ht : t = b!"PlayResX" ∨ t = b!"PlayResY") (r : SsaRead) : ssaLine r l =
    if r.part = .info then rawConvertInt b >>= fun n => pure (if t = b!"PlayResX" then { r with resX := n } else { r with resY := n }) else .ok r := by
  rw [line_entry h r]
  rcases ht with rfl | rfl <;> cases r.part <;> rfl

private theorem sides_agree {l l' b b' : Str} (h : OnLine l (some (.field b!"PlayResX" b))) (h' : OnLine l' (some (.field b!"PlayResY" b'))) (r : SsaRead) :
    Agree (ssaLine r l >>= fun r => ssaLine r l') (ssaLine r l' >>= fun r => ssaLine r l) := by
  by_cases hp : r.part = .info
  swap
  · have e1 : ssaLine r l = .ok r := by rw [side_line h (.inl rfl), if_neg hp]
    have e2 : ssaLine r l' = .ok r := by rw [side_line h' (.inr rfl), if_neg hp]
    simp only [e1, e2, ok_bind]
    exact .refl _
  rw [side_line h (.inl rfl), if_pos hp, side_line h' (.inr rfl), if_pos hp]
  cases e1 : rawConvertInt b with
  | error e =>
    cases e2 : rawConvertInt b' with
    | error e' => exact .error e e'
    | ok n' =>
      refine (?_ : Agree (.error e) (ssaLine { r with resY := n' } l))
      rw [side_line h (.inl rfl), if_pos hp, e1]
      exact .error e e
  | ok n =>
    refine (?_ : Agree (ssaLine { r with resX := n } l') _)
    rw [side_line h' (.inr rfl), if_pos hp]
    cases e2 : rawConvertInt b' with
    | error e => exact .error e e
    | ok n' =>
      refine (?_ : Agree _ (ssaLine { r with resY := n' } l))
      rw [side_line h (.inl rfl), if_pos hp, e1]
      exact .refl (.ok { r with resX := n, resY := n' })

/-- C155: the width and the height of the screen may be given in either order. -/
theorem C155_sides (pre post : List Str) (l l' b b' : Str) (h : OnLine l (some (.field b!"PlayResX" b))) (h' : OnLine l' (some (.field b!"PlayResY" b'))) :
    (ssaReadLines (pre ++ l :: l' :: post)).toOption = (ssaReadLines (pre ++ l' :: l :: post)).toOption := by
  have key : Agree (ssaLines {} (pre ++ l :: l' :: post)) (ssaLines {} (pre ++ l' :: l :: post)) := by
    rw [ssa_append, ssa_append]
    cases ssaLines {} pre with
    | error e => exact .error e e
    | ok r =>
      have := lines_agree post (sides_agree h h' r)
      rw [bind_assoc, bind_assoc] at this
      exact this
  unfold ssaReadLines
  generalize ssaLines {} (pre ++ l :: l' :: post) = x at key
  generalize ssaLines {} (pre ++ l' :: l :: post) = y at key
  cases key <;> rfl

example : OnLine b!"PlayResX: 640" (some (.field b!"PlayResX" b!"640")) ∧ OnLine b!"PlayResY:480" (some (.field b!"PlayResY" b!"480")) :=
  ⟨.field b!"PlayResX" b!" 640" (by decide +kernel) (by decide) (by decide) (by decide), .field b!"PlayResY" b!"480" (by decide +kernel) (by decide) (by decide) (by decide)⟩

/-- Lines up to the styles. -/
private def orderTop : List Str := [b!"[V4+ Styles]", b!"Format: Name, Fontsize"]

private def orderEnd : List Str := [b!"[Events]", b!"Format: Start, End, Style, Text", b!"Dialogue: 0:00:01.00,0:00:02.00,Big,a"]

/-- Two styles of different names, and what is read with either order of them. -/
example : PlaceReached {} orderTop { sec := .styles, format := b!"Name, Fontsize" } ∧ (∀ l ∈ [b!"Style: Big,40", b!"Style: Small,10"], ∃ b, DefinesStyle l b) ∧
    [b!"Style: Big,40", b!"Style: Small,10"].Pairwise (OtherStyles b!"Name, Fontsize") ∧
    (ssaReadLines (orderTop ++ [b!"Style: Small,10", b!"Style: Big,40"] ++ orderEnd)).toOption.map (·.map (·.text)) = some [b!"a"] := by
  have d1 : DefinesStyle b!"Style: Big,40" b!"Big,40" := .field b!"Style" b!" Big,40" (by decide +kernel) (by decide) (by decide) (by decide)
  have d2 : DefinesStyle b!"Style: Small,10" b!"Small,10" := .field b!"Style" b!" Small,10" (by decide +kernel) (by decide) (by decide) (by decide)
  refine ⟨.entry _ _ _ (.heading b!"[V4+ Styles]") _ (.heading (by decide)) (.entry _ _ _ (.field b!"Format" b!"Name, Fontsize") _
    (.field b!"Format" b!" Name, Fontsize" (by decide +kernel) (by decide) (by decide) (by decide)) (.here _)), ?_, ?_, by decide +kernel⟩
  · intro l hl
    simp only [List.mem_cons, List.not_mem_nil, or_false] at hl
    rcases hl with rfl | rfl
    · exact ⟨_, d1⟩
    · exact ⟨_, d2⟩
  · refine List.pairwise_pair.2 ?_
    intro b b' s s' h h' m m'
    cases onLine_unique h d1
    cases onLine_unique h' d2
    have e1 : SsaStyle.make b!"Name, Fontsize" b!"Big,40" = .ok { name := b!"Big", fontSize := 40 } := by rfl
    have e2 : SsaStyle.make b!"Name, Fontsize" b!"Small,10" = .ok { name := b!"Small", fontSize := 10 } := by rfl
    cases e1.symm.trans ((C118_style _ _ _).2 m)
    cases e2.symm.trans ((C118_style _ _ _).2 m')
    decide

/-- A size of 40 and then one of 10 for the same name. -/
example : DefinesStyle b!"Style: Big,40" b!"Big,40" ∧ DefinesStyle b!"Style: Big,10" b!"Big,10" ∧ StyleMeans b!"Name, Fontsize" b!"Big,40" { name := b!"Big", fontSize := 40 } ∧
    ∀ s', StyleMeans b!"Name, Fontsize" b!"Big,10" s' → s'.name = b!"Big" := by
  refine ⟨.field b!"Style" b!" Big,40" (by decide +kernel) (by decide) (by decide) (by decide), .field b!"Style" b!" Big,10" (by decide +kernel) (by decide) (by decide) (by decide),
    (C118_style _ _ _).1 (by rfl), fun s' m => ?_⟩
  have e2 : SsaStyle.make b!"Name, Fontsize" b!"Big,10" = .ok { name := b!"Big", fontSize := 10 } := by rfl
  cases e2.symm.trans ((C118_style _ _ _).2 m)
  rfl

/-- C155: so the order of styles of the same name matters. -/
theorem C155_same_name_witness :
    (ssaReadLines (orderTop ++ [b!"Style: Big,40", b!"Style: Big,10"] ++ orderEnd)).toOption.map (·.map (·.fontSize.prop)) ≠
      (ssaReadLines (orderTop ++ [b!"Style: Big,10", b!"Style: Big,40"] ++ orderEnd)).toOption.map (·.map (·.fontSize.prop)) := by
  decide +kernel

end LibSub
