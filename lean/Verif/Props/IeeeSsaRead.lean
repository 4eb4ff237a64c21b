/-
C126: whole SSA files with the limits of `float` and `double`.
-/
import Verif.Props.IeeeSsa

namespace LibSub

/-! ### Lengths -/

theorem length_trim (s : Str) : (trim s).length ≤ s.length := by
  unfold trim trimLeftIf trimRightIf
  have a := (List.dropWhile_sublist (l := (s.reverse.dropWhile isSpace).reverse) isSpace).length_le
  have b := (List.dropWhile_sublist (l := s.reverse) isSpace).length_le
  rw [List.length_reverse] at a b
  omega

theorem length_removeBom (s : Str) : (removeBom s).length ≤ s.length := by
  unfold removeBom
  split
  · simp; omega
  · exact le_refl _

/-- Bytes of the parts, and one more for each. -/
private def weight (l : List Str) : Nat := (l.map fun s => s.length + 1).sum

private theorem weight_split (p : Byte → Bool) (s : Str) : weight (splitAny p s) ≤ s.length + 1 := by
  induction s with
  | nil => simp [splitAny, weight]
  | cons c cs ih =>
    rw [splitAny]
    split
    · simp only [weight, List.map_cons, List.sum_cons, List.length_cons, List.length_nil] at ih ⊢
      omega
    · split
      · simp [weight]
      · rename_i e
        rw [e] at ih
        simp only [weight, List.map_cons, List.sum_cons, List.length_cons] at ih ⊢
        omega

private theorem weight_rejoin (n : Nat) : ∀ (fuel : Nat) (ev : List Str), weight (ssaRejoin n fuel ev) = weight ev
  | 0, ev => rfl
  | fuel + 1, ev => by
    rw [ssaRejoin]
    split
    · split
      · rename_i ex b rest e
        rw [weight_rejoin n fuel]
        have : ev = rest.reverse ++ [b, ex] := by
          have := congrArg List.reverse e
          simpa using this
        subst this
        simp [weight]
        omega
      · rfl
    · rfl

private theorem weight_mem {l : List Str} {s : Str} (h : s ∈ l) : s.length + 1 ≤ weight l := by
  induction l with
  | nil => cases h
  | cons a l ih =>
    simp only [weight, List.map_cons, List.sum_cons] at ih ⊢
    rcases List.mem_cons.1 h with rfl | h
    · omega
    · have := ih h; omega

private theorem length_allLines {n : Nat} {get : Str → Option (Str × Str)} (h : ∀ s l r, get s = some (l, r) → s.length ≤ n → l.length ≤ n ∧ r.length ≤ n) :
    ∀ (fuel : Nat) (s : Str), s.length ≤ n → ∀ l ∈ allLinesGo get fuel s, l.length ≤ n
  | 0, _, _, l, hl => by cases hl
  | fuel + 1, s, hs, l, hl => by
    rw [allLinesGo] at hl
    cases e : get s with
    | none => rw [e] at hl; cases hl
    | some p =>
      obtain ⟨a, r⟩ := p
      rw [e] at hl
      obtain ⟨h1, h2⟩ := h s a r e hs
      rcases List.mem_cons.1 hl with rfl | hl
      · exact h1
      · exact length_allLines h fuel r h2 l hl

theorem length_linesOfString {s l : Str} (h : l ∈ linesOfString s) : l.length ≤ s.length := by
  refine length_allLines (get := getLineString) ?_ _ s (le_refl _) l h
  intro t a r e ht
  unfold getLineString at e
  split at e
  · cases e
  · split at e
    · cases e; exact ⟨ht, by simp⟩
    · cases e
      simp only [List.length_take, List.length_drop]
      omega

private theorem fgets_le : ∀ (n : Nat) (s : Str), (fgetsTake n s).length ≤ n
  | 0, s => by simp [fgetsTake]
  | n + 1, [] => by simp [fgetsTake]
  | n + 1, c :: cs => by
    rw [fgetsTake]
    split
    · simp
    · have := fgets_le n cs
      simp only [List.length_cons]
      omega

theorem length_linesOfFile {s l : Str} (h : l ∈ linesOfFile s) : l.length ≤ 255 := by
  unfold linesOfFile at h
  generalize s.length + 1 = fuel at h
  induction fuel generalizing s with
  | zero => cases h
  | succ fuel ih =>
    rw [allLinesGo] at h
    cases e : getLineFile s with
    | none => rw [e] at h; cases h
    | some p =>
      obtain ⟨a, r⟩ := p
      rw [e] at h
      rcases List.mem_cons.1 h with rfl | h
      · unfold getLineFile at e
        split at e
        · cases e
        · cases e
          exact (List.takeWhile_sublist _).length_le.trans (fgets_le _ _)
      · exact ih h

/-! ### Styles -/

/-- The `int`s of a style. -/
def StyleOk (s : SsaStyle) : Prop := InInt s.fontSize ∧ InInt s.vmargin ∧ InInt s.lmargin ∧ InInt s.rmargin

private theorem ite_two {α : Type} {c : Prop} [Decidable c] {a b x : α} (h : (if c then a else b) = x) : (c ∧ a = x) ∨ (¬ c ∧ b = x) := by
  split at h
  · exact .inl ⟨‹_›, h⟩
  · exact .inr ⟨‹_›, h⟩

private theorem styleField_ok {s : SsaStyle} (hs : StyleOk s) {k v : Str} {x : SsaStyle} (h : s.field k v = .ok x) : StyleOk x := by
  unfold SsaStyle.field at h
  rcases ite_two h with ⟨-, h⟩ | ⟨-, h⟩
  · cases h; exact hs
  rcases ite_two h with ⟨-, h⟩ | ⟨-, h⟩
  · cases h; exact hs
  rcases ite_two h with ⟨-, h⟩ | ⟨-, h⟩
  · obtain ⟨y, hy, h⟩ := bind_eq_ok.1 h; cases h; exact ⟨scanInt_inInt hy, hs.2⟩
  rcases ite_two h with ⟨-, h⟩ | ⟨-, h⟩
  · obtain ⟨y, hy, h⟩ := bind_eq_ok.1 h; cases h; exact hs
  rcases ite_two h with ⟨-, h⟩ | ⟨-, h⟩
  · obtain ⟨y, hy, h⟩ := bind_eq_ok.1 h; cases h; exact hs
  rcases ite_two h with ⟨-, h⟩ | ⟨-, h⟩
  · cases h; exact hs
  rcases ite_two h with ⟨-, h⟩ | ⟨-, h⟩
  · cases h; exact hs
  rcases ite_two h with ⟨-, h⟩ | ⟨-, h⟩
  · cases h; exact hs
  rcases ite_two h with ⟨-, h⟩ | ⟨-, h⟩
  · cases h; split <;> exact hs
  rcases ite_two h with ⟨-, h⟩ | ⟨-, h⟩
  · cases h; exact hs
  rcases ite_two h with ⟨-, h⟩ | ⟨-, h⟩
  · obtain ⟨y, hy, h⟩ := bind_eq_ok.1 h; cases h; exact ⟨hs.1, scanInt_inInt hy, hs.2.2⟩
  rcases ite_two h with ⟨-, h⟩ | ⟨-, h⟩
  · obtain ⟨y, hy, h⟩ := bind_eq_ok.1 h; cases h; exact ⟨hs.1, hs.2.1, scanInt_inInt hy, hs.2.2.2⟩
  rcases ite_two h with ⟨-, h⟩ | ⟨-, h⟩
  · obtain ⟨y, hy, h⟩ := bind_eq_ok.1 h; cases h; exact ⟨hs.1, hs.2.1, hs.2.2.1, scanInt_inInt hy⟩
  cases h; exact hs

private theorem styleField_eq (s : SsaStyle) (k v : Str) : Ieee.styleField s k v = s.field k v := by
  unfold Ieee.styleField
  rw [styleColour_track]
  by_cases h1 : k = b!"PrimaryColour"
  · subst h1; simp [SsaStyle.field]
  rw [if_neg h1]
  by_cases h2 : k = b!"BackColour"
  · subst h2; simp [SsaStyle.field]
  rw [if_neg h2]

private theorem styleFields_track : ∀ (l : List (Str × Str)) {s : SsaStyle}, StyleOk s → Track StyleOk (s.fields l) (Ieee.styleFields s l)
  | [], s, h => .ok h
  | (k, v) :: rest, s, h => by
    rw [SsaStyle.fields, Ieee.styleFields, styleField_eq]
    exact Track.bind (P := StyleOk) (.same fun x hx => styleField_ok h hx) fun s' h' => styleFields_track rest h'

theorem styleMake_track (a b : Str) : Track StyleOk (SsaStyle.make a b) (Ieee.styleMake a b) := by
  unfold SsaStyle.make Ieee.styleMake
  refine Track.bind (P := fun _ => True) (.same fun _ _ => trivial) fun _ _ => ?_
  refine Track.bind (P := fun _ => True) (.same fun _ _ => trivial) fun _ _ => ?_
  refine Track.bind (P := fun _ => True) (.same fun _ _ => trivial) fun _ _ => ?_
  exact styleFields_track _ ⟨by decide, by decide, by decide, by decide⟩

/-! ### Events -/

/-- The numbers of an event. -/
def EvOk (ev : SsaEvent) : Prop := InInt ev.lmargin ∧ InInt ev.rmargin ∧ PosOk ev.sub ∧ FontOk ev.sub

/-- The `int`s of a reader. -/
def ReadOk (r : SsaRead) : Prop := InInt r.resX ∧ InInt r.resY ∧ ∀ p ∈ r.styles, StyleOk p.2

private theorem lookup_mem {l : List (Str × SsaStyle)} {k : Str} {s : SsaStyle} (h : l.lookup k = some s) : ∃ p ∈ l, p.2 = s := by
  induction l with
  | nil => cases h
  | cons a l ih =>
    obtain ⟨k', s'⟩ := a
    rw [List.lookup] at h
    split at h
    · cases h; exact ⟨(k', s), by simp, rfl⟩
    · obtain ⟨p, hp, e⟩ := ih h; exact ⟨p, by simp [hp], e⟩

private theorem find_ok {r : SsaRead} (hr : ReadOk r) {k : Str} {s : SsaStyle} (h : ssaFindStyle r.styles k = some s) : StyleOk s := by
  unfold ssaFindStyle at h
  split at h
  · rename_i e
    cases h
    obtain ⟨p, hp, rfl⟩ := lookup_mem e
    exact hr.2.2 p hp
  · obtain ⟨p, hp, rfl⟩ := lookup_mem h
    exact hr.2.2 p hp

private theorem apply_track {res : Int} (hr : InInt res) {ev : SsaEvent} (he : EvOk ev) {st : SsaStyle} (hs : StyleOk st) :
    Track EvOk (ssaApplyStyle res ev st) (Ieee.ssaApplyStyle res ev st) := by
  unfold ssaApplyStyle Ieee.ssaApplyStyle
  refine (intRatio_track hs.1 hr).bind fun fs hfs => ?_
  have fin : ∀ vp : Option ℚ, (∀ p, vp = some p → GoodP p) → EvOk { ev with style := some st, lmargin := st.lmargin, rmargin := st.rmargin, sub := { ev.sub with font := st.fontName, fontSize := FontSize.fromProportional fs, colour := st.primaryColour, effectColour := st.backColour, bold := st.bold, italic := st.italic, underline := st.underline, effect := st.effect, hpos := { ev.sub.hpos with ref := st.href }, vpos := { ev.sub.vpos with ref := some st.vref, prop := vp } } } :=
    fun vp hv => ⟨hs.2.2.1, hs.2.2.2, hv, fun p hp => by cases hp; exact hfs.mono⟩
  dsimp only
  refine .ite (fun _ => (intRatio_track hs.2.1 hr).bind fun q hq => .ok (fin _ fun p hp => by cases hp; exact hq.mono)) fun _ => .ok (fin _ he.2.2.1)

private theorem eventField_rest {r : SsaRead} {ev : SsaEvent} (he : EvOk ev) {fmt raw : Str} {x : SsaEvent} (n1 : fmt ≠ b!"Style") (n2 : fmt ≠ b!"MarginV")
    (n3 : fmt ≠ b!"Text") (h : ssaEventField r ev fmt raw = .ok x) : EvOk x := by
  unfold ssaEventField at h
  dsimp only at h
  rw [if_neg n1, if_neg n2, if_neg n3] at h
  rcases ite_two h with ⟨-, h⟩ | ⟨-, h⟩
  · obtain ⟨y, hy, h⟩ := bind_eq_ok.1 h; cases h; exact he
  rcases ite_two h with ⟨-, h⟩ | ⟨-, h⟩
  · obtain ⟨y, hy, h⟩ := bind_eq_ok.1 h; cases h; exact he
  rcases ite_two h with ⟨-, h⟩ | ⟨-, h⟩
  · rcases ite_two h with ⟨-, h⟩ | ⟨-, h⟩
    · obtain ⟨y, hy, h⟩ := bind_eq_ok.1 h; cases h; exact ⟨scanInt_inInt hy, he.2⟩
    · cases h; exact he
  rcases ite_two h with ⟨-, h⟩ | ⟨-, h⟩
  · rcases ite_two h with ⟨-, h⟩ | ⟨-, h⟩
    · obtain ⟨y, hy, h⟩ := bind_eq_ok.1 h; cases h; exact ⟨he.1, scanInt_inInt hy, he.2.2⟩
    · cases h; exact he
  cases h; exact he

private theorem eventField_track {r : SsaRead} (hr : ReadOk r) {ev : SsaEvent} (he : EvOk ev) (fmt : Str) {raw : Str} (hn : raw.length < 2 ^ 31) :
    Track EvOk (ssaEventField r ev fmt raw) (Ieee.ssaEventField r ev fmt raw) := by
  unfold Ieee.ssaEventField
  dsimp only
  by_cases n1 : fmt = b!"Style"
  · subst n1
    rw [if_pos rfl]
    have : ssaEventField r ev b!"Style" raw = match ssaFindStyle r.styles (trimLeftIf (· == 42) (trim raw)) with | none => .ok ev | some st => ssaApplyStyle r.resY ev st := by
      simp [ssaEventField]
      rfl
    rw [this]
    cases e : ssaFindStyle r.styles (trimLeftIf (· == 42) (trim raw)) with
    | none => exact .ok he
    | some st => exact apply_track hr.2.1 he (find_ok hr e)
  rw [if_neg n1]
  by_cases n2 : fmt = b!"MarginV"
  · subst n2
    rw [if_pos rfl]
    have : ssaEventField r ev b!"MarginV" raw = if trim raw ≠ b!"0" ∧ ev.sub.vpos.ref ≠ some .centreOfScreen then (do
        let q ← (do let f ← rawConvertFloat (trim raw); let q ← fdiv f (f32 r.resY); pure (f32 q))
        pure { ev with sub := { ev.sub with vpos := { ev.sub.vpos with prop := some q } } }) else .ok ev := by
      simp [ssaEventField]
    rw [this]
    exact .ite (fun _ => (textRatio_track _ hr.2.1).bind fun q hq => .ok ⟨he.1, he.2.1, fun p hp => by cases hp; exact hq.mono, he.2.2.2⟩) fun _ => .ok he
  rw [if_neg n2]
  by_cases n3 : fmt = b!"Text"
  · subst n3
    rw [if_pos rfl]
    have : ssaEventField r ev b!"Text" raw = (do
        let subs ← ssaParseLine { resX := r.resX, resY := r.resY, primaryColour := match ev.style with | some s => s.primaryColour | none => ⟨1, 1, 1⟩, lmargin := ev.lmargin, rmargin := ev.rmargin } ev.sub (trim raw)
        pure { ev with subs := ev.subs ++ subs }) := by
      simp [ssaEventField]
      rfl
    rw [this]
    exact (line_track ⟨hr.1, hr.2.1, he.1, he.2.1⟩ he.2.2.2 he.2.2.1 (lt_of_le_of_lt (length_trim raw) hn)).bind fun subs _ => .ok he
  rw [if_neg n3]
  exact .same fun x hx => eventField_rest he n1 n2 n3 hx

private theorem eventFields_track {r : SsaRead} (hr : ReadOk r) : ∀ (l : List (Str × Str)), (∀ p ∈ l, p.2.length < 2 ^ 31) → ∀ {ev : SsaEvent}, EvOk ev →
    Track EvOk (ssaEventFields r ev l) (Ieee.ssaEventFields r ev l)
  | [], _, ev, he => .ok he
  | (k, v) :: rest, hl, ev, he =>
    (eventField_track hr he k (hl (k, v) (by simp))).bind fun ev' h' => eventFields_track hr rest (fun p hp => hl p (by simp [hp])) h'

private theorem dialogue_track {r : SsaRead} (hr : ReadOk r) {body : Str} (hn : body.length < 2 ^ 31) : Track ReadOk (ssaDialogue r body) (Ieee.ssaDialogue r body) := by
  unfold ssaDialogue Ieee.ssaDialogue
  refine Track.bind (P := fun _ => True) (.same fun _ _ => trivial) fun _ _ => ?_
  refine Track.bind (P := fun _ => True) (.same fun _ _ => trivial) fun _ _ => ?_
  refine Track.bind (P := fun _ => True) (.same fun _ _ => trivial) fun _ _ => ?_
  refine (eventFields_track hr _ ?_ (ev := {}) ⟨by decide, by decide, fun p hp => (by cases hp), fun p hp => (by cases hp)⟩).bind fun ev _ => .ok hr
  intro p hp
  have := weight_mem (List.of_mem_zip (show (p.1, p.2) ∈ _ from hp)).2
  rw [weight_rejoin] at this
  have := weight_split isComma body
  omega

/-! ### Files -/

private theorem ssaLine_track {r : SsaRead} (hr : ReadOk r) {raw : Str} (hn : raw.length < 2 ^ 31) : Track ReadOk (ssaLine r raw) (Ieee.ssaLine r raw) := by
  unfold ssaLine Ieee.ssaLine
  have hlen : (removeBom (trim raw)).length < 2 ^ 31 := lt_of_le_of_lt ((length_removeBom _).trans (length_trim _)) hn
  generalize removeBom (trim raw) = line at hlen
  dsimp only
  refine .ite (fun _ => .ok hr) fun _ => .ite (fun _ => .ite (fun _ => .ok hr) fun _ => .ite (fun _ => .ok hr) fun _ => .ite (fun _ => .ok hr) fun _ => .ok hr) fun _ => ?_
  cases line.findIdx? (· == 58) with
  | none => exact .error _
  | some colon =>
    dsimp only
    have hb : (trim (line.drop (colon + 1))).length < 2 ^ 31 := by
      refine lt_of_le_of_lt (length_trim _) ?_
      rw [List.length_drop]
      omega
    generalize trim (line.drop (colon + 1)) = body at hb
    cases r.part with
    | info =>
      refine .ite (fun _ => (int_track body).bind fun x hx => .ok ⟨hx, hr.2⟩) fun _ =>
        .ite (fun _ => (int_track body).bind fun x hx => .ok ⟨hr.1, hx, hr.2.2⟩) fun _ => .ok hr
    | styles =>
      refine .ite (fun _ => .ok hr) fun _ => .ite (fun _ => ?_) fun _ => .ok hr
      refine Track.bind (P := fun _ => True) (.same fun _ _ => trivial) fun _ _ => ?_
      refine (styleMake_track _ _).bind fun s hs => .ok ⟨hr.1, hr.2.1, fun p hp => ?_⟩
      rcases List.mem_cons.1 hp with rfl | hp
      · exact hs
      · exact hr.2.2 p hp
    | events => exact .ite (fun _ => .ok hr) fun _ => .ite (fun _ => dialogue_track hr hb) fun _ => .ok hr

theorem ssaLines_track : ∀ (ls : List Str), (∀ l ∈ ls, l.length < 2 ^ 31) → ∀ {r : SsaRead}, ReadOk r → Track ReadOk (ssaLines r ls) (Ieee.ssaLines r ls)
  | [], _, r, hr => .ok hr
  | l :: ls, h, r, hr => (ssaLine_track hr (h l (by simp))).bind fun r' h' => ssaLines_track ls (fun p hp => h p (by simp [hp])) h'

theorem ssaRead_start : ReadOk {} := ⟨by decide, by decide, fun p hp => by cases hp⟩

end LibSub
