/-
Property C87: the lines of an SSA file act independently.
-/
import Verif.Props.SsaEvent

namespace LibSub

/-! ### Specification -/

/-- What is read from the lines of an SSA file. -/
def ssaReadLines (lines : List Str) : R (List Raw) := (ssaLines {} lines).map (·.subs)

/-- A line of a file without indentation and byte order mark. -/
def ssaClean (line : Str) : Str := removeBom (trim line)

/-- A line that describes a dialogue. -/
def IsDialogue (line : Str) : Prop := b!"Dialogue:" <+: ssaClean line

instance (line : Str) : Decidable (IsDialogue line) := inferInstanceAs (Decidable (_ <+: _))

/-- A line that should be ignored wherever it is: empty, a comment, or of a type that has no meaning. -/
inductive Ignorable (line : Str) : Prop
  | blank : ssaClean line = [] → Ignorable line
  | comment : b!";" <+: ssaClean line → Ignorable line
  | type (t v : Str) : ssaClean line = t ++ 58 :: v → 58 ∉ t → t.head? ≠ some 91 → t ∉ [b!"PlayResX", b!"PlayResY", b!"Format", b!"Style", b!"Dialogue"] → Ignorable line

/-! ### Proofs -/

/-- What comes before what is read. -/
private def SsaRead.after (xs : List Raw) (r : SsaRead) : SsaRead := { r with subs := xs ++ r.subs }

private theorem fields_after (r : SsaRead) (xs : List Raw) (ev : SsaEvent) (l : List (Str × Str)) : ssaEventFields (r.after xs) ev l = ssaEventFields r ev l := by
  induction l generalizing ev with
  | nil => rfl
  | cons kv l ih =>
    rw [ssaEventFields, ssaEventFields]
    show (ssaEventField r ev kv.1 kv.2 >>= fun ev' => ssaEventFields (r.after xs) ev' l) = _
    congr 1
    funext ev'
    exact ih ev'

private theorem map_bind' {α β γ : Type} (x : R α) (f : α → R β) (g : β → γ) : (x >>= f).map g = x >>= fun a => (f a).map g := by
  cases x <;> rfl

private theorem map_map' {α β γ : Type} (x : R α) (f : α → β) (g : β → γ) : (x.map f).map g = x.map (g ∘ f) := by
  cases x <;> rfl

private theorem line_after (r : SsaRead) (xs : List Raw) (l : Str) : ssaLine (r.after xs) l = (ssaLine r l).map (SsaRead.after xs) := by
  unfold ssaLine
  simp only
  split
  · rfl
  split
  · repeat' split
    all_goals rfl
  split
  · rfl
  simp only [SsaRead.after]
  split
  · split
    · simp only [map_bind']; rfl
    split
    · simp only [map_bind']; rfl
    · rfl
  · split
    · rfl
    split
    · simp only [map_bind']; rfl
    · rfl
  · split
    · rfl
    split
    · unfold ssaDialogue
      simp only [map_bind']
      have := fields_after r xs
      simp only [SsaRead.after] at this
      simp only [this]
      congr 1; funext _; congr 1; funext _; congr 1; funext _; congr 1; funext ev
      show Except.ok _ = Except.ok _
      simp [SsaRead.after]
    · rfl

private theorem lines_after (r : SsaRead) (xs : List Raw) (ls : List Str) : ssaLines (r.after xs) ls = (ssaLines r ls).map (SsaRead.after xs) := by
  induction ls generalizing r with
  | nil => rfl
  | cons l ls ih =>
    rw [ssaLines, ssaLines, line_after, map_bind']
    cases ssaLine r l with
    | error e => rfl
    | ok r' => exact ih r'

theorem ssaLines_append (r : SsaRead) (a b : List Str) : ssaLines r (a ++ b) = ssaLines r a >>= fun r' => ssaLines r' b := by
  induction a generalizing r with
  | nil => rfl
  | cons l a ih =>
    rw [List.cons_append, ssaLines, ssaLines]
    cases ssaLine r l with
    | error e => rfl
    | ok r' => exact ih r'

/-- A dialogue line changes nothing but what has been read. -/
private theorem dialogue_line (r r' : SsaRead) (d : Str) (hd : IsDialogue d) (h : ssaLine r d = .ok r') : ∃ p, r' = { r with subs := r.subs ++ p } := by
  obtain ⟨v, hv⟩ := hd
  have hv : removeBom (trim d) = b!"Dialogue:" ++ v := hv.symm
  have same : ∃ p, r = { r with subs := r.subs ++ p } := ⟨[], by simp⟩
  unfold ssaLine at h
  simp only [hv] at h
  rw [if_neg (by rintro (h | h); (· simp [startsWith, List.isPrefixOf] at h); cases h), if_neg (by simp [startsWith, List.isPrefixOf])] at h
  have h3 : (b!"Dialogue:" ++ v).findIdx? (· == 58) = some 8 := by simp [List.findIdx?_cons]
  rw [h3] at h
  have h4 : (b!"Dialogue:" ++ v).take 8 = b!"Dialogue" := rfl
  simp only [h4] at h
  split at h
  · rw [if_neg (by decide), if_neg (by decide)] at h
    cases h; exact same
  · rw [if_neg (by decide), if_neg (by decide)] at h
    cases h; exact same
  · rw [if_neg (by decide), if_pos trivial] at h
    unfold ssaDialogue at h
    simp only [bind_eq_ok] at h
    obtain ⟨_, _, _, _, _, _, ev, _, h⟩ := h
    cases h
    exact ⟨_, rfl⟩

private theorem after_eq (r : SsaRead) (xs : List Raw) : { r with subs := r.subs ++ xs } = SsaRead.after (r.subs ++ xs) { r with subs := [] } := by
  simp [SsaRead.after]

/-- C87: what is read from a file that ends with some dialogue lines is what is read from the part before them, followed by what each of the lines adds, in order; and what a line adds does not depend on the
other dialogue lines. -/
theorem C87_dialogues (hs ds : List Str) (hd : ∀ d ∈ ds, IsDialogue d) (subs : List Raw) :
    ssaReadLines (hs ++ ds) = .ok subs ↔
      ∃ (old : List Raw) (added : List (List Raw)), ssaReadLines hs = .ok old ∧ List.Forall₂ (fun d p => ssaReadLines (hs ++ [d]) = .ok (old ++ p)) ds added ∧ subs = old ++ added.flatten := by
  unfold ssaReadLines
  cases hh : ssaLines {} hs with
  | error e =>
    constructor
    · intro h
      rw [ssaLines_append, hh] at h
      cases h
    · rintro ⟨old, added, h, -⟩
      cases h
  | ok r =>
    have one : ∀ d, (ssaLines {} (hs ++ [d])).map (·.subs) = (ssaLine r d).map (·.subs) := by
      intro d
      rw [ssaLines_append, hh, ok_bind, ssaLines]
      cases ssaLine r d <;> rfl
    simp only [one]
    rw [ssaLines_append, hh, ok_bind]
    have key : ∀ (ds : List Str), (∀ d ∈ ds, IsDialogue d) → ∀ (xs subs : List Raw), (ssaLines { r with subs := r.subs ++ xs } ds).map (·.subs) = .ok subs ↔
        ∃ added : List (List Raw), List.Forall₂ (fun d p => (ssaLine r d).map (·.subs) = .ok (r.subs ++ p)) ds added ∧ subs = r.subs ++ xs ++ added.flatten := by
      intro ds
      induction ds with
      | nil =>
        intro _ xs subs
        constructor
        · intro h
          cases h
          exact ⟨[], .nil, by simp⟩
        · rintro ⟨added, h, rfl⟩
          cases h
          simp [ssaLines, Except.map]
      | cons d ds ih =>
        intro hd xs subs
        have ih := ih fun d' h => hd d' (List.mem_cons_of_mem _ h)
        have e : ssaLine { r with subs := r.subs ++ xs } d = (ssaLine { r with subs := [] } d).map (SsaRead.after (r.subs ++ xs)) := by rw [after_eq, line_after]
        have e0 : ssaLine r d = (ssaLine { r with subs := [] } d).map (SsaRead.after r.subs) := by
          have := line_after { r with subs := [] } r.subs d
          rwa [show SsaRead.after r.subs { r with subs := [] } = r by simp [SsaRead.after]] at this
        rw [ssaLines, e]
        cases hl : ssaLine { r with subs := [] } d with
        | error er =>
          constructor
          · intro h; cases h
          · rintro ⟨added, h, -⟩
            cases h with
            | cons h1 h2 =>
              rw [e0, hl] at h1
              cases h1
        | ok r' =>
          obtain ⟨p, rfl⟩ := dialogue_line _ _ d (hd d (List.mem_cons_self ..)) hl
          have e2 : SsaRead.after (r.subs ++ xs) { r with subs := [] ++ p } = { r with subs := r.subs ++ (xs ++ p) } := by simp [SsaRead.after]
          show (ssaLines (SsaRead.after (r.subs ++ xs) { r with subs := [] ++ p }) ds).map (·.subs) = .ok subs ↔ _
          rw [e2, ih]
          constructor
          · rintro ⟨added, h, rfl⟩
            refine ⟨p :: added, .cons ?_ h, by simp⟩
            rw [e0, hl]
            simp [Except.map, SsaRead.after]
          · rintro ⟨added, h, rfl⟩
            cases h with
            | cons h1 h2 =>
              rename_i q added
              rw [e0, hl] at h1
              simp [Except.map, SsaRead.after] at h1
              subst h1
              exact ⟨added, h2, by simp⟩
    have := key ds hd [] subs
    simp only [List.append_nil] at this
    rw [this]
    constructor
    · rintro ⟨added, h, e⟩
      exact ⟨r.subs, added, rfl, h, e⟩
    · rintro ⟨old, added, ho, h, e⟩
      cases ho
      exact ⟨added, h, e⟩

/-- C87: so the order of the dialogue lines only determines the order of what is read. -/
theorem C87_reorder (hs ds ds' : List Str) (hd : ∀ d ∈ ds, IsDialogue d) (hp : ds.Perm ds') (subs : List Raw) (h : ssaReadLines (hs ++ ds) = .ok subs) :
    ∃ subs', ssaReadLines (hs ++ ds') = .ok subs' ∧ subs'.Perm subs := by
  obtain ⟨old, added, h1, h2, rfl⟩ := (C87_dialogues hs ds hd subs).1 h
  have hd' : ∀ d ∈ ds', IsDialogue d := fun d h => hd d (hp.mem_iff.2 h)
  obtain ⟨added', h3, h4⟩ : ∃ added', List.Forall₂ (fun d p => ssaReadLines (hs ++ [d]) = .ok (old ++ p)) ds' added' ∧ added.Perm added' := by
    clear h hd hd'
    induction hp generalizing added with
    | nil => cases h2; exact ⟨[], .nil, .nil⟩
    | cons x _ ih =>
      cases h2 with
      | cons a b =>
        obtain ⟨l, i1, i2⟩ := ih _ b
        exact ⟨_, .cons a i1, i2.cons _⟩
    | swap x y l =>
      cases h2 with
      | cons a b =>
        cases b with
        | cons b c => exact ⟨_, .cons b (.cons a c), .swap ..⟩
    | trans _ _ ih1 ih2 =>
      obtain ⟨l, i1, i2⟩ := ih1 _ h2
      obtain ⟨m, j1, j2⟩ := ih2 _ i1
      exact ⟨m, j1, i2.trans j2⟩
  exact ⟨_, (C87_dialogues hs ds' hd' _).2 ⟨old, added', h1, h3, rfl⟩, (h4.flatten.symm).append_left old⟩

private theorem ignorable_line (r : SsaRead) (l : Str) (h : Ignorable l) : ssaLine r l = .ok r := by
  unfold ssaLine
  simp only
  cases h with
  | blank h => rw [if_pos (.inr h)]
  | comment h => rw [if_pos (.inl ((startsWith_iff ..).2 h))]
  | type t v h h58 h91 hk =>
    simp only [ssaClean] at h
    simp only [List.mem_cons, List.not_mem_nil, or_false, not_or] at hk
    obtain ⟨k1, k2, k3, k4, k5⟩ := hk
    rw [h]
    split
    · rfl
    · have : ¬ startsWith (t ++ 58 :: v) b!"[" = true := by
        cases t with
        | nil => simp [startsWith, List.isPrefixOf]
        | cons a t =>
          have : ¬ (91 = a) := fun e => h91 (by simp [e])
          simp [startsWith, List.isPrefixOf, this]
      rw [if_neg this]
      have h3 : (t ++ 58 :: v).findIdx? (· == 58) = some t.length := by
        rw [List.findIdx?_append, List.findIdx?_eq_none_iff.2 (fun c hc => by
          have : c ≠ 58 := fun e => h58 (e ▸ hc)
          simpa using this)]
        simp [List.findIdx?_cons]
      rw [h3]
      simp only [List.take_left]
      rw [if_neg k1, if_neg k2, if_neg k3, if_neg k4, if_neg k3, if_neg k5]
      cases r.part <;> rfl

/-- C87: empty lines, comments and lines of other types can be put into a file, or taken out, anywhere. -/
theorem C87_ignored (a b : List Str) (l : Str) (h : Ignorable l) : ssaReadLines (a ++ l :: b) = ssaReadLines (a ++ b) := by
  unfold ssaReadLines
  rw [ssaLines_append, ssaLines_append]
  congr 2
  funext r
  rw [ssaLines, ignorable_line r l h, ok_bind]

example : IsDialogue b!"Dialogue: 0,0:00:01.00,0:00:02.00,Default,,0,0,0,,Hello" ∧ Ignorable b!"  ; written by hand" ∧ Ignorable b!"Comment: 0,0:00:01.00,0:00:02.00,Default,,0,0,0,,Hello" ∧ Ignorable b!"" :=
  ⟨by decide, .comment (by decide), .type b!"Comment" b!" 0,0:00:01.00,0:00:02.00,Default,,0,0,0,,Hello" (by decide) (by decide) (by decide) (by decide), .blank (by decide)⟩

example : (ssaReadLines ([b!"[Events]", b!"Format: Start, End, Text"] ++ [b!"Dialogue: 0:00:01.00,0:00:02.00,a", b!"Dialogue: 0:00:03.00,0:00:04.00,b\\Nc"])).toOption.map (·.map (·.text)) = some [b!"a", b!"b", b!"c"] := by
  decide +kernel

end LibSub
