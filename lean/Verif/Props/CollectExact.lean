/-
Property C121: what `collect` returns, exactly.
-/
import Verif.Props.Collect

namespace LibSub

/-! ### Specification -/

/-- Two optional times, both missing or equal. -/
inductive SameFade : Option Time → Option Time → Prop where
  | neither : SameFade none none
  | both (t u : Time) : t.eq u = .ok true → SameFade (some t) (some u)

/-- All times of the raw subtitles are equal. -/
def SameTimes (a b : Raw) : Prop := a.from_.eq b.from_ = .ok true ∧ a.to_.eq b.to_ = .ok true ∧ SameFade a.fadeUp b.fadeUp ∧ SameFade a.fadeDown b.fadeDown

/-- The raw subtitles are at the same height. -/
def SameRow (a b : Raw) : Prop := a.vpos.eq b.vpos = true

/-- The block for a raw subtitle: its text and style. -/
def blockFor (r : Raw) : Block :=
  { text := r.text, font := r.font, fontSize := r.fontSize, effect := r.effect, effectColour := r.effectColour, colour := r.colour, bold := r.bold, italic := r.italic, underline := r.underline }

/-- The lines for raw subtitles in a row: each is the longest run of raw subtitles at the height of the first of them, and is placed where that is. -/
inductive LinesFor : List Raw → List Line → Prop where
  | none : LinesFor [] []
  | line (r : Raw) (more rest : List Raw) (ls : List Line) : (∀ x ∈ more, SameRow r x) → (∀ y ∈ rest.head?, ¬ SameRow r y) → LinesFor rest ls →
      LinesFor (r :: more ++ rest) ({ hpos := r.hpos, vpos := r.vpos, blocks := (r :: more).map blockFor } :: ls)

/-- The subtitles for raw subtitles: each is the longest run with the times of the first of them. -/
inductive SubtitlesFor : List Raw → List Subtitle → Prop where
  | none : SubtitlesFor [] []
  | subtitle (r : Raw) (more rest : List Raw) (ls : List Line) (ss : List Subtitle) : (∀ x ∈ more, SameTimes r x) → (∀ y ∈ rest.head?, ¬ SameTimes r y) →
      LinesFor (r :: more) ls → SubtitlesFor rest ss →
      SubtitlesFor (r :: more ++ rest) ({ from_ := r.from_, to_ := r.to_, fadeUp := r.fadeUp, fadeDown := r.fadeDown, lines := ls } :: ss)

/-- Any two times of any of the raw subtitles can be compared. -/
def TimesCompare (raws : List Raw) : Prop := ∀ a ∈ raws, ∀ b ∈ raws, ∀ t ∈ a.times, ∀ u ∈ b.times, ∃ x, t.eq u = .ok x

/-! ### Proofs -/

private theorem andM_true {a b : R Bool} : andM a b = .ok true ↔ a = .ok true ∧ b = .ok true := by
  constructor
  · intro h
    unfold andM at h
    split at h
    · exact ⟨rfl, h⟩
    · cases h
    · cases h
  · rintro ⟨rfl, rfl⟩; rfl

private theorem fade_iff (a b : Option Time) : optTimeEq a b = .ok true ↔ SameFade a b := by
  cases a <;> cases b <;> simp only [optTimeEq]
  · exact ⟨fun _ => .neither, fun _ => by trivial⟩
  · exact ⟨fun h => by simp at h, fun h => by cases h⟩
  · exact ⟨fun h => by simp at h, fun h => by cases h⟩
  · exact ⟨fun h => .both _ _ h, fun h => by cases h; assumption⟩

private theorem times_iff (s : Subtitle) (r i : Raw) (h1 : s.from_ = r.from_) (h2 : s.to_ = r.to_) (h3 : s.fadeUp = r.fadeUp) (h4 : s.fadeDown = r.fadeDown) :
    s.sameMetadata i = .ok true ↔ SameTimes r i := by
  unfold Subtitle.sameMetadata SameTimes
  rw [andM_true, andM_true, andM_true, fade_iff, fade_iff, h1, h2, h3, h4]

/-- What the loop does from inside a line. -/
private theorem loop_says (is : List Raw) : ∀ (out : List Subtitle) (cur : Subtitle) (done : List Line) (l : Line) (r q : Raw) (st : List Subtitle × Option Subtitle),
    cur.from_ = r.from_ → cur.to_ = r.to_ → cur.fadeUp = r.fadeUp → cur.fadeDown = r.fadeDown → cur.lines = done ++ [l] → l.vpos = q.vpos →
    collectLoop (out, some cur) is = .ok st →
    ∃ ml mr rest lines subs, is = (ml ++ mr) ++ rest ∧ (∀ x ∈ ml ++ mr, SameTimes r x) ∧ (∀ y ∈ rest.head?, ¬ SameTimes r y) ∧
      (∀ x ∈ ml, SameRow q x) ∧ (∀ y ∈ mr.head?, ¬ SameRow q y) ∧ LinesFor mr lines ∧ SubtitlesFor rest subs ∧
      collectFinish st = out ++ { cur with lines := done ++ { l with blocks := l.blocks ++ ml.map blockFor } :: lines } :: subs := by
  induction is with
  | nil =>
    intro out cur done l r q st h1 h2 h3 h4 h5 h6 h
    cases h
    refine ⟨[], [], [], [], [], rfl, by simp, by simp, by simp, by simp, .none, .none, ?_⟩
    obtain ⟨a, b, c, d, e⟩ := cur
    simp only at h5
    subst h5
    simp [collectFinish]
  | cons i is ih =>
    intro out cur done l r q st h1 h2 h3 h4 h5 h6 h
    have ht := times_iff cur r i h1 h2 h3 h4
    rw [collectLoop] at h
    obtain ⟨st', h0, h⟩ := bind_eq_ok.1 h
    unfold collectStep at h0
    simp only [bind_eq_ok] at h0
    obtain ⟨same, hs, h0⟩ := h0
    cases same with
    | true =>
      simp only [if_true] at h0
      have hlast : cur.lines.getLast? = some l := by rw [h5]; simp
      have hdrop : cur.lines.dropLast = done := by rw [h5]; simp
      rw [hlast] at h0
      simp only [hdrop] at h0
      by_cases hv : l.sameMetadata i = true
      · rw [if_pos hv] at h0
        cases h0
        obtain ⟨ml, mr, rest, lines, subs, e1, e2, e3, e4, e5, e6, e7, e8⟩ :=
          ih out { cur with lines := done ++ [{ l with blocks := l.blocks ++ [Block.ofRaw i] }] } done { l with blocks := l.blocks ++ [Block.ofRaw i] } r q st h1 h2 h3 h4 rfl h6 h
        refine ⟨i :: ml, mr, rest, lines, subs, by rw [e1]; rfl, ?_, e3, ?_, e5, e6, e7, ?_⟩
        · intro x hx
          rcases List.mem_cons.1 hx with rfl | hx
          · exact ht.1 hs
          · exact e2 x hx
        · intro x hx
          rcases List.mem_cons.1 hx with rfl | hx
          · unfold Line.sameMetadata at hv; rw [h6] at hv; exact hv
          · exact e4 x hx
        · rw [e8]
          simp [blockFor, Block.ofRaw]
      · rw [if_neg hv] at h0
        cases h0
        obtain ⟨ml, mr, rest, lines, subs, e1, e2, e3, e4, e5, e6, e7, e8⟩ :=
          ih out { cur with lines := cur.lines ++ [Line.ofRaw i] } cur.lines (Line.ofRaw i) r i st h1 h2 h3 h4 rfl rfl h
        refine ⟨[], i :: ml ++ mr, rest, _ :: lines, subs, by rw [e1]; rfl, ?_, e3, by simp, ?_, .line i ml mr lines e4 e5 e6, e7, ?_⟩
        · intro x hx
          rcases List.mem_cons.1 hx with rfl | hx
          · exact ht.1 hs
          · exact e2 x hx
        · intro y hy
          simp only [List.cons_append, List.head?_cons, Option.mem_def, Option.some.injEq] at hy
          subst hy
          unfold Line.sameMetadata at hv; rw [h6] at hv; exact hv
        · rw [e8, h5]
          simp [blockFor, Block.ofRaw, Line.ofRaw]
    | false =>
      simp only [Bool.false_eq_true, if_false] at h0
      cases h0
      obtain ⟨ml, mr, rest, lines, subs, e1, e2, e3, e4, e5, e6, e7, e8⟩ :=
        ih (out ++ [cur]) (Subtitle.ofRaw i) [] (Line.ofRaw i) i i st rfl rfl rfl rfl rfl rfl h
      refine ⟨[], [], i :: (ml ++ mr) ++ rest, [], _ :: subs, by rw [e1]; rfl, by simp, ?_, by simp, by simp, .none,
        .subtitle i (ml ++ mr) rest _ subs e2 e3 (.line i ml mr lines e4 e5 e6) e7, ?_⟩
      · intro y hy
        simp only [List.cons_append, List.head?_cons, Option.mem_def, Option.some.injEq] at hy
        subst hy
        intro hc
        rw [ht.2 hc] at hs
        cases hs
      · rw [e8]
        obtain ⟨a, b, c, d, e⟩ := cur
        simp only at h5
        subst h5
        simp [blockFor, Block.ofRaw, Line.ofRaw, Subtitle.ofRaw]

private theorem loop_all {is : List Raw} {st : List Subtitle × Option Subtitle} (h : collectLoop ([], none) is = .ok st) : SubtitlesFor is (collectFinish st) := by
  cases is with
  | nil => cases h; exact .none
  | cons i is =>
    rw [collectLoop] at h
    obtain ⟨st', h0, h⟩ := bind_eq_ok.1 h
    cases h0
    obtain ⟨ml, mr, rest, lines, subs, e1, e2, e3, e4, e5, e6, e7, e8⟩ := loop_says is [] (Subtitle.ofRaw i) [] (Line.ofRaw i) i i st rfl rfl rfl rfl rfl rfl h
    rw [e8, e1]
    simp only [List.nil_append, Subtitle.ofRaw]
    exact .subtitle i (ml ++ mr) rest _ subs e2 e3 (.line i ml mr lines e4 e5 e6) e7

private theorem run_unique {P : Raw → Prop} : ∀ (m n : List Raw) {u v : List Raw}, m ++ u = n ++ v → (∀ x ∈ m, P x) → (∀ x ∈ n, P x) → (∀ y ∈ u.head?, ¬ P y) → (∀ y ∈ v.head?, ¬ P y) → m = n ∧ u = v := by
  intro m
  induction m with
  | nil =>
    intro n u v h _ hn hu _
    cases n with
    | nil => exact ⟨rfl, h⟩
    | cons y n =>
      simp only [List.nil_append] at h
      subst h
      exact absurd (hn y (by simp)) (hu y (by simp))
  | cons x m ih =>
    intro n u v h hm hn hu hv
    cases n with
    | nil =>
      simp only [List.nil_append] at h
      subst h
      exact absurd (hm x (by simp)) (hv x (by simp))
    | cons y n =>
      obtain ⟨rfl, h'⟩ := List.cons.inj h
      obtain ⟨rfl, rfl⟩ := ih n h' (fun x hx => hm x (by simp [hx])) (fun x hx => hn x (by simp [hx])) hu hv
      exact ⟨rfl, rfl⟩

private theorem lines_unique {rs : List Raw} {x : List Line} (hx : LinesFor rs x) : ∀ {y : List Line}, LinesFor rs y → x = y := by
  induction hx with
  | none =>
    intro y hy
    generalize e : ([] : List Raw) = rs at hy
    cases hy with
    | none => rfl
    | line => cases e
  | line r more rest ls h1 h2 h3 ih =>
    intro y hy
    generalize e : r :: more ++ rest = rs at hy
    cases hy with
    | none => cases e
    | line r' more' rest' ls' h1' h2' h3' =>
      obtain ⟨rfl, e'⟩ := List.cons.inj e
      obtain ⟨rfl, rfl⟩ := run_unique more more' e' h1 h1' h2 h2'
      rw [ih h3']

private theorem subtitles_unique {rs : List Raw} {x : List Subtitle} (hx : SubtitlesFor rs x) : ∀ {y : List Subtitle}, SubtitlesFor rs y → x = y := by
  induction hx with
  | none =>
    intro y hy
    generalize e : ([] : List Raw) = rs at hy
    cases hy with
    | none => rfl
    | subtitle => cases e
  | subtitle r more rest ls ss h1 h2 h3 h4 ih =>
    intro y hy
    generalize e : r :: more ++ rest = rs at hy
    cases hy with
    | none => cases e
    | subtitle r' more' rest' ls' ss' h1' h2' h3' h4' =>
      obtain ⟨rfl, e'⟩ := List.cons.inj e
      obtain ⟨rfl, rfl⟩ := run_unique more more' e' h1 h1' h2 h2'
      rw [ih h4', lines_unique h3 h3']

private theorem sort_unique (s1 : List Raw) : ∀ (s2 : List Raw), s1.Perm s2 → (∀ a ∈ s1, ∀ b ∈ s1, a.from_.SameKind b.from_) → (∀ a ∈ s1, ∀ b ∈ s1, ∃ x, a.from_.eq b.from_ = .ok x) →
    s1.Pairwise (fun a b => b.from_.lt a.from_ = .ok false) → s2.Pairwise (fun a b => b.from_.lt a.from_ = .ok false) →
    (∀ x ∈ s1, s1.filter (fun r => decide (x.from_.eq r.from_ = .ok true)) = s2.filter (fun r => decide (x.from_.eq r.from_ = .ok true))) → s1 = s2 := by
  induction s1 with
  | nil => intro s2 h _ _ _ _ _; exact h.nil_eq
  | cons a s1 ih =>
    intro s2 hp hk hc h1 h2 hf
    cases s2 with
    | nil => exact absurd hp (by simp)
    | cons b s2 =>
      have hb : b ∈ a :: s1 := hp.mem_iff.2 (by simp)
      have ha : a ∈ b :: s2 := hp.mem_iff.1 (by simp)
      have haa : a.from_.eq a.from_ = .ok true := by
        obtain ⟨x, hx⟩ := hc a (by simp) a (by simp)
        have := eq_iff_key (hk a (by simp) a (by simp)) hx
        have h0 : ¬ a.from_.keyLt a.from_ := fun h => Time.keyLt_asymm h h
        rw [this] at hx
        simpa [h0] using hx
      have hab : a.from_.eq b.from_ = .ok true := by
        rcases List.mem_cons.1 hb with rfl | hb'
        · exact haa
        · rcases List.mem_cons.1 ha with rfl | ha'
          · exact haa
          · have k1 := (List.pairwise_cons.1 h1).1 b hb'
            have k2 := (List.pairwise_cons.1 h2).1 a ha'
            have k1 := lt_eq_key (hk b hb a (by simp)) k1
            have k2 := lt_eq_key (hk a (by simp) b hb) k2
            obtain ⟨x, hx⟩ := hc a (by simp) b hb
            have k3 := eq_iff_key (hk a (by simp) b hb) hx
            simp only [eq_comm (a := false), decide_eq_false_iff_not] at k1 k2
            rw [k3] at hx
            simpa [k1, k2] using hx
      have e0 := hf a (by simp)
      rw [List.filter_cons_of_pos (by simp [haa]), List.filter_cons_of_pos (by simp [hab])] at e0
      obtain ⟨rfl, -⟩ := List.cons.inj e0
      congr 1
      refine ih s2 ((List.perm_cons a).1 hp) (fun x hx y hy => hk x (by simp [hx]) y (by simp [hy])) (fun x hx y hy => hc x (by simp [hx]) y (by simp [hy]))
        (List.pairwise_cons.1 h1).2 (List.pairwise_cons.1 h2).2 ?_
      intro x hx
      have := hf x (by simp [hx])
      rw [List.filter_cons, List.filter_cons] at this
      split at this
      · exact (List.cons.inj this).2
      · exact this

private theorem from_mem (a : Raw) : a.from_ ∈ a.times := by simp [Raw.times]

/-! ### C121 -/

/-- C121: on raw subtitles whose times can be compared `collect` succeeds. -/
theorem C121_succeeds (raws : List Raw) (hc : TimesCompare raws) : ∃ out, collect raws = .ok out := by
  cases h : collect raws with
  | ok out => exact ⟨out, rfl⟩
  | error e =>
    obtain ⟨_, a, ha, b, hb, t, ht, u, hu, he⟩ := C16_errors raws e h
    obtain ⟨x, hx⟩ := hc a ha b hb t ht u hu
    rw [hx] at he
    cases he

/-- C121: what `collect` returns is the stable sort by start time, cut into the longest runs of equal times and, within them, of equal height. -/
theorem C121_sound (raws : List Raw) (out : List Subtitle) (hk : ∀ a ∈ raws, ∀ b ∈ raws, a.from_.SameKind b.from_) (h : collect raws = .ok out) :
    ∃ sorted, StablySorted raws sorted ∧ SubtitlesFor sorted out := by
  unfold collect collectWith at h
  simp only [bind_eq_ok] at h
  obtain ⟨sorted, hs, st, hl, h⟩ := h
  cases h
  refine ⟨sorted, ?_, loop_all hl⟩
  obtain ⟨hc, rfl⟩ := stableSort_ok hs
  exact stablySorted raws hk hc

/-- C121: that, and nothing else. -/
theorem C121_exact (raws : List Raw) (out : List Subtitle) (hk : ∀ a ∈ raws, ∀ b ∈ raws, a.from_.SameKind b.from_) (hc : TimesCompare raws) :
    collect raws = .ok out ↔ ∃ sorted, StablySorted raws sorted ∧ SubtitlesFor sorted out := by
  constructor
  · exact C121_sound raws out hk
  · rintro ⟨s2, h1, h2⟩
    obtain ⟨out', h⟩ := C121_succeeds raws hc
    obtain ⟨s1, h3, h4⟩ := C121_sound raws out' hk h
    have e : s1 = s2 := by
      refine sort_unique s1 s2 (h3.perm.trans h1.perm.symm) (fun a ha b hb => hk a (h3.perm.mem_iff.1 ha) b (h3.perm.mem_iff.1 hb))
        (fun a ha b hb => hc a (h3.perm.mem_iff.1 ha) b (h3.perm.mem_iff.1 hb) _ (from_mem a) _ (from_mem b)) h3.ordered h1.ordered ?_
      intro x hx
      have hx := h3.perm.mem_iff.1 hx
      rw [h3.stable x hx, h1.stable x hx]
    subst e
    rw [h, subtitles_unique h4 h2]

private def exRaws : List Raw := [exRaw b!"c" 5 0, exRaw b!"a" 2 0, exRaw b!"b" 2 0, exRaw b!"d" 2 1]

/-- Four raw subtitles, two of them in the same row. -/
example : (∀ a ∈ exRaws, ∀ b ∈ exRaws, a.from_.SameKind b.from_) ∧ TimesCompare exRaws ∧ ∃ sorted out, StablySorted exRaws sorted ∧ SubtitlesFor sorted out ∧
    out.map (fun s => s.lines.map (fun l => l.blocks.map (fun b => b.text))) = [[[b!"a", b!"b"], [b!"d"]], [[b!"c"]]] := by
  have h1 : ∀ a ∈ exRaws, ∀ b ∈ exRaws, a.from_.SameKind b.from_ := by
    have h : ∀ a ∈ exRaws, a.from_.rate = some ⟨25, 1⟩ := by decide
    exact fun a ha b hb => .inl ⟨⟨_, h a ha, by decide⟩, ⟨_, h b hb, by decide⟩⟩
  have h2 : TimesCompare exRaws := by
    have h : ∀ a ∈ exRaws, ∀ b ∈ exRaws, ∀ t ∈ a.times, ∀ u ∈ b.times, (t.eq u).toOption.isSome = true := by decide +kernel
    intro a ha b hb t ht u hu
    have := h a ha b hb t ht u hu
    cases he : t.eq u with
    | ok x => exact ⟨x, rfl⟩
    | error e => rw [he] at this; cases this
  refine ⟨h1, h2, ?_⟩
  have h : (collect exRaws).toOption.map (fun out => out.map (fun s => s.lines.map (fun l => l.blocks.map (fun b => b.text)))) = some [[[b!"a", b!"b"], [b!"d"]], [[b!"c"]]] := by decide +kernel
  cases hr : collect exRaws with
  | error e => rw [hr] at h; cases h
  | ok out =>
    rw [hr] at h
    obtain ⟨sorted, h3, h4⟩ := (C121_exact _ _ h1 h2).1 hr
    exact ⟨sorted, out, h3, h4, by simpa [Except.toOption] using h⟩

end LibSub
