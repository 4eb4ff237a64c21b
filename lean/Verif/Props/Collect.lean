/-
Properties C12–C16 and C20: grouping of raw subtitles by `collect`.
-/
import Verif.Lemmas.Collect

namespace LibSub

/-! ### Specification -/

/-- A block as the user sees it in the result: with the times of the subtitle and the position of the line that
contain it. -/
structure Shown where
  from_ : Time
  to_ : Time
  fadeUp : Option Time
  fadeDown : Option Time
  hpos : HPos
  vpos : VPos
  block : Block

/-- All blocks of a list of subtitles, in order. -/
def shown (out : List Subtitle) : List Shown :=
  out.flatMap fun s => s.lines.flatMap fun l => l.blocks.map fun b =>
    ⟨s.from_, s.to_, s.fadeUp, s.fadeDown, l.hpos, l.vpos, b⟩

/-- Two times are identical, or equal according to `operator==`. -/
def SameTime (a b : Time) : Prop := a = b ∨ a.eq b = .ok true

/-- Likewise for optional times. -/
def SameOptTime : Option Time → Option Time → Prop
  | none, none => True
  | some a, some b => SameTime a b
  | _, _ => False

/-- The block shows what the raw subtitle shows: same text and style, same times, same vertical position. -/
structure Presents (r : Raw) (p : Shown) : Prop where
  text : p.block.text = r.text
  font : p.block.font = r.font
  fontSize : p.block.fontSize = r.fontSize
  effect : p.block.effect = r.effect
  effectColour : p.block.effectColour = r.effectColour
  colour : p.block.colour = r.colour
  bold : p.block.bold = r.bold
  italic : p.block.italic = r.italic
  underline : p.block.underline = r.underline
  from_ : SameTime p.from_ r.from_
  to_ : SameTime p.to_ r.to_
  fadeUp : SameOptTime p.fadeUp r.fadeUp
  fadeDown : SameOptTime p.fadeDown r.fadeDown
  vpos : p.vpos = r.vpos ∨ p.vpos.eq r.vpos = true

/-- `sorted` is the stable sort of `raws` by start time. -/
structure StablySorted (raws sorted : List Raw) : Prop where
  /-- the same raw subtitles -/
  perm : sorted.Perm raws
  /-- none starts before an earlier one -/
  ordered : sorted.Pairwise (fun a b => b.from_.lt a.from_ = .ok false)
  /-- those with equal start times are in the order of the input -/
  stable : ∀ x ∈ raws, sorted.filter (fun r => decide (x.from_.eq r.from_ = .ok true)) =
    raws.filter (fun r => decide (x.from_.eq r.from_ = .ok true))

/-! ### C12  nothing lost -/

private theorem sameOptTime_refl (t : Option Time) : SameOptTime t t := by
  cases t with
  | none => trivial
  | some a => exact .inl rfl

private theorem andM_true {a b : R Bool} (h : andM a b = .ok true) : a = .ok true ∧ b = .ok true := by
  unfold andM at h
  split at h
  · exact ⟨rfl, h⟩
  · cases h
  · cases h

private theorem metadata_times {s : Subtitle} {r : Raw} (h : s.sameMetadata r = .ok true) :
    SameTime s.from_ r.from_ ∧ SameTime s.to_ r.to_ ∧ SameOptTime s.fadeUp r.fadeUp ∧ SameOptTime s.fadeDown r.fadeDown := by
  unfold Subtitle.sameMetadata at h
  obtain ⟨h1, h⟩ := andM_true h
  obtain ⟨h2, h⟩ := andM_true h
  obtain ⟨h3, h4⟩ := andM_true h
  have opt : ∀ a b : Option Time, optTimeEq a b = .ok true → SameOptTime a b := by
    intro a b h
    unfold optTimeEq at h
    split at h
    · trivial
    · exact .inr h
    · cases h
  exact ⟨.inr h1, .inr h2, opt _ _ h3, opt _ _ h4⟩

private theorem grows_presents {rs : List Raw} {out : List Subtitle} (h : Grows rs out) : List.Forall₂ Presents rs (shown out) := by
  induction h with
  | nil => exact .nil
  | first i =>
    refine .cons ?_ .nil
    exact ⟨rfl, rfl, rfl, rfl, rfl, rfl, rfl, rfl, rfl, .inl rfl, .inl rfl, sameOptTime_refl _, sameOptTime_refl _, .inl rfl⟩
  | @newSub rs out cur i _ _ ih =>
    have e : shown (out ++ [cur] ++ [Subtitle.ofRaw i]) = shown (out ++ [cur]) ++
        [⟨i.from_, i.to_, i.fadeUp, i.fadeDown, i.hpos, i.vpos, Block.ofRaw i⟩] := by
      simp [shown, Subtitle.ofRaw, Line.ofRaw]
    rw [e]
    refine List.rel_append ih (.cons ?_ .nil)
    exact ⟨rfl, rfl, rfl, rfl, rfl, rfl, rfl, rfl, rfl, .inl rfl, .inl rfl, sameOptTime_refl _, sameOptTime_refl _, .inl rfl⟩
  | @newLine rs out cur ls l i _ hl hm _ ih =>
    have e : shown (out ++ [{ cur with lines := ls ++ [l] ++ [Line.ofRaw i] }]) = shown (out ++ [cur]) ++
        [⟨cur.from_, cur.to_, cur.fadeUp, cur.fadeDown, i.hpos, i.vpos, Block.ofRaw i⟩] := by
      simp [shown, Line.ofRaw, hl]
    rw [e]
    obtain ⟨h1, h2, h3, h4⟩ := metadata_times hm
    exact List.rel_append ih (.cons ⟨rfl, rfl, rfl, rfl, rfl, rfl, rfl, rfl, rfl, h1, h2, h3, h4, .inl rfl⟩ .nil)
  | @newBlock rs out cur ls l i _ hl hm hv ih =>
    have e : shown (out ++ [{ cur with lines := ls ++ [{ l with blocks := l.blocks ++ [Block.ofRaw i] }] }]) = shown (out ++ [cur]) ++
        [⟨cur.from_, cur.to_, cur.fadeUp, cur.fadeDown, l.hpos, l.vpos, Block.ofRaw i⟩] := by
      simp [shown, hl]
    rw [e]
    obtain ⟨h1, h2, h3, h4⟩ := metadata_times hm
    exact List.rel_append ih (.cons ⟨rfl, rfl, rfl, rfl, rfl, rfl, rfl, rfl, rfl, h1, h2, h3, h4, .inr hv⟩ .nil)

/-- C12: what `collect` returns shows, block by block, exactly the raw subtitles it was given, in some order (for the
order see `C13_order`), whatever their times. -/
theorem C12_nothing_lost (raws : List Raw) (out : List Subtitle) (h : collect raws = .ok out) :
    ∃ sorted : List Raw, sorted.Perm raws ∧ List.Forall₂ Presents sorted (shown out) := by
  obtain ⟨sorted, hs, hg⟩ := collectWith_grows h
  obtain ⟨_, rfl⟩ := stableSort_ok hs
  exact ⟨_, sortRaws_perm _ _, grows_presents hg⟩

/-- C12: in particular there is one block for every raw subtitle. -/
theorem C12_count (raws : List Raw) (out : List Subtitle) (h : collect raws = .ok out) : (shown out).length = raws.length := by
  obtain ⟨sorted, hp, hf⟩ := C12_nothing_lost raws out h
  rw [← hf.length_eq, hp.length_eq]

/-- A raw subtitle for the examples. -/
def exRaw (text : Str) (secs line : Int) : Raw :=
  { text := text, from_ := ⟨secs, 0, some ⟨25, 1⟩⟩, to_ := ⟨secs + 1, 0, some ⟨25, 1⟩⟩,
    vpos := { line := some line, ref := some .topOfSubtitle } }

example : ∃ out, collect [exRaw b!"c" 5 0, exRaw b!"a" 2 0, exRaw b!"b" 2 1] = .ok out ∧
    (shown out).map (fun p => p.block.text) = [b!"a", b!"b", b!"c"] ∧ out.length = 2 := by
  refine ⟨_, rfl, ?_, ?_⟩ <;> decide +kernel

/-! ### C13  order -/

theorem stablySorted (raws : List Raw) (hk : ∀ a ∈ raws, ∀ b ∈ raws, a.from_.SameKind b.from_)
    (hc : PairsComparable raws) : StablySorted raws (sortRaws rawLe raws) := by
  have hp := sortRaws_perm rawLe raws
  rw [sortRaws_rawLe hk hc] at hp ⊢
  have hpw := sortRaws_pairwise raws
  refine ⟨hp, ?_, ?_⟩
  · refine (hpw.and (hc.perm hp.symm)).imp_of_mem ?_
    rintro a b ha hb ⟨hab, hcmp⟩
    have ha := hp.mem_iff.1 ha
    have hb := hp.mem_iff.1 hb
    obtain ⟨x, hx⟩ := lt_ok_symm hcmp
    have := lt_eq_key (hk b hb a ha) hx
    unfold rawLe' at hab
    simp only [decide_eq_true_eq] at hab
    have : x = false := by rw [this]; simpa using hab
    rw [this] at hx
    exact hx
  · intro x hx
    set p : Raw → Bool := fun r => decide (x.from_.eq r.from_ = .ok true) with hpdef
    -- the members of the class are in order in the input, so that sublist survives
    have h1 : (raws.filter p).Pairwise (fun a b => rawLe' a b = true) := by
      apply List.pairwise_of_forall_mem_list
      intro a ha b hb
      rw [List.mem_filter] at ha hb
      have ka := hk x hx a ha.1
      have kb := hk x hx b hb.1
      have ea := ha.2
      have eb := hb.2
      simp only [hpdef, decide_eq_true_eq] at ea eb
      have ea := eq_iff_key ka ea
      have eb := eq_iff_key kb eb
      rw [eq_comm, decide_eq_true_eq] at ea eb
      unfold rawLe'
      simp only [decide_eq_true_eq]
      exact Time.not_keyLt_trans ea.1 eb.2
    have h2 : (raws.filter p).Sublist (sortRaws rawLe' raws) := sublist_sortRaws h1 List.filter_sublist
    have h3 : (raws.filter p).Sublist ((sortRaws rawLe' raws).filter p) := by
      have := h2.filter p
      rwa [List.filter_filter, show (fun a => p a && p a) = p by funext a; simp] at this
    exact (h3.eq_of_length (hp.filter p).length_eq.symm).symm

/-- C13 (and the order part of C12): the blocks of the result are the raw subtitles stably sorted by start time. -/
theorem C13_order (raws : List Raw) (out : List Subtitle) (hk : ∀ a ∈ raws, ∀ b ∈ raws, a.from_.SameKind b.from_)
    (h : collect raws = .ok out) : ∃ sorted, StablySorted raws sorted ∧ List.Forall₂ Presents sorted (shown out) := by
  obtain ⟨sorted, hs, hg⟩ := collectWith_grows h
  obtain ⟨hc, rfl⟩ := stableSort_ok hs
  exact ⟨_, stablySorted raws hk hc, grows_presents hg⟩

/-- The start times of the subtitles, as they occur among the raw subtitles. -/
private theorem grows_from {rs : List Raw} {out : List Subtitle} (h : Grows rs out) :
    (out.map (·.from_)).Sublist (rs.map (·.from_)) := by
  induction h with
  | nil => simp
  | first i => simp [Subtitle.ofRaw]
  | newSub _ _ ih =>
    rw [List.map_append, List.map_append (f := fun r : Raw => r.from_)]
    exact ih.append (by simp [Subtitle.ofRaw])
  | newLine _ _ _ _ ih =>
    simp only [List.map_append, List.map_cons, List.map_nil] at ih ⊢
    exact ih.trans (List.sublist_append_left _ _)
  | newBlock _ _ _ _ ih =>
    simp only [List.map_append, List.map_cons, List.map_nil] at ih ⊢
    exact ih.trans (List.sublist_append_left _ _)

/-- C13: no subtitle of the result starts before an earlier one. -/
theorem C13_subtitles_ordered (raws : List Raw) (out : List Subtitle) (hk : ∀ a ∈ raws, ∀ b ∈ raws, a.from_.SameKind b.from_)
    (h : collect raws = .ok out) : out.Pairwise (fun s t => t.from_.lt s.from_ = .ok false) := by
  obtain ⟨sorted, hs, hg⟩ := collectWith_grows h
  obtain ⟨hc, rfl⟩ := stableSort_ok hs
  have hp := (stablySorted raws hk hc).ordered
  have h1 : ((sortRaws rawLe raws).map (·.from_)).Pairwise (fun a b => b.lt a = .ok false) := by
    rw [List.pairwise_map]; exact hp
  have h2 := h1.sublist (grows_from hg)
  rwa [List.pairwise_map] at h2

example : ∀ a ∈ [exRaw b!"c" 5 0, exRaw b!"a" 2 0], ∀ b ∈ [exRaw b!"c" 5 0, exRaw b!"a" 2 0], a.from_.SameKind b.from_ := by
  intro a ha b hb
  simp only [List.mem_cons, List.not_mem_nil, or_false] at ha hb
  left
  rcases ha with rfl | rfl <;> rcases hb with rfl | rfl <;> exact ⟨⟨_, rfl, by decide⟩, ⟨_, rfl, by decide⟩⟩

/-! ### C14  grouping -/

/-- Some time of two subtitles differs according to `operator==`. -/
def DifferentTimes (s t : Subtitle) : Prop :=
  s.from_.eq t.from_ = .ok false ∨ s.to_.eq t.to_ = .ok false ∨ optTimeEq s.fadeUp t.fadeUp = .ok false ∨
    optTimeEq s.fadeDown t.fadeDown = .ok false

private theorem andM_false {a b : R Bool} (h : andM a b = .ok false) : a = .ok false ∨ b = .ok false := by
  unfold andM at h
  split at h
  · exact .inr h
  · exact .inl rfl
  · cases h

private theorem metadata_false {s : Subtitle} {r : Raw} (h : s.sameMetadata r = .ok false) :
    DifferentTimes s (Subtitle.ofRaw r) := by
  unfold Subtitle.sameMetadata at h
  rcases andM_false h with h1 | h
  · exact .inl h1
  rcases andM_false h with h1 | h
  · exact .inr (.inl h1)
  rcases andM_false h with h1 | h
  · exact .inr (.inr (.inl h1))
  · exact .inr (.inr (.inr h))

private theorem differentTimes_congr {s t s' t' : Subtitle} (h : DifferentTimes s t)
    (hs : s'.from_ = s.from_ ∧ s'.to_ = s.to_ ∧ s'.fadeUp = s.fadeUp ∧ s'.fadeDown = s.fadeDown)
    (ht : t'.from_ = t.from_ ∧ t'.to_ = t.to_ ∧ t'.fadeUp = t.fadeUp ∧ t'.fadeDown = t.fadeDown) : DifferentTimes s' t' := by
  unfold DifferentTimes at *
  rw [hs.1, hs.2.1, hs.2.2.1, hs.2.2.2, ht.1, ht.2.1, ht.2.2.1, ht.2.2.2]
  exact h

private theorem chain_replace {out : List Subtitle} {cur cur' : Subtitle}
    (h : List.IsChain DifferentTimes (out ++ [cur]))
    (hc : cur'.from_ = cur.from_ ∧ cur'.to_ = cur.to_ ∧ cur'.fadeUp = cur.fadeUp ∧ cur'.fadeDown = cur.fadeDown) :
    List.IsChain DifferentTimes (out ++ [cur']) := by
  rw [List.isChain_append] at *
  refine ⟨h.1, by simp, ?_⟩
  intro x hx y hy
  simp at hy
  subst hy
  exact differentTimes_congr (h.2.2 x hx cur (by simp)) ⟨rfl, rfl, rfl, rfl⟩ hc

private theorem grows_chain {rs : List Raw} {out : List Subtitle} (h : Grows rs out) : List.IsChain DifferentTimes out := by
  induction h with
  | nil => simp
  | first i => simp
  | @newSub rs out cur i _ hm ih =>
    rw [List.isChain_append]
    refine ⟨ih, by simp, ?_⟩
    intro x hx y hy
    simp at hx hy
    subst hx; subst hy
    exact metadata_false hm
  | newLine _ _ _ _ ih => exact chain_replace ih ⟨rfl, rfl, rfl, rfl⟩
  | newBlock _ _ _ _ ih => exact chain_replace ih ⟨rfl, rfl, rfl, rfl⟩

private theorem grows_lines {rs : List Raw} {out : List Subtitle} (h : Grows rs out) :
    ∀ s ∈ out, (∀ l ∈ s.lines, l.blocks ≠ []) ∧ List.IsChain (fun l m : Line => l.vpos.eq m.vpos = false) s.lines := by
  induction h with
  | nil => simp
  | first i => simp [Subtitle.ofRaw, Line.ofRaw]
  | newSub _ _ ih =>
    intro s hs
    rw [List.mem_append] at hs
    rcases hs with hs | hs
    · exact ih s hs
    · rw [List.mem_singleton.1 hs]; simp [Subtitle.ofRaw, Line.ofRaw]
  | @newLine rs out cur ls l i _ hl hm hv ih =>
    intro s hs
    rw [List.mem_append] at hs
    rcases hs with hs | hs
    · exact ih s (by simp [hs])
    · rw [List.mem_singleton.1 hs]
      have ⟨h1, h2⟩ := ih cur (by simp)
      rw [hl] at h1 h2
      refine ⟨?_, ?_⟩
      · intro m hm
        rw [List.mem_append] at hm
        rcases hm with hm | hm
        · exact h1 m hm
        · rw [List.mem_singleton.1 hm]; simp [Line.ofRaw]
      · rw [List.isChain_append]
        refine ⟨h2, by simp, ?_⟩
        intro x hx y hy
        simp at hx hy
        subst hx; subst hy
        exact hv
  | @newBlock rs out cur ls l i _ hl hm hv ih =>
    intro s hs
    rw [List.mem_append] at hs
    rcases hs with hs | hs
    · exact ih s (by simp [hs])
    · rw [List.mem_singleton.1 hs]
      have ⟨h1, h2⟩ := ih cur (by simp)
      rw [hl] at h1 h2
      refine ⟨?_, ?_⟩
      · intro m hm
        rw [List.mem_append] at hm
        rcases hm with hm | hm
        · exact h1 m (by simp [hm])
        · rw [List.mem_singleton.1 hm]; simp
      · rw [List.isChain_append] at h2 ⊢
        refine ⟨h2.1, by simp, ?_⟩
        intro x hx y hy
        simp at hy
        subst hy
        exact h2.2.2 x hx l (by simp)

/-- C14: no empty subtitle, no empty line; consecutive subtitles differ in some time, consecutive lines of a subtitle
differ in vertical position. -/
theorem C14_grouping (raws : List Raw) (out : List Subtitle) (h : collect raws = .ok out) :
    (∀ s ∈ out, s.lines ≠ [] ∧ (∀ l ∈ s.lines, l.blocks ≠ []) ∧
      List.IsChain (fun l m : Line => l.vpos.eq m.vpos = false) s.lines) ∧
    List.IsChain DifferentTimes out := by
  obtain ⟨sorted, _, hg⟩ := collectWith_grows h
  exact ⟨fun s hs => ⟨hg.lines_ne s hs, grows_lines hg s hs⟩, grows_chain hg⟩

/-- C14: nothing in, nothing out. -/
theorem C14_empty : collect [] = .ok [] := by decide

example : ∃ out, collect [exRaw b!"c" 5 0, exRaw b!"a" 2 0, exRaw b!"b" 2 1, exRaw b!"d" 5 0] = .ok out ∧
    out.map (fun s => s.lines.map (fun l => l.blocks.map (fun b => b.text))) = [[[b!"a"], [b!"b"]], [[b!"c", b!"d"]]] := by
  refine ⟨_, rfl, ?_⟩; decide +kernel

/-! ### C15  independence of order -/

/-- C15: if no two raw subtitles start at equal times, the order in which they are given does not matter. -/
theorem C15_any_order (raws raws' : List Raw) (out : List Subtitle) (hk : ∀ a ∈ raws, ∀ b ∈ raws, a.from_.SameKind b.from_)
    (hd : raws.Pairwise (fun a b => a.from_.eq b.from_ = .ok false)) (hp : raws'.Perm raws)
    (h : collect raws = .ok out) : collect raws' = .ok out := by
  unfold collect collectWith at h ⊢
  simp only [bind_eq_ok] at h
  obtain ⟨sorted, hs, h⟩ := h
  obtain ⟨hc, rfl⟩ := stableSort_ok hs
  have hk' : ∀ a ∈ raws', ∀ b ∈ raws', a.from_.SameKind b.from_ :=
    fun a ha b hb => hk a (hp.mem_iff.1 ha) b (hp.mem_iff.1 hb)
  have hc' : PairsComparable raws' := hc.perm hp.symm
  have e : sortRaws rawLe raws' = sortRaws rawLe raws := by
    rw [sortRaws_rawLe hk hc, sortRaws_rawLe hk' hc']
    have p1 := sortRaws_perm rawLe' raws
    have p2 := sortRaws_perm rawLe' raws'
    have s1 := sortRaws_pairwise raws
    have s2 := sortRaws_pairwise raws'
    refine (p2.trans (hp.trans p1.symm)).eq_of_pairwise ?_ s2 s1
    intro a b ha hb h1 h2
    have ha := hp.mem_iff.1 (p2.mem_iff.1 ha)
    have hb := p1.mem_iff.1 hb
    by_contra hne
    have hsym : Std.Symm (fun a b : Raw => a.from_.eq b.from_ = .ok false ∨ b.from_.eq a.from_ = .ok false) := ⟨fun _ _ h => h.symm⟩
    have hd' := hd.imp (S := fun a b : Raw => a.from_.eq b.from_ = .ok false ∨ b.from_.eq a.from_ = .ok false) (fun h => .inl h)
    have := hd'.forall ha hb hne
    unfold rawLe' at h1 h2
    simp only [decide_eq_true_eq] at h1 h2
    rcases this with h | h
    · have := eq_iff_key (hk a ha b hb) h
      simp [h1, h2] at this
    · have := eq_iff_key (hk b hb a ha) h
      simp [h1, h2] at this
  rw [stableSort_of_comparable hc', ok_bind, e]
  simp only [bind_eq_ok]
  exact h

example : [exRaw b!"c" 5 0, exRaw b!"a" 2 0, exRaw b!"b" 3 1].Pairwise (fun a b => a.from_.eq b.from_ = .ok false) := by
  decide +kernel

/-! ### C16  incomparable times -/

private theorem andM_error {a b : R Bool} {e : Err} (h : andM a b = .error e) : a = .error e ∨ b = .error e := by
  unfold andM at h
  split at h
  · exact .inr h
  · cases h
  · rename_i e' ; injection h with h; subst h; exact .inl rfl

private theorem time_lt_error {a b : Time} {e : Err} (h : a.lt b = .error e) : e = .unknownFrameRate ∨ e = .ub .intOverflow := by
  unfold Time.lt at h
  split at h
  · cases h
  · split at h
    · cases h
    · simp only [Time.scaled, bind_eq_error, bind_eq_ok] at h
      have ce : ∀ {x : Int} {e : Err}, ck x = .error e → e = .ub .intOverflow := by
        intro x e h; unfold ck at h; split at h <;> cases h; rfl
      rcases h with (h | ⟨_, _, h⟩) | ⟨_, _, (h | ⟨_, _, h⟩) | ⟨_, _, h⟩⟩
      · exact .inr (ce h)
      · exact .inr (ce h)
      · exact .inr (ce h)
      · exact .inr (ce h)
      · cases h
    · injection h with h; exact .inl h.symm

private theorem time_eq_error {a b : Time} {e : Err} (h : a.eq b = .error e) : e = .unknownFrameRate ∨ e = .ub .intOverflow := by
  unfold Time.eq at h
  split at h
  · cases h
  · split at h
    · cases h
    · simp only [Time.scaled, bind_eq_error, bind_eq_ok] at h
      have ce : ∀ {x : Int} {e : Err}, ck x = .error e → e = .ub .intOverflow := by
        intro x e h; unfold ck at h; split at h <;> cases h; rfl
      rcases h with (h | ⟨_, _, h⟩) | ⟨_, _, (h | ⟨_, _, h⟩) | ⟨_, _, h⟩⟩
      · exact .inr (ce h)
      · exact .inr (ce h)
      · exact .inr (ce h)
      · exact .inr (ce h)
      · cases h
  · injection h with h; exact .inl h.symm

/-- Every subtitle of the result starts with the start time of some raw subtitle of the same kind, and all times met so
far are of one kind. -/
private theorem grows_kind {rs : List Raw} {out : List Subtitle} (h : Grows rs out) :
    (∀ r ∈ rs, ∀ s ∈ out, r.from_.rate.isSome = s.from_.rate.isSome) := by
  have key : ∀ {s : Subtitle} {i : Raw} {x : Bool}, s.sameMetadata i = .ok x → i.from_.rate.isSome = s.from_.rate.isSome := by
    intro s i x h
    unfold Subtitle.sameMetadata andM at h
    cases hs : s.from_.rate <;> cases hi : i.from_.rate
    · rfl
    · simp [Time.eq, hs, hi] at h
    · simp [Time.eq, hs, hi] at h
    · rfl
  induction h with
  | nil => simp
  | first i => simp [Subtitle.ofRaw]
  | @newSub rs out cur i hg hm ih =>
    have k := key hm
    intro r hr s hs
    rw [List.mem_append] at hr hs
    rcases hr with hr | hr <;> rcases hs with hs | hs
    · exact ih r hr s hs
    · rw [List.mem_singleton.1 hs]
      rw [ih r hr cur (by simp)]; exact k.symm
    · rw [List.mem_singleton.1 hr, k]
      -- some raw subtitle was processed before
      have hne : rs ≠ [] := by
        intro e
        subst e
        have := (grows_presents hg).length_eq
        simp only [List.length_nil] at this
        have h1 := hg.lines_ne cur (by simp)
        have h2 := (grows_lines hg cur (by simp)).1
        cases hl : cur.lines with
        | nil => exact h1 hl
        | cons l ls =>
          have h3 := h2 l (by simp [hl])
          cases hb : l.blocks with
          | nil => exact h3 hb
          | cons b bs => simp [shown, hl, hb] at this
      obtain ⟨r0, hr0⟩ := List.exists_mem_of_ne_nil rs hne
      rw [← ih r0 hr0 cur (by simp), ih r0 hr0 s hs]
    · rw [List.mem_singleton.1 hr, List.mem_singleton.1 hs]; rfl
  | @newLine rs out cur ls l i hg hl hm hv ih =>
    have k := key hm
    intro r hr s hs
    have hs' : ∃ s' ∈ out ++ [cur], s'.from_ = s.from_ := by
      rw [List.mem_append] at hs
      rcases hs with hs | hs
      · exact ⟨s, by simp [hs], rfl⟩
      · exact ⟨cur, by simp, by rw [List.mem_singleton.1 hs]⟩
    obtain ⟨s', hs', e⟩ := hs'
    rw [← e]
    rw [List.mem_append] at hr
    rcases hr with hr | hr
    · exact ih r hr s' hs'
    · have hne : rs ≠ [] := by
        intro e
        subst e
        have := (grows_presents hg).length_eq
        simp only [List.length_nil] at this
        have h2 := (grows_lines hg cur (by simp)).1
        have h3 := h2 l (by simp [hl])
        cases hb : l.blocks with
        | nil => exact h3 hb
        | cons b bs => simp [shown, hl, hb] at this
      obtain ⟨r0, hr0⟩ := List.exists_mem_of_ne_nil rs hne
      rw [List.mem_singleton.1 hr, k, ← ih r0 hr0 cur (by simp), ih r0 hr0 s' hs']
  | @newBlock rs out cur ls l i hg hl hm hv ih =>
    have k := key hm
    intro r hr s hs
    have hs' : ∃ s' ∈ out ++ [cur], s'.from_ = s.from_ := by
      rw [List.mem_append] at hs
      rcases hs with hs | hs
      · exact ⟨s, by simp [hs], rfl⟩
      · exact ⟨cur, by simp, by rw [List.mem_singleton.1 hs]⟩
    obtain ⟨s', hs', e⟩ := hs'
    rw [← e]
    rw [List.mem_append] at hr
    rcases hr with hr | hr
    · exact ih r hr s' hs'
    · have hne : rs ≠ [] := by
        intro e
        subst e
        have := (grows_presents hg).length_eq
        simp only [List.length_nil] at this
        have h2 := (grows_lines hg cur (by simp)).1
        have h3 := h2 l (by simp [hl])
        cases hb : l.blocks with
        | nil => exact h3 hb
        | cons b bs => simp [shown, hl, hb] at this
      obtain ⟨r0, hr0⟩ := List.exists_mem_of_ne_nil rs hne
      rw [List.mem_singleton.1 hr, k, ← ih r0 hr0 cur (by simp), ih r0 hr0 s' hs']

/-- C16: if some start time has a frame rate and another has none, `collect` does not return, whichever pairs the
sort happens to compare and in whatever order it leaves them: the mixture is noticed at the latest when the loop
compares neighbours. -/
theorem C16_mixed (sort : List Raw → R (List Raw)) (hsort : ∀ l s, sort l = .ok s → s.Perm l)
    (raws : List Raw) (a b : Raw) (ha : a ∈ raws) (hb : b ∈ raws) (hra : a.from_.rate = none) (hrb : b.from_.rate ≠ none) :
    ∃ e, collectWith sort raws = .error e := by
  cases h : collectWith sort raws with
  | error e => exact ⟨e, rfl⟩
  | ok out =>
    exfalso
    obtain ⟨sorted, hs, hg⟩ := collectWith_grows h
    have hp := hsort _ _ hs
    have hk := grows_kind hg
    have hf := grows_presents hg
    cases out with
    | nil =>
      have := hf.length_eq
      simp only [shown, List.flatMap_nil, List.length_nil] at this
      have := List.length_eq_zero_iff.1 this
      subst this
      have := hp.mem_iff.2 ha
      simp at this
    | cons s out =>
      have h1 := hk a (hp.mem_iff.2 ha) s (by simp)
      have h2 := hk b (hp.mem_iff.2 hb) s (by simp)
      rw [hra] at h1
      rw [← h1] at h2
      cases hr : b.from_.rate with
      | none => exact hrb hr
      | some r => rw [hr] at h2; simp at h2

example (sort : List Raw → R (List Raw)) (hsort : ∀ l s, sort l = .ok s → s.Perm l) :
    ∃ e, collectWith sort [{ from_ := ⟨2, 0, some ⟨25, 1⟩⟩ }, { from_ := ⟨1, 0, none⟩ }] = .error e :=
  C16_mixed sort hsort _ { from_ := ⟨1, 0, none⟩ } { from_ := ⟨2, 0, some ⟨25, 1⟩⟩ } (by simp) (by simp) rfl (by simp)

/-- All times of a raw subtitle. -/
def Raw.times (r : Raw) : List Time := r.from_ :: r.to_ :: (r.fadeUp.toList ++ r.fadeDown.toList)

/-- `e` is the failure of a comparison of two of the given times. -/
def FromPair (raws : List Raw) (e : Err) : Prop := ∃ a ∈ raws, ∃ b ∈ raws, ∃ t ∈ a.times, ∃ u ∈ b.times, t.eq u = .error e

theorem lt_error_eq_error {a b : Time} {e : Err} (h : a.lt b = .error e) : a.eq b = .error e := by
  unfold Time.lt at h
  split at h
  · cases h
  · rename_i hs
    unfold Time.eq
    split at h
    · cases h
    · simp only [if_neg hs]
      simp only [bind_eq_error] at h ⊢
      rcases h with h | ⟨x, hx, h⟩
      · exact .inl h
      · rcases h with h | ⟨y, hy, h⟩
        · exact .inr ⟨x, hx, .inl h⟩
        · cases h
    · cases h
      rfl

private def OfRaws (raws : List Raw) (s : Subtitle) : Prop :=
  ∃ r ∈ raws, s.from_ = r.from_ ∧ s.to_ = r.to_ ∧ s.fadeUp = r.fadeUp ∧ s.fadeDown = r.fadeDown

private theorem meta_error {raws : List Raw} {s : Subtitle} {i : Raw} {e : Err} (hs : OfRaws raws s) (hi : i ∈ raws)
    (h : s.sameMetadata i = .error e) : FromPair raws e := by
  obtain ⟨r, hr, h1, h2, h3, h4⟩ := hs
  have main : ∀ t ∈ r.times, ∀ u ∈ i.times, t.eq u = .error e → FromPair raws e := by
    intro t ht u hu h
    exact ⟨r, hr, i, hi, t, ht, u, hu, h⟩
  unfold Subtitle.sameMetadata at h
  rw [h1, h2, h3, h4] at h
  rcases andM_error h with h | h
  · exact main _ (by simp [Raw.times]) _ (by simp [Raw.times]) h
  rcases andM_error h with h | h
  · exact main _ (by simp [Raw.times]) _ (by simp [Raw.times]) h
  rcases andM_error h with h | h
  · unfold optTimeEq at h
    split at h
    · cases h
    · rename_i e1 e2
      exact main _ (by simp [Raw.times, e1]) _ (by simp [Raw.times, e2]) h
    · cases h
  · unfold optTimeEq at h
    split at h
    · cases h
    · rename_i e1 e2
      exact main _ (by simp [Raw.times, e1]) _ (by simp [Raw.times, e2]) h
    · cases h

private theorem loop_error {raws : List Raw} {e : Err} (l : List Raw) (hl : ∀ i ∈ l, i ∈ raws)
    (st : List Subtitle × Option Subtitle) (hst : ∀ s, st.2 = some s → OfRaws raws s)
    (h : collectLoop st l = .error e) : FromPair raws e := by
  induction l generalizing st with
  | nil => simp [collectLoop] at h
  | cons i l ih =>
    have hi := hl i (by simp)
    unfold collectLoop at h
    simp only [bind_eq_error] at h
    rcases h with h | ⟨st', hst', h⟩
    · unfold collectStep at h
      split at h
      · cases h
      · rename_i cur hcur
        simp only [bind_eq_error] at h
        rcases h with h | ⟨same, _, h⟩
        · exact meta_error (hst _ hcur) hi h
        · cases same <;> simp only [if_true, Bool.false_eq_true, if_false] at h
          · cases h
          · split at h
            · split at h <;> cases h
            · cases h
    · refine ih (fun x hx => hl x (by simp [hx])) st' ?_ h
      intro s hs
      have new : OfRaws raws (Subtitle.ofRaw i) := ⟨i, hi, rfl, rfl, rfl, rfl⟩
      unfold collectStep at hst'
      split at hst'
      · cases hst'; cases hs; exact new
      · rename_i cur hcur
        obtain ⟨r, hr, h1, h2, h3, h4⟩ := hst _ hcur
        simp only [bind_eq_ok] at hst'
        obtain ⟨same, _, h'⟩ := hst'
        cases same <;> simp only [if_true, Bool.false_eq_true, if_false] at h'
        · cases h'; cases hs; exact new
        · split at h'
          · split at h' <;> cases h' <;> cases hs <;> exact ⟨r, hr, h1, h2, h3, h4⟩
          · cases h'; cases hs; exact ⟨r, hr, h1, h2, h3, h4⟩

private theorem collect_error {raws : List Raw} {e : Err} (h : collect raws = .error e) : FromPair raws e := by
  have hcmp : ∀ (a : Raw), a ∈ raws → ∀ (l : List Raw), (∀ b ∈ l, b ∈ raws) → allComparable.go a l = .error e → FromPair raws e := by
    intro a ha l hl
    induction l with
    | nil => intro h; simp [allComparable.go] at h
    | cons b l ih =>
      intro h
      unfold allComparable.go at h
      simp only [bind_eq_error] at h
      rcases h with h | ⟨_, _, h⟩
      · exact ⟨a, ha, b, hl b (by simp), a.from_, by simp [Raw.times], b.from_, by simp [Raw.times], lt_error_eq_error h⟩
      · exact ih (fun x hx => hl x (by simp [hx])) h
  have hall : ∀ (l : List Raw), (∀ b ∈ l, b ∈ raws) → allComparable l = .error e → FromPair raws e := by
    intro l hl
    induction l with
    | nil => intro h; simp [allComparable] at h
    | cons a l ih =>
      intro h
      unfold allComparable at h
      simp only [bind_eq_error] at h
      rcases h with h | ⟨_, _, h⟩
      · exact hcmp a (hl a (by simp)) l (fun x hx => hl x (by simp [hx])) h
      · exact ih (fun x hx => hl x (by simp [hx])) h
  unfold collect collectWith at h
  simp only [bind_eq_error] at h
  rcases h with h | ⟨sorted, hs, h | ⟨_, _, h⟩⟩
  · unfold stableSort at h
    simp only [bind_eq_error] at h
    rcases h with h | ⟨_, _, h⟩
    · exact hall _ (fun _ h => h) h
    · cases h
  · obtain ⟨_, rfl⟩ := stableSort_ok hs
    exact loop_error _ (fun i hi => (sortRaws_perm _ _).mem_iff.1 hi) _ (by simp) h
  · cases h

/-- C16: the only ways `collect` can fail are the exception about unknown frame rates and overflow of `int`, in a
comparison of two of the times. -/
theorem C16_errors (raws : List Raw) (e : Err) (h : collect raws = .error e) : (e = .unknownFrameRate ∨ e = .ub .intOverflow) ∧ FromPair raws e := by
  have hp := collect_error h
  refine ⟨?_, hp⟩
  obtain ⟨_, _, _, _, _, _, _, _, h⟩ := hp
  exact time_eq_error h

/-- C16: if some start time has a frame rate and another has none, and the times are such that comparing two of them never
overflows, then `collect` raises `UnknownFrameRateError`. -/
theorem C16_refuses_mixed (raws : List Raw) (a b : Raw) (ha : a ∈ raws) (hb : b ∈ raws) (hra : a.from_.rate = none)
    (hrb : b.from_.rate ≠ none)
    (hno : ∀ x ∈ raws, ∀ y ∈ raws, ∀ t ∈ x.times, ∀ u ∈ y.times, t.eq u ≠ .error (.ub .intOverflow)) :
    collect raws = .error .unknownFrameRate := by
  obtain ⟨e, he⟩ := C16_mixed stableSort (fun l s h => by obtain ⟨_, rfl⟩ := stableSort_ok h; exact sortRaws_perm _ _) raws a b ha hb hra hrb
  obtain ⟨rfl | rfl, x, hx, y, hy, t, ht, u, hu, h⟩ := C16_errors raws e he
  · exact he
  · exact absurd h (hno x hx y hy t ht u hu)

/-- C16: the overflow is real: two times in one second at 60000/1001 (59.94) frames per second. -/
theorem C16_overflow_witness :
    collect [{ from_ := ⟨1, 40, some ⟨60000, 1001⟩⟩ }, { from_ := ⟨1, 50, some ⟨60000, 1001⟩⟩ }] = .error (.ub .intOverflow) := by
  decide +kernel

example : collect [{ from_ := ⟨1, 0, none⟩ }, { from_ := ⟨2, 0, some ⟨25, 1⟩⟩ }] = .error .unknownFrameRate := by decide +kernel
example : ∀ x ∈ ([{ from_ := ⟨1, 0, none⟩ }, { from_ := ⟨2, 0, some ⟨25, 1⟩⟩ }] : List Raw),
    ∀ y ∈ ([{ from_ := ⟨1, 0, none⟩ }, { from_ := ⟨2, 0, some ⟨25, 1⟩⟩ }] : List Raw),
    ∀ t ∈ x.times, ∀ u ∈ y.times, t.eq u ≠ .error (.ub .intOverflow) := by decide +kernel

/-! ### C20  horizontal positions -/

/-- C20, full claim: every block is in a line with its own horizontal position. -/
def C20_statement : Prop :=
  ∀ (raws : List Raw) (out : List Subtitle), collect raws = .ok out →
    ∃ sorted : List Raw, sorted.Perm raws ∧ List.Forall₂ (fun r (p : Shown) => p.hpos = r.hpos) sorted (shown out)

private theorem forall₂_mem {α β : Type} {R : α → β → Prop} {l : List α} {m : List β} (h : List.Forall₂ R l m) {x : α}
    (hx : x ∈ l) : ∃ y ∈ m, R x y := by
  induction h with
  | nil => simp at hx
  | cons hab _ ih =>
    rw [List.mem_cons] at hx
    rcases hx with rfl | hx
    · exact ⟨_, by simp, hab⟩
    · obtain ⟨y, hy, e⟩ := ih hx
      exact ⟨y, by simp [hy], e⟩

/-- C20 is false: two parts with the same vertical position are merged whatever their horizontal positions. -/
theorem C20_false : ¬ C20_statement := by
  intro h
  let l : Raw := { exRaw b!"left" 1 0 with hpos := ⟨.left, 0⟩ }
  let r : Raw := { exRaw b!"right" 1 0 with hpos := ⟨.right, 0⟩ }
  let out : List Subtitle := [{ from_ := l.from_, to_ := l.to_, lines := [{ hpos := l.hpos, vpos := l.vpos, blocks := [Block.ofRaw l, Block.ofRaw r] }] }]
  obtain ⟨sorted, hp, hf⟩ := h [l, r] out (by decide +kernel)
  obtain ⟨p, hp, e⟩ := forall₂_mem hf (hp.mem_iff.2 (by simp : r ∈ [l, r]))
  have key : ∀ p ∈ shown out, p.hpos.ref = HRef.left := by decide +kernel
  have := key p hp
  rw [e] at this
  cases this

private theorem grows_hpos {rs : List Raw} {out : List Subtitle} (h : Grows rs out)
    (hu : ∀ a ∈ rs, ∀ b ∈ rs, a.vpos.eq b.vpos = true → a.hpos = b.hpos) :
    List.Forall₂ (fun r (p : Shown) => p.hpos = r.hpos) rs (shown out) ∧
    ∀ s ∈ out, ∀ l ∈ s.lines, ∃ r ∈ rs, l.vpos = r.vpos ∧ l.hpos = r.hpos := by
  induction h with
  | nil => exact ⟨.nil, by simp⟩
  | first i => exact ⟨.cons rfl .nil, by simp [Subtitle.ofRaw, Line.ofRaw]⟩
  | @newSub rs out cur i _ _ ih =>
    obtain ⟨ih1, ih2⟩ := ih (fun a ha b hb => hu a (by simp [ha]) b (by simp [hb]))
    have e : shown (out ++ [cur] ++ [Subtitle.ofRaw i]) = shown (out ++ [cur]) ++
        [⟨i.from_, i.to_, i.fadeUp, i.fadeDown, i.hpos, i.vpos, Block.ofRaw i⟩] := by
      simp [shown, Subtitle.ofRaw, Line.ofRaw]
    rw [e]
    refine ⟨List.rel_append ih1 (.cons rfl .nil), ?_⟩
    intro s hs l hl
    rw [List.mem_append] at hs
    rcases hs with hs | hs
    · obtain ⟨r, hr, h⟩ := ih2 s hs l hl
      exact ⟨r, by simp [hr], h⟩
    · rw [List.mem_singleton.1 hs] at hl
      simp [Subtitle.ofRaw, Line.ofRaw] at hl
      exact ⟨i, by simp, by rw [hl], by rw [hl]⟩
  | @newLine rs out cur ls l i _ hl hm _ ih =>
    obtain ⟨ih1, ih2⟩ := ih (fun a ha b hb => hu a (by simp [ha]) b (by simp [hb]))
    have e : shown (out ++ [{ cur with lines := ls ++ [l] ++ [Line.ofRaw i] }]) = shown (out ++ [cur]) ++
        [⟨cur.from_, cur.to_, cur.fadeUp, cur.fadeDown, i.hpos, i.vpos, Block.ofRaw i⟩] := by
      simp [shown, Line.ofRaw, hl]
    rw [e]
    refine ⟨List.rel_append ih1 (.cons rfl .nil), ?_⟩
    intro s hs m hm'
    rw [List.mem_append] at hs
    rcases hs with hs | hs
    · obtain ⟨r, hr, h⟩ := ih2 s (by simp [hs]) m hm'
      exact ⟨r, by simp [hr], h⟩
    · rw [List.mem_singleton.1 hs] at hm'
      simp only [List.mem_append] at hm'
      rcases hm' with hm' | hm'
      · obtain ⟨r, hr, h⟩ := ih2 cur (by simp) m (by rw [hl]; simpa using hm')
        exact ⟨r, by simp [hr], h⟩
      · rw [List.mem_singleton.1 hm']
        exact ⟨i, by simp, rfl, rfl⟩
  | @newBlock rs out cur ls l i _ hl hm hv ih =>
    obtain ⟨ih1, ih2⟩ := ih (fun a ha b hb => hu a (by simp [ha]) b (by simp [hb]))
    have e : shown (out ++ [{ cur with lines := ls ++ [{ l with blocks := l.blocks ++ [Block.ofRaw i] }] }]) = shown (out ++ [cur]) ++
        [⟨cur.from_, cur.to_, cur.fadeUp, cur.fadeDown, l.hpos, l.vpos, Block.ofRaw i⟩] := by
      simp [shown, hl]
    obtain ⟨r0, hr0, v0, p0⟩ := ih2 cur (by simp) l (by simp [hl])
    have hli : l.hpos = i.hpos := by
      rw [p0]
      apply hu r0 (by simp [hr0]) i (by simp)
      rw [← v0]
      exact hv
    rw [e]
    refine ⟨List.rel_append ih1 (.cons hli .nil), ?_⟩
    intro s hs m hm'
    rw [List.mem_append] at hs
    rcases hs with hs | hs
    · obtain ⟨r, hr, h⟩ := ih2 s (by simp [hs]) m hm'
      exact ⟨r, by simp [hr], h⟩
    · rw [List.mem_singleton.1 hs] at hm'
      simp only [List.mem_append] at hm'
      rcases hm' with hm' | hm'
      · obtain ⟨r, hr, h⟩ := ih2 cur (by simp) m (by simp [hl, hm'])
        exact ⟨r, by simp [hr], h⟩
      · rw [List.mem_singleton.1 hm']
        exact ⟨r0, by simp [hr0], v0, p0⟩

/-- C20, for raw subtitles in which parts with equal vertical position have the same horizontal position (as all text
readers produce unless tags move the text). -/
theorem C20_uniform_partial (raws : List Raw) (out : List Subtitle)
    (hu : ∀ a ∈ raws, ∀ b ∈ raws, a.vpos.eq b.vpos = true → a.hpos = b.hpos) (h : collect raws = .ok out) :
    ∃ sorted : List Raw, sorted.Perm raws ∧ List.Forall₂ (fun r (p : Shown) => p.hpos = r.hpos) sorted (shown out) := by
  obtain ⟨sorted, hs, hg⟩ := collectWith_grows h
  obtain ⟨_, rfl⟩ := stableSort_ok hs
  have hp := sortRaws_perm rawLe raws
  exact ⟨_, hp, (grows_hpos hg (fun a ha b hb => hu a (hp.mem_iff.1 ha) b (hp.mem_iff.1 hb))).1⟩

example : ∀ a ∈ [exRaw b!"a" 2 0, exRaw b!"b" 2 1], ∀ b ∈ [exRaw b!"a" 2 0, exRaw b!"b" 2 1],
    a.vpos.eq b.vpos = true → a.hpos = b.hpos := by decide +kernel

/-- The line shows the raw subtitles `g`, and is placed where the first of them is. -/
def LineOf (g : List Raw) (l : Line) : Prop := l.blocks = g.map Block.ofRaw ∧ ∃ r, g.head? = some r ∧ l.hpos = r.hpos ∧ l.vpos = r.vpos

private theorem grows_groups {rs : List Raw} {out : List Subtitle} (h : Grows rs out) :
    ∃ groups : List (List Raw), groups.flatten = rs ∧ List.Forall₂ LineOf groups (out.flatMap Subtitle.lines) := by
  induction h with
  | nil => exact ⟨[], rfl, .nil⟩
  | first i => exact ⟨[[i]], rfl, .cons ⟨rfl, i, rfl, rfl, rfl⟩ .nil⟩
  | @newSub rs out cur i _ _ ih =>
    obtain ⟨gs, e, f⟩ := ih
    refine ⟨gs ++ [[i]], by simp [e], ?_⟩
    rw [List.flatMap_append]
    exact List.rel_append f (.cons ⟨rfl, i, rfl, rfl, rfl⟩ .nil)
  | @newLine rs out cur ls l i _ hl hm _ ih =>
    obtain ⟨gs, e, f⟩ := ih
    refine ⟨gs ++ [[i]], by simp [e], ?_⟩
    have : (out ++ [{ cur with lines := ls ++ [l] ++ [Line.ofRaw i] }]).flatMap Subtitle.lines = (out ++ [cur]).flatMap Subtitle.lines ++ [Line.ofRaw i] := by simp [hl]
    rw [this]
    exact List.rel_append f (.cons ⟨rfl, i, rfl, rfl, rfl⟩ .nil)
  | @newBlock rs out cur ls l i _ hl hm hv ih =>
    obtain ⟨gs, e, f⟩ := ih
    have e1 : (out ++ [cur]).flatMap Subtitle.lines = (out.flatMap Subtitle.lines ++ ls) ++ [l] := by simp [hl]
    have e2 : (out ++ [{ cur with lines := ls ++ [{ l with blocks := l.blocks ++ [Block.ofRaw i] }] }]).flatMap Subtitle.lines =
        (out.flatMap Subtitle.lines ++ ls) ++ [{ l with blocks := l.blocks ++ [Block.ofRaw i] }] := by simp
    rw [e1] at f
    have h1 := List.forall₂_take_append _ _ _ f
    have h2 := List.forall₂_drop_append _ _ _ f
    generalize hn : (out.flatMap Subtitle.lines ++ ls).length = n at h1 h2
    have hgs : gs = gs.take n ++ gs.drop n := (List.take_append_drop n gs).symm
    generalize gs.take n = gs' at h1 hgs
    generalize gs.drop n = g' at h2 hgs
    subst hgs
    cases h2 with
    | cons hg hn =>
      rename_i g _
      cases hn
      obtain ⟨hb, r, hr, hp⟩ := hg
      refine ⟨gs' ++ [g ++ [i]], ?_, ?_⟩
      · simp at e
        simp [← e]
      · rw [e2]
        refine List.rel_append h1 (.cons ⟨?_, r, ?_, hp⟩ .nil)
        · simp [hb]
        · cases g with
          | nil => cases hr
          | cons x xs => exact hr

/-- C20, what is true of every input: the raw subtitles, sorted, fall into groups, one for each line, and the line has the horizontal and vertical position of the first of its group.  (Missing: the
positions of the others.) -/
theorem C20_first_partial (raws : List Raw) (out : List Subtitle) (h : collect raws = .ok out) :
    ∃ groups : List (List Raw), groups.flatten.Perm raws ∧ List.Forall₂ LineOf groups (out.flatMap Subtitle.lines) := by
  obtain ⟨sorted, hs, hg⟩ := collectWith_grows h
  obtain ⟨_, rfl⟩ := stableSort_ok hs
  obtain ⟨gs, e, f⟩ := grows_groups hg
  exact ⟨gs, by rw [e]; exact sortRaws_perm rawLe raws, f⟩

example : LineOf [{ exRaw b!"left" 1 0 with hpos := ⟨.left, 0⟩ }, { exRaw b!"right" 1 0 with hpos := ⟨.right, 0⟩ }]
    { hpos := ⟨.left, 0⟩, vpos := (exRaw b!"left" 1 0).vpos, blocks := [Block.ofRaw (exRaw b!"left" 1 0), Block.ofRaw (exRaw b!"right" 1 0)] } :=
  ⟨rfl, _, rfl, rfl, rfl⟩

end LibSub
