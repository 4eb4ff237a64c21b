/-
Property C81: `collect` rebuilds subtitles from their pieces, and does nothing the second time.
-/
import Verif.Lemmas.Regroup
import Verif.Props.Collect

namespace LibSub

/-! ### Specification

`Subtitle.pieces` (every block with the position of its line and the times of its subtitle), `Subtitle.Shaped`,
`Subtitle.SelfEqual` and `Subtitle.Differs` are in `Verif/Lemmas/Regroup.lean`. -/

/-- The subtitles can be compared with each other: start times of one kind and no overflow, and each with itself. -/
def Comparable (subs : List Subtitle) : Prop :=
  (∀ s ∈ subs, s.SelfEqual) ∧ ∀ s ∈ subs, ∀ t ∈ subs, s.from_.SameKind t.from_ ∧ ∃ x, s.from_.lt t.from_ = .ok x

private theorem sorted_id (subs : List Subtitle) (h : subs.Pairwise (fun s t => ¬ t.from_.keyLt s.from_)) : sortSubtitles subs = subs := by
  have := sortSubtitles_sublist h (List.Sublist.refl subs)
  exact (this.eq_of_length (sortSubtitles_perm subs).length_eq.symm).symm

private theorem keyLt_of_lt {a b : Time} (hk : a.SameKind b) (x : Bool) (h : a.lt b = .ok x) : a.keyLt b ↔ x = true := by
  have := lt_eq_key hk h
  rw [this]; simp

/-- C81: taken apart and collected again, subtitles that are in order of their start times, each with other times than its
neighbour, come out exactly as they were: the same subtitles, lines, blocks. -/
theorem C81_ordered (subs : List Subtitle) (hc : Comparable subs) (hs : ∀ s ∈ subs, s.Shaped) (hd : List.IsChain Subtitle.Differs subs)
    (ho : subs.Pairwise (fun s t => t.from_.lt s.from_ = .ok false)) : collect (subs.flatMap Subtitle.pieces) = .ok subs := by
  have hid : sortSubtitles subs = subs := by
    apply sorted_id
    refine ho.imp_of_mem ?_
    intro s t h1 h2 h
    rw [keyLt_of_lt (hc.2 t h2 s h1).1 _ h]
    simp
  have := collect_pieces subs (fun s h => ⟨hc.1 s h, hs s h⟩) hc.2 (by rw [hid]; exact hd)
  rwa [hid] at this

/-- C81: given in any order, subtitles of which no two have the same times come out as they were, sorted by start time, those that start
at the same time in the given order. -/
theorem C81_any_order (subs : List Subtitle) (hc : Comparable subs) (hs : ∀ s ∈ subs, s.Shaped)
    (hd : subs.Pairwise (fun s t => s.Differs t ∧ t.Differs s)) :
    ∃ out, collect (subs.flatMap Subtitle.pieces) = .ok out ∧ out.Perm subs ∧
      out.Pairwise (fun s t => t.from_.lt s.from_ = .ok false) ∧
      ∀ s t, [s, t].Sublist subs → s.from_.eq t.from_ = .ok true → [s, t].Sublist out := by
  have hp := sortSubtitles_perm subs
  refine ⟨sortSubtitles subs, ?_, hp, ?_, ?_⟩
  · refine collect_pieces subs (fun s h => ⟨hc.1 s h, hs s h⟩) hc.2 ?_
    apply List.Pairwise.isChain
    have hd' := (hp.symm.pairwise_iff (R := fun s t : Subtitle => s.Differs t ∧ t.Differs s) (fun h => ⟨h.2, h.1⟩)).1 hd
    exact hd'.imp (fun h => h.1)
  · refine (sortSubtitles_pairwise subs).imp_of_mem ?_
    intro s t h1 h2 h
    have h1 := hp.mem_iff.1 h1
    have h2 := hp.mem_iff.1 h2
    obtain ⟨hk, x, hx⟩ := hc.2 t h2 s h1
    rw [keyLt_of_lt hk x hx] at h
    rw [hx, Bool.not_eq_true _ |>.mp h]
  · intro s t hsub he
    apply sortSubtitles_sublist _ hsub
    have h1 : s ∈ subs := hsub.subset (by simp)
    have h2 : t ∈ subs := hsub.subset (by simp)
    have hk := eq_iff_key (hc.2 s h1 t h2).1 he
    rw [eq_comm, decide_eq_true_eq] at hk
    simpa using hk.2

/-! ### Twice -/

private theorem vpos_self {a b : VPos} (h : a.eq b = true) : a.eq a = true := by
  unfold VPos.eq at *
  rcases a with ⟨p, l, n, r⟩
  rcases b with ⟨p', l', n', r'⟩
  cases p <;> cases l <;> cases n <;> cases r <;> simp_all

private theorem differs_of_metadata {s : Subtitle} {r : Raw} (h : s.sameMetadata r = .ok false) : s.Differs (Subtitle.ofRaw r) := by
  have : r = (Subtitle.ofRaw r).piece (Line.ofRaw r) (Block.ofRaw r) := by cases r; rfl
  rw [this] at h
  exact (sameMetadata_iff _ _ _ _).1 h

private theorem differs_congr {s t s' t' : Subtitle} (h : s.Differs t)
    (hs : s'.from_ = s.from_ ∧ s'.to_ = s.to_ ∧ s'.fadeUp = s.fadeUp ∧ s'.fadeDown = s.fadeDown)
    (ht : t'.from_ = t.from_ ∧ t'.to_ = t.to_ ∧ t'.fadeUp = t.fadeUp ∧ t'.fadeDown = t.fadeDown) : s'.Differs t' := by
  unfold Subtitle.Differs at *
  rw [hs.1, hs.2.1, hs.2.2.1, hs.2.2.2, ht.1, ht.2.1, ht.2.2.1, ht.2.2.2]
  exact h

private theorem chain_differs_replace {out : List Subtitle} {cur cur' : Subtitle}
    (h : List.IsChain Subtitle.Differs (out ++ [cur]))
    (hc : cur'.from_ = cur.from_ ∧ cur'.to_ = cur.to_ ∧ cur'.fadeUp = cur.fadeUp ∧ cur'.fadeDown = cur.fadeDown) :
    List.IsChain Subtitle.Differs (out ++ [cur']) := by
  rw [List.isChain_append] at *
  refine ⟨h.1, by simp, ?_⟩
  intro x hx y hy
  simp at hy
  subst hy
  exact differs_congr (h.2.2 x hx cur (by simp)) ⟨rfl, rfl, rfl, rfl⟩ hc

private theorem grows_differs {rs : List Raw} {out : List Subtitle} (h : Grows rs out) : List.IsChain Subtitle.Differs out := by
  induction h with
  | nil => simp
  | first i => simp
  | @newSub rs out cur i _ hm ih =>
    rw [List.isChain_append]
    refine ⟨ih, by simp, ?_⟩
    intro x hx y hy
    simp at hx hy
    subst hx; subst hy
    exact differs_of_metadata hm
  | newLine _ _ _ _ ih => exact chain_differs_replace ih ⟨rfl, rfl, rfl, rfl⟩
  | newBlock _ _ _ _ ih => exact chain_differs_replace ih ⟨rfl, rfl, rfl, rfl⟩

private theorem grows_times {rs : List Raw} {out : List Subtitle} (h : Grows rs out) :
    ∀ s ∈ out, ∃ r ∈ rs, s.from_ = r.from_ ∧ s.to_ = r.to_ ∧ s.fadeUp = r.fadeUp ∧ s.fadeDown = r.fadeDown := by
  induction h with
  | nil => simp
  | first i => intro s hs; rw [List.mem_singleton.1 hs]; exact ⟨i, by simp, rfl, rfl, rfl, rfl⟩
  | @newSub rs out cur i _ hm ih =>
    intro s hs
    rw [List.mem_append] at hs
    rcases hs with hs | hs
    · obtain ⟨r, h1, h2⟩ := ih s hs
      exact ⟨r, by simp [h1], h2⟩
    · rw [List.mem_singleton.1 hs]; exact ⟨i, by simp, rfl, rfl, rfl, rfl⟩
  | @newLine rs out cur ls l i _ hl hm hv ih =>
    intro s hs
    rw [List.mem_append] at hs
    rcases hs with hs | hs
    · obtain ⟨r, h1, h2⟩ := ih s (by simp [hs])
      exact ⟨r, by simp [h1], h2⟩
    · rw [List.mem_singleton.1 hs]
      obtain ⟨r, h1, h2⟩ := ih cur (by simp)
      exact ⟨r, by simp [h1], h2⟩
  | @newBlock rs out cur ls l i _ hl hm hv ih =>
    intro s hs
    rw [List.mem_append] at hs
    rcases hs with hs | hs
    · obtain ⟨r, h1, h2⟩ := ih s (by simp [hs])
      exact ⟨r, by simp [h1], h2⟩
    · rw [List.mem_singleton.1 hs]
      obtain ⟨r, h1, h2⟩ := ih cur (by simp)
      exact ⟨r, by simp [h1], h2⟩

private theorem grows_self {rs : List Raw} {out : List Subtitle} (h : Grows rs out) :
    ∀ s ∈ out, ∀ l ∈ s.lines, l.blocks.length = 1 ∨ l.vpos.eq l.vpos = true := by
  induction h with
  | nil => simp
  | first i => simp [Subtitle.ofRaw, Line.ofRaw]
  | newSub _ _ ih =>
    intro s hs
    rw [List.mem_append] at hs
    rcases hs with hs | hs
    · exact ih s hs
    · rw [List.mem_singleton.1 hs]; simp [Subtitle.ofRaw, Line.ofRaw]
  | @newLine rs out cur ls l i _ hl hm hv ih =>
    intro s hs
    rw [List.mem_append] at hs
    rcases hs with hs | hs
    · exact ih s (by simp [hs])
    · rw [List.mem_singleton.1 hs]
      have h1 := ih cur (by simp)
      rw [hl] at h1
      intro m hm
      rw [List.mem_append] at hm
      rcases hm with hm | hm
      · exact h1 m hm
      · rw [List.mem_singleton.1 hm]; simp [Line.ofRaw]
  | @newBlock rs out cur ls l i _ hl hm hv ih =>
    intro s hs
    rw [List.mem_append] at hs
    rcases hs with hs | hs
    · exact ih s (by simp [hs])
    · rw [List.mem_singleton.1 hs]
      have h1 := ih cur (by simp)
      rw [hl] at h1
      intro m hm
      rw [List.mem_append] at hm
      rcases hm with hm | hm
      · exact h1 m (by simp [hm])
      · rw [List.mem_singleton.1 hm]
        exact .inr (vpos_self hv)

/-- C81: `collect` of what `collect` returned (taken apart) returns it again. -/
theorem C81_twice (raws : List Raw) (out : List Subtitle) (hk : ∀ a ∈ raws, ∀ b ∈ raws, a.from_.SameKind b.from_)
    (ht : ∀ r ∈ raws, (Subtitle.ofRaw r).SelfEqual) (h : collect raws = .ok out) : collect (out.flatMap Subtitle.pieces) = .ok out := by
  have h0 := h
  obtain ⟨sorted, hs, hg⟩ := collectWith_grows h
  obtain ⟨hc, rfl⟩ := stableSort_ok hs
  have hp := sortRaws_perm rawLe raws
  have hg14 := C14_grouping raws out h0
  have htimes : ∀ s ∈ out, ∃ r ∈ raws, s.from_ = r.from_ ∧ s.to_ = r.to_ ∧ s.fadeUp = r.fadeUp ∧ s.fadeDown = r.fadeDown := by
    intro s h
    obtain ⟨r, h1, h2⟩ := grows_times hg s h
    exact ⟨r, hp.mem_iff.1 h1, h2⟩
  refine C81_ordered out ⟨?_, ?_⟩ ?_ (grows_differs hg) (C13_subtitles_ordered raws out hk h0)
  · intro s h
    obtain ⟨r, h1, h2, h3, h4, h5⟩ := htimes s h
    have := ht r h1
    unfold Subtitle.SelfEqual at *
    rw [h2, h3, h4, h5]
    exact this
  · have self := ht
    intro s hs t ht
    obtain ⟨r, h1, h2, _⟩ := htimes s hs
    obtain ⟨r', h1', h2', _⟩ := htimes t ht
    rw [h2, h2']
    refine ⟨hk r h1 r' h1', ?_⟩
    obtain rfl | h := hc.mem h1 h1'
    · cases e : r.from_.lt r.from_ with
      | ok x => exact ⟨x, rfl⟩
      | error e' => exact absurd (lt_error_eq_error e) (by rw [show r.from_.eq r.from_ = .ok true from (self r h1).1]; simp)
    · exact h
  · intro s hs
    obtain ⟨h1, h2, h3⟩ := hg14.1 s hs
    exact ⟨h1, fun l hl => ⟨h2 l hl, grows_self hg s hs l hl⟩, h3⟩

/-- A subtitle for the examples: two lines, the first of two blocks. -/
def exSubtitle (secs : Int) : Subtitle where
  from_ := ⟨secs, 0, some ⟨25, 1⟩⟩
  to_ := ⟨secs + 1, 0, some ⟨25, 1⟩⟩
  lines := [{ vpos := { line := some 0, ref := some .topOfSubtitle }, blocks := [{ text := b!"a" }, { text := b!"b", bold := true }] }, { vpos := { line := some 1, ref := some .topOfSubtitle }, blocks := [{ text := b!"c" }] }]

theorem exSubtitle_shaped (secs : Int) : (exSubtitle secs).Shaped := by
  show (exSubtitle 0).Shaped
  unfold Subtitle.Shaped
  decide

private theorem exComparable : Comparable [exSubtitle 5, exSubtitle 2] := by
  refine ⟨?_, ?_⟩
  · intro s hs
    simp only [List.mem_cons, List.not_mem_nil, or_false] at hs
    rcases hs with rfl | rfl <;> exact ⟨rfl, rfl, rfl, rfl⟩
  · intro s hs t ht
    simp only [List.mem_cons, List.not_mem_nil, or_false] at hs ht
    rcases hs with rfl | rfl <;> rcases ht with rfl | rfl <;>
      exact ⟨.inl ⟨⟨_, rfl, by decide⟩, ⟨_, rfl, by decide⟩⟩, ⟨_, rfl⟩⟩

example : ∃ out, collect ([exSubtitle 5, exSubtitle 2].flatMap Subtitle.pieces) = .ok out ∧ out.Perm [exSubtitle 5, exSubtitle 2] := by
  obtain ⟨out, h1, h2, _⟩ := C81_any_order [exSubtitle 5, exSubtitle 2] exComparable (by simp [exSubtitle_shaped])
    (by simpa using ⟨.inl rfl, .inl rfl⟩)
  exact ⟨out, h1, h2⟩

example : (collect ([exSubtitle 5, exSubtitle 2].flatMap Subtitle.pieces)).toOption = some [exSubtitle 2, exSubtitle 5] := by decide +kernel

example : collect ([exSubtitle 2, exSubtitle 5].flatMap Subtitle.pieces) = .ok [exSubtitle 2, exSubtitle 5] :=
  C81_ordered _ ⟨fun s h => exComparable.1 s (by simpa [or_comm] using h), fun s h t h' => exComparable.2 s (by simpa [or_comm] using h) t (by simpa [or_comm] using h')⟩
    (by simp [exSubtitle_shaped]) (by simpa using .inl rfl) (List.pairwise_pair.2 rfl)

example : ∀ r ∈ [exRaw b!"c" 5 0, exRaw b!"a" 2 0], (Subtitle.ofRaw r).SelfEqual := by
  intro r hr
  simp only [List.mem_cons, List.not_mem_nil, or_false] at hr
  rcases hr with rfl | rfl <;> exact ⟨rfl, rfl, rfl, rfl⟩

end LibSub
