/-
Helper lemmas: `collect` on the pieces of subtitles that are already grouped.
-/
import Verif.Lemmas.Collect
import Mathlib.Data.List.Chain

namespace LibSub

/-- A block of a line of a subtitle as a raw subtitle. -/
def Subtitle.piece (s : Subtitle) (l : Line) (b : Block) : Raw :=
  { text := b.text, font := b.font, fontSize := b.fontSize, effect := b.effect, effectColour := b.effectColour,
    colour := b.colour, bold := b.bold, italic := b.italic, underline := b.underline, hpos := l.hpos, vpos := l.vpos,
    from_ := s.from_, to_ := s.to_, fadeUp := s.fadeUp, fadeDown := s.fadeDown }

/-- All blocks of a subtitle as raw subtitles, in order. -/
def Subtitle.pieces (s : Subtitle) : List Raw := s.lines.flatMap fun l => l.blocks.map (s.piece l)

/-- The times of the subtitle equal themselves (no comparison overflows). -/
def Subtitle.SelfEqual (s : Subtitle) : Prop :=
  s.from_.eq s.from_ = .ok true ∧ s.to_.eq s.to_ = .ok true ∧ optTimeEq s.fadeUp s.fadeUp = .ok true ∧
    optTimeEq s.fadeDown s.fadeDown = .ok true

/-- The first of the times (start, end, fade up, fade down) that are not equal is known to be different. -/
def Subtitle.Differs (s t : Subtitle) : Prop :=
  s.from_.eq t.from_ = .ok false ∨ (s.from_.eq t.from_ = .ok true ∧
    (s.to_.eq t.to_ = .ok false ∨ (s.to_.eq t.to_ = .ok true ∧
      (optTimeEq s.fadeUp t.fadeUp = .ok false ∨ (optTimeEq s.fadeUp t.fadeUp = .ok true ∧
        optTimeEq s.fadeDown t.fadeDown = .ok false)))))

/-- Some lines, none empty; neighbouring lines at different vertical positions; a line of several blocks has a position
that equals itself. -/
def Subtitle.Shaped (s : Subtitle) : Prop :=
  s.lines ≠ [] ∧ (∀ l ∈ s.lines, l.blocks ≠ [] ∧ (l.blocks.length = 1 ∨ l.vpos.eq l.vpos = true)) ∧
    List.IsChain (fun l m : Line => l.vpos.eq m.vpos = false) s.lines

theorem ofRaw_piece (s : Subtitle) (l : Line) (b : Block) : Block.ofRaw (s.piece l b) = b := rfl

theorem sameMetadata_piece {s t : Subtitle} (l : Line) (b : Block)
    (h : t.from_ = s.from_ ∧ t.to_ = s.to_ ∧ t.fadeUp = s.fadeUp ∧ t.fadeDown = s.fadeDown) (hs : s.SelfEqual) :
    t.sameMetadata (s.piece l b) = .ok true := by
  obtain ⟨h1, h2, h3, h4⟩ := hs
  unfold Subtitle.sameMetadata Subtitle.piece
  simp only [h.1, h.2.1, h.2.2.1, h.2.2.2, h1, h2, h3, h4, andM]

theorem sameMetadata_iff (s t : Subtitle) (l : Line) (b : Block) : s.sameMetadata (t.piece l b) = .ok false ↔ s.Differs t := by
  unfold Subtitle.sameMetadata Subtitle.Differs Subtitle.piece
  simp only
  rcases s.from_.eq t.from_ with e | _ | _ <;> rcases s.to_.eq t.to_ with e | _ | _ <;>
    rcases optTimeEq s.fadeUp t.fadeUp with e | _ | _ <;> rcases optTimeEq s.fadeDown t.fadeDown with e | _ | _ <;>
    simp [andM]

/-- More blocks of the last line. -/
theorem collectLoop_blocks (o : List Subtitle) (s : Subtitle) (hs : s.SelfEqual) (ls : List Line) (l : Line) (bs bs' : List Block) (rest : List Raw)
    (hl : bs' = [] ∨ l.vpos.eq l.vpos = true) :
    collectLoop (o, some { s with lines := ls ++ [{ l with blocks := bs }] }) (bs'.map (s.piece l) ++ rest) =
      collectLoop (o, some { s with lines := ls ++ [{ l with blocks := bs ++ bs' }] }) rest := by
  induction bs' generalizing bs with
  | nil => simp
  | cons b bs' ih =>
    have hv : l.vpos.eq l.vpos = true := by simpa using hl
    rw [List.map_cons, List.cons_append, collectLoop]
    have : collectStep (o, some { s with lines := ls ++ [{ l with blocks := bs }] }) (s.piece l b) =
        .ok (o, some { s with lines := ls ++ [{ l with blocks := bs ++ [b] }] }) := by
      have hm := sameMetadata_piece (s := s) (t := { s with lines := ls ++ [{ l with blocks := bs }] }) l b ⟨rfl, rfl, rfl, rfl⟩ hs
      have hv' : ({ l with blocks := bs } : Line).sameMetadata (s.piece l b) = true := hv
      unfold collectStep
      simp only [hm, ok_bind, if_true, List.getLast?_concat, List.dropLast_concat, ofRaw_piece, hv', pure_eq_ok]
    rw [this, ok_bind, ih _ (.inr hv)]
    simp

/-- More lines of the current subtitle. -/
theorem collectLoop_lines (o : List Subtitle) (s : Subtitle) (hs : s.SelfEqual) (ls ls' : List Line) (rest : List Raw) (hne : ls ≠ [])
    (hl : ∀ l ∈ ls', l.blocks ≠ [] ∧ (l.blocks.length = 1 ∨ l.vpos.eq l.vpos = true))
    (hc : List.IsChain (fun l m : Line => l.vpos.eq m.vpos = false) (ls ++ ls')) :
    collectLoop (o, some { s with lines := ls }) ((ls'.flatMap fun l => l.blocks.map (s.piece l)) ++ rest) =
      collectLoop (o, some { s with lines := ls ++ ls' }) rest := by
  induction ls' generalizing ls with
  | nil => simp
  | cons l ls' ih =>
    obtain ⟨hb, hv⟩ := hl l (by simp)
    obtain ⟨b, bs, e⟩ := List.exists_cons_of_ne_nil hb
    obtain ⟨ks, k, rfl⟩ : ∃ ks k, ls = ks ++ [k] := ⟨ls.dropLast, ls.getLast hne, (List.dropLast_append_getLast hne).symm⟩
    have hk : k.vpos.eq l.vpos = false := by
      rw [List.isChain_append] at hc
      exact hc.2.2 k (by simp) l (by simp)
    rw [List.flatMap_cons, e, List.map_cons, List.cons_append, List.cons_append, collectLoop]
    have : collectStep (o, some { s with lines := ks ++ [k] }) (s.piece l b) =
        .ok (o, some { s with lines := (ks ++ [k]) ++ [{ l with blocks := [b] }] }) := by
      have hm := sameMetadata_piece (s := s) (t := { s with lines := ks ++ [k] }) l b ⟨rfl, rfl, rfl, rfl⟩ hs
      have hv' : k.sameMetadata (s.piece l b) = false := hk
      unfold collectStep
      simp only [hm, ok_bind, if_true, List.getLast?_concat, hv', pure_eq_ok]
      rfl
    rw [this, ok_bind, List.append_assoc (bs.map _), collectLoop_blocks o s hs (ks ++ [k]) l [b] bs _]
    · have el : ({ l with blocks := [b] ++ bs } : Line) = l := by
        rw [show [b] ++ bs = l.blocks from e.symm]
      rw [el, ih (ks ++ [k] ++ [l]) (by simp) (fun x hx => hl x (by simp [hx])) (by simpa using hc)]
      simp
    · rcases hv with hv | hv
      · left
        rw [e] at hv
        simpa using hv
      · exact .inr hv

/-- Whole subtitles. -/
theorem collectLoop_subtitles (o : List Subtitle) (cur : Subtitle) (subs : List Subtitle)
    (hs : ∀ s ∈ subs, s.SelfEqual ∧ s.Shaped) (hc : List.IsChain Subtitle.Differs (cur :: subs)) :
    ∃ st, collectLoop (o, some cur) (subs.flatMap Subtitle.pieces) = .ok st ∧ collectFinish st = o ++ cur :: subs := by
  induction subs generalizing o cur with
  | nil => exact ⟨_, rfl, rfl⟩
  | cons s subs ih =>
    obtain ⟨he, hne, hl, hch⟩ := hs s (by simp)
    obtain ⟨l, ls, el⟩ := List.exists_cons_of_ne_nil hne
    obtain ⟨b, bs, eb⟩ := List.exists_cons_of_ne_nil (hl l (by simp [el])).1
    have hd : cur.Differs s := by
      rw [List.isChain_cons_cons] at hc
      exact hc.1
    have ep : s.pieces = s.piece l b :: (bs.map (s.piece l) ++ ls.flatMap fun l => l.blocks.map (s.piece l)) := by
      unfold Subtitle.pieces
      rw [el, List.flatMap_cons, eb]
      rfl
    have e1 : collectStep (o, some cur) (s.piece l b) = .ok (o ++ [cur], some { s with lines := [] ++ [{ l with blocks := [b] }] }) := by
      unfold collectStep
      simp only [(sameMetadata_iff cur s l b).2 hd, ok_bind]
      rfl
    have hv := (hl l (by simp [el])).2
    rw [List.flatMap_cons, ep, List.cons_append, collectLoop, e1, ok_bind, List.append_assoc,
      collectLoop_blocks _ s he [] l [b] bs, List.nil_append]
    · have ell : ({ l with blocks := [b] ++ bs } : Line) = l := by
        rw [show [b] ++ bs = l.blocks from eb.symm]
      rw [ell, collectLoop_lines _ s he [l] ls _ (by simp) (fun x hx => hl x (by simp [el, hx])) (by rw [← List.singleton_append] at el; rw [← el]; exact hch)]
      have es : ({ s with lines := [l] ++ ls } : Subtitle) = s := by
        rw [show [l] ++ ls = s.lines from el.symm]
      rw [es]
      obtain ⟨st, h1, h2⟩ := ih (o ++ [cur]) s (fun x hx => hs x (by simp [hx])) (by rw [List.isChain_cons_cons] at hc; exact hc.2)
      exact ⟨st, h1, by rw [h2]; simp⟩
    · rcases hv with hv | hv
      · left
        rw [eb] at hv
        simpa using hv
      · exact .inr hv

/-- Whole subtitles, from the start. -/
theorem collectLoop_all (subs : List Subtitle) (hs : ∀ s ∈ subs, s.SelfEqual ∧ s.Shaped) (hc : List.IsChain Subtitle.Differs subs) :
    ∃ st, collectLoop ([], none) (subs.flatMap Subtitle.pieces) = .ok st ∧ collectFinish st = subs := by
  cases subs with
  | nil => exact ⟨_, rfl, rfl⟩
  | cons s subs =>
    obtain ⟨he, hne, hl, hch⟩ := hs s (by simp)
    obtain ⟨l, ls, el⟩ := List.exists_cons_of_ne_nil hne
    obtain ⟨b, bs, eb⟩ := List.exists_cons_of_ne_nil (hl l (by simp [el])).1
    have ep : s.pieces = s.piece l b :: (bs.map (s.piece l) ++ ls.flatMap fun l => l.blocks.map (s.piece l)) := by
      unfold Subtitle.pieces
      rw [el, List.flatMap_cons, eb]
      rfl
    have e1 : collectStep ([], none) (s.piece l b) = .ok ([], some { s with lines := [] ++ [{ l with blocks := [b] }] }) := rfl
    have hv := (hl l (by simp [el])).2
    rw [List.flatMap_cons, ep, List.cons_append, collectLoop, e1, ok_bind, List.append_assoc,
      collectLoop_blocks _ s he [] l [b] bs, List.nil_append]
    · have ell : ({ l with blocks := [b] ++ bs } : Line) = l := by
        rw [show [b] ++ bs = l.blocks from eb.symm]
      rw [ell, collectLoop_lines _ s he [l] ls _ (by simp) (fun x hx => hl x (by simp [el, hx])) (by rw [← List.singleton_append] at el; rw [← el]; exact hch)]
      have es : ({ s with lines := [l] ++ ls } : Subtitle) = s := by
        rw [show [l] ++ ls = s.lines from el.symm]
      rw [es]
      obtain ⟨st, h1, h2⟩ := collectLoop_subtitles [] s subs (fun x hx => hs x (by simp [hx])) hc
      exact ⟨st, h1, by rw [h2]; simp⟩
    · rcases hv with hv | hv
      · left
        rw [eb] at hv
        simpa using hv
      · exact .inr hv

/-! ### Sorting whole subtitles -/

theorem insertRaw_front (le : Raw → Raw → Bool) (a : Raw) (l : List Raw) (h : ∀ b ∈ l.head?, le a b = true) : insertRaw le a l = a :: l := by
  cases l with
  | nil => rfl
  | cons b l => rw [insertRaw, if_pos (h b (by simp))]

theorem insertRaw_skip (le : Raw → Raw → Bool) (a : Raw) (l m : List Raw) (h : ∀ b ∈ l, le a b = false) :
    insertRaw le a (l ++ m) = l ++ insertRaw le a m := by
  induction l with
  | nil => rfl
  | cons b l ih =>
    rw [List.cons_append, insertRaw, if_neg (by rw [h b (by simp)]; simp), ih (fun x hx => h x (by simp [hx]))]
    rfl

/-- Insertion of a whole group, all of whose members compare alike. -/
def insertAll (le : Raw → Raw → Bool) (g : List Raw) (l : List Raw) : List Raw := g.foldr (insertRaw le) l

theorem sortRaws_append (le : Raw → Raw → Bool) (g l : List Raw) : sortRaws le (g ++ l) = insertAll le g (sortRaws le l) := by
  induction g with
  | nil => rfl
  | cons a g ih => rw [List.cons_append, sortRaws, ih]; rfl

theorem insertAll_skip (le : Raw → Raw → Bool) (g l m : List Raw) (h : ∀ a ∈ g, ∀ b ∈ l, le a b = false) :
    insertAll le g (l ++ m) = l ++ insertAll le g m := by
  induction g with
  | nil => rfl
  | cons a g ih =>
    show insertRaw le a (insertAll le g (l ++ m)) = _
    rw [ih (fun x hx => h x (by simp [hx])), insertRaw_skip le a l _ (h a (by simp))]
    rfl

theorem insertAll_front (le : Raw → Raw → Bool) (g l : List Raw) (hg : ∀ a ∈ g, ∀ b ∈ g, le a b = true) (h : ∀ a ∈ g, ∀ b ∈ l.head?, le a b = true) :
    insertAll le g l = g ++ l := by
  induction g with
  | nil => rfl
  | cons a g ih =>
    show insertRaw le a (insertAll le g l) = _
    rw [ih (fun x hx y hy => hg x (by simp [hx]) y (by simp [hy])) (fun x hx => h x (by simp [hx])), insertRaw_front]
    · rfl
    · cases g with
      | nil => exact h a (by simp)
      | cons b g => simpa using hg a (by simp) b (by simp)

/-- Subtitles in order of start time, those with equal starts in the given order. -/
def sortSubtitles (subs : List Subtitle) : List Subtitle := subs.insertionSort (fun s t => ¬ t.from_.keyLt s.from_)

theorem pieces_from {s : Subtitle} {r : Raw} (h : r ∈ s.pieces) : r.from_ = s.from_ := by
  unfold Subtitle.pieces at h
  simp only [List.mem_flatMap, List.mem_map] at h
  obtain ⟨l, _, b, _, rfl⟩ := h
  rfl

theorem sortRaws_pieces (subs : List Subtitle) (hne : ∀ s ∈ subs, s.pieces ≠ []) :
    sortRaws rawLe' (subs.flatMap Subtitle.pieces) = (sortSubtitles subs).flatMap Subtitle.pieces := by
  have key : ∀ (s : Subtitle) (ts : List Subtitle), (∀ t ∈ ts, t.pieces ≠ []) →
      insertAll rawLe' s.pieces (ts.flatMap Subtitle.pieces) = (ts.orderedInsert (fun s t => ¬ t.from_.keyLt s.from_) s).flatMap Subtitle.pieces := by
    intro s ts
    induction ts with
    | nil =>
      intro _
      rw [List.orderedInsert_nil, List.flatMap_nil, insertAll_front]
      · simp
      · intro a ha b hb
        unfold rawLe'
        rw [pieces_from ha, pieces_from hb]
        simpa using Time.keyLt_irrefl _
      · simp
    | cons t ts ih =>
      intro hne
      rw [List.orderedInsert_cons]
      by_cases hlt : t.from_.keyLt s.from_
      · rw [if_neg (by simpa using hlt), List.flatMap_cons, insertAll_skip, ih (fun x hx => hne x (by simp [hx])), List.flatMap_cons]
        intro a ha b hb
        unfold rawLe'
        rw [pieces_from ha, pieces_from hb]
        simpa using hlt
      · rw [if_pos hlt, insertAll_front]
        · simp
        · intro a ha b hb
          unfold rawLe'
          rw [pieces_from ha, pieces_from hb]
          simpa using Time.keyLt_irrefl _
        · intro a ha b hb
          rw [List.flatMap_cons] at hb
          obtain ⟨p, ps, e⟩ := List.exists_cons_of_ne_nil (hne t (by simp))
          rw [e] at hb
          simp only [List.cons_append, List.head?_cons, Option.mem_def, Option.some.injEq] at hb
          subst hb
          unfold rawLe'
          rw [pieces_from ha, pieces_from (s := t) (r := p) (by rw [e]; simp)]
          simpa using hlt
  induction subs with
  | nil => rfl
  | cons s subs ih =>
    rw [List.flatMap_cons, sortRaws_append, ih (fun x hx => hne x (by simp [hx]))]
    have hp : ∀ t ∈ sortSubtitles subs, t.pieces ≠ [] := by
      intro t ht
      exact hne t (by simp [(List.perm_insertionSort _ subs).mem_iff.1 ht])
    rw [key s _ hp]
    unfold sortSubtitles
    rw [List.insertionSort_cons]

theorem sortSubtitles_pairwise (subs : List Subtitle) : (sortSubtitles subs).Pairwise (fun s t => ¬ t.from_.keyLt s.from_) := by
  have : Std.Total (fun s t : Subtitle => ¬ t.from_.keyLt s.from_) := ⟨fun a b => by
    by_cases h : b.from_.keyLt a.from_
    · exact .inr (Time.keyLt_asymm h)
    · exact .inl h⟩
  have : IsTrans Subtitle (fun s t : Subtitle => ¬ t.from_.keyLt s.from_) := ⟨fun a b c h1 h2 => Time.not_keyLt_trans h1 h2⟩
  exact List.pairwise_insertionSort _ subs

theorem sortSubtitles_perm (subs : List Subtitle) : (sortSubtitles subs).Perm subs := List.perm_insertionSort _ _

theorem sortSubtitles_sublist {subs c : List Subtitle} (h : c.Pairwise (fun s t => ¬ t.from_.keyLt s.from_)) (hc : c.Sublist subs) :
    c.Sublist (sortSubtitles subs) := by
  have : Std.Total (fun s t : Subtitle => ¬ t.from_.keyLt s.from_) := ⟨fun a b => by
    by_cases h : b.from_.keyLt a.from_
    · exact .inr (Time.keyLt_asymm h)
    · exact .inl h⟩
  have : IsTrans Subtitle (fun s t : Subtitle => ¬ t.from_.keyLt s.from_) := ⟨fun a b c h1 h2 => Time.not_keyLt_trans h1 h2⟩
  exact List.sublist_insertionSort h hc

theorem Shaped.pieces_ne {s : Subtitle} (h : s.Shaped) : s.pieces ≠ [] := by
  obtain ⟨hne, hl, _⟩ := h
  obtain ⟨l, ls, el⟩ := List.exists_cons_of_ne_nil hne
  have := (hl l (by simp [el])).1
  unfold Subtitle.pieces
  rw [el]
  simp [this]

/-- `collect` on the pieces of grouped subtitles. -/
theorem collect_pieces (subs : List Subtitle) (hs : ∀ s ∈ subs, s.SelfEqual ∧ s.Shaped)
    (hk : ∀ s ∈ subs, ∀ t ∈ subs, s.from_.SameKind t.from_ ∧ ∃ x, s.from_.lt t.from_ = .ok x)
    (hd : List.IsChain Subtitle.Differs (sortSubtitles subs)) :
    collect (subs.flatMap Subtitle.pieces) = .ok (sortSubtitles subs) := by
  have hmem : ∀ r ∈ subs.flatMap Subtitle.pieces, ∃ s ∈ subs, r.from_ = s.from_ := by
    intro r hr
    rw [List.mem_flatMap] at hr
    obtain ⟨s, h1, h2⟩ := hr
    exact ⟨s, h1, pieces_from h2⟩
  have c1 : ∀ a ∈ subs.flatMap Subtitle.pieces, ∀ b ∈ subs.flatMap Subtitle.pieces, ∃ x, a.lt b = .ok x := by
    intro a ha b hb
    obtain ⟨s, h1, e1⟩ := hmem a ha
    obtain ⟨t, h2, e2⟩ := hmem b hb
    unfold Raw.lt
    rw [e1, e2]
    exact (hk s h1 t h2).2
  have c2 : ∀ a ∈ subs.flatMap Subtitle.pieces, ∀ b ∈ subs.flatMap Subtitle.pieces, a.from_.SameKind b.from_ := by
    intro a ha b hb
    obtain ⟨s, h1, e1⟩ := hmem a ha
    obtain ⟨t, h2, e2⟩ := hmem b hb
    rw [e1, e2]
    exact (hk s h1 t h2).1
  have hp := sortSubtitles_perm subs
  obtain ⟨st, h1, h2⟩ := collectLoop_all (sortSubtitles subs) (fun s h => hs s (hp.mem_iff.1 h)) hd
  unfold collect collectWith
  rw [stableSort_of_comparable (.of_all c1), ok_bind, sortRaws_rawLe c2 (.of_all c1), sortRaws_pieces subs (fun s h => Shaped.pieces_ne (hs s h).2), h1, ok_bind, h2]
  rfl

end LibSub
