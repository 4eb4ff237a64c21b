/-
Property C95: from a textual STL file to finished subtitles, through reader and `collect`.
-/
import Verif.Props.Regroup
import Verif.Props.StlText

namespace LibSub

/-! ### Specification -/

/-- The runs of text of a subtitle, each in the style in force where it stands and with the number of `|` before it in the
subtitle; `hist` is all that the file says before. -/
def rowRuns (hist : List Ev) (bars : Nat) : List TTok → List (Nat × Block)
  | [] => []
  | .text s :: ts =>
    (bars, { text := s, font := fontNow hist, fontSize := { pts := sizeNow hist }, bold := faceNow .bold hist, italic := faceNow .italic hist, underline := faceNow .underline hist }) ::
      rowRuns (hist ++ [.text s]) bars ts
  | .bar :: ts => rowRuns (hist ++ [.bar]) (bars + 1) ts
  | .toggle f :: ts => rowRuns (hist ++ [.toggle f]) bars ts
  | .other _ :: ts => rowRuns hist bars ts

/-- A line of a subtitle of textual STL. -/
def rowLine (i : Nat) (bs : List Block) : Line := { vpos := { line := some (i : Int), ref := some .topOfSubtitle }, blocks := bs }

/-- Runs with the same number make up a line. -/
def rowLines : List (Nat × Block) → List Line
  | [] => []
  | (i, k) :: rs =>
    match rowLines rs with
    | l :: ls => if l.vpos.line = some (i : Int) then rowLine i (k :: l.blocks) :: ls else rowLine i [k] :: l :: ls
    | [] => [rowLine i [k]]

/-- The subtitles of a file: one for each line that has times and some text. -/
def textSubtitles (hist : List Ev) : List TLine → List Subtitle
  | [] => []
  | l :: ls =>
    (match l.item with
      | .sub f t _ _ _ ts =>
        let rs := rowRuns (hist ++ [.times f.frameTime t.frameTime]) 0 ts
        if rs = [] then [] else [{ from_ := f.frameTime, to_ := t.frameTime, lines := rowLines rs }]
      | _ => []) ++ textSubtitles (hist ++ l.item.events) ls

/-- Neither text nor `|`. -/
def TTok.mute : TTok → Bool
  | .text _ | .bar => false
  | _ => true

/-- One text, with `|` only before it. -/
def OneText : List TTok → Prop
  | [] => False
  | .text _ :: ts => ∀ t ∈ ts, t.mute = true
  | _ :: ts => OneText ts

/-- A first line of any number of runs, and at most one further line, of one run. -/
def TwoRows : List TTok → Prop
  | [] => True
  | .bar :: ts => OneText ts
  | _ :: ts => TwoRows ts

/-- `out` consists of the subtitles `subs` in order of their start times (seconds, then frames), those with the same start time in the given order. -/
structure InFrameOrder (subs out : List Subtitle) : Prop where
  perm : out.Perm subs
  ordered : out.Pairwise (fun s t => s.from_.secs < t.from_.secs ∨ (s.from_.secs = t.from_.secs ∧ s.from_.frames ≤ t.from_.frames))
  stable : ∀ s t, [s, t].Sublist subs → s.from_ = t.from_ → [s, t].Sublist out

/-- C95 in full: a file of subtitles of which no two have both times in common gives these subtitles. -/
def C95_statement : Prop :=
  ∀ ls : List TLine, (∀ l ∈ ls, l.Valid) → (fileEvents ls).count .bar < 2 ^ 31 - 1 →
    (textSubtitles [] ls).Pairwise (fun s t => s.from_ ≠ t.from_ ∨ s.to_ ≠ t.to_) →
    ∃ raws out, stlTextRead (unlines (ls.map TLine.text)) = .ok raws ∧ collect raws = .ok out ∧ InFrameOrder (textSubtitles [] ls) out

/-! ### Proofs: times without rate -/

private theorem frame_eq {f g : Time} (hf : f.rate = none) (hg : g.rate = none) : f.eq g = .ok (decide (f = g)) := by
  obtain ⟨fs, ff, fr⟩ := f
  obtain ⟨gs, gf, gr⟩ := g
  simp only at hf hg
  subst hf hg
  simp [Time.eq]

private theorem frame_lt {f g : Time} (hf : f.rate = none) (hg : g.rate = none) :
    f.lt g = .ok (decide (f.secs < g.secs ∨ (f.secs = g.secs ∧ f.frames < g.frames))) := by
  unfold Time.lt
  rw [hf, hg]
  by_cases h : f.secs = g.secs
  · simp [h]
  · simp [h]

/-- A subtitle with times without rate, no fades, and lines which differ from their neighbours. -/
private structure Framed (s : Subtitle) : Prop where
  from_ : s.from_.rate = none
  to_ : s.to_.rate = none
  fades : s.fadeUp = none ∧ s.fadeDown = none
  shaped : s.Shaped

private theorem framed_self {s : Subtitle} (h : Framed s) : s.SelfEqual := by
  refine ⟨?_, ?_, ?_, ?_⟩
  · rw [frame_eq h.from_ h.from_]; simp
  · rw [frame_eq h.to_ h.to_]; simp
  · rw [h.fades.1]; rfl
  · rw [h.fades.2]; rfl

private theorem framed_differs {s t : Subtitle} (hs : Framed s) (ht : Framed t) (h : s.from_ ≠ t.from_ ∨ s.to_ ≠ t.to_) : s.Differs t := by
  unfold Subtitle.Differs
  rw [frame_eq hs.from_ ht.from_, frame_eq hs.to_ ht.to_]
  by_cases h0 : s.from_ = t.from_
  · have h1 : s.to_ ≠ t.to_ := by
      rcases h with h | h
      · exact absurd h0 h
      · exact h
    simp [h0, h1]
  · simp [h0]

private theorem collect_framed (subs : List Subtitle) (h : ∀ s ∈ subs, Framed s) (hd : subs.Pairwise (fun s t => s.from_ ≠ t.from_ ∨ s.to_ ≠ t.to_)) :
    ∃ out, collect (subs.flatMap Subtitle.pieces) = .ok out ∧ InFrameOrder subs out := by
  have hc : Comparable subs := by
    refine ⟨fun s hs => framed_self (h s hs), ?_⟩
    intro s hs t ht
    exact ⟨.inr ⟨(h s hs).from_, (h t ht).from_⟩, _, frame_lt (h s hs).from_ (h t ht).from_⟩
  obtain ⟨out, h1, h2, h3, h4⟩ := C81_any_order subs hc (fun s hs => (h s hs).shaped) (by
    refine hd.imp_of_mem ?_
    intro s t hs ht hst
    exact ⟨framed_differs (h s hs) (h t ht) hst, framed_differs (h t ht) (h s hs) (hst.imp Ne.symm Ne.symm)⟩)
  refine ⟨out, h1, h2, ?_, ?_⟩
  · refine h3.imp_of_mem ?_
    intro s t hs ht hst
    rw [frame_lt (h t (h2.mem_iff.1 ht)).from_ (h s (h2.mem_iff.1 hs)).from_] at hst
    simp only [Except.ok.injEq, decide_eq_false_iff_not] at hst
    omega
  · intro s t hst he
    refine h4 s t hst ?_
    have hs := h s (hst.subset (by simp))
    rw [← he, frame_eq hs.from_ hs.from_]; simp

/-! ### Proofs: lines -/

private theorem rowEq (i j : Int) : (VPos.eq { line := some i, ref := some .topOfSubtitle } { line := some j, ref := some .topOfSubtitle }) = decide (i = j) := by
  unfold VPos.eq
  simp
  rfl

/-- The bars counted never get fewer. -/
private theorem runs_ge (hist : List Ev) (n : Nat) (ts : List TTok) : ∀ r ∈ rowRuns hist n ts, n ≤ r.1 := by
  induction ts generalizing hist n with
  | nil => simp [rowRuns]
  | cons t ts ih =>
    cases t with
    | text s =>
      intro r hr
      rw [rowRuns, List.mem_cons] at hr
      rcases hr with rfl | hr
      · exact le_refl _
      · exact ih _ _ r hr
    | bar => intro r hr; have := ih _ _ r hr; omega
    | toggle f => exact ih _ _
    | other c => exact ih _ _

private theorem runs_sorted (hist : List Ev) (n : Nat) (ts : List TTok) : ((rowRuns hist n ts).map Prod.fst).Pairwise (· ≤ ·) := by
  induction ts generalizing hist n with
  | nil => simp [rowRuns]
  | cons t ts ih =>
    cases t with
    | text s =>
      rw [rowRuns, List.map_cons, List.pairwise_cons]
      refine ⟨?_, ih _ _⟩
      intro i hi
      rw [List.mem_map] at hi
      obtain ⟨r, hr, rfl⟩ := hi
      exact runs_ge _ _ _ r hr
    | bar => exact ih _ _
    | toggle f => exact ih _ _
    | other c => exact ih _ _

private theorem rowLines_spec (s : Subtitle) (rs : List (Nat × Block)) (h : (rs.map Prod.fst).Pairwise (· ≤ ·)) :
    ∃ is : List Nat, List.Forall₂ (fun i l => ∃ bs, bs ≠ [] ∧ l = rowLine i bs) is (rowLines rs) ∧ is.Pairwise (· < ·) ∧ (∀ i ∈ is, i ∈ rs.map Prod.fst) ∧
      (rowLines rs).flatMap (fun l => l.blocks.map (s.piece l)) = rs.map (fun r => s.piece (rowLine r.1 []) r.2) := by
  induction rs with
  | nil => exact ⟨[], .nil, .nil, by simp, rfl⟩
  | cons r rs ih =>
    obtain ⟨i, k⟩ := r
    rw [List.map_cons, List.pairwise_cons] at h
    obtain ⟨is, h1, h2, h3, h4⟩ := ih h.2
    have hp : ∀ bs, s.piece (rowLine i bs) k = s.piece (rowLine i []) k := fun _ => rfl
    rw [rowLines]
    cases hg : rowLines rs with
    | nil =>
      rw [hg] at h1 h4
      cases h1
      simp only []
      refine ⟨[i], .cons ⟨_, by simp, rfl⟩ .nil, by simp, by simp, ?_⟩
      rw [List.map_cons, ← h4]
      rfl
    | cons l ls =>
      rw [hg] at h1 h4
      cases h1 with
      | cons hl hls =>
        rename_i j is
        obtain ⟨bs, hb, rfl⟩ := hl
        simp only []
        have hj := h3 j (by simp)
        have hij := h.1 j hj
        split
        · rename_i he
          have he : j = i := by
            have : some (j : Int) = some (i : Int) := he
            have := Option.some.inj this
            omega
          subst he
          refine ⟨j :: is, .cons ⟨_, by simp, rfl⟩ hls, h2, fun z hz => List.mem_cons_of_mem _ (h3 z hz), ?_⟩
          rw [List.map_cons, ← h4]
          rfl
        · rename_i he
          have hlt : i < j := by
            have : i ≠ j := fun h => he (by rw [h]; rfl)
            omega
          refine ⟨i :: j :: is, .cons ⟨_, by simp, rfl⟩ (.cons ⟨_, hb, rfl⟩ hls), ?_, ?_, ?_⟩
          · refine List.pairwise_cons.2 ⟨?_, h2⟩
            intro z hz
            rcases List.mem_cons.1 hz with rfl | hz
            · exact hlt
            · have := (List.pairwise_cons.1 h2).1 z hz
              omega
          · intro z hz
            rcases List.mem_cons.1 hz with rfl | hz
            · simp
            · exact List.mem_cons_of_mem _ (h3 z hz)
          · rw [List.map_cons, ← h4]
            rfl

private theorem rows_shaped (f t : Time) (hist : List Ev) (ts : List TTok) (h : rowRuns hist 0 ts ≠ []) :
    ({ from_ := f, to_ := t, lines := rowLines (rowRuns hist 0 ts) } : Subtitle).Shaped := by
  obtain ⟨is, h1, h2, -, h4⟩ := rowLines_spec { from_ := f, to_ := t } _ (runs_sorted hist 0 ts)
  refine ⟨?_, ?_, ?_⟩
  · intro h0
    simp only at h0
    rw [h0] at h4
    exact h (List.map_eq_nil_iff.1 h4.symm)
  · intro l hl
    simp only at hl
    clear h2 h4
    generalize rowLines (rowRuns hist 0 ts) = ls at h1 hl
    induction h1 with
    | nil => cases hl
    | cons hx _ ih =>
      rw [List.mem_cons] at hl
      rcases hl with rfl | hl
      · obtain ⟨bs, hb, rfl⟩ := hx
        refine ⟨hb, .inr ?_⟩
        show VPos.eq _ _ = true
        rw [rowLine, rowEq]; simp
      · exact ih hl
  · simp only
    clear h4
    generalize rowLines (rowRuns hist 0 ts) = ls at h1
    induction h1 with
    | nil => exact .nil
    | cons hx hr ih =>
      rename_i i l is ls
      cases hr with
      | nil => exact .singleton _
      | cons hy hr =>
        rename_i j m is ls
        refine .cons_cons ?_ (ih (List.pairwise_cons.1 h2).2)
        obtain ⟨bs, _, rfl⟩ := hx
        obtain ⟨cs, _, rfl⟩ := hy
        have := (List.pairwise_cons.1 h2).1 j (by simp)
        show VPos.eq _ _ = false
        rw [rowLine, rowLine, rowEq, decide_eq_false_iff_not]
        omega

/-! ### Proofs: what is read -/

private theorem times_snoc (hist : List Ev) (e : Ev) (h : ∀ f t, e ≠ .times f t) : timesNow (hist ++ [e]) = timesNow hist := by
  unfold timesNow
  rw [latest_snoc]
  cases e with
  | times f t => exact absurd rfl (h f t)
  | _ => rfl

private theorem times_times (hist : List Ev) (f t : Time) : timesNow (hist ++ [.times f t]) = (f, t) := by
  unfold timesNow
  rw [latest_snoc]
  rfl

private def tokEvents (ts : List TTok) : List Ev := (ts.map TTok.events).flatten

private theorem tok_cons (t : TTok) (ts : List TTok) : tokEvents (t :: ts) = t.events ++ tokEvents ts := rfl

private theorem mute_tail (hist : List Ev) (n : Nat) (ts : List TTok) (h : ∀ t ∈ ts, t.mute = true) :
    evRaws hist (tokEvents ts) = [] ∧ rowRuns hist n ts = [] ∧ barsSinceText (hist ++ tokEvents ts) = barsSinceText hist := by
  induction ts generalizing hist with
  | nil => simp [tokEvents, evRaws, rowRuns]
  | cons t ts ih =>
    have ht := h t (by simp)
    cases t with
    | text s => cases ht
    | bar => cases ht
    | toggle f =>
      obtain ⟨h1, h2, h3⟩ := ih (hist ++ [.toggle f]) (fun t ht => h t (by simp [ht]))
      rw [List.append_assoc, bars_other _ _ (by simp) rfl] at h3
      exact ⟨h1, h2, h3⟩
    | other c => exact ih hist (fun t ht => h t (by simp [ht]))

private theorem raw_piece (hist : List Ev) (s : Str) (n : Nat) (sub : Subtitle) (hs : timesNow hist = (sub.from_, sub.to_) ∧ sub.fadeUp = none ∧ sub.fadeDown = none)
    (hb : barsSinceText hist = n) : evRaw hist s = sub.piece (rowLine n [])
      { text := s, font := fontNow hist, fontSize := { pts := sizeNow hist }, bold := faceNow .bold hist, italic := faceNow .italic hist, underline := faceNow .underline hist } := by
  subst hb
  unfold evRaw Subtitle.piece
  rw [hs.1, hs.2.1, hs.2.2]
  rfl

private theorem one_text (sub : Subtitle) (hf : sub.fadeUp = none ∧ sub.fadeDown = none) (hist : List Ev) (n : Nat) (ts : List TTok) (h : OneText ts)
    (hs : timesNow hist = (sub.from_, sub.to_)) (hb : barsSinceText hist = n) :
    evRaws hist (tokEvents ts) = (rowRuns hist n ts).map (fun r => sub.piece (rowLine r.1 []) r.2) ∧ barsSinceText (hist ++ tokEvents ts) = 0 := by
  induction ts generalizing hist n with
  | nil => cases h
  | cons t ts ih =>
    cases t with
    | text s =>
      obtain ⟨h1, h2, h3⟩ := mute_tail (hist ++ [.text s]) n ts h
      refine ⟨?_, ?_⟩
      · rw [rowRuns, h2, List.map_singleton, ← raw_piece hist s n sub ⟨hs, hf⟩ hb, tok_cons]
        show evRaw hist s :: evRaws (hist ++ [.text s]) (tokEvents ts) = _
        rw [h1]
      · rw [List.append_assoc, bars_text] at h3
        exact h3
    | bar =>
      obtain ⟨h1, h2⟩ := ih (hist ++ [.bar]) (n + 1) h (by rw [times_snoc _ _ (by simp), hs]) (by rw [bars_bar, hb])
      rw [List.append_assoc] at h2
      exact ⟨h1, h2⟩
    | toggle f =>
      obtain ⟨h1, h2⟩ := ih (hist ++ [.toggle f]) n h (by rw [times_snoc _ _ (by simp), hs]) (by rw [bars_other _ _ (by simp) rfl, hb])
      rw [List.append_assoc] at h2
      exact ⟨h1, h2⟩
    | other c => exact ih hist n h hs hb

private theorem two_rows (sub : Subtitle) (hf : sub.fadeUp = none ∧ sub.fadeDown = none) (hist : List Ev) (ts : List TTok) (h : TwoRows ts)
    (hs : timesNow hist = (sub.from_, sub.to_)) (hb : barsSinceText hist = 0) :
    evRaws hist (tokEvents ts) = (rowRuns hist 0 ts).map (fun r => sub.piece (rowLine r.1 []) r.2) ∧ barsSinceText (hist ++ tokEvents ts) = 0 := by
  induction ts generalizing hist with
  | nil => simpa [tokEvents, evRaws, rowRuns] using hb
  | cons t ts ih =>
    cases t with
    | text s =>
      obtain ⟨h1, h2⟩ := ih (hist ++ [.text s]) h (by rw [times_snoc _ _ (by simp), hs]) (bars_text _ _)
      refine ⟨?_, ?_⟩
      · rw [rowRuns, List.map_cons, ← raw_piece hist s 0 sub ⟨hs, hf⟩ hb, tok_cons, ← h1]
        rfl
      · rw [List.append_assoc] at h2
        exact h2
    | bar =>
      obtain ⟨h1, h2⟩ := one_text sub hf (hist ++ [.bar]) 1 ts h (by rw [times_snoc _ _ (by simp), hs]) (by rw [bars_bar, hb])
      rw [List.append_assoc] at h2
      exact ⟨h1, h2⟩
    | toggle f =>
      obtain ⟨h1, h2⟩ := ih (hist ++ [.toggle f]) h (by rw [times_snoc _ _ (by simp), hs]) (by rw [bars_other _ _ (by simp) rfl, hb])
      rw [List.append_assoc] at h2
      exact ⟨h1, h2⟩
    | other c => exact ih hist h hs hb

private theorem var_events (hist : List Ev) (v : TVar) : evRaws hist v.events = [] ∧ barsSinceText (hist ++ v.events) = barsSinceText hist := by
  cases v with
  | other n w => simp [TVar.events, evRaws]
  | _ => exact ⟨rfl, bars_other _ _ (by simp) rfl⟩

private theorem file_pieces (hist : List Ev) (ls : List TLine) (h : ∀ l ∈ ls, ∀ f t a b c ts, l.item = .sub f t a b c ts → TwoRows ts) (hb : barsSinceText hist = 0) :
    evRaws hist (fileEvents ls) = (textSubtitles hist ls).flatMap Subtitle.pieces ∧ ∀ s ∈ textSubtitles hist ls, Framed s := by
  induction ls generalizing hist with
  | nil => simp [fileEvents, evRaws, textSubtitles]
  | cons l ls ih =>
    have hl := h l (by simp)
    have hr := fun hb' => ih (hist ++ l.item.events) (fun x hx => h x (by simp [hx])) hb'
    have e : fileEvents (l :: ls) = l.item.events ++ fileEvents ls := rfl
    rw [e, evRaws_append, textSubtitles]
    cases hi : l.item with
    | ignored s =>
      rw [hi] at hr
      exact hr (by simpa [TItem.events] using hb)
    | var v a b =>
      rw [hi] at hr
      obtain ⟨h1, h2⟩ := var_events hist v
      have := hr (by rw [TItem.events, h2, hb])
      simp only [TItem.events] at this ⊢
      rw [h1]
      exact this
    | sub f t a b c ts =>
      rw [hi] at hr
      have h2 := hl f t a b c ts hi
      have hev : TItem.events (.sub f t a b c ts) = [.times f.frameTime t.frameTime] ++ tokEvents ts := rfl
      have h0 : barsSinceText (hist ++ [.times f.frameTime t.frameTime]) = 0 := by rw [bars_other _ _ (by simp) rfl, hb]
      rw [hev] at hr ⊢
      obtain ⟨h3, h4⟩ := two_rows { from_ := f.frameTime, to_ := t.frameTime } ⟨rfl, rfl⟩ _ ts h2 (times_times _ _ _) h0
      rw [← List.append_assoc] at hr ⊢
      obtain ⟨h5, h6⟩ := hr h4
      rw [evRaws_append, h3, h5]
      simp only [evRaws, List.nil_append]
      by_cases hn : rowRuns (hist ++ [.times f.frameTime t.frameTime]) 0 ts = []
      · rw [if_pos hn, hn]
        exact ⟨rfl, h6⟩
      · rw [if_neg hn]
        refine ⟨?_, ?_⟩
        · rw [List.flatMap_append, List.flatMap_singleton]
          congr 1
          obtain ⟨-, -, -, -, h7⟩ := rowLines_spec { from_ := f.frameTime, to_ := t.frameTime } _ (runs_sorted (hist ++ [.times f.frameTime t.frameTime]) 0 ts)
          exact h7.symm
        · intro s hs
          rw [List.mem_append, List.mem_singleton] at hs
          rcases hs with rfl | hs
          · exact ⟨rfl, rfl, ⟨rfl, rfl⟩, rows_shaped _ _ _ _ hn⟩
          · exact h6 s hs

/-! ### C95 -/

/-- C95: a textual STL file of any number of comments, settings and subtitles, in any order, of which no two have both start and end in common, comes
through reader and `collect` as one subtitle for each line with text, with its times, lines and styled runs, in order of the start times; if every subtitle
has one line of any number of runs and at most a second one of a single run. -/
theorem C95_two_rows_partial (ls : List TLine) (hv : ∀ l ∈ ls, l.Valid) (hb : (fileEvents ls).count .bar < 2 ^ 31 - 1)
    (hr : ∀ l ∈ ls, ∀ f t a b c ts, l.item = .sub f t a b c ts → TwoRows ts)
    (hd : (textSubtitles [] ls).Pairwise (fun s t => s.from_ ≠ t.from_ ∨ s.to_ ≠ t.to_)) :
    ∃ raws out, stlTextRead (unlines (ls.map TLine.text)) = .ok raws ∧ collect raws = .ok out ∧ InFrameOrder (textSubtitles [] ls) out := by
  obtain ⟨h1, h2⟩ := file_pieces [] ls hr rfl
  obtain ⟨out, h3, h4⟩ := collect_framed _ h2 hd
  exact ⟨_, out, C37_file ls hv hb, by rw [h1]; exact h3, h4⟩

/-- A subtitle of three lines. -/
private def threeRows : List TLine := [⟨[], .sub ⟨0, 0, 1, 0, 0, 0, 0, 0⟩ ⟨0, 0, 2, 0, 0, 0, 0, 0⟩ 0 0 0 [.text b!"a", .bar, .text b!"b", .bar, .text b!"c"], []⟩]

private theorem threeRows_valid : ∀ l ∈ threeRows, l.Valid := by
  intro l hl
  simp only [threeRows, List.mem_cons, List.not_mem_nil, or_false] at hl
  subst hl
  refine ⟨by decide, by decide, ?_, ?_, ?_, by decide +kernel, ?_⟩
  · simp [Stamp.Valid]
  · simp [Stamp.Valid]
  · simp [ValidToks]
  · intro c hc; cases hc; decide

/-- What three lines become: the second and third run are one line. -/
theorem C95_three_witness : (stlTextRead b!"0:0:1:0 ,0:0:2:0,a|b|c\n" >>= collect).toOption.map (·.map (fun s => s.lines.map (fun l => l.blocks.map (·.text)))) =
    some [[[b!"a"], [b!"b", b!"c"]]] := by decide +kernel

/-- C95 is false of subtitles of three lines: the second and third become one. -/
theorem C95_false : ¬ C95_statement := by
  intro h
  obtain ⟨raws, out, h1, h2, h3⟩ := h threeRows threeRows_valid (by decide) (by decide +kernel)
  have e : unlines (threeRows.map TLine.text) = b!"0:0:1:0 ,0:0:2:0,a|b|c\n" := by decide +kernel
  have hw := C95_three_witness
  rw [e] at h1
  rw [h1, ok_bind, h2] at hw
  have hl : (textSubtitles [] threeRows).map (fun s => s.lines.map (fun l => l.blocks.map (·.text))) = [[[b!"a"], [b!"b"], [b!"c"]]] := by decide +kernel
  have hw : out.map (fun s => s.lines.map (fun l => l.blocks.map (·.text))) = [[[b!"a"], [b!"b", b!"c"]]] := Option.some.inj hw
  have hp := h3.perm.map (fun s => s.lines.map (fun l => l.blocks.map (·.text)))
  rw [hl, hw] at hp
  have := List.perm_singleton.1 hp
  revert this
  decide

/-! ### Examples -/

/-- A later subtitle first; styled runs, and a second line. -/
private def rowsDemo : List TLine :=
  [⟨[], .var (.face .bold b!"True") 1 1, []⟩,
   ⟨[], .sub ⟨0, 0, 41, 9, 1, 1, 0, 1⟩ ⟨0, 0, 42, 21, 1, 1, 0, 0⟩ 0 1 1 [.text b!"a", .toggle .bold, .text b!"b", .bar, .toggle .italic, .text b!"c"], []⟩,
   ⟨[], .ignored b!"// x", []⟩,
   ⟨b!" ", .sub ⟨0, 0, 1, 1, 0, 0, 0, 0⟩ ⟨0, 0, 2, 10, 0, 0, 0, 0⟩ 2 0 0 [.text b!"d"], b!"\t"⟩]

@[inherit_doc rowsDemo]
private def rowsA : Subtitle where
  from_ := ⟨41, 9, none⟩
  to_ := ⟨42, 21, none⟩
  lines := [rowLine 0 [{ text := b!"a", bold := true }, { text := b!"b" }], rowLine 1 [{ text := b!"c", italic := true }]]

@[inherit_doc rowsDemo]
private def rowsB : Subtitle where
  from_ := ⟨1, 1, none⟩
  to_ := ⟨2, 10, none⟩
  lines := [rowLine 0 [{ text := b!"d", italic := true }]]

private theorem rowsDemo_valid : ∀ l ∈ rowsDemo, l.Valid := by
  intro l hl
  simp only [rowsDemo, List.mem_cons, List.not_mem_nil, or_false] at hl
  rcases hl with rfl | rfl | rfl | rfl
  · refine ⟨by decide, by decide, ⟨?_, ?_⟩, ⟨?_, ?_⟩, by decide, by decide, by decide, trivial⟩ <;> (intro c hc; cases hc; decide)
  · refine ⟨by decide, by decide, ?_, ?_, ?_, by decide +kernel, ?_⟩
    · simp [Stamp.Valid]
    · simp [Stamp.Valid]
    · simp [ValidToks]
    · intro c hc; cases hc; decide
  · refine ⟨by decide, by decide, ?_⟩
    refine ⟨⟨?_, ?_⟩, by decide, .inl (by decide)⟩ <;> (intro c hc; cases hc; decide)
  · refine ⟨by decide, by decide, ?_, ?_, ?_, by decide +kernel, ?_⟩
    · simp [Stamp.Valid]
    · simp [Stamp.Valid]
    · simp [ValidToks]
    · intro c hc; cases hc; decide

example : ∃ raws out, stlTextRead b!"$Bold = True\n00:00:41:09 , 00:00:42:21 ,a^Bb|^Ic\n// x\n 0:0:1:1   ,0:0:2:10,d\t\n" = .ok raws ∧ collect raws = .ok out ∧ InFrameOrder [rowsA, rowsB] out := by
  have h := C95_two_rows_partial rowsDemo rowsDemo_valid (by decide) (by
    intro l hl f t a b c ts hi
    simp only [rowsDemo, List.mem_cons, List.not_mem_nil, or_false] at hl
    rcases hl with rfl | rfl | rfl | rfl <;> cases hi
    · simp [TwoRows, OneText]
    · simp [TwoRows]) (by decide +kernel)
  have e : unlines (rowsDemo.map TLine.text) = b!"$Bold = True\n00:00:41:09 , 00:00:42:21 ,a^Bb|^Ic\n// x\n 0:0:1:1   ,0:0:2:10,d\t\n" := by decide +kernel
  have e' : textSubtitles [] rowsDemo = [rowsA, rowsB] := by decide +kernel
  rw [e, e'] at h
  exact h

example : (do let raws ← stlTextRead b!"$Bold = True\n00:00:41:09 , 00:00:42:21 ,a^Bb|^Ic\n// x\n 0:0:1:1   ,0:0:2:10,d\t\n"; collect raws).toOption = some [rowsB, rowsA] := by
  decide +kernel

/-! ### C95, all files -/

/-- The runs of text of a subtitle as the reader reports them: each with the number of `|` since the last text, be it of this subtitle or of an earlier one. -/
def seenRuns (hist : List Ev) : List TTok → List (Nat × Block)
  | [] => []
  | .text s :: ts =>
    (barsSinceText hist, { text := s, font := fontNow hist, fontSize := { pts := sizeNow hist }, bold := faceNow .bold hist, italic := faceNow .italic hist, underline := faceNow .underline hist }) ::
      seenRuns (hist ++ [.text s]) ts
  | .bar :: ts => seenRuns (hist ++ [.bar]) ts
  | .toggle f :: ts => seenRuns (hist ++ [.toggle f]) ts
  | .other _ :: ts => seenRuns hist ts

/-- The subtitles that a file comes to. -/
def seenSubtitles (hist : List Ev) : List TLine → List Subtitle
  | [] => []
  | l :: ls =>
    (match l.item with
      | .sub f t _ _ _ ts =>
        let rs := seenRuns (hist ++ [.times f.frameTime t.frameTime]) ts
        if rs = [] then [] else [{ from_ := f.frameTime, to_ := t.frameTime, lines := rowLines rs }]
      | _ => []) ++ seenSubtitles (hist ++ l.item.events) ls

private theorem rowLines_chain (s : Subtitle) (rs : List (Nat × Block)) :
    ∃ is : List Nat, List.Forall₂ (fun i l => ∃ bs, bs ≠ [] ∧ l = rowLine i bs) is (rowLines rs) ∧ is.IsChain (· ≠ ·) ∧
      (rowLines rs).flatMap (fun l => l.blocks.map (s.piece l)) = rs.map (fun r => s.piece (rowLine r.1 []) r.2) := by
  induction rs with
  | nil => exact ⟨[], .nil, .nil, rfl⟩
  | cons r rs ih =>
    obtain ⟨i, k⟩ := r
    obtain ⟨is, h1, h2, h4⟩ := ih
    rw [rowLines]
    cases hg : rowLines rs with
    | nil =>
      rw [hg] at h1 h4
      cases h1
      simp only []
      refine ⟨[i], .cons ⟨_, by simp, rfl⟩ .nil, .singleton _, ?_⟩
      rw [List.map_cons, ← h4]
      rfl
    | cons l ls =>
      rw [hg] at h1 h4
      cases h1 with
      | cons hl hls =>
        rename_i j is
        obtain ⟨bs, hb, rfl⟩ := hl
        simp only []
        split
        · rename_i he
          have he : j = i := by
            have : some (j : Int) = some (i : Int) := he
            have := Option.some.inj this
            omega
          subst he
          refine ⟨j :: is, .cons ⟨_, by simp, rfl⟩ hls, h2, ?_⟩
          rw [List.map_cons, ← h4]
          rfl
        · rename_i he
          have hlt : i ≠ j := fun h => he (by rw [h]; rfl)
          refine ⟨i :: j :: is, .cons ⟨_, by simp, rfl⟩ (.cons ⟨_, hb, rfl⟩ hls), .cons_cons hlt h2, ?_⟩
          rw [List.map_cons, ← h4]
          rfl

private theorem seen_shaped (f t : Time) (rs : List (Nat × Block)) (h : rs ≠ []) : ({ from_ := f, to_ := t, lines := rowLines rs } : Subtitle).Shaped := by
  obtain ⟨is, h1, h2, h4⟩ := rowLines_chain { from_ := f, to_ := t } rs
  refine ⟨?_, ?_, ?_⟩
  · intro h0
    simp only at h0
    rw [h0] at h4
    exact h (List.map_eq_nil_iff.1 h4.symm)
  · intro l hl
    simp only at hl
    clear h2 h4
    generalize rowLines rs = ls at h1 hl
    induction h1 with
    | nil => cases hl
    | cons hx _ ih =>
      rw [List.mem_cons] at hl
      rcases hl with rfl | hl
      · obtain ⟨bs, hb, rfl⟩ := hx
        refine ⟨hb, .inr ?_⟩
        show VPos.eq _ _ = true
        rw [rowLine, rowEq]; simp
      · exact ih hl
  · simp only
    clear h4
    generalize rowLines rs = ls at h1
    induction h1 with
    | nil => exact .nil
    | cons hx hr ih =>
      rename_i i l is ls
      cases hr with
      | nil => exact .singleton _
      | cons hy hr =>
        rename_i j m is ls
        cases h2 with
        | cons_cons hij h2 =>
          refine .cons_cons ?_ (ih h2)
          obtain ⟨bs, _, rfl⟩ := hx
          obtain ⟨cs, _, rfl⟩ := hy
          show VPos.eq _ _ = false
          rw [rowLine, rowLine, rowEq, decide_eq_false_iff_not]
          omega

private theorem seen_runs (sub : Subtitle) (hf : sub.fadeUp = none ∧ sub.fadeDown = none) (hist : List Ev) (ts : List TTok) (hs : timesNow hist = (sub.from_, sub.to_)) :
    evRaws hist (tokEvents ts) = (seenRuns hist ts).map (fun r => sub.piece (rowLine r.1 []) r.2) := by
  induction ts generalizing hist with
  | nil => rfl
  | cons t ts ih =>
    cases t with
    | text s =>
      have h1 := ih (hist ++ [.text s]) (by rw [times_snoc _ _ (by simp), hs])
      rw [seenRuns, List.map_cons, ← raw_piece hist s _ sub ⟨hs, hf⟩ rfl, tok_cons, ← h1]
      rfl
    | bar => exact ih (hist ++ [.bar]) (by rw [times_snoc _ _ (by simp), hs])
    | toggle f => exact ih (hist ++ [.toggle f]) (by rw [times_snoc _ _ (by simp), hs])
    | other c => exact ih hist hs

private theorem seen_pieces (hist : List Ev) (ls : List TLine) :
    evRaws hist (fileEvents ls) = (seenSubtitles hist ls).flatMap Subtitle.pieces ∧ ∀ s ∈ seenSubtitles hist ls, Framed s := by
  induction ls generalizing hist with
  | nil => simp [fileEvents, evRaws, seenSubtitles]
  | cons l ls ih =>
    have hr := ih (hist ++ l.item.events)
    have e : fileEvents (l :: ls) = l.item.events ++ fileEvents ls := rfl
    rw [e, evRaws_append, seenSubtitles]
    cases hi : l.item with
    | ignored s =>
      rw [hi] at hr
      exact hr
    | var v a b =>
      rw [hi] at hr
      obtain ⟨h1, -⟩ := var_events hist v
      simp only [TItem.events] at hr ⊢
      rw [h1]
      exact hr
    | sub f t a b c ts =>
      rw [hi] at hr
      have hev : TItem.events (.sub f t a b c ts) = [.times f.frameTime t.frameTime] ++ tokEvents ts := rfl
      rw [hev] at hr ⊢
      have h3 := seen_runs { from_ := f.frameTime, to_ := t.frameTime } ⟨rfl, rfl⟩ (hist ++ [.times f.frameTime t.frameTime]) ts (times_times _ _ _)
      rw [← List.append_assoc] at hr ⊢
      obtain ⟨h5, h6⟩ := hr
      rw [evRaws_append, h3, h5]
      simp only [evRaws, List.nil_append]
      by_cases hn : seenRuns (hist ++ [.times f.frameTime t.frameTime]) ts = []
      · rw [if_pos hn, hn]
        exact ⟨rfl, h6⟩
      · rw [if_neg hn]
        refine ⟨?_, ?_⟩
        · rw [List.flatMap_append, List.flatMap_singleton]
          congr 1
          obtain ⟨-, -, -, h7⟩ := rowLines_chain { from_ := f.frameTime, to_ := t.frameTime } (seenRuns (hist ++ [.times f.frameTime t.frameTime]) ts)
          exact h7.symm
        · intro s hs
          rw [List.mem_append, List.mem_singleton] at hs
          rcases hs with rfl | hs
          · exact ⟨rfl, rfl, ⟨rfl, rfl⟩, seen_shaped _ _ _ hn⟩
          · exact h6 s hs

/-- C95, what is true of every file of which no two subtitles have both times in common: the subtitles come with their times and runs of text in the style in force, but a run belongs to the line
with the number of `|` since the last text, and neighbouring runs with the same such number are one line. -/
theorem C95_all_partial (ls : List TLine) (hv : ∀ l ∈ ls, l.Valid) (hb : (fileEvents ls).count .bar < 2 ^ 31 - 1)
    (hd : (seenSubtitles [] ls).Pairwise (fun s t => s.from_ ≠ t.from_ ∨ s.to_ ≠ t.to_)) :
    ∃ raws out, stlTextRead (unlines (ls.map TLine.text)) = .ok raws ∧ collect raws = .ok out ∧ InFrameOrder (seenSubtitles [] ls) out := by
  obtain ⟨h1, h2⟩ := seen_pieces [] ls
  obtain ⟨out, h3, h4⟩ := collect_framed _ h2 hd
  exact ⟨_, out, C37_file ls hv hb, by rw [h1]; exact h3, h4⟩

/-- Three lines become two. -/
example : ∃ raws out, stlTextRead b!"0:0:1:0 ,0:0:2:0,a|b|c\n" = .ok raws ∧ collect raws = .ok out ∧
    InFrameOrder [{ from_ := ⟨1, 0, none⟩, to_ := ⟨2, 0, none⟩, lines := [rowLine 0 [{ text := b!"a" }], rowLine 1 [{ text := b!"b" }, { text := b!"c" }]] }] out := by
  have h := C95_all_partial threeRows threeRows_valid (by decide) (by decide +kernel)
  have e : unlines (threeRows.map TLine.text) = b!"0:0:1:0 ,0:0:2:0,a|b|c\n" := by decide +kernel
  have e' : seenSubtitles [] threeRows = [{ from_ := ⟨1, 0, none⟩, to_ := ⟨2, 0, none⟩, lines := [rowLine 0 [{ text := b!"a" }], rowLine 1 [{ text := b!"b" }, { text := b!"c" }]] }] := by decide +kernel
  rw [e, e'] at h
  exact h

end LibSub
