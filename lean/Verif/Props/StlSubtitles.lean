/-
Property C93: subtitles written to a binary STL file, read and collected, are the subtitles that were written.
-/
import Verif.Props.Regroup
import Verif.Props.StlRoundTrip
import Mathlib.Data.List.Sort

namespace LibSub

/-! ### Specification -/

/-- The characters of the lines of a subtitle, line by line. -/
def Subtitle.view (s : Subtitle) : List (List Seen) :=
  s.lines.map (fun l => l.blocks.flatMap (fun k => (utf8Decode k.text).map (fun c => ⟨s.from_, s.to_, l.vpos.line, l.hpos.ref, k.colour, k.italic, k.underline, c⟩)))

/-- What is to be seen of a subtitle, line by line, when its lines are put on the given rows: every line has the
alignment of the first, all is white. -/
def Subtitle.asWritten (s : Subtitle) (vps : List Int) : List (List Seen) :=
  (s.lines.zip vps).map (fun j => j.1.blocks.flatMap (fun k => (utf8Decode k.text).map (fun c =>
    ⟨s.from_, s.to_, some j.2, (s.lines.map (·.hpos.ref)).headD .left, ⟨1, 1, 1⟩, k.italic, k.underline, c⟩)))

/-- A subtitle a file of `w` frames per second can hold, with something to see on every line. -/
structure Visible (w : Int) (s : Subtitle) (vps : List Int) : Prop where
  holds : Holds w s vps
  text : ∀ l ∈ s.lines, ∃ k ∈ l.blocks, utf8Decode k.text ≠ []

/-- Frames since the start of the file. -/
def Time.asFrames (w : Int) (t : Time) : Int := w * t.secs + t.frames

/-- `t` is the subtitle that comes back for `s`. -/
structure ComesBack (s : Subtitle) (vps : List Int) (t : Subtitle) : Prop where
  from_ : t.from_ = s.from_
  to_ : t.to_ = s.to_
  view : t.view = s.asWritten vps
  fades : t.fadeUp = none ∧ t.fadeDown = none

/-! ### Proofs: pieces in order of their rows are the pieces of a subtitle -/

private def lineOf (r : Raw) : Line := { hpos := r.hpos, vpos := r.vpos, blocks := [Block.ofRaw r] }

private def group : List Raw → List Line
  | [] => []
  | r :: rs =>
    match group rs with
    | [] => [lineOf r]
    | l :: ls => if l.vpos.line = r.vpos.line then { l with blocks := Block.ofRaw r :: l.blocks } :: ls else lineOf r :: l :: ls

/-- The pieces are alike but for row, text and style. -/
private structure Alike (f t : Time) (h : HPos) (v : Int) (x : Raw) : Prop where
  from_ : x.from_ = f
  to_ : x.to_ = t
  vpos : x.vpos = { line := some v, lines := some 23, ref := some .topOfScreen }
  hpos : x.hpos = h
  fades : x.fadeUp = none ∧ x.fadeDown = none

private theorem piece_ofRaw {f t : Time} {h : HPos} {v : Int} {x : Raw} (hx : Alike f t h v x) (ls : List Line) (bs : List Block) :
    ({ from_ := f, to_ := t, lines := ls } : Subtitle).piece { hpos := h, vpos := { line := some v, lines := some 23, ref := some .topOfScreen }, blocks := bs } (Block.ofRaw x) = x := by
  obtain ⟨h1, h2, h3, h4, h5, h6⟩ := hx
  obtain ⟨text, font, fs, ef, ec, co, bo, it, un, hp, vp, fr, en, fu, fd⟩ := x
  simp only at h1 h2 h3 h4 h5 h6
  subst h1 h2 h3 h4 h5 h6
  rfl

/-- The lines of a group: where they are, and that they are not empty. -/
private theorem group_spec (f t : Time) (h : HPos) (s : Subtitle) (hs : s.from_ = f ∧ s.to_ = t ∧ s.fadeUp = none ∧ s.fadeDown = none) {vs : List Int} {new : List Raw}
    (hn : List.Forall₂ (Alike f t h) vs new) (hp : vs.Pairwise (· ≤ ·)) :
    ∃ rows : List Int, List.Forall₂ (fun v l => l.vpos = { line := some v, lines := some 23, ref := some .topOfScreen } ∧ l.hpos = h ∧ l.blocks ≠ []) rows (group new) ∧
      rows.Pairwise (· < ·) ∧ (∀ v ∈ rows, v ∈ vs) ∧ rows.head? = vs.head? ∧ (group new).flatMap (fun l => l.blocks.map (s.piece l)) = new := by
  induction hn with
  | nil => exact ⟨[], .nil, .nil, by simp, rfl, rfl⟩
  | cons hx hr ih =>
    rename_i v x vs new
    obtain ⟨rows, g1, g2, g3, g4, g5⟩ := ih (List.pairwise_cons.1 hp).2
    have hle := (List.pairwise_cons.1 hp).1
    have hpiece : ∀ bs : List Block, s.piece { hpos := h, vpos := { line := some v, lines := some 23, ref := some .topOfScreen }, blocks := bs } (Block.ofRaw x) = x := by
      intro bs
      obtain ⟨s1, s2, s3, s4⟩ := hs
      have := piece_ofRaw hx s.lines bs
      rw [← this]
      unfold Subtitle.piece
      simp [s1, s2, s3, s4, Block.ofRaw]
    have hline : lineOf x = { hpos := h, vpos := { line := some v, lines := some 23, ref := some .topOfScreen }, blocks := [Block.ofRaw x] } := by
      unfold lineOf
      rw [hx.vpos, hx.hpos]
    rw [group]
    cases hg : group new with
    | nil =>
      rw [hg] at g1 g5
      cases g1
      simp only []
      refine ⟨[v], .cons ⟨hx.vpos, hx.hpos, by simp [lineOf]⟩ .nil, by simp, by simp, rfl, ?_⟩
      rw [hline]
      simp only [List.flatMap_cons, List.flatMap_nil, List.map_cons, List.map_nil, List.append_nil] at g5 ⊢
      rw [hpiece, ← g5]
    | cons l ls =>
      rw [hg] at g1 g5
      cases g1 with
      | cons gl gls =>
        rename_i u rows
        obtain ⟨l1, l2, l3⟩ := gl
        simp only []
        have hu := g3 u (by simp)
        split
        · rename_i he
          rw [l1, hx.vpos] at he
          have he : u = v := Option.some.inj he
          subst he
          refine ⟨u :: rows, .cons ⟨l1, l2, by simp⟩ gls, g2, fun z hz => List.mem_cons_of_mem _ (g3 z hz), rfl, ?_⟩
          obtain ⟨lh, lv, lb⟩ := l
          simp only at l1 l2
          subst l1 l2
          rw [List.flatMap_cons, List.map_cons, hpiece, List.cons_append]
          congr 1
        · rename_i he
          rw [l1, hx.vpos] at he
          have hlt : v < u := by
            have := hle u hu
            have : u ≠ v := fun h => he (by rw [h])
            omega
          refine ⟨v :: u :: rows, .cons ⟨hx.vpos, hx.hpos, by simp [lineOf]⟩ (.cons ⟨l1, l2, l3⟩ gls), ?_, ?_, rfl, ?_⟩
          · refine List.pairwise_cons.2 ⟨?_, g2⟩
            intro z hz
            rcases List.mem_cons.1 hz with rfl | hz
            · exact hlt
            · have := (List.pairwise_cons.1 g2).1 z hz
              omega
          · intro z hz
            rcases List.mem_cons.1 hz with rfl | hz
            · simp
            · exact List.mem_cons_of_mem _ (g3 z hz)
          · rw [List.flatMap_cons, g5, hline]
            simp only [List.map_cons, List.map_nil]
            rw [hpiece]
            rfl

private theorem rowEq (i j : Int) : VPos.eq { line := some i, lines := some 23, ref := some .topOfScreen } { line := some j, lines := some 23, ref := some .topOfScreen } = decide (i = j) := by
  unfold VPos.eq
  simp
  rfl

/-! ### Proofs: lines are what is on a row -/

private theorem forall₂_right {α β : Type} {R : α → β → Prop} {as : List α} {bs : List β} (h : List.Forall₂ R as bs) : ∀ b ∈ bs, ∃ a ∈ as, R a b := by
  induction h with
  | nil => intro b hb; cases hb
  | cons hx _ ih =>
    intro b hb
    rcases List.mem_cons.1 hb with rfl | hb
    · exact ⟨_, by simp, hx⟩
    · obtain ⟨a, ha, hr⟩ := ih b hb
      exact ⟨a, by simp [ha], hr⟩

/-- Groups with increasing keys are what the keys select. -/
private theorem groups_eq {α : Type} (key : α → Option Int) (gs : List (List α)) (ks : List Int) (h : List.Forall₂ (fun k g => ∀ x ∈ g, key x = some k) ks gs) (hp : ks.Pairwise (· < ·)) :
    gs = ks.map (fun k => gs.flatten.filter (fun x => key x = some k)) := by
  induction h with
  | nil => rfl
  | cons hg ht ih =>
    rename_i k g ks gs
    obtain ⟨h1, h2⟩ := List.pairwise_cons.1 hp
    have hother : ∀ j ∈ ks, g.filter (fun x => decide (key x = some j)) = [] := by
      intro j hj
      rw [List.filter_eq_nil_iff]
      intro x hx
      rw [hg x hx]
      have := h1 j hj
      simp
      omega
    have hrest : gs.flatten.filter (fun x => decide (key x = some k)) = [] := by
      rw [List.filter_eq_nil_iff]
      intro x hx
      obtain ⟨g', hg', hx⟩ := List.mem_flatten.1 hx
      obtain ⟨j, hj, hk⟩ := forall₂_right ht g' hg'
      rw [hk x hx]
      have := h1 j hj
      simp
      omega
    rw [List.map_cons, List.flatten_cons, List.filter_append, hrest, List.append_nil, List.filter_eq_self.2 (fun x hx => by simp [hg x hx])]
    congr 1
    conv_lhs => rw [ih h2]
    apply List.map_congr_left
    intro j hj
    rw [List.filter_append, hother j hj, List.nil_append]

/-- Increasing lists with the same members are equal. -/
private theorem eq_of_mem_iff (a b : List Int) (ha : a.Pairwise (· < ·)) (hb : b.Pairwise (· < ·)) (h : ∀ x, x ∈ a ↔ x ∈ b) : a = b :=
  ha.eq_of_mem_iff hb h

private theorem pieces_view (s : Subtitle) : s.pieces.flatMap Raw.seen = s.view.flatten := by
  unfold Subtitle.pieces Subtitle.view
  rw [List.flatMap_assoc, ← List.flatMap_def]
  apply List.flatMap_congr
  intro l _
  rw [List.flatMap_map]
  rfl

private theorem asWritten_shown (s : Subtitle) (vps : List Int) : (s.asWritten vps).flatten = s.shown vps := by
  unfold Subtitle.asWritten Subtitle.shown
  rw [← List.flatMap_def]

/-- One subtitle. -/
private theorem part_subtitle {w : Int} {s : Subtitle} {vps : List Int} {new : List Raw} (hv : Visible w s vps) (hr : ReadAs w s ⟨vps, s.from_.frames, s.to_.frames⟩ new) :
    ∃ t : Subtitle, t.pieces = new ∧ t.Shaped ∧ ComesBack s vps t := by
  have e1 : ∀ t : Time, OwnTime w t → (⟨t.secs, t.frames, some ⟨w, 1⟩⟩ : Time) = t := by
    intro t ht
    rw [← ht.rate]
  have hseen := hr.shown hv.holds
  have hlen := vposes_length _ _ hv.holds.rows
  have hink : ∀ v ∈ vps, ∃ x ∈ s.shown vps, x.row = some v := by
    intro v hv'
    obtain ⟨i, hi, rfl⟩ := List.getElem_of_mem hv'
    have hi' : i < s.lines.length := by omega
    obtain ⟨k, hk, hc⟩ := hv.text s.lines[i] (List.getElem_mem _)
    obtain ⟨c, cs, hc⟩ := List.exists_cons_of_ne_nil hc
    refine ⟨⟨s.from_, s.to_, some vps[i], (s.lines.map (·.hpos.ref)).headD .left, ⟨1, 1, 1⟩, k.italic, k.underline, c⟩, ?_, rfl⟩
    unfold Subtitle.shown
    refine List.mem_flatMap.2 ⟨(s.lines[i], vps[i]), ?_, List.mem_flatMap.2 ⟨k, hk, List.mem_map.2 ⟨c, by rw [hc]; simp, rfl⟩⟩⟩
    rw [List.mem_iff_getElem]
    exact ⟨i, by rw [List.length_zip]; omega, by simp⟩
  obtain ⟨vs, r1, r2, r3⟩ := hr.rows
  simp only [e1 _ hv.holds.from_, e1 _ hv.holds.to_] at r1
  have r1 : List.Forall₂ (Alike s.from_ s.to_ { ref := (s.lines.map (·.hpos.ref)).headD .left }) vs new :=
    r1.imp (fun v x h => ⟨h.1, h.2.1, h.2.2.1, h.2.2.2.1, h.2.2.2.2⟩)
  obtain ⟨rows, g1, g2, g3, g4, g5⟩ := group_spec s.from_ s.to_ _ { from_ := s.from_, to_ := s.to_, lines := group new } ⟨rfl, rfl, rfl, rfl⟩ r1 r2
  generalize hh : ({ ref := (s.lines.map (·.hpos.ref)).headD .left } : HPos) = hp at *
  refine ⟨{ from_ := s.from_, to_ := s.to_, lines := group new }, g5, ?_, rfl, rfl, ?_, rfl, rfl⟩
  · have hne : group new ≠ [] := by
      intro h0
      rw [h0] at g5
      rw [← g5] at hseen
      obtain ⟨v, hv'⟩ : ∃ v, v ∈ vps := by
        cases hvp : vps with
        | nil =>
          rw [hvp] at hlen
          exact absurd (List.eq_nil_of_length_eq_zero hlen.symm) hv.holds.lines
        | cons v _ => exact ⟨v, by simp⟩
      obtain ⟨x, hx, _⟩ := hink v hv'
      rw [← hseen] at hx
      cases hx
    refine ⟨hne, ?_, ?_⟩
    · intro l hl
      obtain ⟨v, _, h1, _, h2⟩ := forall₂_right g1 l hl
      exact ⟨h2, .inr (by rw [h1, rowEq]; simp)⟩
    · have hc := g2.isChain
      have g1' : List.Forall₂ (fun (v : Int) (l : Line) => l.vpos = { line := some v, lines := some 23, ref := some .topOfScreen }) rows (group new) := g1.imp (fun _ _ h => h.1)
      clear hseen g1 g5 hne
      simp only []
      generalize group new = ls at *
      clear g2 g3 g4
      induction g1' with
      | nil => exact .nil
      | cons h1 h2 ih =>
        cases h2 with
        | nil => exact .singleton _
        | cons h3 h4 =>
          rw [List.isChain_cons_cons] at hc ⊢
          refine ⟨?_, ih hc.2⟩
          rw [h1, h3, rowEq, decide_eq_false_iff_not]
          omega
  · have hflat : (({ from_ := s.from_, to_ := s.to_, lines := group new } : Subtitle)).view.flatten = s.shown vps := by
      rw [← pieces_view, ← hseen]
      exact congrArg _ g5
    have k1 : List.Forall₂ (fun (k : Int) (g : List Seen) => ∀ x ∈ g, x.row = some k) rows (({ from_ := s.from_, to_ := s.to_, lines := group new } : Subtitle)).view := by
      unfold Subtitle.view
      rw [List.forall₂_map_right_iff]
      refine g1.imp ?_
      rintro v l ⟨h1, _⟩ x hx
      obtain ⟨k, _, hx⟩ := List.mem_flatMap.1 hx
      obtain ⟨c, _, rfl⟩ := List.mem_map.1 hx
      simp only [h1]
    have k2 : List.Forall₂ (fun (k : Int) (g : List Seen) => ∀ x ∈ g, x.row = some k) vps (s.asWritten vps) := by
      unfold Subtitle.asWritten
      rw [List.forall₂_map_right_iff]
      have : ∀ (ls : List Line) (vs : List Int), vs.length = ls.length → List.Forall₂ (fun (v : Int) (j : Line × Int) => j.2 = v) vs (ls.zip vs) := by
        intro ls
        induction ls with
        | nil => intro vs h; rw [List.eq_nil_of_length_eq_zero h]; exact .nil
        | cons l ls ih =>
          intro vs h
          cases vs with
          | nil => cases h
          | cons v vs => exact .cons rfl (ih vs (by simpa using h))
      refine (this s.lines vps hlen).imp ?_
      rintro v j rfl x hx
      obtain ⟨k, _, hx⟩ := List.mem_flatMap.1 hx
      obtain ⟨c, _, rfl⟩ := List.mem_map.1 hx
      rfl
    have hrows : rows = vps := by
      refine eq_of_mem_iff _ _ g2 hv.holds.down (fun v => ⟨fun h => r3 v (g3 v h), fun h => ?_⟩)
      obtain ⟨x, hx, hxr⟩ := hink v h
      rw [← hflat] at hx
      obtain ⟨g, hg, hx⟩ := List.mem_flatten.1 hx
      obtain ⟨u, hu, hk⟩ := forall₂_right k1 g hg
      have := hk x hx
      rw [hxr] at this
      rw [Option.some.inj this]
      exact hu
    rw [groups_eq Seen.row _ _ k1 g2, groups_eq Seen.row _ _ k2 hv.holds.down, hflat, asWritten_shown, hrows]

private theorem parts_subtitles {w : Int} {ss : List Subtitle} {vs : List (List Int)} (h : List.Forall₂ (Visible w) ss vs) : ∀ {parts : List (List Raw)},
    List.Forall₂ (fun x part => ReadAs w x.1 ⟨x.2, x.1.from_.frames, x.1.to_.frames⟩ part) (ss.zip vs) parts →
    ∃ back : List Subtitle, parts.flatten = back.flatMap Subtitle.pieces ∧ (∀ t ∈ back, t.Shaped) ∧ List.Forall₂ (fun x t => ComesBack x.1 x.2 t) (ss.zip vs) back := by
  induction h with
  | nil => intro parts h; cases h; exact ⟨[], rfl, by simp, .nil⟩
  | cons hx _ ih =>
    intro parts h
    rw [List.zip_cons_cons] at h
    cases h with
    | cons p1 p2 =>
      obtain ⟨t, t1, t2, t3⟩ := part_subtitle hx p1
      obtain ⟨back, b1, b2, b3⟩ := ih p2
      refine ⟨t :: back, by rw [List.flatten_cons, List.flatMap_cons, t1, b1], ?_, .cons t3 b3⟩
      intro u hu
      rcases List.mem_cons.1 hu with rfl | hu
      · exact t2
      · exact b2 u hu

/-! ### Proofs: times -/

private theorem own_scaled (w f : Int) (hw : 1 ≤ w ∧ w ≤ 30) (h0 : 0 ≤ f) (h : f < w) : Time.scaled f ⟨w, 1⟩ ⟨w, 1⟩ = .ok (w * f) := by
  have h1 : 0 ≤ f * w := Int.mul_nonneg h0 (by omega)
  have h2 : f * w ≤ 30 * 30 := by nlinarith
  unfold Time.scaled
  rw [ck_ok (by unfold InInt; simp only; omega), ok_bind, ck_ok (by unfold InInt; simp only; omega)]
  simp only [Except.ok.injEq]
  ring

private theorem own_eq {w : Int} (hw : 1 ≤ w ∧ w ≤ 30) {f g : Time} (hf : OwnTime w f) (hg : OwnTime w g) : f.eq g = .ok (decide (f = g)) := by
  obtain ⟨fs, ff, fr⟩ := f
  obtain ⟨gs, gf, gr⟩ := g
  obtain ⟨f1, f2, f3⟩ := hf
  obtain ⟨g1, g2, g3⟩ := hg
  simp only at f1 f2 f3 g1 g2 g3
  subst f1 g1
  unfold Time.eq
  simp only
  by_cases h : fs = gs
  · rw [if_neg (by simpa using h), own_scaled _ _ hw f2.1 f2.2, ok_bind, own_scaled _ _ hw g2.1 g2.2, ok_bind, pure_eq_ok]
    simp only [h, Time.mk.injEq, true_and, and_true, Except.ok.injEq, decide_eq_decide]
    exact mul_right_inj' (by omega)
  · rw [if_pos h]
    simp [h]

theorem own_lt {w : Int} (hw : 1 ≤ w ∧ w ≤ 30) {f g : Time} (hf : OwnTime w f) (hg : OwnTime w g) : f.lt g = .ok (decide (f.asFrames w < g.asFrames w)) := by
  obtain ⟨fs, ff, fr⟩ := f
  obtain ⟨gs, gf, gr⟩ := g
  obtain ⟨f1, f2, f3⟩ := hf
  obtain ⟨g1, g2, g3⟩ := hg
  simp only at f1 f2 f3 g1 g2 g3
  subst f1 g1
  unfold Time.lt Time.asFrames
  simp only
  by_cases h : fs = gs
  · rw [if_neg (by simpa using h), own_scaled _ _ hw f2.1 f2.2, ok_bind, own_scaled _ _ hw g2.1 g2.2, ok_bind, pure_eq_ok]
    simp only [Except.ok.injEq, decide_eq_decide, h]
    constructor
    · intro h; nlinarith
    · intro h; nlinarith
  · rw [if_pos h]
    simp only [Except.ok.injEq, decide_eq_decide]
    constructor
    · intro h; nlinarith
    · intro h'
      by_contra hc
      have : gs + 1 ≤ fs := by omega
      nlinarith

private theorem back_times {w : Int} {ss : List Subtitle} {vs : List (List Int)} (h : List.Forall₂ (Visible w) ss vs) : ∀ {back : List Subtitle},
    List.Forall₂ (fun x t => ComesBack x.1 x.2 t) (ss.zip vs) back →
    List.Forall₂ (fun (s t : Subtitle) => t.from_ = s.from_ ∧ t.to_ = s.to_ ∧ OwnTime w t.from_ ∧ OwnTime w t.to_ ∧ t.fadeUp = none ∧ t.fadeDown = none) ss back := by
  induction h with
  | nil => intro back h; cases h; exact .nil
  | cons hx _ ih =>
    intro back h
    rw [List.zip_cons_cons] at h
    cases h with
    | cons p1 p2 =>
      refine .cons ⟨p1.from_, p1.to_, ?_, ?_, p1.fades⟩ (ih p2)
      · have := hx.holds.from_
        rw [p1.from_]; exact this
      · have := hx.holds.to_
        rw [p1.to_]; exact this

theorem forall₂_pairwise {α β : Type} {R : α → β → Prop} {P : α → α → Prop} {Q : β → β → Prop} {as : List α} {bs : List β} (h : List.Forall₂ R as bs)
    (hpq : ∀ a b a' b', R a b → R a' b' → P a a' → Q b b') (hp : as.Pairwise P) : bs.Pairwise Q := by
  induction h with
  | nil => exact .nil
  | cons hx ht ih =>
    rw [List.pairwise_cons] at hp ⊢
    refine ⟨fun b hb => ?_, ih hp.2⟩
    obtain ⟨a, ha, hr⟩ := forall₂_right ht b hb
    exact hpq _ _ _ _ hx hr (hp.1 a ha)

theorem forall₂_chain {α β : Type} {R : α → β → Prop} {P : α → α → Prop} {Q : β → β → Prop} {as : List α} {bs : List β} (h : List.Forall₂ R as bs)
    (hpq : ∀ a b a' b', R a b → R a' b' → P a a' → Q b b') (hp : as.IsChain P) : bs.IsChain Q := by
  induction h with
  | nil => exact .nil
  | cons hx ht ih =>
    cases ht with
    | nil => exact .singleton _
    | cons h3 h4 =>
      rw [List.isChain_cons_cons] at hp ⊢
      exact ⟨hpq _ _ _ _ hx h3 hp.1, ih hp.2⟩

theorem own_differs {w : Int} (hw : 1 ≤ w ∧ w ≤ 30) {s t : Subtitle} (hs : OwnTime w s.from_ ∧ OwnTime w s.to_) (ht : OwnTime w t.from_ ∧ OwnTime w t.to_)
    (h : s.from_ ≠ t.from_ ∨ s.to_ ≠ t.to_) : s.Differs t := by
  unfold Subtitle.Differs
  rw [own_eq hw hs.1 ht.1, own_eq hw hs.2 ht.2]
  by_cases h0 : s.from_ = t.from_
  · have h1 : s.to_ ≠ t.to_ := by
      rcases h with h | h
      · exact absurd h0 h
      · exact h
    simp [h0, h1]
  · simp [h0]

theorem back_comparable {w : Int} (hw : 1 ≤ w ∧ w ≤ 30) {ss back : List Subtitle}
    (h : List.Forall₂ (fun (s t : Subtitle) => t.from_ = s.from_ ∧ t.to_ = s.to_ ∧ OwnTime w t.from_ ∧ OwnTime w t.to_ ∧ t.fadeUp = none ∧ t.fadeDown = none) ss back) : Comparable back := by
  have hb := forall₂_right h
  constructor
  · intro t ht
    obtain ⟨_, _, _, _, h1, h2, h3, h4⟩ := hb t ht
    refine ⟨?_, ?_, ?_, ?_⟩
    · rw [own_eq hw h1 h1]; simp
    · rw [own_eq hw h2 h2]; simp
    · rw [h3]; rfl
    · rw [h4]; rfl
  · intro s hs t ht
    obtain ⟨_, _, _, _, h1, _⟩ := hb s hs
    obtain ⟨_, _, _, _, h2, _⟩ := hb t ht
    exact ⟨.inl ⟨⟨_, h1.rate, Int.one_pos⟩, ⟨_, h2.rate, Int.one_pos⟩⟩, _, own_lt hw h1 h2⟩

/-! ### C93 -/

/-- C93: subtitles that the format can hold, with text on every line, in order of their start times and each with other times
than its neighbour, come back when they are written to a binary STL file, read and collected: as many subtitles, with their
times, their lines on their rows and aligned, and line by line their characters, italic and underline. -/
theorem C93_ordered (l : Locale) (hl : SaneLocale l) (ht : l.thousandsSep.head? ≠ some 45) (a : StlArgs) (hv : a.Valid) (hr : InInt a.revisionNumber)
    (hlong : InInt (stlLongest a.subtitles)) (hn : a.subtitles.length < 100000) (w : Int) (hw : w = 24 ∨ w = 25 ∨ w = 30) (hfps : a.fps = w) (vs : List (List Int))
    (hfit : List.Forall₂ (Visible w) a.subtitles vs) (hd : a.subtitles.IsChain (fun s t => s.from_ ≠ t.from_ ∨ s.to_ ≠ t.to_))
    (ho : a.subtitles.Pairwise (fun s t => s.from_.asFrames w ≤ t.from_.asFrames w)) :
    ∃ out info raws back, writeStlIn l a = .ok out ∧ stlRead out = .ok (info, raws) ∧ collect raws = .ok back ∧
      List.Forall₂ (fun x t => ComesBack x.1 x.2 t) (a.subtitles.zip vs) back := by
  have hw' : 1 ≤ w ∧ w ≤ 30 := by omega
  obtain ⟨out, info, parts, o1, o2, o3, o4⟩ := stl_parts_own l hl ht a hv hr hlong hn w hw hfps vs (hfit.imp (fun _ _ h => h.holds))
  obtain ⟨back, b1, b2, b3⟩ := parts_subtitles hfit o4
  have hback := back_times hfit b3
  refine ⟨out, info, _, back, o1, o2, ?_, b3⟩
  rw [b1]
  refine C81_ordered back (back_comparable hw' hback) b2 (forall₂_chain hback ?_ hd) (forall₂_pairwise hback ?_ ho)
  · rintro s t s' t' ⟨h1, h2, h3, h4, _⟩ ⟨k1, k2, k3, k4, _⟩ h
    exact own_differs hw' ⟨h3, h4⟩ ⟨k3, k4⟩ (by rw [h1, h2, k1, k2]; exact h)
  · rintro s t s' t' ⟨h1, h2, h3, h4, _⟩ ⟨k1, k2, k3, k4, _⟩ h
    rw [own_lt hw' k3 h3, h1, k1]
    simp only [Except.ok.injEq, decide_eq_false_iff_not]
    omega

/-- C93: written in any order, no two subtitles having both times in common, they come back in order of their start times, those
that start at the same time as they were written. -/
theorem C93_any_order (l : Locale) (hl : SaneLocale l) (ht : l.thousandsSep.head? ≠ some 45) (a : StlArgs) (hv : a.Valid) (hr : InInt a.revisionNumber)
    (hlong : InInt (stlLongest a.subtitles)) (hn : a.subtitles.length < 100000) (w : Int) (hw : w = 24 ∨ w = 25 ∨ w = 30) (hfps : a.fps = w) (vs : List (List Int))
    (hfit : List.Forall₂ (Visible w) a.subtitles vs) (hd : a.subtitles.Pairwise (fun s t => s.from_ ≠ t.from_ ∨ s.to_ ≠ t.to_)) :
    ∃ out info raws back res, writeStlIn l a = .ok out ∧ stlRead out = .ok (info, raws) ∧ collect raws = .ok res ∧
      List.Forall₂ (fun x t => ComesBack x.1 x.2 t) (a.subtitles.zip vs) back ∧ List.Perm res back ∧
      List.Pairwise (fun s t => Time.asFrames w (Subtitle.from_ s) ≤ Time.asFrames w (Subtitle.from_ t)) res ∧
      ∀ s t, [s, t].Sublist back → s.from_ = t.from_ → [s, t].Sublist res := by
  have hw' : 1 ≤ w ∧ w ≤ 30 := by omega
  obtain ⟨out, info, parts, o1, o2, o3, o4⟩ := stl_parts_own l hl ht a hv hr hlong hn w hw hfps vs (hfit.imp (fun _ _ h => h.holds))
  obtain ⟨back, b1, b2, b3⟩ := parts_subtitles hfit o4
  have hback := back_times hfit b3
  obtain ⟨res, r1, r2, r3, r4⟩ := C81_any_order back (back_comparable hw' hback) b2 (forall₂_pairwise hback (by
    rintro s t s' t' ⟨h1, h2, h3, h4, _⟩ ⟨k1, k2, k3, k4, _⟩ h
    refine ⟨own_differs hw' ⟨h3, h4⟩ ⟨k3, k4⟩ (by rw [h1, h2, k1, k2]; exact h), own_differs hw' ⟨k3, k4⟩ ⟨h3, h4⟩ (by rw [h1, h2, k1, k2]; exact h.imp Ne.symm Ne.symm)⟩) hd)
  have hb := forall₂_right hback
  refine ⟨out, info, _, back, res, o1, o2, by rw [b1]; exact r1, b3, r2, ?_, ?_⟩
  · refine r3.imp_of_mem ?_
    intro s t hs ht h
    obtain ⟨_, _, _, _, h1, _⟩ := hb s (r2.mem_iff.1 hs)
    obtain ⟨_, _, _, _, h2, _⟩ := hb t (r2.mem_iff.1 ht)
    rw [own_lt hw' h2 h1] at h
    simp only [Except.ok.injEq, decide_eq_false_iff_not] at h
    omega
  · intro s t hst he
    obtain ⟨_, _, _, _, h1, _⟩ := hb s (hst.subset (by simp))
    refine r4 s t hst ?_
    rw [← he, own_eq hw' h1 h1]; simp

private theorem stlDemo_visible : List.Forall₂ (Visible 25) stlDemo.subtitles [[21, 22], [21]] := by
  have h := stlDemo_holds
  have key : ∀ s ∈ stlDemo.subtitles, ∀ l ∈ s.lines, ∃ k ∈ l.blocks, utf8Decode k.text ≠ [] := by decide +kernel
  have : ∀ (ss : List Subtitle) (vs : List (List Int)), List.Forall₂ (Holds 25) ss vs → (∀ s ∈ ss, ∀ l ∈ s.lines, ∃ k ∈ l.blocks, utf8Decode k.text ≠ []) → List.Forall₂ (Visible 25) ss vs := by
    intro ss vs h hk
    induction h with
    | nil => exact .nil
    | cons hx _ ih => exact .cons ⟨hx, hk _ (by simp)⟩ (ih (fun s hs => hk s (by simp [hs])))
  exact this _ _ h key

/-- A file C93 speaks about: two subtitles, the first of two lines with italic in the middle of one. -/
example : ∃ out info raws back, writeStl stlDemo = .ok out ∧ stlRead out = .ok (info, raws) ∧ collect raws = .ok back ∧
    List.Forall₂ (fun x t => ComesBack x.1 x.2 t) (stlDemo.subtitles.zip [[21, 22], [21]]) back :=
  C93_ordered Locale.c sane_c (by decide) stlDemo stlDemo_valid (by decide) (by decide) (by decide) 25 (by decide) (by decide +kernel) _ stlDemo_visible
    (by decide +kernel) (by decide +kernel)

/-- The same the other way round. -/
example : ({ stlDemo with subtitles := stlDemo.subtitles.reverse } : StlArgs).subtitles.Pairwise (fun s t => s.from_ ≠ t.from_ ∨ s.to_ ≠ t.to_) := by decide +kernel

/-- What comes back: subtitles, lines, rows and blocks.  There are empty pieces at changes of style. -/
example : (((writeStl stlDemo).bind stlRead).bind (fun r => collect r.2)).toOption.map (fun ss => ss.map (fun s => s.lines.map (fun l => l.blocks.map (fun k => k.text)))) =
    some [[[b!"Hello ", b!"world"], [b!"", b!"Bye"]], [[b!"", [99, 97, 102, 195, 131, 194, 169]]]] := by
  decide +kernel

/-- C93 needs text on every line: a plain line without text is lost, and with it the subtitle if it has no other. -/
theorem C93_blank_witness :
    (((writeStl { stlDemo with subtitles := [{ from_ := ⟨3, 12, some ⟨25, 1⟩⟩, to_ := ⟨5, 0, some ⟨25, 1⟩⟩, lines := [{ vpos := { prop := some (1 / 2), ref := some .topOfScreen }, blocks := [{ text := [] }] }] }] }).bind stlRead).bind
      (fun r => collect r.2)).toOption.map (·.length) = some 0 := by
  decide +kernel

end LibSub
