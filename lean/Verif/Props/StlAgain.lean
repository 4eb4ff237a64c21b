/-
Property C108: writing again what was read from a binary STL file that the library wrote gives the same file.
-/
import Verif.Lemmas.StlTokens
import Verif.Props.StlSubtitles

namespace LibSub

/-! ### Specification -/

/-- A subtitle a file of `w` frames per second can hold, with something to see on every line, every line but the last ending
in text; no line on one of the rows that move (C80); the text is UTF-8 (the header holds a number of bytes of text). -/
structure Settled (w : Int) (s : Subtitle) (vps : List Int) : Prop where
  visible : Visible w s vps
  rows : ∀ v ∈ vps, v ≠ 7 ∧ v ≠ 14
  ends : ∀ l ∈ s.lines.dropLast, ∃ k, l.blocks.getLast? = some k ∧ utf8Decode k.text ≠ []
  utf8 : ∀ l ∈ s.lines, ∀ k ∈ l.blocks, utf8Encode (utf8Decode k.text) = k.text

/-! ### Proofs: the subtitle that is read -/

private def headRef (s : Subtitle) : HPos := { ref := (s.lines.map (·.hpos.ref)).headD .left }

private def again (s : Subtitle) (vps : List Int) : Subtitle :=
  { from_ := s.from_, to_ := s.to_, lines := ((backPieces {} (s.lines.zip vps)).zip vps).map (fun x => backLine (headRef s) x.2 x.1) }

private theorem backPieces_mem : ∀ (js : List (Line × Int)) (st : StyleState), Ends js → LastFull js → ∀ ps ∈ backPieces st js, ps ≠ []
  | [], _, _, _, ps, hp => by cases hp
  | [(j, v)], st, _, hl, ps, hp => by
    rw [List.mem_singleton.1 hp]
    intro e
    have := keptToks_chars (tokBlocks st j.blocks ++ closers (stateAfter st j.blocks)) st []
    rw [e, List.filterMap_append, closers_chars, tokBlocks_chars] at this
    obtain ⟨k, hk, hd⟩ := hl (j, v) rfl
    simp only [List.flatMap_nil, List.nil_append, List.append_nil] at this
    exact hd (List.flatMap_eq_nil_iff.1 this.symm k hk)
  | (j, v) :: l :: js, st, he, hl, ps, hp => by
    rw [backPieces] at hp
    rcases List.mem_cons.1 hp with rfl | hp
    · obtain ⟨k, hk, hd⟩ := he (j, v) (by rw [List.dropLast_cons_of_ne_nil (by simp)]; simp)
      obtain ⟨ts, w, e⟩ := tokBlocks_last j.blocks k hk hd st
      rw [e, keptToks_char]
      exact cutToks_ne _ _ _
    · exact backPieces_mem (l :: js) _ (fun x hx => he x (by rw [List.dropLast_cons_of_ne_nil (by simp)]; simp [hx])) (fun x hx => hl x (by rw [List.getLast?_cons_cons]; exact hx)) ps hp

/-- The pieces of the lines. -/
private theorem again_pieces (rate : Int) (b : Str) (s t : Subtitle) (hp : HPos) (hf : blockTime b 5 rate = t.from_) (ht : blockTime b 9 rate = t.to_) (hal : ({ ref := blockAlign (b.getD 14 0) } : HPos) = hp)
    (hfu : t.fadeUp = none ∧ t.fadeDown = none) : ∀ (js : List (Line × Int)) (st : StyleState) (r : Nat), (∀ v ∈ (js.map (·.2)).head?, blockRow b + r = v) → (js.map (·.2)).Pairwise (· < ·) →
    (((backPieces st js).zip (js.map (·.2))).map (fun x => backLine hp x.2 x.1)).flatMap (fun l => l.blocks.map (t.piece l)) =
      (backRuns r st js).map (fun x => blockRaw rate 23 b 0 (x.2.1.pen x.1) x.2.2)
  | [], _, _, _, _ => rfl
  | [(j, v)], st, r, hv, _ => by
    have hv := hv v (by simp)
    rw [backPieces, backRuns, List.map_map]
    simp only [List.map_cons, List.map_nil, List.zip_cons_cons, List.zip_nil_right, List.flatMap_cons, List.flatMap_nil, List.append_nil, backLine, List.map_map]
    apply List.map_congr_left
    intro x _
    simp only [Function.comp_apply, Subtitle.piece, pieceBlock, blockRaw, StyleState.pen, hf, ht, hal, hfu.1, hfu.2, hv, Int.sub_zero]
  | (j, v) :: (j2, v2) :: js, st, r, hv, hd => by
    have hv := hv v (by simp)
    have hlt : v < v2 := (List.pairwise_cons.1 hd).1 v2 (by simp)
    have ih := again_pieces rate b s t hp hf ht hal hfu ((j2, v2) :: js) (stateAfter st j.blocks) (r + (v2 - v).toNat) (by
      intro u hu
      simp only [List.map_cons, List.head?_cons, Option.mem_def, Option.some.injEq] at hu
      omega) (List.pairwise_cons.1 hd).2
    rw [backPieces, backRuns, List.map_append, ← ih, List.map_cons, List.zip_cons_cons, List.map_cons, List.flatMap_cons]
    congr 1
    simp only [backLine, List.map_map]
    apply List.map_congr_left
    intro x _
    simp only [Function.comp_apply, Subtitle.piece, pieceBlock, blockRaw, StyleState.pen, hf, ht, hal, hfu.1, hfu.2, hv, Int.sub_zero]

private theorem runs_raws (rate : Int) (b : Str) (xs : List (Nat × (StyleState × List WChar))) (hx : ∀ x ∈ xs, ∀ c ∈ x.2.2, Representable c) : ∀ new : List Raw,
    List.Forall₂ (fun (q : Pen × Str) x => ∃ w, IsoText q.2 w ∧ x = blockRaw rate 23 b 0 q.1 w) (xs.map (fun x => pieceRun x.1 x.2)) new →
    new = xs.map (fun x => blockRaw rate 23 b 0 (x.2.1.pen x.1) x.2.2) := by
  induction xs with
  | nil => intro new h; cases h; rfl
  | cons x xs ih =>
    intro new h
    rw [List.map_cons] at h
    cases h with
    | cons h1 h2 =>
      obtain ⟨w, h3, rfl⟩ := h1
      rw [List.map_cons, ih (fun x hx' => hx x (by simp [hx'])) _ h2]
      congr 1
      have := isoText_unique (isoText_isoBytes x.2.2 (hx x (by simp))) h3
      rw [← this]
      rfl

private theorem zip_rows {ls : List Line} {vps : List Int} (h : vps.length = ls.length) : (ls.zip vps).map (·.2) = vps := by
  rw [List.map_snd_zip]
  omega

private theorem zip_lines {ls : List Line} {vps : List Int} (h : vps.length = ls.length) : (ls.zip vps).map (·.1) = ls := by
  rw [List.map_fst_zip]
  omega

private structure Facts (s : Subtitle) (vps : List Int) : Prop where
  ne : s.lines.zip vps ≠ []
  text : TextOk (s.lines.zip vps)
  ends : Ends (s.lines.zip vps)
  last : LastFull (s.lines.zip vps)
  rows : (s.lines.zip vps).map (·.2) = vps
  lines : (s.lines.zip vps).map (·.1) = s.lines

private theorem settled_facts {w : Int} {s : Subtitle} {vps : List Int} (h : Settled w s vps) : Facts s vps := by
  have hlen := vposes_length _ _ h.visible.holds.rows
  have h1 := zip_lines hlen
  have h2 := zip_rows hlen
  refine ⟨?_, ?_, ?_, ?_, h2, h1⟩
  · intro e
    rw [e] at h1
    exact h.visible.holds.lines h1.symm
  · intro j hj
    exact h.visible.holds.text j.1 (by rw [← h1]; exact List.mem_map_of_mem hj)
  · intro j hj
    refine h.ends j.1 ?_
    rw [← h1, ← List.map_dropLast]
    exact List.mem_map_of_mem hj
  · intro j hj
    exact h.visible.text j.1 (by rw [← h1]; exact List.mem_map_of_mem (List.mem_of_getLast? hj))

private theorem block_again {w : Int} (hw1 : 1 ≤ w) (hw2 : w ≤ 255) {s : Subtitle} {vps : List Int} (h : Settled w s vps) (b : Str) (hb : ttiBlocks (w : ℚ) s = .ok [b]) (new : List Raw) (hs : Shows w 23 0 b new) :
    (again s vps).pieces = new := by
  have hF := h.visible.holds.fits hw1 hw2
  have f := settled_facts h
  obtain ⟨text, ht, hbt, hal, _, _⟩ := tti_bytes _ s b hb vps h.visible.holds.rows
  obtain ⟨t5, t9⟩ := tti_times _ s _ hF w b hb
  have e1 : ∀ t : Time, OwnTime w t → (⟨t.secs, t.frames, some ⟨w, 1⟩⟩ : Time) = t := by
    intro t ht
    rw [← ht.rate]
  rw [e1 _ h.visible.holds.from_] at t5
  rw [e1 _ h.visible.holds.to_] at t9
  rw [writerText_toks _ f.ne f.text] at ht
  cases ht
  obtain ⟨runs, r1, _, _, _, _, _, r7⟩ := hs.runs
  have hpw : ((s.lines.zip vps).map (·.2)).Pairwise (· < ·) := by rw [f.rows]; exact h.visible.holds.down
  have hrow : ∀ v ∈ ((s.lines.zip vps).map (·.2)).head?, blockRow b + (0 : Nat) = v := by
    intro v hv
    rw [f.rows] at hv
    obtain ⟨vs, hvs⟩ : ∃ vs, vps = v :: vs := by
      cases hvp : vps with
      | nil => rw [hvp] at hv; cases hv
      | cons u us => rw [hvp] at hv; cases hv; exact ⟨us, rfl⟩
    rw [tti_row _ s _ hF b hb v vs hvs]
    simp
  have hcut : runs = (backRuns 0 {} (s.lines.zip vps)).map (fun x => pieceRun x.1 x.2) := by
    rw [r7, hbt]
    have e2 : linesText {} (s.lines.zip vps) ++ [0x8f] ++ List.replicate (112 - (linesText {} (s.lines.zip vps) ++ [0x8f]).length) 0x8f =
        linesText {} (s.lines.zip vps) ++ List.replicate (112 - (linesText {} (s.lines.zip vps) ++ [0x8f]).length + 1) 0x8f := by
      rw [List.replicate_succ]; simp
    rw [e2]
    have hne := f.ne
    have htx := f.text
    generalize s.lines.zip vps = js at hne htx hpw ⊢
    obtain ⟨⟨j, v⟩, js, rfl⟩ := List.exists_cons_of_ne_nil hne
    exact cutRows_lines _ js j v {} 0 htx hpw
  rw [hcut] at r1
  rw [runs_raws w b _ (backRuns_rep _ _ _ f.text) new r1]
  have := again_pieces w b s (again s vps) (headRef s) t5 t9 (by unfold headRef; rw [hal]) ⟨rfl, rfl⟩ (s.lines.zip vps) {} 0 hrow hpw
  rw [← this, f.rows]
  rfl

private theorem again_rows {w : Int} {s : Subtitle} {vps : List Int} (h : Settled w s vps) (hp : HPos) : ∀ (ps : List (List (StyleState × List WChar))) (vs : List Int), vs.length = ps.length →
    (∀ v ∈ vs, v ∈ vps) → writerVposes ((ps.zip vs).map (fun x => backLine hp x.2 x.1)) = .ok vs := by
  intro ps
  induction ps with
  | nil => intro vs hl _; rw [List.eq_nil_of_length_eq_zero hl]; rfl
  | cons p ps ih =>
    intro vs hl hm
    cases vs with
    | nil => cases hl
    | cons v vs =>
      have hv := hm v (by simp)
      obtain ⟨h0, h1⟩ := h.visible.holds.onScreen v hv
      obtain ⟨h2, h3⟩ := h.rows v hv
      obtain ⟨n, rfl⟩ := Int.eq_ofNat_of_zero_le h0
      rw [List.zip_cons_cons, List.map_cons, writerVposes, C80_rows_partial n _ (by omega) (by omega) (by omega) rfl, ok_bind, ih vs (by simpa using hl) (fun v hv => hm v (by simp [hv])), ok_bind]
      rfl

private theorem zip_back (hp : HPos) : ∀ (ps : List (List (StyleState × List WChar))) (vs : List Int),
    ((ps.zip vs).map (fun x => backLine hp x.2 x.1)).zip vs = (ps.zip vs).map (fun x => (backLine hp x.2 x.1, x.2))
  | [], _ => rfl
  | _ :: _, [] => rfl
  | p :: ps, v :: vs => by
    simp only [List.zip_cons_cons, List.map_cons]
    rw [zip_back hp ps vs]

private theorem again_block {w : Int} {s : Subtitle} {vps : List Int} (h : Settled w s vps) (fps : ℚ) : ttiBlocks fps (again s vps) = ttiBlocks fps s := by
  have f := settled_facts h
  have hlen := vposes_length _ _ h.visible.holds.rows
  have hpl : vps.length = (backPieces {} (s.lines.zip vps)).length := by
    rw [backPieces_length, List.length_zip]; omega
  have h1 := again_rows h (headRef s) (backPieces {} (s.lines.zip vps)) vps hpl (fun v hv => hv)
  have hz : (again s vps).lines.zip vps = ((backPieces {} (s.lines.zip vps)).zip vps).map (fun x => (backLine (headRef s) x.2 x.1, x.2)) := by
    exact zip_back _ _ _
  have h2 := writerText_back (headRef s) _ f.ne f.text f.ends f.last
  rw [f.rows, ← hz] at h2
  unfold ttiBlocks
  rw [h.visible.holds.rows, ok_bind, show writerVposes (again s vps).lines = .ok vps from h1, ok_bind, h2]
  obtain ⟨l, ls, hls⟩ := List.exists_cons_of_ne_nil h.visible.holds.lines
  obtain ⟨m, ms, hms, hm⟩ : ∃ m ms, (again s vps).lines = m :: ms ∧ m.hpos.ref = l.hpos.ref := by
    have hpz : (again s vps).lines.length = s.lines.length := by
      unfold again
      simp only [List.length_map, List.length_zip, ← hpl]
      omega
    obtain ⟨m, ms, hms⟩ : ∃ m ms, (again s vps).lines = m :: ms := by
      refine List.exists_cons_of_ne_nil (fun e => ?_)
      rw [e, hls] at hpz
      cases hpz
    refine ⟨m, ms, hms, ?_⟩
    have : m ∈ (again s vps).lines := by rw [hms]; simp
    obtain ⟨x, _, rfl⟩ := List.mem_map.1 this
    unfold backLine headRef
    rw [hls]
    rfl
  rw [hls, hms]
  simp only [hm]
  rfl

private theorem encode_append (a b : List WChar) : utf8Encode (a ++ b) = utf8Encode a ++ utf8Encode b := by
  induction a with
  | nil => rfl
  | cons c a ih => rw [List.cons_append, utf8Encode, utf8Encode, ih, List.append_assoc]

private theorem pieces_sum (ps : List (StyleState × List WChar)) : ((ps.map pieceBlock).map (fun b => b.text.length)).sum = (utf8Encode (ps.flatMap (·.2))).length := by
  induction ps with
  | nil => rfl
  | cons p ps ih =>
    rw [List.map_cons, List.map_cons, List.sum_cons, ih, List.flatMap_cons, encode_append, List.length_append]
    rfl

private theorem blocks_sum (ks : List Block) (h : ∀ k ∈ ks, utf8Encode (utf8Decode k.text) = k.text) : (ks.map (fun b => b.text.length)).sum = (utf8Encode (ks.flatMap (fun k => utf8Decode k.text))).length := by
  induction ks with
  | nil => rfl
  | cons k ks ih =>
    rw [List.map_cons, List.sum_cons, ih (fun k hk => h k (by simp [hk])), List.flatMap_cons, encode_append, List.length_append, h k (by simp)]

private theorem backPieces_sums : ∀ (js : List (Line × Int)) (st : StyleState), (∀ j ∈ js, ∀ k ∈ j.1.blocks, utf8Encode (utf8Decode k.text) = k.text) →
    (backPieces st js).map (fun ps => ((ps.map pieceBlock).map (fun b => b.text.length)).sum) = js.map (fun j => (j.1.blocks.map (fun b => b.text.length)).sum)
  | [], _, _ => rfl
  | [(j, v)], st, h => by
    rw [backPieces]
    simp only [List.map_cons, List.map_nil]
    rw [pieces_sum, keptToks_chars, List.filterMap_append, closers_chars, tokBlocks_chars, List.nil_append, List.append_nil, blocks_sum _ (h (j, v) (by simp))]
  | (j, v) :: l :: js, st, h => by
    rw [backPieces, List.map_cons, backPieces_sums (l :: js) _ (fun x hx => h x (by simp [hx])), pieces_sum, keptToks_chars, tokBlocks_chars, List.nil_append, ← blocks_sum _ (h (j, v) (by simp))]
    rfl

private theorem again_sums {w : Int} {s : Subtitle} {vps : List Int} (h : Settled w s vps) :
    (again s vps).lines.map (fun l => (l.blocks.map (fun b => b.text.length)).sum) = s.lines.map (fun l => (l.blocks.map (fun b => b.text.length)).sum) := by
  have f := settled_facts h
  have hlen := vposes_length _ _ h.visible.holds.rows
  have hpl : vps.length = (backPieces {} (s.lines.zip vps)).length := by
    rw [backPieces_length, List.length_zip]; omega
  have h1 := backPieces_sums (s.lines.zip vps) {} (fun j hj => h.utf8 j.1 (by rw [← f.lines]; exact List.mem_map_of_mem hj))
  have h2 : (s.lines.zip vps).map (fun j => (j.1.blocks.map (fun b => b.text.length)).sum) = ((s.lines.zip vps).map (·.1)).map (fun l => (l.blocks.map (fun b => b.text.length)).sum) := by
    rw [List.map_map]; rfl
  rw [h2, f.lines] at h1
  rw [← h1]
  have h3 : (((backPieces {} (s.lines.zip vps)).zip vps).map (·.1)) = backPieces {} (s.lines.zip vps) := List.map_fst_zip (by omega)
  conv_rhs => rw [← h3, List.map_map]
  show (((backPieces {} (s.lines.zip vps)).zip vps).map _).map _ = _
  rw [List.map_map]
  rfl

private theorem zip_chain (hp : HPos) : ∀ (ps : List (List (StyleState × List WChar))) (vs : List Int), vs.Pairwise (· < ·) →
    List.IsChain (fun l m : Line => ∃ i j : Int, l.vpos = { line := some i, lines := some 23, ref := some .topOfScreen } ∧ m.vpos = { line := some j, lines := some 23, ref := some .topOfScreen } ∧ i ≠ j) ((ps.zip vs).map (fun x => backLine hp x.2 x.1))
  | [], _, _ => .nil
  | _ :: _, [], _ => .nil
  | [p], v :: vs, _ => .singleton _
  | p :: p2 :: ps, [v], _ => .singleton _
  | p :: p2 :: ps, v :: v2 :: vs, h => by
    have ih := zip_chain hp (p2 :: ps) (v2 :: vs) (List.pairwise_cons.1 h).2
    have hlt : v < v2 := (List.pairwise_cons.1 h).1 v2 (by simp)
    simp only [List.zip_cons_cons, List.map_cons] at ih ⊢
    rw [List.isChain_cons_cons]
    exact ⟨⟨v, v2, rfl, rfl, by omega⟩, ih⟩

private theorem again_shaped {w : Int} {s : Subtitle} {vps : List Int} (h : Settled w s vps) : (again s vps).Shaped := by
  have f := settled_facts h
  have hlen := vposes_length _ _ h.visible.holds.rows
  have hpl : vps.length = (backPieces {} (s.lines.zip vps)).length := by
    rw [backPieces_length, List.length_zip]; omega
  have rowEq : ∀ i j : Int, VPos.eq { line := some i, lines := some 23, ref := some .topOfScreen } { line := some j, lines := some 23, ref := some .topOfScreen } = decide (i = j) := by
    intro i j
    unfold VPos.eq
    simp
    rfl
  refine ⟨?_, ?_, ?_⟩
  · intro e
    have : (again s vps).lines.length = s.lines.length := by
      unfold again
      simp only [List.length_map, List.length_zip, ← hpl]
      omega
    rw [e] at this
    exact h.visible.holds.lines (List.eq_nil_of_length_eq_zero this.symm)
  · intro l hl
    obtain ⟨x, hx, rfl⟩ := List.mem_map.1 hl
    refine ⟨?_, .inr ?_⟩
    · unfold backLine
      simp only [ne_eq, List.map_eq_nil_iff]
      exact backPieces_mem _ _ f.ends f.last x.1 (List.of_mem_zip (a := x.1) (b := x.2) hx).1
    · unfold backLine
      rw [rowEq]; simp
  · unfold again
    simp only
    have hd := h.visible.holds.down
    generalize backPieces {} (s.lines.zip vps) = ps at hpl
    have := zip_chain (headRef s) ps vps hd
    refine this.imp ?_
    rintro a b ⟨i, j, h1, h2, h3⟩
    rw [h1, h2, rowEq]
    simpa using h3

/-! ### Proofs: files -/

private theorem parts_again {w : Int} (hw1 : 1 ≤ w) (hw2 : w ≤ 255) {ss : List Subtitle} {vs : List (List Int)} (h : List.Forall₂ (Settled w) ss vs) : ∀ {bs : List Str} {parts : List (List Raw)},
    List.Forall₂ (fun s b => ttiBlocks (w : ℚ) s = .ok [b]) ss bs → List.Forall₂ (Shows w 23 0) bs parts →
    parts.flatten = ((ss.zip vs).map (fun x => again x.1 x.2)).flatMap Subtitle.pieces := by
  induction h with
  | nil => intro bs parts h1 h2; cases h1; cases h2; rfl
  | cons hx _ ih =>
    intro bs parts h1 h2
    cases h1 with
    | cons a1 a2 =>
      cases h2 with
      | cons b1 b2 =>
        rw [List.flatten_cons, ih a2 b2, List.zip_cons_cons, List.map_cons, List.flatMap_cons, block_again hw1 hw2 hx _ a1 _ b1]

private theorem blocks_again {w : Int} (fps : ℚ) {ss : List Subtitle} {vs : List (List Int)} (h : List.Forall₂ (Settled w) ss vs) :
    makeTtiBlocks fps ((ss.zip vs).map (fun x => again x.1 x.2)) = makeTtiBlocks fps ss ∧ stlLongest ((ss.zip vs).map (fun x => again x.1 x.2)) = stlLongest ss ∧
      ((ss.zip vs).map (fun x => again x.1 x.2)).length = ss.length := by
  have key : makeTtiBlocks fps ((ss.zip vs).map (fun x => again x.1 x.2)) = makeTtiBlocks fps ss ∧
      ((ss.zip vs).map (fun x => again x.1 x.2)).flatMap (fun s => s.lines.map (fun l => (l.blocks.map (fun b => b.text.length)).sum)) =
        ss.flatMap (fun s => s.lines.map (fun l => (l.blocks.map (fun b => b.text.length)).sum)) ∧ ((ss.zip vs).map (fun x => again x.1 x.2)).length = ss.length := by
    induction h with
    | nil => exact ⟨rfl, rfl, rfl⟩
    | cons hx _ ih =>
      obtain ⟨i1, i2, i3⟩ := ih
      rw [List.zip_cons_cons, List.map_cons]
      refine ⟨?_, ?_, ?_⟩
      · rw [makeTtiBlocks, makeTtiBlocks, again_block hx, i1]
      · rw [List.flatMap_cons, List.flatMap_cons, again_sums hx, i2]
      · rw [List.length_cons, List.length_cons, i3]
  refine ⟨key.1, ?_, key.2.2⟩
  unfold stlLongest
  rw [key.2.1]

/-! ### C108 -/

/-- C108: subtitles are written to a binary STL file, read and collected.  What was collected, written with the same
arguments, gives the same file byte for byte. -/
theorem C108_again (l : Locale) (hl : SaneLocale l) (ht : l.thousandsSep.head? ≠ some 45) (a : StlArgs) (hv : a.Valid) (hr : InInt a.revisionNumber)
    (hlong : InInt (stlLongest a.subtitles)) (hn : a.subtitles.length < 100000) (w : Int) (hw : w = 24 ∨ w = 25 ∨ w = 30) (hfps : a.fps = w) (vs : List (List Int))
    (hfit : List.Forall₂ (Settled w) a.subtitles vs) (hd : a.subtitles.IsChain (fun s t => s.from_ ≠ t.from_ ∨ s.to_ ≠ t.to_))
    (ho : a.subtitles.Pairwise (fun s t => s.from_.asFrames w ≤ t.from_.asFrames w)) :
    ∃ out info raws back, writeStlIn l a = .ok out ∧ stlRead out = .ok (info, raws) ∧ collect raws = .ok back ∧ writeStlIn l { a with subtitles := back } = .ok out := by
  have hw' : 1 ≤ w ∧ w ≤ 30 := by omega
  obtain ⟨bs, out, info, parts, o1, o2, o3, o4, _, o6⟩ := stl_written_own l hl ht a hv hr hlong hn w hw hfps vs (hfit.imp (fun _ _ h => h.visible.holds))
  rw [hfps] at o2
  have hparts := parts_again (by omega) (by omega) hfit o2 o6
  have hback : List.Forall₂ (fun (s t : Subtitle) => t.from_ = s.from_ ∧ t.to_ = s.to_ ∧ OwnTime w t.from_ ∧ OwnTime w t.to_ ∧ t.fadeUp = none ∧ t.fadeDown = none) a.subtitles ((a.subtitles.zip vs).map (fun x => again x.1 x.2)) := by
    clear hd ho o1 o2 o3 hlong hn hparts
    generalize a.subtitles = ss at hfit
    induction hfit with
    | nil => exact .nil
    | cons hx _ ih => exact .cons ⟨rfl, rfl, hx.visible.holds.from_, hx.visible.holds.to_, rfl, rfl⟩ ih
  have hshaped : ∀ t ∈ (a.subtitles.zip vs).map (fun x => again x.1 x.2), t.Shaped := by
    clear hd ho o1 o2 o3 hlong hn hparts hback
    generalize a.subtitles = ss at hfit
    induction hfit with
    | nil => intro t h; cases h
    | cons hx _ ih =>
      intro t h
      rcases List.mem_cons.1 h with rfl | h
      · exact again_shaped hx
      · exact ih t h
  refine ⟨out, info, _, (a.subtitles.zip vs).map (fun x => again x.1 x.2), o3, o4, ?_, ?_⟩
  · rw [hparts]
    refine C81_ordered _ (back_comparable hw' hback) hshaped (forall₂_chain hback ?_ hd) (forall₂_pairwise hback ?_ ho)
    · rintro s t s' t' ⟨h1, h2, h3, h4, _⟩ ⟨k1, k2, k3, k4, _⟩ h
      exact own_differs hw' ⟨h3, h4⟩ ⟨k3, k4⟩ (by rw [h1, h2, k1, k2]; exact h)
    · rintro s t s' t' ⟨h1, h2, h3, h4, _⟩ ⟨k1, k2, k3, k4, _⟩ h
      rw [own_lt hw' k3 h3, h1, k1]
      simp only [Except.ok.injEq, decide_eq_false_iff_not]
      omega
  · obtain ⟨k1, k2, k3⟩ := blocks_again a.fps hfit
    rw [← o3]
    unfold writeStlIn stlGsi
    simp only [k1, k2, k3]
    rfl

private theorem stlDemo_settled : List.Forall₂ (Settled 25) stlDemo.subtitles [[21, 22], [21]] := by
  have h := stlDemo_holds
  have key : ∀ s ∈ stlDemo.subtitles, (∀ l ∈ s.lines, ∃ k ∈ l.blocks, utf8Decode k.text ≠ []) ∧ (∀ l ∈ s.lines.dropLast, ∃ k ∈ l.blocks, l.blocks.getLast? = some k ∧ utf8Decode k.text ≠ []) ∧
      (∀ l ∈ s.lines, ∀ k ∈ l.blocks, utf8Encode (utf8Decode k.text) = k.text) := by decide +kernel
  have hrows : ∀ vps ∈ ([[21, 22], [21]] : List (List Int)), ∀ v ∈ vps, v ≠ 7 ∧ v ≠ 14 := by decide
  generalize ([[21, 22], [21]] : List (List Int)) = vs at h hrows
  generalize stlDemo.subtitles = ss at h key
  induction h with
  | nil => exact .nil
  | cons hx _ ih =>
    obtain ⟨k1, k2, k3⟩ := key _ List.mem_cons_self
    exact .cons ⟨⟨hx, k1⟩, hrows _ (by simp), fun l hl => (k2 l hl).imp (fun _ h => h.2), k3⟩ (ih (fun v hv => hrows v (by simp [hv])) (fun s hs => key s (by simp [hs])))

/-- A file C108 speaks about: two subtitles, the first of two lines with italic in the middle of one. -/
example : ∃ out info raws back, writeStl stlDemo = .ok out ∧ stlRead out = .ok (info, raws) ∧ collect raws = .ok back ∧ writeStl { stlDemo with subtitles := back } = .ok out :=
  C108_again Locale.c sane_c (by decide) stlDemo stlDemo_valid (by decide) (by decide) (by decide) 25 (by decide) (by decide +kernel) _ stlDemo_settled (by decide +kernel) (by decide +kernel)

/-- The text of the first block of the file, and of the file that is written from what was read. -/
abbrev twice (ss : List Subtitle) : Option (Str × Str) :=
  ((writeStl { stlDemo with subtitles := ss }).bind (fun out => (stlRead out).bind (fun r => (collect r.2).bind (fun back =>
    (writeStl { stlDemo with subtitles := back }).map (fun out' => ((ttiBlock out 0).drop 13, (ttiBlock out' 0).drop 13)))))).toOption

/-- C108 needs lines that end in text: an empty italic block at the end of a line is lost, and italic begins on the next row. -/
theorem C108_ends_witness : (twice [{ from_ := ⟨3, 12, some ⟨25, 1⟩⟩, to_ := ⟨5, 0, some ⟨25, 1⟩⟩, lines := [{ vpos := { line := some 10, lines := some 23, ref := some .topOfScreen }, blocks := [{ text := b!"a" }, { text := [], italic := true }] }, { vpos := { line := some 11, lines := some 23, ref := some .topOfScreen }, blocks := [{ text := b!"b", italic := true }] }] }]).map (fun x => (x.1.take 9, x.2.take 9)) =
    some ([10, 2, 0, 97, 0x80, 0x8a, 98, 0x81, 0x8f], [10, 2, 0, 97, 0x8a, 0x80, 98, 0x81, 0x8f]) := by
  decide +kernel

/-- C108 needs other rows than 7 and 14: a line on row 7 is on row 6 of the second file. -/
theorem C108_row_witness : (twice [{ from_ := ⟨3, 12, some ⟨25, 1⟩⟩, to_ := ⟨5, 0, some ⟨25, 1⟩⟩, lines := [{ vpos := { prop := some (f32 (7 / 23)), ref := some .topOfScreen }, blocks := [{ text := b!"a" }] }] }]).map (fun x => (x.1.take 5, x.2.take 5)) =
    some ([7, 2, 0, 97, 0x8f], [6, 2, 0, 97, 0x8f]) := by
  decide +kernel

/-- C108 needs text in UTF-8: what is not is dropped, and the header of the second file says that the longest line has one
byte less. -/
theorem C108_utf8_witness : (((writeStl { stlDemo with subtitles := [{ from_ := ⟨3, 12, some ⟨25, 1⟩⟩, to_ := ⟨5, 0, some ⟨25, 1⟩⟩, lines := [{ vpos := { prop := some (1 / 2), ref := some .topOfScreen }, blocks := [{ text := [0xff, 97] }] }] }] }).bind
      (fun out => (stlRead out).bind (fun r => (collect r.2).bind (fun back => (writeStl { stlDemo with subtitles := back }).map (fun out' => ((out.drop 251).take 2, (out'.drop 251).take 2)))))).toOption) =
    some (b!"02", b!"01") := by
  decide +kernel

end LibSub
