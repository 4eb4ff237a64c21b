/-
Properties C82 and C83: from a SubRip or WebVTT file to finished subtitles, through reader and `collect`.
-/
import Verif.Props.Regroup
import Verif.Props.SubRipFile
import Verif.Props.WebVtt

namespace LibSub

/-! ### Specification -/

/-- Milliseconds of a time at the rate of 1000 per second. -/
def Time.asMs (t : Time) : Int := 1000 * t.secs + t.frames

/-- `out` consists of the subtitles `subs` in order of their start times, those with the same start time in the given order. -/
structure InOrder (subs out : List Subtitle) : Prop where
  perm : out.Perm subs
  ordered : out.Pairwise (fun s t => s.from_.asMs ≤ t.from_.asMs)
  stable : ∀ s t, [s, t].Sublist subs → s.from_ = t.from_ → [s, t].Sublist out

/-- Line `i` of a subtitle, of runs of text in some style. -/
def styledLine (i : Nat) (rs : List (Str × Style)) : Line where
  vpos := { line := some (i : Int), ref := some .topOfSubtitle }
  blocks := rs.map fun r => { text := r.1, bold := r.2.bold, italic := r.2.italic, underline := r.2.underline, colour := r.2.colour }

/-- The lines of a cue: one for each part that has some text, numbered by all parts; the style carries over.  `none` if there is a
`</font>` without open font tag. -/
def cueLines : Style → Nat → List Part → Option (List Line)
  | _, _, [] => some []
  | s, i, p :: ps =>
    match runs (s, []) p.1 p.2 with
    | none => none
    | some (rs, s') => (cueLines s' (i + 1) ps).map ((if rs = [] then [] else [styledLine i rs]) ++ ·)

/-- The subtitles of a SubRip file, one for each cue that has some text. -/
def srtSubtitles : List Cue → Option (List Subtitle)
  | [] => some []
  | c :: cs =>
    match cueLines ⟨false, false, false, white⟩ 0 c.lines.flatten with
    | none => none
    | some ls => (srtSubtitles cs).map ((if ls = [] then [] else [{ from_ := c.time.from_.time, to_ := c.time.to_.time, lines := ls }]) ++ ·)

/-- The subtitle of a cue of plain text: one line of one block for each line. -/
def plainSubtitle (t : TimeLine) (lines : List Str) : Subtitle where
  from_ := t.from_.time
  to_ := t.to_.time
  lines := lines.mapIdx fun i l => { vpos := { line := some (i : Int), ref := some .topOfSubtitle }, blocks := [{ text := l }] }

/-- The subtitles of a WebVTT file, one for each cue that has some line. -/
def vttSubtitles : List VItem → List Subtitle
  | [] => []
  | .cue t lines :: xs => (if lines = [] then [] else [plainSubtitle t lines.flatten]) ++ vttSubtitles xs
  | _ :: xs => vttSubtitles xs

/-! ### Times and lines as read -/

/-- A subtitle as it comes from a text file. -/
private structure Read (s : Subtitle) : Prop where
  times : ∃ f t : Stamp, f.Valid ∧ t.Valid ∧ s.from_ = f.time ∧ s.to_ = t.time
  fades : s.fadeUp = none ∧ s.fadeDown = none
  ne : s.lines ≠ []
  blocks : ∀ l ∈ s.lines, l.blocks ≠ []
  numbers : ∃ is : List Nat, s.lines.map (·.vpos) = is.map (fun i : Nat => ({ line := some (i : Int), ref := some .topOfSubtitle } : VPos)) ∧ is.Pairwise (· < ·)

private theorem lineEq (i j : Int) : (VPos.eq { line := some i, ref := some .topOfSubtitle } { line := some j, ref := some .topOfSubtitle }) = decide (i = j) := by
  unfold VPos.eq
  simp
  rfl

/-- A time in milliseconds. -/
def Time.InMs (t : Time) : Prop := 0 ≤ t.frames ∧ t.frames ≤ 999 ∧ t.rate = some ⟨1000, 1⟩

private theorem Stamp.Valid.inMs {f : Stamp} (hf : f.Valid) : f.time.InMs := by
  have := hf.2.2.1
  refine ⟨?_, ?_, rfl⟩ <;> simp only [Stamp.time] <;> omega

private theorem scaled_ms (f : Int) (h0 : 0 ≤ f) (h : f ≤ 999) : Time.scaled f ⟨1000, 1⟩ ⟨1000, 1⟩ = .ok (1000 * f) := by
  unfold Time.scaled
  rw [ck_ok (by unfold InInt; simp only; omega), ok_bind, ck_ok (by unfold InInt; simp only; omega)]
  simp only [Except.ok.injEq]
  omega

private theorem ms_eq {f g : Time} (hf : f.InMs) (hg : g.InMs) : f.eq g = .ok (decide (f = g)) := by
  obtain ⟨fs, ff, fr⟩ := f
  obtain ⟨gs, gf, gr⟩ := g
  obtain ⟨f1, f2, rfl⟩ := hf
  obtain ⟨g1, g2, rfl⟩ := hg
  simp only at f1 f2 g1 g2
  unfold Time.eq
  simp only
  by_cases h : fs = gs
  · rw [if_neg (by simpa using h), scaled_ms _ f1 f2, ok_bind, scaled_ms _ g1 g2, ok_bind, pure_eq_ok]
    simp only [h, Time.mk.injEq, true_and, and_true, Except.ok.injEq, decide_eq_decide]
    omega
  · rw [if_pos h]
    simp [h]

private theorem ms_lt {f g : Time} (hf : f.InMs) (hg : g.InMs) : f.lt g = .ok (decide (f.asMs < g.asMs)) := by
  obtain ⟨fs, ff, fr⟩ := f
  obtain ⟨gs, gf, gr⟩ := g
  obtain ⟨f1, f2, rfl⟩ := hf
  obtain ⟨g1, g2, rfl⟩ := hg
  simp only at f1 f2 g1 g2
  unfold Time.lt Time.asMs
  simp only
  by_cases h : fs = gs
  · rw [if_neg (by simpa using h), scaled_ms _ f1 f2, ok_bind, scaled_ms _ g1 g2, ok_bind, pure_eq_ok]
    simp only [Except.ok.injEq, decide_eq_decide]
    omega
  · rw [if_pos h]
    simp only [Except.ok.injEq, decide_eq_decide]
    omega

private theorem Read.shaped {s : Subtitle} (h : Read s) : s.Shaped := by
  obtain ⟨is, e, hp⟩ := h.numbers
  have hm : ∀ l ∈ s.lines, ∃ i : Nat, l.vpos = { line := some (i : Int), ref := some .topOfSubtitle } := by
    intro l hl
    have : l.vpos ∈ s.lines.map (·.vpos) := List.mem_map_of_mem hl
    rw [e, List.mem_map] at this
    obtain ⟨i, _, h⟩ := this
    exact ⟨i, h.symm⟩
  refine ⟨h.ne, ?_, ?_⟩
  · intro l hl
    refine ⟨h.blocks l hl, .inr ?_⟩
    obtain ⟨i, hi⟩ := hm l hl
    rw [hi, lineEq]; simp
  · have hc : List.IsChain (fun v w : VPos => v.eq w = false) (s.lines.map (·.vpos)) := by
      rw [e]
      apply List.Pairwise.isChain
      rw [List.pairwise_map]
      refine hp.imp ?_
      intro i j hij
      rw [lineEq, decide_eq_false_iff_not]
      omega
    rwa [List.isChain_map] at hc

/-- A subtitle whose times are in milliseconds, without fades, and of lines that differ from their neighbours. -/
structure Subtitle.Timed (s : Subtitle) : Prop where
  from_ : s.from_.InMs
  to_ : s.to_.InMs
  fades : s.fadeUp = none ∧ s.fadeDown = none
  shaped : s.Shaped

private theorem timed_self {s : Subtitle} (h : s.Timed) : s.SelfEqual := by
  refine ⟨?_, ?_, ?_, ?_⟩
  · rw [ms_eq h.from_ h.from_]; simp
  · rw [ms_eq h.to_ h.to_]; simp
  · rw [h.fades.1]; rfl
  · rw [h.fades.2]; rfl

private theorem timed_differs {s t : Subtitle} (hs : s.Timed) (ht : t.Timed) (h : s.from_ ≠ t.from_ ∨ s.to_ ≠ t.to_) : s.Differs t := by
  unfold Subtitle.Differs
  rw [ms_eq hs.from_ ht.from_, ms_eq hs.to_ ht.to_]
  by_cases h0 : s.from_ = t.from_
  · have h1 : s.to_ ≠ t.to_ := by
      rcases h with h | h
      · exact absurd h0 h
      · exact h
    simp [h0, h1]
  · simp [h0]

/-- `collect` on the pieces of subtitles with times in milliseconds of which no two have both times in common. -/
theorem collect_timed (subs : List Subtitle) (h : ∀ s ∈ subs, s.Timed) (hd : subs.Pairwise (fun s t => s.from_ ≠ t.from_ ∨ s.to_ ≠ t.to_)) :
    ∃ out, collect (subs.flatMap Subtitle.pieces) = .ok out ∧ InOrder subs out := by
  have hc : Comparable subs := by
    refine ⟨fun s hs => timed_self (h s hs), ?_⟩
    intro s hs t ht
    exact ⟨.inl ⟨⟨_, (h s hs).from_.2.2, by decide⟩, ⟨_, (h t ht).from_.2.2, by decide⟩⟩, _, ms_lt (h s hs).from_ (h t ht).from_⟩
  obtain ⟨out, h1, h2, h3, h4⟩ := C81_any_order subs hc (fun s hs => (h s hs).shaped) (by
    refine hd.imp_of_mem ?_
    intro s t hs ht hst
    exact ⟨timed_differs (h s hs) (h t ht) hst, timed_differs (h t ht) (h s hs) (hst.imp Ne.symm Ne.symm)⟩)
  refine ⟨out, h1, h2, ?_, ?_⟩
  · refine h3.imp_of_mem ?_
    intro s t hs ht hst
    rw [ms_lt (h t (h2.mem_iff.1 ht)).from_ (h s (h2.mem_iff.1 hs)).from_] at hst
    simp only [Except.ok.injEq, decide_eq_false_iff_not] at hst
    omega
  · intro s t hst he
    refine h4 s t hst ?_
    have hs := h s (hst.subset (by simp))
    rw [← he, ms_eq hs.from_ hs.from_]; simp

private theorem collect_read (subs : List Subtitle) (h : ∀ s ∈ subs, Read s) (hd : subs.Pairwise (fun s t => s.from_ ≠ t.from_ ∨ s.to_ ≠ t.to_)) :
    ∃ out, collect (subs.flatMap Subtitle.pieces) = .ok out ∧ InOrder subs out := by
  refine collect_timed subs (fun s hs => ?_) hd
  obtain ⟨f, t, hf, ht, e1, e2⟩ := (h s hs).times
  exact ⟨by rw [e1]; exact hf.inMs, by rw [e2]; exact ht.inMs, (h s hs).fades, (h s hs).shaped⟩

/-! ### C82 -/

private theorem runs_lines (c : Cue) (s : Style) (i : Nat) (ps : List Part) :
    (partsRuns s i ps).map (fun x => x.1.map (cueRaw c)) =
      (cueLines s i ps).map (fun ls => ({ from_ := c.time.from_.time, to_ := c.time.to_.time, lines := ls } : Subtitle).pieces) := by
  induction ps generalizing s i with
  | nil => rfl
  | cons p ps ih =>
    rw [partsRuns, cueLines]
    cases runs (s, []) p.1 p.2 with
    | none => rfl
    | some x =>
      obtain ⟨rs, s'⟩ := x
      simp only
      have := ih s' (i + 1)
      cases h1 : partsRuns s' (i + 1) ps with
      | none =>
        rw [h1] at this
        cases h2 : cueLines s' (i + 1) ps with
        | none => rfl
        | some ls => rw [h2] at this; cases this
      | some y =>
        rw [h1] at this
        obtain ⟨out, e⟩ := y
        cases h2 : cueLines s' (i + 1) ps with
        | none => rw [h2] at this; cases this
        | some ls =>
          rw [h2] at this
          simp only [Option.map_some, Option.some.injEq, List.map_append, List.map_map] at this ⊢
          rw [this]
          unfold Subtitle.pieces
          rw [List.flatMap_append]
          congr 1
          by_cases hr : rs = []
          · rw [if_pos hr, hr]; rfl
          · rw [if_neg hr]
            simp only [List.flatMap_cons, List.flatMap_nil, List.append_nil, styledLine, List.map_map]
            rfl

private theorem file_lines (cs : List Cue) : fileRaws cs = (srtSubtitles cs).map (·.flatMap Subtitle.pieces) := by
  induction cs with
  | nil => rfl
  | cons c cs ih =>
    rw [fileRaws, srtSubtitles, ih]
    have := runs_lines c ⟨false, false, false, white⟩ 0 c.lines.flatten
    unfold cueRaws
    cases h1 : partsRuns ⟨false, false, false, white⟩ 0 c.lines.flatten with
    | none =>
      rw [h1] at this
      cases h2 : cueLines ⟨false, false, false, white⟩ 0 c.lines.flatten with
      | none => rfl
      | some ls => rw [h2] at this; cases this
    | some y =>
      rw [h1] at this
      cases h2 : cueLines ⟨false, false, false, white⟩ 0 c.lines.flatten with
      | none => rw [h2] at this; cases this
      | some ls =>
        rw [h2] at this
        obtain ⟨out, e⟩ := y
        simp only [Option.map_some, Option.some.injEq] at this
        simp only [this]
        cases srtSubtitles cs with
        | none => rfl
        | some subs =>
          simp only [Option.map_some, Option.some.injEq, List.flatMap_append]
          congr 1
          by_cases hl : ls = []
          · rw [if_pos hl, hl]; rfl
          · rw [if_neg hl]; simp

private theorem cueLines_read (s : Style) (i : Nat) (ps : List Part) (ls : List Line) (h : cueLines s i ps = some ls) :
    (∀ l ∈ ls, l.blocks ≠ []) ∧ ∃ is : List Nat, ls.map (·.vpos) = is.map (fun i : Nat => ({ line := some (i : Int), ref := some .topOfSubtitle } : VPos)) ∧
      is.Pairwise (· < ·) ∧ ∀ k ∈ is, i ≤ k := by
  induction ps generalizing s i ls with
  | nil =>
    cases h
    exact ⟨by simp, [], rfl, .nil, by simp⟩
  | cons p ps ih =>
    rw [cueLines] at h
    cases hr : runs (s, []) p.1 p.2 with
    | none => rw [hr] at h; cases h
    | some x =>
      obtain ⟨rs, s'⟩ := x
      rw [hr] at h
      simp only [Option.map_eq_some_iff] at h
      obtain ⟨ms, h1, rfl⟩ := h
      obtain ⟨hb, is, e, hp, hi⟩ := ih _ _ _ h1
      by_cases hn : rs = []
      · rw [if_pos hn, List.nil_append]
        exact ⟨hb, is, e, hp, fun k hk => by have := hi k hk; omega⟩
      · rw [if_neg hn]
        refine ⟨?_, i :: is, ?_, ?_, ?_⟩
        · intro l hl
          simp only [List.cons_append, List.nil_append, List.mem_cons] at hl
          rcases hl with rfl | hl
          · simpa [styledLine] using hn
          · exact hb l hl
        · simp only [List.cons_append, List.nil_append, List.map_cons, e]
          rfl
        · rw [List.pairwise_cons]
          exact ⟨fun k hk => by have := hi k hk; omega, hp⟩
        · intro k hk
          rw [List.mem_cons] at hk
          rcases hk with rfl | hk
          · exact le_refl _
          · have := hi k hk; omega

private theorem srt_read (cs : List Cue) (hv : ∀ c ∈ cs, c.Valid) (subs : List Subtitle) (h : srtSubtitles cs = some subs) : ∀ s ∈ subs, Read s := by
  induction cs generalizing subs with
  | nil => cases h; simp
  | cons c cs ih =>
    rw [srtSubtitles] at h
    cases hl : cueLines ⟨false, false, false, white⟩ 0 c.lines.flatten with
    | none => rw [hl] at h; cases h
    | some ls =>
      rw [hl] at h
      simp only [Option.map_eq_some_iff] at h
      obtain ⟨rest, h1, rfl⟩ := h
      have ih := ih (fun x hx => hv x (by simp [hx])) rest h1
      intro s hs
      rw [List.mem_append] at hs
      rcases hs with hs | hs
      · by_cases hn : ls = []
        · rw [if_pos hn] at hs; cases hs
        · rw [if_neg hn, List.mem_singleton] at hs
          subst hs
          obtain ⟨hb, is, e, hp, _⟩ := cueLines_read _ _ _ _ hl
          have hc := hv c (by simp)
          exact ⟨⟨_, _, hc.2.1.1, hc.2.1.2.1, rfl, rfl⟩, ⟨rfl, rfl⟩, hn, hb, is, e, hp⟩
      · exact ih s hs

/-- C82: a SubRip file of any number of cues in any order, of which no two have both start and end in common, comes through reader and
`collect` as one subtitle for each cue with text, with the times of the cue, its lines and styled runs; in order of the start times. -/
theorem C82_subrip (lead : Nat) (cs : List (Cue × Nat)) (hv : ∀ c ∈ cs, c.1.Valid) (subs : List Subtitle) (hs : srtSubtitles (cs.map Prod.fst) = some subs)
    (hd : subs.Pairwise (fun s t => s.from_ ≠ t.from_ ∨ s.to_ ≠ t.to_)) :
    ∃ raws out, srtReadString (unlines (List.replicate lead [] ++ fileLines cs)) = .ok raws ∧ collect raws = .ok out ∧ InOrder subs out := by
  obtain ⟨out, h1, h2⟩ := collect_read subs (srt_read _ (by intro c hc; rw [List.mem_map] at hc; obtain ⟨x, hx, rfl⟩ := hc; exact hv x hx) subs hs) hd
  refine ⟨subs.flatMap Subtitle.pieces, out, ?_, h1, h2⟩
  rw [C23_styled lead cs hv, file_lines, hs]
  rfl

/-! ### C83 -/

private theorem plain_pieces (t : TimeLine) (ls : List Str) :
    (plainSubtitle t ls).pieces = ls.mapIdx (fun i l => ({ text := l, from_ := t.from_.time, to_ := t.to_.time, vpos := { line := some (i : Int), ref := some .topOfSubtitle } } : Raw)) := by
  have key : ∀ (s : Subtitle) (f : Nat → Str → Line) (g : Nat → Str → Raw), (∀ i l, (f i l).blocks.map (s.piece (f i l)) = [g i l]) →
      (ls.mapIdx f).flatMap (fun l => l.blocks.map (s.piece l)) = ls.mapIdx g := by
    intro s f g h
    induction ls generalizing f g with
    | nil => rfl
    | cons l ls ih =>
      rw [List.mapIdx_cons, List.mapIdx_cons, List.flatMap_cons, h, ih (fun i => f (i + 1)) (fun i => g (i + 1)) (fun i l => h (i + 1) l)]
      rfl
  exact key _ _ _ (fun i l => rfl)

private theorem vtt_pieces (xs : List VItem) (hx : ∀ x ∈ xs, x.Valid) : (xs.map VItem.raws).flatten = (vttSubtitles xs).flatMap Subtitle.pieces := by
  induction xs with
  | nil => rfl
  | cons x xs ih =>
    rw [List.map_cons, List.flatten_cons, ih (fun y hy => hx y (by simp [hy]))]
    cases x with
    | note a b => rfl
    | other l => rfl
    | cue t lines =>
      rw [vttSubtitles, List.flatMap_append]
      congr 1
      by_cases h : lines = []
      · rw [if_pos h, h]; rfl
      · rw [if_neg h, List.flatMap_cons, List.flatMap_nil, List.append_nil, plain_pieces]
        rfl

private theorem vtt_read (xs : List VItem) (hx : ∀ x ∈ xs, x.Valid) : ∀ s ∈ vttSubtitles xs, Read s := by
  induction xs with
  | nil => intro s hs; cases hs
  | cons x xs ih =>
    have ih := ih (fun y hy => hx y (by simp [hy]))
    have hx := hx x (by simp)
    cases x with
    | note a b => exact ih
    | other l => exact ih
    | cue t lines =>
      intro s hs
      rw [vttSubtitles, List.mem_append] at hs
      rcases hs with hs | hs
      · by_cases h : lines = []
        · rw [if_pos h] at hs; cases hs
        · rw [if_neg h, List.mem_singleton] at hs
          subst hs
          refine ⟨⟨_, _, hx.1.1, hx.1.2.1, rfl, rfl⟩, ⟨rfl, rfl⟩, ?_, ?_, ?_⟩
          · obtain ⟨l, ls, rfl⟩ := List.exists_cons_of_ne_nil h
            have := (hx.2.1 l (by simp)).1
            unfold plainSubtitle
            simp [this]
          · intro l hl
            unfold plainSubtitle at hl
            rw [List.mem_mapIdx] at hl
            obtain ⟨i, hi, rfl⟩ := hl
            simp
          · refine ⟨List.range lines.flatten.length, ?_, List.pairwise_lt_range⟩
            unfold plainSubtitle
            apply List.ext_getElem
            · simp
            · intro i h1 h2
              simp
      · exact ih s hs

/-- C83: a WebVTT file of notes, other lines and cues in any order, of which no two have both start and end in common, comes through reader and
`collect` as one subtitle for each cue with text, with the times and the lines of the cue; in order of the start times. -/
theorem C83_webvtt (title : Str) (ht : (10 : Byte) ∉ title) (xs : List VItem) (hx : ∀ x ∈ xs, x.Valid)
    (hd : (vttSubtitles xs).Pairwise (fun s t => s.from_ ≠ t.from_ ∨ s.to_ ≠ t.to_)) :
    ∃ raws out, vttReadString (unlines ((b!"WEBVTT" ++ title) :: (xs.map VItem.text).flatten)) = .ok raws ∧ collect raws = .ok out ∧ InOrder (vttSubtitles xs) out := by
  obtain ⟨out, h1, h2⟩ := collect_read _ (vtt_read xs hx) hd
  refine ⟨_, out, C36_round_trip title ht xs hx, ?_, h2⟩
  rw [vtt_pieces xs hx]
  exact h1

/-! ### Examples -/

private def stampA : Stamp := ⟨0, 0, 5, 0, 1, 1, 1, 2⟩
private def stampB : Stamp := ⟨0, 0, 6, 500, 1, 1, 1, 0⟩
private def stampC : Stamp := ⟨0, 0, 1, 20, 0, 0, 0, 0⟩
private def late : TimeLine := ⟨stampA, stampB, 0, 0, [], 0⟩
private def early : TimeLine := ⟨stampC, stampA, 0, 0, [], 0⟩

private theorem late_valid : late.Valid := ⟨by unfold Stamp.Valid; decide, by unfold Stamp.Valid; decide, .inl rfl, by simp [late]⟩
private theorem early_valid : early.Valid := ⟨by unfold Stamp.Valid; decide, by unfold Stamp.Valid; decide, .inl rfl, by simp [early]⟩

private theorem part_valid (p : Part) (h1 : plainTextB p.1 = true) (h2 : ∀ x ∈ p.2, (match x.1 with | .face .. => true | _ => false) = true ∧ plainTextB x.2 = true)
    (h3 : ¬ b!"\u202B" <:+: lastText p.1 p.2 ∧ ¬ b!"\u2028" <:+: p.text ∧ (10 : Byte) ∉ p.text) : p.Valid := by
  refine ⟨⟨plainText_of_b h1, ?_⟩, h3⟩
  intro x hx
  refine ⟨?_, plainText_of_b (h2 x hx).2⟩
  have := (h2 x hx).1
  revert this
  cases x.1 <;> simp [Mark.Valid]

/-- A late cue of two lines, the first with a bold part. -/
private def cueA : Cue := ⟨b!"1", late, [[(b!"a ", [(.face .bold true false false, b!"b"), (.face .bold false false false, [])])], [(b!"c", [])]]⟩

/-- An early cue. -/
private def cueB : Cue := ⟨b!"2", early, [[(b!"d", [])]]⟩

private theorem cueA_valid : cueA.Valid := by
  refine ⟨by unfold GoodLine; decide, late_valid, ?_, by decide⟩
  intro l hl
  simp only [cueA, List.mem_cons, List.not_mem_nil, or_false] at hl
  rcases hl with rfl | rfl
  · refine ⟨by simp, by unfold GoodLine; decide, ?_⟩
    intro p hp
    simp only [List.mem_cons, List.not_mem_nil, or_false] at hp
    subst hp
    exact part_valid _ (by decide) (by simp [plainTextB]) (by decide)
  · refine ⟨by simp, by unfold GoodLine; decide, ?_⟩
    intro p hp
    simp only [List.mem_cons, List.not_mem_nil, or_false] at hp
    subst hp
    exact part_valid _ (by decide) (by simp) (by decide)

private theorem cueB_valid : cueB.Valid := by
  refine ⟨by unfold GoodLine; decide, early_valid, ?_, by decide⟩
  intro l hl
  simp only [cueB, List.mem_cons, List.not_mem_nil, or_false] at hl
  subst hl
  refine ⟨by simp, by unfold GoodLine; decide, ?_⟩
  intro p hp
  simp only [List.mem_cons, List.not_mem_nil, or_false] at hp
  subst hp
  exact part_valid _ (by decide) (by simp) (by decide)

/-- The subtitles of the two cues. -/
private def subA : Subtitle where
  from_ := ⟨5, 0, some ⟨1000, 1⟩⟩
  to_ := ⟨6, 500, some ⟨1000, 1⟩⟩
  lines := [{ vpos := { line := some 0, ref := some .topOfSubtitle }, blocks := [{ text := b!"a " }, { text := b!"b", bold := true }] }, { vpos := { line := some 1, ref := some .topOfSubtitle }, blocks := [{ text := b!"c" }] }]

@[inherit_doc subA]
private def subB : Subtitle where
  from_ := ⟨1, 20, some ⟨1000, 1⟩⟩
  to_ := ⟨5, 0, some ⟨1000, 1⟩⟩
  lines := [{ vpos := { line := some 0, ref := some .topOfSubtitle }, blocks := [{ text := b!"d" }] }]

example : ∃ raws out, srtReadString b!"\n1\n00:00:05,000 --> 00:00:06,500\na <b>b</b>\nc\n\n\n2\n0:0:1,20 --> 00:00:05,000\nd\n" = .ok raws ∧
    collect raws = .ok out ∧ InOrder [subA, subB] out := by
  have h := C82_subrip 1 [(cueA, 1), (cueB, 0)] (by simp [cueA_valid, cueB_valid]) [subA, subB] (by decide +kernel) (List.pairwise_pair.2 (by decide))
  have e : unlines (List.replicate 1 [] ++ fileLines [(cueA, 1), (cueB, 0)]) = b!"\n1\n00:00:05,000 --> 00:00:06,500\na <b>b</b>\nc\n\n\n2\n0:0:1,20 --> 00:00:05,000\nd\n" := by decide +kernel
  rw [e] at h
  exact h

example : (do let raws ← srtReadString b!"\n1\n00:00:05,000 --> 00:00:06,500\na <b>b</b>\nc\n\n\n2\n0:0:1,20 --> 00:00:05,000\nd\n"; collect raws).toOption = some [subB, subA] := by
  decide +kernel

private def vitems : List VItem := [.other [], .cue late [[b!"a", b!"b"], [b!"c"]], .note b!" x" [], .cue early [[b!"d"]]]

private theorem vitems_valid : ∀ x ∈ vitems, x.Valid := by
  intro x hx
  simp only [vitems, List.mem_cons, List.not_mem_nil, or_false] at hx
  rcases hx with rfl | rfl | rfl | rfl
  · exact .inl rfl
  · refine ⟨late_valid, ?_, by decide⟩
    intro l hl
    simp only [List.mem_cons, List.not_mem_nil, or_false] at hl
    rcases hl with rfl | rfl
    · exact ⟨by simp, by unfold GoodLine; decide, by decide⟩
    · exact ⟨by simp, by unfold GoodLine; decide, by decide⟩
  · exact ⟨by decide, by simp⟩
  · refine ⟨early_valid, ?_, by decide⟩
    intro l hl
    simp only [List.mem_cons, List.not_mem_nil, or_false] at hl
    subst hl
    exact ⟨by simp, by unfold GoodLine; decide, by decide⟩

example : ∃ raws out, vttReadString (unlines ((b!"WEBVTT" ++ b!" y") :: (vitems.map VItem.text).flatten)) = .ok raws ∧ collect raws = .ok out ∧
    InOrder [plainSubtitle late [b!"a", b!"b", b!"c"], plainSubtitle early [b!"d"]] out :=
  C83_webvtt b!" y" (by decide) vitems vitems_valid (List.pairwise_pair.2 (.inl (by decide)))

end LibSub
