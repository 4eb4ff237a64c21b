/-
Property C92: from an SSA file to finished subtitles, through reader and `collect`.
-/
import Verif.Props.SsaDoc
import Verif.Props.EndToEnd

namespace LibSub

/-! ### Specification -/

/-- A run of text as a block of a line. -/
def Raw.asBlock (r : Raw) (t : Str) : Block :=
  { text := t, font := r.font, fontSize := r.fontSize, effect := r.effect, effectColour := r.effectColour, colour := r.colour, bold := r.bold, italic := r.italic, underline := r.underline }

/-- A block for the text, if there is some. -/
def sBlock (s : SState) (text : Str) : List Block := if text = [] then [] else [s.raw.asBlock text]

/-- A line, if it has some block. -/
def sLine (hpos : HPos) (vpos : VPos) (bs : List Block) : List Line := if bs = [] then [] else [{ hpos := hpos, vpos := vpos, blocks := bs }]

/-- The lines of a dialogue: line `k` is at `place k`; `cur` are its blocks so far and `text` is the text since the last block. -/
def sLines (ctx : SsaContext) (hpos : HPos) (place : Nat → VPos) (s : SState) (k : Nat) (cur : List Block) (text : Str) : List SItem → List Line
  | [] => sLine hpos (place k) (cur ++ sBlock s text)
  | .text t :: is => sLines ctx hpos place s k cur (text ++ t) is
  | .escape _ :: is => sLines ctx hpos place s k cur text is
  | .block _ tags :: is => sLines ctx hpos place (tags.foldl (STag.apply ctx) s) k (cur ++ sBlock s text) [] is
  | .newLine _ :: is => sLine hpos (place k) (cur ++ sBlock s text) ++ sLines ctx hpos place s (k + 1) [] [] is

/-- The height of the text of a dialogue, as part of the screen. -/
def SDoc.size (d : SDoc) (e : SDialogue) : ℚ := (d.base e).fontSize.prop.getD (f32 (f64 (72 / (d.context e).resY)))

/-- The number of lines. -/
def SDialogue.count (e : SDialogue) : Nat := e.items.countP SItem.isBreak + 1

/-- Lines are stacked from here. -/
def SDoc.ref (d : SDoc) (e : SDialogue) : VRef := (d.base e).vpos.ref.getD .bottomOfScreen

/-- The vertical margin as part of the screen. -/
def SDoc.margin (d : SDoc) (e : SDialogue) : ℚ := (d.base e).vpos.prop.getD 0

/-- The subtitle of a dialogue, if it has some text. -/
def SDoc.subtitle (d : SDoc) (e : SDialogue) (place : Nat → ℚ) : List Subtitle :=
  let s := startState (d.context e) (d.base e) (d.size e)
  let ls := sLines (d.context e) s.raw.hpos (fun k => { s.raw.vpos with prop := some (place k) }) s 0 [] [] e.items
  if ls = [] then [] else [{ from_ := e.from_.hundredths, to_ := e.to_.hundredths, lines := ls }]

/-- Line `k` of each dialogue is where it should be, up to rounding. -/
def SDoc.Placed (d : SDoc) (e : SDialogue) (place : Nat → ℚ) : Prop :=
  ∀ k < e.count, |place k - stackPos (d.ref e) (d.margin e) (6 / 5 * d.size e) e.count k| ≤ (e.count + 5) * ((2 * e.count * d.size e + |d.margin e|) / 2 ^ 22)

/-- A dialogue without tags that place text, of at most 1000 lines, with a font size that is not zero and a margin that is not huge, and times to hundredths of a second. -/
structure SDoc.Simple (d : SDoc) (e : SDialogue) : Prop where
  unplaced : ∀ i ∈ e.items, i.Unplaced
  lines : e.count ≤ 1000
  size : ∀ s, d.styleOf e = some s → 0 < s.size ∧ orMargin e.marginV s.marginV ≤ 300 * s.size
  none : d.styleOf e = none → e.marginV ≤ 300 * 72
  times : e.from_.ms ≤ 99 ∧ e.to_.ms ≤ 99

/-! ### Proofs -/

private theorem put_piece (sub : Subtitle) (s : SState) (hf : s.raw.from_ = sub.from_ ∧ s.raw.to_ = sub.to_ ∧ s.raw.fadeUp = sub.fadeUp ∧ s.raw.fadeDown = sub.fadeDown) (l : Line) (p : ℚ)
    (hl : l.hpos = s.raw.hpos ∧ l.vpos = { s.raw.vpos with prop := some p }) (t : Str) : s.raw.put t p = sub.piece l (s.raw.asBlock t) := by
  obtain ⟨h1, h2, h3, h4⟩ := hf
  unfold Raw.put Subtitle.piece Raw.asBlock
  rw [hl.1, hl.2, ← h1, ← h2, ← h3, ← h4]

private theorem unplaced_fold (ctx : SsaContext) (tags : List STag) (h : ∀ t ∈ tags, t.places = false) (s : SState) :
    let s' := tags.foldl (STag.apply ctx) s
    s'.raw.vpos = s.raw.vpos ∧ s'.raw.hpos = s.raw.hpos ∧ s'.raw.from_ = s.raw.from_ ∧ s'.raw.to_ = s.raw.to_ ∧ s'.raw.fadeUp = s.raw.fadeUp ∧ s'.raw.fadeDown = s.raw.fadeDown := by
  induction tags generalizing s with
  | nil => exact ⟨rfl, rfl, rfl, rfl, rfl, rfl⟩
  | cons t tags ih =>
    have ht := h t (by simp)
    have i := ih (fun t hm => h t (by simp [hm])) (t.apply ctx s)
    have e : (t.apply ctx s).raw.vpos = s.raw.vpos ∧ (t.apply ctx s).raw.hpos = s.raw.hpos ∧ (t.apply ctx s).raw.from_ = s.raw.from_ ∧ (t.apply ctx s).raw.to_ = s.raw.to_ ∧
        (t.apply ctx s).raw.fadeUp = s.raw.fadeUp ∧ (t.apply ctx s).raw.fadeDown = s.raw.fadeDown := by
      cases t <;> first | exact ⟨rfl, rfl, rfl, rfl, rfl, rfl⟩ | cases ht
    obtain ⟨i1, i2, i3, i4, i5, i6⟩ := i
    obtain ⟨e1, e2, e3, e4, e5, e6⟩ := e
    exact ⟨i1.trans e1, i2.trans e2, i3.trans e3, i4.trans e4, i5.trans e5, i6.trans e6⟩

private theorem lines_pieces (ctx : SsaContext) (sub : Subtitle) (hpos : HPos) (vpos : VPos) (place : Nat → ℚ) (items : List SItem) (hu : ∀ i ∈ items, i.Unplaced) (s : SState)
    (hs : s.raw.vpos = vpos ∧ s.raw.hpos = hpos ∧ s.raw.from_ = sub.from_ ∧ s.raw.to_ = sub.to_ ∧ s.raw.fadeUp = sub.fadeUp ∧ s.raw.fadeDown = sub.fadeDown) (k : Nat) (cur : List Block) (text : Str) :
    (sLines ctx hpos (fun k => { vpos with prop := some (place k) }) s k cur text items).flatMap (fun l => l.blocks.map (sub.piece l)) =
      cur.map (sub.piece { hpos := hpos, vpos := { vpos with prop := some (place k) }, blocks := [] }) ++
        (lineRuns ctx s k text items).map (fun x => x.2.2.raw.put x.2.1 (place x.1)) := by
  have line : ∀ (k : Nat) (bs : List Block), (sLine hpos { vpos with prop := some (place k) } bs).flatMap (fun l => l.blocks.map (sub.piece l)) =
      bs.map (sub.piece { hpos := hpos, vpos := { vpos with prop := some (place k) }, blocks := [] }) := by
    intro k bs
    unfold sLine
    split
    · rename_i h; rw [h]; rfl
    · simp only [List.flatMap_cons, List.flatMap_nil, List.append_nil]
      rfl
  have run : ∀ (s : SState) (_ : s.raw.vpos = vpos ∧ s.raw.hpos = hpos ∧ s.raw.from_ = sub.from_ ∧ s.raw.to_ = sub.to_ ∧ s.raw.fadeUp = sub.fadeUp ∧ s.raw.fadeDown = sub.fadeDown) (k : Nat) (text : Str),
      (sBlock s text).map (sub.piece { hpos := hpos, vpos := { vpos with prop := some (place k) }, blocks := [] }) =
        ((sRun s text).map (fun x => (k, x))).map (fun x => x.2.2.raw.put x.2.1 (place x.1)) := by
    intro s hs k text
    unfold sBlock sRun
    split
    · rfl
    · obtain ⟨h1, h2, h3⟩ := hs
      simp only [List.map_cons, List.map_nil]
      rw [put_piece sub s h3 { hpos := hpos, vpos := { vpos with prop := some (place k) }, blocks := [] } (place k) ⟨h2.symm, by rw [h1]⟩]
  induction items generalizing s k cur text with
  | nil => rw [sLines, lineRuns, line, List.map_append, run s hs]
  | cons i items ih =>
    have ih := ih fun i h => hu i (by simp [h])
    have hui := hu i (by simp)
    cases i with
    | text t => exact ih s hs k cur (text ++ t)
    | escape c => exact ih s hs k cur text
    | newLine u =>
      rw [sLines, lineRuns, List.flatMap_append, line, ih s hs (k + 1) [] [], List.map_append, List.map_append, run s hs]
      simp
    | block c tags =>
      obtain ⟨e1, e2, e3, e4, e5, e6⟩ := unplaced_fold ctx tags hui s
      obtain ⟨h1, h2, h3, h4, h5, h6⟩ := hs
      rw [sLines, lineRuns, ih _ ⟨e1.trans h1, e2.trans h2, e3.trans h3, e4.trans h4, e5.trans h5, e6.trans h6⟩ k _ [], List.map_append, List.map_append,
        run s ⟨h1, h2, h3, h4, h5, h6⟩, List.append_assoc]

private theorem lines_shape (ctx : SsaContext) (hpos : HPos) (place : Nat → VPos) (items : List SItem) (s : SState) (k : Nat) (cur : List Block) (text : Str) :
    (∀ l ∈ sLines ctx hpos place s k cur text items, l.blocks ≠ []) ∧
      ∃ is : List Nat, (sLines ctx hpos place s k cur text items).map (·.vpos) = is.map place ∧ is.Pairwise (· < ·) ∧ ∀ j ∈ is, k ≤ j ∧ j ≤ k + items.countP SItem.isBreak := by
  have line : ∀ (k : Nat) (bs : List Block), (∀ l ∈ sLine hpos (place k) bs, l.blocks ≠ []) ∧
      ∃ is : List Nat, (sLine hpos (place k) bs).map (·.vpos) = is.map place ∧ is.Pairwise (· < ·) ∧ ∀ j ∈ is, j = k := by
    intro k bs
    unfold sLine
    split
    · exact ⟨by simp, [], rfl, .nil, by simp⟩
    · rename_i h
      refine ⟨fun l hl => ?_, [k], rfl, by simp, by simp⟩
      rw [List.mem_singleton.1 hl]
      exact h
  induction items generalizing s k cur text with
  | nil =>
    obtain ⟨h1, is, h2, h3, h4⟩ := line k (cur ++ sBlock s text)
    exact ⟨h1, is, h2, h3, fun j hj => by rw [h4 j hj]; simp⟩
  | cons i items ih =>
    cases i with
    | text t =>
      obtain ⟨h1, is, h2, h3, h4⟩ := ih s k cur (text ++ t)
      exact ⟨h1, is, h2, h3, fun j hj => by rw [List.countP_cons]; have := h4 j hj; omega⟩
    | escape c =>
      obtain ⟨h1, is, h2, h3, h4⟩ := ih s k cur text
      exact ⟨h1, is, h2, h3, fun j hj => by rw [List.countP_cons]; have := h4 j hj; omega⟩
    | block c tags =>
      obtain ⟨h1, is, h2, h3, h4⟩ := ih (tags.foldl (STag.apply ctx) s) k (cur ++ sBlock s text) []
      exact ⟨h1, is, h2, h3, fun j hj => by rw [List.countP_cons]; have := h4 j hj; omega⟩
    | newLine u =>
      obtain ⟨g1, js, g2, g3, g4⟩ := line k (cur ++ sBlock s text)
      obtain ⟨h1, is, h2, h3, h4⟩ := ih s (k + 1) [] []
      refine ⟨?_, js ++ is, ?_, ?_, ?_⟩
      · intro l hl
        rcases List.mem_append.1 hl with hl | hl
        · exact g1 l hl
        · exact h1 l hl
      · rw [sLines, List.map_append, List.map_append, g2, h2]
      · rw [List.pairwise_append]
        refine ⟨g3, h3, fun a ha b hb => ?_⟩
        have := g4 a ha
        have := h4 b hb
        omega
      · intro j hj
        have e : (SItem.newLine u :: items).countP SItem.isBreak = items.countP SItem.isBreak + 1 := by rw [List.countP_cons]; rfl
        rw [e]
        rcases List.mem_append.1 hj with hj | hj
        · have := g4 j hj; omega
        · have := h4 j hj; omega

/-- Lines are apart. -/
private theorem apart (ref : VRef) (m fs : ℚ) (n : Nat) (hn : n ≤ 1000) (h0 : 0 < fs) (hm : |m| ≤ 400 * fs) (place : Nat → ℚ)
    (hp : ∀ k < n, |place k - stackPos ref m (6 / 5 * fs) n k| ≤ (n + 5) * ((2 * n * fs + |m|) / 2 ^ 22)) (j k : Nat) (hj : j < k) (hk : k < n) : place j ≠ place k := by
  intro he
  have hN : (n : ℚ) ≤ 1000 := by exact_mod_cast hn
  have hN0 : (0 : ℚ) ≤ n := by positivity
  have hb : ((n : ℚ) + 5) * ((2 * n * fs + |m|) / 2 ^ 22) ≤ (1000 + 5) * ((2 * 1000 * fs + 400 * fs) / 2 ^ 22) := by gcongr
  have h1 := le_trans (hp j (by omega)) hb
  have h2 := le_trans (hp k hk) hb
  rw [he] at h1
  rw [abs_le] at h1 h2
  have hd : (j : ℚ) + 1 ≤ k := by exact_mod_cast hj
  have hd' : 6 / 5 * fs ≤ ((k : ℚ) - j) * (6 / 5 * fs) := by
    have : (0 : ℚ) ≤ 6 / 5 * fs := by positivity
    nlinarith
  unfold stackPos at h1 h2
  cases ref <;> simp only at h1 h2 <;> linarith

private theorem f32_bounds {x : ℚ} (h : 0 ≤ x) : x * (1 - 1 / 2 ^ 24) ≤ f32 x ∧ f32 x ≤ x * (1 + 1 / 2 ^ 24) := by
  have := f32_err x
  rw [abs_of_nonneg h, abs_le] at this
  constructor <;> linarith

private theorem f64_bounds {x : ℚ} (h : 0 ≤ x) : x * (1 - 1 / 2 ^ 53) ≤ f64 x ∧ f64 x ≤ x * (1 + 1 / 2 ^ 53) := by
  have := f64_err x
  rw [abs_of_nonneg h, abs_le] at this
  constructor <;> linarith

theorem size_facts (d : SDoc) (hd : d.Ok) (e : SDialogue) (hs : d.Simple e) : 0 < d.size e ∧ |d.margin e| ≤ 400 * d.size e := by
  have hR : (0 : ℚ) < d.resY := by exact_mod_cast hd.resY.1
  have ratio : ∀ M S : Nat, M ≤ 300 * S → (M : ℚ) / d.resY ≤ 300 * (S / d.resY) := by
    intro M S h
    have : (M : ℚ) ≤ 300 * S := by exact_mod_cast h
    rw [← mul_div_assoc]
    gcongr
  have mb : ∀ (M S : Nat) (F : ℚ), M ≤ 300 * S → (S : ℚ) / d.resY * (1 - 1 / 2 ^ 20) ≤ F → |f32 ((M : ℚ) / d.resY)| ≤ 400 * F := by
    intro M S F h hF
    have hM : (0 : ℚ) ≤ M / d.resY := by positivity
    have hS : (0 : ℚ) ≤ S / d.resY := by positivity
    obtain ⟨b1, b2⟩ := f32_bounds hM
    have := ratio M S h
    rw [abs_le]
    constructor <;> linarith
  unfold SDoc.size SDoc.margin SDoc.base
  cases hst : d.styleOf e with
  | none =>
    have hc : ((d.context e).resY : ℚ) = d.resY := by simp [SDoc.context]
    simp only [Option.getD_none, hc]
    have h0 : (0 : ℚ) < 72 / d.resY := by positivity
    obtain ⟨b1, b2⟩ := f64_bounds h0.le
    have h1 : (0 : ℚ) < f64 (72 / d.resY) := by linarith
    obtain ⟨c1, c2⟩ := f32_bounds h1.le
    refine ⟨by linarith, ?_⟩
    split
    · simp only [Option.getD_none, abs_zero]; linarith
    · simp only [Option.getD_some]
      exact mb e.marginV 72 _ (hs.none hst) (by push_cast; linarith)
  | some s =>
    obtain ⟨h0, h1⟩ := hs.size s hst
    have h0 : (0 : ℚ) < s.size := by exact_mod_cast h0
    have h2 : (0 : ℚ) < s.size / d.resY := by positivity
    obtain ⟨c1, c2⟩ := f32_bounds h2.le
    simp only [Option.getD_some]
    refine ⟨by linarith, ?_⟩
    split
    · simp only [Option.getD_none, abs_zero]; linarith
    · simp only [Option.getD_some]
      exact mb _ s.size _ h1 (by linarith)

private theorem base_times (d : SDoc) (e : SDialogue) : (d.base e).from_ = e.from_.hundredths ∧ (d.base e).to_ = e.to_.hundredths ∧ (d.base e).fadeUp = none ∧ (d.base e).fadeDown = none := by
  unfold SDoc.base
  split <;> exact ⟨rfl, rfl, rfl, rfl⟩

private theorem stamp_ms (t : Stamp) (h : t.ms ≤ 99) : t.hundredths.InMs := by
  refine ⟨?_, ?_, rfl⟩ <;> simp only [Stamp.hundredths] <;> omega

private theorem prop_eq (v : VPos) (ref : VRef) (h : v.ref = some ref) (p q : ℚ) : VPos.eq { v with prop := some p } { v with prop := some q } = decide (p = q) := by
  unfold VPos.eq
  simp [h]
  rfl

private theorem subtitle_timed (d : SDoc) (hd : d.Ok) (e : SDialogue) (hs : d.Simple e) (place : Nat → ℚ) (hp : d.Placed e place) : ∀ s ∈ d.subtitle e place, s.Timed := by
  intro s hm
  unfold SDoc.subtitle at hm
  obtain ⟨ls, hls⟩ : ∃ ls, ls = sLines (d.context e) (startState (d.context e) (d.base e) (d.size e)).raw.hpos
    (fun k => { (startState (d.context e) (d.base e) (d.size e)).raw.vpos with prop := some (place k) }) (startState (d.context e) (d.base e) (d.size e)) 0 [] [] e.items := ⟨_, rfl⟩
  simp only [← hls] at hm
  split at hm
  · cases hm
  rename_i hne
  rw [List.mem_singleton] at hm
  subst hm
  refine ⟨stamp_ms _ hs.times.1, stamp_ms _ hs.times.2, ⟨rfl, rfl⟩, hne, ?_, ?_⟩
  · obtain ⟨h1, is, h2, h3, h4⟩ := lines_shape (d.context e) (startState (d.context e) (d.base e) (d.size e)).raw.hpos
      (fun k => { (startState (d.context e) (d.base e) (d.size e)).raw.vpos with prop := some (place k) }) e.items (startState (d.context e) (d.base e) (d.size e)) 0 [] []
    rw [← hls] at h1 h2
    intro l hl
    refine ⟨h1 l hl, .inr ?_⟩
    have : l.vpos ∈ ls.map (·.vpos) := List.mem_map_of_mem hl
    rw [h2, List.mem_map] at this
    obtain ⟨k, _, hk⟩ := this
    rw [← hk, prop_eq _ (d.ref e) rfl]
    simp
  · obtain ⟨h1, is, h2, h3, h4⟩ := lines_shape (d.context e) (startState (d.context e) (d.base e) (d.size e)).raw.hpos
      (fun k => { (startState (d.context e) (d.base e) (d.size e)).raw.vpos with prop := some (place k) }) e.items (startState (d.context e) (d.base e) (d.size e)) 0 [] []
    rw [← hls] at h1 h2
    have hc : List.IsChain (fun v w : VPos => v.eq w = false) (ls.map (·.vpos)) := by
      rw [h2]
      apply List.Pairwise.isChain
      rw [List.pairwise_map]
      refine h3.imp_of_mem ?_
      intro i j hi hj hij
      rw [prop_eq _ (d.ref e) rfl, decide_eq_false_iff_not]
      obtain ⟨f1, f2⟩ := size_facts d hd e hs
      have := h4 j hj
      exact apart (d.ref e) (d.margin e) (d.size e) e.count hs.lines f1 f2 place hp i j hij (by unfold SDialogue.count; omega)
    rwa [List.isChain_map] at hc

private theorem dialogue_pieces (d : SDoc) (hd : d.Ok) (e : SDialogue) (he : e.Ok) (hs : d.Simple e) :
    ∃ place, d.Placed e place ∧ ssaParseLine (d.context e) (d.base e) e.text = .ok ((d.subtitle e place).flatMap Subtitle.pieces) := by
  obtain ⟨place, h1, h2, -⟩ := C88_lines (d.context e) (d.context_sane hd e he) (d.base e) (d.base_text e) e.items he.items hs.unplaced _ rfl (d.size_nonneg hd e he) _ rfl
    (by have := hs.lines; unfold SDialogue.count at this; omega) _ rfl _ rfl
  refine ⟨place, h1, h2.trans ?_⟩
  congr 1
  obtain ⟨t1, t2, t3, t4⟩ := base_times d e
  have key := lines_pieces (d.context e) { from_ := e.from_.hundredths, to_ := e.to_.hundredths } (startState (d.context e) (d.base e) (d.size e)).raw.hpos
    (startState (d.context e) (d.base e) (d.size e)).raw.vpos place e.items hs.unplaced (startState (d.context e) (d.base e) (d.size e)) ⟨rfl, rfl, t1, t2, t3, t4⟩ 0 [] []
  rw [List.map_nil, List.nil_append] at key
  refine key.symm.trans ?_
  unfold SDoc.subtitle
  simp only
  split
  · rename_i hn; rw [hn]; rfl
  · rw [List.flatMap_singleton]; rfl

/-- C92: an SSA file of dialogues without tags that place text, of which no two have both times in common, comes through reader and `collect` as one subtitle for each dialogue with text: with its times, one
line for each line of text, at its place up to rounding, and one block for each run of text, in its style; in order of the start times. -/
theorem C92_subtitles (d : SDoc) (hd : d.Ok) (hs : ∀ e ∈ d.dialogues, d.Simple e)
    (ht : d.dialogues.Pairwise (fun e f => e.from_.hundredths ≠ f.from_.hundredths ∨ e.to_.hundredths ≠ f.to_.hundredths)) :
    ∃ place : SDialogue → Nat → ℚ, (∀ e ∈ d.dialogues, d.Placed e (place e)) ∧
      ∃ raws out, ssaReadLines d.lines = .ok raws ∧ collect raws = .ok out ∧ InOrder (d.dialogues.flatMap (fun e => d.subtitle e (place e))) out := by
  classical
  have one : ∀ e, ∃ place, e ∈ d.dialogues → d.Placed e place ∧ ssaParseLine (d.context e) (d.base e) e.text = .ok ((d.subtitle e place).flatMap Subtitle.pieces) := by
    intro e
    by_cases he : e ∈ d.dialogues
    · obtain ⟨p, h⟩ := dialogue_pieces d hd e (hd.dialogues e he) (hs e he)
      exact ⟨p, fun _ => h⟩
    · exact ⟨fun _ => 0, fun h => absurd h he⟩
  obtain ⟨place, hp⟩ := Classical.axiomOfChoice one
  refine ⟨place, fun e he => (hp e he).1, d.dialogues.flatMap (fun e => (d.subtitle e (place e)).flatMap Subtitle.pieces), ?_⟩
  have hread := d.read_lines hd (fun e => (d.subtitle e (place e)).flatMap Subtitle.pieces) fun e he => (hp e he).2
  obtain ⟨out, h1, h2⟩ := collect_timed (d.dialogues.flatMap (fun e => d.subtitle e (place e))) (by
    intro s hm
    rw [List.mem_flatMap] at hm
    obtain ⟨e, he, hm⟩ := hm
    exact subtitle_timed d hd e (hs e he) (place e) (hp e he).1 s hm) (by
    have times : ∀ e, ∀ s ∈ d.subtitle e (place e), s.from_ = e.from_.hundredths ∧ s.to_ = e.to_.hundredths := by
      intro e s hm
      unfold SDoc.subtitle at hm
      simp only at hm
      split at hm
      · cases hm
      · rw [List.mem_singleton] at hm
        subst hm
        exact ⟨rfl, rfl⟩
    rw [List.pairwise_flatMap]
    refine ⟨fun e _ => ?_, ht.imp ?_⟩
    · unfold SDoc.subtitle
      simp only
      split
      · exact .nil
      · simp
    · intro e f hef s hs t ht
      rw [(times e s hs).1, (times e s hs).2, (times f t ht).1, (times f t ht).2]
      exact hef)
  refine ⟨out, hread, ?_, h2⟩
  rw [List.flatMap_assoc] at h1
  exact h1

/-- An ordinary document that C92 speaks about. -/
def ssaDemoDoc : SDoc where
  resX := 1920
  resY := 1080
  styles := [{ name := b!"Default", font := b!"Arial", size := 48, primary := ⟨255, 255, 255⟩, back := ⟨0, 0, 0⟩, marginV := 54 }]
  dialogues := [{ from_ := ⟨0, 1, 2, 50, 0, 1, 1, 0⟩, to_ := ⟨0, 1, 4, 5, 0, 1, 1, 1⟩, style := b!"Default", items := [.text b!"Hello, ", .block [] [.italic true], .text b!"world", .newLine true, .text b!"again"] },
    { from_ := ⟨0, 0, 2, 50, 0, 1, 1, 0⟩, to_ := ⟨0, 0, 4, 5, 0, 1, 1, 1⟩, style := b!"Other", items := [.text b!"First"] }]

theorem ssaDemoDoc_fine : ssaDemoDoc.Ok ∧ (∀ e ∈ ssaDemoDoc.dialogues, ssaDemoDoc.Simple e) ∧
    ssaDemoDoc.dialogues.Pairwise (fun e f => e.from_.hundredths ≠ f.from_.hundredths ∨ e.to_.hundredths ≠ f.to_.hundredths) := by
  refine ⟨⟨by decide, by decide, ?_, ?_⟩, ?_, by decide⟩
  · intro s hs
    simp only [ssaDemoDoc, List.mem_cons, List.not_mem_nil, or_false] at hs
    subst hs
    exact ⟨⟨by decide, by decide, by decide⟩, ⟨by decide, by decide, by decide⟩, by decide, by decide, by decide, by decide⟩
  · intro e he
    simp only [ssaDemoDoc, List.mem_cons, List.not_mem_nil, or_false] at he
    rcases he with rfl | rfl
    · refine ⟨⟨by unfold Stamp.Fits; decide, by unfold Stamp.Fits; decide⟩, ⟨by decide, ⟨by decide, by decide⟩, by decide⟩, by decide, fun i hi => ?_, ⟨by decide, by decide⟩, by decide⟩
      simp only [List.mem_cons, List.not_mem_nil, or_false] at hi
      rcases hi with rfl | rfl | rfl | rfl | rfl
      · unfold SItem.Ok StackLine; decide
      · refine ⟨by decide, fun t ht => ?_⟩
        simp only [List.mem_cons, List.not_mem_nil, or_false] at ht
        rcases ht with rfl; trivial
      · unfold SItem.Ok StackLine; decide
      · trivial
      · unfold SItem.Ok StackLine; decide
    · refine ⟨⟨by unfold Stamp.Fits; decide, by unfold Stamp.Fits; decide⟩, ⟨by decide, ⟨by decide, by decide⟩, by decide⟩, by decide, fun i hi => ?_, ⟨by decide, by decide⟩, by decide⟩
      simp only [List.mem_cons, List.not_mem_nil, or_false] at hi
      rcases hi with rfl
      unfold SItem.Ok StackLine; decide
  · intro e he
    have hst : ∀ e ∈ ssaDemoDoc.dialogues, ssaDemoDoc.styleOf e = some { name := b!"Default", font := b!"Arial", size := 48, primary := ⟨255, 255, 255⟩, back := ⟨0, 0, 0⟩, marginV := 54 } := by
      intro e he
      simp only [ssaDemoDoc, List.mem_cons, List.not_mem_nil, or_false] at he
      rcases he with rfl | rfl <;> rfl
    have h0 := hst e he
    simp only [ssaDemoDoc, List.mem_cons, List.not_mem_nil, or_false] at he
    refine ⟨?_, ?_, fun s hs => ?_, fun hn => absurd (h0.symm.trans hn) (by simp), ?_⟩
    · rcases he with rfl | rfl
      · intro i hi
        simp only [List.mem_cons, List.not_mem_nil, or_false] at hi
        rcases hi with rfl | rfl | rfl | rfl | rfl <;> first | trivial | (intro t ht; simp only [List.mem_cons, List.not_mem_nil, or_false] at ht; subst ht; rfl)
      · intro i hi
        simp only [List.mem_cons, List.not_mem_nil, or_false] at hi
        subst hi
        trivial
    · rcases he with rfl | rfl <;> decide
    · rw [h0] at hs
      cases hs
      rcases he with rfl | rfl <;> decide
    · rcases he with rfl | rfl <;> decide

example : ((ssaReadLines ssaDemoDoc.lines >>= collect).toOption.map (fun l => l.map (fun s => s.lines.map (fun l => l.blocks.map (fun b => (b.text, b.italic)))))) =
    some [[[(b!"First", false)]], [[(b!"Hello, ", false), (b!"world", true)], [(b!"again", true)]]] := by decide +kernel

end LibSub
