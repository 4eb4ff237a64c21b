/-
Properties C138 and C139: SubRip files with infinities, NaN and numbers of any size, and collecting such subtitles.
-/
import Verif.Model.SrtInf
import Verif.Props.SsaInf
import Verif.Props.SubRipFails
import Verif.Props.Collect

namespace LibSub

/-! ### C138  Agreement with finite numbers -/

private def SrtLine.finite (s : SrtLine) : SrtLineX := ⟨s.p.finite, s.colours, s.subs.map Raw.finite⟩

private theorem content_finite (s : SrtLine) : s.finite.maybeContent = s.maybeContent.finite := by
  unfold SrtLineX.maybeContent SrtLine.maybeContent
  have e : s.finite.p.raw.text = s.p.text := rfl
  rw [e]
  split
  · rfl
  · simp [SrtLine.finite, Raw.finite]

private theorem srt_exec_agree (n : Nat) (ctx : List Str) (s : SrtLine) (t : Tok) : Agree (Ieee.srtExec n ctx s t) (s.finite.exec n ctx t) SrtLine.finite := by
  cases t with
  | bold b => refine agree_ok ?_; rw [content_finite]; rfl
  | italic b => refine agree_ok ?_; rw [content_finite]; rfl
  | underline b => refine agree_ok ?_; rw [content_finite]; rfl
  | chr c => exact agree_ok rfl
  | ssa tag => exact agree_bind (tag_agree srtSsaContext s.p tag) fun p => agree_ok rfl
  | fontOpen tag =>
    unfold Ieee.srtExec SrtLineX.exec
    simp only
    rw [font_track, content_finite]
    exact agree_same _ fun c => agree_ok rfl
  | fontClose =>
    unfold Ieee.srtExec SrtLineX.exec SrtLine.exec
    simp only
    rw [content_finite]
    refine agree_ite (fun _ => agree_ok rfl) fun _ => ?_
    rw [show s.maybeContent.finite.colours = s.maybeContent.colours from rfl]
    cases s.maybeContent.colours.dropLast.getLast? with
    | none => exact agree_error
    | some c => exact agree_ok rfl

private theorem srt_loop_agree (n : Nat) (ctx : List Str) : ∀ (fuel : Nat) (t : Str) (s : SrtLine), Agree (Ieee.srtLoop n ctx fuel s t) (srtLoopX n ctx fuel s.finite t) SrtLine.finite
  | fuel, [], s => by rw [Ieee.srtLoop.eq_def, srtLoopX.eq_def]; exact agree_ok rfl
  | 0, c :: cs, s => by rw [Ieee.srtLoop, srtLoopX]; exact agree_ok rfl
  | fuel + 1, c :: cs, s => by
    rw [Ieee.srtLoop, srtLoopX]
    exact agree_bind (srt_exec_agree n ctx s _) fun s' => srt_loop_agree n ctx fuel _ s'

private def pairFinite (x : Raw × List Raw) : XRaw × List XRaw := (x.1.finite, x.2.map Raw.finite)

private theorem srt_line_agree (n : Nat) (ctx : List Str) (t : Str) (p : Raw) (subs : List Raw) :
    Agree (Ieee.convertLine n ctx t p subs) (convertLineX n ctx t p.finite (subs.map Raw.finite)) pairFinite := by
  unfold Ieee.convertLine convertLineX
  refine agree_bind (srt_loop_agree n ctx t.length t { p := p, colours := [⟨1, 1, 1⟩], subs := subs }) fun s => agree_ok ?_
  have e := content_finite { s with p := { s.p with text := replaceAll s.p.text rle [] } }
  show pairFinite _ = ((SrtLineX.maybeContent (SrtLine.finite { s with p := { s.p with text := replaceAll s.p.text rle [] } })).p, _)
  rw [show ({ s.finite with p := { s.finite.p with raw := { s.finite.p.raw with text := replaceAll s.finite.p.raw.text rle [] } } } : SrtLineX) =
    SrtLine.finite { s with p := { s.p with text := replaceAll s.p.text rle [] } } from rfl, e]
  rfl

private theorem srt_subLines_agree (n : Nat) (ctx : List Str) : ∀ (ts : List Str) (p : Raw) (subs : List Raw),
    Agree (Ieee.convertSubLines n ctx ts p subs) (convertSubLinesX n ctx ts p.finite (subs.map Raw.finite)) pairFinite
  | [], p, subs => agree_ok rfl
  | t :: ts, p, subs => by
    rw [Ieee.convertSubLines, convertSubLinesX]
    refine agree_bind (srt_line_agree n ctx t p subs) fun x => ?_
    obtain ⟨p', subs'⟩ := x
    exact agree_same _ fun l => agree_same _ fun l' => srt_subLines_agree n ctx ts { p' with vpos := { p'.vpos with line := some l' }, text := [] } subs'

private theorem srt_metadata_agree {γ δ : Type} (n : Nat) (ctx : List Str) (line : Str) (rest : List Str) (rs : Raw) {g : Raw → R γ} {h : XRaw → R δ} {k : γ → δ}
    (hg : ∀ r : Raw, Agree (g r) (h r.finite) k) :
    Agree (srtMetadata n ctx line rest rs >>= g) (srtMetadata n ctx line rest rs.finite.raw >>= fun r => h { rs.finite with raw := r }) k := by
  unfold srtMetadata
  simp only
  split
  · exact agree_error
  · cases convertTime ((splitCompress (fun x => x == 32) (trimRightIf (fun x => x == 32) line)).getD 0 []) b!"," with
    | error e => exact agree_error
    | ok a =>
      cases a with
      | error e => exact agree_error
      | ok f =>
        simp only [ok_bind]
        cases convertTime ((splitCompress (fun x => x == 32) (trimRightIf (fun x => x == 32) line)).getD 2 []) b!"," with
        | error e => exact agree_error
        | ok b =>
          cases b with
          | error e => exact agree_error
          | ok t => exact hg { rs with from_ := f, to_ := t }

private theorem srt_lines_agree : ∀ (ls : List Str) (n : Nat) (st : SrtState) (ctx : List Str) (rs : Raw) (subs : List Raw),
    Agree (Ieee.srtLines n st ctx rs subs ls) (srtLinesX n st ctx rs.finite (subs.map Raw.finite) ls) (List.map Raw.finite)
  | [], n, st, ctx, rs, subs => by rw [Ieee.srtLines, srtLinesX]; exact agree_ok rfl
  | raw :: rest, n, st, ctx, rs, subs => by
    cases st with
    | counter =>
      rw [Ieee.srtLines, srtLinesX]
      exact agree_ite (fun _ => srt_lines_agree rest _ _ _ _ _) fun _ => srt_lines_agree rest _ _ _ srtFresh _
    | metadata =>
      rw [Ieee.srtLines, srtLinesX]
      exact srt_metadata_agree _ _ _ _ _ (h := fun x => srtLinesX (n + 1) .content _ x (subs.map Raw.finite) rest) fun r => srt_lines_agree rest _ _ _ r _
    | content =>
      rw [Ieee.srtLines, srtLinesX]
      refine agree_ite (fun _ => srt_lines_agree rest _ _ _ _ _) fun _ => agree_bind (srt_subLines_agree _ _ _ rs subs) fun x => ?_
      obtain ⟨p', subs'⟩ := x
      exact srt_lines_agree rest _ _ _ p' subs'

/-- C138: where the first model gives subtitles or an error, so does this one. -/
theorem C138_agree (lines : List Str) (h : srtRead lines ≠ .error .nonFinite ∧ srtRead lines ≠ .error .unmodelled) : srtReadX lines = (srtRead lines).map (List.map Raw.finite) := by
  rcases (srtLines_track lines 0 .counter [] (rs := srtFresh) (fun p hp => by cases hp) []).eq with h1 | h1
  · exact absurd h1 h.2
  · rcases srt_lines_agree lines 0 .counter [] srtFresh [] with h2 | h2 | h2
    · rw [h1] at h2; exact absurd h2 h.1
    · rw [h1] at h2; exact absurd h2 h.2
    · rw [h1] at h2; exact h2

example : ∃ lines : List Str, (srtRead lines ≠ .error .nonFinite ∧ srtRead lines ≠ .error .unmodelled) ∧
    (srtReadX lines).toOption.map (List.map fun r => (r.raw.text, r.hprop, r.vprop)) = some [(b!"a", .fin 0, none), (b!"b", .fin (1 / 4), some (.fin (1 / 2)))] :=
  ⟨[b!"1", b!"00:00:01,000 --> 00:00:02,000", b!"a", b!"{\\pos(72,144)}b"], by decide +kernel, by decide +kernel⟩

/-! ### C138  No file is outside the model -/

private theorem n_hex2 (s : Str) : NeverInf (Colour.fromRgbHex s) ∧ NeverInf (Colour.fromRgbaHex s) := by
  constructor
  · unfold Colour.fromRgbHex
    repeat' split
    all_goals exact ⟨nofun, nofun⟩
  · unfold Colour.fromRgbaHex
    repeat' split
    all_goals exact ⟨nofun, nofun⟩

private theorem n_dec (s : Str) : NeverInf (decComp s) := n_bind (n_int s) fun _ => n_ok

private theorem n_font (n : Nat) (ctx : List Str) (tag : Str) : NeverInf (fontColour n ctx tag) := by
  unfold fontColour
  cases lastMatch fontHexAt tag with
  | some g => exact n_ite (n_hex2 g).1 (n_ite (n_hex2 g).2 ⟨nofun, nofun⟩)
  | none =>
    cases lastMatch fontRgbaAt tag with
    | some p => exact n_bind (n_dec _) fun _ => n_bind (n_dec _) fun _ => n_bind (n_dec _) fun _ => n_ok
    | none => exact ⟨nofun, nofun⟩

private theorem n_exec (n : Nat) (ctx : List Str) (s : SrtLineX) (t : Tok) : NeverInf (s.exec n ctx t) := by
  cases t with
  | bold b => exact n_ok
  | italic b => exact n_ok
  | underline b => exact n_ok
  | chr c => exact n_ok
  | ssa tag => exact n_bind (n_tag _ _ _) fun _ => n_ok
  | fontOpen tag => exact n_bind (n_font _ _ _) fun _ => n_ok
  | fontClose =>
    unfold SrtLineX.exec
    simp only
    refine n_ite n_ok ?_
    cases s.maybeContent.colours.dropLast.getLast? with
    | none => exact ⟨nofun, nofun⟩
    | some c => exact n_ok

private theorem n_loop (n : Nat) (ctx : List Str) : ∀ (fuel : Nat) (t : Str) (s : SrtLineX), NeverInf (srtLoopX n ctx fuel s t)
  | fuel, [], s => by rw [srtLoopX.eq_def]; exact n_ok
  | 0, c :: cs, s => by rw [srtLoopX]; exact n_ok
  | fuel + 1, c :: cs, s => by rw [srtLoopX]; exact n_bind (n_exec n ctx s _) fun s' => n_loop n ctx fuel _ s'

private theorem n_subLines (n : Nat) (ctx : List Str) : ∀ (ts : List Str) (p : XRaw) (subs : List XRaw), NeverInf (convertSubLinesX n ctx ts p subs)
  | [], p, subs => n_ok
  | t :: ts, p, subs => by
    rw [convertSubLinesX]
    exact n_bind (n_bind (n_loop _ _ _ _ _) fun _ => n_ok) fun x => n_bind (n_opt _) fun _ => n_bind (n_ck _) fun _ => n_subLines n ctx ts _ _

private theorem n_hms (h m s ms : Int) : NeverInf (Time.fromHms h m s ms) :=
  n_bind (n_bind (n_ck _) fun _ => n_bind (n_ck _) fun _ => n_bind (n_ck _) fun _ => n_ck _) fun _ => n_ok

private theorem n_time (t sep : Str) : NeverInf (convertTime t sep) := by
  unfold convertTime
  repeat' split
  all_goals first | exact n_ok | exact n_bind (n_hms _ _ _ _) fun _ => n_ok

private theorem n_metadata (n : Nat) (ctx : List Str) (line : Str) (rest : List Str) (rs : Raw) : NeverInf (srtMetadata n ctx line rest rs) := by
  unfold srtMetadata
  simp only
  refine n_ite ⟨nofun, nofun⟩ (n_bind (n_time _ _) fun a => ?_)
  cases a with
  | error e => exact ⟨nofun, nofun⟩
  | ok f =>
    refine n_bind (n_time _ _) fun b => ?_
    cases b with
    | error e => exact ⟨nofun, nofun⟩
    | ok t => exact n_ok

private theorem n_srt : ∀ (ls : List Str) (n : Nat) (st : SrtState) (ctx : List Str) (rs : XRaw) (subs : List XRaw), NeverInf (srtLinesX n st ctx rs subs ls)
  | [], n, st, ctx, rs, subs => by rw [srtLinesX]; exact n_ok
  | raw :: rest, n, st, ctx, rs, subs => by
    cases st with
    | counter => rw [srtLinesX]; exact n_ite (n_srt rest _ _ _ _ _) (n_srt rest _ _ _ _ _)
    | metadata => rw [srtLinesX]; exact n_bind (n_metadata _ _ _ _ _) fun r => n_srt rest _ _ _ _ _
    | content => rw [srtLinesX]; exact n_ite (n_srt rest _ _ _ _ _) (n_bind (n_subLines _ _ _ _ _) fun x => n_srt rest _ _ _ _ _)

/-- C138: no file is outside this model. -/
theorem C138_reads (lines : List Str) : srtReadX lines ≠ .error .nonFinite ∧ srtReadX lines ≠ .error .unmodelled := n_srt _ _ _ _ _ _

/-- C138: a place which is not a number, an infinite size and a number that scanning must not meet. -/
theorem C138_witness :
    (srtReadX [b!"1", b!"00:00:01,000 --> 00:00:02,000", b!"{\\pos(nan,-inf)}{\\fsInfinity}a"]).toOption.map (List.map fun r => (r.raw.text, r.hprop, r.vprop, r.fprop)) =
      some [(b!"a", .nan, some (.inf true), some (.inf false))] ∧
    srtReadX [b!"1", b!"00:00:01,000 --> 00:00:02,000", b!"{\\fs1e39}a"] = .error (.ub .scanfRange) ∧
    (srtReadX [b!"1", b!"00:00:01,000 --> 00:00:02,000", b!"{\\fs1e-39}a"]).toOption.map (List.map fun r => r.fprop) = some [some (.fin (2478 / 2 ^ 149))] := by
  decide +kernel

/-! ### C139  Specification -/

/-- Blocks, lines and subtitles all of whose numbers are finite. -/
def Block.finite (b : Block) : XBlock := ⟨{ b with fontSize := { b.fontSize with prop := none } }, b.fontSize.prop.map .fin⟩

@[inherit_doc Block.finite]
def Line.finite (l : Line) : XLine := ⟨{ l.hpos with prop := 0 }, { l.vpos with prop := none }, .fin l.hpos.prop, l.vpos.prop.map .fin, l.blocks.map Block.finite⟩

@[inherit_doc Block.finite]
def Subtitle.finite (s : Subtitle) : XSubtitle := ⟨s.from_, s.to_, s.fadeUp, s.fadeDown, s.lines.map Line.finite⟩

/-- All blocks, in order. -/
def blocksX (out : List XSubtitle) : List XBlock := out.flatMap fun s => s.lines.flatMap XLine.blocks

/-- `sorted` is `raws`, stably sorted by start time. -/
structure StablySortedX (raws sorted : List XRaw) : Prop where
  /-- the same raw subtitles -/
  perm : sorted.Perm raws
  /-- none starts before an earlier one -/
  ordered : sorted.Pairwise (fun a b => b.raw.from_.lt a.raw.from_ = .ok false)
  /-- those with equal start times are in the order of the input -/
  stable : ∀ x ∈ raws, sorted.filter (fun r => decide (x.raw.from_.eq r.raw.from_ = .ok true)) = raws.filter (fun r => decide (x.raw.from_.eq r.raw.from_ = .ok true))

/-! ### C139  Agreement with finite numbers -/

private theorem vposEq_finite (a b : VPos) : vposEqX { a with prop := none } (a.prop.map .fin) { b with prop := none } (b.prop.map .fin) = a.eq b := by
  unfold vposEqX VPos.eq
  simp only [Option.isSome_map]
  have : optXFEq (a.prop.map .fin) (b.prop.map .fin) = (a.prop == b.prop) := by
    cases a.prop <;> cases b.prop <;> simp [optXFEq, XF.eq]
  rw [this]

private theorem same_finite (l : Line) (r : Raw) : l.finite.sameMetadata r.finite = l.sameMetadata r := vposEq_finite l.vpos r.vpos

private def stFinite (st : List Subtitle × Option Subtitle) : List XSubtitle × Option XSubtitle := (st.1.map Subtitle.finite, st.2.map Subtitle.finite)

private theorem step_finite (st : List Subtitle × Option Subtitle) (i : Raw) : collectStepX (stFinite st) i.finite = (collectStep st i).map stFinite := by
  obtain ⟨out, cur⟩ := st
  cases cur with
  | none => rfl
  | some cur =>
    unfold collectStepX collectStep
    simp only [stFinite, Option.map_some]
    rw [show cur.finite.sameMetadata i.finite = cur.sameMetadata i from rfl]
    cases cur.sameMetadata i with
    | error e => rfl
    | ok b =>
      simp only [ok_bind]
      cases b with
      | false => simp [Except.map, stFinite]; rfl
      | true =>
        simp only [if_true]
        rw [show cur.finite.lines.getLast? = cur.lines.getLast?.map Line.finite from List.getLast?_map]
        cases hl : cur.lines.getLast? with
        | none => simp [Except.map, stFinite, Subtitle.finite]; rfl
        | some l =>
          simp only [Option.map_some]
          rw [same_finite]
          by_cases hs : l.sameMetadata i = true
          · rw [if_pos hs, if_pos hs]
            simp [Except.map, stFinite, Subtitle.finite, Line.finite, List.map_dropLast]
            rfl
          · rw [if_neg hs, if_neg hs]
            simp [Except.map, stFinite, Subtitle.finite]
            rfl

private theorem loop_finite : ∀ (is : List Raw) (st : List Subtitle × Option Subtitle), collectLoopX (stFinite st) (is.map Raw.finite) = (collectLoop st is).map stFinite
  | [], st => rfl
  | i :: is, st => by
    rw [List.map_cons, collectLoopX, collectLoop, step_finite]
    cases collectStep st i with
    | error e => rfl
    | ok st' => exact loop_finite is st'

private theorem go_map (a : XRaw) (f : Raw → Raw) (hf : ∀ r, (f r).from_ = r.from_) (b : Raw) : ∀ l : List Raw, allComparable.go (f b) (l.map f) = allComparable.go b l
  | [] => rfl
  | c :: l => by
    rw [List.map_cons, allComparable.go, allComparable.go, go_map a f hf b l]
    unfold Raw.lt
    rw [hf, hf]

private theorem comparable_map (f : Raw → Raw) (hf : ∀ r, (f r).from_ = r.from_) : ∀ l : List Raw, allComparable (l.map f) = allComparable l
  | [] => rfl
  | c :: l => by rw [List.map_cons, allComparable, allComparable, go_map {} f hf c l, comparable_map f hf l]

private theorem insert_finite {le : Raw → Raw → Bool} (hle : ∀ a b : Raw, le a.finite.raw b.finite.raw = le a b) (a : Raw) :
    ∀ l : List Raw, insertX le a.finite (l.map Raw.finite) = (insertRaw le a l).map Raw.finite
  | [] => rfl
  | b :: l => by
    rw [List.map_cons, insertX, insertRaw, hle]
    split
    · rfl
    · rw [insert_finite hle a l]; rfl

private theorem sort_finite {le : Raw → Raw → Bool} (hle : ∀ a b : Raw, le a.finite.raw b.finite.raw = le a b) : ∀ l : List Raw, sortX le (l.map Raw.finite) = (sortRaws le l).map Raw.finite
  | [] => rfl
  | a :: l => by rw [List.map_cons, sortX, sortRaws, sort_finite hle l, insert_finite hle]

/-- C139: subtitles with finite numbers are collected as before. -/
theorem C139_agree (raws : List Raw) : collectX (raws.map Raw.finite) = (collect raws).map (List.map Subtitle.finite) := by
  unfold collectX collect collectWith stableSortX stableSort
  rw [List.map_map, comparable_map (XRaw.raw ∘ Raw.finite) (fun _ => rfl)]
  cases allComparable raws with
  | error e => rfl
  | ok u =>
    simp only [ok_bind, pure_eq_ok]
    rw [sort_finite (fun a b => rfl)]
    generalize sortRaws _ raws = sorted
    have := loop_finite sorted ([], none)
    rw [show stFinite ([], none) = ([], none) from rfl] at this
    rw [this]
    cases collectLoop ([], none) sorted with
    | error e => rfl
    | ok st =>
      obtain ⟨out, cur⟩ := st
      cases cur with
      | none => rfl
      | some cur => simp [Except.map, collectFinishX, collectFinish, stFinite]

example : ∃ raws : List Raw, (collect raws).toOption.map List.length = some 1 ∧ (collectX (raws.map Raw.finite)).toOption.map (List.map fun s => s.lines.length) = some [2] :=
  ⟨[{ text := b!"a", vpos := { prop := some (1 / 2), ref := some .topOfScreen } }, { text := b!"b", vpos := { prop := some (3 / 4), ref := some .topOfScreen } }], by decide +kernel, by decide +kernel⟩

/-! ### C139  Infinities and NaN -/

private theorem insert_raw {le : Raw → Raw → Bool} (a : XRaw) : ∀ l : List XRaw, (insertX le a l).map XRaw.raw = insertRaw le a.raw (l.map XRaw.raw)
  | [] => rfl
  | b :: l => by
    rw [List.map_cons, insertX, insertRaw]
    split
    · rfl
    · rw [List.map_cons, insert_raw a l]

private theorem sort_raw {le : Raw → Raw → Bool} : ∀ l : List XRaw, (sortX le l).map XRaw.raw = sortRaws le (l.map XRaw.raw)
  | [] => rfl
  | a :: l => by rw [sortX, List.map_cons, sortRaws, insert_raw, sort_raw l]

private theorem insert_perm {le : Raw → Raw → Bool} (a : XRaw) : ∀ l : List XRaw, (insertX le a l).Perm (a :: l)
  | [] => .refl _
  | b :: l => by
    rw [insertX]
    split
    · exact .refl _
    · exact ((insert_perm a l).cons b).trans (.swap a b l)

theorem sortX_perm {le : Raw → Raw → Bool} : ∀ l : List XRaw, (sortX le l).Perm l
  | [] => .refl _
  | a :: l => by rw [sortX]; exact (insert_perm a _).trans ((sortX_perm l).cons a)

/-- What is said of the lines. -/
private def LineOk (Q : Prop) (P : XRaw → Prop) (l : XLine) : Prop :=
  (∃ r, P r ∧ l.vprop = r.vprop ∧ l.vpos = r.raw.vpos ∧ l.hprop = r.hprop ∧ l.hpos = r.raw.hpos) ∧ l.blocks ≠ [] ∧ (Q → l.vprop = some .nan → l.blocks.length = 1)

private theorem step_ok {Q : Prop} {P : XRaw → Prop} (hP : Q → ∀ r, P r → r.vprop ≠ none ∧ r.raw.vpos.ref ≠ none) {st st' : List XSubtitle × Option XSubtitle} {i : XRaw} (hi : P i)
    (h : ∀ s ∈ collectFinishX st, ∀ l ∈ s.lines, LineOk Q P l) (e : collectStepX st i = .ok st') :
    (∀ s ∈ collectFinishX st', ∀ l ∈ s.lines, LineOk Q P l) ∧ blocksX (collectFinishX st') = blocksX (collectFinishX st) ++ [XBlock.ofRaw i] := by
  have hnew : LineOk Q P (XLine.ofRaw i) := ⟨⟨i, hi, rfl, rfl, rfl, rfl⟩, by simp [XLine.ofRaw], fun _ _ => rfl⟩
  have hone : ∀ l ∈ (XSubtitle.ofRaw i).lines, LineOk Q P l := by
    intro l hl
    rw [List.mem_singleton.1 hl]
    exact hnew
  obtain ⟨out, cur⟩ := st
  cases cur with
  | none =>
    cases e
    refine ⟨?_, by simp [collectFinishX, blocksX, XSubtitle.ofRaw, XLine.ofRaw]⟩
    intro s hs
    rcases List.mem_append.1 hs with hs | hs
    · exact h s hs
    · rw [List.mem_singleton.1 hs]; exact hone
  | some cur =>
    have hout : ∀ s ∈ out, ∀ l ∈ s.lines, LineOk Q P l := fun s hs => h s (List.mem_append_left _ hs)
    have hcur : ∀ l ∈ cur.lines, LineOk Q P l := h cur (List.mem_append_right _ (List.mem_singleton.2 rfl))
    have hadd : (∀ s ∈ out ++ [{ cur with lines := cur.lines ++ [XLine.ofRaw i] }], ∀ l ∈ s.lines, LineOk Q P l) ∧
        blocksX (out ++ [{ cur with lines := cur.lines ++ [XLine.ofRaw i] }]) = blocksX (out ++ [cur]) ++ [XBlock.ofRaw i] := by
      refine ⟨?_, by simp [blocksX, XLine.ofRaw]⟩
      intro s hs
      rcases List.mem_append.1 hs with hs | hs
      · exact hout s hs
      · rw [List.mem_singleton.1 hs]
        intro l hl
        rcases List.mem_append.1 hl with hl | hl
        · exact hcur l hl
        · rw [List.mem_singleton.1 hl]; exact hnew
    unfold collectStepX at e
    simp only at e
    obtain ⟨b, -, e⟩ := bind_eq_ok.1 e
    cases b with
    | false =>
      cases e
      refine ⟨?_, by simp [collectFinishX, blocksX, XSubtitle.ofRaw, XLine.ofRaw]⟩
      intro s hs
      rcases List.mem_append.1 hs with hs | hs
      · exact h s hs
      · rw [List.mem_singleton.1 hs]; exact hone
    | true =>
      rw [if_pos rfl] at e
      cases hl : cur.lines.getLast? with
      | none => rw [hl] at e; cases e; exact hadd
      | some l =>
        rw [hl] at e
        simp only at e
        by_cases hs : l.sameMetadata i = true
        · rw [if_pos hs] at e
          cases e
          have hdl : cur.lines = cur.lines.dropLast ++ [l] := (List.dropLast_append_getLast? l (by rw [hl]; rfl)).symm
          have hlm : l ∈ cur.lines := by rw [hdl]; simp
          obtain ⟨⟨r, hr, e1, e2, e3⟩, hne, hlen⟩ := hcur l hlm
          constructor
          · intro s hs'
            rcases List.mem_append.1 hs' with hs' | hs'
            · exact hout s hs'
            · rw [List.mem_singleton.1 hs']
              intro m hm
              rcases List.mem_append.1 hm with hm | hm
              · exact hcur m (List.dropLast_subset _ hm)
              · rw [List.mem_singleton.1 hm]
                refine ⟨⟨r, hr, e1, e2, e3⟩, by simp, fun hQ hv => ?_⟩
                exfalso
                have hv : l.vprop = some .nan := hv
                unfold XLine.sameMetadata vposEqX at hs
                obtain ⟨a1, a2⟩ := hP hQ i hi
                obtain ⟨b1, b2⟩ := hP hQ r hr
                rw [← e2] at b2
                rw [if_pos (by simp [hv, Option.isSome_iff_ne_none, a1, a2, b2]), hv] at hs
                obtain ⟨q, hq⟩ := Option.ne_none_iff_exists'.1 a1
                rw [hq] at hs
                cases q <;> simp [optXFEq, XF.eq] at hs
          · show blocksX (out ++ [_]) = blocksX (out ++ [cur]) ++ _
            simp only [blocksX, List.flatMap_append, List.flatMap_cons, List.flatMap_nil, List.append_nil]
            conv_rhs => rw [hdl]
            simp [List.flatMap_append]
        · rw [if_neg hs] at e
          cases e
          exact hadd

private theorem loop_ok {Q : Prop} {P : XRaw → Prop} (hP : Q → ∀ r, P r → r.vprop ≠ none ∧ r.raw.vpos.ref ≠ none) : ∀ (is : List XRaw) (st st' : List XSubtitle × Option XSubtitle), (∀ i ∈ is, P i) →
    (∀ s ∈ collectFinishX st, ∀ l ∈ s.lines, LineOk Q P l) → collectLoopX st is = .ok st' →
    (∀ s ∈ collectFinishX st', ∀ l ∈ s.lines, LineOk Q P l) ∧ blocksX (collectFinishX st') = blocksX (collectFinishX st) ++ is.map XBlock.ofRaw
  | [], st, st', _, h, e => by cases e; exact ⟨h, by simp⟩
  | i :: is, st, st', hi, h, e => by
    rw [collectLoopX] at e
    obtain ⟨st1, e1, e⟩ := bind_eq_ok.1 e
    obtain ⟨a, b⟩ := step_ok hP (hi i (by simp)) h e1
    obtain ⟨c, d⟩ := loop_ok hP is st1 st' (fun j hj => hi j (by simp [hj])) a e
    exact ⟨c, by rw [d, b]; simp⟩

private theorem insert_filter {le : Raw → Raw → Bool} {p : XRaw → Bool} (a : XRaw) :
    ∀ l : List XRaw, (∀ b ∈ l, p a = true → p b = true → le a.raw b.raw = true) → (insertX le a l).filter p = (a :: l).filter p
  | [], _ => rfl
  | b :: l, h => by
    rw [insertX]
    split
    · rfl
    · rename_i hle
      have ih := insert_filter (le := le) a l fun c hc => h c (by simp [hc])
      rw [List.filter_cons, ih]
      by_cases pa : p a = true
      · have pb : ¬ p b = true := fun pb => hle (h b (by simp) pa pb)
        simp [List.filter_cons, pb]
      · simp [List.filter_cons, pa]

private theorem sort_filter {le : Raw → Raw → Bool} {p : XRaw → Bool} : ∀ l : List XRaw, (∀ a ∈ l, ∀ b ∈ l, p a = true → p b = true → le a.raw b.raw = true) → (sortX le l).filter p = l.filter p
  | [], _ => rfl
  | a :: l, h => by
    rw [sortX, insert_filter a _ fun b hb => h a (by simp) b (by simp [(sortX_perm l).mem_iff.1 hb]), List.filter_cons, sort_filter l fun c hc d hd => h c (by simp [hc]) d (by simp [hd]), List.filter_cons]

theorem stableSortX_ok {raws sorted : List XRaw} (e : stableSortX raws = .ok sorted) : sorted = sortX rawLe raws ∧ PairsComparable (raws.map XRaw.raw) := by
  unfold stableSortX at e
  obtain ⟨u, hu, e⟩ := bind_eq_ok.1 e
  have : stableSort (raws.map XRaw.raw) = .ok (sortRaws rawLe (raws.map XRaw.raw)) := by
    unfold stableSort
    rw [hu]
    rfl
  exact ⟨(Except.ok.inj e).symm, (stableSort_ok this).1⟩

private theorem sortedX (raws : List XRaw) (hk : ∀ a ∈ raws, ∀ b ∈ raws, a.raw.from_.SameKind b.raw.from_) (hc : PairsComparable (raws.map XRaw.raw)) : StablySortedX raws (sortX rawLe raws) := by
  have hs := stablySorted (raws.map XRaw.raw) (by simpa using hk) hc
  refine ⟨sortX_perm raws, ?_, ?_⟩
  · have := hs.ordered
    rw [← sort_raw, List.pairwise_map] at this
    exact this
  · intro x hx
    refine sort_filter raws fun a ha b hb pa pb => ?_
    simp only [decide_eq_true_eq] at pa pb
    have ea := eq_iff_key (hk x hx a ha) pa
    have eb := eq_iff_key (hk x hx b hb) pb
    rw [eq_comm, decide_eq_true_eq] at ea eb
    unfold rawLe Raw.lt
    cases hv : b.raw.from_.lt a.raw.from_ with
    | error e => rfl
    | ok v =>
      have := lt_eq_key (hk b hb a ha) hv
      rw [decide_eq_false (Time.not_keyLt_trans ea.1 eb.2)] at this
      rw [this]

/-- C139: the blocks of the result are those of the raw subtitles stably sorted by start time, whatever their places: none is lost, none is made up, none is moved, and a place that is
NaN or infinite is kept as it is. -/
theorem C139_pieces (raws : List XRaw) (out : List XSubtitle) (hk : ∀ a ∈ raws, ∀ b ∈ raws, a.raw.from_.SameKind b.raw.from_) (e : collectX raws = .ok out) :
    (∃ sorted, StablySortedX raws sorted ∧ blocksX out = sorted.map XBlock.ofRaw) ∧
      ∀ s ∈ out, ∀ l ∈ s.lines, l.blocks ≠ [] ∧ ∃ r ∈ raws, l.vprop = r.vprop ∧ l.vpos = r.raw.vpos ∧ l.hprop = r.hprop ∧ l.hpos = r.raw.hpos := by
  unfold collectX at e
  obtain ⟨sorted, hs, e⟩ := bind_eq_ok.1 e
  obtain ⟨rfl, hc⟩ := stableSortX_ok hs
  obtain ⟨st, hst, e⟩ := bind_eq_ok.1 e
  obtain ⟨a, b⟩ := loop_ok (Q := False) (P := (· ∈ raws)) False.elim _ ([], none) st (fun i hi => (sortX_perm raws).mem_iff.1 hi) (by simp [collectFinishX]) hst
  cases e
  exact ⟨⟨_, sortedX raws hk hc, by simpa [collectFinishX, blocksX] using b⟩, fun s hs l hl => ⟨(a s hs l hl).2.1, (a s hs l hl).1⟩⟩

/-- Two pieces of text, the second first, at places that are no numbers. -/
def exPlaces : List XRaw := [{ raw := { text := b!"b", from_ := ⟨2, 0, some ⟨1000, 1⟩⟩, vpos := { ref := some .topOfScreen } }, vprop := some .nan }, { raw := { text := b!"a", from_ := ⟨1, 0, some ⟨1000, 1⟩⟩, vpos := { ref := some .topOfScreen } }, vprop := some (.inf true) }]

example : (∀ a ∈ exPlaces, ∀ b ∈ exPlaces, a.raw.from_.SameKind b.raw.from_) ∧ (collectX exPlaces).toOption.map (fun out => out.map fun s => s.lines.map fun l => (l.vprop, l.blocks.map fun b => b.block.text)) = some [[(some (.inf true), [b!"a"])], [(some .nan, [b!"b"])]] := by
  refine ⟨?_, by decide +kernel⟩
  intro a ha b hb
  simp only [exPlaces, List.mem_cons, List.not_mem_nil, or_false] at ha hb
  rcases ha with rfl | rfl <;> rcases hb with rfl | rfl <;> exact .inl ⟨⟨_, rfl, by decide⟩, ⟨_, rfl, by decide⟩⟩

/-- C139: where every subtitle has a proportional vertical place with a reference, as each that the SSA reader gives, two pieces of text whose place is not a number never share a line. -/
theorem C139_own_line (raws : List XRaw) (out : List XSubtitle) (h : ∀ r ∈ raws, r.vprop ≠ none ∧ r.raw.vpos.ref ≠ none) (e : collectX raws = .ok out) :
    ∀ s ∈ out, ∀ l ∈ s.lines, l.vprop = some .nan → l.blocks.length = 1 := by
  unfold collectX at e
  obtain ⟨sorted, hs, e⟩ := bind_eq_ok.1 e
  obtain ⟨rfl, hc⟩ := stableSortX_ok hs
  obtain ⟨st, hst, e⟩ := bind_eq_ok.1 e
  obtain ⟨a, b⟩ := loop_ok (Q := True) (P := (· ∈ raws)) (fun _ => h) _ ([], none) st (fun i hi => (sortX_perm raws).mem_iff.1 hi) (by simp [collectFinishX]) hst
  cases e
  exact fun s hs l hl => (a s hs l hl).2.2 trivial

example : (∀ r ∈ exPlaces, r.vprop ≠ none ∧ r.raw.vpos.ref ≠ none) ∧ (collectX exPlaces).toOption.isSome = true := by decide +kernel

private def Placed (r : XRaw) : Prop := r.vprop ≠ none ∧ r.raw.vpos.ref ≠ none

private theorem finish_one {m l : XF} {n : Nat} {s s' : XRaw} (h1 : ssaFinishPosX m n l s = .ok s') : Placed s' := by
  unfold ssaFinishPosX at h1
  obtain ⟨ref, h3, h1⟩ := bind_eq_ok.1 h1
  obtain ⟨p, h4, h1⟩ := bind_eq_ok.1 h1
  simp only [pure_eq_ok, Except.ok.injEq] at h1
  rw [← h1]
  refine ⟨by simp, fun h0 => ?_⟩
  have h0 : s.raw.vpos.ref = none := h0
  rw [h0] at h3
  cases h3

private theorem finish_placed {m l : XF} {n : Nat} : ∀ (ss out : List XRaw), ssaFinishAllX m n l ss = .ok out → ∀ r ∈ out, Placed r
  | [], out, e => by
    rw [ssaFinishAllX] at e
    rw [← Except.ok.inj e]
    simp
  | s :: ss, out, e => by
    rw [ssaFinishAllX] at e
    obtain ⟨s', h1, e⟩ := bind_eq_ok.1 e
    obtain ⟨ss', h2, e⟩ := bind_eq_ok.1 e
    rw [← Except.ok.inj e]
    intro r hr
    rcases List.mem_cons.1 hr with rfl | hr
    · exact finish_one h1
    · exact finish_placed ss ss' h2 r hr

private theorem line_placed {c : SsaContext} {b : XRaw} {t : Str} {out : List XRaw} (e : ssaParseLineX c b t = .ok out) : ∀ r ∈ out, Placed r := by
  unfold ssaParseLineX at e
  obtain ⟨_, -, e⟩ := bind_eq_ok.1 e
  obtain ⟨_, -, e⟩ := bind_eq_ok.1 e
  obtain ⟨_, -, e⟩ := bind_eq_ok.1 e
  exact finish_placed _ _ e

private theorem field_placed {r : SsaRead} {ev ev1 : SsaEventX} {k v : Str} (h : ∀ s ∈ ev.subs, Placed s) (h1 : ssaEventFieldX r ev k v = .ok ev1) : ∀ s ∈ ev1.subs, Placed s := by
  unfold ssaEventFieldX at h1
  simp only at h1
  repeat' split at h1
  all_goals first
    | (cases h1; exact h)
    | (obtain ⟨x, -, h1⟩ := bind_eq_ok.1 h1; cases h1; exact h)
    | (obtain ⟨x, hx, h1⟩ := bind_eq_ok.1 h1
       cases h1
       intro s hs
       rcases List.mem_append.1 hs with hs | hs
       · exact h s hs
       · exact line_placed hx s hs)

private theorem fields_placed (r : SsaRead) : ∀ (fs : List (Str × Str)) (ev ev' : SsaEventX), (∀ s ∈ ev.subs, Placed s) → ssaEventFieldsX r ev fs = .ok ev' → ∀ s ∈ ev'.subs, Placed s
  | [], ev, ev', h, e => by cases e; exact h
  | (k, v) :: fs, ev, ev', h, e => by
    rw [ssaEventFieldsX] at e
    obtain ⟨ev1, h1, e⟩ := bind_eq_ok.1 e
    exact fields_placed r fs ev1 ev' (field_placed h h1) e

private theorem dialogue_placed {r r' : SsaReadX} {t : Str} (h : ∀ s ∈ r.subs, Placed s) (e : ssaDialogueX r t = .ok r') : ∀ s ∈ r'.subs, Placed s := by
  unfold ssaDialogueX at e
  simp only at e
  obtain ⟨_, -, e⟩ := bind_eq_ok.1 e
  obtain ⟨_, -, e⟩ := bind_eq_ok.1 e
  obtain ⟨_, -, e⟩ := bind_eq_ok.1 e
  obtain ⟨ev, he, e⟩ := bind_eq_ok.1 e
  cases e
  intro s hs
  rcases List.mem_append.1 hs with hs | hs
  · exact h s hs
  · exact fields_placed r.read _ {} ev (by simp) he s hs

private theorem lineX_placed {r r' : SsaReadX} {t : Str} (h : ∀ s ∈ r.subs, Placed s) (e : ssaLineX r t = .ok r') : ∀ s ∈ r'.subs, Placed s := by
  unfold ssaLineX at e
  simp only at e
  repeat' split at e
  all_goals first
    | exact dialogue_placed h e
    | (cases e; done)
    | (cases e; exact h)
    | (obtain ⟨x, -, e⟩ := bind_eq_ok.1 e; cases e; exact h)
    | (obtain ⟨x, -, e⟩ := bind_eq_ok.1 e; obtain ⟨y, -, e⟩ := bind_eq_ok.1 e; cases e; exact h)

private theorem linesX_placed : ∀ (ls : List Str) (r r' : SsaReadX), (∀ s ∈ r.subs, Placed s) → ssaLinesX r ls = .ok r' → ∀ s ∈ r'.subs, Placed s
  | [], r, r', h, e => by cases e; exact h
  | l :: ls, r, r', h, e => by
    rw [ssaLinesX] at e
    obtain ⟨r1, h1, e⟩ := bind_eq_ok.1 e
    exact linesX_placed ls r1 r' (lineX_placed h h1) e

/-- C139: every subtitle read from an SSA file has a proportional vertical place and a reference for it, so a file whose places are not numbers is collected one line to a piece. -/
theorem C139_ssa (lines : List Str) (r : SsaReadX) (h : ssaLinesX {} lines = .ok r) : (∀ s ∈ r.subs, s.vprop ≠ none ∧ s.raw.vpos.ref ≠ none) ∧
    ∀ out, collectX r.subs = .ok out → ∀ s ∈ out, ∀ l ∈ s.lines, l.vprop = some .nan → l.blocks.length = 1 :=
  ⟨linesX_placed lines {} r (by simp) h, fun out e => C139_own_line r.subs out (linesX_placed lines {} r (by simp) h) e⟩

/-- An event whose text changes to italics half way. -/
def exItalics (height : Str) : Str := b!"[Script Info]\nPlayResY: " ++ height ++ b!"\n[Events]\nFormat: Start, End, Text\nDialogue: 0:00:01.00,0:00:02.00,a{\\i1}b"

example : ((ssaLinesX {} (linesOfString (exItalics b!"0"))).toOption.map fun r => (collectX r.subs).toOption.isSome && decide (r.subs.map (·.vprop) = [some .nan, some .nan])) = some true := by decide +kernel

/-- C139: the same event, on a screen of no height, falls apart: on an ordinary screen its two pieces share a line. -/
theorem C139_witness : ((ssaReadStringX (exItalics b!"0") >>= collectX).toOption.map fun out => out.map fun s => s.lines.map fun l => l.blocks.map fun b => b.block.text) = some [[[b!"a"], [b!"b"]]] ∧
    ((ssaReadStringX (exItalics b!"288") >>= collectX).toOption.map fun out => out.map fun s => s.lines.map fun l => l.blocks.map fun b => b.block.text) = some [[[b!"a", b!"b"]]] := by decide +kernel

end LibSub
