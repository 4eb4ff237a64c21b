/-
Property C154: what may be changed in the text of an SSA dialogue without changing what it means.
-/
import Verif.Props.SsaLineExact

namespace LibSub

/-! ### Specification -/

/-- A tag that is without effect. -/
abbrev Effectless (t : Str) : Prop := t ∉ plainTags ∧ ¬ b!"\\pos" <+: t ∧ ¬ b!"\\fs" <+: t ∧ ¬ b!"\\c" <+: t

/-- No bracket and no comma. -/
abbrev NoPosMarks (s : Str) : Prop := ∀ c ∈ s, c ≠ 40 ∧ c ≠ 44

/-- Two tags that do the same: upright text with or without a digit, the same numbers or the same colour written in two ways. -/
inductive TagAlike : Str → Str → Prop
  | same (t : Str) : TagAlike t t
  | upright : TagAlike b!"\\i" b!"\\i0"
  | upright' : TagAlike b!"\\i0" b!"\\i"
  | size (x x' : Str) (f : ℚ) : x ≠ [] → x' ≠ [] → FloatText x f → FloatText x' f → TagAlike (b!"\\fs" ++ x) (b!"\\fs" ++ x')
  | pos (a x y a' x' y' : Str) (s t s' t' : Byte) (fx fy : ℚ) : NoPosMarks (a ++ x ++ y) → NoPosMarks (a' ++ x' ++ y') →
      s = 40 ∨ s = 44 → t = 40 ∨ t = 44 → s' = 40 ∨ s' = 44 → t' = 40 ∨ t' = 44 → FloatText x fx → FloatText x' fx → FloatText y fy → FloatText y' fy →
      TagAlike (b!"\\pos" ++ a ++ s :: (x ++ t :: y)) (b!"\\pos" ++ a' ++ s' :: (x' ++ t' :: y'))
  | colour (s s' : Str) (x x' : Byte) (c : Colour) : HColourText s c → HColourText s' c → TagAlike (b!"\\c" ++ s ++ [x]) (b!"\\c" ++ s' ++ [x'])

/-- Lists of tags that do the same, one after the other; those without effect do not count. -/
inductive TagsAlike : List Str → List Str → Prop
  | done : TagsAlike [] []
  | both (t t' : Str) (ts ts' : List Str) : TagAlike t t' → TagsAlike ts ts' → TagsAlike (t :: ts) (t' :: ts')
  | left (t : Str) (ts ts' : List Str) : Effectless t → TagsAlike ts ts' → TagsAlike (t :: ts) ts'
  | right (t : Str) (ts ts' : List Str) : Effectless t → TagsAlike ts ts' → TagsAlike ts (t :: ts')

/-- The end of the line, or a break. -/
def AtEdge (ts : List SsaTok) : Prop := ts = [] ∨ ∃ r, ts = .br :: r

/-- Lines made of the same things: tags may be spread over groups next to each other, and a group of tags without effect before a break or the end of the line does not count. -/
inductive ToksAlike : List SsaTok → List SsaTok → Prop
  | done : ToksAlike [] []
  | same (k : SsaTok) (ts ts' : List SsaTok) : ToksAlike ts ts' → ToksAlike (k :: ts) (k :: ts')
  | tags (a a' : List Str) (ts ts' : List SsaTok) : TagsAlike a a' → ToksAlike ts ts' → ToksAlike (.tags a :: ts) (.tags a' :: ts')
  | left (a b : List Str) (ts ts' : List SsaTok) : ToksAlike (.tags (a ++ b) :: ts) ts' → ToksAlike (.tags a :: .tags b :: ts) ts'
  | right (a b : List Str) (ts ts' : List SsaTok) : ToksAlike ts (.tags (a ++ b) :: ts') → ToksAlike ts (.tags a :: .tags b :: ts')
  | leftEdge (a : List Str) (ts ts' : List SsaTok) : (∀ t ∈ a, Effectless t) → AtEdge ts → ToksAlike ts ts' → ToksAlike (.tags a :: ts) ts'
  | rightEdge (a : List Str) (ts ts' : List SsaTok) : (∀ t ∈ a, Effectless t) → AtEdge ts' → ToksAlike ts ts' → ToksAlike ts (.tags a :: ts')

/-- Texts that are alike: they are made of the same things, and have a backslash before an `n` or `N` equally often (in tags and after a backslash too). -/
def SpokenAlike (t t' : Str) : Prop := ∃ ts ts', SsaWritten t ts ∧ SsaWritten t' ts' ∧ ToksAlike ts ts' ∧ writtenBreaks t = writtenBreaks t'

/-! ### Tags -/

theorem effectless_tag {t : Str} (h : Effectless t) (ctx : SsaContext) (p : Raw) : ssaParseTag ctx p t = .ok p :=
  C49_ignored_partial ctx p t h.1 h.2.1 h.2.2.1 h.2.2.2

private theorem size_eq (ctx : SsaContext) (p : Raw) (x : Str) (f : ℚ) (h1 : x ≠ []) (h2 : FloatText x f) :
    ssaParseTag ctx p (b!"\\fs" ++ x) = (do let q ← fdiv f (f32 ctx.resY); pure { p with fontSize := { p.fontSize with prop := some (f32 q) } }) := by
  have hn : ∀ u : Str, (∀ w, u ≠ 92 :: 102 :: w) → b!"\\fs" ++ x ≠ u := fun u hu e => hu _ e.symm
  unfold ssaParseTag
  rw [if_neg (hn _ (by simp)), if_neg (by rintro (h | h) <;> exact hn _ (by simp) h), if_neg (hn _ (by simp)), if_neg (hn _ (by simp)), if_neg (hn _ (by simp)), if_neg (hn _ (by simp)),
    if_neg (hn _ (by simp)), if_neg (hn _ (by simp)), if_neg (hn _ (by simp)), if_neg (hn _ (by simp)), if_neg (hn _ (by simp)), if_neg (hn _ (by simp)), if_neg (hn _ (by simp)), if_neg (hn _ (by simp)),
    if_neg (hn _ (by simp)), if_neg (by rw [startsWith_iff]; rintro ⟨w, hw⟩; exact hn _ (by simp) hw.symm), if_pos (startsWith_iff.2 ⟨x, rfl⟩)]
  have hl : subAssert (decide ((b!"\\fs" ++ x).length > 3)) = .ok () := by
    rw [decide_eq_true (by rw [List.length_append]; have := List.length_pos_iff.2 h1; simp; omega)]
    rfl
  have hd : (b!"\\fs" ++ x).drop 3 = x := rfl
  rw [hl, ok_bind, hd, (C117_float _ _).2 h2, ok_bind]

private theorem pos_eq (ctx : SsaContext) (p : Raw) (a x y : Str) (s t : Byte) (fx fy : ℚ) (h1 : NoPosMarks (a ++ x ++ y)) (hs : s = 40 ∨ s = 44) (ht : t = 40 ∨ t = 44)
    (h2 : FloatText x fx) (h3 : FloatText y fy) :
    ssaParseTag ctx p (b!"\\pos" ++ a ++ s :: (x ++ t :: y)) = (do
      let hp ← fdiv fx (f32 ctx.resX)
      let vp ← fdiv fy (f32 ctx.resY)
      pure { p with hpos := ⟨.left, f32 hp⟩, vpos := { p.vpos with ref := some .topOfScreen, prop := some (f32 vp) } }) := by
  have hn : ∀ u : Str, (∀ w, u ≠ 92 :: 112 :: w) → b!"\\pos" ++ a ++ s :: (x ++ t :: y) ≠ u := fun u hu e => hu _ e.symm
  unfold ssaParseTag
  rw [if_neg (hn _ (by simp)), if_neg (by rintro (h | h) <;> exact hn _ (by simp) h), if_neg (hn _ (by simp)), if_neg (hn _ (by simp)), if_neg (hn _ (by simp)), if_neg (hn _ (by simp)),
    if_neg (hn _ (by simp)), if_neg (hn _ (by simp)), if_neg (hn _ (by simp)), if_neg (hn _ (by simp)), if_neg (hn _ (by simp)), if_neg (hn _ (by simp)), if_neg (hn _ (by simp)), if_neg (hn _ (by simp)),
    if_neg (hn _ (by simp)), if_pos (startsWith_iff.2 ⟨a ++ s :: (x ++ t :: y), by simp⟩)]
  have : splitAny (fun c => c == 40 || c == 44) (b!"\\pos" ++ a ++ s :: (x ++ t :: y)) = [b!"\\pos" ++ a, x, y] := by
    refine (split3_iff _ _ _ _ _).2 ⟨s, t, by simpa using hs, by simpa using ht, rfl, ?_⟩
    intro c hc
    rw [List.append_assoc, List.append_assoc, List.mem_append] at hc
    rcases hc with hc | hc
    · have : ∀ c ∈ b!"\\pos", (c == 40 || c == 44) = false := by decide
      exact this c hc
    · have := h1 c (by rw [List.append_assoc]; exact hc)
      simp [this.1, this.2]
  rw [this]
  simp only
  rw [(C117_float _ _).2 h2, ok_bind, (C117_float _ _).2 h3]
  rfl

/-- C154: tags that are alike do the same to any style, or are the same error. -/
theorem C154_tag (ctx : SsaContext) (p : Raw) (t t' : Str) (h : TagAlike t t') : ssaParseTag ctx p t = ssaParseTag ctx p t' := by
  cases h with
  | same => rfl
  | upright => rfl
  | upright' => rfl
  | size x x' f h1 h2 h3 h4 => rw [size_eq ctx p x f h1 h3, size_eq ctx p x' f h2 h4]
  | pos a x y a' x' y' s t s' t' fx fy h1 h2 h3 h4 h5 h6 h7 h8 h9 h10 =>
    rw [pos_eq ctx p a x y s t fx fy h1 h3 h4 h7 h9, pos_eq ctx p a' x' y' s' t' fx fy h2 h5 h6 h8 h10]
  | colour s s' x x' c h1 h2 => rw [C48_tag, C48_tag, (hColour_iff s c).2 h1, (hColour_iff s' c).2 h2]

/-- A size and a place in two ways. -/
example : TagAlike b!"\\fs24" b!"\\fs24.0" ∧ TagAlike b!"\\pos(50,20)" b!"\\pos (5e1,20)" :=
  have hf : ∀ (s : Str) (q : ℚ), rawConvertFloat s = .ok q → FloatText s q := fun s q => (C117_float s q).1
  ⟨.size b!"24" b!"24.0" 24 (by decide) (by decide) (hf _ _ (by decide +kernel)) (hf _ _ (by decide +kernel)),
   .pos [] b!"50" b!"20)" b!" " b!"5e1" b!"20)" 40 44 40 44 50 20 (by decide) (by decide) (.inl rfl) (.inr rfl) (.inl rfl) (.inr rfl)
    (hf _ _ (by decide +kernel)) (hf _ _ (by decide +kernel)) (hf _ _ (by decide +kernel)) (hf _ _ (by decide +kernel))⟩

private theorem tags_alike {a a' : List Str} (h : TagsAlike a a') (ctx : SsaContext) : ∀ p, tagsRun ctx p a = tagsRun ctx p a' := by
  induction h with
  | done => intro p; rfl
  | both t t' ts ts' h _ ih =>
    intro p
    rw [tagsRun, tagsRun, C154_tag ctx p t t' h]
    cases ssaParseTag ctx p t' with
    | error e => rfl
    | ok q => exact ih q
  | left t ts ts' h _ ih =>
    intro p
    rw [tagsRun, effectless_tag h]
    exact ih p
  | right t ts ts' h _ ih =>
    intro p
    rw [tagsRun, effectless_tag h]
    exact ih p

private theorem tags_append (ctx : SsaContext) (a b : List Str) : ∀ p, tagsRun ctx p (a ++ b) = (tagsRun ctx p a >>= fun q => tagsRun ctx q b) := by
  induction a with
  | nil => intro p; rfl
  | cons t a ih =>
    intro p
    rw [List.cons_append, tagsRun, tagsRun]
    cases ssaParseTag ctx p t with
    | error e => rfl
    | ok q => exact ih q

private theorem tags_none (ctx : SsaContext) (p : Raw) {a : List Str} (h : ∀ t ∈ a, Effectless t) : tagsRun ctx p a = .ok p := by
  induction a with
  | nil => rfl
  | cons t a ih =>
    rw [tagsRun, effectless_tag (h t (by simp)), ok_bind]
    exact ih fun t ht => h t (by simp [ht])

/-! ### Lines -/

private theorem nothing (p : Raw) : subtitleOf p [] = [] := rfl

private theorem split_group (ctx : SsaContext) (h : ℚ) (a b : List Str) (ts : List SsaTok) (p : Raw) (x : Str) (subs : List Raw) :
    tokRun ctx h p x subs (.tags a :: .tags b :: ts) = tokRun ctx h p x subs (.tags (a ++ b) :: ts) := by
  simp only [tokRun, tags_append]
  cases tagsRun ctx p a with
  | error e => rfl
  | ok q => simp only [ok_bind, nothing, List.append_nil]

private theorem edge_group (ctx : SsaContext) (h : ℚ) {a : List Str} {ts : List SsaTok} (ha : ∀ t ∈ a, Effectless t) (he : AtEdge ts) (p : Raw) (x : Str) (subs : List Raw) :
    tokRun ctx h p x subs (.tags a :: ts) = tokRun ctx h p x subs ts := by
  rw [tokRun, tags_none ctx p ha, ok_bind]
  rcases he with rfl | ⟨r, rfl⟩
  · simp only [tokRun, nothing, List.append_nil]
  · simp only [tokRun, nothing, List.append_nil]

private theorem toks_alike {ts ts' : List SsaTok} (hk : ToksAlike ts ts') (ctx : SsaContext) (h : ℚ) : ∀ p x subs, tokRun ctx h p x subs ts = tokRun ctx h p x subs ts' := by
  induction hk with
  | done => intro p x subs; rfl
  | same k ts ts' _ ih =>
    intro p x subs
    cases k with
    | chr c => exact ih _ _ _
    | tags tg =>
      rw [tokRun, tokRun]
      cases tagsRun ctx p tg with
      | error e => rfl
      | ok q => exact ih _ _ _
    | br =>
      rw [tokRun, tokRun]
      cases ssaMoveDown h p.vpos with
      | error e => rfl
      | ok q => exact ih _ _ _
  | tags a a' ts ts' ha _ ih =>
    intro p x subs
    rw [tokRun, tokRun, tags_alike ha ctx p]
    cases tagsRun ctx p a' with
    | error e => rfl
    | ok q => exact ih _ _ _
  | left a b ts ts' _ ih => intro p x subs; rw [split_group]; exact ih _ _ _
  | right a b ts ts' _ ih => intro p x subs; rw [split_group]; exact ih _ _ _
  | leftEdge a ts ts' ha he _ ih => intro p x subs; rw [edge_group ctx h ha he]; exact ih _ _ _
  | rightEdge a ts ts' ha he _ ih => intro p x subs; rw [edge_group ctx h ha he]; exact ih _ _ _

private theorem run_alike {t t' : Str} {ts ts' : List SsaTok} (h1 : SsaWritten t ts) (h2 : SsaWritten t' ts') (h3 : ToksAlike ts ts') (ctx : SsaContext) (h : ℚ) (cur : Raw) (f : List Raw → R (List Raw)) :
    (ssaRun ctx h { current := cur } t >>= fun l => f l.flush.subs) = (ssaRun ctx h { current := cur } t' >>= fun l => f l.flush.subs) := by
  have e : ({ current := cur } : SsaLoop) = loopAt .text { cur with text := [] } cur.text [] [] := rfl
  have e1 := run_toks ctx h h1 { cur with text := [] } rfl cur.text []
  have e2 := run_toks ctx h h2 { cur with text := [] } rfl cur.text []
  rw [toks_alike h3, ← e2, ← e] at e1
  generalize ssaRun ctx h { current := cur } t = a at e1
  generalize ssaRun ctx h { current := cur } t' = b at e1
  cases a with
  | error x =>
    cases b with
    | error y => cases e1; rfl
    | ok l => cases e1
  | ok l =>
    cases b with
    | error y => cases e1
    | ok l' =>
      have : l.flush.subs = l'.flush.subs := Except.ok.inj e1
      simp only [ok_bind, this]

/-- C154: texts that are alike give the same subtitles, or the same error. -/
theorem C154_text (ctx : SsaContext) (base : Raw) (t t' : Str) (h : SpokenAlike t t') : ssaParseLine ctx base t = ssaParseLine ctx base t' := by
  obtain ⟨ts, ts', h1, h2, h3, h4⟩ := h
  unfold ssaParseLine
  cases ssaPrepare ctx base with
  | error e => simp only [error_bind]
  | ok cur =>
    simp only [ok_bind]
    cases cur.fontSize.proportionalAt ctx.resY with
    | error e => simp only [error_bind]
    | ok fs =>
      simp only [ok_bind]
      rw [breaks_iff, breaks_iff, h4]
      generalize f64 (fs * f64 (6 / 5)) = h
      generalize writtenBreaks t' = n
      exact run_alike h1 h2 h3 ctx h cur _

/-- The other letter for a break, a remark, an unknown tag, one group in place of two, a size in another way, a line feed. -/
example : SpokenAlike b!"{\\i1}{\\fs24\\shad1}Hello\\Nwor{\\i}ld{\\k20}" b!"{as before\\i1\\fs24.0}Hel\nlo\\nwor{\\i0\\blur2}ld" := by
  have hf : ∀ (s : Str) (q : ℚ), rawConvertFloat s = .ok q → FloatText s q := fun s q => (C117_float s q).1
  have hn : ∀ s : Str, s.all (fun c => c != 92 && c != 125) = true → NoTagMarks s := fun s h c hc => by simpa using (List.all_eq_true.1 h) c hc
  have hm : ∀ bs : List Str, bs.all (fun s => s.all (fun c => c != 92 && c != 125)) = true → ∀ b ∈ bs, NoTagMarks b := fun bs h b hb => hn b ((List.all_eq_true.1 h) b hb)
  have ha : TagsAlike [b!"\\i1", b!"\\fs24", b!"\\shad1"] [b!"\\i1", b!"\\fs24.0"] :=
    .both _ _ _ _ (.same _) (.both _ _ _ _ (.size b!"24" b!"24.0" 24 (by decide) (by decide) (hf _ _ (by decide +kernel)) (hf _ _ (by decide +kernel))) (.left _ _ _ (by decide) .done))
  refine ⟨.tags [b!"\\i1"] :: .tags [b!"\\fs24", b!"\\shad1"] :: (b!"Hello".map .chr ++ .br :: (b!"wor".map .chr ++ .tags [b!"\\i"] :: (b!"ld".map .chr ++ [.tags [b!"\\k20"]]))),
    .tags [b!"\\i1", b!"\\fs24.0"] :: (b!"Hello".map .chr ++ .br :: (b!"wor".map .chr ++ .tags [b!"\\i0", b!"\\blur2"] :: b!"ld".map .chr)), ?_, ?_, ?_, by decide⟩
  · refine .group [] [b!"i1"] _ _ (hn _ (by decide)) (hm _ (by decide)) (.group [] [b!"fs24", b!"shad1"] _ _ (hn _ (by decide)) (hm _ (by decide)) ?_)
    repeat refine .chr _ _ _ (by decide) (by decide) (by decide) (by decide) ?_
    refine .br _ _ _ (by decide) ?_
    repeat refine .chr _ _ _ (by decide) (by decide) (by decide) (by decide) ?_
    refine .group [] [b!"i"] _ _ (hn _ (by decide)) (hm _ (by decide)) ?_
    repeat refine .chr _ _ _ (by decide) (by decide) (by decide) (by decide) ?_
    exact .group [] [b!"k20"] [] [] (hn _ (by decide)) (hm _ (by decide)) .done
  · refine .group b!"as before" [b!"i1", b!"fs24.0"] _ _ (hn _ (by decide)) (hm _ (by decide)) ?_
    repeat refine .chr _ _ _ (by decide) (by decide) (by decide) (by decide) ?_
    refine .dropped _ _ _ (by decide) ?_
    repeat refine .chr _ _ _ (by decide) (by decide) (by decide) (by decide) ?_
    refine .br _ _ _ (by decide) ?_
    repeat refine .chr _ _ _ (by decide) (by decide) (by decide) (by decide) ?_
    refine .group [] [b!"i0", b!"blur2"] _ _ (hn _ (by decide)) (hm _ (by decide)) ?_
    repeat refine .chr _ _ _ (by decide) (by decide) (by decide) (by decide) ?_
    exact .done
  · refine .left _ _ _ _ (.tags _ _ _ _ ha ?_)
    repeat refine .same _ _ _ ?_
    refine .tags _ _ _ _ (.both _ _ _ _ .upright (.right _ _ _ (by decide) .done)) ?_
    repeat refine .same _ _ _ ?_
    exact .leftEdge _ _ _ (by decide) (.inl rfl) .done

/-- C154: a tag without effect that begins with `n` may not be left out, as it counts as a break: the text is put one line higher up. -/
theorem C154_n_witness : Effectless b!"\\nfoo" ∧
    (ssaParseLine ⟨288, 288, ⟨1, 1, 1⟩, 0, 0⟩ {} b!"{\\nfoo}Hi").toOption.map (fun rs => rs.map Raw.vpos) ≠
    (ssaParseLine ⟨288, 288, ⟨1, 1, 1⟩, 0, 0⟩ {} b!"{\\foo}Hi").toOption.map (fun rs => rs.map Raw.vpos) := by decide +kernel

/-- C154: an empty group inside a text may not be left out, as it divides the text. -/
theorem C154_group_witness :
    (ssaParseLine ⟨288, 288, ⟨1, 1, 1⟩, 0, 0⟩ {} b!"H{}i").toOption.map (fun rs => rs.map Raw.text) = some [b!"H", b!"i"] ∧
    (ssaParseLine ⟨288, 288, ⟨1, 1, 1⟩, 0, 0⟩ {} b!"Hi").toOption.map (fun rs => rs.map Raw.text) = some [b!"Hi"] := by decide +kernel

end LibSub
