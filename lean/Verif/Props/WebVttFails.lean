/-
Property C133, third part: how reading a WebVTT file fails, exactly.
-/
import Verif.Props.SubRipFails

namespace LibSub

/-! ### Specification -/

/-- The last lines of `A` are text lines of a cue, of `k` parts altogether. -/
def VCueParts (A : List Str) (k : Nat) : Prop :=
  ∃ A0 m T, ∃ text : List (Str × List Str), A = A0 ++ m :: T ∧ vPlaceAfter A0 = .data ∧ VTimeLine (cleanLine m) ∧ T.map cleanLine = text.map (·.1) ∧
    (∀ x ∈ text, x.1 ≠ [] ∧ LineParts x.1 x.2) ∧ k = (text.flatMap (·.2)).length

/-- How line `l` of a file fails, after the lines `A` and before the lines `B`. -/
inductive VttLineFails (A : List Str) (l : Str) (B : List Str) : Err → Prop
  | header : A = [] → ¬ b!"WEBVTT" <+: cleanLine l → VttLineFails A l B .webvttHeader
  | times (saw ex : Str) (k : Nat) : vPlaceAfter A = .data → VTimeLine (cleanLine l) → BadTimes 46 b!"a time line" (cleanLine l) saw ex k →
      VttLineFails A l B (.webvtt saw ex (lastN 5 ((A ++ [l]).map cleanLine) ++ B.take k))
  | hugeTimes : vPlaceAfter A = .data → VTimeLine (cleanLine l) → HugeTimes 46 (cleanLine l) → VttLineFails A l B (.ub .intOverflow)
  /-- Parts of lines are numbered in an `int`. -/
  | number (k : Nat) (ps : List Str) : vPlaceAfter A = .cue → cleanLine l ≠ [] → VCueParts A k → LineParts (cleanLine l) ps → 2 ^ 31 ≤ k + ps.length →
      VttLineFails A l B (.ub .intOverflow)

/-! ### Steps -/

private theorem vPlaceAfter_snoc (A : List Str) (l : Str) : vPlaceAfter (A ++ [l]) = vPlaceNext (vPlaceAfter A) (cleanLine l) := by
  unfold vPlaceAfter
  rw [List.map_append, List.foldl_append]
  rfl

private theorem vPlaceAfter_nil (A : List Str) : vPlaceAfter A = .header ↔ A = [] := by
  induction A using List.reverseRecOn with
  | nil => exact ⟨fun _ => rfl, fun _ => rfl⟩
  | append_singleton A l ih =>
    rw [vPlaceAfter_snoc]
    refine ⟨fun h => ?_, fun h => by simp at h⟩
    cases hp : vPlaceAfter A <;> rw [hp, vPlaceNext] at h
    · cases h
    · split at h
      · cases h
      · split at h <;> cases h
    · split at h <;> cases h
    · split at h <;> cases h

private theorem vparts (ps : List Str) : ∀ (k : Nat) (rs : Raw) (subs : List Raw), rs.vpos.line = some (k : Int) → k < 2 ^ 31 →
    (k + ps.length < 2 ^ 31 → ∃ q, vttSubLines ps rs subs = .ok q ∧ q.1.vpos.line = some ((k + ps.length : Nat) : Int)) ∧
    (2 ^ 31 ≤ k + ps.length → vttSubLines ps rs subs = .error (.ub .intOverflow)) := by
  induction ps with
  | nil =>
    intro k rs subs hk hb
    exact ⟨fun _ => ⟨_, rfl, hk⟩, fun h => by rw [List.length_nil] at h; omega⟩
  | cons t ps ih =>
    intro k rs subs hk hb
    rw [vttSubLines]
    simp only
    rw [hk, optGet, ok_bind]
    by_cases hb1 : k + 1 < 2 ^ 31
    · rw [ck_ok (by unfold InInt; omega), ok_bind]
      have := ih (k + 1) { rs with text := t, vpos := { rs.vpos with line := some ((k : Int) + 1) } } (subs ++ [{ rs with text := t }]) (by simp) hb1
      rw [List.length_cons, show k + (ps.length + 1) = k + 1 + ps.length by omega]
      exact this
    · have : ck ((k : Int) + 1) = .error (.ub .intOverflow) := if_neg (by unfold InInt; omega)
      rw [this]
      refine ⟨fun h => ?_, fun _ => rfl⟩
      rw [List.length_cons] at h
      omega

private theorem vctx (A : List Str) (l : Str) : pushContext (lastN 5 (A.map cleanLine)) (cleanLine l) = lastN 5 ((A ++ [l]).map cleanLine) := by
  rw [pushContext_lastN, List.map_append]; rfl

private theorem step_header (ctx : List Str) (rs : Raw) (subs : List Raw) (l : Str) (B : List Str) : vttLines .header ctx rs subs (l :: B) =
    if startsWith (cleanLine l) b!"WEBVTT" = true then vttLines .data (pushContext ctx (cleanLine l)) rs subs B else .error .webvttHeader := by
  rw [vttLines]; rfl

private theorem step_data (ctx : List Str) (rs : Raw) (subs : List Raw) (l : Str) (B : List Str) : vttLines .data ctx rs subs (l :: B) =
    if startsWith (cleanLine l) b!"NOTE" = true then vttLines .note (pushContext ctx (cleanLine l)) rs subs B
    else if containsStr b!"-->" (cleanLine l) = true then
      (vttTiming (pushContext ctx (cleanLine l)) (cleanLine l) B rs).bind (fun rs => vttLines .subtitle (pushContext ctx (cleanLine l)) rs subs B)
    else vttLines .data (pushContext ctx (cleanLine l)) rs subs B := by
  rw [vttLines]; rfl

private theorem step_cue (ctx : List Str) (rs : Raw) (subs : List Raw) (l : Str) (B : List Str) : vttLines .subtitle ctx rs subs (l :: B) =
    if cleanLine l = [] then vttLines .data (pushContext ctx (cleanLine l)) rs subs B
    else (vttSubLines (splitStr lineSep (cleanLine l)) rs subs).bind (fun q => vttLines .subtitle (pushContext ctx (cleanLine l)) q.1 q.2 B) := by
  rw [vttLines]; rfl

private theorem step_note (ctx : List Str) (rs : Raw) (subs : List Raw) (l : Str) (B : List Str) : vttLines .note ctx rs subs (l :: B) =
    if cleanLine l = [] then vttLines .data (pushContext ctx (cleanLine l)) rs subs B else vttLines .note (pushContext ctx (cleanLine l)) rs subs B := by
  rw [vttLines]; rfl

private theorem timing_line {l : Str} {rs rs' : Raw} {ctx B : List Str} (h : vttTiming ctx l B rs = .ok rs') : (∀ ctx B, vttTiming ctx l B rs = .ok rs') ∧ rs'.vpos.line = some 0 := by
  have hall : ∀ ctx B, vttTiming ctx l B rs = .ok rs' := by
    rcases times_cases 46 b!"a time line" l with hg | hg | ⟨saw, er, k, hg⟩
    · obtain ⟨r, e⟩ := vttTiming_good (rs := rs) hg
      rw [e] at h
      cases h
      exact e
    · rw [vttTiming_huge hg] at h; cases h
    · rw [vttTiming_bad hg] at h; cases h
  obtain ⟨-, f, t, -, -, rfl⟩ := vttTiming_only (hall [] [])
  exact ⟨hall, rfl⟩

/-- Where the reader is after some lines. -/
theorem vtt_state (A : List Str) (subs : List Raw) (h : vttRead A = .ok subs) : ∃ rs,
    (∀ B, vttRead (A ++ B) = vttLines (vState (vPlaceAfter A)) (lastN 5 (A.map cleanLine)) rs subs B) ∧
    (vPlaceAfter A = .cue → ∃ k : Nat, VCueParts A k ∧ rs.vpos.line = some (k : Int) ∧ k < 2 ^ 31) := by
  induction A using List.reverseRecOn generalizing subs with
  | nil =>
    cases h
    exact ⟨_, fun B => rfl, fun h => by cases h⟩
  | append_singleton A l ih =>
    obtain ⟨s0, h0, -⟩ := vttRead_prefix A [l] subs h
    obtain ⟨rs, h1, h3⟩ := ih s0 h0
    have hall : ∀ B, vttRead (A ++ [l] ++ B) = vttLines (vState (vPlaceAfter A)) (lastN 5 (A.map cleanLine)) rs s0 (l :: B) := by
      intro B
      rw [List.append_assoc, h1]
      rfl
    rw [h1] at h
    rw [vPlaceAfter_snoc]
    cases hp : vPlaceAfter A with
    | header =>
      rw [hp, vState] at h hall
      simp only [step_header, vctx] at h hall
      rcases ite_cases h with ⟨hw, h⟩ | ⟨hw, h⟩
      · cases h
        refine ⟨rs, fun B => ?_, fun h => by cases h⟩
        rw [hall, if_pos hw]
        rfl
      · cases h
    | data =>
      rw [hp, vState] at h hall
      simp only [step_data, vctx] at h hall
      rcases ite_cases h with ⟨hw, h⟩ | ⟨hw, h⟩
      · cases h
        refine ⟨rs, fun B => ?_, fun h => ?_⟩
        · rw [hall, if_pos hw, vPlaceNext, if_pos ((startsWith_prefix ..).1 hw)]
          rfl
        · rw [vPlaceNext, if_pos ((startsWith_prefix ..).1 hw)] at h
          cases h
      · have hw' : ¬ b!"NOTE" <+: cleanLine l := fun h => hw ((startsWith_prefix ..).2 h)
        rcases ite_cases h with ⟨hc, h⟩ | ⟨hc, h⟩
        · obtain ⟨rs', k1, k2⟩ := bind_eq_ok.1 h
          cases k2
          obtain ⟨g1, g2⟩ := timing_line k1
          have hn : vPlaceNext .data (cleanLine l) = .cue := by rw [vPlaceNext, if_neg hw', if_pos (containsStr_iff.1 hc)]
          rw [hn]
          refine ⟨rs', fun B => ?_, fun _ => ⟨0, ⟨A, l, [], [], rfl, hp, ⟨hw', containsStr_iff.1 hc⟩, rfl, by simp, rfl⟩, g2, by decide⟩⟩
          rw [hall, if_neg hw, if_pos hc, g1]
          rfl
        · cases h
          have hn : vPlaceNext .data (cleanLine l) = .data := by rw [vPlaceNext, if_neg hw', if_neg (fun h => hc (containsStr_iff.2 h))]
          rw [hn]
          refine ⟨rs, fun B => ?_, fun h => by cases h⟩
          rw [hall, if_neg hw, if_neg hc]
          rfl
    | note =>
      rw [hp, vState] at h hall
      simp only [step_note, vctx] at h hall
      rw [vPlaceNext]
      rcases ite_cases h with ⟨hw, h⟩ | ⟨hw, h⟩
      · cases h
        rw [if_pos hw]
        exact ⟨rs, fun B => (hall B).trans (if_pos hw), fun h => by cases h⟩
      · cases h
        rw [if_neg hw]
        exact ⟨rs, fun B => (hall B).trans (if_neg hw), fun h => by cases h⟩
    | cue =>
      rw [hp, vState] at h hall
      simp only [step_cue, vctx] at h hall
      rw [vPlaceNext]
      rcases ite_cases h with ⟨hw, h⟩ | ⟨hw, h⟩
      · cases h
        rw [if_pos hw]
        exact ⟨rs, fun B => (hall B).trans (if_pos hw), fun h => by cases h⟩
      · obtain ⟨q, k1, k2⟩ := bind_eq_ok.1 h
        cases k2
        obtain ⟨k, hk, hline, hb⟩ := h3 hp
        obtain ⟨ps, hps⟩ := lineParts_exist (cleanLine l)
        rw [lineParts_split hps] at k1 hall
        have hv := vparts ps k rs s0 hline hb
        have hlt : k + ps.length < 2 ^ 31 := by
          by_contra hge
          rw [hv.2 (by omega)] at k1
          cases k1
        obtain ⟨q', e1, e2⟩ := hv.1 hlt
        rw [k1] at e1
        cases e1
        rw [if_neg hw]
        refine ⟨q.1, fun B => (hall B).trans ?_, fun _ => ⟨k + ps.length, ?_, e2, hlt⟩⟩
        · rw [if_neg hw, k1]
          rfl
        · obtain ⟨A0, m, T, text, rfl, g1, g2, g3, g4, rfl⟩ := hk
          refine ⟨A0, m, T ++ [l], text ++ [(cleanLine l, ps)], by simp, g1, g2, by simp [g3], ?_, by simp⟩
          intro x hx
          rcases List.mem_append.1 hx with hx | hx
          · exact g4 x hx
          · rw [List.mem_singleton] at hx
            rw [hx]
            exact ⟨hw, hps⟩

private theorem place_cue (T : List Str) (h : ∀ l ∈ T, cleanLine l ≠ []) : (T.map cleanLine).foldl vPlaceNext .cue = .cue := by
  induction T with
  | nil => rfl
  | cons l T ih =>
    rw [List.map_cons, List.foldl_cons, vPlaceNext, if_neg (h l (by simp))]
    exact ih (fun x hx => h x (by simp [hx]))

private theorem vCueParts_unique {A : List Str} {k k' : Nat} (h : VCueParts A k) (h' : VCueParts A k') : k = k' := by
  obtain ⟨A0, m, T, text, rfl, h1, v1, h2, h3, rfl⟩ := h
  obtain ⟨B0, m', T', text', e, h1', v1', h2', h3', rfl⟩ := h'
  have key : ∀ (A0 B0 T T' : List Str) (m m' : Str) (text : List (Str × List Str)), A0 ++ m :: T = B0 ++ m' :: T' → vPlaceAfter A0 = .data → VTimeLine (cleanLine m) → vPlaceAfter B0 = .data →
      T.map cleanLine = text.map (·.1) → (∀ x ∈ text, x.1 ≠ [] ∧ LineParts x.1 x.2) → B0.length ≤ A0.length := by
    intro A0 B0 T T' m m' text e p1 v1 p2 g1 g2
    rcases List.append_eq_append_iff.1 e with ⟨Z, rfl, hz⟩ | ⟨Z, rfl, hz⟩
    · cases Z with
      | nil => simp
      | cons z Z =>
        exfalso
        injection hz with hz1 hz2
        subst hz1
        have : vPlaceAfter (A0 ++ m :: Z) = .cue := by
          unfold vPlaceAfter at p1 ⊢
          rw [List.map_append, List.foldl_append, p1, List.map_cons, List.foldl_cons, vPlaceNext, if_neg v1.1, if_pos v1.2, place_cue]
          intro l hl
          have : cleanLine l ∈ T.map cleanLine := List.mem_map_of_mem (by rw [hz2]; simp [hl])
          rw [g1] at this
          obtain ⟨x, hx, hx'⟩ := List.mem_map.1 this
          rw [← hx']
          exact (g2 x hx).1
        rw [p2] at this
        cases this
    · simp
  have hl : A0.length = B0.length := Nat.le_antisymm (key B0 A0 T' T m' m text' e.symm h1' v1' h1 h2' h3') (key A0 B0 T T' m m' text e h1 v1 h1' h2 h3)
  obtain ⟨-, e2⟩ := List.append_inj e hl
  injection e2 with _ e3
  subst e3
  rw [texts_unique (h2.symm.trans h2') (fun x hx => (h3 x hx).2) (fun x hx => (h3' x hx).2)]

/-! ### C133, WebVTT -/

/-- C133: a WebVTT file cannot be read, for reason `e`, exactly if it has a line that fails for that reason after lines that can be read. -/
theorem C133_vtt (lines : List Str) (e : Err) :
    vttRead lines = .error e ↔ ∃ A l B subs, lines = A ++ l :: B ∧ vttRead A = .ok subs ∧ VttLineFails A l B e := by
  constructor
  · intro h
    obtain ⟨A, l, B, rfl, ⟨subs, hA⟩, hbad⟩ := first_bad vttRead ⟨[], rfl⟩ lines (fun x hx => by rw [h] at hx; cases hx)
    refine ⟨A, l, B, subs, rfl, hA, ?_⟩
    obtain ⟨rs, h1, h3⟩ := vtt_state A subs hA
    rw [h1] at h hbad
    cases hp : vPlaceAfter A with
    | header =>
      have := (vPlaceAfter_nil A).1 hp
      rw [hp, vState, step_header] at h hbad
      rcases ite_cases h with ⟨hw, h⟩ | ⟨hw, h⟩
      · exact absurd (if_pos hw) (hbad subs)
      · cases h
        exact .header this (fun h => hw ((startsWith_prefix ..).2 h))
    | data =>
      rw [hp, vState, step_data, vctx] at h hbad
      rcases ite_cases h with ⟨hw, h⟩ | ⟨hw, h⟩
      · exact absurd (if_pos hw) (hbad subs)
      · rw [if_neg hw] at hbad
        rcases ite_cases h with ⟨hc, h⟩ | ⟨hc, h⟩
        · rw [if_pos hc] at hbad
          have hv : VTimeLine (cleanLine l) := ⟨fun h => hw ((startsWith_prefix ..).2 h), containsStr_iff.1 hc⟩
          rcases times_cases 46 b!"a time line" (cleanLine l) with hg | hg | ⟨saw, er, k, hg⟩
          · obtain ⟨r, e⟩ := vttTiming_good (rs := rs) hg
            rw [e] at hbad
            exact absurd rfl (hbad subs)
          · rw [vttTiming_huge hg] at h
            cases h
            exact .hugeTimes hp hv hg
          · rw [vttTiming_bad hg] at h
            cases h
            exact .times saw er k hp hv hg
        · exact absurd (if_neg hc) (hbad subs)
    | note =>
      rw [hp, vState, step_note] at hbad
      by_cases hw : cleanLine l = []
      · exact absurd (if_pos hw) (hbad subs)
      · exact absurd (if_neg hw) (hbad subs)
    | cue =>
      rw [hp, vState, step_cue] at h hbad
      rcases ite_cases h with ⟨hw, h⟩ | ⟨hw, h⟩
      · exact absurd (if_pos hw) (hbad subs)
      · rw [if_neg hw] at hbad
        obtain ⟨k, hk, hline, hb⟩ := h3 hp
        obtain ⟨ps, hps⟩ := lineParts_exist (cleanLine l)
        rw [lineParts_split hps] at h hbad
        have hv := vparts ps k rs subs hline hb
        by_cases hlt : k + ps.length < 2 ^ 31
        · obtain ⟨q, e1, e2⟩ := hv.1 hlt
          rw [e1] at hbad
          exact absurd rfl (hbad q.2)
        · rw [hv.2 (by omega)] at h
          cases h
          exact .number k ps hp hw hk hps (by omega)
  · rintro ⟨A, l, B, subs, rfl, hA, h⟩
    obtain ⟨rs, h1, h3⟩ := vtt_state A subs hA
    cases h with
    | header hn hw =>
      subst hn
      rw [h1]
      show vttLines .header _ _ _ _ = _
      rw [step_header, if_neg (fun h => hw ((startsWith_prefix ..).1 h))]
    | times saw ex k hp hv hb => exact C98_reported A subs hA hp l hv B saw ex k hb
    | hugeTimes hp hv hb =>
      rw [h1, hp, vState, step_data, if_neg (fun h => hv.1 ((startsWith_prefix ..).1 h)), if_pos (containsStr_iff.2 hv.2), vttTiming_huge hb]
      rfl
    | number k ps hp hl hk hps hge =>
      obtain ⟨k', hk', hline, hb⟩ := h3 hp
      have := vCueParts_unique hk hk'
      subst this
      rw [h1, hp, vState, step_cue, if_neg hl, lineParts_split hps, (vparts ps k rs subs hline hb).2 hge]
      rfl

/-- Not a WebVTT file, numbers too large, and a time without hours after a cue without text. -/
example : (∀ B, vttRead (b!"1" :: B) = .error .webvttHeader) ∧ (∀ B, vttRead (b!"WEBVTT" :: b!"600000:00:00.000 --> 600000:00:01.000" :: B) = .error (.ub .intOverflow)) ∧
    ∃ A l B subs, [b!"WEBVTT - x", b!"0:0:1.0 --> 0:0:2.0", b!"", b!"0:1.0 --> 0:0:2.0"] = A ++ l :: B ∧ vttRead A = .ok subs ∧
      VttLineFails A l B (.webvtt b!"0:1.0" b!"time in the format h:m:s,ms" [b!"WEBVTT - x", b!"0:0:1.0 --> 0:0:2.0", b!"", b!"0:1.0 --> 0:0:2.0"]) :=
  ⟨fun B => (C133_vtt _ _).2 ⟨[], _, B, [], rfl, rfl, .header rfl (by decide)⟩,
    fun B => (C133_vtt _ _).2 ⟨[b!"WEBVTT"], _, B, [], rfl, rfl, .hugeTimes (by decide +kernel) ⟨by decide +kernel, by decide +kernel⟩
      ((C98_undefined_iff [b!"WEBVTT"] [] rfl (by decide +kernel) b!"600000:00:00.000 --> 600000:00:01.000" ⟨by decide +kernel, by decide +kernel⟩).1 (by decide +kernel))⟩,
    (C133_vtt _ _).1 (by decide +kernel)⟩

end LibSub
