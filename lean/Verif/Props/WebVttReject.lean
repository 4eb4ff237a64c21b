/-
Property C98: which WebVTT time lines are accepted, and what is said of the others.
-/
import Verif.Props.SubRipReject
import Verif.Props.WebVtt

namespace LibSub

/-! ### Specification -/

/-- Where a reader is in a WebVTT file. -/
inductive VPlace where
  /-- the header is expected -/
  | header
  /-- between cues and notes -/
  | data
  /-- in the text of a cue -/
  | cue
  /-- in a note -/
  | note
  deriving DecidableEq, Repr

/-- The place after one line. -/
def vPlaceNext : VPlace → Str → VPlace
  | .header, _ => .data
  | .data, l => if b!"NOTE" <+: l then .note else if b!"-->" <:+: l then .cue else .data
  | .cue, l => if l = [] then .data else .cue
  | .note, l => if l = [] then .data else .note

/-- The place after some lines, without line ends and byte order marks. -/
def vPlaceAfter (ls : List Str) : VPlace := (ls.map cleanLine).foldl vPlaceNext .header

/-- A line looked at as a time line. -/
def VTimeLine (l : Str) : Prop := ¬ b!"NOTE" <+: l ∧ b!"-->" <:+: l

/-- A time stamp of the WebVTT standard: hours (optional, at least two digits), minutes and seconds (two digits, at most 59),
milliseconds (three digits). -/
structure VttStamp where
  hours : Option Str
  minutes : Byte × Byte
  seconds : Byte × Byte
  millis : Byte × Byte × Byte

/-- A decimal digit. -/
abbrev Digit (c : Byte) : Prop := c ∈ b!"0123456789"

def VttStamp.Standard (t : VttStamp) : Prop :=
  (∀ h ∈ t.hours, 2 ≤ h.length ∧ ∀ c ∈ h, Digit c) ∧ t.minutes.1 ∈ b!"012345" ∧ Digit t.minutes.2 ∧ t.seconds.1 ∈ b!"012345" ∧ Digit t.seconds.2 ∧
    Digit t.millis.1 ∧ Digit t.millis.2.1 ∧ Digit t.millis.2.2

def VttStamp.text (t : VttStamp) : Str :=
  (match t.hours with | some h => h ++ [58] | none => []) ++ [t.minutes.1, t.minutes.2] ++ 58 :: ([t.seconds.1, t.seconds.2] ++ 46 :: [t.millis.1, t.millis.2.1, t.millis.2.2])

/-- Words with a space between each and the next. -/
def joinSpaces : List Str → Str
  | [] => []
  | [w] => w
  | w :: ws => w ++ 32 :: joinSpaces ws

/-- A time line of the standard: two time stamps with an arrow between, then any settings (with single spaces between). -/
def vttTimeLine (t1 t2 : VttStamp) (settings : List Str) : Str := joinSpaces (t1.text :: b!"-->" :: t2.text :: settings)

/-- A setting has no spaces, line ends or arrows in it (and is not empty). -/
def VttSetting (s : Str) : Prop := s ≠ [] ∧ (32 : Byte) ∉ s ∧ (10 : Byte) ∉ s ∧ (13 : Byte) ∉ s ∧ ¬ b!"-->" <:+: s

/-! ### The time line -/

theorem vttTiming_good {l : Str} {rs : Raw} (h : GoodTimes 46 l) : ∃ rs', ∀ ctx rest, vttTiming ctx l rest rs = .ok rs' := by
  obtain ⟨hw, h0, h2⟩ := h
  obtain ⟨t0, e0⟩ := convertTime_stamp (by decide) h0
  obtain ⟨t2, e2⟩ := convertTime_stamp (by decide) h2
  refine ⟨{ rs with from_ := t0, to_ := t2, vpos := { rs.vpos with line := some 0 } }, fun ctx rest => ?_⟩
  unfold vttTiming
  simp only [words_eq]
  rw [if_neg (by omega), e0]
  simp only [ok_bind]
  rw [e2]
  rfl

theorem vttTiming_huge {ctx : List Str} {l : Str} {rest : List Str} {rs : Raw} (h : HugeTimes 46 l) :
    vttTiming ctx l rest rs = .error (.ub .intOverflow) := by
  obtain ⟨hw, h0⟩ := h
  unfold vttTiming
  simp only [words_eq]
  rw [if_neg (by omega)]
  rcases h0 with h0 | ⟨h0, h2⟩
  · rw [convertTime_overflows (by decide) h0]
    rfl
  · obtain ⟨t0, e0⟩ := convertTime_stamp (by decide) h0
    rw [e0]
    simp only [ok_bind]
    rw [convertTime_overflows (by decide) h2]
    rfl

theorem vttTiming_bad {ctx : List Str} {l saw e : Str} {k : Nat} {rest : List Str} {rs : Raw}
    (h : BadTimes 46 b!"a time line" l saw e k) :
    vttTiming ctx l rest rs = .error (.webvtt saw e (ctx ++ rest.take k)) := by
  unfold vttTiming
  simp only [words_eq]
  cases h with
  | words _ j e hl h3 h7 =>
    rw [if_pos ⟨h3, h7⟩, trim_unique l saw j e hl]
  | first _ hw h0 =>
    rw [if_neg (by omega), convertTime_diagnosis (by decide) h0]
    simp
  | second _ hw h0 h2 =>
    obtain ⟨t0, e0⟩ := convertTime_stamp (by decide) h0
    rw [if_neg (by omega), e0]
    simp only [ok_bind]
    rw [convertTime_diagnosis (by decide) h2]
    simp

/-! ### Reading on -/

theorem startsWith_prefix (s p : Str) : startsWith s p = true ↔ p <+: s := startsWith_iff ..

def vState : VPlace → VttState
  | .header => .header
  | .data => .data
  | .cue => .subtitle
  | .note => .note

theorem vcompose (p : VPlace) (C : List Str) (rs : Raw) (subs : List Raw) (A : List Str) (r : List Raw)
    (h : vttLines (vState p) (lastN 5 (C.map cleanLine)) rs subs A = .ok r) :
    ∃ rs', ∀ B, vttLines (vState p) (lastN 5 (C.map cleanLine)) rs subs (A ++ B) =
      vttLines (vState ((A.map cleanLine).foldl vPlaceNext p)) (lastN 5 ((C ++ A).map cleanLine)) rs' r B := by
  induction A generalizing p C rs subs with
  | nil =>
    cases h
    exact ⟨rs, fun B => by simp⟩
  | cons l A ih =>
    have hctx : pushContext (lastN 5 (C.map cleanLine)) (cleanLine l) = lastN 5 ((C ++ [l]).map cleanLine) := by
      rw [pushContext_lastN, List.map_append]; rfl
    have step : ∀ (p' : VPlace) (rs' : Raw) (subs' : List Raw), vPlaceNext p (cleanLine l) = p' →
        (∀ ls', vttLines (vState p) (lastN 5 (C.map cleanLine)) rs subs (l :: ls') =
          vttLines (vState p') (lastN 5 ((C ++ [l]).map cleanLine)) rs' subs' ls') →
        ∃ rs', ∀ B, vttLines (vState p) (lastN 5 (C.map cleanLine)) rs subs (l :: A ++ B) =
          vttLines (vState (((l :: A).map cleanLine).foldl vPlaceNext p)) (lastN 5 ((C ++ l :: A).map cleanLine)) rs' r B := by
      intro p' rs' subs' hp hs
      obtain ⟨rs2, h2⟩ := ih p' (C ++ [l]) rs' subs' (by rw [← hs]; exact h)
      refine ⟨rs2, fun B => ?_⟩
      rw [List.cons_append, hs, h2, List.map_cons, List.foldl_cons, hp, show C ++ [l] ++ A = C ++ l :: A by simp]
    cases p with
    | header =>
      have e : ∀ ls', vttLines .header (lastN 5 (C.map cleanLine)) rs subs (l :: ls') =
          if startsWith (cleanLine l) b!"WEBVTT" = true then vttLines .data (lastN 5 ((C ++ [l]).map cleanLine)) rs subs ls' else .error .webvttHeader := by
        intro ls'
        rw [← hctx, vttLines]
        rfl
      by_cases hl : startsWith (cleanLine l) b!"WEBVTT" = true
      · exact step .data rs subs rfl fun ls' => by rw [vState, e, if_pos hl]; rfl
      · rw [vState, e, if_neg hl] at h
        cases h
    | data =>
      have e : ∀ ls', vttLines .data (lastN 5 (C.map cleanLine)) rs subs (l :: ls') =
          if startsWith (cleanLine l) b!"NOTE" = true then vttLines .note (lastN 5 ((C ++ [l]).map cleanLine)) rs subs ls'
          else if containsStr b!"-->" (cleanLine l) = true then
            (vttTiming (lastN 5 ((C ++ [l]).map cleanLine)) (cleanLine l) ls' rs).bind (fun rs => vttLines .subtitle (lastN 5 ((C ++ [l]).map cleanLine)) rs subs ls')
          else vttLines .data (lastN 5 ((C ++ [l]).map cleanLine)) rs subs ls' := by
        intro ls'
        rw [← hctx, vttLines]
        rfl
      by_cases hl : startsWith (cleanLine l) b!"NOTE" = true
      · exact step .note rs subs (if_pos ((startsWith_prefix ..).1 hl)) fun ls' => by rw [vState, e, if_pos hl]; rfl
      · have hl' : ¬ b!"NOTE" <+: cleanLine l := fun h => hl ((startsWith_prefix ..).2 h)
        by_cases hc : containsStr b!"-->" (cleanLine l) = true
        · have h' := h
          rw [vState, e, if_neg hl, if_pos hc] at h'
          rcases times_cases 46 b!"a time line" (cleanLine l) with hg | hg | ⟨saw, er, k, hg⟩
          · obtain ⟨rs', e'⟩ := vttTiming_good (rs := rs) hg
            refine step .cue rs' subs ?_ fun ls' => ?_
            · rw [vPlaceNext, if_neg hl', if_pos ((containsStr_iff).1 hc)]
            · rw [vState, e, if_neg hl, if_pos hc, e']
              rfl
          · rw [vttTiming_huge hg] at h'; cases h'
          · rw [vttTiming_bad hg] at h'; cases h'
        · refine step .data rs subs ?_ fun ls' => ?_
          · rw [vPlaceNext, if_neg hl', if_neg (fun h => hc ((containsStr_iff).2 h))]
          · rw [vState, e, if_neg hl, if_neg hc]
    | cue =>
      have e : ∀ ls', vttLines .subtitle (lastN 5 (C.map cleanLine)) rs subs (l :: ls') =
          if cleanLine l = [] then vttLines .data (lastN 5 ((C ++ [l]).map cleanLine)) rs subs ls'
          else (vttSubLines (splitStr lineSep (cleanLine l)) rs subs).bind (fun q => vttLines .subtitle (lastN 5 ((C ++ [l]).map cleanLine)) q.1 q.2 ls') := by
        intro ls'
        rw [← hctx, vttLines]
        rfl
      by_cases hl : cleanLine l = []
      · exact step .data rs subs (if_pos hl) fun ls' => (e ls').trans (if_pos hl)
      · have h' := h
        rw [vState, e, if_neg hl] at h'
        cases hm : vttSubLines (splitStr lineSep (cleanLine l)) rs subs with
        | error er => rw [hm] at h'; cases h'
        | ok q => exact step .cue q.1 q.2 (if_neg hl) fun ls' => by rw [vState, e, if_neg hl, hm]; rfl
    | note =>
      have e : ∀ ls', vttLines .note (lastN 5 (C.map cleanLine)) rs subs (l :: ls') =
          if cleanLine l = [] then vttLines .data (lastN 5 ((C ++ [l]).map cleanLine)) rs subs ls'
          else vttLines .note (lastN 5 ((C ++ [l]).map cleanLine)) rs subs ls' := by
        intro ls'
        rw [← hctx, vttLines]
        rfl
      by_cases hl : cleanLine l = []
      · exact step .data rs subs (if_pos hl) fun ls' => (e ls').trans (if_pos hl)
      · exact step .note rs subs (if_neg hl) fun ls' => by rw [vState, e, if_neg hl]

/-- What happens at a time line. -/
private theorem at_vtimes (A : List Str) (subs : List Raw) (hA : vttRead A = .ok subs) (hp : vPlaceAfter A = .data) :
    ∃ rs, ∀ l B, VTimeLine (cleanLine l) → vttRead (A ++ l :: B) =
      (vttTiming (lastN 5 ((A ++ [l]).map cleanLine)) (cleanLine l) B rs).bind
        (fun rs => vttLines .subtitle (lastN 5 ((A ++ [l]).map cleanLine)) rs subs B) := by
  obtain ⟨rs, h⟩ := vcompose .header [] _ [] A subs hA
  refine ⟨rs, fun l B hl => ?_⟩
  have hctx : pushContext (lastN 5 (A.map cleanLine)) (cleanLine l) = lastN 5 ((A ++ [l]).map cleanLine) := by
    rw [pushContext_lastN, List.map_append]; rfl
  have := h (l :: B)
  rw [show (A.map cleanLine).foldl vPlaceNext .header = .data from hp, List.nil_append] at this
  refine this.trans ?_
  rw [← hctx, vState, vttLines]
  refine (if_neg (fun h => hl.1 ((startsWith_prefix ..).1 h))).trans ?_
  exact if_pos ((containsStr_iff).2 hl.2)

private theorem vttSubLines_own (ts : List Str) (rs : Raw) (subs : List Raw) (saw e : Str) (ctx : List Str) :
    vttSubLines ts rs subs ≠ .error (.webvtt saw e ctx) := by
  induction ts generalizing rs subs with
  | nil => intro h; cases h
  | cons t ts ih =>
    rw [vttSubLines]
    intro h
    cases hl : rs.vpos.line with
    | none => rw [hl] at h; cases h
    | some n =>
      rw [hl] at h
      simp only [optGet, ok_bind] at h
      unfold ck at h
      split at h
      · exact ih _ _ h
      · cases h

/-! ### C98 -/

/-- C98: between cues, a line with an arrow that is not a good time line is reported, whatever follows. -/
theorem C98_reported (A : List Str) (subs : List Raw) (hA : vttRead A = .ok subs) (hp : vPlaceAfter A = .data) (l : Str) (hl : VTimeLine (cleanLine l))
    (B : List Str) (saw e : Str) (k : Nat) (h : BadTimes 46 b!"a time line" (cleanLine l) saw e k) :
    vttRead (A ++ l :: B) = .error (.webvtt saw e (lastN 5 ((A ++ [l]).map cleanLine) ++ B.take k)) := by
  obtain ⟨rs, hr⟩ := at_vtimes A subs hA hp
  rw [hr l B hl, vttTiming_bad h]
  rfl

/-- A comma in place of the point. -/
example : ∀ B, vttRead ([b!"WEBVTT", b!"", b!"first"] ++ b!"00:00:01,000 --> 00:00:02.000" :: B) =
    .error (.webvtt b!"00:00:01,000" b!"time in the format h:m:s.ms" [b!"WEBVTT", b!"", b!"first", b!"00:00:01,000 --> 00:00:02.000"]) :=
  fun B => C98_reported _ [] rfl (by decide +kernel) _ ⟨by decide +kernel, by decide +kernel⟩ B _ _ 0
    (.first _ (by decide +kernel) (.separators b!"00" b!"00" b!"01,000" (by decide +kernel) (by decide) (by decide) (by decide) (by decide)))

/-- C98: between cues, a line with an arrow is accepted if and only if it is a good time line. -/
theorem C98_accepted_iff (A : List Str) (subs : List Raw) (hA : vttRead A = .ok subs) (hp : vPlaceAfter A = .data) (l : Str) (hl : VTimeLine (cleanLine l)) :
    vttRead (A ++ [l]) = .ok subs ↔ GoodTimes 46 (cleanLine l) := by
  obtain ⟨rs, hr⟩ := at_vtimes A subs hA hp
  constructor
  · intro h
    rcases times_cases 46 b!"a time line" (cleanLine l) with hg | hg | ⟨saw, e, k, hg⟩
    · exact hg
    · rw [hr l [] hl, vttTiming_huge hg] at h; cases h
    · rw [hr l [] hl, vttTiming_bad hg] at h; cases h
  · intro h
    obtain ⟨rs', e⟩ := vttTiming_good (rs := rs) h
    rw [hr l [] hl, e]
    rfl

/-- C98: between cues, the behaviour is undefined at a line with an arrow if and only if its numbers are too large. -/
theorem C98_undefined_iff (A : List Str) (subs : List Raw) (hA : vttRead A = .ok subs) (hp : vPlaceAfter A = .data) (l : Str) (hl : VTimeLine (cleanLine l)) :
    vttRead (A ++ [l]) = .error (.ub .intOverflow) ↔ HugeTimes 46 (cleanLine l) := by
  obtain ⟨rs, hr⟩ := at_vtimes A subs hA hp
  constructor
  · intro h
    rcases times_cases 46 b!"a time line" (cleanLine l) with hg | hg | ⟨saw, e, k, hg⟩
    · rw [(C98_accepted_iff A subs hA hp l hl).2 hg] at h; cases h
    · exact hg
    · rw [hr l [] hl, vttTiming_bad hg] at h; cases h
  · intro h
    rw [hr l [] hl, vttTiming_huge h]
    rfl

example : HugeTimes 46 b!"600000:00:00.000 --> 600000:00:01.000" :=
  (C98_undefined_iff [b!"WEBVTT"] [] rfl (by decide +kernel) b!"600000:00:00.000 --> 600000:00:01.000" ⟨by decide +kernel, by decide +kernel⟩).1 (by decide +kernel)

/-- The first line that is not accepted. -/
theorem first_bad (f : List Str → R (List Raw)) (h0 : ∃ x, f [] = .ok x) (lines : List Str) (h : ∀ x, f lines ≠ .ok x) :
    ∃ A l B, lines = A ++ l :: B ∧ (∃ x, f A = .ok x) ∧ ∀ x, f (A ++ [l]) ≠ .ok x := by
  induction lines using List.reverseRecOn with
  | nil => obtain ⟨x, hx⟩ := h0; exact absurd hx (h x)
  | append_singleton L y ih =>
    cases e : f L with
    | ok x => exact ⟨L, y, [], rfl, ⟨x, e⟩, h⟩
    | error er =>
      obtain ⟨A, l, B, h1, h2, h3⟩ := ih (fun x hx => by rw [e] at hx; cases hx)
      exact ⟨A, l, B ++ [y], by rw [h1]; simp, h2, h3⟩

/-- C98: the reader raises its exception about a time line if and only if some line, after lines in which nothing is wrong, between cues,
with an arrow in it, is a bad time line; the exception quotes that line and what is wrong with it. -/
theorem C98_rejected_iff (lines : List Str) (saw e : Str) (ctx : List Str) :
    vttRead lines = .error (.webvtt saw e ctx) ↔
      ∃ A l B subs k, lines = A ++ l :: B ∧ vttRead A = .ok subs ∧ vPlaceAfter A = .data ∧ VTimeLine (cleanLine l) ∧
        BadTimes 46 b!"a time line" (cleanLine l) saw e k ∧ ctx = lastN 5 ((A ++ [l]).map cleanLine) ++ B.take k := by
  constructor
  · intro h
    obtain ⟨A, l, B, hl, ⟨subs, hA⟩, hbad⟩ := first_bad vttRead ⟨[], rfl⟩ lines (fun x hx => by rw [h] at hx; cases hx)
    obtain ⟨rs, hc⟩ := vcompose .header [] _ [] A subs hA
    have hctx : pushContext (lastN 5 (A.map cleanLine)) (cleanLine l) = lastN 5 ((A ++ [l]).map cleanLine) := by
      rw [pushContext_lastN, List.map_append]; rfl
    have hc' : ∀ B, vttRead (A ++ l :: B) = vttLines (vState (vPlaceAfter A)) (lastN 5 (A.map cleanLine)) rs subs (l :: B) := by
      intro B
      have := hc (l :: B)
      rw [List.nil_append] at this
      exact this
    have hb : ∀ r, vttRead (A ++ [l]) = .ok r → False := fun r hr => hbad r hr
    subst hl
    cases hp : vPlaceAfter A with
    | header =>
      rw [hc', hp, vState, vttLines] at h
      rw [hc', hp, vState, vttLines] at hb
      try simp only at h hb
      split at h
      · rename_i hw
        rw [if_pos hw] at hb
        exact (hb _ rfl).elim
      · cases h
    | note =>
      rw [hc', hp, vState, vttLines] at hb
      try simp only at hb
      split at hb <;> exact (hb _ rfl).elim
    | cue =>
      rw [hc', hp, vState, vttLines] at h hb
      try simp only at h hb
      split at h
      · rename_i hw
        rw [if_pos hw] at hb
        exact (hb _ rfl).elim
      · rename_i hw
        rw [if_neg hw] at hb
        cases hq : vttSubLines (splitStr lineSep (removeBom (trimRightIf isNlCr l))) rs subs with
        | error er =>
          rw [hq] at h
          cases h
          exact absurd hq (vttSubLines_own _ _ _ _ _ _)
        | ok q => rw [hq] at hb; exact (hb _ rfl).elim
    | data =>
      by_cases hv : VTimeLine (cleanLine l)
      · obtain ⟨rs', hr⟩ := at_vtimes A subs hA hp
        rcases times_cases 46 b!"a time line" (cleanLine l) with hg | hg | ⟨saw', e', k, hg⟩
        · exact (hb _ ((C98_accepted_iff A subs hA hp l hv).2 hg)).elim
        · rw [hr l B hv, vttTiming_huge hg] at h; cases h
        · have := C98_reported A subs hA hp l hv B saw' e' k hg
          rw [this] at h
          cases h
          exact ⟨A, l, B, subs, k, rfl, hA, hp, hv, hg, rfl⟩
      · rw [hc', hp, vState, vttLines] at hb
        try simp only at hb
        split at hb
        · exact (hb _ rfl).elim
        · rename_i hn
          have hq : ¬ containsStr b!"-->" (removeBom (trimRightIf isNlCr l)) = true :=
            fun hc => hv ⟨fun h => hn ((startsWith_prefix ..).2 h), containsStr_iff.1 hc⟩
          rw [if_neg hq] at hb
          exact (hb _ rfl).elim
  · rintro ⟨A, l, B, subs, k, rfl, hA, hp, hv, hg, rfl⟩
    exact C98_reported A subs hA hp l hv B saw e k hg

/-- The file of the example above, seen from the exception. -/
example : ∃ A l B subs k, [b!"WEBVTT", b!"", b!"first", b!"00:00:01,000 --> 00:00:02.000", b!"x"] = A ++ l :: B ∧ vttRead A = .ok subs ∧ vPlaceAfter A = .data ∧
    VTimeLine (cleanLine l) ∧ BadTimes 46 b!"a time line" (cleanLine l) b!"00:00:01,000" b!"time in the format h:m:s.ms" k ∧
    [b!"WEBVTT", b!"", b!"first", b!"00:00:01,000 --> 00:00:02.000"] = lastN 5 ((A ++ [l]).map cleanLine) ++ B.take k :=
  (C98_rejected_iff _ _ _ _).1 (by decide +kernel)

/-! ### Time lines of the standard -/

theorem wordsOf_join (ws : List Str) (hne : ws ≠ []) (h : ∀ w ∈ ws, w ≠ [] ∧ (32 : Byte) ∉ w) : wordsOf (joinSpaces ws) = ws := by
  have ns : ∀ {w : Str}, (32 : Byte) ∉ w → ∀ x ∈ w, (x == 32) = false := by
    intro w hw x hx
    simp only [beq_eq_false_iff_ne]
    rintro rfl
    exact hw hx
  have hd : joinSpaces ws ≠ [] ∧ (joinSpaces ws).head? ≠ some 32 := by
    match ws, hne with
    | [w], _ =>
      obtain ⟨h1, h2⟩ := h w (by simp)
      exact ⟨h1, fun e => h2 (List.mem_of_mem_head? e)⟩
    | w :: v :: ws, _ =>
      obtain ⟨h1, h2⟩ := h w (by simp)
      cases w with
      | nil => exact absurd rfl h1
      | cons c cs =>
        refine ⟨by simp [joinSpaces], ?_⟩
        simp only [joinSpaces, List.cons_append, List.head?_cons, ne_eq, Option.some.injEq]
        rintro rfl
        simp at h2
  have hs : (joinSpaces ws).splitOnP (· == 32) = ws := by
    clear hd
    induction ws with
    | nil => exact absurd rfl hne
    | cons w ws ih =>
      cases ws with
      | nil => exact List.splitOnP_eq_singleton (ns (h w (by simp)).2)
      | cons v ws =>
        rw [joinSpaces, List.splitOnP_append_cons_of_forall_mem (ns (h w (by simp)).2) _ (by decide), ih (by simp) (fun w hw => h w (by simp [hw]))]
        simp
  unfold wordsOf
  rw [if_neg (by rintro (e | e); exacts [hd.1 e, hd.2 e]), hs, List.nil_append, List.filter_eq_self]
  intro w hw
  simpa using (h w hw).1

private theorem mem_join {ws : List Str} {x : Byte} (h : x ∈ joinSpaces ws) : x = 32 ∨ ∃ w ∈ ws, x ∈ w := by
  induction ws with
  | nil => cases h
  | cons w ws ih =>
    cases ws with
    | nil => exact .inr ⟨w, by simp, h⟩
    | cons v ws =>
      rw [joinSpaces, List.mem_append, List.mem_cons] at h <;> try (simp; done)
      rcases h with h | h | h
      · exact .inr ⟨w, by simp, h⟩
      · exact .inl h
      · rcases ih h with h | ⟨u, hu, h⟩
        · exact .inl h
        · exact .inr ⟨u, by simp [hu], h⟩

private theorem digit_six {c : Byte} (h : c ∈ b!"012345") : Digit c := by
  unfold Digit
  simp at h ⊢
  tauto

private theorem stamp_bytes {t : VttStamp} (h : t.Standard) : ∀ c ∈ t.text, Digit c ∨ c = 58 ∨ c = 46 := by
  obtain ⟨h1, h2, h3, h4, h5, h6, h7, h8⟩ := h
  have h2' := digit_six h2
  have h4' := digit_six h4
  intro c hc
  unfold VttStamp.text at hc
  simp only [List.mem_append, List.mem_cons, List.not_mem_nil, or_false] at hc
  rcases hc with (hc | rfl | rfl) | rfl | (rfl | rfl) | rfl | rfl | rfl | rfl
  · cases hh : t.hours with
    | none => rw [hh] at hc; cases hc
    | some h =>
      rw [hh] at hc
      simp only [List.mem_append, List.mem_singleton] at hc
      rcases hc with hc | rfl
      · exact .inl ((h1 h hh).2 c hc)
      · exact .inr (.inl rfl)
  all_goals first | (exact .inl (by assumption)) | exact .inr (.inl rfl) | exact .inr (.inr rfl)

private theorem stamp_ne {t : VttStamp} : t.text ≠ [] := by
  unfold VttStamp.text
  simp

private theorem not_special {c : Byte} (h : Digit c ∨ c = 58 ∨ c = 46) : c ≠ 32 ∧ c ≠ 10 ∧ c ≠ 13 ∧ c ≠ 0xEF ∧ c ≠ 78 :=
  forall_byte (p := fun c => (c ∈ b!"0123456789" ∨ c = 58 ∨ c = 46) → c ≠ 32 ∧ c ≠ 10 ∧ c ≠ 13 ∧ c ≠ 0xEF ∧ c ≠ 78) (by decide +kernel) c h

private theorem line_words {t1 t2 : VttStamp} {settings : List Str} (h1 : t1.Standard) (h2 : t2.Standard) (hs : ∀ x ∈ settings, VttSetting x) :
    wordsOf (vttTimeLine t1 t2 settings) = t1.text :: b!"-->" :: t2.text :: settings := by
  refine wordsOf_join _ (by simp) ?_
  intro w hw
  simp only [List.mem_cons] at hw
  rcases hw with rfl | rfl | rfl | hw
  · exact ⟨stamp_ne, fun h => (not_special (stamp_bytes h1 _ h)).1 rfl⟩
  · decide
  · exact ⟨stamp_ne, fun h => (not_special (stamp_bytes h2 _ h)).1 rfl⟩
  · exact ⟨(hs w hw).1, (hs w hw).2.1⟩

private theorem line_bytes {t1 t2 : VttStamp} {settings : List Str} (h1 : t1.Standard) (h2 : t2.Standard) (hs : ∀ x ∈ settings, VttSetting x) :
    (10 : Byte) ∉ vttTimeLine t1 t2 settings ∧ (13 : Byte) ∉ vttTimeLine t1 t2 settings := by
  constructor
  all_goals
    intro h
    rcases mem_join h with h | ⟨w, hw, h⟩
    · cases h
    · simp only [List.mem_cons] at hw
      rcases hw with rfl | rfl | rfl | hw
      · have := not_special (stamp_bytes h1 _ h)
        simp at this
      · simp at h
      · have := not_special (stamp_bytes h2 _ h)
        simp at this
      · have := hs w hw
        simp_all [VttSetting]

private theorem line_head {t1 t2 : VttStamp} {settings : List Str} (h1 : t1.Standard) :
    ∃ c r, vttTimeLine t1 t2 settings = c :: r ∧ c ≠ 0xEF ∧ c ≠ 78 := by
  have hb := stamp_bytes h1
  cases ht : t1.text with
  | nil => exact absurd ht stamp_ne
  | cons c r =>
    rw [ht] at hb
    have := not_special (hb c (by simp))
    refine ⟨c, r ++ 32 :: joinSpaces (b!"-->" :: t2.text :: settings), ?_, this.2.2.2.1, this.2.2.2.2⟩
    unfold vttTimeLine
    rw [joinSpaces, ht]
    · rfl
    · simp

private theorem line_clean {t1 t2 : VttStamp} {settings : List Str} (h1 : t1.Standard) (h2 : t2.Standard) (hs : ∀ x ∈ settings, VttSetting x) :
    cleanLine (vttTimeLine t1 t2 settings) = vttTimeLine t1 t2 settings := by
  obtain ⟨c, r, e, k1, k2⟩ := line_head (t2 := t2) (settings := settings) h1
  obtain ⟨b1, b2⟩ := line_bytes h1 h2 hs
  refine cleanLine_good ⟨by rw [e]; simp, fun h => b2 (List.mem_of_getLast? h), b1, ?_⟩
  rw [e]
  intro h
  rw [List.cons_prefix_cons] at h
  exact k1 h.1.symm

private theorem line_timeLine {t1 t2 : VttStamp} {settings : List Str} (h1 : t1.Standard) :
    VTimeLine (vttTimeLine t1 t2 settings) := by
  constructor
  · obtain ⟨c, r, e, k1, k2⟩ := line_head (t2 := t2) (settings := settings) h1
    rw [e]
    intro h
    rw [List.cons_prefix_cons] at h
    exact k2 h.1.symm
  · exact ⟨t1.text ++ [32], 32 :: joinSpaces (t2.text :: settings), by simp [vttTimeLine, joinSpaces]⟩

private theorem digits_int (ds : Str) (hne : ds ≠ []) (hd : ∀ c ∈ ds, Digit c) (hl : ds.length ≤ 9) : IntText ds (textVal ds : Int) ∧ textVal ds < 10 ^ ds.length := by
  have hb : textVal ds < 10 ^ ds.length := by
    unfold textVal
    have := Nat.ofDigits_lt_base_pow_length (b := 10) (l := ds.reverse.map (fun c => c.toNat - 48)) (by decide) (by
      intro x hx
      obtain ⟨c, hc, rfl⟩ := List.mem_map.1 hx
      have := forall_byte (p := fun c => c ∈ b!"0123456789" → c.toNat - 48 < 10) (by decide +kernel) c (hd c (by simpa using hc))
      exact this)
    simpa using this
  refine ⟨⟨⟨by omega, ?_⟩, ds, hne, hd, .inl ⟨.inl rfl, rfl⟩⟩, hb⟩
  have : 10 ^ ds.length ≤ 10 ^ 9 := Nat.pow_le_pow_right (by decide) hl
  have : (textVal ds : Int) < 10 ^ 9 := by exact_mod_cast lt_of_lt_of_le hb this
  omega

private theorem stamp_good {t : VttStamp} (h : t.Standard) (hh : Str) (e : t.hours = some hh) (hl : hh.length ≤ 5) : TimeStamp 46 t.text := by
  obtain ⟨h1, h2, h3, h4, h5, h6, h7, h8⟩ := h
  have two : ∀ {a b : Byte}, Digit a → Digit b → ∀ c ∈ [a, b], Digit c := by
    intro a b ha hb c hc
    simp at hc
    rcases hc with rfl | rfl <;> assumption
  obtain ⟨i1, b1⟩ := digits_int hh (by have := (h1 hh e).1; rintro rfl; simp at this) (h1 hh e).2 (by omega)
  obtain ⟨i2, b2⟩ := digits_int [t.minutes.1, t.minutes.2] (by simp) (two (digit_six h2) h3) (by simp)
  obtain ⟨i3, b3⟩ := digits_int [t.seconds.1, t.seconds.2] (by simp) (two (digit_six h4) h5) (by simp)
  obtain ⟨i4, b4⟩ := digits_int [t.millis.1, t.millis.2.1, t.millis.2.2] (by simp) (by
    intro c hc
    simp at hc
    rcases hc with rfl | rfl | rfl <;> assumption) (by simp)
  refine ⟨_, _, _, _, ⟨hh, _, _, _, ?_, i1, i2, i3, i4⟩, ?_⟩
  · unfold VttStamp.text
    rw [e]
    simp
  · have : (textVal hh : Int) < 10 ^ 5 := by
      exact_mod_cast lt_of_lt_of_le b1 (Nat.pow_le_pow_right (by decide) hl)
    simp only [List.length_cons, List.length_nil] at b2 b3
    unfold SecondsFit InInt
    omega

private theorem stamp_short {t : VttStamp} (h : t.Standard) (e : t.hours = none) : Diagnosis 46 t.text b!"time in the format h:m:s,ms" := by
  refine .colons ?_
  obtain ⟨h1, h2, h3, h4, h5, h6, h7, h8⟩ := h
  have n58 : ∀ {c : Byte}, Digit c → c ≠ 58 := by
    rintro c hc rfl
    exact absurd hc (by decide)
  unfold VttStamp.text
  rw [e]
  simp only [List.nil_append, List.cons_append, List.count_cons, List.count_nil, beq_iff_eq, n58 (digit_six h2), n58 h3, n58 (digit_six h4), n58 h5, n58 h6, n58 h7, n58 h8]
  decide

/-- C98 in full, for the standard: between cues, every time line of the standard is accepted. -/
def C98_statement : Prop := ∀ (A : List Str) (subs : List Raw) (t1 t2 : VttStamp) (settings : List Str), vttRead A = .ok subs → vPlaceAfter A = .data →
  t1.Standard → t2.Standard → (∀ x ∈ settings, VttSetting x) → vttRead (A ++ [vttTimeLine t1 t2 settings]) = .ok subs

/-- C98: a time line of the standard is accepted if both times have hours (of at most five digits) and there are no settings, or four. -/
theorem C98_standard_partial (A : List Str) (subs : List Raw) (hA : vttRead A = .ok subs) (hp : vPlaceAfter A = .data) (t1 t2 : VttStamp)
    (settings : List Str) (h1 : t1.Standard) (h2 : t2.Standard) (hs : ∀ x ∈ settings, VttSetting x) (hn : settings.length = 0 ∨ settings.length = 4)
    (g1 g2 : Str) (e1 : t1.hours = some g1) (e2 : t2.hours = some g2) (l1 : g1.length ≤ 5) (l2 : g2.length ≤ 5) :
    vttRead (A ++ [vttTimeLine t1 t2 settings]) = .ok subs := by
  have hc := line_clean h1 h2 hs
  have ht : VTimeLine (vttTimeLine t1 t2 settings) := line_timeLine h1
  refine (C98_accepted_iff A subs hA hp _ (by rw [hc]; exact ht)).2 ?_
  rw [hc]
  unfold GoodTimes
  rw [line_words h1 h2 hs]
  exact ⟨by simp only [List.length_cons]; omega, stamp_good h1 g1 e1 l1, stamp_good h2 g2 e2 l2⟩

private def exampleStamp : VttStamp := ⟨some b!"01", (53, 57), (48, 49), (53, 48, 48)⟩

private theorem exampleStamp_ok : exampleStamp.Standard := ⟨by intro h hh; cases hh; decide, by decide⟩

/-- With the four settings of a WebVTT file made from SubRip positions. -/
example : vttRead ([b!"WEBVTT"] ++ [b!"01:59:01.500 --> 01:59:01.500 X1:0 X2:10 Y1:5 Y2:20"]) = .ok [] :=
  C98_standard_partial [b!"WEBVTT"] [] rfl (by decide +kernel) exampleStamp exampleStamp [b!"X1:0", b!"X2:10", b!"Y1:5", b!"Y2:20"] exampleStamp_ok exampleStamp_ok
    (by unfold VttSetting; decide +kernel) (by decide) b!"01" b!"01" rfl rfl (by decide) (by decide)

example : GoodTimes 46 b!"01:59:01.500 --> 01:59:01.500" :=
  (C98_accepted_iff [b!"WEBVTT"] [] rfl (by decide +kernel) b!"01:59:01.500 --> 01:59:01.500" ⟨by decide +kernel, by decide +kernel⟩).1
    (C98_standard_partial [b!"WEBVTT"] [] rfl (by decide +kernel) exampleStamp exampleStamp [] exampleStamp_ok exampleStamp_ok
      (by simp) (by decide) b!"01" b!"01" rfl rfl (by decide) (by decide))

/-- C98: any other number of settings is an error. -/
theorem C98_settings_witness (A : List Str) (subs : List Raw) (hA : vttRead A = .ok subs) (hp : vPlaceAfter A = .data) (t1 t2 : VttStamp)
    (settings : List Str) (h1 : t1.Standard) (h2 : t2.Standard) (hs : ∀ x ∈ settings, VttSetting x) (hn : settings.length ≠ 0 ∧ settings.length ≠ 4)
    (B : List Str) : vttRead (A ++ vttTimeLine t1 t2 settings :: B) =
      .error (.webvtt (vttTimeLine t1 t2 settings) b!"a time line" (lastN 5 ((A ++ [vttTimeLine t1 t2 settings]).map cleanLine) ++ B.take 2)) := by
  have hc := line_clean h1 h2 hs
  have ht : VTimeLine (vttTimeLine t1 t2 settings) := line_timeLine h1
  refine C98_reported A subs hA hp _ (by rw [hc]; exact ht) B _ _ 2 ?_
  rw [hc]
  refine .words _ 0 (by simp) ?_ (by rw [line_words h1 h2 hs]; simp only [List.length_cons]; omega) (by rw [line_words h1 h2 hs]; simp only [List.length_cons]; omega)
  intro hl
  have hw := wordsOf_join (t1.text :: b!"-->" :: t2.text :: settings) (by simp)
  have : ∀ ws : List Str, ws ≠ [] → (∀ w ∈ ws, w ≠ [] ∧ (32 : Byte) ∉ w) → (joinSpaces ws).getLast? ≠ some 32 := by
    intro ws
    induction ws with
    | nil => intro h; exact absurd rfl h
    | cons w ws ih =>
      intro _ hws
      cases ws with
      | nil => exact fun h => (hws w (by simp)).2 (List.mem_of_getLast? h)
      | cons v ws =>
        rw [joinSpaces, List.getLast?_append, List.getLast?_cons]
        · have := ih (by simp) (fun w hw => hws w (by simp [hw]))
          cases hx : (joinSpaces (v :: ws)).getLast? with
          | none =>
            exfalso
            rw [List.getLast?_eq_none_iff] at hx
            have hv := (hws v (by simp)).1
            cases ws with
            | nil => exact hv hx
            | cons u us => simp [joinSpaces] at hx
          | some x =>
            rw [hx] at this
            simpa using this
        · simp
  refine this _ (by simp) ?_ hl
  intro w hw
  simp only [List.mem_cons] at hw
  rcases hw with rfl | rfl | rfl | hw
  · exact ⟨stamp_ne, fun h => (not_special (stamp_bytes h1 _ h)).1 rfl⟩
  · decide
  · exact ⟨stamp_ne, fun h => (not_special (stamp_bytes h2 _ h)).1 rfl⟩
  · exact ⟨(hs w hw).1, (hs w hw).2.1⟩

/-- A setting as in many files. -/
example : vttRead ([b!"WEBVTT"] ++ b!"01:59:01.500 --> 01:59:01.500 align:start" :: [b!"Hello"]) =
    .error (.webvtt b!"01:59:01.500 --> 01:59:01.500 align:start" b!"a time line" [b!"WEBVTT", b!"01:59:01.500 --> 01:59:01.500 align:start", b!"Hello"]) :=
  C98_settings_witness [b!"WEBVTT"] [] rfl (by decide +kernel) exampleStamp exampleStamp [b!"align:start"] exampleStamp_ok exampleStamp_ok
    (by unfold VttSetting; decide +kernel) (by decide) [b!"Hello"]

/-- C98: a first time without hours is an error. -/
theorem C98_short_witness (A : List Str) (subs : List Raw) (hA : vttRead A = .ok subs) (hp : vPlaceAfter A = .data) (t1 t2 : VttStamp)
    (settings : List Str) (h1 : t1.Standard) (h2 : t2.Standard) (hs : ∀ x ∈ settings, VttSetting x) (hn : settings.length = 0 ∨ settings.length = 4)
    (e1 : t1.hours = none) (B : List Str) : vttRead (A ++ vttTimeLine t1 t2 settings :: B) =
      .error (.webvtt t1.text b!"time in the format h:m:s,ms" (lastN 5 ((A ++ [vttTimeLine t1 t2 settings]).map cleanLine))) := by
  have hc := line_clean h1 h2 hs
  have ht : VTimeLine (vttTimeLine t1 t2 settings) := line_timeLine h1
  have hw := line_words h1 h2 hs
  have := C98_reported A subs hA hp (vttTimeLine t1 t2 settings) (by rw [hc]; exact ht) B t1.text b!"time in the format h:m:s,ms" 0 (by
    rw [hc]
    have := BadTimes.first (sep := 46) (line := b!"a time line") (l := vttTimeLine t1 t2 settings) b!"time in the format h:m:s,ms" (by rw [hw]; simp only [List.length_cons]; omega)
      (by rw [hw]; exact stamp_short h1 e1)
    rw [hw] at this
    exact this)
  simpa using this

/-- C98 in full is false: `00:01.000 --> 00:02.000` is a time line of the standard. -/
theorem C98_false : ¬ C98_statement := by
  intro h
  have := h [b!"WEBVTT"] [] ⟨none, (48, 48), (48, 49), (48, 48, 48)⟩ ⟨none, (48, 48), (48, 50), (48, 48, 48)⟩ [] rfl (by decide +kernel)
    ⟨by simp, by decide, by decide +kernel, by decide, by decide +kernel, by decide +kernel, by decide +kernel, by decide +kernel⟩
    ⟨by simp, by decide, by decide +kernel, by decide, by decide +kernel, by decide +kernel, by decide +kernel, by decide +kernel⟩ (by simp)
  have h2 : vttRead ([b!"WEBVTT"] ++ [b!"00:01.000 --> 00:02.000"]) =
      .error (.webvtt b!"00:01.000" b!"time in the format h:m:s,ms" [b!"WEBVTT", b!"00:01.000 --> 00:02.000"]) := by decide +kernel
  rw [show vttTimeLine ⟨none, (48, 48), (48, 49), (48, 48, 48)⟩ ⟨none, (48, 48), (48, 50), (48, 48, 48)⟩ [] = b!"00:01.000 --> 00:02.000" from rfl, h2] at this
  cases this

end LibSub
