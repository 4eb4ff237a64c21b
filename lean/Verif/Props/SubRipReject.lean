/-
Property C96: a bad SubRip time line is reported, a good one is accepted.
-/
import Verif.Props.SubRipRead

namespace LibSub

/-! ### Specification -/

/-- Where a reader is in a SubRip file. -/
inductive Place where
  /-- a counter line is expected -/
  | counter
  /-- a time line is expected -/
  | times
  /-- text is expected -/
  | text
  deriving DecidableEq, Repr

/-- The place after some lines, from a given place.  (`cleanLine l = []` is a blank line.) -/
def placeAfter : Place → List Str → Place
  | p, [] => p
  | .counter, l :: ls => placeAfter (if cleanLine l = [] then .counter else .times) ls
  | .times, _ :: ls => placeAfter .text ls
  | .text, l :: ls => placeAfter (if cleanLine l = [] then .counter else .text) ls

/-- The words of a line: what is between spaces, any number of spaces being one separator.  Before a leading space (and in a
line with nothing but spaces) there is one empty word. -/
def wordsOf (s : Str) : List Str :=
  (if s = [] ∨ s.head? = some 32 then [[]] else []) ++ (s.splitOnP (· == 32)).filter (· ≠ [])

/-- What is wrong with a time stamp (with `sep` before the milliseconds), as the readers put it. -/
inductive Diagnosis (sep : Byte) (w : Str) : Str → Prop
  | colons : w.count 58 ≠ 2 → Diagnosis sep w b!"time in the format h:m:s,ms"
  | separators (a b c : Str) : w = a ++ 58 :: (b ++ 58 :: c) → (58 : Byte) ∉ a → (58 : Byte) ∉ b → (58 : Byte) ∉ c → c.count sep ≠ 1 →
      Diagnosis sep w (b!"time in the format h:m:s" ++ [sep] ++ b!"ms")
  | hour (a b c d : Str) : w = a ++ 58 :: (b ++ 58 :: (c ++ sep :: d)) → (58 : Byte) ∉ a ++ b ++ c ++ d → sep ∉ c ++ d →
      (∀ v, ¬ IntText a v) → Diagnosis sep w b!"integer hour value"
  | minute (a b c d : Str) (h : Int) : w = a ++ 58 :: (b ++ 58 :: (c ++ sep :: d)) → (58 : Byte) ∉ a ++ b ++ c ++ d → sep ∉ c ++ d →
      IntText a h → (∀ v, ¬ IntText b v) → Diagnosis sep w b!"integer minute value"
  | second (a b c d : Str) (h m : Int) : w = a ++ 58 :: (b ++ 58 :: (c ++ sep :: d)) → (58 : Byte) ∉ a ++ b ++ c ++ d → sep ∉ c ++ d →
      IntText a h → IntText b m → (∀ v, ¬ IntText c v) → Diagnosis sep w b!"integer second value"
  | millisecond (a b c d : Str) (h m s : Int) : w = a ++ 58 :: (b ++ 58 :: (c ++ sep :: d)) → (58 : Byte) ∉ a ++ b ++ c ++ d → sep ∉ c ++ d →
      IntText a h → IntText b m → IntText c s → (∀ v, ¬ IntText d v) → Diagnosis sep w b!"integer millisecond value"

/-- `w` is four integers `h:m:s` and `ms`. -/
def HmsFields (sep : Byte) (w : Str) (h m s ms : Int) : Prop :=
  ∃ a b c d, w = a ++ 58 :: (b ++ 58 :: (c ++ sep :: d)) ∧ IntText a h ∧ IntText b m ∧ IntText c s ∧ IntText d ms

/-- The seconds can be added up in an `int`. -/
def SecondsFit (h m s : Int) : Prop :=
  InInt (h * 3600) ∧ InInt (m * 60) ∧ InInt (h * 3600 + m * 60) ∧ InInt (h * 3600 + m * 60 + s)

/-- `w` is a good time stamp. -/
def TimeStamp (sep : Byte) (w : Str) : Prop := ∃ h m s ms, HmsFields sep w h m s ms ∧ SecondsFit h m s

/-- `w` has the form of a time stamp but its hours, minutes or seconds are too large. -/
def Overflows (sep : Byte) (w : Str) : Prop := ∃ h m s ms, HmsFields sep w h m s ms ∧ ¬ SecondsFit h m s

/-- A good time line (after removal of the line end): three words or seven, the first and the third being good time stamps. -/
def GoodTimes (sep : Byte) (l : Str) : Prop :=
  ((wordsOf l).length = 3 ∨ (wordsOf l).length = 7) ∧ TimeStamp sep ((wordsOf l).getD 0 []) ∧ TimeStamp sep ((wordsOf l).getD 2 [])

/-- What is wrong with a time line: the thing seen, the thing expected and how many of the following lines are shown. -/
inductive BadTimes (sep : Byte) (line : Str) (l : Str) : Str → Str → Nat → Prop
  | words (saw : Str) (k : Nat) : l = saw ++ List.replicate k 32 → saw.getLast? ≠ some 32 → (wordsOf l).length ≠ 3 → (wordsOf l).length ≠ 7 →
      BadTimes sep line l saw line 2
  | first (e : Str) : ((wordsOf l).length = 3 ∨ (wordsOf l).length = 7) → Diagnosis sep ((wordsOf l).getD 0 []) e →
      BadTimes sep line l ((wordsOf l).getD 0 []) e 0
  | second (e : Str) : ((wordsOf l).length = 3 ∨ (wordsOf l).length = 7) → TimeStamp sep ((wordsOf l).getD 0 []) → Diagnosis sep ((wordsOf l).getD 2 []) e →
      BadTimes sep line l ((wordsOf l).getD 2 []) e 0

/-- A time line with numbers too large for the reader. -/
def HugeTimes (sep : Byte) (l : Str) : Prop :=
  ((wordsOf l).length = 3 ∨ (wordsOf l).length = 7) ∧
    (Overflows sep ((wordsOf l).getD 0 []) ∨ (TimeStamp sep ((wordsOf l).getD 0 []) ∧ Overflows sep ((wordsOf l).getD 2 [])))

/-! ### Words -/

private theorem words_go (s : Str) (hs : s.getLast? ≠ some 32) :
    (∃ h t, s.splitOnP (· == 32) = h :: t ∧ splitCompressGo (· == 32) false s = h :: t.filter (· ≠ [])) ∧
    (s ≠ [] → splitCompressGo (· == 32) true s = (s.splitOnP (· == 32)).filter (· ≠ [])) := by
  induction s with
  | nil => exact ⟨⟨[], [], rfl, rfl⟩, fun h => absurd rfl h⟩
  | cons c cs ih =>
    have hcs : cs.getLast? ≠ some 32 := by
      cases cs with
      | nil => simp
      | cons d ds => rwa [List.getLast?_cons_cons] at hs
    obtain ⟨⟨h, t, e1, e2⟩, ih2⟩ := ih hcs
    rw [splitCompressGo, splitCompressGo, List.splitOnP_cons_eq_if_modifyHead]
    by_cases hc : c = 32
    · subst hc
      have hne : cs ≠ [] := by
        rintro rfl
        exact hs rfl
      simp only [beq_self_eq_true, if_true, Bool.false_eq_true, if_false]
      rw [ih2 hne]
      exact ⟨⟨[], _, rfl, rfl⟩, fun _ => by simp⟩
    · have hb : (c == (32 : Byte)) = false := by simpa using hc
      simp only [hb, Bool.false_eq_true, if_false, e1, e2]
      exact ⟨⟨_, _, rfl, rfl⟩, fun _ => by simp⟩

private theorem wordsOf_trimmed (s : Str) (hs : s.getLast? ≠ some 32) : splitCompress (· == 32) s = wordsOf s := by
  obtain ⟨⟨h, t, e1, e2⟩, _⟩ := words_go s hs
  unfold splitCompress wordsOf
  rw [e2, e1]
  cases s with
  | nil =>
    rw [show ([] : Str).splitOnP (· == 32) = [[]] from rfl] at e1
    cases e1
    rfl
  | cons c cs =>
    rw [List.splitOnP_cons_eq_if_modifyHead] at e1
    by_cases hc : c = 32
    · subst hc
      simp only [beq_self_eq_true, if_true, List.cons.injEq] at e1
      simp [← e1.1]
    · have hb : (c == (32 : Byte)) = false := by simpa using hc
      simp only [hb, Bool.false_eq_true, if_false] at e1
      obtain ⟨h', t', e3⟩ : ∃ h' t', cs.splitOnP (· == 32) = h' :: t' := by
        cases hx : cs.splitOnP (· == 32) with
        | nil => exact absurd hx (List.splitOnP_ne_nil _ _)
        | cons h' t' => exact ⟨_, _, rfl⟩
      rw [e3] at e1
      simp only [List.modifyHead_cons, List.cons.injEq] at e1
      simp [hc, ← e1.1]

private theorem wordsOf_space (s : Str) : wordsOf (s ++ [32]) = wordsOf s := by
  unfold wordsOf
  rw [List.splitOnP_append_cons s [] (by decide)]
  cases s <;> simp

private theorem wordsOf_spaces (s : Str) (k : Nat) : wordsOf (s ++ List.replicate k 32) = wordsOf s := by
  induction k with
  | zero => simp
  | succ k ih => rw [List.replicate_succ', ← List.append_assoc, wordsOf_space, ih]

private theorem trim_spaces (l : Str) : ∃ k, l = trimRightIf (· == 32) l ++ List.replicate k 32 := by
  obtain ⟨b, e, hb⟩ := trimRightIf_prefix (· == 32) l
  refine ⟨b.length, ?_⟩
  conv_lhs => rw [e]
  congr 1
  exact List.eq_replicate_iff.2 ⟨rfl, fun c hc => by simpa using hb c hc⟩

private theorem trim_last (l : Str) : (trimRightIf (· == 32) l).getLast? ≠ some 32 := fun h => by
  have := trimRightIf_last _ _ _ h
  simp at this

theorem words_eq (l : Str) : splitCompress (· == 32) (trimRightIf (· == 32) l) = wordsOf l := by
  rw [wordsOf_trimmed _ (trim_last l)]
  obtain ⟨k, e⟩ := trim_spaces l
  conv_rhs => rw [e]
  rw [wordsOf_spaces]

/-- The line without its trailing spaces is determined. -/
theorem trim_unique (l saw : Str) (k : Nat) (h : l = saw ++ List.replicate k 32) (hs : saw.getLast? ≠ some 32) : trimRightIf (· == 32) l = saw := by
  rw [h, trimRightIf_append (by intro c hc; simp [List.eq_of_mem_replicate hc])]
  refine trimRightIf_of_last fun c hc => ?_
  simp only [beq_eq_false_iff_ne]
  rintro rfl
  exact hs hc

/-! ### Time stamps -/

theorem hms_fits {h m s : Int} (ms : Int) (hf : SecondsFit h m s) : Time.fromHms h m s ms = .ok ⟨h * 3600 + m * 60 + s, ms, some ⟨1000, 1⟩⟩ := by
  unfold Time.fromHms hmsSeconds
  rw [ck_ok hf.1]
  simp only [ok_bind]
  rw [ck_ok hf.2.1]
  simp only [ok_bind]
  rw [ck_ok hf.2.2.1]
  simp only [ok_bind]
  rw [ck_ok hf.2.2.2]
  rfl

theorem hms_overflow {h m s : Int} (ms : Int) (hf : ¬ SecondsFit h m s) : Time.fromHms h m s ms = .error (.ub .intOverflow) := by
  have ce : ∀ {x : Int}, ¬ InInt x → ck x = .error (.ub .intOverflow) := by
    intro x hx; unfold ck; rw [if_neg hx]
  unfold Time.fromHms hmsSeconds
  by_cases h1 : InInt (h * 3600)
  · rw [ck_ok h1]
    by_cases h2 : InInt (m * 60)
    · simp only [ok_bind]
      rw [ck_ok h2]
      by_cases h3 : InInt (h * 3600 + m * 60)
      · simp only [ok_bind]
        rw [ck_ok h3]
        by_cases h4 : InInt (h * 3600 + m * 60 + s)
        · exact absurd ⟨h1, h2, h3, h4⟩ hf
        · simp only [ok_bind]
          rw [ce h4]; rfl
      · simp only [ok_bind]
        rw [ce h3]; rfl
    · simp only [ok_bind]
      rw [ce h2]; rfl
  · rw [ce h1]; rfl

theorem convertTime_diagnosis {sep : Byte} (hsep : sep ≠ 58) {w e : Str} (h : Diagnosis sep w e) : convertTime w [sep] = .ok (.error e) := by
  cases h with
  | colons h => exact C22_wrong_colons w sep h
  | separators a b c e ha hb hc h => rw [e]; exact C22_wrong_separators a b c sep ha hb hc h
  | hour a b c d e h58 hs h1 =>
    simp only [List.mem_append, not_or] at h58 hs
    rw [e]
    exact (C22_wrong_field a b c d sep h58.1.1.1 h58.1.1.2 h58.1.2 h58.2 hs.1 hs.2 hsep).1 h1
  | minute a b c d v e h58 hs h1 h2 =>
    simp only [List.mem_append, not_or] at h58 hs
    rw [e]
    exact (C22_wrong_field a b c d sep h58.1.1.1 h58.1.1.2 h58.1.2 h58.2 hs.1 hs.2 hsep).2.1 ⟨_, h1⟩ h2
  | second a b c d v v' e h58 hs h1 h2 h3 =>
    simp only [List.mem_append, not_or] at h58 hs
    rw [e]
    exact (C22_wrong_field a b c d sep h58.1.1.1 h58.1.1.2 h58.1.2 h58.2 hs.1 hs.2 hsep).2.2.1 ⟨_, h1⟩ ⟨_, h2⟩ h3
  | millisecond a b c d v v' v'' e h58 hs h1 h2 h3 h4 =>
    simp only [List.mem_append, not_or] at h58 hs
    rw [e]
    exact (C22_wrong_field a b c d sep h58.1.1.1 h58.1.1.2 h58.1.2 h58.2 hs.1 hs.2 hsep).2.2.2 ⟨_, h1⟩ ⟨_, h2⟩ ⟨_, h3⟩ h4

theorem convertTime_stamp {sep : Byte} (hsep : sep ∉ b!":+-0123456789") {w : Str} (h : TimeStamp sep w) : ∃ t, convertTime w [sep] = .ok (.ok t) := by
  obtain ⟨h, m, s, ms, ⟨a, b, c, d, rfl, ha, hb, hc, hd⟩, hf⟩ := h
  rw [C21_value a b c d h m s ms sep hsep ha hb hc hd, hms_fits ms hf]
  exact ⟨_, rfl⟩

theorem convertTime_overflows {sep : Byte} (hsep : sep ∉ b!":+-0123456789") {w : Str} (h : Overflows sep w) : convertTime w [sep] = .error (.ub .intOverflow) := by
  obtain ⟨h, m, s, ms, ⟨a, b, c, d, rfl, ha, hb, hc, hd⟩, hf⟩ := h
  rw [C21_value a b c d h m s ms sep hsep ha hb hc hd, hms_overflow ms hf]
  rfl

/-- Every string is a good time stamp, a time stamp that is too large, or has something wrong with it. -/
theorem stamp_cases (sep : Byte) (w : Str) : TimeStamp sep w ∨ Overflows sep w ∨ ∃ e, Diagnosis sep w e := by
  by_cases h2 : w.count 58 = 2
  · obtain ⟨a, b, r, rfl, ha, hb, hr⟩ := count_two_split h2
    by_cases h1 : r.count sep = 1
    · obtain ⟨c, d, rfl, hc, hd⟩ := count_one_split h1
      have hr' := hr
      simp only [List.mem_append, List.mem_cons, not_or] at hr
      have k58 : (58 : Byte) ∉ a ++ b ++ c ++ d := by
        simp only [List.mem_append, not_or]
        exact ⟨⟨⟨ha, hb⟩, hr.1⟩, hr.2.2⟩
      have ks : sep ∉ c ++ d := by
        simp only [List.mem_append, not_or]
        exact ⟨hc, hd⟩
      by_cases e1 : ∃ v, IntText a v
      · obtain ⟨v1, e1⟩ := e1
        by_cases e2 : ∃ v, IntText b v
        · obtain ⟨v2, e2⟩ := e2
          by_cases e3 : ∃ v, IntText c v
          · obtain ⟨v3, e3⟩ := e3
            by_cases e4 : ∃ v, IntText d v
            · obtain ⟨v4, e4⟩ := e4
              by_cases hf : SecondsFit v1 v2 v3
              · exact .inl ⟨v1, v2, v3, v4, ⟨a, b, c, d, rfl, e1, e2, e3, e4⟩, hf⟩
              · exact .inr (.inl ⟨v1, v2, v3, v4, ⟨a, b, c, d, rfl, e1, e2, e3, e4⟩, hf⟩)
            · exact .inr (.inr ⟨_, .millisecond a b c d v1 v2 v3 rfl k58 ks e1 e2 e3 (fun v hv => e4 ⟨v, hv⟩)⟩)
          · exact .inr (.inr ⟨_, .second a b c d v1 v2 rfl k58 ks e1 e2 (fun v hv => e3 ⟨v, hv⟩)⟩)
        · exact .inr (.inr ⟨_, .minute a b c d v1 rfl k58 ks e1 (fun v hv => e2 ⟨v, hv⟩)⟩)
      · exact .inr (.inr ⟨_, .hour a b c d rfl k58 ks (fun v hv => e1 ⟨v, hv⟩)⟩)
    · exact .inr (.inr ⟨_, .separators a b r rfl ha hb hr h1⟩)
  · exact .inr (.inr ⟨_, .colons h2⟩)

/-- Every time line is good, too large, or has something wrong with it. -/
theorem times_cases (sep : Byte) (line l : Str) : GoodTimes sep l ∨ HugeTimes sep l ∨ ∃ saw e k, BadTimes sep line l saw e k := by
  by_cases hw : (wordsOf l).length = 3 ∨ (wordsOf l).length = 7
  · rcases stamp_cases sep ((wordsOf l).getD 0 []) with h0 | h0 | ⟨e, h0⟩
    · rcases stamp_cases sep ((wordsOf l).getD 2 []) with h2 | h2 | ⟨e, h2⟩
      · exact .inl ⟨hw, h0, h2⟩
      · exact .inr (.inl ⟨hw, .inr ⟨h0, h2⟩⟩)
      · exact .inr (.inr ⟨_, _, _, .second e hw h0 h2⟩)
    · exact .inr (.inl ⟨hw, .inl h0⟩)
    · exact .inr (.inr ⟨_, _, _, .first e hw h0⟩)
  · rw [not_or] at hw
    obtain ⟨k, e⟩ := trim_spaces l
    exact .inr (.inr ⟨_, _, _, .words _ k e (trim_last l) hw.1 hw.2⟩)

/-! ### The time line of a SubRip file -/

theorem srtMetadata_good {n : Nat} {ctx : List Str} {l : Str} {rest : List Str} {rs : Raw} (h : GoodTimes 44 l) :
    ∃ rs', srtMetadata n ctx l rest rs = .ok rs' := by
  obtain ⟨hw, h0, h2⟩ := h
  obtain ⟨t0, e0⟩ := convertTime_stamp (by decide) h0
  obtain ⟨t2, e2⟩ := convertTime_stamp (by decide) h2
  unfold srtMetadata
  simp only [words_eq]
  rw [if_neg (by omega), e0]
  simp only [ok_bind]
  rw [e2]
  exact ⟨_, rfl⟩

theorem srtMetadata_huge {n : Nat} {ctx : List Str} {l : Str} {rest : List Str} {rs : Raw} (h : HugeTimes 44 l) :
    srtMetadata n ctx l rest rs = .error (.ub .intOverflow) := by
  obtain ⟨hw, h0⟩ := h
  unfold srtMetadata
  simp only [words_eq]
  rw [if_neg (by omega)]
  rcases h0 with h0 | ⟨h0, h2⟩
  · rw [convertTime_overflows (by decide) h0]
    rfl
  · obtain ⟨t0, e0⟩ := convertTime_stamp (by decide) h0
    rw [e0]
    simp only [ok_bind]
    rw [convertTime_overflows (by decide) h2]
    rfl

theorem srtMetadata_bad {n : Nat} {ctx : List Str} {l saw e : Str} {k : Nat} {rest : List Str} {rs : Raw}
    (h : BadTimes 44 b!"a time/position line" l saw e k) :
    srtMetadata n ctx l rest rs = .error (.subrip n saw e (ctx ++ rest.take k)) := by
  unfold srtMetadata
  simp only [words_eq]
  cases h with
  | words _ j e hl h3 h7 =>
    rw [if_pos ⟨h3, h7⟩, trim_unique l saw j e hl]
  | first _ hw h0 =>
    rw [if_neg (by omega), convertTime_diagnosis (by decide) h0]
    simp
  | second _ hw h0 h2 =>
    obtain ⟨t0, e0⟩ := convertTime_stamp (by decide) h0
    rw [if_neg (by omega), e0]
    simp only [ok_bind]
    rw [convertTime_diagnosis (by decide) h2]
    simp

/-! ### Reading on -/

def srtPlace : Place → SrtState
  | .counter => .counter
  | .times => .metadata
  | .text => .content

theorem srt_compose (n : Nat) (p : Place) (C : List Str) (rs : Raw) (subs : List Raw) (A : List Str) (r : List Raw)
    (h : srtLines n (srtPlace p) (lastN 5 (C.map cleanLine)) rs subs A = .ok r) :
    ∃ rs', ∀ B, srtLines n (srtPlace p) (lastN 5 (C.map cleanLine)) rs subs (A ++ B) =
      srtLines (n + A.length) (srtPlace (placeAfter p A)) (lastN 5 ((C ++ A).map cleanLine)) rs' r B := by
  induction A generalizing n p C rs subs with
  | nil =>
    cases h
    exact ⟨rs, fun B => by simp [placeAfter]⟩
  | cons l A ih =>
    have hctx : pushContext (lastN 5 (C.map cleanLine)) (cleanLine l) = lastN 5 ((C ++ [l]).map cleanLine) := by
      rw [pushContext_lastN, List.map_append]; rfl
    have step : ∀ (p' : Place) (rs' : Raw) (subs' : List Raw), placeAfter p (l :: A) = placeAfter p' A →
        (∀ ls', srtLines n (srtPlace p) (lastN 5 (C.map cleanLine)) rs subs (l :: ls') =
          srtLines (n + 1) (srtPlace p') (lastN 5 ((C ++ [l]).map cleanLine)) rs' subs' ls') →
        ∃ rs', ∀ B, srtLines n (srtPlace p) (lastN 5 (C.map cleanLine)) rs subs (l :: A ++ B) =
          srtLines (n + (l :: A).length) (srtPlace (placeAfter p (l :: A))) (lastN 5 ((C ++ l :: A).map cleanLine)) rs' r B := by
      intro p' rs' subs' hp hs
      obtain ⟨rs2, h2⟩ := ih (n + 1) p' (C ++ [l]) rs' subs' (by rw [← hs]; exact h)
      refine ⟨rs2, fun B => ?_⟩
      rw [List.cons_append, hs, h2, hp, List.length_cons, show n + 1 + A.length = n + (A.length + 1) by omega,
        show C ++ [l] ++ A = C ++ l :: A by simp]
    cases p with
    | counter =>
      by_cases hl : cleanLine l = []
      · refine step .counter rs subs (by rw [placeAfter, if_pos hl]) fun ls' => ?_
        rw [← hctx, srtPlace, srtLines]
        exact if_pos hl
      · refine step .times srtFresh subs (by rw [placeAfter, if_neg hl]) fun ls' => ?_
        rw [← hctx, srtPlace, srtLines]
        exact if_neg hl
    | times =>
      have e : ∀ ls', srtLines n .metadata (lastN 5 (C.map cleanLine)) rs subs (l :: ls') =
          (srtMetadata (n + 1) (lastN 5 ((C ++ [l]).map cleanLine)) (cleanLine l) ls' rs).bind (fun rs => srtLines (n + 1) .content (lastN 5 ((C ++ [l]).map cleanLine)) rs subs ls') := by
        intro ls'
        rw [← hctx, srtLines]
        rfl
      have h' := h
      rw [srtPlace, e] at h'
      cases hm : srtMetadata (n + 1) (lastN 5 ((C ++ [l]).map cleanLine)) (cleanLine l) A rs with
      | error er => rw [hm] at h'; cases h'
      | ok rs' =>
        refine step .text rs' subs rfl fun ls' => ?_
        have hm' : srtMetadata (n + 1) (lastN 5 ((C ++ [l]).map cleanLine)) (cleanLine l) ls' rs = .ok rs' := ((srtMetadata_okEq ..).iff _).1 hm
        rw [srtPlace, e, hm']
        rfl
    | text =>
      by_cases hl : cleanLine l = []
      · have e : ∀ ls', srtLines n .content (lastN 5 (C.map cleanLine)) rs subs (l :: ls') = srtLines (n + 1) .counter (lastN 5 ((C ++ [l]).map cleanLine)) rs subs ls' := by
          intro ls'
          rw [← hctx, srtLines]
          exact if_pos hl
        exact step .counter rs subs (by rw [placeAfter, if_pos hl]) e
      · have e : ∀ ls', srtLines n .content (lastN 5 (C.map cleanLine)) rs subs (l :: ls') =
            (convertSubLines (n + 1) (lastN 5 ((C ++ [l]).map cleanLine)) (splitStr lineSep (cleanLine l)) rs subs).bind
              (fun q => srtLines (n + 1) .content (lastN 5 ((C ++ [l]).map cleanLine)) q.1 q.2 ls') := by
          intro ls'
          rw [← hctx, srtLines]
          exact if_neg hl
        have h' := h
        rw [srtPlace, e] at h'
        cases hm : convertSubLines (n + 1) (lastN 5 ((C ++ [l]).map cleanLine)) (splitStr lineSep (cleanLine l)) rs subs with
        | error er => rw [hm] at h'; cases h'
        | ok q =>
          refine step .text q.1 q.2 (by rw [placeAfter, if_neg hl]) fun ls' => ?_
          rw [srtPlace, e, hm]
          rfl

/-- What happens at a time line. -/
private theorem at_times (A : List Str) (subs : List Raw) (hA : srtRead A = .ok subs) (hp : placeAfter .counter A = .times) :
    ∃ rs, ∀ l B, srtRead (A ++ l :: B) =
      (srtMetadata (A.length + 1) (lastN 5 ((A ++ [l]).map cleanLine)) (cleanLine l) B rs).bind
        (fun rs => srtLines (A.length + 1) .content (lastN 5 ((A ++ [l]).map cleanLine)) rs subs B) := by
  obtain ⟨rs, h⟩ := srt_compose 0 .counter [] srtFresh [] A subs hA
  refine ⟨rs, fun l B => ?_⟩
  have hctx : pushContext (lastN 5 (A.map cleanLine)) (cleanLine l) = lastN 5 ((A ++ [l]).map cleanLine) := by
    rw [pushContext_lastN, List.map_append]; rfl
  have := h (l :: B)
  rw [hp, List.nil_append, Nat.zero_add] at this
  refine this.trans ?_
  rw [← hctx, srtPlace, srtLines]
  rfl

/-! ### C96 -/

/-- C96: when a time line is expected, a line that is not one is reported, whatever follows: with its line number, the
offending word or line, what was expected, and the last five lines (and, if the number of words is wrong, the next two). -/
theorem C96_reported (A : List Str) (subs : List Raw) (hA : srtRead A = .ok subs) (hp : placeAfter .counter A = .times) (l : Str) (B : List Str)
    (saw e : Str) (k : Nat) (h : BadTimes 44 b!"a time/position line" (cleanLine l) saw e k) :
    srtRead (A ++ l :: B) = .error (.subrip (A.length + 1) saw e (lastN 5 ((A ++ [l]).map cleanLine) ++ B.take k)) := by
  obtain ⟨rs, hr⟩ := at_times A subs hA hp
  rw [hr, srtMetadata_bad h]
  rfl

/-- A second subtitle with a point in place of the comma, after lines in which nothing is wrong. -/
example : ∀ B, srtRead ([b!"1", b!"00:00:01,000 --> 00:00:02,000", b!"Hello", b!"", b!"2"] ++ b!"00:00:03,000 --> 00:00:04.000\r" :: B) =
    .error (.subrip 6 b!"00:00:04.000" b!"time in the format h:m:s,ms"
      [b!"00:00:01,000 --> 00:00:02,000", b!"Hello", b!"", b!"2", b!"00:00:03,000 --> 00:00:04.000"]) := by
  intro B
  obtain ⟨subs, h⟩ : ∃ subs, srtRead [b!"1", b!"00:00:01,000 --> 00:00:02,000", b!"Hello", b!"", b!"2"] = .ok subs := by
    cases e : srtRead [b!"1", b!"00:00:01,000 --> 00:00:02,000", b!"Hello", b!"", b!"2"] with
    | ok v => exact ⟨v, rfl⟩
    | error er => exact absurd (show (srtRead [b!"1", b!"00:00:01,000 --> 00:00:02,000", b!"Hello", b!"", b!"2"]).toOption.isSome by decide +kernel) (by rw [e]; exact fun h => by cases h)
  refine C96_reported _ subs h (by decide +kernel) _ B _ _ 0 (.second _ (by decide +kernel) ⟨0, 0, 3, 0, ⟨b!"00", b!"00", b!"03", b!"000", by decide +kernel, ?_, ?_, ?_, ?_⟩, ?_⟩ (.separators b!"00" b!"00" b!"04.000" ?_ ?_ ?_ ?_ ?_))
  · exact intText_padded 1 0 (by decide)
  · exact intText_padded 1 0 (by decide)
  · exact intText_padded 1 3 (by decide)
  · exact intText_padded 2 0 (by decide)
  · unfold SecondsFit InInt
    decide
  all_goals decide +kernel

/-- Two words only: the next two lines are shown as well. -/
example : srtRead [b!"1", b!"00:00:01,000 -->  ", b!"Hello", b!"", b!"2"] =
    .error (.subrip 2 b!"00:00:01,000 -->" b!"a time/position line" [b!"1", b!"00:00:01,000 -->  ", b!"Hello", b!""]) :=
  C96_reported [b!"1"] [] rfl (by decide +kernel) _ _ _ _ 2 (.words _ 2 (by decide +kernel) (by decide) (by decide +kernel) (by decide +kernel))

/-- C96: when a time line is expected, a line is accepted if and only if it is a good time line. -/
theorem C96_accepted_iff (A : List Str) (subs : List Raw) (hA : srtRead A = .ok subs) (hp : placeAfter .counter A = .times) (l : Str) :
    srtRead (A ++ [l]) = .ok subs ↔ GoodTimes 44 (cleanLine l) := by
  obtain ⟨rs, hr⟩ := at_times A subs hA hp
  constructor
  · intro h
    rcases times_cases 44 b!"a time/position line" (cleanLine l) with hg | hg | ⟨saw, e, k, hg⟩
    · exact hg
    · rw [hr, srtMetadata_huge hg] at h; cases h
    · rw [hr, srtMetadata_bad hg] at h; cases h
  · intro h
    obtain ⟨rs', e⟩ := srtMetadata_good (n := A.length + 1) (ctx := lastN 5 ((A ++ [l]).map cleanLine)) (rest := []) (rs := rs) h
    rw [hr, e]
    rfl

/-- Seven words, as with the extension for positions. -/
example : GoodTimes 44 b!"0:0:1,5  -->  0:0:2,+7 X1:0 X2:10 Y1:5 Y2:20" :=
  (C96_accepted_iff [b!"1"] [] rfl (by decide +kernel) b!"0:0:1,5  -->  0:0:2,+7 X1:0 X2:10 Y1:5 Y2:20").1 (by
    have : (srtRead ([b!"1"] ++ [b!"0:0:1,5  -->  0:0:2,+7 X1:0 X2:10 Y1:5 Y2:20"])).toOption.map List.length = some 0 := by decide +kernel
    cases e : srtRead ([b!"1"] ++ [b!"0:0:1,5  -->  0:0:2,+7 X1:0 X2:10 Y1:5 Y2:20"]) with
    | ok v => rw [e] at this; simpa [Except.toOption] using this
    | error er => rw [e] at this; cases this)

/-- C96: when a time line is expected, the behaviour is undefined at that line if and only if it has the form of a time line
with hours, minutes or seconds that are too large. -/
theorem C96_undefined_iff (A : List Str) (subs : List Raw) (hA : srtRead A = .ok subs) (hp : placeAfter .counter A = .times) (l : Str) :
    srtRead (A ++ [l]) = .error (.ub .intOverflow) ↔ HugeTimes 44 (cleanLine l) := by
  obtain ⟨rs, hr⟩ := at_times A subs hA hp
  constructor
  · intro h
    rcases times_cases 44 b!"a time/position line" (cleanLine l) with hg | hg | ⟨saw, e, k, hg⟩
    · rw [(C96_accepted_iff A subs hA hp l).2 hg] at h; cases h
    · exact hg
    · rw [hr, srtMetadata_bad hg] at h; cases h
  · intro h
    rw [hr, srtMetadata_huge h]
    rfl

example : HugeTimes 44 b!"600000:00:00,000 --> 600000:00:01,000" :=
  (C96_undefined_iff [b!"1"] [] rfl (by decide +kernel) b!"600000:00:00,000 --> 600000:00:01,000").1 (by decide +kernel)

/-- C96: there is no fourth case, and the report is determined by the line: two diagnoses of one line are the same. -/
theorem C96_exactly_one (l : Str) :
    (GoodTimes 44 l ∨ HugeTimes 44 l ∨ ∃ saw e k, BadTimes 44 b!"a time/position line" l saw e k) ∧
    ¬ (GoodTimes 44 l ∧ HugeTimes 44 l) ∧
    (∀ saw e k, BadTimes 44 b!"a time/position line" l saw e k → ¬ GoodTimes 44 l ∧ ¬ HugeTimes 44 l ∧
      ∀ saw' e' k', BadTimes 44 b!"a time/position line" l saw' e' k' → saw' = saw ∧ e' = e) := by
  refine ⟨times_cases _ _ _, ?_, ?_⟩
  · rintro ⟨hg, hh⟩
    obtain ⟨rs', e⟩ := srtMetadata_good (n := 0) (ctx := []) (rest := []) (rs := srtFresh) hg
    rw [srtMetadata_huge hh] at e
    cases e
  · intro saw e k hb
    have hb' := srtMetadata_bad (n := 0) (ctx := []) (rest := []) (rs := srtFresh) hb
    refine ⟨fun hg => ?_, fun hh => ?_, fun saw' e' k' h' => ?_⟩
    · obtain ⟨rs', e⟩ := srtMetadata_good (n := 0) (ctx := []) (rest := []) (rs := srtFresh) hg
      rw [hb'] at e
      cases e
    · rw [srtMetadata_huge hh] at hb'
      cases hb'
    · rw [srtMetadata_bad h'] at hb'
      simp only [Except.error.injEq, Err.subrip.injEq] at hb'
      exact ⟨hb'.2.1, hb'.2.2.1⟩

/-- A leading space makes an empty first word: three words become four. -/
example : wordsOf b!" a --> b " = [[], b!"a", b!"-->", b!"b"] ∧ wordsOf b!"a   -->  b  " = [b!"a", b!"-->", b!"b"] ∧ wordsOf b!"" = [[]] ∧ wordsOf b!"   " = [[]] := by
  decide +kernel

/-- The arrow is not looked at. -/
example : (srtRead [b!"1", b!"0:0:1,0 anything 0:0:2,0", b!"Hello"]).toOption.map (·.map Raw.text) = some [b!"Hello"] := by decide +kernel

end LibSub
