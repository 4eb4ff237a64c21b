/-
Property C133, second part: how reading a SubRip file fails, exactly.
-/
import Verif.Props.TagFails
import Verif.Props.SubRipExact
import Verif.Props.Incremental

namespace LibSub

/-! ### Specification -/

/-- How many font tags are open after a tag or character. -/
def depthAfter (d : Nat) : Tok → Nat
  | .fontOpen _ => d + 1
  | .fontClose => d - 1
  | _ => d

/-- How a tag fails when `d` font tags are open, in line `n` with `ctx` shown as context. -/
inductive TokFails (n : Nat) (ctx : List Str) : Nat → Tok → Err → Prop
  | font (d : Nat) (arg : Str) (e : Err) : FontFails n ctx arg e → TokFails n ctx d (.fontOpen arg) e
  /-- Closing a font tag when none is open is undefined behaviour. -/
  | close : TokFails n ctx 0 .fontClose (.ub .emptyContainer)
  | override (d : Nat) (arg : Str) (e : Err) : TagFails { resX := 288, resY := 288, primaryColour := ⟨1, 1, 1⟩ } arg e → TokFails n ctx d (.ssa arg) e

/-- The first failure among tags and characters. -/
inductive ToksFail (n : Nat) (ctx : List Str) : Nat → List Tok → Err → Prop
  | here (d : Nat) (x : Tok) (ts : List Tok) (e : Err) : TokFails n ctx d x e → ToksFail n ctx d (x :: ts) e
  | later (d : Nat) (x : Tok) (ts : List Tok) (e : Err) : (∀ e', ¬ TokFails n ctx d x e') → ToksFail n ctx (depthAfter d x) ts e → ToksFail n ctx d (x :: ts) e

/-- How a line of text fails.  No font tags are open at its start. -/
def TextFails (n : Nat) (ctx : List Str) (t : Str) (e : Err) : Prop := ∃ toks, SrtWritten t toks ∧ ToksFail n ctx 0 toks e

/-- The first failure among parts of lines, `k` parts having gone before in the cue.  Parts are numbered in an `int`. -/
inductive PartsFail (n : Nat) (ctx : List Str) : Nat → List Str → Err → Prop
  | text (k : Nat) (t : Str) (ts : List Str) (e : Err) : TextFails n ctx t e → PartsFail n ctx k (t :: ts) e
  | number (k : Nat) (t : Str) (ts : List Str) : (∀ e, ¬ TextFails n ctx t e) → 2 ^ 31 ≤ k + 1 → PartsFail n ctx k (t :: ts) (.ub .intOverflow)
  | later (k : Nat) (t : Str) (ts : List Str) (e : Err) : (∀ e, ¬ TextFails n ctx t e) → k + 1 < 2 ^ 31 → PartsFail n ctx (k + 1) ts e → PartsFail n ctx k (t :: ts) e

/-- The last lines of `A` are text lines of a cue, of `k` parts altogether. -/
def CueParts (A : List Str) (k : Nat) : Prop :=
  ∃ A0 m T, ∃ text : List (Str × List Str), A = A0 ++ m :: T ∧ placeAfter .counter A0 = .times ∧ T.map cleanLine = text.map (·.1) ∧ (∀ x ∈ text, x.1 ≠ [] ∧ LineParts x.1 x.2) ∧
    k = (text.flatMap (·.2)).length

/-- How line `l` of a file fails, after the lines `A` and before the lines `B`. -/
inductive SrtLineFails (A : List Str) (l : Str) (B : List Str) : Err → Prop
  | times (saw ex : Str) (k : Nat) : placeAfter .counter A = .times → BadTimes 44 b!"a time/position line" (cleanLine l) saw ex k →
      SrtLineFails A l B (.subrip (A.length + 1) saw ex (lastN 5 ((A ++ [l]).map cleanLine) ++ B.take k))
  | hugeTimes : placeAfter .counter A = .times → HugeTimes 44 (cleanLine l) → SrtLineFails A l B (.ub .intOverflow)
  | text (k : Nat) (ps : List Str) (e : Err) : placeAfter .counter A = .text → cleanLine l ≠ [] → CueParts A k → LineParts (cleanLine l) ps →
      PartsFail (A.length + 1) (lastN 5 ((A ++ [l]).map cleanLine)) k ps e → SrtLineFails A l B e

/-! ### Lines -/

private theorem maybeContent_colours (s : SrtLine) : s.maybeContent.colours = s.colours := by
  unfold SrtLine.maybeContent
  split <;> rfl

theorem exec_error (n : Nat) (ctx : List Str) (s : SrtLine) (d : Nat) (hd : s.colours.length = d + 1) (x : Tok) (e : Err) : s.exec n ctx x = .error e ↔ TokFails n ctx d x e := by
  have hne : s.colours ≠ [] := by
    intro h
    rw [h] at hd
    cases hd
  have hc : (s.maybeContent.colours).isEmpty = false := by
    rw [maybeContent_colours]
    simpa using hne
  cases x with
  | bold b => exact ⟨fun h => (by cases h), fun h => by cases h⟩
  | italic b => exact ⟨fun h => (by cases h), fun h => by cases h⟩
  | underline b => exact ⟨fun h => (by cases h), fun h => by cases h⟩
  | chr c => exact ⟨fun h => (by cases h), fun h => by cases h⟩
  | fontOpen arg =>
    have : s.exec n ctx (.fontOpen arg) = .error e ↔ fontColour n ctx arg = .error e := by
      unfold SrtLine.exec
      cases h : fontColour n ctx arg with
      | ok c => simp [h, ok_bind]
      | error e' => simp [h, error_bind]
    rw [this, C133_font]
    exact ⟨fun h => .font d arg e h, fun h => by cases h; assumption⟩
  | ssa arg =>
    have : s.exec n ctx (.ssa arg) = .error e ↔ ssaParseTag srtSsaContext s.p arg = .error e := by
      unfold SrtLine.exec
      cases h : ssaParseTag srtSsaContext s.p arg with
      | ok c => simp [h, ok_bind]
      | error e' => simp [h, error_bind]
    rw [this, C133_tag]
    exact ⟨fun h => .override d arg e h, fun h => by cases h; assumption⟩
  | fontClose =>
    unfold SrtLine.exec
    simp only [hc]
    rw [if_neg (by simp), maybeContent_colours]
    cases d with
    | zero =>
      obtain ⟨c, hcs⟩ := List.length_eq_one_iff.1 hd
      rw [hcs]
      constructor
      · intro h
        cases h
        exact .close
      · intro h
        cases h
        rfl
    | succ d =>
      have : ∃ c, s.colours.dropLast.getLast? = some c := by
        cases h : s.colours.dropLast.getLast? with
        | some c => exact ⟨c, rfl⟩
        | none =>
          rw [List.getLast?_eq_none_iff] at h
          have := congrArg List.length h
          rw [List.length_dropLast, hd] at this
          simp at this
      obtain ⟨c, h⟩ := this
      rw [h]
      exact ⟨fun h => (by cases h), fun h => by cases h⟩

theorem exec_depth (n : Nat) (ctx : List Str) (s s' : SrtLine) (d : Nat) (hd : s.colours.length = d + 1) (x : Tok) (h : s.exec n ctx x = .ok s') :
    s'.colours.length = depthAfter d x + 1 ∧ s'.p.vpos.line = s.p.vpos.line := by
  have hp : s.maybeContent.p.vpos.line = s.p.vpos.line := by
    unfold SrtLine.maybeContent
    split <;> rfl
  have hm := maybeContent_colours s
  cases x with
  | bold b => cases h; exact ⟨(congrArg _ hm).trans hd, hp⟩
  | italic b => cases h; exact ⟨(congrArg _ hm).trans hd, hp⟩
  | underline b => cases h; exact ⟨(congrArg _ hm).trans hd, hp⟩
  | chr c => cases h; exact ⟨hd, rfl⟩
  | fontOpen arg =>
    unfold SrtLine.exec at h
    obtain ⟨c, h1, h2⟩ := bind_eq_ok.1 h
    cases h2
    refine ⟨?_, hp⟩
    simp [hm, hd, depthAfter]
  | ssa arg =>
    unfold SrtLine.exec at h
    obtain ⟨q, h1, h2⟩ := bind_eq_ok.1 h
    cases h2
    refine ⟨hd, ?_⟩
    have := (C117_tag _ _ _ _).1 h1
    cases this <;> rfl
  | fontClose =>
    have hc : (s.maybeContent.colours).isEmpty = false := by
      rw [hm]
      cases h : s.colours with
      | nil => rw [h] at hd; cases hd
      | cons => rfl
    unfold SrtLine.exec at h
    simp only [hc] at h
    rw [if_neg (by simp)] at h
    split at h
    · cases h
      refine ⟨?_, hp⟩
      rename_i c hcs
      simp only [List.length_dropLast, hm, hd, depthAfter]
      rw [hm] at hcs
      have : s.colours.dropLast ≠ [] := by
        intro h
        rw [h] at hcs
        cases hcs
      have := List.length_pos_iff.2 this
      rw [List.length_dropLast, hd] at this
      omega
    · cases h

theorem toks_error (n : Nat) (ctx : List Str) (ts : List Tok) (e : Err) : ∀ (s : SrtLine) (d : Nat), s.colours.length = d + 1 → (runToks n ctx s ts = .error e ↔ ToksFail n ctx d ts e) := by
  induction ts with
  | nil => intro s d _; exact ⟨fun h => (by cases h), fun h => by cases h⟩
  | cons x ts ih =>
    intro s d hd
    rw [runToks]
    cases h : s.exec n ctx x with
    | error e' =>
      have hx := (exec_error n ctx s d hd x e').1 h
      constructor
      · intro h'
        cases h'
        exact .here d x ts e hx
      · intro h'
        cases h' with
        | here _ _ _ _ h1 =>
          rw [(exec_error n ctx s d hd x e).2 h1] at h
          cases h
          rfl
        | later _ _ _ _ h1 => exact absurd hx (h1 e')
    | ok s' =>
      have hn : ∀ e', ¬ TokFails n ctx d x e' := by
        intro e' he
        rw [(exec_error n ctx s d hd x e').2 he] at h
        cases h
      refine (ih s' _ (exec_depth n ctx s s' d hd x h).1).trans ?_
      constructor
      · exact fun h' => .later d x ts e hn h'
      · intro h'
        cases h' with
        | here _ _ _ _ h1 => exact absurd h1 (hn e)
        | later _ _ _ _ _ h1 => exact h1

theorem toks_line (n : Nat) (ctx : List Str) (ts : List Tok) : ∀ (s s' : SrtLine) (d : Nat), s.colours.length = d + 1 → runToks n ctx s ts = .ok s' → s'.p.vpos.line = s.p.vpos.line := by
  induction ts with
  | nil => intro s s' d _ h; cases h; rfl
  | cons x ts ih =>
    intro s s' d hd h
    rw [runToks] at h
    obtain ⟨s1, h1, h2⟩ := bind_eq_ok.1 h
    obtain ⟨k1, k2⟩ := exec_depth n ctx s s1 d hd x h1
    exact (ih s1 s' _ k1 h2).trans k2

/-- C133: how a line of text fails. -/
theorem C133_line (n : Nat) (ctx : List Str) (t : Str) (p : Raw) (subs : List Raw) (e : Err) : convertLine n ctx t p subs = .error e ↔ TextFails n ctx t e := by
  rw [convertLine_eq]
  show ((srtRun n ctx ⟨p, [⟨1, 1, 1⟩], subs⟩ t).bind fun z => .ok (srtEndLine z)) = _ ↔ _
  have hb : ∀ x : R SrtLine, (x.bind fun z => (.ok (srtEndLine z) : R (Raw × List Raw))) = .error e ↔ x = .error e := by
    intro x
    cases x with
    | ok z => exact ⟨fun h => (by cases h), fun h => by cases h⟩
    | error e' => exact ⟨fun h => (by cases h; rfl), fun h => by cases h; rfl⟩
  rw [hb]
  constructor
  · intro h
    obtain ⟨toks, ht⟩ := written_exist t
    rw [srtRun_written ht, toks_error n ctx toks e _ 0 rfl] at h
    exact ⟨toks, ht, h⟩
  · rintro ⟨toks, ht, h⟩
    rw [srtRun_written ht, toks_error n ctx toks e _ 0 rfl]
    exact h

/-- Closing twice what was opened once. -/
example : TextFails 3 [] b!"<font color=#000000>a</font>b</FONT>c" (.ub .emptyContainer) := (C133_line 3 [] _ {} [] _).1 (by decide +kernel)

/-- The first failure counts. -/
example : TextFails 3 [b!"x"] b!"a{\\c0}b</font>" (.ssa b!"Badly formatted colour tag ") ∧ ∀ e, ¬ TextFails 3 [b!"x"] b!"<i>a {\\an8}</b>" e :=
  ⟨(C133_line 3 [b!"x"] _ {} [] _).1 (by decide +kernel), fun e h => by
    have h := (C133_line 3 [b!"x"] _ {} [] _).2 h
    have : (convertLine 3 [b!"x"] b!"<i>a {\\an8}</b>" {} []).toOption.isSome := by decide +kernel
    rw [h] at this
    cases this⟩

theorem convertLine_number (n : Nat) (ctx : List Str) (t : Str) (p q : Raw) (subs out : List Raw) (h : convertLine n ctx t p subs = .ok (q, out)) : q.vpos.line = p.vpos.line := by
  rw [convertLine_eq] at h
  change ((srtRun n ctx ⟨p, [⟨1, 1, 1⟩], subs⟩ t).bind fun z => .ok (srtEndLine z)) = _ at h
  obtain ⟨toks, ht⟩ := written_exist t
  rw [srtRun_written ht] at h
  obtain ⟨z, h1, h2⟩ := bind_eq_ok.1 h
  have := toks_line n ctx toks _ z 0 rfl h1
  have e : (srtEndLine z).1.vpos.line = z.p.vpos.line := by
    unfold srtEndLine SrtLine.maybeContent
    dsimp only
    split <;> rfl
  injection h2 with h2
  rw [h2] at e
  exact e.trans this

/-! ### Cues -/

theorem parts_error (n : Nat) (ctx : List Str) (ps : List Str) (e : Err) : ∀ (k : Nat) (p : Raw) (subs : List Raw), p.vpos.line = some (k : Int) →
    (convertSubLines n ctx ps p subs = .error e ↔ PartsFail n ctx k ps e) := by
  induction ps with
  | nil => intro k p subs _; exact ⟨fun h => (by cases h), fun h => by cases h⟩
  | cons t ps ih =>
    intro k p subs hk
    rw [convertSubLines]
    cases h : convertLine n ctx t p subs with
    | error e' =>
      have ht := (C133_line n ctx t p subs e').1 h
      rw [error_bind]
      constructor
      · intro h'
        cases h'
        exact .text k t ps e ht
      · intro h'
        cases h' with
        | text _ _ _ _ h1 =>
          rw [(C133_line n ctx t p subs e).2 h1] at h
          cases h
          rfl
        | number _ _ _ h1 => exact absurd ht (h1 e')
        | later _ _ _ _ h1 => exact absurd ht (h1 e')
    | ok q =>
      obtain ⟨q, out⟩ := q
      have hn : ∀ e', ¬ TextFails n ctx t e' := by
        intro e' he
        rw [(C133_line n ctx t p subs e').2 he] at h
        cases h
      have hq := (convertLine_number n ctx t p q subs out h).trans hk
      rw [ok_bind]
      simp only
      rw [hq, optGet, ok_bind]
      by_cases hb : k + 1 < 2 ^ 31
      · rw [ck_ok (by unfold InInt; omega), ok_bind]
        refine (ih (k + 1) _ out (by simp)).trans ?_
        constructor
        · exact fun h' => .later k t ps e hn hb h'
        · intro h'
          cases h' with
          | text _ _ _ _ h1 => exact absurd h1 (hn e)
          | number _ _ _ _ h1 => omega
          | later _ _ _ _ _ _ h1 => exact h1
      · have : ck ((k : Int) + 1) = .error (.ub .intOverflow) := if_neg (by unfold InInt; omega)
        rw [this, error_bind]
        constructor
        · intro h'
          cases h'
          exact .number k t ps hn (by omega)
        · intro h'
          cases h' with
          | text _ _ _ _ h1 => exact absurd h1 (hn e)
          | number _ _ _ _ h1 => rfl
          | later _ _ _ _ _ h1 => omega

theorem parts_number (n : Nat) (ctx : List Str) (ps : List Str) : ∀ (k : Nat) (p q : Raw) (subs out : List Raw), p.vpos.line = some (k : Int) →
    convertSubLines n ctx ps p subs = .ok (q, out) → q.vpos.line = some ((k + ps.length : Nat) : Int) := by
  induction ps with
  | nil => intro k p q subs out hk h; cases h; exact hk
  | cons t ps ih =>
    intro k p q subs out hk h
    rw [convertSubLines] at h
    obtain ⟨⟨q1, out1⟩, h1, h2⟩ := bind_eq_ok.1 h
    have hq := (convertLine_number n ctx t p q1 subs out1 h1).trans hk
    simp only at h2
    rw [hq, optGet, ok_bind] at h2
    obtain ⟨l, h3, h4⟩ := bind_eq_ok.1 h2
    obtain ⟨_, rfl⟩ := ck_eq_ok.1 h3
    have := ih (k + 1) _ q out1 out (by simp) h4
    rw [this, List.length_cons, show k + 1 + ps.length = k + (ps.length + 1) by omega]

/-! ### Files -/

/-- Where the reader is after some lines. -/
theorem srt_state (A : List Str) (subs : List Raw) (h : srtRead A = .ok subs) : ∃ rs,
    (∀ B, srtRead (A ++ B) = srtLines A.length (srtPlace (placeAfter .counter A)) (lastN 5 (A.map cleanLine)) rs subs B) ∧
    (placeAfter .counter A = .times → rs = srtFresh) ∧ (placeAfter .counter A = .text → ∃ k : Nat, CueParts A k ∧ rs.vpos.line = some (k : Int)) := by
  induction A using List.reverseRecOn generalizing subs with
  | nil =>
    cases h
    exact ⟨srtFresh, fun B => rfl, fun _ => rfl, fun h => by cases h⟩
  | append_singleton A l ih =>
    obtain ⟨s0, h0, -⟩ := srtRead_prefix A [l] subs h
    obtain ⟨rs, h1, h2, h3⟩ := ih s0 h0
    have hctx : pushContext (lastN 5 (A.map cleanLine)) (cleanLine l) = lastN 5 ((A ++ [l]).map cleanLine) := by
      rw [pushContext_lastN, List.map_append]; rfl
    have hlen : (A ++ [l]).length = A.length + 1 := by simp
    have hpl : placeAfter .counter (A ++ [l]) = placeAfter (placeAfter .counter A) [l] := placeAfter_append _ _ _
    rw [h1] at h
    have hall : ∀ B, srtRead (A ++ [l] ++ B) = srtLines A.length (srtPlace (placeAfter .counter A)) (lastN 5 (A.map cleanLine)) rs s0 (l :: B) := by
      intro B
      rw [List.append_assoc, h1]
      rfl
    cases hp : placeAfter .counter A with
    | counter =>
      rw [hp] at hpl hall h
      by_cases hl : cleanLine l = []
      · rw [placeAfter, if_pos hl, placeAfter] at hpl
        have e : ∀ B, srtLines A.length .counter (lastN 5 (A.map cleanLine)) rs s0 (l :: B) = srtLines (A.length + 1) .counter (lastN 5 ((A ++ [l]).map cleanLine)) rs s0 B := by
          intro B
          rw [← hctx, srtLines]
          exact if_pos hl
        rw [srtPlace, e] at h
        cases h
        rw [hpl, hlen]
        refine ⟨rs, fun B => (hall B).trans (e B), fun h => (by cases h), fun h => (by cases h)⟩
      · rw [placeAfter, if_neg hl, placeAfter] at hpl
        have e : ∀ B, srtLines A.length .counter (lastN 5 (A.map cleanLine)) rs s0 (l :: B) = srtLines (A.length + 1) .metadata (lastN 5 ((A ++ [l]).map cleanLine)) srtFresh s0 B := by
          intro B
          rw [← hctx, srtLines]
          exact if_neg hl
        rw [srtPlace, e] at h
        cases h
        rw [hpl, hlen]
        refine ⟨srtFresh, fun B => (hall B).trans (e B), fun _ => rfl, fun h => (by cases h)⟩
    | times =>
      rw [hp] at hpl hall h
      rw [placeAfter, placeAfter] at hpl
      have e : ∀ B, srtLines A.length .metadata (lastN 5 (A.map cleanLine)) rs s0 (l :: B) =
          (srtMetadata (A.length + 1) (lastN 5 ((A ++ [l]).map cleanLine)) (cleanLine l) B rs).bind
            (fun rs => srtLines (A.length + 1) .content (lastN 5 ((A ++ [l]).map cleanLine)) rs s0 B) := by
        intro B
        rw [← hctx, srtLines]
        rfl
      rw [srtPlace, e] at h
      obtain ⟨rs', k1, k2⟩ := bind_eq_ok.1 h
      cases k2
      have hm : ∀ B, srtMetadata (A.length + 1) (lastN 5 ((A ++ [l]).map cleanLine)) (cleanLine l) B rs = .ok rs' := fun B => ((srtMetadata_okEq ..).iff _).1 k1
      rw [hpl, hlen]
      refine ⟨rs', fun B => (hall B).trans ?_, fun h => (by cases h), fun _ => ⟨0, ⟨A, l, [], [], rfl, hp, rfl, by simp, rfl⟩, ?_⟩⟩
      · rw [srtPlace, e, hm]
        rfl
      · obtain ⟨f, t, -, -, -, rfl⟩ := srtMetadata_only k1
        rw [h2 hp]
        rfl
    | text =>
      rw [hp] at hpl hall h
      by_cases hl : cleanLine l = []
      · rw [placeAfter, if_pos hl, placeAfter] at hpl
        have e : ∀ B, srtLines A.length .content (lastN 5 (A.map cleanLine)) rs s0 (l :: B) = srtLines (A.length + 1) .counter (lastN 5 ((A ++ [l]).map cleanLine)) rs s0 B := by
          intro B
          rw [← hctx, srtLines]
          exact if_pos hl
        rw [srtPlace, e] at h
        cases h
        rw [hpl, hlen]
        refine ⟨rs, fun B => (hall B).trans (e B), fun h => (by cases h), fun h => (by cases h)⟩
      · rw [placeAfter, if_neg hl, placeAfter] at hpl
        have e : ∀ B, srtLines A.length .content (lastN 5 (A.map cleanLine)) rs s0 (l :: B) =
            (convertSubLines (A.length + 1) (lastN 5 ((A ++ [l]).map cleanLine)) (splitStr lineSep (cleanLine l)) rs s0).bind
              (fun q => srtLines (A.length + 1) .content (lastN 5 ((A ++ [l]).map cleanLine)) q.1 q.2 B) := by
          intro B
          rw [← hctx, srtLines]
          exact if_neg hl
        rw [srtPlace, e] at h
        obtain ⟨⟨q, out⟩, k1, k2⟩ := bind_eq_ok.1 h
        cases k2
        obtain ⟨k, hk, hline⟩ := h3 hp
        obtain ⟨ps, hps⟩ := lineParts_exist (cleanLine l)
        rw [lineParts_split hps] at k1 e
        rw [hpl, hlen]
        refine ⟨q, fun B => (hall B).trans ?_, fun h => (by cases h), fun _ => ⟨k + ps.length, ?_, parts_number _ _ ps k rs q s0 _ hline k1⟩⟩
        · rw [srtPlace, e, k1]
          rfl
        · obtain ⟨A0, m, T, text, rfl, g1, g2, g3, rfl⟩ := hk
          refine ⟨A0, m, T ++ [l], text ++ [(cleanLine l, ps)], by simp, g1, by simp [g2], ?_, by simp⟩
          intro x hx
          rcases List.mem_append.1 hx with hx | hx
          · exact g3 x hx
          · rw [List.mem_singleton] at hx
            rw [hx]
            exact ⟨hl, hps⟩

/-! ### C133, SubRip -/

private theorem place_text (T : List Str) (h : ∀ l ∈ T, cleanLine l ≠ []) : placeAfter .text T = .text := by
  induction T with
  | nil => rfl
  | cons l T ih =>
    rw [placeAfter, if_neg (h l (by simp))]
    exact ih (fun x hx => h x (by simp [hx]))

theorem texts_unique {text text' : List (Str × List Str)} (e : text.map (·.1) = text'.map (·.1)) (h : ∀ x ∈ text, LineParts x.1 x.2) (h' : ∀ x ∈ text', LineParts x.1 x.2) : text = text' := by
  induction text generalizing text' with
  | nil =>
    cases text' with
    | nil => rfl
    | cons => cases e
  | cons x text ih =>
    cases text' with
    | nil => cases e
    | cons y text' =>
      injection e with e5 e6
      rw [ih e6 (fun z hz => h z (by simp [hz])) (fun z hz => h' z (by simp [hz]))]
      obtain ⟨x1, x2⟩ := x
      obtain ⟨y1, y2⟩ := y
      simp only at e5
      subst e5
      have a := lineParts_split (h _ (List.mem_cons_self ..))
      have b := lineParts_split (h' _ (List.mem_cons_self ..))
      have : x2 = y2 := a.symm.trans b
      rw [this]

private theorem cueParts_unique {A : List Str} {k k' : Nat} (h : CueParts A k) (h' : CueParts A k') : k = k' := by
  obtain ⟨A0, m, T, text, rfl, h1, h2, h3, rfl⟩ := h
  obtain ⟨B0, m', T', text', e, h1', h2', h3', rfl⟩ := h'
  have key : ∀ (A0 B0 T T' : List Str) (m m' : Str) (text : List (Str × List Str)), A0 ++ m :: T = B0 ++ m' :: T' → placeAfter .counter A0 = .times → placeAfter .counter B0 = .times →
      T.map cleanLine = text.map (·.1) → (∀ x ∈ text, x.1 ≠ [] ∧ LineParts x.1 x.2) → B0.length ≤ A0.length := by
    intro A0 B0 T T' m m' text e p1 p2 g1 g2
    rcases List.append_eq_append_iff.1 e with ⟨Z, rfl, hz⟩ | ⟨Z, rfl, hz⟩
    · cases Z with
      | nil => simp
      | cons z Z =>
        exfalso
        injection hz with hz1 hz2
        rw [placeAfter_append, p1, placeAfter, place_text Z] at p2
        · cases p2
        · intro l hl
          have : cleanLine l ∈ T.map cleanLine := List.mem_map_of_mem (by rw [hz2]; simp [hl])
          rw [g1] at this
          obtain ⟨x, hx, hx'⟩ := List.mem_map.1 this
          rw [← hx']
          exact (g2 x hx).1
    · simp
  have hl : A0.length = B0.length := Nat.le_antisymm (key B0 A0 T' T m' m text' e.symm h1' h1 h2' h3') (key A0 B0 T T' m m' text e h1 h1' h2 h3)
  obtain ⟨-, e2⟩ := List.append_inj e hl
  injection e2 with _ e3
  subst e3
  rw [texts_unique (h2.symm.trans h2') (fun x hx => (h3 x hx).2) (fun x hx => (h3' x hx).2)]

/-- A line that fails makes the file fail, whatever follows. -/
private theorem line_fails (A : List Str) (l : Str) (B : List Str) (subs : List Raw) (hA : srtRead A = .ok subs) (e : Err) (h : SrtLineFails A l B e) : srtRead (A ++ l :: B) = .error e := by
  cases h with
  | times saw ex k hp hb => exact C96_reported A subs hA hp l B saw ex k hb
  | hugeTimes hp hh =>
    obtain ⟨rs, h1, -⟩ := srt_state A subs hA
    rw [h1, hp, srtPlace, srtLines]
    have := srtMetadata_huge (n := A.length + 1) (ctx := pushContext (lastN 5 (A.map cleanLine)) (cleanLine l)) (rest := B) (rs := rs) hh
    show (do let rs ← srtMetadata (A.length + 1) (pushContext (lastN 5 (A.map cleanLine)) (cleanLine l)) (cleanLine l) B rs; _) = _
    rw [this]
    rfl
  | text k ps e hp hl hk hps hf =>
    obtain ⟨rs, h1, -, h3⟩ := srt_state A subs hA
    obtain ⟨k', hk', hline⟩ := h3 hp
    have := cueParts_unique hk hk'
    subst this
    have hctx : pushContext (lastN 5 (A.map cleanLine)) (cleanLine l) = lastN 5 ((A ++ [l]).map cleanLine) := by
      rw [pushContext_lastN, List.map_append]; rfl
    have e1 : srtLines A.length .content (lastN 5 (A.map cleanLine)) rs subs (l :: B) =
        (convertSubLines (A.length + 1) (lastN 5 ((A ++ [l]).map cleanLine)) (splitStr lineSep (cleanLine l)) rs subs).bind
          (fun q => srtLines (A.length + 1) .content (lastN 5 ((A ++ [l]).map cleanLine)) q.1 q.2 B) := by
      rw [← hctx, srtLines]
      exact if_neg hl
    rw [h1, hp, srtPlace, e1, lineParts_split hps, (parts_error _ _ ps e k rs subs hline).2 hf]
    rfl

/-- C133: a SubRip file cannot be read, for reason `e`, exactly if it has a line that fails for that reason after lines that can be read. -/
theorem C133_subrip (lines : List Str) (e : Err) :
    srtRead lines = .error e ↔ ∃ A l B subs, lines = A ++ l :: B ∧ srtRead A = .ok subs ∧ SrtLineFails A l B e := by
  constructor
  · intro h
    obtain ⟨A, l, B, rfl, ⟨subs, hA⟩, hbad⟩ := first_bad srtRead ⟨[], rfl⟩ lines (fun x hx => by rw [h] at hx; cases hx)
    refine ⟨A, l, B, subs, rfl, hA, ?_⟩
    obtain ⟨rs, h1, -, h3⟩ := srt_state A subs hA
    have hctx : pushContext (lastN 5 (A.map cleanLine)) (cleanLine l) = lastN 5 ((A ++ [l]).map cleanLine) := by
      rw [pushContext_lastN, List.map_append]; rfl
    cases hp : placeAfter .counter A with
    | counter =>
      exfalso
      rw [h1, hp, srtPlace, srtLines] at hbad
      by_cases hl : cleanLine l = []
      · exact hbad _ (if_pos hl)
      · exact hbad _ (if_neg hl)
    | times =>
      rcases times_cases 44 b!"a time/position line" (cleanLine l) with hg | hg | ⟨saw, ex, k, hg⟩
      · exact absurd ((C96_accepted_iff A subs hA hp l).2 hg) (hbad _)
      · have := line_fails A l B subs hA _ (.hugeTimes hp hg)
        rw [h] at this
        cases this
        exact .hugeTimes hp hg
      · have := line_fails A l B subs hA _ (.times saw ex k hp hg)
        rw [h] at this
        cases this
        exact .times saw ex k hp hg
    | text =>
      obtain ⟨k, hk, hline⟩ := h3 hp
      have e1 : ∀ B, cleanLine l ≠ [] → srtLines A.length .content (lastN 5 (A.map cleanLine)) rs subs (l :: B) =
          (convertSubLines (A.length + 1) (lastN 5 ((A ++ [l]).map cleanLine)) (splitStr lineSep (cleanLine l)) rs subs).bind
            (fun q => srtLines (A.length + 1) .content (lastN 5 ((A ++ [l]).map cleanLine)) q.1 q.2 B) := by
        intro B hl
        rw [← hctx, srtLines]
        exact if_neg hl
      by_cases hl : cleanLine l = []
      · rw [h1, hp, srtPlace, srtLines] at hbad
        exact absurd (if_pos hl) (hbad subs)
      · obtain ⟨ps, hps⟩ := lineParts_exist (cleanLine l)
        rw [h1, hp, srtPlace, e1 _ hl, lineParts_split hps] at hbad h
        cases hc : convertSubLines (A.length + 1) (lastN 5 ((A ++ [l]).map cleanLine)) ps rs subs with
        | ok q => rw [hc] at hbad; exact absurd rfl (hbad q.2)
        | error e' =>
          rw [hc] at h
          cases h
          exact .text k ps e hp hl hk hps ((parts_error _ _ ps e k rs subs hline).1 hc)
  · rintro ⟨A, l, B, subs, rfl, hA, h⟩
    exact line_fails A l B subs hA e h

/-- The fourth line closes a font tag that is not open, in a file where nothing is wrong before. -/
example (B : List Str) : srtRead ([b!"1", b!"00:00:01,000 --> 00:00:02,000", b!"Hello"] ++ b!"there</font>\r" :: B) = .error (.ub .emptyContainer) := by
  obtain ⟨A, l, B', subs, e, hA, h⟩ := (C133_subrip ([b!"1", b!"00:00:01,000 --> 00:00:02,000", b!"Hello"] ++ [b!"there</font>\r"]) (.ub .emptyContainer)).1 (by decide +kernel)
  obtain ⟨subs, hs⟩ : ∃ subs, srtRead [b!"1", b!"00:00:01,000 --> 00:00:02,000", b!"Hello"] = .ok subs := by
    have : (srtRead [b!"1", b!"00:00:01,000 --> 00:00:02,000", b!"Hello"]).toOption.isSome := by decide +kernel
    cases h : srtRead [b!"1", b!"00:00:01,000 --> 00:00:02,000", b!"Hello"] with
    | ok v => exact ⟨v, rfl⟩
    | error e => rw [h] at this; cases this
  refine (C133_subrip _ _).2 ⟨_, _, B, subs, rfl, hs, .text 1 [b!"there</font>"] _ (by decide +kernel) (by decide +kernel) ⟨[b!"1"], _, [b!"Hello"], [(b!"Hello", [b!"Hello"])], rfl, by decide +kernel,
    by decide +kernel, ?_, rfl⟩ ⟨by simp, by decide +kernel, ?_⟩ (.text _ _ _ _ ((C133_line _ _ _ {} [] _).1 (by decide +kernel)))⟩
  · simp only [List.mem_singleton, forall_eq]
    exact ⟨by decide, by simp, by decide, by decide⟩
  · decide

/-! ### Consequences -/

/-- C133: a file has a meaning unless it fails as said. -/
theorem C133_subrip_means (lines : List Str) :
    (∃ subs, SrtFile (lines.map cleanLine) subs) ↔ ∀ e A l B subs, lines = A ++ l :: B → SrtFile (A.map cleanLine) subs → ¬ SrtLineFails A l B e := by
  constructor
  · rintro ⟨subs, h⟩ e A l B subs' h1 h2 h3
    have := (C133_subrip lines e).2 ⟨A, l, B, subs', h1, (C116_exact A subs').2 h2, h3⟩
    rw [(C116_exact lines subs).2 h] at this
    cases this
  · intro hn
    cases h : srtRead lines with
    | ok subs => exact ⟨subs, (C116_exact lines subs).1 h⟩
    | error e =>
      obtain ⟨A, l, B, subs, h1, h2, h3⟩ := (C133_subrip lines e).1 h
      exact absurd h3 (hn e A l B subs h1 ((C116_exact A subs).1 h2))

example : ∃ subs, SrtFile ([b!"1", b!"00:00:01,000 --> 00:00:02,000", b!"Hello"].map cleanLine) subs :=
  (C133_subrip_means _).2 fun e A l B subs h1 h2 h3 => by
    have := (C133_subrip _ e).2 ⟨A, l, B, subs, h1, (C116_exact A subs).2 h2, h3⟩
    have hs : (srtRead [b!"1", b!"00:00:01,000 --> 00:00:02,000", b!"Hello"]).toOption.isSome := by decide +kernel
    rw [this] at hs
    cases hs

end LibSub
