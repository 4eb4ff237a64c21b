/-
Lemmas about the SubRip reader model.
-/
import Verif.Model.SubRip
import Verif.Lemmas.Split
import Verif.Lemmas.Time

namespace LibSub

/-! ### Tokens -/

theorem nextTok_shorter (c : Byte) (cs : Str) : (nextTok c cs).2.length ≤ cs.length := by
  unfold nextTok
  simp only
  repeat' split
  all_goals simp [List.length_drop]

theorem srtLoop_fuel (n : Nat) (ctx : List Str) (f f' : Nat) (s : SrtLine) (t : Str) (h : t.length ≤ f) (h' : t.length ≤ f') :
    srtLoop n ctx f s t = srtLoop n ctx f' s t := by
  induction f generalizing f' s t with
  | zero => cases t with
    | nil => cases f' <;> rfl
    | cons c cs => simp at h
  | succ f ih =>
    cases t with
    | nil => cases f' <;> rfl
    | cons c cs =>
      cases f' with
      | zero => simp at h'
      | succ f' =>
        rw [srtLoop, srtLoop]
        cases s.exec n ctx (nextTok c cs).1 with
        | error e => rfl
        | ok s' =>
          simp only [ok_bind]
          have := nextTok_shorter c cs
          simp only [List.length_cons] at h h'
          exact ih _ _ _ (by omega) (by omega)

/-- The loop of `convert_line` with enough fuel. -/
def srtRun (n : Nat) (ctx : List Str) (s : SrtLine) (t : Str) : R SrtLine := srtLoop n ctx t.length s t

theorem srtRun_nil (n : Nat) (ctx : List Str) (s : SrtLine) : srtRun n ctx s [] = .ok s := rfl

theorem srtRun_cons (n : Nat) (ctx : List Str) (s : SrtLine) (c : Byte) (cs : Str) :
    srtRun n ctx s (c :: cs) = (s.exec n ctx (nextTok c cs).1).bind (fun s' => srtRun n ctx s' (nextTok c cs).2) := by
  unfold srtRun
  rw [List.length_cons, srtLoop]
  cases s.exec n ctx (nextTok c cs).1 with
  | error e => rfl
  | ok s' => exact srtLoop_fuel _ _ _ _ _ _ (nextTok_shorter c cs) le_rfl

theorem convertLine_eq (n : Nat) (ctx : List Str) (t : Str) (p : Raw) (subs : List Raw) :
    convertLine n ctx t p subs = (srtRun n ctx ⟨p, [⟨1, 1, 1⟩], subs⟩ t).bind (fun s =>
      .ok ((SrtLine.maybeContent ⟨{ s.p with text := replaceAll s.p.text rle [] }, s.colours, s.subs⟩).p,
        (SrtLine.maybeContent ⟨{ s.p with text := replaceAll s.p.text rle [] }, s.colours, s.subs⟩).subs)) := rfl

theorem lowerByte_eq_iff (c : Byte) : (lowerByte c = 60 ↔ c = 60) ∧ (lowerByte c = 123 ↔ c = 123) :=
  forall_byte (p := fun c => (lowerByte c = 60 ↔ c = 60) ∧ (lowerByte c = 123 ↔ c = 123)) (by decide +kernel) c

/-- Two-byte prefix of a pattern. -/
theorem hasNext_two {a b : Byte} {ps t : Str} (h : hasNext t (a :: b :: ps) = true) :
    ∃ c d r, t = c :: d :: r ∧ lowerByte c = a ∧ lowerByte d = b := by
  unfold hasNext at h
  rw [beq_iff_eq] at h
  match t with
  | [] => simp [toLower] at h
  | [c] => simp [toLower] at h
  | c :: d :: r =>
    refine ⟨c, d, r, rfl, ?_, ?_⟩
    · simp only [List.length_cons, List.take_succ_cons, toLower, List.map_cons, List.cons.injEq] at h
      exact h.1
    · simp only [List.length_cons, List.take_succ_cons, toLower, List.map_cons, List.cons.injEq] at h
      exact h.2.1

/-- A byte that cannot start a tag whatever follows `r`. -/
def PlainAt (c : Byte) (r : Str) : Prop :=
  (c = 60 → ∃ d r', r = d :: r' ∧ d ∉ b!"bBiIuUfF/") ∧ (c = 123 → ∃ d r', r = d :: r' ∧ d ∉ b!"bBiIuU/\\")

theorem lower_tag (d : Byte) :
    (lowerByte d ∈ b!"biuf/" → d ∈ b!"bBiIuUfF/") ∧ (lowerByte d ∈ b!"biu/\\" → d ∈ b!"bBiIuU/\\") :=
  forall_byte (p := fun d => (lowerByte d ∈ b!"biuf/" → d ∈ b!"bBiIuUfF/") ∧ (lowerByte d ∈ b!"biu/\\" → d ∈ b!"bBiIuU/\\"))
    (by decide +kernel) d

theorem plainAt_not60 {c : Byte} {r : Str} (h : PlainAt c r) (b : Byte) (ps : Str) (hb : b ∈ b!"biuf/") :
    hasNext (c :: r) (60 :: b :: ps) = false := by
  cases hn : hasNext (c :: r) (60 :: b :: ps) with
  | false => rfl
  | true =>
    obtain ⟨c', d, r', e, h1, h2⟩ := hasNext_two hn
    cases e
    obtain ⟨d', r'', e, h3⟩ := h.1 ((lowerByte_eq_iff c).1.1 h1)
    cases e
    exact absurd ((lower_tag d).1 (h2 ▸ hb)) h3

theorem plainAt_not123 {c : Byte} {r : Str} (h : PlainAt c r) (b : Byte) (ps : Str) (hb : b ∈ b!"biu/\\") :
    hasNext (c :: r) (123 :: b :: ps) = false := by
  cases hn : hasNext (c :: r) (123 :: b :: ps) with
  | false => rfl
  | true =>
    obtain ⟨c', d, r', e, h1, h2⟩ := hasNext_two hn
    cases e
    obtain ⟨d', r'', e, h3⟩ := h.2 ((lowerByte_eq_iff c).2.1 h1)
    cases e
    exact absurd ((lower_tag d).2 (h2 ▸ hb)) h3

theorem nextTok_plain {c : Byte} {r : Str} (h : PlainAt c r) : nextTok c r = (.chr c, r) := by
  unfold nextTok
  simp only [plainAt_not60 h _ _ (show (98 : Byte) ∈ b!"biuf/" by decide), plainAt_not60 h _ _ (show (105 : Byte) ∈ b!"biuf/" by decide),
    plainAt_not60 h _ _ (show (117 : Byte) ∈ b!"biuf/" by decide), plainAt_not60 h _ _ (show (102 : Byte) ∈ b!"biuf/" by decide),
    plainAt_not60 h _ _ (show (47 : Byte) ∈ b!"biuf/" by decide),
    plainAt_not123 h _ _ (show (98 : Byte) ∈ b!"biu/\\" by decide), plainAt_not123 h _ _ (show (105 : Byte) ∈ b!"biu/\\" by decide),
    plainAt_not123 h _ _ (show (117 : Byte) ∈ b!"biu/\\" by decide), plainAt_not123 h _ _ (show (47 : Byte) ∈ b!"biu/\\" by decide),
    plainAt_not123 h _ _ (show (92 : Byte) ∈ b!"biu/\\" by decide), Bool.or_self, Bool.false_eq_true, if_false]

/-- Text in which no tag starts, whatever follows it: each `<` is followed, within the text, by a byte that is not `/` or one of the
letters b, i, u, f of either case, and each `{` by one that is not `/`, backslash or b, i, u. -/
def PlainText (t : Str) : Prop := ∀ x c y, t = x ++ c :: y → PlainAt c y

theorem PlainText.head {c : Byte} {t : Str} (h : PlainText (c :: t)) (r : Str) : PlainAt c (t ++ r) := by
  have := h [] c t rfl
  refine ⟨fun e => ?_, fun e => ?_⟩
  · obtain ⟨d, r', rfl, hd⟩ := this.1 e
    exact ⟨d, r' ++ r, rfl, hd⟩
  · obtain ⟨d, r', rfl, hd⟩ := this.2 e
    exact ⟨d, r' ++ r, rfl, hd⟩

theorem PlainText.tail {c : Byte} {t : Str} (h : PlainText (c :: t)) : PlainText t :=
  fun x d y e => h (c :: x) d y (by simp [e])

theorem plainText_of {t : Str} (h1 : (60 : Byte) ∉ t) (h2 : (123 : Byte) ∉ t) : PlainText t := by
  rintro x c y rfl
  refine ⟨?_, ?_⟩
  · rintro rfl; exact absurd (by simp) h1
  · rintro rfl; exact absurd (by simp) h2

/-- A test for `PlainText`. -/
def plainTextB : Str → Bool
  | [] => true
  | c :: cs =>
    (c != 60 || cs.head?.any (fun d => !(b!"bBiIuUfF/".contains d))) &&
    (c != 123 || cs.head?.any (fun d => !(b!"bBiIuU/\\".contains d))) && plainTextB cs

theorem plainText_of_b {t : Str} (h : plainTextB t = true) : PlainText t := by
  induction t with
  | nil => rintro x c y e; simp at e
  | cons d t ih =>
    rw [plainTextB, Bool.and_eq_true, Bool.and_eq_true] at h
    rintro x c y e
    cases x with
    | cons x0 x =>
      simp only [List.cons_append, List.cons.injEq] at e
      exact ih h.2 x c y e.2
    | nil =>
      simp only [List.nil_append, List.cons.injEq] at e
      obtain ⟨rfl, rfl⟩ := e
      refine ⟨?_, ?_⟩
      · rintro rfl
        have := h.1.1
        cases t with
        | nil => simp at this
        | cons d t => exact ⟨d, t, rfl, by simpa using this⟩
      · rintro rfl
        have := h.1.2
        cases t with
        | nil => simp at this
        | cons d t => exact ⟨d, t, rfl, by simpa using this⟩

/-- Plain text is appended to the text under construction. -/
theorem srtRun_text (n : Nat) (ctx : List Str) (s : SrtLine) {t : Str} (h : PlainText t) (r : Str) :
    srtRun n ctx s (t ++ r) = srtRun n ctx ⟨{ s.p with text := s.p.text ++ t }, s.colours, s.subs⟩ r := by
  induction t generalizing s with
  | nil => simp
  | cons c t ih =>
    rw [List.cons_append, srtRun_cons, nextTok_plain (h.head r)]
    simp only [SrtLine.exec]
    show srtRun n ctx _ (t ++ r) = _
    rw [ih _ h.tail]
    simp

theorem hasNext_append {a s : Str} (r : Str) (h : a.length = s.length) : hasNext (a ++ r) s = (toLower a == s) := by
  unfold hasNext
  rw [← h, List.take_left']
  rfl

/-! ### Results do not depend on the line number or the context -/

/-- Equal successful results. -/
structure OkEq {α : Type} (a b : R α) : Prop where
  iff : ∀ v, a = .ok v ↔ b = .ok v

theorem OkEq.refl {α : Type} (a : R α) : OkEq a a := ⟨fun _ => Iff.rfl⟩
theorem OkEq.symm {α : Type} {a b : R α} (h : OkEq a b) : OkEq b a := ⟨fun v => (h.iff v).symm⟩
theorem OkEq.trans {α : Type} {a b c : R α} (h : OkEq a b) (h' : OkEq b c) : OkEq a c := ⟨fun v => (h.iff v).trans (h'.iff v)⟩

theorem OkEq.bind {α β : Type} {a b : R α} {f g : α → R β} (h : OkEq a b) (hf : ∀ v, OkEq (f v) (g v)) :
    OkEq (a >>= f) (b >>= g) := by
  refine ⟨fun v => ?_⟩
  simp only [bind_eq_ok]
  constructor
  · rintro ⟨x, hx, hv⟩; exact ⟨x, (h.iff x).1 hx, ((hf x).iff v).1 hv⟩
  · rintro ⟨x, hx, hv⟩; exact ⟨x, (h.iff x).2 hx, ((hf x).iff v).2 hv⟩

theorem OkEq.error {α : Type} (e e' : Err) : OkEq (.error e : R α) (.error e') := by
  refine ⟨fun v => ?_⟩; constructor <;> intro h <;> cases h

theorem fontColour_okEq (n n' : Nat) (ctx ctx' : List Str) (tag : Str) : OkEq (fontColour n ctx tag) (fontColour n' ctx' tag) := by
  unfold fontColour
  split
  · split
    · exact .refl _
    · split
      · exact .refl _
      · exact .error _ _
  · split
    · exact .refl _
    · exact .error _ _

theorem exec_okEq (n n' : Nat) (ctx ctx' : List Str) (s : SrtLine) (t : Tok) : OkEq (s.exec n ctx t) (s.exec n' ctx' t) := by
  cases t with
  | fontOpen tag => exact OkEq.bind (fontColour_okEq ..) (fun _ => .refl _)
  | _ => exact .refl _

theorem srtLoop_okEq (n n' : Nat) (ctx ctx' : List Str) (f : Nat) (s : SrtLine) (t : Str) :
    OkEq (srtLoop n ctx f s t) (srtLoop n' ctx' f s t) := by
  induction f generalizing s t with
  | zero => cases t <;> exact .refl _
  | succ f ih =>
    cases t with
    | nil => exact .refl _
    | cons c cs =>
      rw [srtLoop, srtLoop]
      exact OkEq.bind (exec_okEq ..) (fun _ => ih _ _)

theorem convertLine_okEq (n n' : Nat) (ctx ctx' : List Str) (t : Str) (p : Raw) (subs : List Raw) :
    OkEq (convertLine n ctx t p subs) (convertLine n' ctx' t p subs) :=
  OkEq.bind (srtLoop_okEq ..) (fun _ => .refl _)

theorem convertSubLines_okEq (n n' : Nat) (ctx ctx' : List Str) (ts : List Str) (p : Raw) (subs : List Raw) :
    OkEq (convertSubLines n ctx ts p subs) (convertSubLines n' ctx' ts p subs) := by
  induction ts generalizing p subs with
  | nil => exact .refl _
  | cons t ts ih =>
    rw [convertSubLines, convertSubLines]
    refine OkEq.bind (convertLine_okEq ..) (fun v => ?_)
    exact OkEq.bind (.refl _) (fun _ => OkEq.bind (.refl _) (fun _ => ih _ _))

theorem srtMetadata_okEq (n n' : Nat) (ctx ctx' : List Str) (line : Str) (rest rest' : List Str) (rs : Raw) :
    OkEq (srtMetadata n ctx line rest rs) (srtMetadata n' ctx' line rest' rs) := by
  unfold srtMetadata
  simp only
  split
  · exact .error _ _
  · refine OkEq.bind (.refl _) (fun v => ?_)
    cases v with
    | error e => exact .error _ _
    | ok a =>
      refine OkEq.bind (.refl _) (fun w => ?_)
      cases w with
      | error e => exact .error _ _
      | ok b => exact .refl _

/-- What `read` makes of a line before looking at it. -/
def cleanLine (raw : Str) : Str := removeBom (trimRightIf isNlCr raw)

/-- Successful results depend only on the cleaned lines. -/
theorem srtLines_okEq (n n' : Nat) (st : SrtState) (ctx ctx' : List Str) (rs : Raw) (subs : List Raw) (ls ls' : List Str)
    (h : ls.map cleanLine = ls'.map cleanLine) : OkEq (srtLines n st ctx rs subs ls) (srtLines n' st ctx' rs subs ls') := by
  induction ls generalizing n n' st ctx ctx' rs subs ls' with
  | nil =>
    cases ls' with
    | nil => exact .refl _
    | cons l ls' => simp at h
  | cons l ls ih =>
    cases ls' with
    | nil => simp at h
    | cons l' ls' =>
      simp only [List.map_cons, List.cons.injEq] at h
      have hc : removeBom (trimRightIf isNlCr l) = removeBom (trimRightIf isNlCr l') := h.1
      cases st with
      | counter =>
        rw [srtLines, srtLines]
        simp only [hc]
        split
        · exact ih _ _ _ _ _ _ _ _ h.2
        · exact ih _ _ _ _ _ _ _ _ h.2
      | metadata =>
        rw [srtLines, srtLines]
        simp only [hc]
        exact OkEq.bind (srtMetadata_okEq ..) (fun _ => ih _ _ _ _ _ _ _ _ h.2)
      | content =>
        rw [srtLines, srtLines]
        simp only [hc]
        split
        · exact ih _ _ _ _ _ _ _ _ h.2
        · exact OkEq.bind (convertSubLines_okEq ..) (fun _ => ih _ _ _ _ _ _ _ _ h.2)

/-! ### Accumulated subtitles -/

/-- The subtitles already emitted are only added to. -/
def addSubs (pre : List Raw) (s : SrtLine) : SrtLine := ⟨s.p, s.colours, pre ++ s.subs⟩

theorem maybeContent_add (pre : List Raw) (s : SrtLine) : (addSubs pre s).maybeContent = addSubs pre s.maybeContent := by
  unfold SrtLine.maybeContent addSubs
  simp only
  split <;> simp

theorem exec_add (n : Nat) (ctx : List Str) (pre : List Raw) (s : SrtLine) (t : Tok) :
    (addSubs pre s).exec n ctx t = (s.exec n ctx t).map (addSubs pre) := by
  cases t with
  | fontOpen tag =>
    simp only [SrtLine.exec, maybeContent_add]
    cases fontColour n ctx tag <;> rfl
  | fontClose =>
    simp only [SrtLine.exec, maybeContent_add]
    generalize s.maybeContent = s'
    show (if s'.colours.isEmpty = true then _ else _) = _
    by_cases h : s'.colours.isEmpty = true
    · rw [if_pos h, if_pos h]; rfl
    · rw [if_neg h, if_neg h]
      have e : (addSubs pre s').colours = s'.colours := rfl
      rw [e]
      cases s'.colours.dropLast.getLast? <;> rfl
  | ssa tag =>
    simp only [SrtLine.exec, addSubs]
    cases ssaParseTag srtSsaContext s.p tag <;> rfl
  | bold b => simp only [SrtLine.exec, maybeContent_add]; rfl
  | italic b => simp only [SrtLine.exec, maybeContent_add]; rfl
  | underline b => simp only [SrtLine.exec, maybeContent_add]; rfl
  | chr c => rfl

theorem srtLoop_add (n : Nat) (ctx : List Str) (pre : List Raw) (f : Nat) (s : SrtLine) (t : Str) :
    srtLoop n ctx f (addSubs pre s) t = (srtLoop n ctx f s t).map (addSubs pre) := by
  induction f generalizing s t with
  | zero => cases t <;> rfl
  | succ f ih =>
    cases t with
    | nil => rfl
    | cons c cs =>
      rw [srtLoop, srtLoop, exec_add]
      cases s.exec n ctx (nextTok c cs).1 with
      | error e => rfl
      | ok s' => exact ih _ _

theorem convertLine_add (n : Nat) (ctx : List Str) (t : Str) (p : Raw) (pre subs : List Raw) :
    convertLine n ctx t p (pre ++ subs) = (convertLine n ctx t p subs).map (fun q => (q.1, pre ++ q.2)) := by
  rw [convertLine_eq, convertLine_eq]
  unfold srtRun
  rw [show (⟨p, [⟨1, 1, 1⟩], pre ++ subs⟩ : SrtLine) = addSubs pre ⟨p, [⟨1, 1, 1⟩], subs⟩ from rfl, srtLoop_add]
  cases srtLoop n ctx t.length ⟨p, [⟨1, 1, 1⟩], subs⟩ t with
  | error e => rfl
  | ok s =>
    show Except.ok _ = Except.ok _
    congr 1
    have := maybeContent_add pre ⟨{ s.p with text := replaceAll s.p.text rle [] }, s.colours, s.subs⟩
    simp only [addSubs] at this ⊢
    rw [this]

theorem convertSubLines_add (n : Nat) (ctx : List Str) (ts : List Str) (p : Raw) (pre subs : List Raw) :
    convertSubLines n ctx ts p (pre ++ subs) = (convertSubLines n ctx ts p subs).map (fun q => (q.1, pre ++ q.2)) := by
  induction ts generalizing p subs with
  | nil => rfl
  | cons t ts ih =>
    rw [convertSubLines, convertSubLines, convertLine_add]
    cases convertLine n ctx t p subs with
    | error e => rfl
    | ok q =>
      show (optGet q.1.vpos.line >>= _) = Except.map _ (optGet q.1.vpos.line >>= _)
      cases optGet q.1.vpos.line with
      | error e => rfl
      | ok l =>
        show (ck (l + 1) >>= _) = Except.map _ (ck (l + 1) >>= _)
        cases ck (l + 1) with
        | error e => rfl
        | ok l' => exact ih _ _

theorem srtLines_add (n : Nat) (st : SrtState) (ctx : List Str) (rs : Raw) (pre subs : List Raw) (ls : List Str) :
    srtLines n st ctx rs (pre ++ subs) ls = (srtLines n st ctx rs subs ls).map (pre ++ ·) := by
  induction ls generalizing n st ctx rs subs with
  | nil => rfl
  | cons l ls ih =>
    cases st with
    | counter =>
      rw [srtLines, srtLines]
      split
      · exact ih ..
      · exact ih ..
    | metadata =>
      rw [srtLines, srtLines]
      cases srtMetadata (n + 1) (pushContext ctx (removeBom (trimRightIf isNlCr l))) (removeBom (trimRightIf isNlCr l)) ls rs with
      | error e => rfl
      | ok rs' => exact ih ..
    | content =>
      rw [srtLines, srtLines]
      simp only
      split
      · exact ih ..
      · rw [convertSubLines_add]
        cases convertSubLines (n + 1) (pushContext ctx (removeBom (trimRightIf isNlCr l))) (splitStr lineSep (removeBom (trimRightIf isNlCr l))) rs subs with
        | error e => rfl
        | ok q => exact ih ..

/-- In the counter state the subtitle under construction does not matter. -/
theorem srtLines_counter (n : Nat) (ctx : List Str) (rs rs' : Raw) (subs : List Raw) (ls : List Str) :
    srtLines n .counter ctx rs subs ls = srtLines n .counter ctx rs' subs ls := by
  induction ls generalizing n ctx with
  | nil => rfl
  | cons l ls ih =>
    rw [srtLines, srtLines]
    split
    · exact ih ..
    · rfl

/-- Reading from the counter state is the same as starting afresh. -/
theorem srtLines_counter_okEq (n : Nat) (ctx : List Str) (rs : Raw) (subs : List Raw) (ls : List Str) :
    OkEq (srtLines n .counter ctx rs subs ls) ((srtRead ls).map (subs ++ ·)) := by
  unfold srtRead
  rw [← srtLines_add, List.append_nil, srtLines_counter n ctx rs srtFresh]
  exact srtLines_okEq _ _ _ _ _ _ _ _ _ rfl

theorem bind_assoc_R {α β γ : Type} (x : R α) (f : α → R β) (g : β → R γ) : (x.bind f).bind g = x.bind (fun a => (f a).bind g) := by
  cases x <;> rfl

/-! ### The reader as a fold over lines, ignoring what errors say -/

/-- State, subtitle under construction and subtitles so far. -/
abbrev SrtSt := SrtState × Raw × List Raw

/-- What one line does. -/
def srtStep (s : SrtSt) (raw : Str) : R SrtSt :=
  match s.1 with
  | .counter => if cleanLine raw = [] then .ok s else .ok (.metadata, srtFresh, s.2.2)
  | .metadata => (srtMetadata 0 [] (cleanLine raw) [] s.2.1).bind (fun rs => .ok (.content, rs, s.2.2))
  | .content =>
    if cleanLine raw = [] then .ok (.counter, s.2)
    else (convertSubLines 0 [] (splitStr lineSep (cleanLine raw)) s.2.1 s.2.2).bind (fun q => .ok (.content, q))

/-- What a list of lines does. -/
def srtFold (s : SrtSt) : List Str → R SrtSt
  | [] => .ok s
  | l :: ls => (srtStep s l).bind (fun s' => srtFold s' ls)

theorem srtFold_append (s : SrtSt) (a b : List Str) : srtFold s (a ++ b) = (srtFold s a).bind (fun s' => srtFold s' b) := by
  induction a generalizing s with
  | nil => rfl
  | cons l a ih =>
    rw [List.cons_append, srtFold, srtFold]
    cases srtStep s l with
    | error e => rfl
    | ok s' => exact ih s'

theorem srtLines_fold (n : Nat) (st : SrtState) (ctx : List Str) (rs : Raw) (subs : List Raw) (ls : List Str) :
    OkEq (srtLines n st ctx rs subs ls) ((srtFold (st, rs, subs) ls).bind (fun s => .ok s.2.2)) := by
  induction ls generalizing n st ctx rs subs with
  | nil => exact .refl _
  | cons l ls ih =>
    rw [srtFold]
    cases st with
    | counter =>
      rw [srtLines, srtStep]
      simp only
      unfold cleanLine
      split
      · exact ih ..
      · exact ih ..
    | metadata =>
      rw [srtLines, srtStep]
      simp only
      unfold cleanLine
      rw [bind_assoc_R, bind_assoc_R]
      exact OkEq.bind (srtMetadata_okEq ..) (fun rs => ih ..)
    | content =>
      rw [srtLines, srtStep]
      simp only
      unfold cleanLine
      split
      · exact ih ..
      · rw [bind_assoc_R, bind_assoc_R]
        exact OkEq.bind (convertSubLines_okEq ..) (fun q => ih ..)

theorem srtRead_ok_iff (ls : List Str) (subs : List Raw) :
    srtRead ls = .ok subs ↔ ∃ st rs, srtFold (.counter, srtFresh, []) ls = .ok (st, rs, subs) := by
  rw [srtRead, (srtLines_fold _ _ _ _ _ _).iff]
  constructor
  · intro h
    obtain ⟨s, h1, h2⟩ := bind_eq_ok.1 h
    cases h2
    exact ⟨s.1, s.2.1, h1⟩
  · rintro ⟨st, rs, h⟩
    rw [h]
    rfl

end LibSub
