import Verif.Props.SsaTagExact

/-!
# C117: what a line of SSA dialogue means
-/

namespace LibSub

/-! ### Specification -/

/-- What a line of dialogue is made of. -/
inductive SsaTok where
  | chr (c : Byte)
  | tags (ts : List Str)
  | br

/-- No backslash and no closing brace. -/
def NoTagMarks (s : Str) : Prop := ∀ c ∈ s, c ≠ 92 ∧ c ≠ 125

/-- Tags one after the other, each introduced by a backslash. -/
def tagText (bs : List Str) : Str := (bs.map (fun b => 92 :: b)).flatten

/-- How a line of dialogue is written.
* Carriage returns and line feeds count for nothing.
* `\n` and `\N` break the line; a backslash before any other character makes both disappear, and one at the end of the line disappears.
* In braces, each backslash begins a tag.  Anything before the first is a comment.
* When the closing brace is missing, all the tags to the end of the line are read but the last. -/
inductive SsaWritten : Str → List SsaTok → Prop
  | done : SsaWritten [] []
  | chr (c : Byte) (t : Str) (ts : List SsaTok) : c ≠ 123 → c ≠ 92 → c ≠ 13 → c ≠ 10 → SsaWritten t ts → SsaWritten (c :: t) (.chr c :: ts)
  | dropped (c : Byte) (t : Str) (ts : List SsaTok) : c = 13 ∨ c = 10 → SsaWritten t ts → SsaWritten (c :: t) ts
  | br (c : Byte) (t : Str) (ts : List SsaTok) : c = 110 ∨ c = 78 → SsaWritten t ts → SsaWritten (92 :: c :: t) (.br :: ts)
  | escape (c : Byte) (t : Str) (ts : List SsaTok) : c ≠ 110 → c ≠ 78 → SsaWritten t ts → SsaWritten (92 :: c :: t) ts
  | backslash : SsaWritten [92] []
  | group (a : Str) (bs : List Str) (t : Str) (ts : List SsaTok) : NoTagMarks a → (∀ b ∈ bs, NoTagMarks b) → SsaWritten t ts →
      SsaWritten (123 :: (a ++ (tagText bs ++ 125 :: t))) (.tags (bs.map (fun b => 92 :: b)) :: ts)
  | openGroup (a : Str) (bs : List Str) : NoTagMarks a → (∀ b ∈ bs, NoTagMarks b) →
      SsaWritten (123 :: (a ++ tagText bs)) [.tags (bs.dropLast.map (fun b => 92 :: b))]

/-- A position one line height `h` further down the screen. -/
def LowerBy (h : ℚ) (v v' : VPos) : Prop :=
  ∃ ref p, v.ref = some ref ∧ v.prop = some p ∧ v' = { v with prop := some (f32 (f64 (if ref = .bottomOfScreen then p - h else p + h))) }

/-- The pieces of a line, before they are put in their final places: a piece ends where there are tags or a break. -/
inductive SsaPieces (ctx : SsaContext) (h : ℚ) : Raw → List SsaTok → List Raw → Prop
  | last (p : Raw) (text : Str) : SsaPieces ctx h p (text.map .chr) (subtitleOf p text)
  | tags (p p' : Raw) (text : Str) (tags : List Str) (ts : List SsaTok) (r : List Raw) : Overrides ctx p tags p' → SsaPieces ctx h p' ts r →
      SsaPieces ctx h p (text.map .chr ++ .tags tags :: ts) (subtitleOf p text ++ r)
  | br (p : Raw) (v : VPos) (text : Str) (ts : List SsaTok) (r : List Raw) : LowerBy h p.vpos v → SsaPieces ctx h { p with vpos := v } ts r →
      SsaPieces ctx h p (text.map .chr ++ .br :: ts) (subtitleOf p text ++ r)

/-- The final place of a piece of a line with `n` breaks of height `h`, given the margin of the style: the block of lines is
centred about the middle of the screen, or grows downwards from the top or upwards from the bottom. -/
def FinalPlace (margin : ℚ) (n : Nat) (h : ℚ) (s s' : Raw) : Prop :=
  ∃ ref p, s.vpos.ref = some ref ∧ s.vpos.prop = some p ∧
    s' = { s with vpos := { s.vpos with prop := some (
      match ref with
      | .topOfScreen | .topOfSubtitle => f32 (p + margin)
      | .centreOfScreen => f32 (f64 (p - f64 (f64 (((n + 1 : Nat) : ℚ) * h) / 2)))
      | .bottomOfScreen => f32 (f64 (f32 (p + margin) + f64 ((n : ℚ) * h)))) } }

/-- The number of places in a line where there is a backslash before an `n` or `N`. -/
def writtenBreaks (line : Str) : Nat := line.tails.countP (fun t => b!"\\n" <+: t ∨ b!"\\N" <+: t)

/-- The proportional font size of a style; 72 points when it has none. -/
def StyleSize (ctx : SsaContext) (base : Raw) (fs : ℚ) : Prop :=
  base.fontSize.prop = some fs ∨ (base.fontSize.prop = none ∧ ctx.resY ≠ 0 ∧ fs = f32 (f64 (72 / (ctx.resY : ℚ))))

/-- The subtitles that a line of dialogue gives. -/
def SsaLineMeans (ctx : SsaContext) (base : Raw) (line : Str) (subs : List Raw) : Prop :=
  ∃ x fs toks r, MarginShare ctx base.hpos.ref x ∧ StyleSize ctx base fs ∧ SsaWritten line toks ∧
    SsaPieces ctx (f64 (fs * f64 (6 / 5)))
      { base with
        hpos := ⟨base.hpos.ref, x⟩,
        vpos := { base.vpos with ref := some (base.vpos.ref.getD .bottomOfScreen), prop := some 0 },
        fontSize := { base.fontSize with prop := some fs } } toks r ∧
    List.Forall₂ (FinalPlace (base.vpos.prop.getD 0) (writtenBreaks line) (f64 (fs * f64 (6 / 5)))) r subs

/-! ### The breaks -/

theorem breaks_iff (line : Str) : ssaLineBreaks line = writtenBreaks line := by
  unfold writtenBreaks
  fun_induction ssaLineBreaks line with
  | case1 a b rest ih =>
    have e : decide (b!"\\n" <+: a :: b :: rest ∨ b!"\\N" <+: a :: b :: rest) = (a == 92 && (b == 110 || b == 78)) := by
      rw [Bool.eq_iff_iff]
      simp only [decide_eq_true_eq, Bool.and_eq_true, Bool.or_eq_true, beq_iff_eq, List.cons_prefix_cons, List.nil_prefix, and_true]
      constructor
      · rintro (⟨rfl, rfl⟩ | ⟨rfl, rfl⟩)
        · exact ⟨rfl, .inl rfl⟩
        · exact ⟨rfl, .inr rfl⟩
      · rintro ⟨rfl, rfl | rfl⟩
        · exact .inl ⟨rfl, rfl⟩
        · exact .inr ⟨rfl, rfl⟩
    rw [List.tails_cons, List.countP_cons, ih, Nat.add_comm, e]
  | case2 l h =>
    match l with
    | [] => decide
    | [a] => simp [List.tails, List.cons_prefix_cons]
    | a :: b :: rest => exact absurd rfl (h a b rest)

/-! ### The loop -/

/-- `parse_tag` for each of a list of tags. -/
def tagsRun (ctx : SsaContext) : Raw → List Str → R Raw
  | p, [] => .ok p
  | p, t :: ts => do
    let q ← ssaParseTag ctx p t
    tagsRun ctx q ts

theorem tagsRun_iff (ctx : SsaContext) (p : Raw) (ts : List Str) (q : Raw) : tagsRun ctx p ts = .ok q ↔ Overrides ctx p ts q := by
  induction ts generalizing p with
  | nil =>
    constructor
    · intro h; cases h; exact .done _
    · intro h; cases h; rfl
  | cons t ts ih =>
    constructor
    · intro h
      obtain ⟨q', h1, h2⟩ := bind_eq_ok.1 h
      exact .tag _ q' _ _ _ ((C117_tag ctx _ _ _).1 h1) ((ih _).1 h2)
    · intro h
      cases h with
      | tag _ q' _ _ _ h1 h2 => exact bind_eq_ok.2 ⟨q', (C117_tag ctx _ _ _).2 h1, (ih _).2 h2⟩

theorem tagsRun_text {ctx : SsaContext} {p q : Raw} {ts : List Str} (h : tagsRun ctx p ts = .ok q) : q.text = p.text := by
  induction ts generalizing p with
  | nil => cases h; rfl
  | cons t ts ih =>
    obtain ⟨q', h1, h2⟩ := bind_eq_ok.1 h
    rw [ih h2, parseTag_text' h1]

/-- What the loop does, token by token. -/
def tokRun (ctx : SsaContext) (h : ℚ) : Raw → Str → List Raw → List SsaTok → R (List Raw)
  | p, x, subs, [] => .ok (subs ++ subtitleOf p x)
  | p, x, subs, .chr c :: ts => tokRun ctx h p (x ++ [c]) subs ts
  | p, x, subs, .tags tg :: ts => do
    let q ← tagsRun ctx p tg
    tokRun ctx h q [] (subs ++ subtitleOf p x) ts
  | p, x, subs, .br :: ts => do
    let v ← ssaMoveDown h p.vpos
    tokRun ctx h { p with vpos := v } [] (subs ++ subtitleOf p x) ts

/-- The state of the loop. -/
def loopAt (st : SsaState) (p : Raw) (x : Str) (subs : List Raw) (tag : Str) : SsaLoop :=
  { state := st, subs := subs, current := { p with text := x }, tag := tag }

theorem flush_loopAt (st : SsaState) (p : Raw) (x : Str) (subs : List Raw) (tag : Str) :
    (loopAt st p x subs tag).flush = loopAt st p [] (subs ++ subtitleOf p x) tag := by
  unfold SsaLoop.flush loopAt subtitleOf
  by_cases hx : x = []
  · simp [hx]
  · simp [hx, List.isEmpty_iff]

theorem parseTag_comment (ctx : SsaContext) (p : Raw) (a : Str) (ha : NoTagMarks a) : ssaParseTag ctx p a = .ok p := by
  cases a with
  | nil => simp [ssaParseTag, startsWith]
  | cons c a =>
    have hc := (ha c (by simp)).1
    simp [ssaParseTag, startsWith, hc, Ne.symm hc]

/-- Inside braces, up to the next backslash or brace. -/
theorem run_body (ctx : SsaContext) (h : ℚ) (p : Raw) (x : Str) (subs : List Raw) (tag s t : Str) (hs : NoTagMarks s) :
    ssaRun ctx h (loopAt .tag p x subs tag) (s ++ t) = ssaRun ctx h (loopAt .tag p x subs (tag ++ s)) t := by
  induction s generalizing tag with
  | nil => simp
  | cons c s ih =>
    obtain ⟨h1, h2⟩ := hs c (by simp)
    have e : ssaStep ctx h (loopAt .tag p x subs tag) c = .ok (loopAt .tag p x subs (tag ++ [c])) := by
      simp [ssaStep, loopAt, h1, h2]
    rw [List.cons_append, ssaRun, e, ok_bind, ih _ (fun d hd => hs d (by simp [hd]))]
    simp

theorem step_close (ctx : SsaContext) (h : ℚ) (p : Raw) (x : Str) (subs : List Raw) (tag : Str) :
    ssaStep ctx h (loopAt .tag p x subs tag) 125 =
      (ssaParseTag ctx p tag).map (fun q => loopAt .text q [] (subs ++ subtitleOf p x) []) := by
  have e : ssaStep ctx h (loopAt .tag p x subs tag) 125 = (do
      let l := (loopAt .tag p x subs tag).flush
      let cur ← ssaParseTag ctx l.current l.tag
      pure { l with current := cur, tag := [], state := .text }) := rfl
  rw [e, flush_loopAt]
  simp only [loopAt]
  rw [parseTag_text_free]
  cases hq : ssaParseTag ctx p tag with
  | error e => rfl
  | ok q => rfl

theorem step_next (ctx : SsaContext) (h : ℚ) (p : Raw) (x : Str) (subs : List Raw) (tag : Str) :
    ssaStep ctx h (loopAt .tag p x subs tag) 92 =
      (ssaParseTag ctx p tag).map (fun q => loopAt .tag q [] (subs ++ subtitleOf p x) [92]) := by
  have e : ssaStep ctx h (loopAt .tag p x subs tag) 92 = (do
      let l := (loopAt .tag p x subs tag).flush
      let cur ← ssaParseTag ctx l.current l.tag
      pure { l with current := cur, tag := [92] }) := rfl
  rw [e, flush_loopAt]
  simp only [loopAt]
  rw [parseTag_text_free]
  cases hq : ssaParseTag ctx p tag with
  | error e => rfl
  | ok q => rfl

/-- Tags and a closing brace. -/
theorem run_group (ctx : SsaContext) (h : ℚ) (bs : List Str) (p : Raw) (hp : p.text = []) (x : Str) (subs : List Raw) (tag t : Str)
    (hb : ∀ b ∈ bs, NoTagMarks b) :
    ssaRun ctx h (loopAt .tag p x subs tag) (tagText bs ++ 125 :: t) =
      (do let q ← tagsRun ctx p (tag :: bs.map (fun b => 92 :: b))
          ssaRun ctx h (loopAt .text q [] (subs ++ subtitleOf p x) []) t) := by
  induction bs generalizing p x subs tag with
  | nil =>
    show ssaRun ctx h _ (125 :: t) = _
    rw [ssaRun, step_close ctx h p]
    simp only [List.map_nil, tagsRun]
    cases ssaParseTag ctx p tag <;> rfl
  | cons b bs ih =>
    show ssaRun ctx h _ (92 :: ((b ++ tagText bs) ++ 125 :: t)) = _
    rw [ssaRun, step_next ctx h p, List.append_assoc]
    simp only [List.map_cons]
    rw [tagsRun]
    cases hq : ssaParseTag ctx p tag with
    | error e => rfl
    | ok q =>
      show ssaRun ctx h (loopAt .tag q [] (subs ++ subtitleOf p x) [92]) (b ++ (tagText bs ++ 125 :: t)) = _
      rw [run_body ctx h _ _ _ _ b _ (hb b (by simp)), ih q (by rw [parseTag_text' hq, hp]) _ _ _ (fun b' h' => hb b' (by simp [h']))]
      simp [subtitleOf]

/-- Tags with no closing brace. -/
theorem run_open (ctx : SsaContext) (h : ℚ) (bs : List Str) (p : Raw) (hp : p.text = []) (x : Str) (subs : List Raw) (tag : Str)
    (hb : ∀ b ∈ bs, NoTagMarks b) :
    (ssaRun ctx h (loopAt .tag p x subs tag) (tagText bs)).map (fun l => l.flush.subs) =
      (tagsRun ctx p (tag :: bs.map (fun b => 92 :: b)).dropLast).map (fun _ => subs ++ subtitleOf p x) := by
  induction bs generalizing p x subs tag with
  | nil =>
    show Except.ok ((loopAt .tag p x subs tag).flush.subs) = _
    rw [flush_loopAt]
    rfl
  | cons b bs ih =>
    show (ssaRun ctx h _ (92 :: (b ++ tagText bs))).map _ = _
    rw [ssaRun, step_next ctx h p]
    simp only [List.map_cons, List.dropLast_cons_cons]
    rw [tagsRun]
    cases hq : ssaParseTag ctx p tag with
    | error e => rfl
    | ok q =>
      show (ssaRun ctx h (loopAt .tag q [] (subs ++ subtitleOf p x) [92]) (b ++ tagText bs)).map _ = _
      rw [run_body ctx h _ _ _ _ b _ (hb b (by simp)), ih q (by rw [parseTag_text' hq, hp]) _ _ _ (fun b' h' => hb b' (by simp [h']))]
      simp [subtitleOf]

theorem run_toks (ctx : SsaContext) (h : ℚ) {line : Str} {toks : List SsaTok} (hw : SsaWritten line toks) (p : Raw) (hp : p.text = []) (x : Str)
    (subs : List Raw) :
    (ssaRun ctx h (loopAt .text p x subs []) line).map (fun l => l.flush.subs) = tokRun ctx h p x subs toks := by
  induction hw generalizing p x subs with
  | done =>
    show Except.ok ((loopAt .text p x subs []).flush.subs) = _
    rw [flush_loopAt]
    rfl
  | chr c t ts h1 h2 h3 h4 _ ih =>
    have e : ssaStep ctx h (loopAt .text p x subs []) c = .ok (loopAt .text p (x ++ [c]) subs []) := by simp [ssaStep, loopAt, h1, h2, h3, h4]
    rw [ssaRun, e, ok_bind, ih p hp, tokRun]
  | dropped c t ts hc _ ih =>
    have e : ssaStep ctx h (loopAt .text p x subs []) c = .ok (loopAt .text p x subs []) := by
      rcases hc with rfl | rfl <;> rfl
    rw [ssaRun, e, ok_bind, ih p hp]
  | br c t ts hc _ ih =>
    have e : ssaStep ctx h (loopAt .text p x subs []) 92 = .ok (loopAt .backslash p x subs []) := rfl
    have e2 : ssaStep ctx h (loopAt .backslash p x subs []) c = (do
        let l := (loopAt .backslash p x subs []).flush
        let v ← ssaMoveDown h l.current.vpos
        pure { l with current := { l.current with vpos := v }, state := .text }) := by
      rcases hc with rfl | rfl <;> rfl
    rw [ssaRun, e, ok_bind, ssaRun, e2, flush_loopAt, tokRun]
    show (((ssaMoveDown h p.vpos) >>= _) >>= _ : R _).map _ = _
    cases hv : ssaMoveDown h p.vpos with
    | error e => rfl
    | ok v => exact ih { p with vpos := v } hp _ _
  | escape c t ts h1 h2 _ ih =>
    have e : ssaStep ctx h (loopAt .text p x subs []) 92 = .ok (loopAt .backslash p x subs []) := rfl
    have e2 : ssaStep ctx h (loopAt .backslash p x subs []) c = .ok (loopAt .text p x subs []) := by simp [ssaStep, loopAt, h1, h2]
    rw [ssaRun, e, ok_bind, ssaRun, e2, ok_bind, ih p hp]
  | backslash =>
    have e : ssaStep ctx h (loopAt .text p x subs []) 92 = .ok (loopAt .backslash p x subs []) := rfl
    rw [ssaRun, e, ok_bind, ssaRun]
    show Except.ok ((loopAt .backslash p x subs []).flush.subs) = _
    rw [flush_loopAt]
    rfl
  | group a bs t ts ha hb _ ih =>
    have e : ssaStep ctx h (loopAt .text p x subs []) 123 = .ok (loopAt .tag p x subs []) := rfl
    rw [ssaRun, e, ok_bind, run_body _ _ _ _ _ _ a _ ha, run_group _ _ _ _ hp _ _ _ _ hb, List.nil_append, tagsRun, parseTag_comment _ _ _ ha, ok_bind, tokRun]
    cases hq : tagsRun ctx p (bs.map (fun b => 92 :: b)) with
    | error e => rfl
    | ok q => exact ih q (by rw [tagsRun_text hq, hp]) _ _
  | openGroup a bs ha hb =>
    have e : ssaStep ctx h (loopAt .text p x subs []) 123 = .ok (loopAt .tag p x subs []) := rfl
    rw [ssaRun, e, ok_bind, run_body _ _ _ _ _ _ a _ ha, run_open _ _ _ _ hp _ _ _ hb, List.nil_append, tokRun]
    have e3 : tagsRun ctx p (a :: bs.map (fun b => 92 :: b)).dropLast = tagsRun ctx p (bs.dropLast.map (fun b => 92 :: b)) := by
      cases bs with
      | nil => rfl
      | cons b bs =>
        rw [List.map_cons, List.dropLast_cons_cons, tagsRun, parseTag_comment _ _ _ ha, ok_bind, ← List.map_cons (f := fun b => 92 :: b), List.map_dropLast]
    rw [e3]
    cases hq : tagsRun ctx p (bs.dropLast.map (fun b => 92 :: b)) with
    | error e => rfl
    | ok q =>
      show Except.ok _ = tokRun ctx h q [] _ []
      simp [tokRun, subtitleOf]

/-! ### Every line is written in some way -/

theorem split_tags (body : Str) (hb : 125 ∉ body) : ∃ a bs, NoTagMarks a ∧ (∀ b ∈ bs, NoTagMarks b) ∧ body = a ++ tagText bs := by
  induction body with
  | nil => exact ⟨[], [], by simp [NoTagMarks], by simp, rfl⟩
  | cons c body ih =>
    obtain ⟨a, bs, ha, hbs, e⟩ := ih (fun h => hb (by simp [h]))
    have hc : c ≠ 125 := fun h => hb (by simp [h])
    by_cases h92 : c = 92
    · subst h92
      refine ⟨[], a :: bs, by simp [NoTagMarks], ?_, ?_⟩
      · intro b h
        rcases List.mem_cons.1 h with rfl | h
        · exact ha
        · exact hbs b h
      · rw [e]; simp [tagText]
    · refine ⟨c :: a, bs, ?_, hbs, by rw [e]; rfl⟩
      intro d hd
      rcases List.mem_cons.1 hd with rfl | hd
      · exact ⟨h92, hc⟩
      · exact ha d hd

theorem written_exists : ∀ (n : Nat) (line : Str), line.length ≤ n → ∃ toks, SsaWritten line toks
  | _, [], _ => ⟨[], .done⟩
  | 0, c :: t, h => by simp at h
  | n + 1, c :: t, h => by
    have hl : t.length ≤ n := by simpa using h
    by_cases h123 : c = 123
    · subst h123
      by_cases hm : (125 : Byte) ∈ t
      · obtain ⟨body, rest, e, hb⟩ := List.eq_append_cons_of_mem hm
        obtain ⟨a, bs, ha, hbs, e2⟩ := split_tags body hb
        obtain ⟨toks, ht⟩ := written_exists n rest (by rw [e] at hl; simp at hl; omega)
        refine ⟨.tags (bs.map (fun b => 92 :: b)) :: toks, ?_⟩
        rw [e, e2, List.append_assoc]
        exact .group a bs rest toks ha hbs ht
      · obtain ⟨a, bs, ha, hbs, e2⟩ := split_tags t hm
        refine ⟨[.tags (bs.dropLast.map (fun b => 92 :: b))], ?_⟩
        rw [e2]
        exact .openGroup a bs ha hbs
    · by_cases h92 : c = 92
      · subst h92
        match t, hl with
        | [], _ => exact ⟨[], .backslash⟩
        | d :: t, hl =>
          obtain ⟨toks, ht⟩ := written_exists n t (by simp at hl; omega)
          by_cases hd : d = 110 ∨ d = 78
          · exact ⟨_, .br d t toks hd ht⟩
          · exact ⟨_, .escape d t toks (fun h => hd (.inl h)) (fun h => hd (.inr h)) ht⟩
      · obtain ⟨toks, ht⟩ := written_exists n t hl
        by_cases hd : c = 13 ∨ c = 10
        · exact ⟨_, .dropped c t toks hd ht⟩
        · exact ⟨_, .chr c t toks h123 h92 (fun h => hd (.inl h)) (fun h => hd (.inr h)) ht⟩

/-! ### The pieces -/

theorem moveDown_iff (h : ℚ) (v v' : VPos) : ssaMoveDown h v = .ok v' ↔ LowerBy h v v' := by
  unfold ssaMoveDown LowerBy
  cases hr : v.ref with
  | none => simp [optGet, error_bind]
  | some ref =>
    cases hp : v.prop with
    | none => simp [optGet, error_bind, ok_bind]
    | some p =>
      simp only [optGet, ok_bind, pure_eq_ok]
      by_cases hb : ref = .bottomOfScreen
      · simp [hb, eq_comm]
      · simp [hb, eq_comm]

theorem tokRun_chars (ctx : SsaContext) (h : ℚ) (p : Raw) (x : Str) (subs : List Raw) (text : Str) (ts : List SsaTok) :
    tokRun ctx h p x subs (text.map .chr ++ ts) = tokRun ctx h p (x ++ text) subs ts := by
  induction text generalizing x with
  | nil => simp
  | cons c text ih => rw [List.map_cons, List.cons_append, tokRun, ih]; simp

theorem tokRun_pieces {ctx : SsaContext} {h : ℚ} {p : Raw} {toks : List SsaTok} {r : List Raw} (hm : SsaPieces ctx h p toks r) (subs : List Raw) :
    tokRun ctx h p [] subs toks = .ok (subs ++ r) := by
  induction hm generalizing subs with
  | last p text =>
    have := tokRun_chars ctx h p [] subs text []
    rw [List.append_nil] at this
    rw [this]; rfl
  | tags p p' text tg ts r ho _ ih =>
    rw [tokRun_chars, tokRun, (tagsRun_iff ctx _ _ _).2 ho, ok_bind, ih]
    simp
  | br p v text ts r hv _ ih =>
    rw [tokRun_chars, tokRun, (moveDown_iff _ _ _).2 hv, ok_bind, ih]
    simp

theorem pieces_tokRun {ctx : SsaContext} {h : ℚ} {p : Raw} {x : Str} {subs : List Raw} {toks : List SsaTok} {out : List Raw}
    (hm : tokRun ctx h p x subs toks = .ok out) : ∃ r, SsaPieces ctx h p (x.map .chr ++ toks) r ∧ out = subs ++ r := by
  induction toks generalizing p x subs with
  | nil =>
    cases hm
    exact ⟨_, by rw [List.append_nil]; exact .last p x, rfl⟩
  | cons t ts ih =>
    cases t with
    | chr c =>
      rw [tokRun] at hm
      obtain ⟨r, h1, h2⟩ := ih hm
      exact ⟨r, by simpa using h1, h2⟩
    | tags tg =>
      rw [tokRun] at hm
      obtain ⟨q, hq, hm⟩ := bind_eq_ok.1 hm
      obtain ⟨r, h1, h2⟩ := ih hm
      exact ⟨_, .tags p q x tg ts r ((tagsRun_iff ctx _ _ _).1 hq) h1, by rw [h2, List.append_assoc]⟩
    | br =>
      rw [tokRun] at hm
      obtain ⟨v, hv, hm⟩ := bind_eq_ok.1 hm
      obtain ⟨r, h1, h2⟩ := ih hm
      exact ⟨_, .br p v x ts r ((moveDown_iff _ _ _).1 hv) h1, by rw [h2, List.append_assoc]⟩

/-! ### Beginning and end -/

theorem finishPos_iff (v : VPos) (n : Nat) (h : ℚ) (s s' : Raw) : ssaFinishPos v n h s = .ok s' ↔ FinalPlace (v.prop.getD 0) n h s s' := by
  unfold ssaFinishPos FinalPlace
  cases hr : s.vpos.ref with
  | none => simp [optGet, error_bind]
  | some ref =>
    cases hp : s.vpos.prop with
    | none => simp [optGet, error_bind, ok_bind]
    | some p =>
      simp only [optGet, ok_bind, pure_eq_ok]
      constructor
      · intro e
        have e := Except.ok.inj e
        refine ⟨ref, p, rfl, rfl, ?_⟩
        rw [← e]
        cases ref <;> rfl
      · rintro ⟨ref', p', h1, h2, rfl⟩
        cases h1; cases h2
        cases ref <;> rfl

theorem finishAll_iff (v : VPos) (n : Nat) (h : ℚ) (r out : List Raw) :
    ssaFinishAll v n h r = .ok out ↔ List.Forall₂ (FinalPlace (v.prop.getD 0) n h) r out := by
  induction r generalizing out with
  | nil =>
    constructor
    · intro e; cases e; exact .nil
    · intro e; cases e; rfl
  | cons s r ih =>
    constructor
    · intro e
      obtain ⟨s', h1, e⟩ := bind_eq_ok.1 e
      obtain ⟨ss, h2, e⟩ := bind_eq_ok.1 e
      cases e
      exact .cons ((finishPos_iff _ _ _ _ _).1 h1) ((ih _).1 h2)
    · intro e
      cases e with
      | cons h1 h2 => exact bind_eq_ok.2 ⟨_, (finishPos_iff _ _ _ _ _).2 h1, bind_eq_ok.2 ⟨_, (ih _).2 h2, rfl⟩⟩

theorem prepare_iff (ctx : SsaContext) (base cur : Raw) : ssaPrepare ctx base = .ok cur ↔
    ∃ x fs, MarginShare ctx base.hpos.ref x ∧ StyleSize ctx base fs ∧
      cur = { base with
        hpos := ⟨base.hpos.ref, x⟩,
        vpos := { base.vpos with ref := some (base.vpos.ref.getD .bottomOfScreen), prop := some 0 },
        fontSize := { base.fontSize with prop := some fs } } := by
  unfold ssaPrepare StyleSize
  simp only [bind_eq_ok, updateH_iff]
  constructor
  · rintro ⟨c, ⟨x, hx, rfl⟩, h⟩
    simp only at h hx
    cases hf : base.fontSize.prop with
    | some fs =>
      rw [hf] at h
      have h := Except.ok.inj h
      refine ⟨x, fs, hx, .inl rfl, ?_⟩
      rw [← h, ← hf]
    | none =>
      rw [hf] at h
      simp only [bind_eq_ok] at h
      obtain ⟨q, hq, h⟩ := h
      have h := Except.ok.inj h
      rw [fdiv] at hq
      by_cases h0 : (ctx.resY : ℚ) = 0
      · rw [if_pos h0] at hq; cases hq
      · rw [if_neg h0] at hq
        have hq := Except.ok.inj hq
        refine ⟨x, _, hx, .inr ⟨rfl, by simpa using h0, rfl⟩, ?_⟩
        rw [← h, ← hq]
  · rintro ⟨x, fs, hx, hfs, rfl⟩
    refine ⟨_, ⟨x, hx, rfl⟩, ?_⟩
    simp only
    rcases hfs with hf | ⟨hf, h0, rfl⟩
    · rw [hf]
      simp only
      rw [pure_eq_ok, ← hf]
    · rw [hf]
      simp only
      rw [fdiv, if_neg (by simpa using h0)]
      rfl

/-! ### C117 -/

/-- C117: what a line of dialogue means. -/
theorem C117_line (ctx : SsaContext) (base : Raw) (hb : base.text = []) (line : Str) (subs : List Raw) :
    ssaParseLine ctx base line = .ok subs ↔ SsaLineMeans ctx base line subs := by
  have hrun : ∀ (h : ℚ) (cur : Raw), cur.text = [] → ∀ r toks, SsaWritten line toks →
      ((∃ l, ssaRun ctx h { current := cur } line = .ok l ∧ l.flush.subs = r) ↔ SsaPieces ctx h cur toks r) := by
    intro h cur hc r toks hw
    have e : ({ current := cur } : SsaLoop) = loopAt .text cur [] [] [] := by
      unfold loopAt; rw [show ({ cur with text := [] } : Raw) = cur by rw [← hc]]
    have := run_toks ctx h hw cur hc [] []
    rw [← e] at this
    constructor
    · rintro ⟨l, hl, rfl⟩
      rw [hl] at this
      obtain ⟨r, h1, h2⟩ := pieces_tokRun this.symm
      rw [show l.flush.subs = r from h2]
      simpa using h1
    · intro hp
      rw [tokRun_pieces hp] at this
      cases hl : ssaRun ctx h { current := cur } line with
      | error e => rw [hl] at this; cases this
      | ok l => rw [hl] at this; exact ⟨l, rfl, by simpa using Except.ok.inj this⟩
  unfold ssaParseLine SsaLineMeans
  simp only [bind_eq_ok]
  constructor
  · rintro ⟨cur, hcur, fs, hfs, l, hl, hfin⟩
    obtain ⟨x, fs', hx, hs, rfl⟩ := (prepare_iff ctx base cur).1 hcur
    have : fs = fs' := by
      simp only [FontSize.proportionalAt] at hfs
      exact (Except.ok.inj hfs).symm
    subst this
    obtain ⟨toks, hw⟩ := written_exists _ line (Nat.le_refl _)
    refine ⟨x, fs, toks, l.flush.subs, hx, hs, hw, (hrun _ _ (by exact hb) _ toks hw).1 ⟨l, hl, rfl⟩, ?_⟩
    rw [← breaks_iff]
    exact (finishAll_iff _ _ _ _ _).1 hfin
  · rintro ⟨x, fs, toks, r, hx, hs, hw, hp, hfin⟩
    obtain ⟨l, hl, rfl⟩ := (hrun _ _ (by exact hb) _ toks hw).2 hp
    rw [← breaks_iff] at hfin
    refine ⟨_, (prepare_iff ctx base _).2 ⟨x, fs, hx, hs, rfl⟩, fs, ?_, l, hl, (finishAll_iff _ _ _ _ _).2 hfin⟩
    simp only [FontSize.proportionalAt]

example : ∃ subs, SsaLineMeans ⟨288, 288, ⟨1, 1, 1⟩, 0, 0⟩ {} b!"Hello {note\\i1}big{\\i0\\b1} w\\Norld" subs ∧ subs.map Raw.text = [b!"Hello ", b!"big", b!" w", b!"orld"] :=
  ⟨(ssaParseLine ⟨288, 288, ⟨1, 1, 1⟩, 0, 0⟩ {} b!"Hello {note\\i1}big{\\i0\\b1} w\\Norld").toOption.getD [], (C117_line _ _ rfl _ _).1 (by decide +kernel), by decide +kernel⟩

end LibSub
