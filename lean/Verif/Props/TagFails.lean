/-
Property C133, first part: how an override tag and a font tag fail, exactly.
-/
import Verif.Props.FontColour
import Verif.Props.SsaTagExact

namespace LibSub

/-! ### Specification -/

/-- How a margin cannot be expressed as a proportion of the width. -/
def MarginFails (ctx : SsaContext) (h : HRef) (e : Err) : Prop :=
  (h = .centre ∧ ¬ (InInt (ctx.lmargin - ctx.rmargin) ∧ InInt (2 * ctx.resX)) ∧ e = .ub .intOverflow) ∨
    ((h = .centre → InInt (ctx.lmargin - ctx.rmargin) ∧ InInt (2 * ctx.resX)) ∧ ctx.resX = 0 ∧ e = .nonFinite)

/-- How a number cannot be expressed as a proportion: the text is outside the model, or the whole is zero. -/
def ShareFails (x : Str) (whole : Int) (e : Err) : Prop :=
  ((∀ f, ¬ FloatText x f) ∧ e = .unmodelled) ∨ ((∃ f, FloatText x f) ∧ whole = 0 ∧ e = .nonFinite)

/-- How an override tag fails. -/
inductive TagFails (ctx : SsaContext) : Str → Err → Prop
  | align (k : Nat) (e : Err) : 1 ≤ k → k ≤ 9 → MarginFails ctx (keypadH k) e → TagFails ctx (b!"\\an" ++ decSpec k) e
  /-- Not two brackets or commas: an assertion. -/
  | posShape (t : Str) : b!"\\pos" <+: t → t.countP (fun c => c = 40 ∨ c = 44) ≠ 2 → TagFails ctx t .programming
  | posX (a x y : Str) (s t : Byte) (e : Err) : (∀ c ∈ a ++ x ++ y, c ≠ 40 ∧ c ≠ 44) → (s = 40 ∨ s = 44) → (t = 40 ∨ t = 44) → ShareFails x ctx.resX e →
      TagFails ctx (b!"\\pos" ++ a ++ s :: (x ++ t :: y)) e
  | posY (a x y : Str) (s t : Byte) (f : ℚ) (e : Err) : (∀ c ∈ a ++ x ++ y, c ≠ 40 ∧ c ≠ 44) → (s = 40 ∨ s = 44) → (t = 40 ∨ t = 44) → FloatText x f → ctx.resX ≠ 0 →
      ShareFails y ctx.resY e → TagFails ctx (b!"\\pos" ++ a ++ s :: (x ++ t :: y)) e
  /-- No size at all: an assertion. -/
  | noSize : TagFails ctx b!"\\fs" .programming
  | size (x : Str) (e : Err) : x ≠ [] → ShareFails x ctx.resY e → TagFails ctx (b!"\\fs" ++ x) e
  /-- A colour (up to its last character) that does not begin with &H. -/
  | colour (s : Str) (x : Byte) : ¬ b!"&H" <+: s → TagFails ctx (b!"\\c" ++ s ++ [x]) (.ssa (b!"Badly formatted colour tag " ++ s))

/-- How the argument of a font tag fails, in line `n` with `ctx` shown as context.  The last hex colour counts, and if there is none the last `rgba(...)`. -/
inductive FontFails (n : Nat) (ctx : List Str) (arg : Str) : Err → Prop
  | digits (g : Str) : LastIn HexColourAt arg g → g.length ≠ 6 → g.length ≠ 8 →
      FontFails n ctx arg (.subrip n arg b!"a colour in the format #rrggbb #rrggbbaa or rgba(rr,gg,bb,aa)" ctx)
  | nothing : NowhereIn HexColourAt arg → NowhereIn RgbaColourAt arg →
      FontFails n ctx arg (.subrip n arg b!"a colour in the format #rrggbb #rrggbbaa or rgba(rr,gg,bb,aa)" ctx)
  | huge (r g b x : Str) : NowhereIn HexColourAt arg → LastIn RgbaColourAt arg (r, g, b) → x ∈ [r, g, b] → 2 ^ 31 ≤ textVal x → FontFails n ctx arg (.ub .scanfRange)

/-! ### Parts -/

theorem rawConvertFloat_kind {x : Str} {e : Err} (h : rawConvertFloat x = .error e) : e = .unmodelled := by
  unfold rawConvertFloat rawConvertFloatIn scanFloat at h
  dsimp only at h
  rcases ite_cases h with ⟨-, h⟩ | ⟨-, h⟩
  · cases h; rfl
  · rcases ite_cases h with ⟨-, h⟩ | ⟨-, h⟩
    · cases h
    · cases h; rfl

theorem rawConvertFloat_fails (x : Str) (e : Err) : rawConvertFloat x = .error e ↔ (∀ f, ¬ FloatText x f) ∧ e = .unmodelled := by
  constructor
  · intro h
    refine ⟨fun f hf => ?_, rawConvertFloat_kind h⟩
    rw [(C117_float x f).2 hf] at h
    cases h
  · rintro ⟨h1, rfl⟩
    cases h : rawConvertFloat x with
    | ok f => exact absurd ((C117_float x f).1 h) (h1 f)
    | error e => rw [rawConvertFloat_kind h]

/-- A number as a proportion, then the rest. -/
theorem share_error {α : Type} (x : Str) (w : Int) (k : ℚ → R α) (e : Err) :
    ((do let f ← rawConvertFloat x
         let g ← fdiv f (f32 w)
         k g) = .error e) ↔ ShareFails x w e ∨ ∃ f, FloatText x f ∧ w ≠ 0 ∧ k (f / f32 w) = .error e := by
  have hz : f32 (w : ℚ) = 0 ↔ w = 0 := f32_eq_zero
  unfold ShareFails
  cases h : rawConvertFloat x with
  | error e' =>
    obtain ⟨h1, rfl⟩ := (rawConvertFloat_fails x e').1 h
    rw [error_bind]
    constructor
    · intro h; cases h; exact .inl (.inl ⟨h1, rfl⟩)
    · rintro ((⟨_, rfl⟩ | ⟨⟨f, hf⟩, _⟩) | ⟨f, hf, _⟩)
      · rfl
      · exact absurd hf (h1 f)
      · exact absurd hf (h1 f)
  | ok f =>
    have hf := (C117_float x f).1 h
    rw [ok_bind]
    unfold fdiv
    by_cases hw : w = 0
    · rw [if_pos (hz.2 hw), error_bind]
      constructor
      · intro h; cases h; exact .inl (.inr ⟨⟨f, hf⟩, hw, rfl⟩)
      · rintro ((⟨h1, _⟩ | ⟨_, _, rfl⟩) | ⟨_, _, h1, _⟩)
        · exact absurd hf (h1 f)
        · rfl
        · exact absurd hw h1
    · rw [if_neg (fun hc => hw (hz.1 hc)), ok_bind]
      constructor
      · intro h; exact .inr ⟨f, hf, hw, h⟩
      · rintro ((⟨h1, _⟩ | ⟨_, h1, _⟩) | ⟨f', hf', _, h1⟩)
        · exact absurd hf (h1 f)
        · exact absurd h1 hw
        · have := (C117_float x f').2 hf'
          rw [h] at this
          cases this
          exact h1

theorem intRatio_error (a b : Int) (e : Err) : intRatio a b = .error e ↔ b = 0 ∧ e = .nonFinite := by
  have hz : f32 (b : ℚ) = 0 ↔ b = 0 := f32_eq_zero
  unfold intRatio fdiv
  by_cases h : b = 0
  · rw [if_pos (hz.2 h), error_bind]
    simp [h, eq_comm]
  · rw [if_neg (fun hc => h (hz.1 hc)), ok_bind]
    simp [h]

theorem align_error (ctx : SsaContext) (p : Raw) (h : HRef) (v : VRef) (e : Err) : ssaAlign ctx p h v = .error e ↔ MarginFails ctx h e := by
  unfold ssaAlign SsaContext.updateH MarginFails
  have key : ∀ a b : Int, ∀ k : ℚ → Raw, ((do let x ← intRatio a b; pure (k x)) = (.error e : R Raw)) ↔ b = 0 ∧ e = .nonFinite := by
    intro a b k
    rw [← intRatio_error a b]
    cases intRatio a b with
    | ok q => simp [ok_bind]
    | error e' => simp [error_bind]
  cases h with
  | left => exact (key _ _ _).trans (by simp)
  | right => exact (key _ _ _).trans (by simp)
  | centre =>
    by_cases h1 : InInt (ctx.lmargin - ctx.rmargin)
    · by_cases h2 : InInt (2 * ctx.resX)
      · simp only [ck_ok h1, ok_bind, ck_ok h2, h1, h2, and_self, not_true_eq_false, false_and, and_false, false_or, imp_self, true_and]
        refine (key _ _ _).trans ?_
        constructor
        · rintro ⟨h, rfl⟩
          exact ⟨by omega, rfl⟩
        · rintro ⟨h, rfl⟩
          exact ⟨by omega, rfl⟩
      · have : ck (2 * ctx.resX) = .error (.ub .intOverflow) := if_neg h2
        simp [ck_ok h1, ok_bind, this, error_bind, h1, h2, eq_comm]
    · have : ck (ctx.lmargin - ctx.rmargin) = .error (.ub .intOverflow) := if_neg h1
      simp [this, error_bind, h1, eq_comm]

theorem hColour_error (s : Str) (e : Err) : hColour s = .error e ↔ ¬ b!"&H" <+: s ∧ e = .ssa (b!"Badly formatted colour tag " ++ s) := by
  unfold hColour
  split
  · rename_i t
    constructor
    · intro h; cases h
    · rintro ⟨h, _⟩
      exact absurd ⟨t, rfl⟩ h
  · rename_i h
    constructor
    · intro h'
      cases h'
      exact ⟨fun ⟨t, ht⟩ => h t ht.symm, rfl⟩
    · rintro ⟨_, rfl⟩
      rfl

theorem parse_pos (ctx : SsaContext) (p : Raw) (r : Str) : ssaParseTag ctx p (b!"\\pos" ++ r) =
    match splitAny (fun c => c == 40 || c == 44) (b!"\\pos" ++ r) with
    | [_, x, y] => do
      let fx ← rawConvertFloat x
      let hp ← fdiv fx (f32 ctx.resX)
      let fy ← rawConvertFloat y
      let vp ← fdiv fy (f32 ctx.resY)
      pure { p with hpos := ⟨.left, f32 hp⟩, vpos := { p.vpos with ref := some .topOfScreen, prop := some (f32 vp) } }
    | _ => .error .programming := by
  rfl

theorem parse_size (ctx : SsaContext) (p : Raw) (r : Str) : ssaParseTag ctx p (b!"\\fs" ++ r) = (do
      subAssert (decide ((b!"\\fs" ++ r).length > 3))
      let f ← rawConvertFloat r
      let q ← fdiv f (f32 ctx.resY)
      pure { p with fontSize := { p.fontSize with prop := some (f32 q) } }) := by
  rfl

theorem parse_colour (ctx : SsaContext) (p : Raw) (s : Str) (x : Byte) : ssaParseTag ctx p (b!"\\c" ++ s ++ [x]) = (do
      let c ← hColour s
      pure { p with colour := c }) := by
  have e : ssaParseTag ctx p (b!"\\c" ++ (s ++ [x])) = if (b!"\\c" ++ (s ++ [x])).length > 2 then do
      let c ← hColour ((s ++ [x]).take ((b!"\\c" ++ (s ++ [x])).length - 3))
      pure { p with colour := c }
    else .ok { p with colour := ctx.primaryColour } := by rfl
  rw [List.append_assoc, e, if_pos (by simp)]
  have : (b!"\\c" ++ (s ++ [x])).length - 3 = s.length := by simp
  rw [this, List.take_left]

/-- The cases of a `\pos` tag. -/
theorem pos_cases (r : Str) : (b!"\\pos" ++ r).countP (fun c => c = 40 ∨ c = 44) ≠ 2 ∨
    ∃ a x y s t, r = a ++ s :: (x ++ t :: y) ∧ (∀ c ∈ a ++ x ++ y, c ≠ 40 ∧ c ≠ 44) ∧ (s = 40 ∨ s = 44) ∧ (t = 40 ∨ t = 44) := by
  have e : ∀ t : Str, t.countP (fun c => decide (c = 40 ∨ c = 44)) = t.countP (fun c => c == 40 || c == 44) := fun t => by
    congr 1
    funext c
    rw [Bool.decide_or]
    rfl
  rw [e]
  by_cases h : (b!"\\pos" ++ r).countP (fun c => c == 40 || c == 44) = 2
  · right
    have h0 : r.countP (fun c => c == 40 || c == 44) = 2 := by
      rw [List.countP_append] at h
      have : (b!"\\pos").countP (fun c => c == 40 || c == 44) = 0 := by decide
      omega
    have hl := splitAny_length (fun c => c == 40 || c == 44) r
    rw [h0] at hl
    obtain ⟨a, x, y, hs⟩ := List.length_eq_three.1 hl
    obtain ⟨s, t, h1, h2, h3, h4⟩ := (split3_iff _ _ _ _ _).1 hs
    exact ⟨a, x, y, s, t, h3, fun c hc => by simpa using h4 c hc, by simpa using h1, by simpa using h2⟩
  · exact .inl h

theorem pos_shape {a x y : Str} {s t : Byte} (h1 : ∀ c ∈ a ++ x ++ y, c ≠ 40 ∧ c ≠ 44) (hs : s = 40 ∨ s = 44) (ht : t = 40 ∨ t = 44) :
    splitAny (fun c => c == 40 || c == 44) (b!"\\pos" ++ (a ++ s :: (x ++ t :: y))) = [b!"\\pos" ++ a, x, y] := by
  refine (split3_iff _ _ _ _ _).2 ⟨s, t, by simpa using hs, by simpa using ht, by simp, ?_⟩
  intro c hc
  rw [List.append_assoc, List.append_assoc, List.mem_append] at hc
  rcases hc with hc | hc
  · have : ∀ c ∈ b!"\\pos", (c == 40 || c == 44) = false := by decide
    exact this c hc
  · have := h1 c (by rw [List.append_assoc]; exact hc)
    simp [this.1, this.2]

theorem pos_error (ctx : SsaContext) (p : Raw) {a x y : Str} {s t : Byte} (h1 : ∀ c ∈ a ++ x ++ y, c ≠ 40 ∧ c ≠ 44) (hs : s = 40 ∨ s = 44) (ht : t = 40 ∨ t = 44) (e : Err) :
    ssaParseTag ctx p (b!"\\pos" ++ (a ++ s :: (x ++ t :: y))) = .error e ↔
      ShareFails x ctx.resX e ∨ ∃ f, FloatText x f ∧ ctx.resX ≠ 0 ∧ ShareFails y ctx.resY e := by
  rw [parse_pos, pos_shape h1 hs ht]
  simp only
  rw [share_error]
  refine or_congr Iff.rfl (exists_congr fun f => and_congr Iff.rfl (and_congr Iff.rfl ?_))
  rw [share_error]
  simp

theorem pos_shapeless (ctx : SsaContext) (p : Raw) {r : Str} (h : (b!"\\pos" ++ r).countP (fun c => c = 40 ∨ c = 44) ≠ 2) :
    ssaParseTag ctx p (b!"\\pos" ++ r) = .error .programming := by
  rw [parse_pos]
  split
  · rename_i u x y hs
    have hl := splitAny_length (fun c => c == 40 || c == 44) (b!"\\pos" ++ r)
    rw [hs] at hl
    exfalso
    apply h
    have e : (b!"\\pos" ++ r).countP (fun c => decide (c = 40 ∨ c = 44)) = (b!"\\pos" ++ r).countP (fun c => c == 40 || c == 44) := by
      congr 1
      funext c
      rw [Bool.decide_or]
      rfl
    rw [e]
    simpa using hl.symm
  · rfl

/-! ### C133 -/

/-- C133: how an override tag fails. -/
theorem C133_tag (ctx : SsaContext) (p : Raw) (tag : Str) (e : Err) : ssaParseTag ctx p tag = .error e ↔ TagFails ctx tag e := by
  constructor
  · intro h
    have al : ∀ k : Nat, 1 ≤ k → k ≤ 9 → ssaAlign ctx p (keypadH k) (keypadV k) = .error e → TagFails ctx (b!"\\an" ++ decSpec k) e := by
      intro k h1 h9 h
      exact .align k e h1 h9 ((align_error ctx p _ _ e).1 h)
    have h' := h
    unfold ssaParseTag at h
    rcases ite_cases h with ⟨_, h⟩ | ⟨_, h⟩
    · cases h
    rcases ite_cases h with ⟨_, h⟩ | ⟨_, h⟩
    · cases h
    rcases ite_cases h with ⟨_, h⟩ | ⟨_, h⟩
    · cases h
    rcases ite_cases h with ⟨_, h⟩ | ⟨_, h⟩
    · cases h
    rcases ite_cases h with ⟨_, h⟩ | ⟨_, h⟩
    · cases h
    rcases ite_cases h with ⟨_, h⟩ | ⟨_, h⟩
    · cases h
    rcases ite_cases h with ⟨e, h⟩ | ⟨_, h⟩
    · subst e; exact al 1 (by decide) (by decide) h
    rcases ite_cases h with ⟨e, h⟩ | ⟨_, h⟩
    · subst e; exact al 2 (by decide) (by decide) h
    rcases ite_cases h with ⟨e, h⟩ | ⟨_, h⟩
    · subst e; exact al 3 (by decide) (by decide) h
    rcases ite_cases h with ⟨e, h⟩ | ⟨_, h⟩
    · subst e; exact al 4 (by decide) (by decide) h
    rcases ite_cases h with ⟨e, h⟩ | ⟨_, h⟩
    · subst e; exact al 5 (by decide) (by decide) h
    rcases ite_cases h with ⟨e, h⟩ | ⟨_, h⟩
    · subst e; exact al 6 (by decide) (by decide) h
    rcases ite_cases h with ⟨e, h⟩ | ⟨_, h⟩
    · subst e; exact al 7 (by decide) (by decide) h
    rcases ite_cases h with ⟨e, h⟩ | ⟨_, h⟩
    · subst e; exact al 8 (by decide) (by decide) h
    rcases ite_cases h with ⟨e, h⟩ | ⟨_, h⟩
    · subst e; exact al 9 (by decide) (by decide) h
    rcases ite_cases h with ⟨e1, h⟩ | ⟨_, h⟩
    · obtain ⟨r, rfl⟩ := startsWith_iff.1 e1
      rcases pos_cases r with hr | ⟨a, x, y, s, t, rfl, h1, hs, ht⟩
      · rw [pos_shapeless ctx p hr] at h'
        cases h'
        exact .posShape _ ⟨r, rfl⟩ hr
      · rcases (pos_error ctx p h1 hs ht e).1 h' with hf | ⟨f, h2, h3, h4⟩
        · rw [← List.append_assoc]
          exact .posX a x y s t e h1 hs ht hf
        · rw [← List.append_assoc]
          exact .posY a x y s t f e h1 hs ht h2 h3 h4
    rcases ite_cases h with ⟨e1, h⟩ | ⟨_, h⟩
    · obtain ⟨r, rfl⟩ := startsWith_iff.1 e1
      rw [parse_size] at h'
      cases r with
      | nil =>
        cases h'
        exact .noSize
      | cons c r =>
        refine .size (c :: r) e (by simp) ?_
        have hl : subAssert (decide ((b!"\\fs" ++ c :: r).length > 3)) = .ok () := by
          rw [decide_eq_true (by simp)]
          rfl
        rw [hl, ok_bind, share_error] at h'
        rcases h' with h' | ⟨_, _, _, h'⟩
        · exact h'
        · cases h'
    rcases ite_cases h with ⟨e1, h⟩ | ⟨_, h⟩
    · obtain ⟨r, rfl⟩ := startsWith_iff.1 e1
      rcases List.eq_nil_or_concat r with rfl | ⟨s, x, rfl⟩
      · cases h'
      · rw [List.concat_eq_append, ← List.append_assoc] at h' ⊢
        rw [parse_colour] at h'
        cases hc : hColour s with
        | ok c => rw [hc] at h'; cases h'
        | error e' =>
          rw [hc] at h'
          cases h'
          obtain ⟨h1, rfl⟩ := (hColour_error s _).1 hc
          exact .colour s x h1
    · cases h
  · intro h
    cases h with
    | align k e h1 h9 h2 =>
      have : ssaParseTag ctx p (b!"\\an" ++ decSpec k) = ssaAlign ctx p (keypadH k) (keypadV k) := by
        interval_cases k <;> rfl
      rw [this, align_error]
      exact h2
    | posShape t h1 h2 =>
      obtain ⟨r, rfl⟩ := h1
      exact pos_shapeless ctx p h2
    | posX a x y s t e h1 hs ht h2 =>
      rw [List.append_assoc, pos_error ctx p h1 hs ht]
      exact .inl h2
    | posY a x y s t f e h1 hs ht h2 h3 h4 =>
      rw [List.append_assoc, pos_error ctx p h1 hs ht]
      exact .inr ⟨f, h2, h3, h4⟩
    | noSize => rfl
    | size x e h1 h2 =>
      rw [parse_size]
      have hl : subAssert (decide ((b!"\\fs" ++ x).length > 3)) = .ok () := by
        rw [decide_eq_true (by rw [List.length_append]; have := List.length_pos_iff.2 h1; simp; omega)]
        rfl
      rw [hl, ok_bind, share_error]
      exact .inl h2
    | colour s x h1 =>
      rw [parse_colour, (hColour_error s _).2 ⟨h1, rfl⟩]
      rfl

/-- With a width of zero `\an1` divides by zero; `\pos` without a bracket is an assertion; `\clip` is a bad colour. -/
example (p : Raw) : ssaParseTag ⟨0, 10, ⟨1, 1, 1⟩, 5, 5⟩ p b!"\\an1" = .error .nonFinite ∧ ssaParseTag ⟨0, 10, ⟨1, 1, 1⟩, 5, 5⟩ p b!"\\pos" = .error .programming ∧
    ssaParseTag ⟨0, 10, ⟨1, 1, 1⟩, 5, 5⟩ p b!"\\clip" = .error (.ssa b!"Badly formatted colour tag li") :=
  ⟨(C133_tag _ p _ _).2 (.align 1 _ (by decide) (by decide) (.inr ⟨by decide, rfl, rfl⟩)), (C133_tag _ p _ _).2 (.posShape _ (by decide) (by decide)),
    (C133_tag _ p _ _).2 (.colour b!"li" 112 (by decide))⟩

private theorem decComp_huge {ds : Str} (hne : ds ≠ []) (hd : ∀ c ∈ ds, c ∈ b!"0123456789") (e : Err) : decComp ds = .error e ↔ 2 ^ 31 ≤ textVal ds ∧ e = .ub .scanfRange := by
  have hl : LeadingNumber ds (textVal ds) := ⟨[], [], ds, [], by simp, by simp, hne, hd, (by intro c hc; cases hc), .inl ⟨.inl rfl, rfl⟩⟩
  have h1 := (C101_number ds).1 _ hl
  unfold decComp
  rw [h1]
  split
  · rename_i hi
    constructor
    · intro h; cases h
    · rintro ⟨h, _⟩
      unfold InInt at hi
      omega
  · rename_i hi
    rw [error_bind]
    constructor
    · intro h
      cases h
      refine ⟨?_, rfl⟩
      unfold InInt at hi
      omega
    · rintro ⟨_, rfl⟩
      rfl

/-- C133: how the argument of a font tag fails. -/
theorem C133_font (n : Nat) (ctx : List Str) (arg : Str) (e : Err) : fontColour n ctx arg = .error e ↔ FontFails n ctx arg e := by
  have hhex : ∀ g, lastMatch fontHexAt arg = some g ↔ LastIn HexColourAt arg g := fun g => (lastMatch_iff _ _ _).trans (lastIn_congr fontHexAt_iff _ _)
  have hnone : lastMatch fontHexAt arg = none ↔ NowhereIn HexColourAt arg := (lastMatch_none_iff _ _).trans (nowhereIn_congr fontHexAt_iff _)
  have hrgba : ∀ v, lastMatch fontRgbaAt arg = some v ↔ LastIn RgbaColourAt arg v := fun g => (lastMatch_iff _ _ _).trans (lastIn_congr fontRgbaAt_iff _ _)
  have hrnone : lastMatch fontRgbaAt arg = none ↔ NowhereIn RgbaColourAt arg := (lastMatch_none_iff _ _).trans (nowhereIn_congr fontRgbaAt_iff _)
  have hall : ∀ g, LastIn HexColourAt arg g → ∀ c ∈ g, ∃ m, hexOf c = some m := by
    rintro g ⟨_, _, _, ⟨_, _, _, _, _, h4, _⟩, _⟩ c hc
    exact Option.isSome_iff_exists.1 (h4 c hc)
  constructor
  · intro h
    cases hg : lastMatch fontHexAt arg with
    | some g =>
      have hl := (hhex g).1 hg
      by_cases h6 : g.length = 6
      · exfalso
        match g, h6 with
        | [r0, r1, g0, g1, b0, b1], _ =>
          obtain ⟨x0, k0⟩ := hall _ hl r0 (by simp)
          obtain ⟨x1, k1⟩ := hall _ hl r1 (by simp)
          obtain ⟨x2, k2⟩ := hall _ hl g0 (by simp)
          obtain ⟨x3, k3⟩ := hall _ hl g1 (by simp)
          obtain ⟨x4, k4⟩ := hall _ hl b0 (by simp)
          obtain ⟨x5, k5⟩ := hall _ hl b1 (by simp)
          rw [(C116_font n ctx arg _).2 (.hex6 r0 r1 g0 g1 b0 b1 _ _ _ hl ⟨x0, x1, k0, k1, rfl⟩ ⟨x2, x3, k2, k3, rfl⟩ ⟨x4, x5, k4, k5, rfl⟩)] at h
          cases h
      · by_cases h8 : g.length = 8
        · exfalso
          match g, h8 with
          | [r0, r1, g0, g1, b0, b1, a0, a1], _ =>
            obtain ⟨x0, k0⟩ := hall _ hl r0 (by simp)
            obtain ⟨x1, k1⟩ := hall _ hl r1 (by simp)
            obtain ⟨x2, k2⟩ := hall _ hl g0 (by simp)
            obtain ⟨x3, k3⟩ := hall _ hl g1 (by simp)
            obtain ⟨x4, k4⟩ := hall _ hl b0 (by simp)
            obtain ⟨x5, k5⟩ := hall _ hl b1 (by simp)
            rw [(C116_font n ctx arg _).2 (.hex8 r0 r1 g0 g1 b0 b1 a0 a1 _ _ _ hl ⟨x0, x1, k0, k1, rfl⟩ ⟨x2, x3, k2, k3, rfl⟩ ⟨x4, x5, k4, k5, rfl⟩)] at h
            cases h
        · unfold fontColour at h
          rw [hg] at h
          simp only at h
          rw [if_neg h6, if_neg h8] at h
          cases h
          exact .digits g hl h6 h8
    | none =>
      cases hv : lastMatch fontRgbaAt arg with
      | none =>
        unfold fontColour at h
        rw [hg, hv] at h
        cases h
        exact .nothing (hnone.1 hg) (hrnone.1 hv)
      | some v =>
        obtain ⟨r, g, b⟩ := v
        have hl := (hrgba _).1 hv
        have hl' := hl
        obtain ⟨_, _, _, ⟨_, _, _, _, _, _, _, ⟨_, _, _, _, r1, r2⟩, ⟨_, _, _, _, g1, g2⟩, ⟨_, _, _, _, b1, b2⟩, _⟩, _⟩ := hl
        have hx : ∃ x ∈ [r, g, b], 2 ^ 31 ≤ textVal x ∧ e = .ub .scanfRange := by
          unfold fontColour at h
          rw [hg, hv] at h
          simp only at h
          cases hr : decComp r with
          | error e' =>
            rw [hr, error_bind] at h
            cases h
            exact ⟨r, by simp, (decComp_huge r1 r2 _).1 hr⟩
          | ok x =>
            rw [hr, ok_bind] at h
            cases hgr : decComp g with
            | error e' =>
              rw [hgr, error_bind] at h
              cases h
              exact ⟨g, by simp, (decComp_huge g1 g2 _).1 hgr⟩
            | ok y =>
              rw [hgr, ok_bind] at h
              cases hb : decComp b with
              | error e' =>
                rw [hb, error_bind] at h
                cases h
                exact ⟨b, by simp, (decComp_huge b1 b2 _).1 hb⟩
              | ok z =>
                rw [hb] at h
                cases h
        obtain ⟨x, h1, h2, rfl⟩ := hx
        exact .huge r g b x (hnone.1 hg) hl' h1 h2
  · intro h
    cases h with
    | digits g hl h6 h8 =>
      unfold fontColour
      rw [(hhex g).2 hl]
      simp only
      rw [if_neg h6, if_neg h8]
      rfl
    | nothing h1 h2 =>
      unfold fontColour
      rw [hnone.2 h1, hrnone.2 h2]
      rfl
    | huge r g b x h1 h2 h3 h4 =>
      unfold fontColour
      rw [hnone.2 h1, (hrgba _).2 h2]
      simp only
      obtain ⟨_, _, _, ⟨_, _, _, _, _, _, _, ⟨_, _, _, _, r1, r2⟩, ⟨_, _, _, _, g1, g2⟩, ⟨_, _, _, _, b1, b2⟩, _⟩, _⟩ := h2
      simp only at r1 r2 g1 g2 b1 b2
      by_cases hr : 2 ^ 31 ≤ textVal r
      · rw [(decComp_huge r1 r2 _).2 ⟨hr, rfl⟩]
        rfl
      rw [(decComp_iff r1 r2 _).2 ⟨by omega, rfl⟩, ok_bind]
      by_cases hg : 2 ^ 31 ≤ textVal g
      · rw [(decComp_huge g1 g2 _).2 ⟨hg, rfl⟩]
        rfl
      rw [(decComp_iff g1 g2 _).2 ⟨by omega, rfl⟩, ok_bind]
      have hb : 2 ^ 31 ≤ textVal b := by
        simp only [List.mem_cons, List.not_mem_nil, or_false] at h3
        rcases h3 with rfl | rfl | rfl
        · exact absurd h4 hr
        · exact absurd h4 hg
        · exact h4
      rw [(decComp_huge b1 b2 _).2 ⟨hb, rfl⟩]
      rfl

/-- Five hex digits; no colour at all; a component that is no `int`. -/
example : FontFails 7 [b!"x"] b!" color=#12345" (.subrip 7 b!" color=#12345" b!"a colour in the format #rrggbb #rrggbbaa or rgba(rr,gg,bb,aa)" [b!"x"]) ∧
    FontFails 7 [] b!" face=\"x\"" (.subrip 7 b!" face=\"x\"" b!"a colour in the format #rrggbb #rrggbbaa or rgba(rr,gg,bb,aa)" []) ∧
    FontFails 7 [] b!" color=\"rgba(0,4294967296,0,0)\"" (.ub .scanfRange) :=
  ⟨(C133_font _ _ _ _).1 (by decide +kernel), (C133_font _ _ _ _).1 (by decide +kernel), (C133_font _ _ _ _).1 (by decide +kernel)⟩

end LibSub
