/-
Property C117, second part: what an override tag does, exactly.
-/
import Verif.Props.NumberText
import Verif.Props.SsaStyle
import Verif.Props.SsaTags
import Verif.Props.Position

namespace LibSub

/-! ### Specification -/

/-- A `float` division of integers. -/
def FloatQuotient (a b : Int) (q : ℚ) : Prop := b ≠ 0 ∧ q = f32 (f32 a / f32 b)

/-- The distance from a horizontal reference that the margins give, as a proportion of the width. -/
def MarginShare (ctx : SsaContext) : HRef → ℚ → Prop
  | .left, q => FloatQuotient ctx.lmargin ctx.resX q
  | .right, q => FloatQuotient ctx.rmargin ctx.resX q
  | .centre, q => InInt (ctx.lmargin - ctx.rmargin) ∧ InInt (2 * ctx.resX) ∧ FloatQuotient (ctx.lmargin - ctx.rmargin) (2 * ctx.resX) q

/-- A colour: `&H` (and any more of these letters), then a hexadecimal number with the components in its lowest three bytes, red lowest. -/
def HColourText (s : Str) (c : Colour) : Prop :=
  b!"&H" <+: s ∧ ∃ p t v, LongestPrefix (fun c => c = 38 ∨ c = 72) s p t ∧ HexAtStart t v ∧
    c = ⟨component (v % 256).toNat, component (v / 256 % 256).toNat, component (v / 65536 % 256).toNat⟩

/-- What one override tag does to the style. -/
inductive TagMeans (ctx : SsaContext) (p : Raw) : Str → Raw → Prop
  | italic : TagMeans ctx p b!"\\i1" { p with italic := true }
  | noItalic (t : Str) : t = b!"\\i0" ∨ t = b!"\\i" → TagMeans ctx p t { p with italic := false }
  | bold : TagMeans ctx p b!"\\b1" { p with bold := true }
  | noBold : TagMeans ctx p b!"\\b0" { p with bold := false }
  | underline : TagMeans ctx p b!"\\u1" { p with underline := true }
  | noUnderline : TagMeans ctx p b!"\\u0" { p with underline := false }
  /-- Alignment as on the numeric keypad. -/
  | align (k : Nat) (x : ℚ) : 1 ≤ k → k ≤ 9 → MarginShare ctx (keypadH k) x →
      TagMeans ctx p (b!"\\an" ++ decSpec k) { p with hpos := ⟨keypadH k, x⟩, vpos := { p.vpos with ref := some (keypadV k) } }
  /-- Position, from two numbers after brackets or commas. -/
  | pos (a x y : Str) (s t : Byte) (fx fy px py : ℚ) : (∀ c ∈ a ++ x ++ y, c ≠ 40 ∧ c ≠ 44) → (s = 40 ∨ s = 44) → (t = 40 ∨ t = 44) → FloatText x fx → FloatText y fy →
      ctx.resX ≠ 0 → ctx.resY ≠ 0 → px = f32 (fx / f32 ctx.resX) → py = f32 (fy / f32 ctx.resY) →
      TagMeans ctx p (b!"\\pos" ++ a ++ s :: (x ++ t :: y)) { p with hpos := ⟨.left, px⟩, vpos := { p.vpos with ref := some .topOfScreen, prop := some py } }
  /-- Font size. -/
  | size (x : Str) (f q : ℚ) : x ≠ [] → FloatText x f → ctx.resY ≠ 0 → q = f32 (f / f32 ctx.resY) →
      TagMeans ctx p (b!"\\fs" ++ x) { p with fontSize := { p.fontSize with prop := some q } }
  /-- Colour; the last character is passed over. -/
  | colour (s : Str) (x : Byte) (c : Colour) : HColourText s c → TagMeans ctx p (b!"\\c" ++ s ++ [x]) { p with colour := c }
  /-- Back to the colour of the style. -/
  | noColour : TagMeans ctx p b!"\\c" { p with colour := ctx.primaryColour }
  /-- Anything else is without effect. -/
  | other (t : Str) : t ∉ plainTags → ¬ b!"\\pos" <+: t → ¬ b!"\\fs" <+: t → ¬ b!"\\c" <+: t → TagMeans ctx p t p

/-- What override tags do, one after the other. -/
inductive Overrides (ctx : SsaContext) : Raw → List Str → Raw → Prop
  | done (p : Raw) : Overrides ctx p [] p
  | tag (p p' p'' : Raw) (t : Str) (ts : List Str) : TagMeans ctx p t p' → Overrides ctx p' ts p'' → Overrides ctx p (t :: ts) p''

/-- A subtitle, unless it has no text. -/
def subtitleOf (p : Raw) (text : Str) : List Raw := if text = [] then [] else [{ p with text := text }]

/-! ### Parts -/

theorem hColour_iff (s : Str) (c : Colour) : hColour s = .ok c ↔ HColourText s c := by
  have hb : ∀ m : Fin 256, f32 (f64 (((m.val : Int) : ℚ) / 255)) = component m.val := by decide +kernel
  have hc : ∀ (v : Int) (k : Nat), byteComp v k = component (v / 2 ^ (8 * k) % 256).toNat := by
    intro v k
    unfold byteComp
    rw [Int.fdiv_eq_ediv_of_nonneg _ (by positivity), Int.fmod_eq_emod_of_nonneg _ (by norm_num)]
    obtain ⟨m, hm⟩ := Int.eq_ofNat_of_zero_le (Int.emod_nonneg (v / 2 ^ (8 * k)) (show (256 : Int) ≠ 0 by norm_num))
    have hlt := Int.emod_lt_of_pos (v / 2 ^ (8 * k)) (show (0 : Int) < 256 by norm_num)
    rw [hm] at hlt ⊢
    exact hb ⟨m, by omega⟩
  have hp : ∀ c : Byte, (c == 38 || c == 72) = true ↔ (fun c => c = 38 ∨ c = 72) c := by intro c; simp
  unfold hColour HColourText
  simp only [longestPrefix_iff (p := fun c => c == 38 || c == 72) hp, ← C117_hex]
  split
  · rename_i t
    have e : ∀ v : Int, (⟨byteComp v 0, byteComp v 1, byteComp v 2⟩ : Colour) = ⟨component (v % 256).toNat, component (v / 256 % 256).toNat, component (v / 65536 % 256).toNat⟩ := by
      intro v
      rw [hc, hc, hc]
      norm_num
    rw [e]
    constructor
    · intro h
      cases h
      exact ⟨⟨t, rfl⟩, _, _, _, ⟨rfl, rfl⟩, rfl, rfl⟩
    · rintro ⟨_, p, t', v, ⟨rfl, rfl⟩, rfl, rfl⟩
      rfl
  · rename_i h
    constructor
    · intro h; cases h
    · rintro ⟨⟨t, rfl⟩, _⟩
      exact absurd rfl (h t)

theorem intRatio_iff (a b : Int) (q : ℚ) : intRatio a b = .ok q ↔ FloatQuotient a b q := by
  unfold intRatio FloatQuotient fdiv
  rw [ne_eq, ← f32_eq_zero (n := b)]
  by_cases h : f32 (b : ℚ) = 0
  · rw [if_pos h]
    constructor
    · intro h; cases h
    · rintro ⟨h', _⟩; exact absurd h h'
  · rw [if_neg h]
    constructor
    · intro e; cases e; exact ⟨h, rfl⟩
    · rintro ⟨_, rfl⟩; rfl

theorem updateH_iff (ctx : SsaContext) (p q : Raw) : ctx.updateH p = .ok q ↔ ∃ x, MarginShare ctx p.hpos.ref x ∧ q = { p with hpos := { p.hpos with prop := x } } := by
  unfold SsaContext.updateH
  cases p.hpos.ref with
  | left =>
    simp only [MarginShare, ← intRatio_iff]
    constructor
    · intro h
      obtain ⟨x, h1, h2⟩ := bind_eq_ok.1 h
      cases h2
      exact ⟨x, h1, rfl⟩
    · rintro ⟨x, h1, rfl⟩
      rw [h1]
      rfl
  | right =>
    simp only [MarginShare, ← intRatio_iff]
    constructor
    · intro h
      obtain ⟨x, h1, h2⟩ := bind_eq_ok.1 h
      cases h2
      exact ⟨x, h1, rfl⟩
    · rintro ⟨x, h1, rfl⟩
      rw [h1]
      rfl
  | centre =>
    simp only [MarginShare, ← intRatio_iff]
    constructor
    · intro h
      obtain ⟨d, h3, h4⟩ := bind_eq_ok.1 h
      obtain ⟨w, h5, h6⟩ := bind_eq_ok.1 h4
      obtain ⟨h7, rfl⟩ := ck_eq_ok.1 h3
      obtain ⟨h8, rfl⟩ := ck_eq_ok.1 h5
      obtain ⟨x, h1, h2⟩ := bind_eq_ok.1 h6
      cases h2
      exact ⟨x, ⟨h7, h8, h1⟩, rfl⟩
    · rintro ⟨x, ⟨h1, h2, h3⟩, rfl⟩
      rw [ck_ok h1, ok_bind, ck_ok h2, ok_bind, h3]
      rfl

theorem align_iff (ctx : SsaContext) (p q : Raw) (h : HRef) (v : VRef) :
    ssaAlign ctx p h v = .ok q ↔ ∃ x, MarginShare ctx h x ∧ q = { p with hpos := ⟨h, x⟩, vpos := { p.vpos with ref := some v } } := by
  unfold ssaAlign
  rw [updateH_iff]

theorem split3_iff (p : Byte → Bool) (t a x y : Str) : splitAny p t = [a, x, y] ↔
    ∃ s s', p s = true ∧ p s' = true ∧ t = a ++ s :: (x ++ s' :: y) ∧ ∀ c ∈ a ++ x ++ y, p c = false := by
  constructor
  · intro h
    rcases splitAny_cases p t with ⟨h1, _⟩ | ⟨a', s, b, rfl, h1, h2, h3⟩
    · rw [h1] at h; cases h
    · rw [h3] at h
      injection h with ha h
      subst ha
      rcases splitAny_cases p b with ⟨h4, _⟩ | ⟨x', s', y', rfl, h4, h5, h6⟩
      · rw [h4] at h; cases h
      · rw [h6] at h
        injection h with hb h
        subst hb
        rcases splitAny_cases p y' with ⟨h7, h8⟩ | ⟨z, s'', w, rfl, _, _, h9⟩
        · rw [h7] at h
          cases h
          refine ⟨s, s', h2, h5, rfl, ?_⟩
          intro c hc
          simp only [List.mem_append] at hc
          rcases hc with (hc | hc) | hc
          · exact h1 c hc
          · exact h4 c hc
          · exact h8 c hc
        · rw [h9] at h
          exact absurd (List.cons.inj h).2 (splitAny_ne_nil p w)
  · rintro ⟨s, s', h1, h2, rfl, h3⟩
    simp only [List.mem_append] at h3
    rw [splitAny_append (fun c hc => h3 c (.inl (.inl hc))) h1, splitAny_append (fun c hc => h3 c (.inl (.inr hc))) h2, splitAny_noSep (fun c hc => h3 c (.inr hc))]

theorem ite_cases {α : Type} {c : Prop} [Decidable c] {a b x : α} (h : (if c then a else b) = x) : (c ∧ a = x) ∨ (¬ c ∧ b = x) := by
  by_cases hc : c
  · rw [if_pos hc] at h; exact .inl ⟨hc, h⟩
  · rw [if_neg hc] at h; exact .inr ⟨hc, h⟩

theorem pos_sound (ctx : SsaContext) (p : Raw) (tag : Str) (q : Raw) (e : startsWith tag b!"\\pos" = true)
    (h : (match splitAny (fun c => c == 40 || c == 44) tag with
      | [_, x, y] => do
        let fx ← rawConvertFloat x
        let hp ← fdiv fx (f32 ctx.resX)
        let fy ← rawConvertFloat y
        let vp ← fdiv fy (f32 ctx.resY)
        pure { p with hpos := ⟨.left, f32 hp⟩, vpos := { p.vpos with ref := some .topOfScreen, prop := some (f32 vp) } }
      | _ => (.error .programming : R Raw)) = .ok q) : TagMeans ctx p tag q := by
  obtain ⟨r, rfl⟩ := startsWith_iff.1 e
  split at h
  · rename_i a' x y hs
    obtain ⟨s, t, h1, h2, e2, h3⟩ := (split3_iff _ _ _ _ _).1 hs
    obtain ⟨a, rfl⟩ : ∃ a, a' = b!"\\pos" ++ a := by
      rcases List.append_eq_append_iff.1 e2 with ⟨z, hz, _⟩ | ⟨z, hz, hz2⟩
      · exact ⟨z, hz⟩
      · cases z with
        | nil => exact ⟨[], by rw [hz]; simp⟩
        | cons w z =>
          exfalso
          obtain ⟨rfl, _⟩ := List.cons.inj hz2
          have hm : s ∈ b!"\\pos" := by rw [hz]; simp
          have : ∀ c ∈ b!"\\pos", (c == 40 || c == 44) = false := by decide
          rw [this s hm] at h1
          cases h1
    rw [e2]
    obtain ⟨fx, k1, k2⟩ := bind_eq_ok.1 h
    obtain ⟨hp, k3, k4⟩ := bind_eq_ok.1 k2
    obtain ⟨fy, k5, k6⟩ := bind_eq_ok.1 k4
    obtain ⟨vp, k7, k8⟩ := bind_eq_ok.1 k6
    cases k8
    unfold fdiv at k3 k7
    rcases ite_cases k3 with ⟨_, k3⟩ | ⟨z1, k3⟩
    · cases k3
    rcases ite_cases k7 with ⟨_, k7⟩ | ⟨z2, k7⟩
    · cases k7
    cases k3
    cases k7
    refine .pos a x y s t fx fy _ _ ?_ (by simpa using h1) (by simpa using h2) ((C117_float _ _).1 k1) ((C117_float _ _).1 k5) (fun hc => z1 (f32_eq_zero.2 hc)) (fun hc => z2 (f32_eq_zero.2 hc)) rfl rfl
    intro c hc
    have := h3 c (by
      rw [List.append_assoc, List.append_assoc, List.mem_append]
      right
      rw [List.append_assoc] at hc
      exact hc)
    simpa using this
  · cases h

theorem size_sound (ctx : SsaContext) (p : Raw) (tag : Str) (q : Raw) (e : startsWith tag b!"\\fs" = true)
    (h : (do
      subAssert (decide (tag.length > 3))
      let f ← rawConvertFloat (tag.drop 3)
      let g ← fdiv f (f32 ctx.resY)
      pure { p with fontSize := { p.fontSize with prop := some (f32 g) } } : R Raw) = .ok q) : TagMeans ctx p tag q := by
  obtain ⟨r, rfl⟩ := startsWith_iff.1 e
  obtain ⟨_, h1, h2⟩ := bind_eq_ok.1 h
  obtain ⟨f, h3, h4⟩ := bind_eq_ok.1 h2
  obtain ⟨g, h5, h6⟩ := bind_eq_ok.1 h4
  cases h6
  have hr : r ≠ [] := by
    rintro rfl
    cases h1
  unfold fdiv at h5
  rcases ite_cases h5 with ⟨_, h5⟩ | ⟨h0, h5⟩
  · cases h5
  · cases h5
    exact .size r f _ hr ((C117_float _ _).1 h3) (fun hc => h0 (f32_eq_zero.2 hc)) rfl

theorem colour_sound (ctx : SsaContext) (p : Raw) (tag : Str) (q : Raw) (e : startsWith tag b!"\\c" = true)
    (h : (if tag.length > 2 then do
        let c ← hColour ((tag.drop 2).take (tag.length - 3))
        pure { p with colour := c }
      else (.ok { p with colour := ctx.primaryColour } : R Raw)) = .ok q) : TagMeans ctx p tag q := by
  obtain ⟨r, rfl⟩ := startsWith_iff.1 e
  rcases List.eq_nil_or_concat r with rfl | ⟨s, x, rfl⟩
  · cases h
    exact .noColour
  · rw [List.concat_eq_append, ← List.append_assoc] at h ⊢
    rw [if_pos (by simp)] at h
    obtain ⟨c, h1, h2⟩ := bind_eq_ok.1 h
    cases h2
    have : ((b!"\\c" ++ s ++ [x]).drop 2).take ((b!"\\c" ++ s ++ [x]).length - 3) = s := by
      show (s ++ [x]).take _ = s
      have : (b!"\\c" ++ s ++ [x]).length - 3 = s.length := by simp
      rw [this, List.take_left]
    rw [this] at h1
    exact .colour s x c ((hColour_iff s c).1 h1)

/-! ### C117 -/

/-- C117: what an override tag does. -/
theorem C117_tag (ctx : SsaContext) (p : Raw) (tag : Str) (q : Raw) : ssaParseTag ctx p tag = .ok q ↔ TagMeans ctx p tag q := by
  have hx : f32 (ctx.resX : ℚ) = 0 ↔ ctx.resX = 0 := f32_eq_zero
  have hy : f32 (ctx.resY : ℚ) = 0 ↔ ctx.resY = 0 := f32_eq_zero
  constructor
  · intro h
    have al : ∀ k : Nat, 1 ≤ k → k ≤ 9 → ssaAlign ctx p (keypadH k) (keypadV k) = .ok q → TagMeans ctx p (b!"\\an" ++ decSpec k) q := by
      intro k h1 h9 h
      obtain ⟨x, h2, rfl⟩ := (align_iff ctx p q _ _).1 h
      exact .align k x h1 h9 h2
    unfold ssaParseTag at h
    rcases ite_cases h with ⟨e, h⟩ | ⟨n1, h⟩
    · subst e; cases h; exact .italic
    rcases ite_cases h with ⟨e, h⟩ | ⟨n2, h⟩
    · cases h; exact .noItalic _ e
    rcases ite_cases h with ⟨e, h⟩ | ⟨n3, h⟩
    · subst e; cases h; exact .bold
    rcases ite_cases h with ⟨e, h⟩ | ⟨n4, h⟩
    · subst e; cases h; exact .noBold
    rcases ite_cases h with ⟨e, h⟩ | ⟨n5, h⟩
    · subst e; cases h; exact .underline
    rcases ite_cases h with ⟨e, h⟩ | ⟨n6, h⟩
    · subst e; cases h; exact .noUnderline
    rcases ite_cases h with ⟨e, h⟩ | ⟨n7, h⟩
    · subst e; exact al 1 (by decide) (by decide) h
    rcases ite_cases h with ⟨e, h⟩ | ⟨n8, h⟩
    · subst e; exact al 2 (by decide) (by decide) h
    rcases ite_cases h with ⟨e, h⟩ | ⟨n9, h⟩
    · subst e; exact al 3 (by decide) (by decide) h
    rcases ite_cases h with ⟨e, h⟩ | ⟨n10, h⟩
    · subst e; exact al 4 (by decide) (by decide) h
    rcases ite_cases h with ⟨e, h⟩ | ⟨n11, h⟩
    · subst e; exact al 5 (by decide) (by decide) h
    rcases ite_cases h with ⟨e, h⟩ | ⟨n12, h⟩
    · subst e; exact al 6 (by decide) (by decide) h
    rcases ite_cases h with ⟨e, h⟩ | ⟨n13, h⟩
    · subst e; exact al 7 (by decide) (by decide) h
    rcases ite_cases h with ⟨e, h⟩ | ⟨n14, h⟩
    · subst e; exact al 8 (by decide) (by decide) h
    rcases ite_cases h with ⟨e, h⟩ | ⟨n15, h⟩
    · subst e; exact al 9 (by decide) (by decide) h
    rcases ite_cases h with ⟨e, h⟩ | ⟨n16, h⟩
    · exact pos_sound ctx p tag q e h
    rcases ite_cases h with ⟨e, h⟩ | ⟨n17, h⟩
    · exact size_sound ctx p tag q e h
    rcases ite_cases h with ⟨e, h⟩ | ⟨n18, h⟩
    · exact colour_sound ctx p tag q e h
    · cases h
      refine .other tag ?_ (fun hc => n16 (startsWith_iff.2 hc)) (fun hc => n17 (startsWith_iff.2 hc)) (fun hc => n18 (startsWith_iff.2 hc))
      simp only [plainTags, List.mem_cons, List.not_mem_nil, or_false, not_or]
      exact ⟨n1, (not_or.1 n2).1, (not_or.1 n2).2, n3, n4, n5, n6, n7, n8, n9, n10, n11, n12, n13, n14, n15⟩
  · intro h
    cases h with
    | italic => rfl
    | noItalic t e => rcases e with rfl | rfl <;> rfl
    | bold => rfl
    | noBold => rfl
    | underline => rfl
    | noUnderline => rfl
    | align k x h1 h9 h2 =>
      have : ssaParseTag ctx p (b!"\\an" ++ decSpec k) = ssaAlign ctx p (keypadH k) (keypadV k) := by
        interval_cases k <;> rfl
      rw [this, align_iff]
      exact ⟨x, h2, rfl⟩
    | pos a x y s t fx fy px py h1 hs ht h2 h3 h4 h5 h6 h7 =>
      have hn : ∀ u : Str, (∀ w, u ≠ 92 :: 112 :: w) → b!"\\pos" ++ a ++ s :: (x ++ t :: y) ≠ u := fun u hu e => hu _ e.symm
      unfold ssaParseTag
      rw [if_neg (hn _ (by simp)), if_neg (by rintro (h | h) <;> exact hn _ (by simp) h), if_neg (hn _ (by simp)), if_neg (hn _ (by simp)), if_neg (hn _ (by simp)), if_neg (hn _ (by simp)),
        if_neg (hn _ (by simp)), if_neg (hn _ (by simp)), if_neg (hn _ (by simp)), if_neg (hn _ (by simp)), if_neg (hn _ (by simp)), if_neg (hn _ (by simp)), if_neg (hn _ (by simp)), if_neg (hn _ (by simp)),
        if_neg (hn _ (by simp)), if_pos (startsWith_iff.2 ⟨a ++ s :: (x ++ t :: y), by simp⟩)]
      have : splitAny (fun c => c == 40 || c == 44) (b!"\\pos" ++ a ++ s :: (x ++ t :: y)) = [b!"\\pos" ++ a, x, y] := by
        refine (split3_iff _ _ _ _ _).2 ⟨s, t, by simpa using hs, by simpa using ht, rfl, ?_⟩
        intro c hc
        rw [List.append_assoc, List.append_assoc, List.mem_append] at hc
        rcases hc with hc | hc
        · have : ∀ c ∈ b!"\\pos", (c == 40 || c == 44) = false := by decide
          exact this c hc
        · have := h1 c (by rw [List.append_assoc]; exact hc)
          simp [this.1, this.2]
      rw [this]
      simp only
      rw [(C117_float _ _).2 h2, ok_bind]
      unfold fdiv
      rw [if_neg (fun hc => h4 (hx.1 hc)), ok_bind, (C117_float _ _).2 h3, ok_bind, if_neg (fun hc => h5 (hy.1 hc)), ok_bind, h6, h7]
      rfl
    | size x f r h1 h2 h3 h4 =>
      have hn : ∀ u : Str, (∀ w, u ≠ 92 :: 102 :: w) → b!"\\fs" ++ x ≠ u := fun u hu e => hu _ e.symm
      unfold ssaParseTag
      rw [if_neg (hn _ (by simp)), if_neg (by rintro (h | h) <;> exact hn _ (by simp) h), if_neg (hn _ (by simp)), if_neg (hn _ (by simp)), if_neg (hn _ (by simp)), if_neg (hn _ (by simp)),
        if_neg (hn _ (by simp)), if_neg (hn _ (by simp)), if_neg (hn _ (by simp)), if_neg (hn _ (by simp)), if_neg (hn _ (by simp)), if_neg (hn _ (by simp)), if_neg (hn _ (by simp)), if_neg (hn _ (by simp)),
        if_neg (hn _ (by simp)), if_neg (by rw [startsWith_iff]; rintro ⟨w, hw⟩; exact hn _ (by simp) hw.symm), if_pos (startsWith_iff.2 ⟨x, rfl⟩)]
      have hl : subAssert (decide ((b!"\\fs" ++ x).length > 3)) = .ok () := by
        rw [decide_eq_true (by rw [List.length_append]; have := List.length_pos_iff.2 h1; simp; omega)]
        rfl
      have hd : (b!"\\fs" ++ x).drop 3 = x := rfl
      rw [hl, ok_bind, hd, (C117_float _ _).2 h2, ok_bind]
      unfold fdiv
      rw [if_neg (fun hc => h3 (hy.1 hc)), ok_bind, h4]
      rfl
    | colour s x c h =>
      rw [C48_tag, (hColour_iff s c).2 h]
      rfl
    | noColour => rfl
    | other t h1 h2 h3 h4 => exact C49_ignored_partial ctx p tag h1 h2 h3 h4

/-- Position and colour. -/
example : TagMeans { resX := 100, resY := 200, primaryColour := ⟨1, 1, 1⟩ } {} b!"\\pos(50,20)" { hpos := ⟨.left, 1 / 2⟩, vpos := { ref := some .topOfScreen, prop := some (f32 (1 / 10)) } } ∧
    TagMeans { resX := 100, resY := 200, primaryColour := ⟨1, 1, 1⟩ } {} b!"\\c&H0000FF&" { colour := ⟨1, 0, 0⟩ } :=
  ⟨(C117_tag _ _ _ _).1 (by decide +kernel), (C117_tag _ _ _ _).1 (by decide +kernel)⟩

/-! ### Text and tags -/

/-- Override tags do not look at the text. -/
theorem parseTag_text_free (ctx : SsaContext) (p : Raw) (x : Str) (tag : Str) :
    ssaParseTag ctx { p with text := x } tag = (ssaParseTag ctx p tag).map (fun q => { q with text := x }) := by
  have al : ∀ h v, ssaAlign ctx { p with text := x } h v = (ssaAlign ctx p h v).map (fun q => { q with text := x }) := by
    intro h v
    unfold ssaAlign SsaContext.updateH
    simp only
    cases h <;> simp only
    · cases intRatio ctx.lmargin ctx.resX <;> rfl
    · cases ck (ctx.lmargin - ctx.rmargin) with
      | error e => rfl
      | ok d =>
        simp only [ok_bind]
        cases ck (2 * ctx.resX) with
        | error e => rfl
        | ok w =>
          simp only [ok_bind]
          cases intRatio d w <;> rfl
    · cases intRatio ctx.rmargin ctx.resX <;> rfl
  unfold ssaParseTag
  simp only [al]
  simp only [apply_ite (Except.map (fun q : Raw => { q with text := x }))]
  iterate 15 refine if_congr Iff.rfl rfl ?_
  refine if_congr Iff.rfl ?_ (if_congr Iff.rfl ?_ (if_congr Iff.rfl (if_congr Iff.rfl ?_ rfl) rfl))
  · split
    · rename_i x' y h
      cases rawConvertFloat x' with
      | error e => rfl
      | ok fx =>
        simp only [ok_bind]
        cases fdiv fx (f32 ctx.resX) with
        | error e => rfl
        | ok hp =>
          simp only [ok_bind]
          cases rawConvertFloat y with
          | error e => rfl
          | ok fy =>
            simp only [ok_bind]
            cases fdiv fy (f32 ctx.resY) <;> rfl
    · rfl
  · cases subAssert (decide (tag.length > 3)) with
    | error e => rfl
    | ok u =>
      simp only [ok_bind]
      cases rawConvertFloat (tag.drop 3) with
      | error e => rfl
      | ok f =>
        simp only [ok_bind]
        cases fdiv f (f32 ctx.resY) <;> rfl
  · cases hColour ((tag.drop 2).take (tag.length - 3)) <;> rfl

theorem parseTag_text' {ctx : SsaContext} {p q : Raw} {tag : Str} (h : ssaParseTag ctx p tag = .ok q) : q.text = p.text := by
  have := parseTag_text_free ctx p p.text tag
  rw [show ({ p with text := p.text } : Raw) = p from rfl, h] at this
  have e := Except.ok.inj this
  rw [e]

end LibSub
