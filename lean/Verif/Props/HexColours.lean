/-
Property C72 exactly: which strings are taken for a hex colour, and for which one.
-/
import Verif.Props.Values

namespace LibSub

/-! ### Specification -/

/-- A number as `sscanf` reads it for `%2x`: after any white space two hex digits, or one if no other follows, or a sign and one digit.  (A zero before an x is neither: that is the beginning of a prefix.) -/
inductive HexField : Str → Int → Str → Prop where
  | pair (ws : Str) (a b : Byte) (x y : Nat) (rest : Str) : (∀ c ∈ ws, isSpace c = true) → hexOf a = some x → hexOf b = some y → HexField (ws ++ a :: b :: rest) (16 * x + y) rest
  | single (ws : Str) (a : Byte) (x : Nat) (rest : Str) : (∀ c ∈ ws, isSpace c = true) → hexOf a = some x → (∀ b, rest.head? = some b → hexOf b = none) →
      ¬ (a = 48 ∧ (rest.head? = some 120 ∨ rest.head? = some 88)) → HexField (ws ++ a :: rest) x rest
  | minus (ws : Str) (b : Byte) (x : Nat) (rest : Str) : (∀ c ∈ ws, isSpace c = true) → hexOf b = some x → HexField (ws ++ 45 :: b :: rest) (- x) rest
  | plus (ws : Str) (b : Byte) (x : Nat) (rest : Str) : (∀ c ∈ ws, isSpace c = true) → hexOf b = some x → HexField (ws ++ 43 :: b :: rest) x rest

/-! ### Proofs -/

private theorem hexOf_iff (c : Byte) : hexOf c = if isXDigit c then some (digitVal c) else none :=
  forall_byte (p := fun c => hexOf c = if isXDigit c then some (digitVal c) else none) (by decide +kernel) c

private theorem digit_plain (c : Byte) : isXDigit c = true → isSpace c = false ∧ c ≠ 45 ∧ c ≠ 43 :=
  forall_byte (p := fun c => isXDigit c = true → isSpace c = false ∧ c ≠ 45 ∧ c ≠ 43) (by decide +kernel) c

private theorem hexOf_digit {c : Byte} {x : Nat} (h : hexOf c = some x) : isXDigit c = true ∧ digitVal c = x := by
  rw [hexOf_iff] at h
  split at h
  · rename_i hx; exact ⟨hx, by simpa using h⟩
  · cases h

private theorem hexOf_none {c : Byte} (h : hexOf c = none) : isXDigit c = false := by
  rw [hexOf_iff] at h
  split at h
  · cases h
  · rename_i hx; simpa using hx

private theorem drop_ws {ws : Str} {c : Byte} {r : Str} (h : ∀ c ∈ ws, isSpace c = true) (hc : isSpace c = false) : (ws ++ c :: r).dropWhile isSpace = c :: r := by
  induction ws with
  | nil => rw [List.nil_append, List.dropWhile_cons, if_neg (by simp [hc])]
  | cons w ws ih => rw [List.cons_append, List.dropWhile_cons, if_pos (h w (by simp)), ih (fun c hc => h c (by simp [hc]))]

theorem scanHex2_iff (s : Str) (v : Int) (r : Str) : scanHex2 s = some (v, r) ↔ HexField s v r := by
  constructor
  · intro h
    have split : s = s.takeWhile isSpace ++ s.dropWhile isSpace := List.takeWhile_append_dropWhile.symm
    have hws : ∀ c ∈ s.takeWhile isSpace, isSpace c = true := fun c hc => List.all_eq_true.1 List.all_takeWhile c hc
    unfold scanHex2 at h
    generalize s.takeWhile isSpace = ws at split hws
    generalize hd : s.dropWhile isSpace = d at split h
    subst split
    split at h
    · split at h
      · rename_i b rest hx
        cases h
        exact .minus ws b _ _ hws (by rw [hexOf_iff, if_pos hx])
      · cases h
    · split at h
      · rename_i b rest hx
        cases h
        exact .plus ws b _ _ hws (by rw [hexOf_iff, if_pos hx])
      · cases h
    · rename_i a b rest h1 h2
      split at h
      · rename_i ha
        split at h
        · rename_i hb
          cases h
          rw [Int.natCast_add, Int.natCast_mul]
          exact .pair ws a b _ _ _ hws (by rw [hexOf_iff, if_pos ha]) (by rw [hexOf_iff, if_pos hb])
        · rename_i hb
          split at h
          · cases h
          · rename_i hx
            cases h
            refine .single ws a _ _ hws (by rw [hexOf_iff, if_pos ha]) ?_ ?_
            · rintro c ⟨⟩
              rw [hexOf_iff, if_neg hb]
            · rintro ⟨e, hc⟩
              apply hx
              rcases hc with hc | hc <;> cases hc <;> simp [e]
      · cases h
    · rename_i a
      split at h
      · rename_i ha
        cases h
        exact .single ws a _ _ hws (by rw [hexOf_iff, if_pos ha]) (by simp) (by simp)
      · cases h
    · cases h
  · intro h
    cases h with
    | pair ws a b x y _ hws ha hb =>
      obtain ⟨a1, a2⟩ := hexOf_digit ha
      obtain ⟨b1, b2⟩ := hexOf_digit hb
      obtain ⟨p1, p2, p3⟩ := digit_plain a a1
      unfold scanHex2
      rw [drop_ws hws p1]
      split
      · rename_i h; cases h; exact absurd rfl p2
      · rename_i h; cases h; exact absurd rfl p3
      · rename_i h; cases h; simp [a1, b1, a2, b2]
      · rename_i h; cases h
      · rename_i h; cases h
    | single ws a x _ hws ha hr hx =>
      obtain ⟨a1, a2⟩ := hexOf_digit ha
      obtain ⟨p1, p2, p3⟩ := digit_plain a a1
      unfold scanHex2
      rw [drop_ws hws p1]
      split
      · rename_i h; cases h; exact absurd rfl p2
      · rename_i h; cases h; exact absurd rfl p3
      · rename_i b rest _ _ h
        cases h
        have hb := hexOf_none (hr b rfl)
        have : ¬ (a == 48 && (b == 120 || b == 88)) = true := by
          intro h
          simp only [Bool.and_eq_true, Bool.or_eq_true, beq_iff_eq] at h
          exact hx ⟨h.1, by rcases h.2 with rfl | rfl <;> simp⟩
        rw [if_pos a1, if_neg (by simp [hb]), if_neg this, a2]
      · rename_i h; cases h; rw [if_pos a1, a2]
      · rename_i h; cases h
    | minus ws b x _ hws hb =>
      obtain ⟨b1, b2⟩ := hexOf_digit hb
      unfold scanHex2
      rw [drop_ws hws (by decide)]
      simp [b1, b2]
    | plus ws b x _ hws hb =>
      obtain ⟨b1, b2⟩ := hexOf_digit hb
      unfold scanHex2
      rw [drop_ws hws (by decide)]
      simp [b1, b2]

/-- A number as `float` out of 255. -/
def componentInt (i : Int) : ℚ := f32 ((i : ℚ) / 255)

private theorem field_small {s : Str} {v : Int} {r : Str} (h : HexField s v r) : |v| ≤ 2 ^ 24 := by
  have d : ∀ (c : Byte) (x : Nat), hexOf c = some x → x < 16 := by
    intro c x h
    rw [hexOf_iff] at h
    split at h
    · rename_i hx
      have := forall_byte (p := fun c => isXDigit c = true → digitVal c < 16) (by decide +kernel) c hx
      cases h
      exact this
    · cases h
  cases h with
  | pair ws a b x y _ _ ha hb => have := d a x ha; have := d b y hb; rw [abs_le]; omega
  | single ws a x _ _ ha => have := d a x ha; rw [abs_le]; omega
  | minus ws b x _ _ hb => have := d b x hb; rw [abs_le]; omega
  | plus ws b x _ _ hb => have := d b x hb; rw [abs_le]; omega

private theorem comp_field {s : Str} {v : Int} {r : Str} (h : HexField s v r) : comp255 v = componentInt v := by
  unfold comp255 componentInt
  rw [f32_int (field_small h)]

/-- C72 exactly: a string is taken for a colour if it begins with three numbers, which are the components out of 255 … -/
theorem C72_rgb_exact_partial (s : Str) (c : Colour) : Colour.fromRgbHex s = .ok c ↔
    ∃ r g b s1 s2 s3, HexField s r s1 ∧ HexField s1 g s2 ∧ HexField s2 b s3 ∧ c = ⟨componentInt r, componentInt g, componentInt b⟩ := by
  constructor
  · intro h
    unfold Colour.fromRgbHex at h
    split at h
    · cases h
    rename_i r s1 h1
    split at h
    · cases h
    rename_i g s2 h2
    split at h
    · cases h
    rename_i b s3 h3
    rw [scanHex2_iff] at h1 h2 h3
    rw [Except.ok.injEq, comp_field h1, comp_field h2, comp_field h3] at h
    exact ⟨r, g, b, s1, s2, s3, h1, h2, h3, h.symm⟩
  · rintro ⟨r, g, b, s1, s2, s3, h1, h2, h3, rfl⟩
    unfold Colour.fromRgbHex
    rw [← comp_field h1, ← comp_field h2, ← comp_field h3]
    rw [← scanHex2_iff] at h1 h2 h3
    rw [h1]; simp only
    rw [h2]; simp only
    rw [h3]

/-- … or with four, of which the last is not used. -/
theorem C72_rgba_exact_partial (s : Str) (c : Colour) : Colour.fromRgbaHex s = .ok c ↔
    ∃ r g b a s1 s2 s3 s4, HexField s r s1 ∧ HexField s1 g s2 ∧ HexField s2 b s3 ∧ HexField s3 a s4 ∧ c = ⟨componentInt r, componentInt g, componentInt b⟩ := by
  constructor
  · intro h
    unfold Colour.fromRgbaHex at h
    split at h
    · cases h
    rename_i r s1 h1
    split at h
    · cases h
    rename_i g s2 h2
    split at h
    · cases h
    rename_i b s3 h3
    split at h
    · cases h
    rename_i q h4
    obtain ⟨a, s4⟩ := q
    rw [scanHex2_iff] at h1 h2 h3 h4
    rw [Except.ok.injEq, comp_field h1, comp_field h2, comp_field h3] at h
    exact ⟨r, g, b, a, s1, s2, s3, s4, h1, h2, h3, h4, h.symm⟩
  · rintro ⟨r, g, b, a, s1, s2, s3, s4, h1, h2, h3, h4, rfl⟩
    unfold Colour.fromRgbaHex
    rw [← comp_field h1, ← comp_field h2, ← comp_field h3]
    rw [← scanHex2_iff] at h1 h2 h3 h4
    rw [h1]; simp only
    rw [h2]; simp only
    rw [h3]; simp only
    rw [h4]

/-- A sign, a lone digit and white space are accepted. -/
example : HexField b!"-8 f ff" (-8) b!" f ff" ∧ HexField b!" f ff" 15 b!" ff" ∧ HexField b!" ff" 255 [] :=
  ⟨.minus [] 56 8 _ (by simp) rfl, .single [32] 102 15 _ (by decide) rfl (by rintro b ⟨⟩; decide) (by decide), .pair [32] 102 102 15 15 [] (by decide) rfl rfl⟩

end LibSub
