/-
Property C153: hex colours with the scanf of glibc.
-/
import Verif.Model.HexGlibc
import Verif.Props.HexColours
import Verif.Props.FontColour

namespace LibSub

/-! ### Specification -/

/-- A number as glibc reads it for `%2x`: as in ISO C, or `0x`, which is 0. -/
def GlibcField (s : Str) (v : Int) (r : Str) : Prop := HexField s v r ∨ (v = 0 ∧ ∃ ws x, (∀ c ∈ ws, isSpace c = true) ∧ (x = 120 ∨ x = 88) ∧ s = ws ++ 48 :: x :: r)

/-- The string has no letter x. -/
def NoX (s : Str) : Prop := (120 : Byte) ∉ s ∧ (88 : Byte) ∉ s

/-! ### Proofs -/

/-- The two conversions, apart from `0x`. -/
private theorem scan_cases (s : Str) : (∃ ws x r, (∀ c ∈ ws, isSpace c = true) ∧ (x = 120 ∨ x = 88) ∧ s = ws ++ 48 :: x :: r ∧ scanHex2G s = some (0, r) ∧ scanHex2 s = none) ∨
    ((∀ ws x r, (∀ c ∈ ws, isSpace c = true) → (x = 120 ∨ x = 88) → s ≠ ws ++ 48 :: x :: r) ∧ scanHex2G s = scanHex2 s) := by
  have split : s = s.takeWhile isSpace ++ s.dropWhile isSpace := List.takeWhile_append_dropWhile.symm
  have hws : ∀ c ∈ s.takeWhile isSpace, isSpace c = true := fun c hc => List.all_eq_true.1 List.all_takeWhile c hc
  by_cases h : ∃ x r, (x = 120 ∨ x = 88) ∧ s.dropWhile isSpace = 48 :: x :: r
  · obtain ⟨x, r, hx, hd⟩ := h
    refine .inl ⟨s.takeWhile isSpace, x, r, hws, hx, by rw [← hd]; exact split, ?_, ?_⟩
    · unfold scanHex2G
      rw [hd]
      rcases hx with rfl | rfl <;> rfl
    · unfold scanHex2
      rw [hd]
      rcases hx with rfl | rfl <;> rfl
  · refine .inr ⟨?_, ?_⟩
    · rintro ws x r h1 hx rfl
      refine h ⟨x, r, hx, ?_⟩
      rw [List.dropWhile_append_of_pos h1]
      rfl
    · unfold scanHex2G
      split
      · rename_i hd; unfold scanHex2; rw [hd]; rfl
      · rename_i hd; unfold scanHex2; rw [hd]; rfl
      · rename_i a b rest h1 h2 hd
        unfold scanHex2
        rw [hd]
        symm
        split
        · rename_i e; cases e; exact absurd rfl h1
        · rename_i e; cases e; exact absurd rfl h2
        · rename_i e
          cases e
          split
          · split
            · rfl
            · split
              · rename_i hc
                simp only [Bool.and_eq_true, beq_iff_eq, Bool.or_eq_true] at hc
                obtain ⟨rfl, hx⟩ := hc
                exact absurd ⟨b, rest, hx, hd⟩ h
              · rfl
          · rfl
        · rename_i e; cases e
        · rename_i e; cases e
      · rename_i a hd
        unfold scanHex2
        rw [hd]
        symm
        split
        · rename_i e; cases e
        · rename_i e; cases e
        · rename_i e; cases e
        · rename_i e; cases e; rfl
        · rename_i e; cases e
      · rename_i hd; unfold scanHex2; rw [hd]

private theorem scanG_iff (s : Str) (v : Int) (r : Str) : scanHex2G s = some (v, r) ↔ GlibcField s v r := by
  unfold GlibcField
  rcases scan_cases s with ⟨ws, x, r', h1, h2, h3, h4, h5⟩ | ⟨h1, h2⟩
  · rw [h4]
    constructor
    · intro h
      cases h
      exact .inr ⟨rfl, ws, x, h1, h2, h3⟩
    · rintro (h | ⟨rfl, ws', x', h1', h2', h3'⟩)
      · rw [← scanHex2_iff, h5] at h; cases h
      · have e : s.dropWhile isSpace = 48 :: x :: r' := by rw [h3, List.dropWhile_append_of_pos h1]; rfl
        have e' : s.dropWhile isSpace = 48 :: x' :: r := by rw [h3', List.dropWhile_append_of_pos h1']; rfl
        rw [e] at e'
        cases e'
        rfl
  · rw [h2, scanHex2_iff]
    constructor
    · exact .inl
    · rintro (h | ⟨_, ws, x, h3, h4, h5⟩)
      · exact h
      · exact absurd h5 (h1 ws x r h3 h4)

private theorem digit_small (c : Byte) (x : Nat) (h : hexOf c = some x) : x < 16 := by
  have := forall_byte (p := fun c => (hexOf c).getD 0 < 16) (by decide +kernel) c
  rwa [h] at this

private theorem field_small' {s : Str} {v : Int} {r : Str} (h : HexField s v r) : |v| ≤ 2 ^ 24 := by
  have d := digit_small
  cases h with
  | pair ws a b x y _ _ ha hb => have := d a x ha; have := d b y hb; rw [abs_le]; omega
  | single ws a x _ _ ha => have := d a x ha; rw [abs_le]; omega
  | minus ws b x _ _ hb => have := d b x hb; rw [abs_le]; omega
  | plus ws b x _ _ hb => have := d b x hb; rw [abs_le]; omega

private theorem comp_eq {s : Str} {v : Int} {r : Str} (h : GlibcField s v r) : comp255 v = componentInt v := by
  rcases h with h | ⟨rfl, _⟩
  · unfold comp255 componentInt
    rw [f32_int (field_small' h)]
  · decide +kernel

private theorem scan_rest {s r : Str} {v : Int} (h : scanHex2 s = some (v, r)) : ∀ c ∈ r, c ∈ s := by
  rw [scanHex2_iff] at h
  cases h <;> intro c hc <;> simp [hc]

private theorem scan_same {s : Str} (h : NoX s) : scanHex2G s = scanHex2 s := by
  rcases scan_cases s with ⟨ws, x, r', h1, h2, rfl, _, _⟩ | ⟨_, h2⟩
  · exfalso
    rcases h2 with rfl | rfl
    · exact h.1 (by simp)
    · exact h.2 (by simp)
  · exact h2

private theorem noX_rest {s r : Str} {v : Int} (h : scanHex2 s = some (v, r)) (hs : NoX s) : NoX r := ⟨fun hc => hs.1 (scan_rest h _ hc), fun hc => hs.2 (scan_rest h _ hc)⟩

private theorem rgb_same {s : Str} (h : NoX s) : fromRgbHexG s = Colour.fromRgbHex s := by
  unfold fromRgbHexG Colour.fromRgbHex
  rw [scan_same h]
  cases h1 : scanHex2 s with
  | none => rfl
  | some a =>
    obtain ⟨r, s1⟩ := a
    have n1 := noX_rest h1 h
    simp only
    rw [scan_same n1]
    cases h2 : scanHex2 s1 with
    | none => rfl
    | some a =>
      obtain ⟨g, s2⟩ := a
      simp only
      rw [scan_same (noX_rest h2 n1)]
      cases scanHex2 s2 <;> rfl

private theorem rgba_same {s : Str} (h : NoX s) : fromRgbaHexG s = Colour.fromRgbaHex s := by
  unfold fromRgbaHexG Colour.fromRgbaHex
  rw [scan_same h]
  cases h1 : scanHex2 s with
  | none => rfl
  | some a =>
    obtain ⟨r, s1⟩ := a
    have n1 := noX_rest h1 h
    simp only
    rw [scan_same n1]
    cases h2 : scanHex2 s1 with
    | none => rfl
    | some a =>
      obtain ⟨g, s2⟩ := a
      have n2 := noX_rest h2 n1
      simp only
      rw [scan_same n2]
      cases h3 : scanHex2 s2 with
      | none => rfl
      | some a =>
        obtain ⟨b, s3⟩ := a
        simp only
        rw [scan_same (noX_rest h3 n2)]
        cases scanHex2 s3 <;> rfl

private theorem group_noX {r g : Str} (h : fontHexAt r = some g) : NoX g := by
  unfold fontHexAt at h
  split at h
  · simp only at h
    split at h
    · split at h
      · cases h
      · cases h
        constructor <;>
        · intro hc
          have := List.all_eq_true.1 List.all_takeWhile _ hc
          revert this
          decide
    · cases h
  · cases h

private theorem last_noX {s g : Str} (h : lastMatch fontHexAt s = some g) : NoX g := by
  induction s with
  | nil => exact group_noX h
  | cons c s ih =>
    rw [lastMatch] at h
    split at h
    · cases h; exact ih ‹_›
    · exact group_noX h

/-! ### The property -/

/-- C153: exactly which strings glibc takes for a colour, and for which one. -/
theorem C153_rgb (s : Str) (c : Colour) : fromRgbHexG s = .ok c ↔
    ∃ r g b s1 s2 s3, GlibcField s r s1 ∧ GlibcField s1 g s2 ∧ GlibcField s2 b s3 ∧ c = ⟨componentInt r, componentInt g, componentInt b⟩ := by
  constructor
  · intro h
    unfold fromRgbHexG at h
    split at h
    · cases h
    rename_i r s1 h1
    split at h
    · cases h
    rename_i g s2 h2
    split at h
    · cases h
    rename_i b s3 h3
    rw [scanG_iff] at h1 h2 h3
    rw [Except.ok.injEq, comp_eq h1, comp_eq h2, comp_eq h3] at h
    exact ⟨r, g, b, s1, s2, s3, h1, h2, h3, h.symm⟩
  · rintro ⟨r, g, b, s1, s2, s3, h1, h2, h3, rfl⟩
    unfold fromRgbHexG
    rw [← comp_eq h1, ← comp_eq h2, ← comp_eq h3]
    rw [← scanG_iff] at h1 h2 h3
    rw [h1]; simp only
    rw [h2]; simp only
    rw [h3]

/-- C153 for four numbers, of which the last is not used. -/
theorem C153_rgba (s : Str) (c : Colour) : fromRgbaHexG s = .ok c ↔
    ∃ r g b a s1 s2 s3 s4, GlibcField s r s1 ∧ GlibcField s1 g s2 ∧ GlibcField s2 b s3 ∧ GlibcField s3 a s4 ∧ c = ⟨componentInt r, componentInt g, componentInt b⟩ := by
  constructor
  · intro h
    unfold fromRgbaHexG at h
    split at h
    · cases h
    rename_i r s1 h1
    split at h
    · cases h
    rename_i g s2 h2
    split at h
    · cases h
    rename_i b s3 h3
    split at h
    · cases h
    rename_i p h4
    obtain ⟨a, s4⟩ := p
    rw [scanG_iff] at h1 h2 h3 h4
    rw [Except.ok.injEq, comp_eq h1, comp_eq h2, comp_eq h3] at h
    exact ⟨r, g, b, a, s1, s2, s3, s4, h1, h2, h3, h4, h.symm⟩
  · rintro ⟨r, g, b, a, s1, s2, s3, s4, h1, h2, h3, h4, rfl⟩
    unfold fromRgbaHexG
    rw [← comp_eq h1, ← comp_eq h2, ← comp_eq h3]
    rw [← scanG_iff] at h1 h2 h3 h4
    rw [h1]; simp only
    rw [h2]; simp only
    rw [h3]; simp only
    rw [h4]

/-- C153: whatever is a colour by ISO C is the same colour in glibc … -/
theorem C153_more (s : Str) (c : Colour) : (Colour.fromRgbHex s = .ok c → fromRgbHexG s = .ok c) ∧ (Colour.fromRgbaHex s = .ok c → fromRgbaHexG s = .ok c) := by
  rw [C72_rgb_exact_partial, C72_rgba_exact_partial, C153_rgb, C153_rgba]
  constructor
  · rintro ⟨r, g, b, s1, s2, s3, h1, h2, h3, rfl⟩
    exact ⟨r, g, b, s1, s2, s3, .inl h1, .inl h2, .inl h3, rfl⟩
  · rintro ⟨r, g, b, a, s1, s2, s3, s4, h1, h2, h3, h4, rfl⟩
    exact ⟨r, g, b, a, s1, s2, s3, s4, .inl h1, .inl h2, .inl h3, .inl h4, rfl⟩

/-- … and there is no difference, errors included, for strings without an x. -/
theorem C153_same (s : Str) (h : NoX s) : fromRgbHexG s = Colour.fromRgbHex s ∧ fromRgbaHexG s = Colour.fromRgbaHex s := ⟨rgb_same h, rgba_same h⟩

example : NoX b!"80ff00" ∧ (fromRgbHexG b!"80ff00").toOption.isSome = true := ⟨⟨by decide, by decide⟩, by decide +kernel⟩

/-- C153: so the colours of SubRip files do not depend on it: the regular expression lets hex digits through only. -/
theorem C153_subrip (n : Nat) (ctx : List Str) (tag : Str) : fontColourG n ctx tag = fontColour n ctx tag := by
  unfold fontColourG fontColour
  cases h : lastMatch fontHexAt tag with
  | none => rfl
  | some g =>
    simp only
    rw [rgb_same (last_noX h), rgba_same (last_noX h)]

example : (fontColourG 0 [] b!" color=\"#80ff00\"").toOption.isSome = true := by decide +kernel

/-- C153: `0x` makes a difference: glibc takes 0x1234 for the colour 00 12 34. -/
theorem C153_witness : (fromRgbHexG b!"0x1234").toOption = some ⟨componentInt 0, componentInt 18, componentInt 52⟩ ∧ Colour.fromRgbHex b!"0x1234" = .error (.xml b!"could not parse colour string") := by
  refine ⟨?_, ?_⟩ <;> decide +kernel

end LibSub
