/-
Properties C72 (hex colours), C75 (font sizes), C76 (keywords).
-/
import Verif.Model.Subtitle
import Verif.Lemmas.Time
import Verif.Lemmas.Text

namespace LibSub

/-! ### C72  hex colours -/

/-- The lower-case hex digits, in order. -/
def hexDigits : Str := b!"0123456789abcdef"

/-- Value of a hex digit of either case: its index among the hex digits. -/
def hexOf (c : Byte) : Option Nat :=
  if c ∈ hexDigits then some (hexDigits.idxOf c)
  else if c ∈ b!"ABCDEF" then some (10 + b!"ABCDEF".idxOf c)
  else none

private theorem hexOf_some (c : Byte) : ∀ n, hexOf c = some n → isXDigit c = true ∧ digitVal c = n ∧ n < 16 ∧ isSpace c = false ∧ c ≠ 45 ∧ c ≠ 43 := by
  have : ∀ c : Byte, (match hexOf c with | some n => (isXDigit c && decide (digitVal c = n) && decide (n < 16) && !isSpace c && c != 45 && c != 43) | none => true) = true :=
    forall_byte (p := fun c => (match hexOf c with | some n => (isXDigit c && decide (digitVal c = n) && decide (n < 16) && !isSpace c && c != 45 && c != 43) | none => true) = true)
      (by decide +kernel)
  intro n h
  have := this c
  rw [h] at this
  simpa [and_assoc] using this

/-- Two hex digits followed by anything. -/
private theorem scanHex2_pair {a b : Byte} {x y : Nat} (ha : hexOf a = some x) (hb : hexOf b = some y) (rest : Str) :
    scanHex2 (a :: b :: rest) = some (((16 * x + y : Nat) : Int), rest) := by
  obtain ⟨a1, a2, a3, a4, a5, a6⟩ := hexOf_some a x ha
  obtain ⟨b1, b2, b3, b4, b5, b6⟩ := hexOf_some b y hb
  unfold scanHex2
  rw [List.dropWhile_cons_of_neg (by simp [a4])]
  split
  · rename_i h; cases h; exact absurd rfl a5
  · rename_i h; cases h; exact absurd rfl a6
  · rename_i h; cases h; simp [a1, b1, a2, b2]
  · rename_i h; cases h
  · rename_i h; cases h

/-- Colour component of a byte: `n / 255` as a `float`. -/
def component (n : Nat) : ℚ := f32 ((n : ℚ) / 255)

private theorem comp255_eq {n : Nat} (h : n < 256) : comp255 n = component n := by
  unfold comp255 component
  rw [f32_int (by rw [abs_le]; constructor <;> omega)]
  simp

/-- C72: six hex digits give the three pairs over 255. -/
theorem C72_rgb (a b c d e f : Byte) (r0 r1 g0 g1 b0 b1 : Nat) (rest : Str)
    (ha : hexOf a = some r0) (hb : hexOf b = some r1) (hc : hexOf c = some g0) (hd : hexOf d = some g1)
    (he : hexOf e = some b0) (hf : hexOf f = some b1) :
    Colour.fromRgbHex (a :: b :: c :: d :: e :: f :: rest) =
      .ok ⟨component (16 * r0 + r1), component (16 * g0 + g1), component (16 * b0 + b1)⟩ := by
  obtain ⟨_, _, a3, _⟩ := hexOf_some a _ ha
  obtain ⟨_, _, b3, _⟩ := hexOf_some b _ hb
  obtain ⟨_, _, c3, _⟩ := hexOf_some c _ hc
  obtain ⟨_, _, d3, _⟩ := hexOf_some d _ hd
  obtain ⟨_, _, e3, _⟩ := hexOf_some e _ he
  obtain ⟨_, _, f3, _⟩ := hexOf_some f _ hf
  unfold Colour.fromRgbHex
  rw [scanHex2_pair ha hb]
  simp only
  rw [scanHex2_pair hc hd]
  simp only
  rw [scanHex2_pair he hf]
  simp only
  rw [comp255_eq (by omega), comp255_eq (by omega), comp255_eq (by omega)]

example : Colour.fromRgbHex b!"fF8000x" = .ok ⟨component 255, component 128, component 0⟩ := C72_rgb _ _ _ _ _ _ 15 15 8 0 0 0 b!"x" rfl rfl rfl rfl rfl rfl

/-- C72: eight hex digits give the first three pairs over 255; the fourth (alpha) is ignored. -/
theorem C72_rgba (a b c d e f g h : Byte) (r0 r1 g0 g1 b0 b1 a0 a1 : Nat) (rest : Str)
    (ha : hexOf a = some r0) (hb : hexOf b = some r1) (hc : hexOf c = some g0) (hd : hexOf d = some g1)
    (he : hexOf e = some b0) (hf : hexOf f = some b1) (hg : hexOf g = some a0) (hh : hexOf h = some a1) :
    Colour.fromRgbaHex (a :: b :: c :: d :: e :: f :: g :: h :: rest) =
      .ok ⟨component (16 * r0 + r1), component (16 * g0 + g1), component (16 * b0 + b1)⟩ := by
  obtain ⟨_, _, a3, _⟩ := hexOf_some a _ ha
  obtain ⟨_, _, b3, _⟩ := hexOf_some b _ hb
  obtain ⟨_, _, c3, _⟩ := hexOf_some c _ hc
  obtain ⟨_, _, d3, _⟩ := hexOf_some d _ hd
  obtain ⟨_, _, e3, _⟩ := hexOf_some e _ he
  obtain ⟨_, _, f3, _⟩ := hexOf_some f _ hf
  unfold Colour.fromRgbaHex
  rw [scanHex2_pair ha hb]
  simp only
  rw [scanHex2_pair hc hd]
  simp only
  rw [scanHex2_pair he hf]
  simp only
  rw [scanHex2_pair hg hh]
  simp only
  rw [comp255_eq (by omega), comp255_eq (by omega), comp255_eq (by omega)]

example : Colour.fromRgbaHex b!"fF80007f" = .ok ⟨component 255, component 128, component 0⟩ := C72_rgba _ _ _ _ _ _ _ _ 15 15 8 0 0 0 7 15 [] rfl rfl rfl rfl rfl rfl rfl rfl

private theorem component_step : ∀ n : Fin 255, component n.val < component (n.val + 1) := by decide +kernel

private theorem component_strictMono {m n : Nat} (h : m < n) (hn : n < 256) : component m < component n := by
  induction n with
  | zero => omega
  | succ n ih =>
    have s := component_step ⟨n, by omega⟩
    rcases Nat.lt_or_ge m n with h' | h'
    · exact lt_trans (ih h' (by omega)) s
    · have : m = n := by omega
      subst this
      exact s

/-- C72: components lie in [0, 1], black is 0 and full is 1, and different bytes give different components. -/
theorem C72_component : component 0 = 0 ∧ component 255 = 1 ∧
    (∀ n < 256, 0 ≤ component n ∧ component n ≤ 1) ∧
    (∀ m < 256, ∀ n < 256, component m = component n → m = n) := by
  have h1 : component 255 = 1 := by decide +kernel
  refine ⟨by decide +kernel, h1, ?_, ?_⟩
  · intro n hn
    refine ⟨rnd_nonneg (by positivity), ?_⟩
    rcases Nat.lt_or_ge n 255 with h | h
    · exact h1 ▸ (component_strictMono h (by norm_num)).le
    · have : n = 255 := by omega
      subst this
      exact h1.le
  · intro m hm n hn h
    rcases Nat.lt_trichotomy m n with h' | h' | h'
    · exact absurd h (component_strictMono h' hn).ne
    · exact h'
    · exact absurd h.symm (component_strictMono h' hm).ne

/-- The number of hex digits in a string. -/
def hexCount (s : Str) : Nat := s.countP isXDigit

/-- Every conversion uses up a hex digit. -/
private theorem scanHex2_count {s rest : Str} {n : Int} (h : scanHex2 s = some (n, rest)) : hexCount rest < hexCount s := by
  have hd : hexCount (s.dropWhile isSpace) ≤ hexCount s := (List.dropWhile_sublist _).countP_le
  refine lt_of_lt_of_le ?_ hd
  unfold scanHex2 at h
  split at h
  · rename_i b rest' e
    rw [e]
    split at h
    · cases h; simp_all [hexCount, List.countP_cons]; omega
    · cases h
  · rename_i b rest' e
    rw [e]
    split at h
    · cases h; simp_all [hexCount, List.countP_cons]; omega
    · cases h
  · rename_i a b rest' _ _ e
    rw [e]
    split at h
    · rename_i ha
      split at h
      · cases h; simp_all [hexCount]; omega
      · split at h
        · cases h
        · cases h; simp_all [hexCount]
    · cases h
  · rename_i a e
    rw [e]
    split at h
    · cases h; simp_all [hexCount]
    · cases h
  · cases h

/-- C72, the rejection as claimed: a string without three pairs of hex digits raises `XMLError`. -/
def C72_reject_statement : Prop :=
  ∀ s : Str, (∀ a b c d e f rest, s = a :: b :: c :: d :: e :: f :: rest → ∃ x ∈ [a, b, c, d, e, f], hexOf x = none) →
    Colour.fromRgbHex s = .error (.xml b!"could not parse colour string")

/-- C72: that is false; single digits separated by spaces are accepted … -/
theorem C72_reject_false : ¬ C72_reject_statement := by
  intro h
  have := h b!"1 2 3" (by intro a b c d e f rest h; simp at h)
  revert this
  decide +kernel

/-- … and a sign gives components outside [0, 1]. -/
theorem C72_negative_witness : ∃ s c, Colour.fromRgbHex s = .ok c ∧ c.r < 0 := by
  refine ⟨b!"-10000", ⟨comp255 (-1), 0, 0⟩, ?_, ?_⟩ <;> decide +kernel

/-- C72: what is always rejected is a string with fewer than three (for rgba: four) hex digits. -/
theorem C72_reject_partial (s : Str) :
    (hexCount s < 3 → Colour.fromRgbHex s = .error (.xml b!"could not parse colour string")) ∧
    (hexCount s < 4 → Colour.fromRgbaHex s = .error (.xml b!"could not parse colour string")) := by
  constructor
  · intro hs
    unfold Colour.fromRgbHex
    split
    · rfl
    · rename_i h1
      split
      · rfl
      · rename_i h2
        split
        · rfl
        · rename_i h3
          have := scanHex2_count h1
          have := scanHex2_count h2
          have := scanHex2_count h3
          omega
  · intro hs
    unfold Colour.fromRgbaHex
    split
    · rfl
    · rename_i h1
      split
      · rfl
      · rename_i h2
        split
        · rfl
        · rename_i h3
          split
          · rfl
          · rename_i h4
            have := scanHex2_count h1
            have := scanHex2_count h2
            have := scanHex2_count h3
            have := scanHex2_count h4
            omega

example : Colour.fromRgbHex b!"a x" = .error (.xml b!"could not parse colour string") := (C72_reject_partial b!"a x").1 (by decide)

/-- C72: nothing but `XMLError` is ever raised. -/
theorem C72_errors (s : Str) (e : Err) (h : Colour.fromRgbHex s = .error e ∨ Colour.fromRgbaHex s = .error e) :
    e = .xml b!"could not parse colour string" := by
  rcases h with h | h
  · unfold Colour.fromRgbHex at h
    repeat' split at h
    all_goals first | (injection h with h; exact h.symm) | cases h
  · unfold Colour.fromRgbaHex at h
    repeat' split at h
    all_goals first | (injection h with h; exact h.symm) | cases h

example : hexOf 70 = some 15 ∧ hexOf 102 = some 15 ∧ hexOf 48 = some 0 ∧ hexOf 103 = none := by decide
example : Colour.fromRgbHex b!"ff8000" = .ok ⟨1, component 128, 0⟩ ∧ hexCount b!"#zz1" = 1 := by decide +kernel

/-! ### C75  font sizes -/

/-- C75: a size in points has those points at every screen height. -/
theorem C75_points (p h : Int) : (FontSize.fromPoints p).pointsAt h = .ok p := rfl

/-- C75: a proportional size has that proportion at every screen height. -/
theorem C75_proportional (p : ℚ) (h : Int) : (FontSize.fromProportional p).proportionalAt h = .ok p := rfl

/-- C75: points to proportion: `p / h` up to rounding, defined unless `h = 0`. -/
theorem C75_points_to_proportional (p h : Int) (hp : |p| ≤ 2 ^ 24) (hh : |h| ≤ 2 ^ 24) (h0 : h ≠ 0) :
    ∃ q, (FontSize.fromPoints p).proportionalAt h = .ok q ∧ |q - p / h| ≤ |(p : ℚ) / h| / 2 ^ 24 := by
  have hq : (h : ℚ) ≠ 0 := by exact_mod_cast h0
  refine ⟨f32 (p / h), ?_, f32_err _⟩
  simp [FontSize.fromPoints, FontSize.proportionalAt, optGet, fdiv, f32_int hp, f32_int hh, h0]

example : ∃ q, (FontSize.fromPoints 42).proportionalAt 1000 = .ok q ∧ |q - 42 / 1000| ≤ |(42 : ℚ) / 1000| / 2 ^ 24 := by
  have := C75_points_to_proportional 42 1000 (by decide) (by decide) (by decide)
  simpa using this

/-- C75: proportion to points: the product rounded down (for non-negative proportions), within rounding of `p * h`. -/
theorem C75_proportional_to_points (p : ℚ) (h : Int) (hp : 0 ≤ p) (hp1 : p ≤ 1) (h0 : 0 ≤ h) (hh : h ≤ 2 ^ 24) :
    ∃ n : Int, (FontSize.fromProportional p).pointsAt h = .ok n ∧ (n : ℚ) ≤ p * h * (1 + 1 / 2 ^ 24) ∧ p * h * (1 - 1 / 2 ^ 24) < n + 1 := by
  have hf : f32 (h : ℚ) = h := f32_int (by rw [abs_le]; constructor <;> omega)
  have hq : (0 : ℚ) ≤ h := by exact_mod_cast h0
  have nn : (0 : ℚ) ≤ p * h := mul_nonneg hp hq
  have e := f32_err (p * h)
  rw [abs_of_nonneg nn, abs_le] at e
  have f0 : (0 : ℚ) ≤ f32 (p * h) := rnd_nonneg nn
  have hh' : (h : ℚ) ≤ 2 ^ 24 := by exact_mod_cast hh
  have le : p * h ≤ 2 ^ 24 := by nlinarith
  have fl1 := floor_le (f32 (p * h))
  have fl2 := lt_floor_add_one (f32 (p * h))
  have ti : truncR (f32 (p * h)) = (f32 (p * h)).floor := by unfold truncR; rw [if_pos f0]
  have b1 : (0 : ℤ) ≤ (f32 (p * h)).floor := Rat.le_floor_iff.2 (by exact_mod_cast f0)
  have b2 : (f32 (p * h)).floor ≤ 2147483647 := by
    have : ((f32 (p * h)).floor : ℚ) ≤ 2147483647 := by linarith
    exact_mod_cast this
  refine ⟨(f32 (p * h)).floor, ?_, ?_, ?_⟩
  · simp only [FontSize.fromProportional, FontSize.pointsAt, optGet, ok_bind, hf, toInt, ti]
    rw [if_pos ⟨by omega, b2⟩]
  · linarith
  · linarith

/-- C75: an unset size cannot be converted: undefined behaviour; every set size has points and proportion. -/
theorem C75_unset (s : FontSize) (h : Int) :
    (s.specified = false ↔ s.pointsAt h = .error (.ub .emptyOptional)) ∧
    (s.specified = false ↔ s.proportionalAt h = .error (.ub .emptyOptional)) := by
  obtain ⟨p, n⟩ := s
  cases p <;> cases n <;> simp [FontSize.specified, FontSize.pointsAt, FontSize.proportionalAt, optGet, toInt, fdiv] <;>
    split <;> simp

example : (FontSize.fromProportional (1/20)).pointsAt 720 = .ok 36 ∧ (FontSize.fromPoints 36).proportionalAt 720 = .ok (f32 (1/20)) := by
  decide +kernel

/-! ### C76  keywords -/

/-- C76: effects. -/
theorem C76_effect (s : Str) :
    (s = b!"none" ∧ stringToEffect s = .ok none) ∨ (s = b!"border" ∧ stringToEffect s = .ok (some .border)) ∨
    (s = b!"shadow" ∧ stringToEffect s = .ok (some .shadow)) ∨
    (s ≠ b!"none" ∧ s ≠ b!"border" ∧ s ≠ b!"shadow" ∧ stringToEffect s = .error (.xml b!"unknown subtitle effect type")) := by
  unfold stringToEffect
  split
  · exact .inl ⟨by assumption, rfl⟩
  · split
    · exact .inr (.inl ⟨by assumption, rfl⟩)
    · split
      · exact .inr (.inr (.inl ⟨by assumption, rfl⟩))
      · exact .inr (.inr (.inr ⟨by assumption, by assumption, by assumption, rfl⟩))

/-- C76: vertical references. -/
theorem C76_vertical_reference (s : Str) :
    (s = b!"top" ∧ stringToVRef s = .ok .topOfScreen) ∨ (s = b!"center" ∧ stringToVRef s = .ok .centreOfScreen) ∨
    (s = b!"bottom" ∧ stringToVRef s = .ok .bottomOfScreen) ∨
    (s ≠ b!"top" ∧ s ≠ b!"center" ∧ s ≠ b!"bottom" ∧ stringToVRef s = .error (.xml b!"unknown subtitle valign type")) := by
  unfold stringToVRef
  split
  · exact .inl ⟨by assumption, rfl⟩
  · split
    · exact .inr (.inl ⟨by assumption, rfl⟩)
    · split
      · exact .inr (.inr (.inl ⟨by assumption, rfl⟩))
      · exact .inr (.inr (.inr ⟨by assumption, by assumption, by assumption, rfl⟩))

example : stringToEffect b!"Border" = .error (.xml b!"unknown subtitle effect type") ∧ stringToVRef b!"center" = .ok .centreOfScreen := by
  decide

end LibSub
