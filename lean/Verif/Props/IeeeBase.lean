/-
C126: sizes of the numbers that occur, and the lemmas that carry agreement of the two arithmetics through programs.
-/
import Verif.Props.IeeeRounding
import Verif.Lemmas.Time

namespace LibSub

/-- `x` is a multiple of `2 ^ g` and no larger than `2 ^ k`. -/
def Sized (g k : Int) (x : ℚ) : Prop := Grid g x ∧ |x| ≤ (2 : ℚ) ^ k

theorem Sized.mono {g k g' k' : Int} {x : ℚ} (h : Sized g k x) (hg : g' ≤ g := by norm_num) (hk : k ≤ k' := by norm_num) : Sized g' k' x :=
  ⟨h.1.mono hg, h.2.trans (zpow_le_zpow_right₀ (by norm_num) hk)⟩

theorem Sized.zero (g k : Int) : Sized g k 0 := ⟨.zero g, by rw [abs_zero]; exact (zpow2_pos k).le⟩

theorem Sized.rnd {p : Nat} (hp : 0 < p) {g k : Int} {x : ℚ} (h : Sized g k x) : Sized g k (LibSub.rnd p x) := ⟨h.1.rnd, abs_rnd_le hp h.2⟩

theorem Sized.f32 {g k : Int} {x : ℚ} (h : Sized g k x) : Sized g k (LibSub.f32 x) := h.rnd (by norm_num)

theorem Sized.f64 {g k : Int} {x : ℚ} (h : Sized g k x) : Sized g k (LibSub.f64 x) := h.rnd (by norm_num)

private theorem zsucc (k : Int) : (2 : ℚ) ^ (k + 1) = (2 : ℚ) ^ k + (2 : ℚ) ^ k := by
  rw [zpow_add₀ (by norm_num), zpow_one]; ring

theorem Sized.add {g k : Int} {x y : ℚ} (hx : Sized g k x) (hy : Sized g k y) : Sized g (k + 1) (x + y) := by
  refine ⟨hx.1.add hy.1, ?_⟩
  rw [zsucc]
  exact (abs_add_le x y).trans (add_le_add hx.2 hy.2)

theorem Sized.neg {g k : Int} {x : ℚ} (hx : Sized g k x) : Sized g k (-x) := ⟨hx.1.neg, by rw [abs_neg]; exact hx.2⟩

theorem Sized.sub {g k : Int} {x y : ℚ} (hx : Sized g k x) (hy : Sized g k y) : Sized g (k + 1) (x - y) := by
  rw [sub_eq_add_neg]; exact hx.add hy.neg

theorem Sized.mul {g k h l : Int} {x y : ℚ} (hx : Sized g k x) (hy : Sized h l y) : Sized (g + h) (k + l) (x * y) := by
  refine ⟨hx.1.mul hy.1, ?_⟩
  rw [abs_mul, zpow_add₀ (by norm_num)]
  exact mul_le_mul hx.2 hy.2 (abs_nonneg _) (zpow2_pos k).le

theorem Sized.half {g k : Int} {x : ℚ} (hx : Sized g k x) : Sized (g - 1) k (x / 2) := by
  obtain ⟨⟨n, hn⟩, h⟩ := hx
  refine ⟨⟨n, ?_⟩, ?_⟩
  · rw [hn, zpow_sub₀ (by norm_num), zpow_one]; ring
  · rw [abs_div, abs_of_pos (by norm_num : (0 : ℚ) < 2)]
    have := abs_nonneg x
    linarith

theorem Sized.int {n : Int} (h : InInt n) : Sized 0 31 (n : ℚ) := by
  refine ⟨.int n, ?_⟩
  have : |n| ≤ 2147483648 := by rw [abs_le]; unfold InInt at h; omega
  have : ((|n| : Int) : ℚ) ≤ 2147483648 := by exact_mod_cast this
  rw [Int.cast_abs] at this
  norm_num
  exact this

theorem Sized.nat {n : Nat} {k : Nat} (h : n ≤ 2 ^ k) : Sized 0 k (n : ℚ) := by
  refine ⟨.int n, ?_⟩
  rw [abs_of_nonneg (by positivity), zpow_natCast]
  exact_mod_cast h

/-- A multiple of `2 ^ g` other than 0 is at least that large. -/
theorem Sized.low {g k : Int} {x : ℚ} (h : Sized g k x) : x = 0 ∨ (2 : ℚ) ^ g ≤ |x| := by
  obtain ⟨⟨n, rfl⟩, -⟩ := h
  by_cases hn : n = 0
  · left; simp [hn]
  · right
    rw [abs_mul, abs_of_pos (zpow2_pos g)]
    have : (1 : ℚ) ≤ |(n : ℚ)| := by exact_mod_cast Int.one_le_abs hn
    have := zpow2_pos g
    nlinarith

theorem Sized.quotient {g k L h l : Int} {x y : ℚ} (hx : Sized g k x) (lx : x = 0 ∨ (2 : ℚ) ^ L ≤ |x|) (hy : Sized h l y) (y0 : y ≠ 0) :
    (x / y = 0 ∨ (2 : ℚ) ^ (L - l) ≤ |x / y|) ∧ |x / y| ≤ (2 : ℚ) ^ (k - h) := by
  have hy2 : (2 : ℚ) ^ h ≤ |y| := hy.low.resolve_left y0
  have hyp : 0 < |y| := abs_pos.2 y0
  rw [abs_div]
  constructor
  · rcases lx with rfl | lx
    · left; simp
    · right
      rw [le_div_iff₀ hyp, zpow_sub₀ (by norm_num)]
      have h1 := zpow2_pos L
      have h2 := zpow2_pos l
      calc (2 : ℚ) ^ L / (2 : ℚ) ^ l * |y| ≤ (2 : ℚ) ^ L / (2 : ℚ) ^ l * (2 : ℚ) ^ l := by
            have := hy.2
            gcongr
        _ = (2 : ℚ) ^ L := by field_simp
        _ ≤ |x| := lx
  · rw [div_le_iff₀ hyp, zpow_sub₀ (by norm_num)]
    have h1 := zpow2_pos k
    have h2 := zpow2_pos h
    calc |x| ≤ (2 : ℚ) ^ k := hx.2
      _ = (2 : ℚ) ^ k / (2 : ℚ) ^ h * (2 : ℚ) ^ h := by field_simp
      _ ≤ (2 : ℚ) ^ k / (2 : ℚ) ^ h * |y| := by gcongr

theorem ieee32_fits {g k : Int} {x : ℚ} (h : Sized g k x) (hg : -149 ≤ g := by norm_num) (hk : k < 128 := by norm_num) : Ieee.ieee32 x = .ok (f32 x) :=
  ieee32_grid (h.1.mono hg) k h.2 hk

theorem ieee64_fits {g k : Int} {x : ℚ} (h : Sized g k x) (hg : -1074 ≤ g := by norm_num) (hk : k < 1024 := by norm_num) : Ieee.ieee64 x = .ok (f64 x) :=
  ieee64_grid (h.1.mono hg) k h.2 hk

/-- Division of `float`s. -/
theorem div32 {g k L h l : Int} {x y : ℚ} (hx : Sized g k x) (lx : x = 0 ∨ (2 : ℚ) ^ L ≤ |x|) (hy : Sized h l y) (y0 : y ≠ 0)
    (hL : -126 ≤ L - l := by norm_num) (hk : k - h < 128 := by norm_num) :
    Ieee.ieee32 (x / y) = .ok (f32 (x / y)) ∧ Sized (L - l - 23) (k - h) (f32 (x / y)) := by
  obtain ⟨a, b⟩ := hx.quotient lx hy y0
  rcases a with a | a
  · rw [a, f32_zero]; exact ⟨by simp [Ieee.ieee32, Ieee.ieee], .zero _ _⟩
  · refine ⟨ieee32_large ((zpow_le_zpow_right₀ (by norm_num) hL).trans a) _ b hk, ?_, abs_rnd_le (by norm_num) b⟩
    have := Grid.of_large (p := 24) a
    norm_num at this
    exact this

/-- Division of `double`s. -/
theorem div64 {g k L h l : Int} {x y : ℚ} (hx : Sized g k x) (lx : x = 0 ∨ (2 : ℚ) ^ L ≤ |x|) (hy : Sized h l y) (y0 : y ≠ 0)
    (hL : -1022 ≤ L - l := by norm_num) (hk : k - h < 1024 := by norm_num) :
    Ieee.ieee64 (x / y) = .ok (f64 (x / y)) ∧ Sized (L - l - 52) (k - h) (f64 (x / y)) := by
  obtain ⟨a, b⟩ := hx.quotient lx hy y0
  rcases a with a | a
  · rw [a, f64_zero]; exact ⟨by simp [Ieee.ieee64, Ieee.ieee], .zero _ _⟩
  · refine ⟨ieee64_large ((zpow_le_zpow_right₀ (by norm_num) hL).trans a) _ b hk, ?_, abs_rnd_le (by norm_num) b⟩
    have := Grid.of_large (p := 53) a
    norm_num at this
    exact this

theorem ieee64_int {n : Int} (h : InInt n) : Ieee.ieee64 (n : ℚ) = .ok (n : ℚ) := by
  rw [ieee64_fits (Sized.int h), f64_of_inInt h]

theorem fdiv_zero (a : ℚ) : fdiv a 0 = .error .nonFinite := by simp [fdiv]

theorem fdiv_ne {a b : ℚ} (h : b ≠ 0) : fdiv a b = .ok (a / b) := by simp [fdiv, h]

theorem f32_ne_zero {n : Int} (h : n ≠ 0) : f32 (n : ℚ) ≠ 0 := by
  have : (2 : ℚ) ^ (0 : Int) ≤ |(n : ℚ)| := by
    rw [zpow_zero]; exact_mod_cast Int.one_le_abs h
  have := le_abs_rnd (p := 24) (by norm_num) this
  intro e
  unfold f32 at e
  rw [e, abs_zero] at this
  norm_num at this

/-! ### Two programs, one of them perhaps out of the model -/

/-- `a` is out of the model, or `b` does what `a` does, and the results of `a` satisfy `P`. -/
def Track {α : Type} (P : α → Prop) (a b : R α) : Prop := a = .error .unmodelled ∨ (b = a ∧ ∀ x, a = .ok x → P x)

theorem Track.bind {α β : Type} {P : α → Prop} {Q : β → Prop} {a b : R α} {f g : α → R β} (h : Track P a b)
    (hf : ∀ x, P x → Track Q (f x) (g x)) : Track Q (a >>= f) (b >>= g) := by
  rcases h with h | ⟨rfl, h⟩
  · left; rw [h]; rfl
  · cases b with
    | error e => exact .inr ⟨rfl, fun x hx => by cases hx⟩
    | ok y => exact hf y (h y rfl)

theorem Track.ok {α : Type} {P : α → Prop} {x : α} (h : P x) : Track P (.ok x) (.ok x) := .inr ⟨rfl, fun y hy => by cases hy; exact h⟩

theorem Track.error {α : Type} {P : α → Prop} (e : Err) : Track P (.error e) (.error e) := .inr ⟨rfl, fun y hy => by cases hy⟩

theorem Track.same {α : Type} {P : α → Prop} {a : R α} (h : ∀ x, a = .ok x → P x) : Track P a a := .inr ⟨rfl, h⟩

theorem Track.imp {α : Type} {P Q : α → Prop} {a b : R α} (h : Track P a b) (i : ∀ x, P x → Q x) : Track Q a b := by
  rcases h with h | ⟨h1, h2⟩
  · exact .inl h
  · exact .inr ⟨h1, fun x hx => i x (h2 x hx)⟩

theorem Track.eq {α : Type} {P : α → Prop} {a b : R α} (h : Track P a b) : a = .error .unmodelled ∨ b = a := Or.imp id And.left h

theorem Track.ite {α : Type} {P : α → Prop} {c : Prop} [Decidable c] {a b a' b' : R α} (h1 : c → Track P a b) (h2 : ¬c → Track P a' b') :
    Track P (if c then a else a') (if c then b else b') := by
  by_cases h : c
  · rw [if_pos h, if_pos h]; exact h1 h
  · rw [if_neg h, if_neg h]; exact h2 h

end LibSub
