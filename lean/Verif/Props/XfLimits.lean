/-
Property C137, arithmetic: sums, differences, products and quotients with infinities are the limits of those of numbers.
-/
import Verif.Model.SsaInf
import Mathlib.Topology.Instances.Rat
import Mathlib.Topology.Algebra.Order.Field

namespace LibSub

open Filter Topology

/-! ### Specification -/

/-- A sequence of numbers approaches a number or an infinity. -/
def Approaches (u : ℕ → ℚ) : XF → Prop
  | .fin a => Tendsto u atTop (𝓝 a)
  | .inf false => Tendsto u atTop atTop
  | .inf true => Tendsto u atTop atBot
  | .nan => False

/-- `z` is the limit of `op` at `x` and `y` (where `y` is approached in `way`), or no number if there is more than one limit or one of `x` and `y` is no number. -/
inductive IsLimit (op : ℚ → ℚ → ℚ) (way : XF → (ℕ → ℚ) → Prop) (x y : XF) : XF → Prop
  | noNumber : x = .nan ∨ y = .nan → IsLimit op way x y .nan
  | limit (z : XF) : x ≠ .nan → y ≠ .nan → (∀ u v, Approaches u x → Approaches v y → way y v → Approaches (fun n => op (u n) (v n)) z) → IsLimit op way x y z
  | several (u v u' v' : ℕ → ℚ) (z z' : XF) : Approaches u x → Approaches v y → way y v → Approaches u' x → Approaches v' y → way y v' → z ≠ z' →
      Approaches (fun n => op (u n) (v n)) z → Approaches (fun n => op (u' n) (v' n)) z' → IsLimit op way x y .nan

/-- In any way. -/
def AnyWay (_ : XF) (_ : ℕ → ℚ) : Prop := True

/-- Zero is approached from above. -/
def FromAbove (y : XF) (v : ℕ → ℚ) : Prop := y = .fin 0 → ∀ n, 0 < v n

/-! ### Proofs -/

private theorem up : Tendsto (fun n : ℕ => ((n : ℚ) + 1)) atTop atTop := tendsto_atTop_add_const_right _ _ tendsto_natCast_atTop_atTop

private theorem up2 : Tendsto (fun n : ℕ => (2 * ((n : ℚ) + 1))) atTop atTop := up.const_mul_atTop (by norm_num)

private theorem small : Tendsto (fun n : ℕ => ((n : ℚ) + 1)⁻¹) atTop (𝓝 0) := up.inv_tendsto_atTop

private theorem pos1 (n : ℕ) : (0 : ℚ) < (n : ℚ) + 1 := by positivity

private theorem const (a : ℚ) : Tendsto (fun _ : ℕ => a) atTop (𝓝 a) := tendsto_const_nhds

private theorem down : Tendsto (fun n : ℕ => -((n : ℚ) + 1)) atTop atBot := tendsto_neg_atTop_atBot.comp up

private theorem down2 : Tendsto (fun n : ℕ => -(2 * ((n : ℚ) + 1))) atTop atBot := tendsto_neg_atTop_atBot.comp up2

private theorem mul_limit {x y : XF} (h : x.mul y ≠ .nan) {u v : ℕ → ℚ} (hu : Approaches u x) (hv : Approaches v y) : Approaches (fun n => u n * v n) (x.mul y) := by
  cases x with
  | nan => exact hu.elim
  | fin a =>
    cases y with
    | nan => exact hv.elim
    | fin b => exact Tendsto.mul hu hv
    | inf s =>
      by_cases ha : a = 0
      · exact absurd (by simp [XF.mul, ha]) h
      · rcases lt_or_gt_of_ne ha with hn | hp
        · cases s
          · simp only [XF.mul, ha, if_false, decide_eq_true hn]
            exact Tendsto.neg_mul_atTop hn hu hv
          · simp only [XF.mul, ha, if_false, decide_eq_true hn]
            exact Tendsto.neg_mul_atBot hn hu hv
        · have hn : ¬ a < 0 := not_lt.2 hp.le
          cases s
          · simp only [XF.mul, ha, if_false, decide_eq_false hn]
            exact Tendsto.pos_mul_atTop hp hu hv
          · simp only [XF.mul, ha, if_false, decide_eq_false hn]
            exact Tendsto.pos_mul_atBot hp hu hv
  | inf s =>
    cases y with
    | nan => exact hv.elim
    | fin b =>
      by_cases hb : b = 0
      · exact absurd (by simp [XF.mul, hb]) h
      · rcases lt_or_gt_of_ne hb with hn | hp
        · cases s
          · simp only [XF.mul, hb, if_false, decide_eq_true hn]
            exact Tendsto.atTop_mul_neg hn hu hv
          · simp only [XF.mul, hb, if_false, decide_eq_true hn]
            exact Tendsto.atBot_mul_neg hn hu hv
        · have hn : ¬ b < 0 := not_lt.2 hp.le
          cases s
          · simp only [XF.mul, hb, if_false, decide_eq_false hn]
            exact Tendsto.atTop_mul_pos hp hu hv
          · simp only [XF.mul, hb, if_false, decide_eq_false hn]
            exact Tendsto.atBot_mul_pos hp hu hv
    | inf t =>
      cases s <;> cases t
      · exact Tendsto.atTop_mul_atTop₀ hu hv
      · exact Tendsto.atTop_mul_atBot₀ hu hv
      · exact Tendsto.atBot_mul_atTop₀ hu hv
      · exact Tendsto.atBot_mul_atBot₀ hu hv

private def recip : XF → XF
  | .fin b => if b = 0 then .inf false else .fin b⁻¹
  | .inf _ => .fin 0
  | .nan => .nan

private theorem recip_limit {y : XF} {v : ℕ → ℚ} (hv : Approaches v y) (hw : FromAbove y v) : Approaches (fun n => (v n)⁻¹) (recip y) := by
  cases y with
  | nan => exact hv.elim
  | inf s =>
    cases s
    · exact Tendsto.inv_tendsto_atTop hv
    · exact Tendsto.inv_tendsto_atBot hv
  | fin b =>
    by_cases hb : b = 0
    · subst hb
      exact Tendsto.inv_tendsto_nhdsGT_zero (tendsto_nhdsWithin_iff.2 ⟨hv, Eventually.of_forall (hw rfl)⟩)
    · simp only [recip, hb, if_false]
      exact Tendsto.inv₀ hv hb

private theorem div_recip {x y : XF} (hy : y ≠ .nan) : x.div y = x.mul (recip y) := by
  cases x with
  | nan => cases y <;> rfl
  | fin a =>
    cases y with
    | nan => exact absurd rfl hy
    | inf s => simp [XF.div, XF.mul, recip]
    | fin b =>
      by_cases hb : b = 0
      · simp [XF.div, XF.mul, recip, hb]
      · simp [XF.div, XF.mul, recip, hb, div_eq_mul_inv]
  | inf s =>
    cases y with
    | nan => exact absurd rfl hy
    | inf t => simp [XF.div, XF.mul, recip]
    | fin b =>
      by_cases hb : b = 0
      · simp [XF.div, XF.mul, recip, hb]
      · simp [XF.div, XF.mul, recip, hb]

private theorem approaches_unique {u : ℕ → ℚ} {z z' : XF} (h : Approaches u z) (h' : Approaches u z') : z = z' := by
  cases z with
  | nan => exact h.elim
  | fin a =>
    cases z' with
    | nan => exact h'.elim
    | fin b => rw [tendsto_nhds_unique h h']
    | inf t =>
      cases t
      · exact absurd h (not_tendsto_nhds_of_tendsto_atTop h' a)
      · exact absurd h (not_tendsto_nhds_of_tendsto_atBot h' a)
  | inf s =>
    cases z' with
    | nan => exact h'.elim
    | fin b =>
      cases s
      · exact absurd h' (not_tendsto_nhds_of_tendsto_atTop h b)
      · exact absurd h' (not_tendsto_nhds_of_tendsto_atBot h b)
    | inf t =>
      cases s <;> cases t
      · rfl
      · exact absurd h' (Tendsto.not_tendsto h (disjoint_atTop_atBot))
      · exact absurd h (Tendsto.not_tendsto h' (disjoint_atTop_atBot))
      · rfl

private theorem approached {x : XF} (h : x ≠ .nan) : ∃ u, Approaches u x ∧ FromAbove x u := by
  cases x with
  | nan => exact absurd rfl h
  | inf s =>
    cases s
    · exact ⟨_, up, fun e => by cases e⟩
    · exact ⟨_, down, fun e => by cases e⟩
  | fin a =>
    by_cases ha : a = 0
    · subst ha
      exact ⟨_, small, fun _ n => inv_pos.2 (pos1 n)⟩
    · exact ⟨_, const a, fun e => by cases e; exact absurd rfl ha⟩

private theorem limit_unique {op : ℚ → ℚ → ℚ} {way : XF → (ℕ → ℚ) → Prop} (hw : ∀ y v, FromAbove y v → way y v) {x y z z' : XF} (h : IsLimit op way x y z) (h' : IsLimit op way x y z') : z = z' := by
  have some : ∀ {z : XF}, x ≠ .nan → y ≠ .nan → (∀ u v, Approaches u x → Approaches v y → way y v → Approaches (fun n => op (u n) (v n)) z) → ∀ {z' : XF}, IsLimit op way x y z' → z = z' := by
    intro z hx hy hl z' h'
    cases h' with
    | noNumber hn => exact (hn.elim hx hy).elim
    | limit _ _ _ hl' =>
      obtain ⟨u, hu, _⟩ := approached hx
      obtain ⟨v, hv, hf⟩ := approached hy
      exact approaches_unique (hl u v hu hv (hw _ _ hf)) (hl' u v hu hv (hw _ _ hf))
    | several u v u' v' w w' h1 h2 h3 h4 h5 h6 h7 h8 h9 =>
      exact absurd ((approaches_unique h8 (hl u v h1 h2 h3)).trans (approaches_unique (hl u' v' h4 h5 h6) h9)) h7
  cases h with
  | limit _ hx hy hl => exact some hx hy hl h'
  | noNumber hn =>
    cases h' with
    | noNumber => rfl
    | limit _ hx hy hl => exact (some hx hy hl (.noNumber hn)).symm
    | several => rfl
  | several u v u' v' w w' h1 h2 h3 h4 h5 h6 h7 h8 h9 =>
    cases h' with
    | noNumber => rfl
    | limit _ hx hy hl => exact (some hx hy hl (.several u v u' v' w w' h1 h2 h3 h4 h5 h6 h7 h8 h9)).symm
    | several => rfl

private theorem add_is_limit (x y z : XF) : x.add y = z → IsLimit (· + ·) AnyWay x y z := by
  rintro rfl
  cases x with
  | nan => exact .noNumber (.inl rfl)
  | fin a =>
    cases y with
    | nan => exact .noNumber (.inr rfl)
    | fin b => exact .limit _ (by simp) (by simp) fun u v hu hv _ => Tendsto.add hu hv
    | inf s =>
      cases s
      · exact .limit _ (by simp) (by simp) fun u v hu hv _ => Tendsto.add_atTop hu hv
      · exact .limit _ (by simp) (by simp) fun u v hu hv _ => Tendsto.add_atBot hu hv
  | inf s =>
    cases y with
    | nan => exact .noNumber (.inr rfl)
    | fin b =>
      cases s
      · exact .limit _ (by simp) (by simp) fun u v hu hv _ => Tendsto.atTop_add hu hv
      · exact .limit _ (by simp) (by simp) fun u v hu hv _ => Tendsto.atBot_add hu hv
    | inf t =>
      cases s <;> cases t
      · exact .limit _ (by simp) (by simp) fun u v hu hv _ => Tendsto.atTop_add_atTop hu hv
      · refine .several (fun n => (n : ℚ) + 1) (fun n => -((n : ℚ) + 1)) (fun n => 2 * ((n : ℚ) + 1)) (fun n => -((n : ℚ) + 1)) (.fin 0) (.inf false) up down trivial up2 down trivial (by simp) ?_ ?_
        · simp [Approaches]
        · exact up.congr fun n => by ring
      · refine .several (fun n => -((n : ℚ) + 1)) (fun n => (n : ℚ) + 1) (fun n => -(2 * ((n : ℚ) + 1))) (fun n => (n : ℚ) + 1) (.fin 0) (.inf true) down up trivial down2 up trivial (by simp) ?_ ?_
        · simp [Approaches]
        · exact down.congr fun n => by ring
      · exact .limit _ (by simp) (by simp) fun u v hu hv _ => Tendsto.atBot_add_atBot hu hv

private theorem sub_is_limit (x y z : XF) : x.sub y = z → IsLimit (· - ·) AnyWay x y z := by
  intro h
  have neg : ∀ {v : ℕ → ℚ} {y : XF}, Approaches v y → Approaches (fun n => -(v n)) y.neg := by
    intro v y hv
    cases y with
    | nan => exact hv
    | fin b => exact Tendsto.neg hv
    | inf s =>
      cases s
      · exact tendsto_neg_atTop_atBot.comp hv
      · exact tendsto_neg_atBot_atTop.comp hv
  have nn : ∀ y : XF, y.neg.neg = y := by rintro (a | s | _) <;> simp [XF.neg]
  cases add_is_limit x y.neg z h with
  | noNumber hxy => exact .noNumber (hxy.imp id fun e => by rw [← nn y, e]; rfl)
  | limit _ hx hy hl =>
    refine .limit _ hx (fun e => hy (by rw [e]; rfl)) fun u v hu hv _ => ?_
    simpa [sub_eq_add_neg] using hl u (fun n => -(v n)) hu (neg hv) trivial
  | several u v u' v' z z' h1 h2 _ h3 h4 _ h5 h6 h7 =>
    refine .several u (fun n => -(v n)) u' (fun n => -(v' n)) z z' h1 ?_ trivial h3 ?_ trivial h5 ?_ ?_
    · have := neg h2; rwa [nn] at this
    · have := neg h4; rwa [nn] at this
    · simpa [sub_eq_add_neg] using h6
    · simpa [sub_eq_add_neg] using h7

private theorem mul_is_limit (x y z : XF) : x.mul y = z → IsLimit (· * ·) AnyWay x y z := by
  rintro rfl
  by_cases hx : x = .nan
  · subst hx; cases y <;> exact .noNumber (.inl rfl)
  by_cases hy : y = .nan
  · subst hy; cases x <;> exact .noNumber (.inr rfl)
  by_cases h : x.mul y = .nan
  · rw [h]
    have one : ∀ n : ℕ, ((n : ℚ) + 1) * ((n : ℚ) + 1)⁻¹ = 1 := fun n => mul_inv_cancel₀ (pos1 n).ne'
    cases x with
    | nan => exact absurd rfl hx
    | fin a =>
      cases y with
      | nan => exact absurd rfl hy
      | fin b => cases h
      | inf s =>
        have ha : a = 0 := by
          by_contra ha
          simp [XF.mul, ha] at h
        subst ha
        cases s
        · refine .several (fun _ => 0) (fun n => (n : ℚ) + 1) (fun n => ((n : ℚ) + 1)⁻¹) (fun n => (n : ℚ) + 1) (.fin 0) (.fin 1) (const 0) up trivial small up trivial (by simp) ?_ ?_
          · simp [Approaches]
          · exact (const 1).congr fun n => by rw [mul_comm, one]
        · refine .several (fun _ => 0) (fun n => -((n : ℚ) + 1)) (fun n => ((n : ℚ) + 1)⁻¹) (fun n => -((n : ℚ) + 1)) (.fin 0) (.fin (-1)) (const 0) down trivial small down trivial (by simp) ?_ ?_
          · simp [Approaches]
          · exact (const (-1)).congr fun n => by rw [mul_neg, mul_comm, one]
    | inf s =>
      cases y with
      | nan => exact absurd rfl hy
      | fin b =>
        have hb : b = 0 := by
          by_contra hb
          simp [XF.mul, hb] at h
        subst hb
        cases s
        · refine .several (fun n => (n : ℚ) + 1) (fun _ => 0) (fun n => (n : ℚ) + 1) (fun n => ((n : ℚ) + 1)⁻¹) (.fin 0) (.fin 1) up (const 0) trivial up small trivial (by simp) ?_ ?_
          · simp [Approaches]
          · exact (const 1).congr fun n => by rw [one]
        · refine .several (fun n => -((n : ℚ) + 1)) (fun _ => 0) (fun n => -((n : ℚ) + 1)) (fun n => ((n : ℚ) + 1)⁻¹) (.fin 0) (.fin (-1)) down (const 0) trivial down small trivial (by simp) ?_ ?_
          · simp [Approaches]
          · exact (const (-1)).congr fun n => by rw [neg_mul, one]
      | inf t => cases h
  · exact .limit _ hx hy fun u v hu hv _ => mul_limit h hu hv

private theorem div_is_limit (x y z : XF) : x.div y = z → IsLimit (· / ·) FromAbove x y z := by
  rintro rfl
  by_cases hx : x = .nan
  · subst hx; cases y <;> exact .noNumber (.inl rfl)
  by_cases hy : y = .nan
  · subst hy; cases x <;> exact .noNumber (.inr rfl)
  by_cases h : x.div y = .nan
  · rw [h]
    have one : ∀ n : ℕ, ((n : ℚ) + 1) / ((n : ℚ) + 1) = 1 := fun n => div_self (pos1 n).ne'
    have two : ∀ n : ℕ, (2 * ((n : ℚ) + 1)) / ((n : ℚ) + 1) = 2 := fun n => by rw [mul_div_assoc, one, mul_one]
    have no : ∀ {s : Bool} {v : ℕ → ℚ}, FromAbove (.inf s) v := fun e => by cases e
    cases x with
    | nan => exact absurd rfl hx
    | fin a =>
      cases y with
      | nan => exact absurd rfl hy
      | inf s => cases h
      | fin b =>
        have hb : b = 0 := by
          by_contra hb
          simp [XF.div, hb] at h
        subst hb
        have ha : a = 0 := by
          by_contra ha
          simp [XF.div, ha] at h
        subst ha
        have ps : FromAbove (.fin 0) (fun n => ((n : ℚ) + 1)⁻¹) := fun _ n => inv_pos.2 (pos1 n)
        refine .several (fun _ => 0) (fun n => ((n : ℚ) + 1)⁻¹) (fun n => ((n : ℚ) + 1)⁻¹) (fun n => ((n : ℚ) + 1)⁻¹) (.fin 0) (.fin 1) (const 0) small ps small small ps (by simp) ?_ ?_
        · simp [Approaches]
        · exact (const 1).congr fun n => (div_self (inv_pos.2 (pos1 n)).ne').symm
    | inf s =>
      cases y with
      | nan => exact absurd rfl hy
      | fin b => cases h
      | inf t =>
        cases s <;> cases t
        · exact .several _ _ _ _ (.fin 1) (.fin 2) up up no up2 up no (by simp) ((const 1).congr fun n => (one n).symm) ((const 2).congr fun n => (two n).symm)
        · exact .several _ _ _ _ (.fin (-1)) (.fin (-2)) up down no up2 down no (by norm_num) ((const (-1)).congr fun n => by rw [div_neg, one]) ((const (-2)).congr fun n => by rw [div_neg, two])
        · exact .several _ _ _ _ (.fin (-1)) (.fin (-2)) down up no down2 up no (by norm_num) ((const (-1)).congr fun n => by rw [neg_div, one]) ((const (-2)).congr fun n => by rw [neg_div, two])
        · exact .several _ _ _ _ (.fin 1) (.fin 2) down down no down2 down no (by simp) ((const 1).congr fun n => by rw [neg_div_neg_eq, one]) ((const 2).congr fun n => by rw [neg_div_neg_eq, two])
  · refine .limit _ hx hy fun u v hu hv hw => ?_
    rw [div_recip hy] at h ⊢
    simpa [div_eq_mul_inv] using mul_limit h hu (recip_limit hv hw)

/-! ### C137 -/

/-- C137: sums with infinities … -/
theorem C137_add (x y z : XF) : x.add y = z ↔ IsLimit (· + ·) AnyWay x y z :=
  ⟨add_is_limit x y z, fun h => limit_unique (fun _ _ _ => trivial) (add_is_limit x y _ rfl) h⟩

/-- … differences … -/
theorem C137_sub (x y z : XF) : x.sub y = z ↔ IsLimit (· - ·) AnyWay x y z :=
  ⟨sub_is_limit x y z, fun h => limit_unique (fun _ _ _ => trivial) (sub_is_limit x y _ rfl) h⟩

/-- … products … -/
theorem C137_mul (x y z : XF) : x.mul y = z ↔ IsLimit (· * ·) AnyWay x y z :=
  ⟨mul_is_limit x y z, fun h => limit_unique (fun _ _ _ => trivial) (mul_is_limit x y _ rfl) h⟩

/-- … and quotients, where a divisor 0 counts as positive, are the limits of those of numbers, and no numbers if there is no such limit. -/
theorem C137_div (x y z : XF) : x.div y = z ↔ IsLimit (· / ·) FromAbove x y z :=
  ⟨div_is_limit x y z, fun h => limit_unique (fun _ _ h => h) (div_is_limit x y _ rfl) h⟩

example : IsLimit (· + ·) AnyWay (.inf false) (.fin 3) (.inf false) ∧ IsLimit (· - ·) AnyWay (.inf true) (.inf true) .nan ∧ IsLimit (· * ·) AnyWay (.inf true) (.fin (-2)) (.inf false) ∧
    IsLimit (· / ·) FromAbove (.fin (-2)) (.fin 0) (.inf true) ∧ IsLimit (· / ·) FromAbove (.fin 7) (.inf true) (.fin 0) :=
  ⟨(C137_add _ _ _).1 rfl, (C137_sub _ _ _).1 rfl, (C137_mul _ _ _).1 (by decide +kernel), (C137_div _ _ _).1 (by decide +kernel), (C137_div _ _ _).1 rfl⟩

end LibSub
