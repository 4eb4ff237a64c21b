/-
Property C60 exactly: which lines the binary STL writer keeps apart.
-/
import Verif.Props.StlWriter

namespace LibSub

/-- The rows of lines at positions `last :: vs`, the first on row `row`. -/
private theorem rows_get (vs : List Int) : ∀ (row : Nat) (last : Int) (i : Nat), i < vs.length → ∃ r s : Nat, (row :: rowsFrom row last vs)[i]? = some r ∧ (row :: rowsFrom row last vs)[i + 1]? = some s ∧
    ∃ v w : Int, (last :: vs)[i]? = some v ∧ (last :: vs)[i + 1]? = some w ∧ s = r + (w - v).toNat := by
  induction vs with
  | nil => intro _ _ i h; cases h
  | cons v vs ih =>
    intro row last i h
    cases i with
    | zero => exact ⟨row, row + (v - last).toNat, rfl, by rw [rowsFrom]; rfl, last, v, rfl, rfl, rfl⟩
    | succ i =>
      rw [rowsFrom]
      rw [List.length_cons] at h
      obtain ⟨r, s, h1, h2, v', w, h3, h4, e⟩ := ih (row + (v - last).toNat) v i (by omega)
      exact ⟨r, s, h1, h2, v', w, h3, h4, e⟩

private theorem rowsOf_step (vps : List Int) (i : Nat) (h : i + 1 < vps.length) : ∃ r s : Nat, (rowsOf vps)[i]? = some r ∧ (rowsOf vps)[i + 1]? = some s ∧
    ∃ v w : Int, vps[i]? = some v ∧ vps[i + 1]? = some w ∧ s = r + (w - v).toNat := by
  cases vps with
  | nil => cases h
  | cons v vs =>
    rw [List.length_cons] at h
    exact rows_get vs 0 v i (by omega)

/-- C60, neighbouring lines: the second is written on a row of its own exactly if its position, rounded to a row, is below that of the first, and then at the distance of the positions. -/
theorem C60_next_partial (vps : List Int) (i : Nat) (v w : Int) (hv : vps[i]? = some v) (hw : vps[i + 1]? = some w) :
    ∃ r s : Nat, (rowsOf vps)[i]? = some r ∧ (rowsOf vps)[i + 1]? = some s ∧ (r ≠ s ↔ v < w) ∧ (v ≤ w → (s : Int) - r = w - v) := by
  obtain ⟨r, s, h1, h2, v', w', h3, h4, e⟩ := rowsOf_step vps i (List.getElem?_eq_some_iff.1 hw).1
  rw [hv, Option.some.injEq] at h3
  rw [hw, Option.some.injEq] at h4
  subst h3 h4
  exact ⟨r, s, h1, h2, by omega, by omega⟩

/-- C60, any two lines: they run together exactly if from the one to the other no line is below the line before it. -/
theorem C60_exact_partial (vps : List Int) (i d : Nat) (h : i + d < vps.length) :
    ((rowsOf vps)[i]? = (rowsOf vps)[i + d]? ↔ ∀ (k : Nat) (v w : Int), i ≤ k → k < i + d → vps[k]? = some v → vps[k + 1]? = some w → w ≤ v) := by
  have key : ∀ d : Nat, i + d < vps.length → ∃ r s : Nat, (rowsOf vps)[i]? = some r ∧ (rowsOf vps)[i + d]? = some s ∧ r ≤ s ∧
      (r = s ↔ ∀ (k : Nat) (v w : Int), i ≤ k → k < i + d → vps[k]? = some v → vps[k + 1]? = some w → w ≤ v) := by
    intro d
    induction d with
    | zero =>
      intro h
      have : ∃ r, (rowsOf vps)[i]? = some r := by
        cases vps with
        | nil => cases h
        | cons v vs =>
          cases i with
          | zero => exact ⟨0, rfl⟩
          | succ i =>
            obtain ⟨_, s, _, h2, _⟩ := rowsOf_step (v :: vs) i (by omega)
            exact ⟨s, h2⟩
      obtain ⟨r, hr⟩ := this
      exact ⟨r, r, hr, hr, le_refl _, by simp only [true_iff]; intro k v w h1 h2; omega⟩
    | succ d ih =>
      intro h
      obtain ⟨r, s, h1, h2, hle, hiff⟩ := ih (by omega)
      obtain ⟨s', t, h3, h4, v, w, h5, h6, e⟩ := rowsOf_step vps (i + d) (by omega)
      rw [h2, Option.some.injEq] at h3
      subst h3
      refine ⟨r, t, h1, h4, by omega, ?_⟩
      constructor
      · intro hrt k v' w' hk hk' hv hw
        by_cases hkd : k < i + d
        · exact hiff.1 (by omega) k v' w' hk hkd hv hw
        · have : k = i + d := by omega
          subst this
          rw [h5, Option.some.injEq] at hv
          rw [h6, Option.some.injEq] at hw
          omega
      · intro hall
        have h7 : r = s := hiff.2 (fun k v' w' hk hk' => hall k v' w' hk (by omega))
        have h8 := hall (i + d) v w (by omega) (by omega) h5 h6
        omega
  obtain ⟨r, s, h1, h2, _, h3⟩ := key d h
  rw [h1, h2, Option.some.injEq]
  exact h3

/-- C60: all lines of a subtitle stay apart exactly if each is below the one before it. -/
theorem C60_apart_partial (vps : List Int) : (rowsOf vps).Nodup ↔ vps.Pairwise (· < ·) := by
  constructor
  · intro h
    apply List.isChain_iff_pairwise.1
    rw [List.isChain_iff_getElem]
    intro i hi
    obtain ⟨r, s, h1, h2, v, w, h3, h4, e⟩ := rowsOf_step vps i hi
    have hne : r ≠ s := by
      rintro rfl
      have := (List.nodup_iff_getElem?_ne_getElem?.1 h) i (i + 1) (by omega) (List.getElem?_eq_some_iff.1 h2).1
      exact this (by rw [h1, h2])
    obtain ⟨b1, e1⟩ := List.getElem?_eq_some_iff.1 h3
    obtain ⟨b2, e2⟩ := List.getElem?_eq_some_iff.1 h4
    rw [e1, e2]
    omega
  · intro h
    cases vps with
    | nil => exact List.nodup_nil
    | cons v vs => exact ((C60_rows_partial v vs h).2).imp (fun h => Nat.ne_of_lt h)

example : rowsOf [12, 14, 13, 13, 20] = [0, 2, 2, 2, 9] := by decide

end LibSub
