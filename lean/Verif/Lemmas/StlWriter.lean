/-
Lemmas about src/stl_binary_writer.cc.
-/
import Verif.Model.StlWriter
import Verif.Lemmas.Time
import Verif.Lemmas.Text
import Mathlib.Tactic.Common

namespace LibSub

/-! ### The header buffer -/

/-- Write strings at offsets, one after another. -/
def putAll : List (Nat × Str) → Str → R Str
  | [], b => .ok b
  | x :: r, b => do
    let b ← putString x.1 x.2 b
    putAll r b

/-- Offsets of consecutive fields of the given lengths. -/
def layout : Nat → List (Nat × Str) → List (Nat × Str)
  | _, [] => []
  | off, x :: r => (off, x.2) :: layout (off + x.1) r

/-- Writing consecutive fields, each string at least as long as its field and none reaching beyond `top`,
gives the beginnings of the strings. -/
theorem putAll_layout (top : Nat) : ∀ (fs : List (Nat × Str)) (P b : Str), b.take P.length = P → P.length + (fs.map (·.1)).sum = top → top ≤ b.length →
    (∀ x ∈ layout P.length fs, x.1 + x.2.length ≤ top) → (∀ x ∈ fs, x.1 ≤ x.2.length) →
    putAll (layout P.length fs) b = .ok (P ++ (fs.map (fun x => x.2.take x.1)).flatten ++ b.drop top) := by
  intro fs
  induction fs with
  | nil =>
    intro P b hP hsum hlen _ _
    simp only [List.map_nil, List.sum_nil, Nat.add_zero] at hsum
    simp only [layout, putAll, List.map_nil, List.flatten_nil, List.append_nil]
    rw [← hsum]
    have := List.take_append_drop P.length b
    rw [hP] at this
    rw [this]
  | cons x fs ih =>
    intro P b hP hsum hlen hle hfs
    obtain ⟨n, s⟩ := x
    simp only [layout, putAll]
    have h1 : P.length + s.length ≤ top := hle (P.length, s) (by simp [layout])
    have h2 : n ≤ s.length := hfs (n, s) (by simp)
    unfold putString
    rw [if_pos (by omega), ok_bind, hP]
    have hl : (P ++ s.take n).length = P.length + n := by simp [h2]
    have hs : s.take n ++ s.drop n = s := List.take_append_drop n s
    have hb : P ++ s ++ List.drop (P.length + s.length) b = (P ++ s.take n) ++ (s.drop n ++ List.drop (P.length + s.length) b) := by
      conv => lhs; rw [← hs]
      simp only [List.append_assoc, List.length_append]
      rw [← List.length_append, hs]
    have := ih (P ++ s.take n) (P ++ s ++ List.drop (P.length + s.length) b) (by rw [hb, List.take_left' rfl])
      (by rw [hl, ← hsum]; simp; omega) (by simp; omega) (by rw [hl]; intro x hx; exact hle x (by simp [layout, hx]))
      (fun x hx => hfs x (by simp [hx]))
    rw [hl] at this
    rw [this]
    congr 1
    simp only [List.map_cons, List.flatten_cons, List.append_assoc]
    congr 3
    have hk : ∃ k, top = (P ++ s).length + k := ⟨top - (P ++ s).length, by simp; omega⟩
    obtain ⟨k, hk⟩ := hk
    rw [← List.append_assoc, hk, List.drop_append, List.drop_drop]
    simp

/-- `replace_all` does nothing if the first byte looked for does not occur. -/
theorem replaceAll_absent (s search repl : Str) (h : ∀ c, search.head? = some c → c ∉ s) : replaceAll s search repl = s := by
  unfold replaceAll
  cases search with
  | nil => rfl
  | cons p ps =>
    rw [if_neg (by simp)]
    have := h p rfl
    induction s with
    | nil => rfl
    | cons c s ih =>
      simp only [List.mem_cons, not_or] at this
      rw [replaceAllGo, startsWith, List.isPrefixOf, if_neg (by simp [this.1]), ih (fun d hd => by cases hd; exact this.2) this.2]

theorem printfPad_chars (n : Nat) (v : Int) : ∀ c ∈ printfPad n v, isDigit c = true ∨ c = 45 := by
  intro c hc
  unfold printfPad at hc
  simp only [] at hc
  have hd : ∀ k, c ∈ List.replicate k 48 ++ natDec v.natAbs → isDigit c = true := by
    intro k h
    rw [List.mem_append] at h
    rcases h with h | h
    · rw [List.eq_of_mem_replicate h]; decide
    · exact natDec_digits _ _ h
  split at hc
  · rw [List.mem_cons] at hc
    rcases hc with h | h
    · exact .inr h
    · exact .inl (hd _ h)
  · exact .inl (hd _ hc)

theorem printfPad_length (n : Nat) (v : Int) : n ≤ (printfPad n v).length := by
  unfold printfPad
  simp only []
  split
  · simp; omega
  · simp; omega

theorem printfPad_length_le (n : Nat) (v : Int) (hn : n ≤ 11) (hv : InInt v) : (printfPad n v).length ≤ 11 := by
  have := natDec_length_le v.natAbs 10 (by decide) (by unfold InInt at hv; omega)
  unfold printfPad
  simp only []
  split
  · simp; omega
  · simp; omega

end LibSub
