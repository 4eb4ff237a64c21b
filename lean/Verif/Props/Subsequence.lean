/-
Text that is left over when bytes are left out: lemmas for C127.
-/
import Verif.Lemmas.SubRip
import Verif.Props.SsaTagExact
import Verif.Model.WebVtt
import Verif.Model.StlText
import Mathlib.Data.List.Basic

namespace LibSub

open scoped List

/-- The texts of raw subtitles, one after another. -/
def allText (subs : List Raw) : Str := (subs.map (·.text)).flatten

theorem allText_append (a b : List Raw) : allText (a ++ b) = allText a ++ allText b := by
  simp [allText]

theorem allText_single (a : Raw) : allText [a] = a.text := by
  simp [allText]

theorem allText_nil : allText [] = [] := rfl

/-! ### Cutting text up -/

theorem sub_trimRightIf (p : Byte → Bool) (s : Str) : trimRightIf p s <+ s := by
  unfold trimRightIf
  have := (List.dropWhile_sublist p (l := s.reverse)).reverse
  rwa [List.reverse_reverse] at this

theorem sub_trim (s : Str) : trim s <+ s := (List.dropWhile_sublist _).trans (sub_trimRightIf _ s)

theorem sub_removeBom (s : Str) : removeBom s <+ s := by
  unfold removeBom
  split
  · exact (((List.Sublist.refl _).cons _).cons _).cons _
  · exact List.Sublist.refl _

theorem sub_clean (s : Str) : removeBom (trimRightIf isNlCr s) <+ s := (sub_removeBom _).trans (sub_trimRightIf _ s)

theorem sub_splitAny (p : Byte → Bool) : ∀ s : Str, (splitAny p s).flatten <+ s
  | [] => by simp [splitAny]
  | c :: cs => by
    rw [splitAny]
    have ih := sub_splitAny p cs
    split
    · simpa using ih.cons c
    · split
      · simp
      · rename_i t ts e
        rw [e] at ih
        simpa using ih

theorem sub_splitStrGo (sep : Str) : ∀ (k : Nat) (s : Str), (splitStrGo sep k s).flatten <+ s
  | k, [] => by cases k <;> simp [splitStrGo]
  | k + 1, c :: cs => by rw [splitStrGo]; exact (sub_splitStrGo sep k cs).cons c
  | 0, c :: cs => by
    rw [splitStrGo]
    split
    · simpa using (sub_splitStrGo sep (sep.length - 1) cs).cons c
    · have ih := sub_splitStrGo sep 0 cs
      split
      · simp
      · rename_i t ts e
        rw [e] at ih
        simpa using ih

theorem sub_replaceAllGo (x : Str) : ∀ (k : Nat) (s : Str), replaceAllGo x [] k s <+ s
  | k, [] => by cases k <;> simp [replaceAllGo]
  | k + 1, c :: cs => by rw [replaceAllGo]; exact (sub_replaceAllGo x k cs).cons c
  | 0, c :: cs => by
    rw [replaceAllGo]
    split
    · simpa using (sub_replaceAllGo x (x.length - 1) cs).cons c
    · simpa using sub_replaceAllGo x 0 cs

theorem sub_replaceAll (s x : Str) : replaceAll s x [] <+ s := by
  unfold replaceAll
  split
  · exact List.Sublist.refl _
  · exact sub_replaceAllGo x 0 s

theorem sub_allLinesGo {g : Str → Option (Str × Str)} (hg : ∀ s l r, g s = some (l, r) → l ++ r <+ s) : ∀ (f : Nat) (s : Str), (allLinesGo g f s).flatten <+ s
  | 0, s => by simp [allLinesGo]
  | f + 1, s => by
    rw [allLinesGo]
    cases h : g s with
    | none => simp
    | some lr =>
      obtain ⟨l, r⟩ := lr
      simp only [List.flatten_cons]
      exact ((List.Sublist.refl l).append (sub_allLinesGo hg f r)).trans (hg s l r h)

theorem sub_take_drop (s : Str) {a b : Nat} (h : a ≤ b) : s.take a ++ s.drop b <+ s := by
  have : s.drop b <+ s.drop a := by
    have : s.drop b = (s.drop a).drop (b - a) := by rw [List.drop_drop]; congr 1; omega
    rw [this]; exact List.drop_sublist _ _
  simpa using (List.Sublist.refl (s.take a)).append this

theorem sub_linesOfString (s : Str) : (linesOfString s).flatten <+ s := by
  apply sub_allLinesGo
  intro s l r h
  unfold getLineString at h
  split at h
  · cases h
  · split at h
    · cases h; simp
    · cases h; exact sub_take_drop s (Nat.le_succ _)

theorem sub_fgets : ∀ (n : Nat) (s : Str), fgetsTake n s <+: s
  | 0, s => by simp [fgetsTake]
  | n + 1, [] => by simp [fgetsTake]
  | n + 1, c :: cs => by
    rw [fgetsTake]
    split
    · exact ⟨cs, rfl⟩
    · exact List.cons_prefix_cons.2 ⟨rfl, sub_fgets n cs⟩

theorem sub_linesOfFile (s : Str) : (linesOfFile s).flatten <+ s := by
  apply sub_allLinesGo
  intro s l r h
  unfold getLineFile at h
  split at h
  · cases h
  · simp only [Option.some.injEq, Prod.mk.injEq] at h
    obtain ⟨rfl, rfl⟩ := h
    obtain ⟨t, ht⟩ := sub_fgets 255 s
    generalize fgetsTake 255 s = q at ht
    subst ht
    rw [List.drop_left]
    exact (List.takeWhile_sublist _).append (List.Sublist.refl t)

/-! ### Pieces that are in one place -/

theorem infix_trim (s : Str) : trim s <:+: s := by
  have h1 : trim s <:+ trimRightIf isSpace s := List.dropWhile_suffix _
  have h2 : trimRightIf isSpace s <+: s := by
    unfold trimRightIf
    have := List.dropWhile_suffix isSpace (l := s.reverse)
    have := List.reverse_prefix.2 this
    rwa [List.reverse_reverse] at this
  exact h1.isInfix.trans h2.isInfix

theorem infix_removeBom (s : Str) : removeBom s <:+: s := by
  unfold removeBom
  split
  · exact ⟨[0xef, 0xbb, 0xbf], [], by simp⟩
  · exact List.infix_refl _

theorem infix_splitAny (p : Byte → Bool) : ∀ (s : Str), ∀ x ∈ splitAny p s, x <:+: s := by
  intro s
  generalize e : s.length = n
  induction n using Nat.strong_induction_on generalizing s with
  | _ n ih =>
    intro x hx
    rcases splitAny_cases p s with ⟨h, -⟩ | ⟨a, c, b, rfl, h1, h2, h3⟩
    · rw [h] at hx; rw [List.mem_singleton.1 hx]
    · rw [h3] at hx
      rcases List.mem_cons.1 hx with rfl | hx
      · exact ⟨[], c :: b, by simp⟩
      · exact (ih b.length (by rw [← e, List.length_append, List.length_cons]; omega) b rfl x hx).trans ⟨a ++ [c], [], by simp⟩

theorem infix_allLinesGo {g : Str → Option (Str × Str)} (hg : ∀ s l r, g s = some (l, r) → l <:+: s ∧ r <:+: s) : ∀ (f : Nat) (s : Str), ∀ x ∈ allLinesGo g f s, x <:+: s
  | 0, s, x, hx => by cases hx
  | f + 1, s, x, hx => by
    rw [allLinesGo] at hx
    cases h : g s with
    | none => rw [h] at hx; cases hx
    | some lr =>
      obtain ⟨l, r⟩ := lr
      rw [h] at hx
      rcases List.mem_cons.1 hx with rfl | hx
      · exact (hg _ _ _ h).1
      · exact (infix_allLinesGo hg f r x hx).trans (hg _ _ _ h).2

theorem infix_linesOfString (s : Str) : ∀ x ∈ linesOfString s, x <:+: s := by
  apply infix_allLinesGo
  intro s l r h
  unfold getLineString at h
  split at h
  · cases h
  · split at h
    · cases h; exact ⟨List.infix_refl _, List.nil_infix⟩
    · cases h; exact ⟨(List.take_prefix _ _).isInfix, (List.drop_suffix _ _).isInfix⟩

theorem infix_linesOfFile (s : Str) : ∀ x ∈ linesOfFile s, x <:+: s := by
  apply infix_allLinesGo
  intro s l r h
  unfold getLineFile at h
  split at h
  · cases h
  · simp only [Option.some.injEq, Prod.mk.injEq] at h
    obtain ⟨rfl, rfl⟩ := h
    exact ⟨((List.takeWhile_prefix _).trans (sub_fgets 255 s)).isInfix, (List.drop_suffix _ _).isInfix⟩

end LibSub
