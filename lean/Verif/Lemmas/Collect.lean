/-
Helper lemmas about `collect`.
-/
import Verif.Model.Collect
import Verif.Props.Time
import Mathlib.Data.List.Sort

namespace LibSub

/-! ### Keys of start times -/

/-- What the comparison operators compare when the seconds are equal. -/
def Time.part (t : Time) : ℚ :=
  match t.rate with
  | none => t.frames
  | some r => t.frames * r.num / r.den

/-- A total order that agrees with `operator<` on times that can be compared. -/
def Time.keyLt (a b : Time) : Prop := a.secs < b.secs ∨ (a.secs = b.secs ∧ a.part < b.part)

instance (a b : Time) : Decidable (a.keyLt b) := by unfold Time.keyLt; infer_instance

theorem Time.keyLt_irrefl (a : Time) : ¬ a.keyLt a := by
  rintro (h | ⟨_, h⟩)
  · exact lt_irrefl _ h
  · exact lt_irrefl _ h

theorem Time.keyLt_trans {a b c : Time} (h1 : a.keyLt b) (h2 : b.keyLt c) : a.keyLt c := by
  rcases h1 with h1 | ⟨e1, h1⟩ <;> rcases h2 with h2 | ⟨e2, h2⟩
  · exact .inl (h1.trans h2)
  · exact .inl (e2 ▸ h1)
  · exact .inl (e1 ▸ h2)
  · exact .inr ⟨e1.trans e2, h1.trans h2⟩

theorem Time.keyLt_asymm {a b : Time} (h1 : a.keyLt b) : ¬ b.keyLt a := fun h2 => Time.keyLt_irrefl _ (Time.keyLt_trans h1 h2)

/-- Not later: transitive and total. -/
theorem Time.not_keyLt_trans {a b c : Time} (h1 : ¬ b.keyLt a) (h2 : ¬ c.keyLt b) : ¬ c.keyLt a := by
  unfold Time.keyLt at *
  push Not at *
  obtain ⟨a1, a2⟩ := h1
  obtain ⟨b1, b2⟩ := h2
  refine ⟨a1.trans b1, ?_⟩
  intro e
  have e1 : a.secs = b.secs := by omega
  have e2 : b.secs = c.secs := by omega
  exact (a2 e1.symm).trans (b2 e2.symm)

theorem lt_eq_key {a b : Time} {x : Bool} (hk : a.SameKind b) (h : a.lt b = .ok x) : x = decide (a.keyLt b) := by
  unfold Time.lt at h
  by_cases hs : a.secs = b.secs
  · rw [if_neg (by simpa using hs)] at h
    rcases hk with ⟨⟨ra, ha, pa⟩, ⟨rb, hb, pb⟩⟩ | ⟨ha, hb⟩
    · rw [ha, hb] at h
      simp only [bind_eq_ok, Time.scaled, ck_eq_ok] at h
      obtain ⟨l, ⟨_, ⟨_, rfl⟩, _, rfl⟩, r, ⟨_, ⟨_, rfl⟩, _, rfl⟩, hx⟩ := h
      simp only [pure_eq_ok, Except.ok.injEq] at hx
      rw [← hx]
      congr 1
      unfold Time.keyLt Time.part
      rw [ha, hb]
      have qa : (0 : ℚ) < ra.den := by exact_mod_cast pa
      have qb : (0 : ℚ) < rb.den := by exact_mod_cast pb
      simp only [hs, lt_irrefl, true_and, false_or, eq_iff_iff]
      rw [div_lt_div_iff₀ qa qb]
      norm_cast
    · rw [ha, hb] at h
      simp only [Except.ok.injEq] at h
      rw [← h]
      congr 1
      unfold Time.keyLt Time.part
      rw [ha, hb]
      simp [hs]
  · rw [if_pos (by simpa using hs)] at h
    simp only [Except.ok.injEq] at h
    rw [← h]
    unfold Time.keyLt
    simp [hs]

theorem SameKind.symm {a b : Time} (h : a.SameKind b) : b.SameKind a := by
  rcases h with ⟨h1, h2⟩ | ⟨h1, h2⟩
  · exact .inl ⟨h2, h1⟩
  · exact .inr ⟨h2, h1⟩

theorem eq_iff_key {a b : Time} {x : Bool} (hk : a.SameKind b) (h : a.eq b = .ok x) :
    x = decide (¬ a.keyLt b ∧ ¬ b.keyLt a) := by
  have h3 := C02_trichotomy a b hk
  rcases h3 with ⟨l, e, g, hl, he, hg, hc⟩ | ⟨_, he, _⟩
  · rw [he] at h
    cases h
    have hgt := C02_gt_is_flipped_lt a b hk
    have h1 := lt_eq_key hk hl
    rw [hg] at hgt
    have h2 := lt_eq_key (SameKind.symm hk) hgt.1.symm
    rcases hc with ⟨rfl, rfl, rfl⟩ | ⟨rfl, rfl, rfl⟩ | ⟨rfl, rfl, rfl⟩ <;> simp_all
  · rw [he] at h; cases h

/-! ### Sorting -/

/-- "Goes before" of the sort in the model. -/
def rawLe (a b : Raw) : Bool := match b.lt a with | .ok true => false | _ => true

/-- A globally well-behaved version. -/
def rawLe' (a b : Raw) : Bool := decide (¬ b.from_.keyLt a.from_)

theorem rawLe'_trans (a b c : Raw) (h1 : rawLe' a b = true) (h2 : rawLe' b c = true) : rawLe' a c = true := by
  unfold rawLe' at *
  simp only [decide_eq_true_eq] at *
  exact Time.not_keyLt_trans h1 h2

theorem rawLe'_total (a b : Raw) : (rawLe' a b || rawLe' b a) = true := by
  unfold rawLe'
  simp only [Bool.or_eq_true, decide_eq_true_eq]
  by_cases h : b.from_.keyLt a.from_
  · exact .inr (Time.keyLt_asymm h)
  · exact .inl h

theorem allComparable_go_ok (a : Raw) (l : List Raw) :
    allComparable.go a l = .ok () ↔ ∀ b ∈ l, ∃ x, a.lt b = .ok x := by
  induction l with
  | nil => simp [allComparable.go]
  | cons b l ih =>
    unfold allComparable.go
    cases h : a.lt b with
    | ok x => simp [ih, h]
    | error e => simp [h]

/-- Start times at different places can be compared. -/
abbrev PairsComparable (l : List Raw) : Prop := l.Pairwise (fun a b => ∃ x, a.lt b = .ok x)

theorem allComparable_ok (l : List Raw) : allComparable l = .ok () ↔ PairsComparable l := by
  induction l with
  | nil => simp [allComparable]
  | cons a l ih =>
    unfold allComparable
    rw [PairsComparable, List.pairwise_cons]
    cases h : allComparable.go a l with
    | ok u =>
      have := (allComparable_go_ok a l).1 h
      simp only [ok_bind, ih]
      exact ⟨fun h => ⟨this, h⟩, fun h => h.2⟩
    | error e =>
      simp only [error_bind, reduceCtorEq, false_iff, not_and]
      intro hc
      rw [(allComparable_go_ok a l).2 hc] at h
      cases h

theorem lt_ok_symm {a b : Raw} (h : ∃ x, a.lt b = .ok x) : ∃ x, b.lt a = .ok x := by
  obtain ⟨x, h⟩ := h
  unfold Raw.lt Time.lt at *
  by_cases hs : a.from_.secs = b.from_.secs
  · rw [if_neg (by simpa using hs)] at h
    rw [if_neg (by simpa using hs.symm)]
    cases ha : a.from_.rate <;> cases hb : b.from_.rate <;> simp only [ha, hb] at h ⊢
    · exact ⟨_, rfl⟩
    · cases h
    · cases h
    · simp only [bind_eq_ok] at h
      obtain ⟨l, h1, r, h2, -⟩ := h
      rw [h1, h2]
      exact ⟨_, rfl⟩
  · rw [if_pos (by simpa using fun e => hs e.symm)]
    exact ⟨_, rfl⟩

instance : Std.Symm (fun a b : Raw => ∃ x, a.lt b = .ok x) := ⟨fun _ _ h => lt_ok_symm h⟩

theorem PairsComparable.perm {l m : List Raw} (hp : l.Perm m) (h : PairsComparable l) : PairsComparable m :=
  (hp.pairwise_iff (fun h => lt_ok_symm h)).1 h

theorem PairsComparable.mem {l : List Raw} (h : PairsComparable l) {a b : Raw} (ha : a ∈ l) (hb : b ∈ l) : a = b ∨ ∃ x, a.lt b = .ok x := by
  by_cases e : a = b
  · exact .inl e
  · exact .inr (List.Pairwise.forall h ha hb e)

theorem PairsComparable.of_all {l : List Raw} (h : ∀ a ∈ l, ∀ b ∈ l, ∃ x, a.lt b = .ok x) : PairsComparable l :=
  List.pairwise_of_forall_mem_list h

theorem insertRaw_eq (le : Raw → Raw → Bool) (a : Raw) (l : List Raw) :
    insertRaw le a l = l.orderedInsert (fun a b => le a b = true) a := by
  induction l with
  | nil => rfl
  | cons b l ih => simp only [insertRaw, List.orderedInsert_cons, ih]

theorem sortRaws_eq (le : Raw → Raw → Bool) (l : List Raw) : sortRaws le l = l.insertionSort (fun a b => le a b = true) := by
  induction l with
  | nil => rfl
  | cons b l ih => rw [List.insertionSort_cons, ← ih, ← insertRaw_eq]; rfl

theorem sortRaws_perm (le : Raw → Raw → Bool) (l : List Raw) : (sortRaws le l).Perm l := by
  rw [sortRaws_eq]; exact List.perm_insertionSort _ _

theorem sortRaws_congr {le le' : Raw → Raw → Bool} {l : List Raw} (h : ∀ a ∈ l, ∀ b ∈ l, le a b = le' a b) :
    sortRaws le l = sortRaws le' l := by
  rw [sortRaws_eq, sortRaws_eq]
  have := List.map_insertionSort (r := fun a b => le a b = true) (s := fun a b => le' a b = true) id l
    (fun a ha b hb => by simp [h a ha b hb])
  simpa using this

theorem stableSort_ok {raws sorted : List Raw} (h : stableSort raws = .ok sorted) :
    PairsComparable raws ∧ sorted = sortRaws rawLe raws := by
  unfold stableSort at h
  simp only [bind_eq_ok] at h
  obtain ⟨u, hu, h⟩ := h
  simp only [pure_eq_ok, Except.ok.injEq] at h
  exact ⟨(allComparable_ok raws).1 hu, h.symm⟩

theorem stableSort_of_comparable {raws : List Raw} (h : PairsComparable raws) :
    stableSort raws = .ok (sortRaws rawLe raws) := by
  unfold stableSort
  rw [(allComparable_ok raws).2 h]
  rfl

theorem sortRaws_rawLe {raws : List Raw} (hk : ∀ a ∈ raws, ∀ b ∈ raws, a.from_.SameKind b.from_)
    (h : PairsComparable raws) : sortRaws rawLe raws = sortRaws rawLe' raws := by
  refine sortRaws_congr ?_
  intro a ha b hb
  obtain rfl | ⟨x, hx⟩ := h.mem hb ha
  · have h1 : rawLe' b b = true := by simpa using rawLe'_total b b
    rw [h1]
    unfold rawLe
    split
    · rename_i he
      have := lt_eq_key (hk b hb b hb) he
      simp [Time.keyLt_irrefl] at this
    · rfl
  have := lt_eq_key (hk b hb a ha) hx
  unfold rawLe rawLe'
  rw [hx]
  cases x <;> simp_all

theorem sortRaws_pairwise (raws : List Raw) : (sortRaws rawLe' raws).Pairwise (fun a b => rawLe' a b = true) := by
  have : Std.Total (fun a b => rawLe' a b = true) := ⟨fun a b => by simpa using rawLe'_total a b⟩
  have : IsTrans Raw (fun a b => rawLe' a b = true) := ⟨fun a b c h1 h2 => rawLe'_trans a b c h1 h2⟩
  rw [sortRaws_eq]
  exact List.pairwise_insertionSort _ raws

theorem sublist_sortRaws {raws c : List Raw} (h : c.Pairwise (fun a b => rawLe' a b = true)) (hc : c.Sublist raws) :
    c.Sublist (sortRaws rawLe' raws) := by
  have : Std.Total (fun a b => rawLe' a b = true) := ⟨fun a b => by simpa using rawLe'_total a b⟩
  have : IsTrans Raw (fun a b => rawLe' a b = true) := ⟨fun a b c h1 h2 => rawLe'_trans a b c h1 h2⟩
  rw [sortRaws_eq]
  exact List.sublist_insertionSort h hc

/-! ### The loop -/

/-- How the output grows as the sorted raw subtitles are processed. -/
inductive Grows : List Raw → List Subtitle → Prop where
  | nil : Grows [] []
  | first (i : Raw) : Grows [i] [Subtitle.ofRaw i]
  | newSub {rs : List Raw} {out : List Subtitle} {cur : Subtitle} {i : Raw} :
      Grows rs (out ++ [cur]) → cur.sameMetadata i = .ok false → Grows (rs ++ [i]) (out ++ [cur] ++ [Subtitle.ofRaw i])
  | newLine {rs : List Raw} {out : List Subtitle} {cur : Subtitle} {ls : List Line} {l : Line} {i : Raw} :
      Grows rs (out ++ [cur]) → cur.lines = ls ++ [l] → cur.sameMetadata i = .ok true → l.sameMetadata i = false →
      Grows (rs ++ [i]) (out ++ [{ cur with lines := ls ++ [l] ++ [Line.ofRaw i] }])
  | newBlock {rs : List Raw} {out : List Subtitle} {cur : Subtitle} {ls : List Line} {l : Line} {i : Raw} :
      Grows rs (out ++ [cur]) → cur.lines = ls ++ [l] → cur.sameMetadata i = .ok true → l.sameMetadata i = true →
      Grows (rs ++ [i]) (out ++ [{ cur with lines := ls ++ [{ l with blocks := l.blocks ++ [Block.ofRaw i] }] }])

theorem Grows.lines_ne {rs : List Raw} {out : List Subtitle} (h : Grows rs out) : ∀ s ∈ out, s.lines ≠ [] := by
  induction h with
  | nil => simp
  | first i => simp [Subtitle.ofRaw]
  | newSub _ _ ih =>
    intro s hs
    rw [List.mem_append] at hs
    rcases hs with hs | hs
    · exact ih s hs
    · rw [List.mem_singleton.1 hs]; simp [Subtitle.ofRaw]
  | newLine _ _ _ _ ih =>
    intro s hs
    rw [List.mem_append] at hs
    rcases hs with hs | hs
    · exact ih s (by simp [hs])
    · rw [List.mem_singleton.1 hs]; simp
  | newBlock _ _ _ _ ih =>
    intro s hs
    rw [List.mem_append] at hs
    rcases hs with hs | hs
    · exact ih s (by simp [hs])
    · rw [List.mem_singleton.1 hs]; simp

theorem collectStep_grows {done : List Raw} {st st' : List Subtitle × Option Subtitle} {i : Raw}
    (hg : Grows done (collectFinish st)) (hst : st.2 = none → done = [] ∧ st.1 = []) (h : collectStep st i = .ok st') :
    Grows (done ++ [i]) (collectFinish st') ∧ st'.2 ≠ none := by
  unfold collectStep at h
  split at h
  · rename_i e
    obtain ⟨h1, h2⟩ := hst e
    injection h with h
    subst h
    simp only [collectFinish, h1, h2, List.nil_append]
    exact ⟨.first i, by simp⟩
  · rename_i cur e
    have hcur : collectFinish st = st.1 ++ [cur] := by unfold collectFinish; rw [e]
    rw [hcur] at hg
    simp only [bind_eq_ok] at h
    obtain ⟨same, hs, h⟩ := h
    cases same with
    | false =>
      simp only [Bool.false_eq_true, if_false, pure_eq_ok, Except.ok.injEq] at h
      subst h
      exact ⟨.newSub hg hs, by simp⟩
    | true =>
      simp only [if_true] at h
      have hne : cur.lines ≠ [] := hg.lines_ne cur (by simp)
      obtain ⟨ls, l, hl⟩ : ∃ ls l, cur.lines = ls ++ [l] := ⟨cur.lines.dropLast, cur.lines.getLast hne, (List.dropLast_append_getLast hne).symm⟩
      simp only [hl, List.getLast?_concat, List.dropLast_concat] at h
      by_cases hv : l.sameMetadata i = true
      · rw [if_pos hv] at h
        simp only [pure_eq_ok, Except.ok.injEq] at h
        subst h
        exact ⟨.newBlock hg hl hs hv, by simp⟩
      · rw [if_neg hv] at h
        simp only [pure_eq_ok, Except.ok.injEq] at h
        subst h
        refine ⟨.newLine hg hl hs (by simpa using hv), by simp⟩

theorem collectLoop_grows {done rest : List Raw} {st st' : List Subtitle × Option Subtitle}
    (hg : Grows done (collectFinish st)) (hst : st.2 = none → done = [] ∧ st.1 = []) (h : collectLoop st rest = .ok st') :
    Grows (done ++ rest) (collectFinish st') := by
  induction rest generalizing done st with
  | nil =>
    simp only [collectLoop, Except.ok.injEq] at h
    subst h
    simpa using hg
  | cons i is ih =>
    simp only [collectLoop, bind_eq_ok] at h
    obtain ⟨st1, h1, h2⟩ := h
    have ⟨g1, g2⟩ := collectStep_grows hg hst h1
    have := ih g1 (fun e => absurd e g2) h2
    simpa using this

theorem collectWith_grows {sort : List Raw → R (List Raw)} {raws : List Raw} {out : List Subtitle}
    (h : collectWith sort raws = .ok out) : ∃ sorted, sort raws = .ok sorted ∧ Grows sorted out := by
  unfold collectWith at h
  simp only [bind_eq_ok] at h
  obtain ⟨sorted, hs, st, hst, h⟩ := h
  simp only [pure_eq_ok, Except.ok.injEq] at h
  refine ⟨sorted, hs, ?_⟩
  have := collectLoop_grows (done := []) (st := ([], none)) (by simpa [collectFinish] using Grows.nil) (by simp) hst
  rw [h] at this
  simpa using this

end LibSub
