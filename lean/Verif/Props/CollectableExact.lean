/-
Property C84: exactly which subtitles with times in milliseconds can be collected.
-/
import Verif.Props.Collectable

namespace LibSub

/-! ### Specification -/

/-- No two starts with many milliseconds are in the same second, and of subtitles with the same start, in the order of the file, no two ends next to each other are. -/
def ClearTimes (subs : List Raw) : Prop :=
  subs.Pairwise (fun a b => a.from_.Clear b.from_) ∧ ∀ t : Time, (subs.filter fun r => decide (r.from_ = t)).IsChain fun a b => a.to_.Clear b.to_

/-- Two times can be compared: none has a rate, or both have and are clear of each other. -/
def Time.CanMeet (t u : Time) : Prop := (t.rate = none ∧ u.rate = none) ∨ (t.rate ≠ none ∧ u.rate ≠ none ∧ t.Clear u)

/-- All starts can be compared, and of subtitles with the same start, in the order of the file, the ends next to each other can. -/
def MeetingTimes (subs : List Raw) : Prop :=
  subs.Pairwise (fun a b => a.from_.CanMeet b.from_) ∧ ∀ t : Time, (subs.filter fun r => decide (r.from_ = t)).IsChain fun a b => a.to_.CanMeet b.to_

/-! ### Times -/

/-- In milliseconds or without a rate. -/
private def Kind (t : Time) : Prop := t.rate = some ⟨1000, 1⟩ ∨ t.rate = none

private def Kinds (r : Raw) : Prop := Kind r.from_ ∧ Kind r.to_ ∧ r.fadeUp = none ∧ r.fadeDown = none

private theorem CanMeet.symm {t u : Time} (h : t.CanMeet u) : u.CanMeet t := by
  rcases h with ⟨h1, h2⟩ | ⟨h1, h2, h3⟩
  · exact .inl ⟨h2, h1⟩
  · exact .inr ⟨h2, h1, fun e => (h3 e.symm).symm⟩

private theorem meet_ms {t u : Time} (ht : t.rate = some ⟨1000, 1⟩) (hu : u.rate = some ⟨1000, 1⟩) : t.CanMeet u ↔ t.Clear u := by
  unfold Time.CanMeet
  rw [ht, hu]
  simp

private theorem eq_iff_clear {t u : Time} (ht : t.rate = some ⟨1000, 1⟩) (hu : u.rate = some ⟨1000, 1⟩) : (∃ x, t.eq u = .ok x) ↔ t.Clear u := by
  constructor
  · rintro ⟨x, hx⟩
    apply (clear_of_lt ht hu).1
    cases h : t.lt u with
    | ok y => exact ⟨y, rfl⟩
    | error e => rw [lt_error_eq_error h] at hx; cases hx
  · exact eq_of_clear ht hu

private theorem eq_value_ms {t u : Time} (ht : t.rate = some ⟨1000, 1⟩) (hu : u.rate = some ⟨1000, 1⟩) {x : Bool} (h : t.eq u = .ok x) : x = decide (t = u) := by
  unfold Time.eq at h
  rw [ht, hu] at h
  simp only at h
  obtain ⟨a, b, c⟩ := t
  obtain ⟨a', b', c'⟩ := u
  simp only at ht hu h
  subst ht hu
  split at h
  · rename_i hs
    cases h
    simp [hs]
  · rename_i hs
    simp only [Time.scaled, mul_one, bind_eq_ok, ck_eq_ok, pure_eq_ok] at h
    obtain ⟨_, ⟨_, ⟨_, rfl⟩, _, rfl⟩, _, ⟨_, ⟨_, rfl⟩, _, rfl⟩, h⟩ := h
    have hs : a = a' := by simpa using hs
    cases h
    simp only [hs, Time.mk.injEq, true_and, and_true, decide_eq_decide]
    omega

private theorem lt_value_ms {t u : Time} (ht : t.rate = some ⟨1000, 1⟩) (hu : u.rate = some ⟨1000, 1⟩) (h1 : t.lt u = .ok false) (h2 : u.lt t = .ok false) : t = u := by
  unfold Time.lt at h1 h2
  rw [ht, hu] at h1 h2
  obtain ⟨a, b, c⟩ := t
  obtain ⟨a', b', c'⟩ := u
  simp only at ht hu h1 h2
  subst ht hu
  by_cases hs : a = a'
  · subst hs
    rw [if_neg (by simp)] at h1 h2
    simp only [Time.scaled, mul_one, bind_eq_ok, ck_eq_ok, pure_eq_ok] at h1 h2
    obtain ⟨_, ⟨_, ⟨_, rfl⟩, _, rfl⟩, _, ⟨_, ⟨_, rfl⟩, _, rfl⟩, h1⟩ := h1
    obtain ⟨_, ⟨_, ⟨_, rfl⟩, _, rfl⟩, _, ⟨_, ⟨_, rfl⟩, _, rfl⟩, h2⟩ := h2
    simp only [Except.ok.injEq, decide_eq_false_iff_not] at h1 h2
    rw [show b = b' by omega]
  · rw [if_pos (by simpa using hs)] at h1
    rw [if_pos (by simpa using Ne.symm hs)] at h2
    simp only [Except.ok.injEq, decide_eq_false_iff_not] at h1 h2
    omega

private theorem eq_iff_meet {t u : Time} (ht : Kind t) (hu : Kind u) : (∃ x, t.eq u = .ok x) ↔ t.CanMeet u := by
  rcases ht with ht | ht <;> rcases hu with hu | hu
  · rw [meet_ms ht hu, eq_iff_clear ht hu]
  · unfold Time.CanMeet Time.eq; rw [ht, hu]; simp
  · unfold Time.CanMeet Time.eq; rw [ht, hu]; simp
  · unfold Time.CanMeet Time.eq; rw [ht, hu]; simp

private theorem lt_of_meet {t u : Time} (ht : Kind t) (hu : Kind u) (h : t.CanMeet u) : ∃ x, t.lt u = .ok x := by
  rcases ht with ht | ht <;> rcases hu with hu | hu
  · exact (clear_of_lt ht hu).2 ((meet_ms ht hu).1 h)
  · unfold Time.CanMeet at h; rw [ht, hu] at h; simp at h
  · unfold Time.CanMeet at h; rw [ht, hu] at h; simp at h
  · unfold Time.lt; rw [ht, hu]; simp only; split <;> exact ⟨_, rfl⟩

private theorem eq_value {t u : Time} (ht : Kind t) (hu : Kind u) {x : Bool} (h : t.eq u = .ok x) : x = decide (t = u) := by
  rcases ht with ht | ht <;> rcases hu with hu | hu
  · exact eq_value_ms ht hu h
  · unfold Time.eq at h; rw [ht, hu] at h; cases h
  · unfold Time.eq at h; rw [ht, hu] at h; cases h
  · unfold Time.eq at h
    rw [ht, hu] at h
    cases h
    obtain ⟨a, b, c⟩ := t
    obtain ⟨a', b', c'⟩ := u
    simp only at ht hu
    subst ht hu
    simp

private theorem lt_value {t u : Time} (ht : Kind t) (hu : Kind u) (hm : t.CanMeet u) (h1 : t.lt u = .ok false) (h2 : u.lt t = .ok false) : t = u := by
  rcases ht with ht | ht <;> rcases hu with hu | hu
  · exact lt_value_ms ht hu h1 h2
  · unfold Time.CanMeet at hm; rw [ht, hu] at hm; simp at hm
  · unfold Time.CanMeet at hm; rw [ht, hu] at hm; simp at hm
  · unfold Time.lt at h1 h2
    rw [ht, hu] at h1 h2
    obtain ⟨a, b, c⟩ := t
    obtain ⟨a', b', c'⟩ := u
    simp only at ht hu h1 h2
    subst ht hu
    by_cases hs : a = a'
    · subst hs
      rw [if_neg (by simp)] at h1 h2
      simp only [Except.ok.injEq, decide_eq_false_iff_not] at h1 h2
      rw [show b = b' by omega]
    · rw [if_pos (by simpa using hs)] at h1
      rw [if_pos (by simpa using Ne.symm hs)] at h2
      simp only [Except.ok.injEq, decide_eq_false_iff_not] at h1 h2
      omega

/-! ### The loop -/

private theorem metadata_iff {cur : Subtitle} {r i : Raw} (hr : Kinds r) (hi : Kinds i) (hf : cur.from_ = r.from_) (ht : cur.to_ = r.to_) (hu : cur.fadeUp = none) (hd : cur.fadeDown = none)
    (hc : r.from_.CanMeet i.from_) :
    ((∃ x, cur.sameMetadata i = .ok x) ↔ (r.from_ = i.from_ → r.to_.CanMeet i.to_)) ∧ (cur.sameMetadata i = .ok true → r.from_ = i.from_ ∧ r.to_ = i.to_) := by
  obtain ⟨x, hx⟩ := (eq_iff_meet hr.1 hi.1).2 hc
  have ex := eq_value hr.1 hi.1 hx
  unfold Subtitle.sameMetadata
  rw [hf, ht, hu, hd, hi.2.2.1, hi.2.2.2, hx]
  subst ex
  by_cases e : r.from_ = i.from_
  · simp only [e, decide_true, true_imp_iff, true_and]
    rw [← eq_iff_meet hr.2.1 hi.2.1]
    cases hy : r.to_.eq i.to_ with
    | error er => exact ⟨⟨fun ⟨x, h⟩ => by simp [andM] at h, fun ⟨x, h⟩ => by cases h⟩, fun h => by simp [andM] at h⟩
    | ok y =>
      have ey := eq_value hr.2.1 hi.2.1 hy
      refine ⟨⟨fun _ => ⟨y, rfl⟩, fun _ => ?_⟩, fun h => ?_⟩
      · cases y <;> exact ⟨_, rfl⟩
      · cases y with
        | false => cases h
        | true => simpa using ey.symm
  · simp only [e, decide_false, false_imp_iff, iff_true, false_and, imp_false]
    exact ⟨⟨false, rfl⟩, fun h => by cases h⟩

private def Adjacent (a b : Raw) : Prop := a.from_ = b.from_ → a.to_.CanMeet b.to_

private theorem loop_iff : ∀ (is : List Raw) (out : List Subtitle) (cur : Subtitle) (r : Raw), (∀ a ∈ r :: is, Kinds a) → (r :: is).Pairwise (fun a b => a.from_.CanMeet b.from_) →
    cur.from_ = r.from_ → cur.to_ = r.to_ → cur.fadeUp = none → cur.fadeDown = none → ((∃ st, collectLoop (out, some cur) is = .ok st) ↔ (r :: is).IsChain Adjacent)
  | [], out, cur, r, _, _, _, _, _, _ => ⟨fun _ => .singleton _, fun _ => ⟨_, rfl⟩⟩
  | i :: is, out, cur, r, hm, hp, hf, ht, hu, hd => by
    have hr := hm r (by simp)
    have hi := hm i (by simp)
    have hc : r.from_.CanMeet i.from_ := (List.pairwise_cons.1 hp).1 i (by simp)
    have hm' : ∀ a ∈ i :: is, Kinds a := fun a ha => hm a (by simp [List.mem_cons.1 ha])
    have hp' := (List.pairwise_cons.1 hp).2
    obtain ⟨k1, k2⟩ := metadata_iff hr hi hf ht hu hd hc
    rw [List.isChain_cons_cons]
    change _ ↔ (r.from_ = i.from_ → r.to_.CanMeet i.to_) ∧ _
    rw [← k1, collectLoop]
    unfold collectStep
    simp only
    cases hx : cur.sameMetadata i with
    | error e =>
      constructor
      · rintro ⟨_, h⟩
        cases h
      · rintro ⟨⟨_, h⟩, _⟩
        cases h
    | ok x =>
      simp only [ok_bind]
      have tr : ∀ {P : Prop}, (∃ y, (Except.ok x : R Bool) = .ok y) ∧ P ↔ P := ⟨fun h => h.2, fun h => ⟨⟨x, rfl⟩, h⟩⟩
      rw [tr]
      cases x with
      | false =>
        simp only [Bool.false_eq_true, if_false]
        exact loop_iff is _ (Subtitle.ofRaw i) i hm' hp' rfl rfl hi.2.2.1 hi.2.2.2
      | true =>
        obtain ⟨e1, e2⟩ := k2 hx
        simp only [if_true]
        split
        · split
          · exact loop_iff is _ _ i hm' hp' (hf.trans e1) (ht.trans e2) hu hd
          · exact loop_iff is _ _ i hm' hp' (hf.trans e1) (ht.trans e2) hu hd
        · exact loop_iff is _ _ i hm' hp' (hf.trans e1) (ht.trans e2) hu hd

private theorem loop_all_iff (l : List Raw) (hm : ∀ a ∈ l, Kinds a) (hp : l.Pairwise (fun a b => a.from_.CanMeet b.from_)) : (∃ st, collectLoop ([], none) l = .ok st) ↔ l.IsChain Adjacent := by
  cases l with
  | nil => exact ⟨fun _ => .nil, fun _ => ⟨_, rfl⟩⟩
  | cons r is => exact loop_iff is [] (Subtitle.ofRaw r) r hm hp rfl rfl (hm r (by simp)).2.2.1 (hm r (by simp)).2.2.2

/-! ### The order -/

private theorem chain_filter {α β : Type} [DecidableEq β] (f : α → β) (Q : α → α → Prop) : ∀ l : List α, (∀ a b c, [a, b, c].Sublist l → f a = f c → f a = f b) →
    (l.IsChain (fun a b => f a = f b → Q a b) ↔ ∀ t, (l.filter fun a => decide (f a = t)).IsChain Q)
  | [], _ => by simp
  | [a], _ => by
    refine ⟨fun _ t => ?_, fun _ => .singleton _⟩
    by_cases h : f a = t
    · rw [List.filter_cons_of_pos (by simpa using h)]; exact .singleton _
    · rw [List.filter_cons_of_neg (by simpa using h)]; exact .nil
  | a :: b :: l, H => by
    have ih := chain_filter f Q (b :: l) fun x y z h => H x y z (h.cons a)
    rw [List.isChain_cons_cons, ih]
    constructor
    · rintro ⟨h1, h2⟩ t
      by_cases h : f a = t
      · rw [List.filter_cons_of_pos (by simpa using h)]
        have h3 := h2 t
        by_cases hb : f b = t
        · rw [List.filter_cons_of_pos (by simpa using hb)] at h3 ⊢
          exact List.isChain_cons_cons.2 ⟨h1 (h.trans hb.symm), h3⟩
        · have : (b :: l).filter (fun a => decide (f a = t)) = [] := by
            rw [List.filter_eq_nil_iff]
            intro c hc hct
            rcases List.mem_cons.1 hc with rfl | hc
            · exact hb (by simpa using hct)
            · exact hb ((H a b c (by simpa using hc) (h.trans (by simpa using hct : f c = t).symm)).symm.trans h)
          rw [this]
          exact .singleton _
      · rw [List.filter_cons_of_neg (by simpa using h)]
        exact h2 t
    · intro h
      refine ⟨fun e => ?_, fun t => ?_⟩
      · have := h (f b)
        rw [List.filter_cons_of_pos (by simpa using e), List.filter_cons_of_pos (by simp)] at this
        exact (List.isChain_cons_cons.1 this).1
      · have := h t
        by_cases ha : f a = t
        · rw [List.filter_cons_of_pos (by simpa using ha)] at this
          exact this.tail
        · rwa [List.filter_cons_of_neg (by simpa using ha)] at this

private theorem same_filter {raws sorted : List Raw} (h : ∀ r ∈ raws, Kinds r) (hp : raws.Pairwise fun a b => a.from_.CanMeet b.from_) (hs : StablySorted raws sorted) (t : Time) :
    (sorted.filter fun r => decide (r.from_ = t)) = raws.filter fun r => decide (r.from_ = t) := by
  have hperm := hs.perm.filter fun r => decide (r.from_ = t)
  by_cases hx : ∃ x ∈ raws, x.from_ = t
  · obtain ⟨x, hx, rfl⟩ := hx
    have : Std.Symm fun a b : Raw => a.from_.CanMeet b.from_ := ⟨fun a b k => CanMeet.symm k⟩
    have hall : ∀ {r}, x ∈ raws → r ∈ raws → x ≠ r → x.from_.CanMeet r.from_ := fun h1 h2 h3 => hp.forall h1 h2 h3
    by_cases hsm : x.from_.CanMeet x.from_
    · have key : ∀ r ∈ raws, decide (r.from_ = x.from_) = decide (x.from_.eq r.from_ = .ok true) := by
        intro r hr
        have hc : x.from_.CanMeet r.from_ := by
          by_cases e : x = r
          · subst e; exact hsm
          · exact hall hx hr e
        obtain ⟨y, hy⟩ := (eq_iff_meet (h x hx).1 (h r hr).1).2 hc
        rw [hy, eq_value (h x hx).1 (h r hr).1 hy]
        simp [eq_comm]
      rw [List.filter_congr key, List.filter_congr fun r hr => key r (hs.perm.mem_iff.1 hr)]
      exact hs.stable x hx
    · have key : ∀ r ∈ raws.filter (fun r => decide (r.from_ = x.from_)), r = x := by
        intro r hr
        rw [List.mem_filter] at hr
        have e : r.from_ = x.from_ := by simpa using hr.2
        by_contra hne
        rcases hall hx hr.1 (Ne.symm hne) with ⟨k1, -⟩ | ⟨k1, -, k3⟩
        · exact hsm (.inl ⟨k1, k1⟩)
        · have := (k3 (by rw [e])).1
          exact hsm (.inr ⟨k1, k1, fun _ => ⟨this, this⟩⟩)
      rw [List.eq_replicate_iff.2 ⟨rfl, key⟩, List.eq_replicate_iff.2 ⟨rfl, fun r hr => key r (hperm.mem_iff.1 hr)⟩, hperm.length_eq]
  · have : raws.filter (fun r => decide (r.from_ = t)) = [] := by
      rw [List.filter_eq_nil_iff]
      intro r hr e
      exact hx ⟨r, hr, by simpa using e⟩
    rw [this] at hperm ⊢
    exact hperm.eq_nil

/-! ### C84 -/

private theorem kinds_exact (raws : List Raw) (h : ∀ r ∈ raws, Kinds r) : (∃ out, collect raws = .ok out) ↔ MeetingTimes raws := by
  have main : raws.Pairwise (fun a b => a.from_.CanMeet b.from_) →
      ((∃ out, collect raws = .ok out) ↔ ∀ t : Time, (raws.filter fun r => decide (r.from_ = t)).IsChain fun a b => a.to_.CanMeet b.to_) := by
    intro hp
    have hc : PairsComparable raws := hp.imp_of_mem fun {a b} ha hb k => lt_of_meet (h a ha).1 (h b hb).1 k
    have hsym : Std.Symm fun a b : Raw => a.from_.CanMeet b.from_ := ⟨fun a b k => CanMeet.symm k⟩
    have hk : ∀ a ∈ raws, ∀ b ∈ raws, a.from_.SameKind b.from_ := by
      intro a ha b hb
      have hr : ∀ t : Time, t.rate = some ⟨1000, 1⟩ → t.Rated := fun t e => ⟨_, e, by decide⟩
      by_cases e : a = b
      · subst e
        rcases (h a ha).1 with k | k
        · exact .inl ⟨hr _ k, hr _ k⟩
        · exact .inr ⟨k, k⟩
      · rcases hp.forall ha hb e with k | ⟨k1, k2, -⟩
        · exact .inr k
        · exact .inl ⟨hr _ ((h a ha).1.resolve_right k1), hr _ ((h b hb).1.resolve_right k2)⟩
    have hs := stablySorted raws hk hc
    have hm : ∀ a ∈ sortRaws rawLe raws, Kinds a := fun a ha => h a (hs.perm.mem_iff.1 ha)
    have hp' : (sortRaws rawLe raws).Pairwise fun a b => a.from_.CanMeet b.from_ := (hs.perm.symm.pairwise_iff (fun {a b} k => CanMeet.symm k)).1 hp
    have hl := loop_all_iff _ hm hp'
    have hf := chain_filter Raw.from_ (fun a b => a.to_.CanMeet b.to_) (sortRaws rawLe raws) (by
      intro a b c hsub e
      have := hs.ordered.sublist hsub
      have hq := hp'.sublist hsub
      simp only [List.pairwise_cons, List.mem_cons, List.not_mem_nil, or_false] at this hq
      have ha := hm a (hsub.subset (by simp))
      have hb := hm b (hsub.subset (by simp))
      have h1 := this.1 b (.inl rfl)
      have h2 := this.2.1 c rfl
      rw [← e] at h2
      exact lt_value ha.1 hb.1 (hq.1 b (.inl rfl)) h2 h1)
    simp only [same_filter h hp hs] at hf
    rw [← hf]
    refine Iff.trans ?_ hl
    unfold collect collectWith
    rw [stableSort_of_comparable hc, ok_bind]
    constructor
    · rintro ⟨out, ho⟩
      obtain ⟨st, hst, -⟩ := bind_eq_ok.1 ho
      exact ⟨st, hst⟩
    · rintro ⟨st, hst⟩
      exact ⟨collectFinish st, by rw [hst]; rfl⟩
  have mixed : ∀ out, collect raws = .ok out → ∀ a ∈ raws, ∀ b ∈ raws, a.from_.rate = none → b.from_.rate = none := by
    intro out ho a ha b hb hra
    by_contra hrb
    obtain ⟨e, he⟩ := C16_mixed stableSort (fun l s h => by obtain ⟨_, rfl⟩ := stableSort_ok h; exact sortRaws_perm _ _) raws a b ha hb hra hrb
    unfold collect at ho
    rw [he] at ho
    cases ho
  constructor
  · rintro ⟨out, ho⟩
    have hp : raws.Pairwise fun a b => a.from_.CanMeet b.from_ := by
      obtain ⟨sorted, hs, -⟩ := collectWith_grows ho
      refine (stableSort_ok hs).1.imp_of_mem fun {a b} ha hb k => ?_
      rcases (h a ha).1 with k1 | k1
      · rcases (h b hb).1 with k2 | k2
        · exact (meet_ms k1 k2).2 ((clear_of_lt k1 k2).1 k)
        · rw [mixed out ho b hb a ha k2] at k1
          cases k1
      · exact .inl ⟨k1, mixed out ho a ha b hb k1⟩
    exact ⟨hp, (main hp).1 ⟨out, ho⟩⟩
  · rintro ⟨hp, hq⟩
    exact (main hp).2 hq

/-- C84: subtitles with times in milliseconds can be collected exactly if their times are clear of each other. -/
theorem C84_ms_exact (raws : List Raw) (h : ∀ r ∈ raws, r.InMs) : (∃ out, collect raws = .ok out) ↔ ClearTimes raws := by
  rw [kinds_exact raws fun r hr => ⟨.inl (h r hr).1, .inl (h r hr).2.1, (h r hr).2.2⟩]
  have e1 : ∀ a ∈ raws, ∀ b ∈ raws, (a.from_.CanMeet b.from_ ↔ a.from_.Clear b.from_) := fun a ha b hb => meet_ms (h a ha).1 (h b hb).1
  have e2 : ∀ a ∈ raws, ∀ b ∈ raws, (a.to_.CanMeet b.to_ ↔ a.to_.Clear b.to_) := fun a ha b hb => meet_ms (h a ha).2.1 (h b hb).2.1
  refine and_congr ⟨fun k => k.imp_of_mem fun {a b} ha hb => (e1 a ha b hb).1, fun k => k.imp_of_mem fun {a b} ha hb => (e1 a ha b hb).2⟩ (forall_congr' fun t => ?_)
  have hsub : ∀ a ∈ raws.filter (fun r => decide (r.from_ = t)), a ∈ raws := fun a ha => (List.mem_filter.1 ha).1
  exact ⟨fun k => k.imp_of_mem_imp fun a b ha hb => (e2 a (hsub a ha) b (hsub b hb)).1, fun k => k.imp_of_mem_imp fun a b ha hb => (e2 a (hsub a ha) b (hsub b hb)).2⟩

/-- C84 for SubRip, exactly. -/
theorem C84_subrip_exact (lines : List Str) (subs : List Raw) (h : srtRead lines = .ok subs) : (∃ out, collect subs = .ok out) ↔ ClearTimes subs := C84_ms_exact subs (srt_inMs h)

/-- C84 for WebVTT, exactly. -/
theorem C84_webvtt_exact (lines : List Str) (subs : List Raw) (h : vttRead lines = .ok subs) : (∃ out, collect subs = .ok out) ↔ ClearTimes subs := C84_ms_exact subs (vtt_inMs h)

/-- C84 for SSA, exactly: all starts have a time or none has, and so the ends of subtitles with the same start. -/
theorem C84_ssa_exact (s : Str) (subs : List Raw) (h : ssaReadString s = .ok subs ∨ ssaReadFile s = .ok subs) : (∃ out, collect subs = .ok out) ↔ MeetingTimes subs := by
  refine kinds_exact subs fun r hr => ?_
  obtain ⟨h1, h2, h3⟩ := ssa_kinds h r hr
  exact ⟨h1, h2, h3⟩

/-- Ends with many milliseconds in the same second: of subtitles with different starts, or with the same start but another between them. -/
example : (srtRead [b!"1", b!"0:0:1,0 --> 0:0:5,3000000", b!"a", b!"", b!"2", b!"0:0:2,0 --> 0:0:5,3000000", b!"b", b!"", b!"3", b!"0:0:2,0 --> 0:0:6,0", b!"c", b!"", b!"4", b!"0:0:2,0 --> 0:0:5,3000000", b!"d"]).toOption.map
    (fun subs => (subs.length, (collect subs).toOption.map (·.length))) = some (4, some 4) := by decide +kernel

/-- And next to each other. -/
example : (srtRead [b!"1", b!"0:0:2,0 --> 0:0:5,3000000", b!"a", b!"", b!"2", b!"0:0:2,0 --> 0:0:5,3000000", b!"b"]).toOption.map
    (fun subs => (subs.length, (collect subs).toOption.map (·.length))) = some (2, none) := by decide +kernel

/-- The ends of two events without a start come after the texts, or for one of them only. -/
example : ((ssaReadString b!"[Events]\nFormat: Start, Text, End\nDialogue: 0:00:01.00,a,0:00:02.00\nDialogue: 0:00:01.00,b,0:00:03.00").toOption.map fun subs => (subs.length, (collect subs).toOption.map (·.length))) = some (2, some 1) ∧
    ((ssaReadString b!"[Events]\nFormat: Start, Text, End\nDialogue: 0:00:01.00,a,0:00:02.00\nFormat: Start, End, Text\nDialogue: 0:00:01.00,0:00:03.00,b").toOption.map fun subs =>
      (subs.length, (collect subs).toOption.map (·.length))) = some (2, none) := by decide +kernel

end LibSub
