/-
C129: collecting depends on times only through their comparisons, so that moving all subtitles in time and collecting
them can be done in either order.
-/
import Verif.Props.Collect
import Verif.Props.TimeOrder

namespace LibSub

/-! ### Specification -/

/-- A raw subtitle with its times changed. -/
def Raw.retime (φ : Time → Time) (r : Raw) : Raw := { r with from_ := φ r.from_, to_ := φ r.to_, fadeUp := r.fadeUp.map φ, fadeDown := r.fadeDown.map φ }

/-- A subtitle with its times changed. -/
def Subtitle.retime (φ : Time → Time) (s : Subtitle) : Subtitle := { s with from_ := φ s.from_, to_ := φ s.to_, fadeUp := s.fadeUp.map φ, fadeDown := s.fadeDown.map φ }

/-- `φ` leaves all comparisons of the given times as they are: whether `<` and `==` hold, and whether they fail. -/
def KeepsOrder (φ : Time → Time) (ts : List Time) : Prop := ∀ x ∈ ts, ∀ y ∈ ts, (φ x).lt (φ y) = x.lt y ∧ (φ x).eq (φ y) = x.eq y

/-- A time some whole seconds later (or earlier). -/
def Time.later (n : Int) (t : Time) : Time := { t with secs := t.secs + n }

/-- A time with another added to it, if that works. -/
def Time.plus (d t : Time) : Time := (t.add d).toOption.getD t

/-! ### Proofs -/

private def Within (ts : List Time) (r : Raw) : Prop := ∀ t ∈ r.times, t ∈ ts

/-- The subtitle's times are among `ts`. -/
private def SubWithin (ts : List Time) (s : Subtitle) : Prop := s.from_ ∈ ts ∧ s.to_ ∈ ts ∧ (∀ t ∈ s.fadeUp, t ∈ ts) ∧ ∀ t ∈ s.fadeDown, t ∈ ts

private theorem within_iff {ts : List Time} {r : Raw} : Within ts r ↔ r.from_ ∈ ts ∧ r.to_ ∈ ts ∧ (∀ t ∈ r.fadeUp, t ∈ ts) ∧ ∀ t ∈ r.fadeDown, t ∈ ts := by
  unfold Within Raw.times
  simp only [List.mem_append, List.mem_cons, Option.mem_toList]
  constructor
  · intro h
    exact ⟨h _ (.inl rfl), h _ (.inr (.inl rfl)), fun t ht => h t (.inr (.inr (.inl ht))), fun t ht => h t (.inr (.inr (.inr ht)))⟩
  · rintro ⟨h1, h2, h3, h4⟩ t (rfl | rfl | h | h)
    · exact h1
    · exact h2
    · exact h3 _ h
    · exact h4 _ h

section
variable {φ : Time → Time} {ts : List Time} (hφ : KeepsOrder φ ts)
include hφ

private theorem raw_lt {a b : Raw} (ha : Within ts a) (hb : Within ts b) : (a.retime φ).lt (b.retime φ) = a.lt b :=
  (hφ _ (within_iff.1 ha).1 _ (within_iff.1 hb).1).1

private theorem optEq {x y : Option Time} (hx : ∀ t ∈ x, t ∈ ts) (hy : ∀ t ∈ y, t ∈ ts) : optTimeEq (x.map φ) (y.map φ) = optTimeEq x y := by
  cases x with
  | none => cases y <;> rfl
  | some x =>
    cases y with
    | none => rfl
    | some y => exact (hφ x (hx x rfl) y (hy y rfl)).2

private theorem sameMeta {s : Subtitle} {r : Raw} (hs : SubWithin ts s) (hr : Within ts r) : (s.retime φ).sameMetadata (r.retime φ) = s.sameMetadata r := by
  obtain ⟨a1, a2, a3, a4⟩ := hs
  obtain ⟨b1, b2, b3, b4⟩ := within_iff.1 hr
  show andM ((φ s.from_).eq (φ r.from_)) (andM ((φ s.to_).eq (φ r.to_)) (andM (optTimeEq (s.fadeUp.map φ) (r.fadeUp.map φ)) (optTimeEq (s.fadeDown.map φ) (r.fadeDown.map φ)))) = _
  rw [(hφ _ a1 _ b1).2, (hφ _ a2 _ b2).2, optEq hφ a3 b3, optEq hφ a4 b4]
  rfl

private theorem comparable_go {a : Raw} (ha : Within ts a) : ∀ (l : List Raw), (∀ r ∈ l, Within ts r) → allComparable.go (a.retime φ) (l.map (Raw.retime φ)) = allComparable.go a l
  | [], _ => rfl
  | b :: bs, h => by
    rw [List.map_cons, allComparable.go, allComparable.go, raw_lt hφ ha (h b (by simp)), comparable_go ha bs (fun r hr => h r (by simp [hr]))]

private theorem comparable : ∀ (l : List Raw), (∀ r ∈ l, Within ts r) → allComparable (l.map (Raw.retime φ)) = allComparable l
  | [], _ => rfl
  | a :: as, h => by
    rw [List.map_cons, allComparable, allComparable, comparable_go hφ (h a (by simp)) as (fun r hr => h r (by simp [hr])), comparable as (fun r hr => h r (by simp [hr]))]

private def goesFirst (a b : Raw) : Bool := match b.lt a with | .ok true => false | _ => true

private theorem goesFirst_retime {a b : Raw} (ha : Within ts a) (hb : Within ts b) : goesFirst (a.retime φ) (b.retime φ) = goesFirst a b := by
  unfold goesFirst
  rw [raw_lt hφ hb ha]

private theorem insert_retime {a : Raw} (ha : Within ts a) : ∀ (l : List Raw), (∀ r ∈ l, Within ts r) → insertRaw goesFirst (a.retime φ) (l.map (Raw.retime φ)) = (insertRaw goesFirst a l).map (Raw.retime φ)
  | [], _ => rfl
  | b :: l, h => by
    rw [List.map_cons, insertRaw, insertRaw, goesFirst_retime hφ ha (h b (by simp)), insert_retime ha l (fun r hr => h r (by simp [hr]))]
    split <;> rfl

end

private theorem insert_mem (le : Raw → Raw → Bool) (a : Raw) : ∀ (l : List Raw) (r : Raw), r ∈ insertRaw le a l → r = a ∨ r ∈ l
  | [], r, h => by rw [insertRaw] at h; simpa using h
  | b :: l, r, h => by
    rw [insertRaw] at h
    split at h
    · simpa using h
    · rcases List.mem_cons.1 h with h | h
      · exact .inr (by simp [h])
      · rcases insert_mem le a l r h with h | h
        · exact .inl h
        · exact .inr (by simp [h])

private theorem sort_mem (le : Raw → Raw → Bool) : ∀ (l : List Raw) (r : Raw), r ∈ sortRaws le l → r ∈ l
  | [], _, h => by rw [sortRaws] at h; exact h
  | a :: l, r, h => by
    rw [sortRaws] at h
    rcases insert_mem le a _ r h with h | h
    · simp [h]
    · simp [sort_mem le l r h]

section
variable {φ : Time → Time} {ts : List Time} (hφ : KeepsOrder φ ts)
include hφ

private theorem sort_retime : ∀ (l : List Raw), (∀ r ∈ l, Within ts r) → sortRaws goesFirst (l.map (Raw.retime φ)) = (sortRaws goesFirst l).map (Raw.retime φ)
  | [], _ => rfl
  | a :: l, h => by
    rw [List.map_cons, sortRaws, sortRaws, sort_retime l (fun r hr => h r (by simp [hr]))]
    exact insert_retime hφ (h a (by simp)) _ (fun r hr => h r (by simp [sort_mem _ _ _ hr]))

/-- The state of the loop with all times changed. -/
private def retimeSt (φ : Time → Time) (st : List Subtitle × Option Subtitle) : List Subtitle × Option Subtitle := (st.1.map (Subtitle.retime φ), st.2.map (Subtitle.retime φ))

private theorem step_retime {st : List Subtitle × Option Subtitle} {r : Raw} (hs : ∀ s ∈ st.2, SubWithin ts s) (hr : Within ts r) :
    collectStep (retimeSt φ st) (r.retime φ) = (collectStep st r).map (retimeSt φ) := by
  obtain ⟨out, cur⟩ := st
  cases cur with
  | none => rfl
  | some cur =>
    show (do let same ← (cur.retime φ).sameMetadata (r.retime φ); _) = _
    rw [sameMeta hφ (hs cur rfl) hr]
    unfold collectStep
    dsimp only
    cases cur.sameMetadata r with
    | error e => rfl
    | ok same =>
      simp only [ok_bind]
      cases same with
      | false => simp [retimeSt, Except.map]; rfl
      | true =>
        simp only [if_true]
        show (match cur.lines.getLast? with | some l => _ | none => _) = _
        cases cur.lines.getLast? with
        | none => rfl
        | some l =>
          dsimp only
          show (if l.sameMetadata r then _ else _) = _
          split <;> rfl

omit hφ in
private theorem step_within {st st' : List Subtitle × Option Subtitle} {r : Raw} (hs : ∀ s ∈ st.2, SubWithin ts s) (hr : Within ts r) (h : collectStep st r = .ok st') :
    ∀ s ∈ st'.2, SubWithin ts s := by
  have new : SubWithin ts (Subtitle.ofRaw r) := within_iff.1 hr
  obtain ⟨out, cur⟩ := st
  cases cur with
  | none =>
    cases h
    rintro s ⟨⟩
    exact new
  | some cur =>
    unfold collectStep at h
    obtain ⟨same, h1, h⟩ := bind_eq_ok.1 h
    have hc := hs cur rfl
    split at h
    · split at h
      · split at h <;> cases h <;> rintro s ⟨⟩ <;> exact hc
      · cases h; rintro s ⟨⟩; exact hc
    · cases h; rintro s ⟨⟩; exact new

private theorem loop_retime : ∀ (l : List Raw) (st : List Subtitle × Option Subtitle), (∀ s ∈ st.2, SubWithin ts s) → (∀ r ∈ l, Within ts r) →
    collectLoop (retimeSt φ st) (l.map (Raw.retime φ)) = (collectLoop st l).map (retimeSt φ)
  | [], _, _, _ => rfl
  | r :: l, st, hs, h => by
    rw [List.map_cons, collectLoop, collectLoop, step_retime hφ hs (h r (by simp))]
    cases e : collectStep st r with
    | error e => rfl
    | ok st' => exact loop_retime l st' (step_within hs (h r (by simp)) e) (fun r hr => h r (by simp [hr]))

end

/-- C129: collecting depends on times only through `<` and `==`.  If times are changed so that these give what they gave before, then collecting
what was changed gives what was collected, changed (and fails if that failed). -/
theorem C129_collect (φ : Time → Time) (raws : List Raw) (h : KeepsOrder φ (raws.flatMap Raw.times)) :
    collect (raws.map (Raw.retime φ)) = (collect raws).map (List.map (Subtitle.retime φ)) := by
  have hw : ∀ r ∈ raws, Within (raws.flatMap Raw.times) r := fun r hr t ht => List.mem_flatMap.2 ⟨r, hr, ht⟩
  unfold collect collectWith stableSort
  rw [comparable h raws hw]
  cases allComparable raws with
  | error e => rfl
  | ok _ =>
    simp only [ok_bind, pure_eq_ok]
    have hs := sort_retime h raws hw
    have hl := loop_retime h (sortRaws goesFirst raws) ([], none) (by simp) (fun r hr => hw r (sort_mem _ _ _ hr))
    have e0 : retimeSt φ (([] : List Subtitle), (none : Option Subtitle)) = ([], none) := rfl
    rw [e0] at hl
    change (do let st ← collectLoop ([], none) (sortRaws goesFirst (raws.map (Raw.retime φ))); Except.ok (collectFinish st)) =
      Except.map _ (do let st ← collectLoop ([], none) (sortRaws goesFirst raws); Except.ok (collectFinish st))
    rw [hs, hl]
    cases collectLoop ([], none) (sortRaws goesFirst raws) with
    | error e => rfl
    | ok st =>
      obtain ⟨out, cur⟩ := st
      cases cur <;> simp [retimeSt, Except.map, collectFinish]

private def cueA : Raw := { text := b!"One", vpos := { line := some 0, ref := some .topOfSubtitle }, from_ := ⟨1, 0, some ⟨1000, 1⟩⟩, to_ := ⟨2, 0, some ⟨1000, 1⟩⟩ }
private def cueB : Raw := { text := b!"Two", vpos := { line := some 1, ref := some .topOfSubtitle }, from_ := ⟨1, 1, some ⟨1000, 1⟩⟩, to_ := ⟨2, 0, some ⟨1000, 1⟩⟩ }

/-- The times of `cueA` and `cueB` in units of half a second, at another rate. -/
private def slower (t : Time) : Time := ⟨2 * t.secs, 2 * t.frames, some ⟨2000, 1⟩⟩

example : slower (Raw.from_ cueB) = ⟨2, 2, some ⟨2000, 1⟩⟩ ∧ ∀ x ∈ [cueB, cueA].flatMap Raw.times, ∀ y ∈ [cueB, cueA].flatMap Raw.times,
    (slower x).lt (slower y) = x.lt y ∧ (slower x).eq (slower y) = x.eq y := by decide +kernel

/-- C129: moving all subtitles by whole seconds, whatever their rates, and collecting them can be done in either order. -/
theorem C129_seconds (n : Int) (raws : List Raw) : collect (raws.map (Raw.retime (Time.later n))) = (collect raws).map (List.map (Subtitle.retime (Time.later n))) := by
  apply C129_collect
  intro x _ y _
  constructor
  · unfold Time.lt Time.later
    have e1 : (x.secs + n ≠ y.secs + n) ↔ x.secs ≠ y.secs := by omega
    have e2 : (x.secs + n < y.secs + n) ↔ x.secs < y.secs := by omega
    simp only [e1, e2]
  · unfold Time.eq Time.later
    have e1 : (x.secs + n ≠ y.secs + n) ↔ x.secs ≠ y.secs := by omega
    have e2 : (x.secs + n = y.secs + n) ↔ x.secs = y.secs := by omega
    simp only [e1, e2]

example : collect [cueB, cueA] = .ok [Subtitle.ofRaw cueA, Subtitle.ofRaw cueB] := by decide +kernel

/-- C129: moving by `add` all subtitles, with times in milliseconds, and collecting them can be done in either order, if times that are not the same are at least two
milliseconds apart. -/
theorem C129_add (d : Int) (hd : 0 ≤ d) (raws : List Raw)
    (hms : ∀ t ∈ raws.flatMap Raw.times, ∃ m, t = timeMs m ∧ 0 ≤ m ∧ m + d ≤ 2147483646)
    (apart : ∀ m n, timeMs m ∈ raws.flatMap Raw.times → timeMs n ∈ raws.flatMap Raw.times → m < n → m + 2 ≤ n) :
    collect (raws.map (Raw.retime (Time.plus (timeMs d)))) = (collect raws).map (List.map (Subtitle.retime (Time.plus (timeMs d)))) := by
  apply C129_collect
  have ok : ∀ m, 0 ≤ m → m + d ≤ 2147483646 → ∃ t, (timeMs m).add (timeMs d) = .ok t := by
    intro m h0 h1
    obtain ⟨t', g1, _⟩ := C09_add_milliseconds (m / 1000) (m % 1000) (d / 1000) (d % 1000) (by omega) (by omega) (by omega) (by omega)
      (by unfold InInt; omega) (by unfold InInt; omega) (by omega)
    exact ⟨t', g1⟩
  have key : ∀ m n, timeMs m ∈ raws.flatMap Raw.times → timeMs n ∈ raws.flatMap Raw.times → 0 ≤ m → m ≤ n → n + d ≤ 2147483646 →
      ∃ a b, Time.plus (timeMs d) (timeMs m) = timeMs a ∧ Time.plus (timeMs d) (timeMs n) = timeMs b ∧ (a < b ↔ m < n) ∧ a ≤ b := by
    intro m n hm hn m0 mn nd
    obtain ⟨tm, em⟩ := ok m m0 (by omega)
    obtain ⟨tn, en⟩ := ok n (by omega) nd
    obtain ⟨a, b, rfl, rfl, h1, h2, h3, h4⟩ := C128_distance m0 mn hd nd em en
    refine ⟨a, b, by unfold Time.plus; rw [em]; rfl, by unfold Time.plus; rw [en]; rfl, ?_, h1⟩
    constructor
    · intro h
      rcases lt_or_eq_of_le mn with c | c
      · exact c
      · subst c
        have e := em.symm.trans en
        injection e with e
        have := timeMs_lt a b
        rw [e, timeMs_lt] at this
        injection this with this
        rw [decide_eq_decide] at this
        omega
    · intro h
      have := apart m n hm hn h
      omega
  intro x hx y hy
  obtain ⟨m, rfl, m0, md⟩ := hms x hx
  obtain ⟨n, rfl, n0, nd⟩ := hms y hy
  rcases le_total m n with c | c
  · obtain ⟨a, b, e1, e2, e3, e4⟩ := key m n hx hy m0 c nd
    rw [e1, e2, timeMs_lt, timeMs_lt, timeMs_eq, timeMs_eq]
    constructor
    · rw [decide_eq_decide.2 e3]
    · rw [decide_eq_decide.2 (show a = b ↔ m = n by omega)]
  · obtain ⟨a, b, e1, e2, e3, e4⟩ := key n m hy hx n0 c md
    rw [e1, e2, timeMs_lt, timeMs_lt, timeMs_eq, timeMs_eq]
    constructor
    · rw [decide_eq_decide.2 (show b < a ↔ m < n by omega)]
    · rw [decide_eq_decide.2 (show b = a ↔ m = n by omega)]

example : (collect ([cueB, cueA].map (Raw.retime (Time.later 3600)))).toOption.map (List.map (fun s => s.from_)) = some [⟨3601, 0, some ⟨1000, 1⟩⟩, ⟨3601, 1, some ⟨1000, 1⟩⟩] ∧
    [cueA].flatMap Raw.times = [timeMs 1000, timeMs 2000] := by decide +kernel

/-- C129: moving by `add` can put what were two subtitles into one: of the starts of these, a millisecond apart, both are 1 s after
nothing at all has been added. -/
theorem C129_add_witness : (collect [cueA, cueB]).toOption.map List.length = some 2 ∧
    (collect ([cueA, cueB].map (Raw.retime (Time.plus ⟨0, 0, some ⟨1000, 1⟩⟩)))).toOption.map List.length = some 1 := by decide +kernel

end LibSub
