/-
Properties C01–C05 of times: decomposition, comparison, unknown rates, frame counts.
-/
import Verif.Lemmas.Time

namespace LibSub

/-! ### C01  decomposition -/

/-- C01: the parts given to `from_hmsf` are the parts reported. -/
theorem C01_fromHmsf_parts (h m s f : Int) (rate : Option FRate) (hh : 0 ≤ h) (hm : 0 ≤ m ∧ m ≤ 59)
    (hs : 0 ≤ s ∧ s ≤ 59) (fit : 3600 * h + 60 * m + s ≤ 2147483647) :
    ∃ t, Time.fromHmsf h m s f rate = .ok t ∧ t.hours = h ∧ t.minutes = m ∧ t.seconds = s ∧
      t.frames = f ∧ t.rate = rate := by
  refine ⟨⟨h * 3600 + m * 60 + s, f, rate⟩, ?_, ?_, ?_, ?_, rfl, rfl⟩
  · unfold Time.fromHmsf hmsSeconds
    rw [ck_ok (by unfold InInt; omega)]
    simp only [ok_bind]
    rw [ck_ok (by unfold InInt; omega)]
    simp only [ok_bind]
    rw [ck_ok (by unfold InInt; omega)]
    simp only [ok_bind]
    rw [ck_ok (by unfold InInt; omega)]
    rfl
  all_goals simp only [Time.hours, Time.minutes, Time.seconds]
  all_goals rw [Int.tdiv_eq_ediv_of_nonneg (show 0 ≤ h * 3600 + m * 60 + s by omega)]
  · omega
  all_goals rw [Int.tdiv_eq_ediv_of_nonneg (by omega)]
  all_goals omega

example : ∃ t, Time.fromHmsf 99 59 59 24 (some ⟨25, 1⟩) = .ok t ∧ t.hours = 99 ∧ t.minutes = 59 ∧ t.seconds = 59 ∧
    t.frames = 24 ∧ t.rate = some ⟨25, 1⟩ :=
  C01_fromHmsf_parts 99 59 59 24 _ (by decide) (by decide) (by decide) (by decide)

/-- C01: likewise for `from_hms`, whose last part is in milliseconds. -/
theorem C01_fromHms_parts (h m s ms : Int) (hh : 0 ≤ h) (hm : 0 ≤ m ∧ m ≤ 59) (hs : 0 ≤ s ∧ s ≤ 59)
    (fit : 3600 * h + 60 * m + s ≤ 2147483647) :
    ∃ t, Time.fromHms h m s ms = .ok t ∧ t.hours = h ∧ t.minutes = m ∧ t.seconds = s ∧
      t.frames = ms ∧ t.rate = some ⟨1000, 1⟩ := by
  have := C01_fromHmsf_parts h m s ms (some ⟨1000, 1⟩) hh hm hs fit
  simpa [Time.fromHms, Time.fromHmsf] using this

example : ∃ t, Time.fromHms 1 2 3 456 = .ok t ∧ t.hours = 1 ∧ t.minutes = 2 ∧ t.seconds = 3 ∧
    t.frames = 456 ∧ t.rate = some ⟨1000, 1⟩ :=
  C01_fromHms_parts 1 2 3 456 (by decide) (by decide) (by decide) (by decide)

/-- C01: hours, minutes and seconds of a non-negative time are in range and add up. -/
theorem C01_recompose (t : Time) (h : 0 ≤ t.secs) :
    3600 * t.hours + 60 * t.minutes + t.seconds = t.secs ∧ 0 ≤ t.hours ∧
      (0 ≤ t.minutes ∧ t.minutes ≤ 59) ∧ (0 ≤ t.seconds ∧ t.seconds ≤ 59) := by
  simp only [Time.hours, Time.minutes, Time.seconds]
  rw [Int.tdiv_eq_ediv_of_nonneg h, Int.tdiv_eq_ediv_of_nonneg (by omega)]
  omega

example : (0 : Int) ≤ (⟨359999, 24, some ⟨25, 1⟩⟩ : Time).secs := by decide

/-- C01: for non-negative parts the constructor is undefined exactly when the whole seconds overflow. -/
theorem C01_overflow (h m s f : Int) (rate : Option FRate) (hh : 0 ≤ h) (hm : 0 ≤ m) (hs : 0 ≤ s) :
    Time.fromHmsf h m s f rate = .error (.ub .intOverflow) ↔ 3600 * h + 60 * m + s > 2147483647 := by
  constructor
  · intro e
    by_contra hc
    unfold Time.fromHmsf hmsSeconds at e
    rw [ck_ok (by unfold InInt; omega)] at e
    simp only [ok_bind] at e
    rw [ck_ok (by unfold InInt; omega)] at e
    simp only [ok_bind] at e
    rw [ck_ok (by unfold InInt; omega)] at e
    simp only [ok_bind] at e
    rw [ck_ok (by unfold InInt; omega)] at e
    cases e
  · intro hgt
    unfold Time.fromHmsf hmsSeconds
    by_cases h1 : InInt (h * 3600)
    · rw [ck_ok h1]
      by_cases h2 : InInt (m * 60)
      · rw [ck_ok h2]
        by_cases h3 : InInt (h * 3600 + m * 60)
        · simp only [ok_bind]
          rw [ck_ok h3]
          simp only [ok_bind]
          rw [ck_err (by unfold InInt; omega)]; rfl
        · simp only [ok_bind]
          rw [ck_err h3]; rfl
      · rw [ck_err h2]; rfl
    · rw [ck_err h1]; rfl

example : Time.fromHmsf 596524 0 0 0 none = .error (.ub .intOverflow) := by decide +kernel

/-! ### C02  order laws -/

/-- The times a list of subtitles may mix: all with a frame rate of positive denominator, or all without. -/
def Time.Rated (t : Time) : Prop := ∃ r, t.rate = some r ∧ 0 < r.den

/-- See `Time.Rated`. -/
def Time.SameKind (a b : Time) : Prop := (a.Rated ∧ b.Rated) ∨ (a.rate = none ∧ b.rate = none)

/-- Outcome of a comparison that either answers or overflows `int`. -/
def YesOrOverflow (x : R Bool) : Prop := x = .ok true ∨ x = .error (.ub .intOverflow)

/-- See `YesOrOverflow`. -/
def NoOrOverflow (x : R Bool) : Prop := x = .ok false ∨ x = .error (.ub .intOverflow)

private theorem scaled_cases (f : Int) (a b : FRate) :
    Time.scaled f a b = .ok (f * a.num * b.den) ∨ Time.scaled f a b = .error (.ub .intOverflow) := by
  unfold Time.scaled ck
  split
  · simp only [ok_bind]; split <;> simp
  · simp

private theorem scaled_ok {f : Int} {a b : FRate} {x : Int} (h : Time.scaled f a b = .ok x) : x = f * a.num * b.den := by
  rcases scaled_cases f a b with h' | h' <;> rw [h'] at h <;> cases h
  rfl

/-- Everything the three operators say about two times that may be mixed. -/
private theorem cmp_cases (a b : Time) (h : a.SameKind b) :
    (∃ x y : Int, a.lt b = .ok (decide (x < y)) ∧ a.gt b = .ok (decide (y < x)) ∧ a.eq b = .ok (decide (x = y)) ∧
      b.lt a = .ok (decide (y < x)) ∧ b.gt a = .ok (decide (x < y)) ∧ b.eq a = .ok (decide (y = x))) ∨
    (a.lt b = .error (.ub .intOverflow) ∧ a.gt b = .error (.ub .intOverflow) ∧ a.eq b = .error (.ub .intOverflow) ∧
      b.lt a = .error (.ub .intOverflow) ∧ b.gt a = .error (.ub .intOverflow) ∧ b.eq a = .error (.ub .intOverflow)) := by
  rcases h with ⟨⟨ra, ha, _⟩, ⟨rb, hb, _⟩⟩ | ⟨ha, hb⟩
  · by_cases hs : a.secs = b.secs
    · simp only [Time.lt, Time.gt, Time.eq, ha, hb, hs, ne_eq, not_true_eq_false, if_false]
      rcases scaled_cases a.frames ra rb with h1 | h1 <;> rcases scaled_cases b.frames rb ra with h2 | h2 <;>
        rw [h1, h2] <;> simp only [ok_bind, error_bind, pure_eq_ok]
      · left
        exact ⟨_, _, rfl, rfl, rfl, rfl, rfl, rfl⟩
      all_goals (right; simp)
    · left
      refine ⟨a.secs, b.secs, ?_⟩
      have hs' : ¬ b.secs = a.secs := fun e => hs e.symm
      simp [Time.lt, Time.gt, Time.eq, ha, hb, hs, hs']
  · left
    by_cases hs : a.secs = b.secs
    · refine ⟨a.frames, b.frames, ?_⟩
      simp [Time.lt, Time.gt, Time.eq, ha, hb, hs]
    · refine ⟨a.secs, b.secs, ?_⟩
      have hs' : ¬ b.secs = a.secs := fun e => hs e.symm
      simp [Time.lt, Time.gt, Time.eq, ha, hb, hs, hs']

/-- C02: exactly one of `a < b`, `a == b`, `a > b` holds, whenever the comparison is defined (and the three
are defined for the same pairs). -/
theorem C02_trichotomy (a b : Time) (h : a.SameKind b) :
    (∃ l e g : Bool, a.lt b = .ok l ∧ a.eq b = .ok e ∧ a.gt b = .ok g ∧
      ((l = true ∧ e = false ∧ g = false) ∨ (l = false ∧ e = true ∧ g = false) ∨ (l = false ∧ e = false ∧ g = true))) ∨
    (a.lt b = .error (.ub .intOverflow) ∧ a.eq b = .error (.ub .intOverflow) ∧ a.gt b = .error (.ub .intOverflow)) := by
  rcases cmp_cases a b h with ⟨x, y, h1, h2, h3, _⟩ | ⟨h1, h2, h3, _⟩
  · left
    refine ⟨_, _, _, h1, h3, h2, ?_⟩
    rcases lt_trichotomy x y with hxy | hxy | hxy
    · left; refine ⟨by simpa using hxy, ?_, ?_⟩ <;> simp <;> omega
    · right; left; subst hxy; simp
    · right; right; refine ⟨?_, ?_, ?_⟩ <;> simp <;> omega
  · right; exact ⟨h1, h3, h2⟩

/-- C02: `a > b` is `b < a`, and `==` is symmetric (as outcomes, including failures). -/
theorem C02_gt_is_flipped_lt (a b : Time) (h : a.SameKind b) : a.gt b = b.lt a ∧ a.eq b = b.eq a := by
  rcases cmp_cases a b h with ⟨x, y, h1, h2, h3, h4, h5, h6⟩ | ⟨h1, h2, h3, h4, h5, h6⟩
  · rw [h2, h4, h3, h6]
    refine ⟨rfl, ?_⟩
    congr 1
    simp only [decide_eq_decide]
    exact eq_comm
  · rw [h2, h4, h3, h6]; simp

/-- C02: `!=` is the negation of `==`. -/
theorem C02_ne (a b : Time) (v : Bool) : a.ne b = .ok v ↔ a.eq b = .ok (!v) := by
  unfold Time.ne
  cases h : a.eq b with
  | ok e => cases e <;> cases v <;> simp
  | error e => simp

/-- C02: `<` is irreflexive and `==` reflexive. -/
theorem C02_irrefl (a : Time) (h : a.SameKind a) : NoOrOverflow (a.lt a) ∧ YesOrOverflow (a.eq a) := by
  rcases cmp_cases a a h with ⟨x, y, h1, h2, h3, h4, _⟩ | ⟨h1, h2, h3, _⟩
  · have hlt : decide (x < y) = decide (y < x) := by
      have := h1.symm.trans h4; injection this
    have hxy : x = y := by
      by_contra hne
      rcases lt_or_gt_of_ne hne with hh | hh
      · have a1 : decide (x < y) = true := by simpa using hh
        have a2 : decide (y < x) = false := by simp; omega
        rw [a1, a2] at hlt; cases hlt
      · have a1 : decide (y < x) = true := by simpa using hh
        have a2 : decide (x < y) = false := by simp; omega
        rw [a1, a2] at hlt; cases hlt
    subst hxy
    exact ⟨Or.inl (by simpa using h1), Or.inl (by simpa using h3)⟩
  · exact ⟨Or.inr h1, Or.inr h3⟩

/-- The quantity by which rated times in the same second are compared. -/
private def key (f : Int) (r : FRate) : ℚ := f * r.num / r.den

private theorem scaled_key (f : Int) (a b : FRate) (ha : 0 < a.den) (hb : 0 < b.den) :
    ((f * a.num * b.den : Int) : ℚ) = key f a * (a.den * b.den) := by
  have : (a.den : ℚ) ≠ 0 := by exact_mod_cast ha.ne'
  unfold key; push_cast; field_simp

/-- On rated times with a defined comparison, the answers are those of a linear order on (seconds, key). -/
private theorem rated_spec {a b : Time} {ra rb : FRate} (ha : a.rate = some ra) (hb : b.rate = some rb)
    (pa : 0 < ra.den) (pb : 0 < rb.den) :
    (∀ v, a.lt b = .ok v → (v = true ↔ a.secs < b.secs ∨ (a.secs = b.secs ∧ key a.frames ra < key b.frames rb))) ∧
    (∀ v, a.eq b = .ok v → (v = true ↔ a.secs = b.secs ∧ key a.frames ra = key b.frames rb)) := by
  have pos : (0 : ℚ) < ra.den * rb.den := by
    have h1 : (0 : ℚ) < ra.den := by exact_mod_cast pa
    have h2 : (0 : ℚ) < rb.den := by exact_mod_cast pb
    positivity
  by_cases hs : a.secs = b.secs
  · have conv : ∀ l r : Int, l = a.frames * ra.num * rb.den → r = b.frames * rb.num * ra.den →
        ((l < r ↔ key a.frames ra < key b.frames rb) ∧ (l = r ↔ key a.frames ra = key b.frames rb)) := by
      intro l r hl hr
      have e1 := scaled_key a.frames ra rb pa pb
      have e2 := scaled_key b.frames rb ra pb pa
      rw [← hl] at e1
      rw [← hr] at e2
      rw [mul_comm (rb.den : ℚ)] at e2
      constructor
      · rw [← Int.cast_lt (R := ℚ), e1, e2]
        constructor
        · intro h; exact lt_of_mul_lt_mul_right h pos.le
        · intro h; exact mul_lt_mul_of_pos_right h pos
      · rw [← Int.cast_inj (α := ℚ), e1, e2]
        constructor
        · intro h; exact mul_right_cancel₀ pos.ne' h
        · intro h; rw [h]
    constructor
    · intro v hv
      simp only [Time.lt, ha, hb, hs, ne_eq, not_true_eq_false, if_false, bind_eq_ok] at hv
      obtain ⟨l, hl, r, hr, hv⟩ := hv
      have := (conv l r (scaled_ok hl) (scaled_ok hr)).1
      have hv : decide (l < r) = v := by simpa using hv
      rw [← hv]; simp [hs, this]
    · intro v hv
      simp only [Time.eq, ha, hb, hs, ne_eq, not_true_eq_false, if_false, bind_eq_ok] at hv
      obtain ⟨l, hl, r, hr, hv⟩ := hv
      have := (conv l r (scaled_ok hl) (scaled_ok hr)).2
      have hv : decide (l = r) = v := by simpa using hv
      rw [← hv]; simp [hs, this]
  · constructor
    · intro v hv
      simp only [Time.lt, ne_eq, hs, not_false_eq_true, if_true] at hv
      injection hv with hv
      rw [← hv]; simp [hs]
    · intro v hv
      simp only [Time.eq, ha, hb, ne_eq, hs, not_false_eq_true, if_true] at hv
      injection hv with hv
      rw [← hv]; simp [hs]

private theorem unrated_spec {a b : Time} (ha : a.rate = none) (hb : b.rate = none) :
    (a.lt b = .ok (decide (a.secs < b.secs ∨ (a.secs = b.secs ∧ a.frames < b.frames)))) ∧
    (a.eq b = .ok (decide (a.secs = b.secs ∧ a.frames = b.frames))) := by
  by_cases hs : a.secs = b.secs <;> simp [Time.lt, Time.eq, ha, hb, hs]

private theorem lt_total {a c : Time} (h : a.SameKind c) : (∃ v, a.lt c = .ok v) ∨ a.lt c = .error (.ub .intOverflow) := by
  rcases cmp_cases a c h with ⟨x, y, h1, _⟩ | ⟨h1, _⟩
  · exact Or.inl ⟨_, h1⟩
  · exact Or.inr h1

private theorem eq_total {a c : Time} (h : a.SameKind c) : (∃ v, a.eq c = .ok v) ∨ a.eq c = .error (.ub .intOverflow) := by
  rcases cmp_cases a c h with ⟨x, y, _, _, h1, _⟩ | ⟨_, _, h1, _⟩
  · exact Or.inl ⟨_, h1⟩
  · exact Or.inr h1

private theorem sameKind_trans {a b c : Time} (h1 : a.SameKind b) (h2 : b.SameKind c) : a.SameKind c := by
  rcases h1 with ⟨p, q⟩ | ⟨p, q⟩ <;> rcases h2 with ⟨p', q'⟩ | ⟨p', q'⟩
  · exact Or.inl ⟨p, q'⟩
  · obtain ⟨r, h, _⟩ := q; rw [p'] at h; cases h
  · obtain ⟨r, h, _⟩ := p'; rw [q] at h; cases h
  · exact Or.inr ⟨p, q'⟩

/-- C02: `<` is transitive. -/
theorem C02_trans (a b c : Time) (hab : a.SameKind b) (hbc : b.SameKind c)
    (h1 : a.lt b = .ok true) (h2 : b.lt c = .ok true) : YesOrOverflow (a.lt c) := by
  rcases lt_total (sameKind_trans hab hbc) with ⟨v, hv⟩ | hv
  · left
    rw [hv]
    congr 1
    rcases hab with ⟨⟨ra, ha, pa⟩, ⟨rb, hb, pb⟩⟩ | ⟨ha, hb⟩ <;> rcases hbc with ⟨⟨rb', hb', pb'⟩, ⟨rc, hc, pc⟩⟩ | ⟨hb', hc⟩
    · have x := ((rated_spec ha hb pa pb).1 _ h1).1 rfl
      have y := ((rated_spec hb hc pb pc).1 _ h2).1 rfl
      refine ((rated_spec ha hc pa pc).1 _ hv).2 ?_
      rcases x with x | ⟨x, x'⟩ <;> rcases y with y | ⟨y, y'⟩
      · left; omega
      · left; omega
      · left; omega
      · right; exact ⟨by omega, lt_trans x' y'⟩
    · rw [hb] at hb'; cases hb'
    · rw [hb] at hb'; cases hb'
    · rw [(unrated_spec ha hb).1] at h1
      rw [(unrated_spec hb hc).1] at h2
      rw [(unrated_spec ha hc).1] at hv
      injection h1 with h1
      injection h2 with h2
      injection hv with hv
      rw [← hv]
      simp only [decide_eq_true_eq] at *
      omega
  · exact Or.inr hv

example : YesOrOverflow ((⟨61, 11, some ⟨25, 1⟩⟩ : Time).lt ⟨62, 0, some ⟨24, 1⟩⟩) :=
  C02_trans _ ⟨61, 500, some ⟨1000, 1⟩⟩ _ (.inl ⟨⟨_, rfl, by decide⟩, ⟨_, rfl, by decide⟩⟩) (.inl ⟨⟨_, rfl, by decide⟩, ⟨_, rfl, by decide⟩⟩) (by decide +kernel) (by decide +kernel)

/-- C02: `==` is transitive. -/
theorem C02_eq_trans (a b c : Time) (hab : a.SameKind b) (hbc : b.SameKind c)
    (h1 : a.eq b = .ok true) (h2 : b.eq c = .ok true) : YesOrOverflow (a.eq c) := by
  rcases eq_total (sameKind_trans hab hbc) with ⟨v, hv⟩ | hv
  · left
    rw [hv]
    congr 1
    rcases hab with ⟨⟨ra, ha, pa⟩, ⟨rb, hb, pb⟩⟩ | ⟨ha, hb⟩ <;> rcases hbc with ⟨⟨rb', hb', pb'⟩, ⟨rc, hc, pc⟩⟩ | ⟨hb', hc⟩
    · have x := ((rated_spec ha hb pa pb).2 _ h1).1 rfl
      have y := ((rated_spec hb hc pb pc).2 _ h2).1 rfl
      exact ((rated_spec ha hc pa pc).2 _ hv).2 ⟨x.1.trans y.1, x.2.trans y.2⟩
    · rw [hb] at hb'; cases hb'
    · rw [hb] at hb'; cases hb'
    · rw [(unrated_spec ha hb).2] at h1
      rw [(unrated_spec hb hc).2] at h2
      rw [(unrated_spec ha hc).2] at hv
      injection h1 with h1
      injection h2 with h2
      injection hv with hv
      rw [← hv]
      simp only [decide_eq_true_eq] at *
      omega
  · exact Or.inr hv

/-- Twelve frames of 25 and 24 frames of 50 count as different, but two equal times are. -/
example : (⟨61, 12, some ⟨25, 1⟩⟩ : Time).SameKind ⟨61, 12, some ⟨25, 1⟩⟩ ∧ (⟨61, 12, some ⟨25, 1⟩⟩ : Time).eq ⟨61, 12, some ⟨25, 1⟩⟩ = .ok true :=
  ⟨.inl ⟨⟨_, rfl, by decide⟩, ⟨_, rfl, by decide⟩⟩, by decide +kernel⟩

/-- C02: incomparability is transitive too (strict *weak* order, what `std::stable_sort` needs). -/
theorem C02_lt_of_lt_of_eq (a b c : Time) (hab : a.SameKind b) (hbc : b.SameKind c)
    (h1 : a.lt b = .ok true) (h2 : b.eq c = .ok true) : YesOrOverflow (a.lt c) := by
  rcases lt_total (sameKind_trans hab hbc) with ⟨v, hv⟩ | hv
  · left
    rw [hv]
    congr 1
    rcases hab with ⟨⟨ra, ha, pa⟩, ⟨rb, hb, pb⟩⟩ | ⟨ha, hb⟩ <;> rcases hbc with ⟨⟨rb', hb', pb'⟩, ⟨rc, hc, pc⟩⟩ | ⟨hb', hc⟩
    · have x := ((rated_spec ha hb pa pb).1 _ h1).1 rfl
      have y := ((rated_spec hb hc pb pc).2 _ h2).1 rfl
      refine ((rated_spec ha hc pa pc).1 _ hv).2 ?_
      rcases x with x | ⟨x, x'⟩
      · left; omega
      · right; exact ⟨by omega, by rw [← y.2]; exact x'⟩
    · rw [hb] at hb'; cases hb'
    · rw [hb] at hb'; cases hb'
    · rw [(unrated_spec ha hb).1] at h1
      rw [(unrated_spec hb hc).2] at h2
      rw [(unrated_spec ha hc).1] at hv
      injection h1 with h1
      injection h2 with h2
      injection hv with hv
      rw [← hv]
      simp only [decide_eq_true_eq] at *
      omega
  · exact Or.inr hv

/-- C02: with frame numbers and rates of ordinary size the comparisons are defined: it is enough that
`|frames| · |numerator| · |denominator|` stays below 2^31 for the rates involved. -/
theorem C02_defined (a b : Time) (ra rb : FRate) (ha : a.rate = some ra) (hb : b.rate = some rb)
    (pa : 0 < ra.den) (pb : 0 < rb.den)
    (ba : |a.frames| * |ra.num| * rb.den ≤ 2147483647) (bb : |b.frames| * |rb.num| * ra.den ≤ 2147483647) :
    (∃ v, a.lt b = .ok v) ∧ (∃ v, a.gt b = .ok v) ∧ (∃ v, a.eq b = .ok v) := by
  have sc : ∀ (f : Int) (x y : FRate), 0 < y.den → |f| * |x.num| * y.den ≤ 2147483647 → ∃ v, Time.scaled f x y = .ok v := by
    intro f x y hy hb
    have h1 : |f * x.num| ≤ 2147483647 := by
      rw [abs_mul]
      have : 0 ≤ |f| * |x.num| := by positivity
      nlinarith
    have h2 : |f * x.num * y.den| ≤ 2147483647 := by
      rw [abs_mul, abs_mul, abs_of_pos hy]; exact hb
    rw [abs_le] at h1 h2
    refine ⟨f * x.num * y.den, ?_⟩
    unfold Time.scaled
    rw [ck_ok (by unfold InInt; omega)]
    simp only [ok_bind]
    rw [ck_ok (by unfold InInt; omega)]
  obtain ⟨v, hv⟩ := sc a.frames ra rb pb ba
  obtain ⟨w, hw⟩ := sc b.frames rb ra pa bb
  by_cases hs : a.secs = b.secs <;> simp [Time.lt, Time.gt, Time.eq, ha, hb, hs, hv, hw]

/-- Two ordinary times that meet the hypotheses of the order laws. -/
example : (⟨61, 12, some ⟨25, 1⟩⟩ : Time).SameKind ⟨61, 500, some ⟨1000, 1⟩⟩ :=
  Or.inl ⟨⟨_, rfl, by decide⟩, ⟨_, rfl, by decide⟩⟩

example : (⟨61, 12, some ⟨25, 1⟩⟩ : Time).lt ⟨61, 13, some ⟨25, 1⟩⟩ = .ok true ∧
    (⟨61, 13, some ⟨25, 1⟩⟩ : Time).lt ⟨61, 1, some ⟨1000, 1⟩⟩ = .ok true := by decide

example : |(⟨61, 12, some ⟨25, 1⟩⟩ : Time).frames| * |(25 : Int)| * 1 ≤ 2147483647 := by decide

/-- The overflow outcome is real: a frame number of 90 million at 25 fps against itself. -/
theorem C02_overflow_witness :
    (⟨0, 90000000, some ⟨25, 1⟩⟩ : Time).lt ⟨0, 90000000, some ⟨25, 1⟩⟩ = .error (.ub .intOverflow) := by decide

/-! ### C03  instants -/

/-- The instant a time with a frame rate denotes, in seconds. -/
def Time.instant (t : Time) (r : FRate) : ℚ := t.secs + (t.frames : ℚ) * r.den / r.num

/-- The frame number counts within the second. -/
def Time.Normalised (t : Time) (r : FRate) : Prop := 0 ≤ t.frames ∧ t.frames * r.den < r.num

/-- C03 (full statement): for normalised times with frame rates, `<` and `==`, when they answer, agree with
the order of the instants. -/
def C03_statement : Prop :=
  ∀ (a b : Time) (ra rb : FRate), a.rate = some ra → b.rate = some rb →
    0 < ra.num → 0 < ra.den → 0 < rb.num → 0 < rb.den → a.Normalised ra → b.Normalised rb →
    (∀ v, a.lt b = .ok v → (v = true ↔ a.instant ra < b.instant rb)) ∧
    (∀ v, a.eq b = .ok v → (v = true ↔ a.instant ra = b.instant rb))

/-- C03 is false: one frame at 25 fps (0.040 s) is earlier than one frame at 24 fps (0.0417 s), but the
library says it is later. -/
theorem C03_false : ¬ C03_statement := by
  intro h
  have := (h ⟨0, 1, some ⟨25, 1⟩⟩ ⟨0, 1, some ⟨24, 1⟩⟩ ⟨25, 1⟩ ⟨24, 1⟩ rfl rfl (by decide) (by decide) (by decide)
    (by decide) ⟨by decide, by decide⟩ ⟨by decide, by decide⟩).1 false (by decide)
  revert this
  unfold Time.instant
  norm_num

/-- C03 for two times at one common rate: `<` and `==` agree with the order of the instants.  (What is
missing: different rates, where `C03_false` shows it does not hold.) -/
theorem C03_same_rate_partial (a b : Time) (r : FRate) (ha : a.rate = some r) (hb : b.rate = some r)
    (hn : 0 < r.num) (hd : 0 < r.den) (na : a.Normalised r) (nb : b.Normalised r) :
    (∀ v, a.lt b = .ok v → (v = true ↔ a.instant r < b.instant r)) ∧
    (∀ v, a.eq b = .ok v → (v = true ↔ a.instant r = b.instant r)) := by
  have hnq : (0 : ℚ) < r.num := by exact_mod_cast hn
  have hdq : (0 : ℚ) < r.den := by exact_mod_cast hd
  have fr : ∀ t : Time, t.Normalised r → 0 ≤ (t.frames : ℚ) * r.den / r.num ∧ (t.frames : ℚ) * r.den / r.num < 1 := by
    intro t ⟨h1, h2⟩
    have h1 : (0 : ℚ) ≤ t.frames := by exact_mod_cast h1
    have h2 : (t.frames : ℚ) * r.den < r.num := by exact_mod_cast h2
    exact ⟨by positivity, by rw [div_lt_one hnq]; exact h2⟩
  have ⟨a0, a1⟩ := fr a na
  have ⟨b0, b1⟩ := fr b nb
  have keyle : key a.frames r < key b.frames r ↔ (a.frames : ℚ) * r.den / r.num < (b.frames : ℚ) * r.den / r.num := by
    unfold key
    rw [div_lt_div_iff_of_pos_right hdq, div_lt_div_iff_of_pos_right hnq, mul_lt_mul_iff_left₀ hnq, mul_lt_mul_iff_left₀ hdq]
  have keyeq : key a.frames r = key b.frames r ↔ (a.frames : ℚ) * r.den / r.num = (b.frames : ℚ) * r.den / r.num := by
    unfold key
    rw [div_left_inj' hdq.ne', div_left_inj' hnq.ne', mul_left_inj' hnq.ne', mul_left_inj' hdq.ne']
  have ⟨s1, s2⟩ := rated_spec ha hb hd hd
  constructor
  · intro v hv
    rw [s1 v hv, keyle]
    unfold Time.instant
    constructor
    · rintro (h | ⟨h, h'⟩)
      · have : ((a.secs + 1 : Int) : ℚ) ≤ b.secs := by exact_mod_cast h
        push_cast at this
        linarith
      · rw [h]; linarith
    · intro h
      rcases lt_trichotomy a.secs b.secs with c | c | c
      · exact Or.inl c
      · right; refine ⟨c, ?_⟩; rw [c] at h; linarith
      · exfalso
        have : ((b.secs + 1 : Int) : ℚ) ≤ a.secs := by exact_mod_cast c
        push_cast at this
        linarith
  · intro v hv
    rw [s2 v hv, keyeq]
    unfold Time.instant
    constructor
    · rintro ⟨h, h'⟩; rw [h, h']
    · intro h
      rcases lt_trichotomy a.secs b.secs with c | c | c
      · exfalso
        have : ((a.secs + 1 : Int) : ℚ) ≤ b.secs := by exact_mod_cast c
        push_cast at this
        linarith
      · refine ⟨c, ?_⟩; rw [c] at h; linarith
      · exfalso
        have : ((b.secs + 1 : Int) : ℚ) ≤ a.secs := by exact_mod_cast c
        push_cast at this
        linarith

/-- Two times of a 30000/1001 programme, as in the hypotheses of `C03_same_rate_partial`. -/
example : (⟨5, 29, some ⟨30000, 1001⟩⟩ : Time).Normalised ⟨30000, 1001⟩ ∧
    (⟨5, 28, some ⟨30000, 1001⟩⟩ : Time).lt ⟨6, 29, some ⟨30000, 1001⟩⟩ = .ok true := by
  refine ⟨⟨by decide, by decide⟩, by decide⟩

/-! ### C04  unknown rates -/

/-- C04: comparing a rated and an unrated time.  `==` and `!=` always throw; `<` and `>` throw iff the whole
seconds are equal and otherwise order by whole seconds. -/
theorem C04_mixed (a b : Time) (h : a.rate.isSome ≠ b.rate.isSome) :
    a.eq b = .error .unknownFrameRate ∧ a.ne b = .error .unknownFrameRate ∧
    a.lt b = (if a.secs = b.secs then .error .unknownFrameRate else .ok (decide (a.secs < b.secs))) ∧
    a.gt b = (if a.secs = b.secs then .error .unknownFrameRate else .ok (decide (b.secs < a.secs))) := by
  cases ha : a.rate <;> cases hb : b.rate <;> simp [ha, hb] at h <;>
    by_cases hs : a.secs = b.secs <;> simp [Time.eq, Time.ne, Time.lt, Time.gt, ha, hb, hs]

example : (⟨5, 1, none⟩ : Time).rate.isSome ≠ (⟨5, 1, some ⟨25, 1⟩⟩ : Time).rate.isSome := by decide

/-- C04: comparisons throw `UnknownFrameRateError` in no other case. -/
theorem C04_only_mixed (a b : Time) (h : a.eq b = .error .unknownFrameRate ∨ a.lt b = .error .unknownFrameRate ∨
    a.gt b = .error .unknownFrameRate) : a.rate.isSome ≠ b.rate.isSome := by
  intro he
  cases ha : a.rate <;> cases hb : b.rate <;> simp [ha, hb] at he
  · by_cases hs : a.secs = b.secs <;> simp [Time.eq, Time.lt, Time.gt, ha, hb, hs] at h
  · rename_i ra rb
    by_cases hs : a.secs = b.secs <;> simp [Time.eq, Time.lt, Time.gt, ha, hb, hs] at h
    rcases scaled_cases a.frames ra rb with h1 | h1 <;> rcases scaled_cases b.frames rb ra with h2 | h2 <;>
      rw [h1, h2] at h <;> simp at h

example : (⟨5, 1, none⟩ : Time).eq ⟨5, 1, some ⟨25, 1⟩⟩ = .error .unknownFrameRate := by decide

/-- C04: the conversions of a time without rate always throw it. -/
theorem C04_convert (t : Time) (h : t.rate = none) (r : FRate) :
    t.framesAt r = .error .unknownFrameRate ∧ t.milliseconds = .error .unknownFrameRate ∧
    t.allAsSeconds = .error .unknownFrameRate := by
  simp [Time.framesAt, Time.milliseconds, Time.allAsSeconds, h]

example : (⟨5, 1, none⟩ : Time).rate = none := rfl

/-! ### C05  from_frames -/

/-- C05: `from_frames` splits a frame count into whole seconds and frames without losing any. -/
theorem C05_fromFrames (f : Int) (rate : FRate) (r : Int) (hf : InInt f) (hn : InInt rate.num)
    (hd' : 0 < rate.den) (hr : rate.num = r * rate.den) (rpos : 0 < r) :
    ∃ t, Time.fromFrames f rate = .ok t ∧ t.secs * r + t.frames = f ∧ |t.frames| < r ∧
      0 ≤ t.frames * f ∧ 0 ≤ t.secs * f ∧ t.rate = some rate := by
  have hd := hd'.ne'
  have hq : rate.num.tdiv rate.den = r := by rw [hr]; exact Int.mul_tdiv_cancel r hd
  have hm : rate.num.tmod rate.den = 0 := by rw [hr]; exact Int.mul_tmod_left r rate.den
  have hri : InInt r := by rw [← hq]; exact inInt_tdiv hn (Or.inl (by omega))
  have e := Int.mul_tdiv_add_tmod f r
  have habs : |f.tmod r| < r := by
    rcases le_or_gt 0 f with h | h
    · rw [Int.tmod_eq_emod_of_nonneg h]
      have := Int.emod_nonneg f rpos.ne'
      have := Int.emod_lt_of_pos f rpos
      rw [abs_of_nonneg] <;> omega
    · have h' : f.tmod r = -((-f).tmod r) := by rw [Int.neg_tmod]; ring
      rw [h', abs_neg, Int.tmod_eq_emod_of_nonneg (by omega)]
      have := Int.emod_nonneg (-f) rpos.ne'
      have := Int.emod_lt_of_pos (-f) rpos
      rw [abs_of_nonneg] <;> omega
  have s1 : 0 ≤ f.tmod r * f := by
    rcases le_or_gt 0 f with h | h
    · have := Int.tmod_nonneg r h; positivity
    · have := Int.tmod_nonneg r (show 0 ≤ -f by omega)
      rw [Int.neg_tmod] at this
      nlinarith
  have s2 : 0 ≤ f.tdiv r * f := by
    rcases le_or_gt 0 f with h | h
    · have := Int.tdiv_nonneg h rpos.le; positivity
    · have := Int.tdiv_nonneg (show 0 ≤ -f by omega) rpos.le
      rw [Int.neg_tdiv] at this
      nlinarith
  have hfr : InInt (f.tdiv r) := inInt_tdiv hf (Or.inl (by omega))
  refine ⟨⟨f.tdiv r, f.tmod r, some rate⟩, ?_, ?_, habs, s1, s2, rfl⟩
  · unfold Time.fromFrames FRate.integer FRate.integerFraction
    rw [cmod_ok hd (by rw [hq]; exact hri), cdiv_ok hd (by rw [hq]; exact hri), hq, hm]
    simp [subAssert, hd, cdiv_ok rpos.ne' hfr, cmod_ok rpos.ne' hfr]
  · show f.tdiv r * r + f.tmod r = f
    linarith [mul_comm r (f.tdiv r)]

example : ∃ t, Time.fromFrames (-51) ⟨50, 2⟩ = .ok t ∧ t.secs * 25 + t.frames = -51 ∧ |t.frames| < 25 ∧
    0 ≤ t.frames * (-51) ∧ 0 ≤ t.secs * (-51) ∧ t.rate = some ⟨50, 2⟩ :=
  C05_fromFrames (-51) ⟨50, 2⟩ 25 (by decide) (by decide) (by decide) (by decide) (by decide)

/-- C05: a zero denominator or a fractional rate is refused with `ProgrammingError`. -/
theorem C05_rejects (f : Int) (rate : FRate) (hn : InInt rate.num) (h : rate.den = 0 ∨ ¬ rate.den ∣ rate.num)
    : Time.fromFrames f rate = .error .programming := by
  rcases h with h | h
  · simp [Time.fromFrames, h, subAssert]
  · by_cases hd : rate.den = 0
    · simp [Time.fromFrames, hd, subAssert]
    · have hm : rate.num.tmod rate.den ≠ 0 := fun e => h (Int.dvd_of_tmod_eq_zero e)
      have hq : InInt (rate.num.tdiv rate.den) := by
        apply inInt_tdiv hn
        left
        intro e
        rw [e] at h
        exact h ⟨-rate.num, by ring⟩
      simp [Time.fromFrames, FRate.integer, subAssert, hd, cmod_ok hd hq, hm]

example : ¬ (1001 : Int) ∣ 30000 := by decide

end LibSub
