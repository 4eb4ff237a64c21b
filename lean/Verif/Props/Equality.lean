/-
C103: when subtitles compare equal (src/subtitle.cc:66-83).
-/
import Verif.Props.Collect
import Verif.Props.Position

namespace LibSub

/-! ### Specification -/

/-- The times of a subtitle. -/
def Subtitle.times (s : Subtitle) : List Time := s.from_ :: s.to_ :: (s.fadeUp.toList ++ s.fadeDown.toList)

/-- All times are at rate `r` (`none`: all are without rate), which is a proper one. -/
def Subtitle.AtRate (s : Subtitle) (r : Option FRate) : Prop := (∀ t ∈ s.times, t.rate = r) ∧ ∀ q, r = some q → 0 < q.num ∧ 0 < q.den

/-- Frame counts are small enough for comparison in `int`. -/
def Time.Handy (t : Time) : Prop := ∀ r, t.rate = some r → InInt (t.frames * r.num) ∧ InInt (t.frames * r.num * r.den)

/-- A position a line can be found at. -/
def VPos.Given (v : VPos) : Prop := v.ref ≠ none ∧ (v.prop ≠ none ∨ v.line ≠ none)

/-- The vertical positions agree: same reference, and same proportion, or failing that same line, out of the same number of lines if both tell it. -/
def VPos.Agree (a b : VPos) : Prop :=
  a.ref = b.ref ∧ a.ref ≠ none ∧
    ((a.prop ≠ none ∧ b.prop ≠ none ∧ a.prop = b.prop) ∨
      ((a.prop = none ∨ b.prop = none) ∧ a.line ≠ none ∧ a.line = b.line ∧ (a.lines = none ∨ b.lines = none ∨ a.lines = b.lines)))

/-- The horizontal positions have the same reference and are at most `d` apart. -/
def HPos.Near (d : ℚ) (a b : HPos) : Prop := a.ref = b.ref ∧ |a.prop - b.prop| ≤ d

/-- The lines have the same blocks at places that agree, horizontally up to `d`. -/
def Line.Alike (d : ℚ) (a b : Line) : Prop := a.hpos.Near d b.hpos ∧ a.vpos.Agree b.vpos ∧ a.blocks = b.blocks

/-- The subtitles are shown at the same times and have lines that are alike. -/
def Subtitle.Alike (d : ℚ) (a b : Subtitle) : Prop :=
  a.from_ = b.from_ ∧ a.to_ = b.to_ ∧ a.fadeUp = b.fadeUp ∧ a.fadeDown = b.fadeDown ∧ List.Forall₂ (Line.Alike d) a.lines b.lines

/-! ### Proofs -/

private theorem colour_eq (a b : Colour) : a.eq b = true ↔ a = b := by
  obtain ⟨r, g, x⟩ := a
  obtain ⟨r', g', x'⟩ := b
  simp [Colour.eq, and_assoc]

private theorem fontSize_eq (a b : FontSize) : a.eq b = true ↔ a = b := by
  obtain ⟨r, g⟩ := a
  obtain ⟨r', g'⟩ := b
  simp [FontSize.eq]

private theorem optColour_eq (a b : Option Colour) : optColourEq a b = true ↔ a = b := by
  cases a <;> cases b <;> simp [optColourEq, colour_eq]

private theorem listEq_iff {α : Type} (eq : α → α → Bool) (P : α → α → Prop) (h : ∀ a b, eq a b = true ↔ P a b) (as bs : List α) : listEq eq as bs = true ↔ List.Forall₂ P as bs := by
  induction as generalizing bs with
  | nil => cases bs <;> simp [listEq]
  | cons a as ih => cases bs <;> simp [listEq, h, ih]

private theorem vpos_eq (a b : VPos) : a.eq b = true ↔ a.Agree b := by
  obtain ⟨ap, al, an, ar⟩ := a
  obtain ⟨bp, bl, bn, br⟩ := b
  cases ap <;> cases al <;> cases an <;> cases ar <;> cases bp <;> cases bl <;> cases bn <;> cases br <;>
    simp [VPos.eq, VPos.Agree] <;> grind

/-- C103: blocks are equal if and only if they have the same text, font, size, effect, colours and style. -/
theorem C103_block (a b : Block) : a.eq b = true ↔ a = b := by
  obtain ⟨t, f, s, e, ec, c, x, i, u⟩ := a
  obtain ⟨t', f', s', e', ec', c', x', i', u'⟩ := b
  simp [Block.eq, fontSize_eq, optColour_eq, colour_eq, and_assoc]

example : ({ text := b!"a", italic := true } : Block).eq { text := b!"a", italic := true } = true ∧ ({ text := b!"a", italic := true } : Block).eq { text := b!"a" } = false := by decide

private theorem blocks_eq (a b : List Block) : listEq Block.eq a b = true ↔ a = b := by
  rw [listEq_iff Block.eq (· = ·) C103_block, List.forall₂_eq_eq_eq]

private theorem line_iff (a b : Line) : a.eq b = true ↔ a.hpos.eq b.hpos = true ∧ a.vpos.Agree b.vpos ∧ a.blocks = b.blocks := by
  unfold Line.eq
  rw [Bool.and_eq_true, Bool.and_eq_true, vpos_eq, blocks_eq, and_assoc]

private theorem line_symm (a b : Line) : a.eq b = b.eq a := by
  rw [Bool.eq_iff_iff, line_iff, line_iff, C19_symm a.hpos, ← vpos_eq, ← vpos_eq, C17_symm a.vpos, eq_comm (a := a.blocks)]

private theorem lines_symm (a b : List Line) : listEq Line.eq a b = listEq Line.eq b a := by
  induction a generalizing b with
  | nil => cases b <;> rfl
  | cons x a ih => cases b with
    | nil => rfl
    | cons y b => rw [listEq, listEq, line_symm, ih]

private theorem ck_cases (x : Int) : ck x = .ok x ∨ ck x = .error (.ub .intOverflow) := by
  unfold ck
  split <;> simp

private theorem scaled_cases (f : Int) (a b : FRate) : Time.scaled f a b = .ok (f * a.num * b.den) ∨ Time.scaled f a b = .error (.ub .intOverflow) := by
  unfold Time.scaled
  rcases ck_cases (f * a.num) with h | h <;> rw [h]
  · exact ck_cases _
  · exact .inr rfl

private theorem time_symm (a b : Time) : a.eq b = b.eq a := by
  unfold Time.eq
  cases ha : a.rate <;> cases hb : b.rate <;> simp only
  · congr 2
    exact propext ⟨fun h => ⟨h.1.symm, h.2.symm⟩, fun h => ⟨h.1.symm, h.2.symm⟩⟩
  · rename_i ra rb
    by_cases hs : a.secs = b.secs
    · rw [if_neg (by simpa using hs), if_neg (by simpa using hs.symm)]
      rcases scaled_cases a.frames ra rb with h1 | h1 <;> rcases scaled_cases b.frames rb ra with h2 | h2 <;> rw [h1, h2]
      · show Except.ok _ = Except.ok _
        congr 2
        exact propext eq_comm
      · rfl
      · rfl
    · rw [if_pos hs, if_pos (Ne.symm hs)]

private theorem opt_symm (a b : Option Time) : optTimeEq a b = optTimeEq b a := by
  cases a <;> cases b <;> try rfl
  exact time_symm _ _

/-- C103: comparison is symmetric, also in whether and why it fails. -/
theorem C103_symm (a b : Subtitle) : a.eq b = b.eq a := by
  unfold Subtitle.eq
  rw [time_symm a.from_, time_symm a.to_, opt_symm a.fadeUp, opt_symm a.fadeDown, lines_symm]

/-- One subtitle in two versions: 1/4096 of the screen apart, with and without the number of lines. -/
private def one : Subtitle :=
  { from_ := ⟨1, 500, some ⟨1000, 1⟩⟩, to_ := ⟨2, 0, some ⟨1000, 1⟩⟩, lines := [{ hpos := ⟨.left, 1 / 4⟩, vpos := { line := some 3, lines := some 23, ref := some .topOfScreen }, blocks := [{ text := b!"a" }] }] }

private def other : Subtitle :=
  { from_ := ⟨1, 500, some ⟨1000, 1⟩⟩, to_ := ⟨2, 0, some ⟨1000, 1⟩⟩, lines := [{ hpos := ⟨.left, 1 / 4 + 1 / 4096⟩, vpos := { line := some 3, ref := some .topOfScreen }, blocks := [{ text := b!"a" }] }] }

example : (one.eq other).toOption = some true ∧ (other.eq one).toOption = some true ∧ (one.eq { other with to_ := ⟨3, 0, some ⟨1000, 1⟩⟩ }).toOption = some false ∧
    one.eq { other with to_ := ⟨3, 0, none⟩ } = .error .unknownFrameRate := by decide +kernel

private theorem one_rate : one.AtRate (some ⟨1000, 1⟩) ∧ other.AtRate (some ⟨1000, 1⟩) := by
  refine ⟨⟨?_, ?_⟩, ⟨?_, ?_⟩⟩ <;> simp [Subtitle.times, one, other]

private theorem one_handy : ∀ t ∈ one.times, t.Handy := by
  intro t ht r hr
  simp only [Subtitle.times, one, Option.toList, List.append_nil, List.mem_cons, List.not_mem_nil, or_false] at ht
  rcases ht with rfl | rfl <;> (cases hr; decide)

private theorem andM_true {x y : R Bool} : andM x y = .ok true ↔ x = .ok true ∧ y = .ok true := by
  unfold andM
  cases x with
  | error e => simp
  | ok v => cases v <;> simp

private theorem subtitle_true (a b : Subtitle) : a.eq b = .ok true ↔
    a.from_.eq b.from_ = .ok true ∧ a.to_.eq b.to_ = .ok true ∧ optTimeEq a.fadeUp b.fadeUp = .ok true ∧ optTimeEq a.fadeDown b.fadeDown = .ok true ∧ listEq Line.eq a.lines b.lines = true := by
  unfold Subtitle.eq
  rw [andM_true, andM_true, andM_true, andM_true]
  simp

private theorem time_true {a b : Time} (h : a.rate = b.rate) (hr : ∀ q, a.rate = some q → 0 < q.num ∧ 0 < q.den) (e : a.eq b = .ok true) : a = b := by
  obtain ⟨as, af, ar⟩ := a
  obtain ⟨bs, bf, br⟩ := b
  dsimp only at h hr
  subst h
  unfold Time.eq at e
  cases ar with
  | none => simpa using e
  | some r =>
    simp only at e
    split at e
    · cases e
    · rename_i hs
      have hs : as = bs := by simpa using hs
      obtain ⟨h1, h2⟩ := hr r rfl
      rcases scaled_cases af r r with k1 | k1 <;> rcases scaled_cases bf r r with k2 | k2 <;> rw [k1, k2] at e <;> try cases e
      have e : af * r.num * r.den = bf * r.num * r.den := by simpa using e
      have : af = bf := by
        have := Int.eq_of_mul_eq_mul_right (by omega) e
        exact Int.eq_of_mul_eq_mul_right (by omega) this
      rw [hs, this]

private theorem time_self (t : Time) : t.eq t = .ok true ↔ t.Handy := by
  unfold Time.eq Time.Handy
  cases t.rate with
  | none => simp
  | some r =>
    simp only [ne_eq, not_true_eq_false, if_false, Option.some.injEq, forall_eq']
    unfold Time.scaled ck
    by_cases h1 : InInt (t.frames * r.num)
    · rw [if_pos h1]
      by_cases h2 : InInt (t.frames * r.num * r.den)
      · simp [h1, h2]
      · simp [h2]
    · simp [h1]

private theorem opt_true {a b : Option Time} (h : ∀ x y, a = some x → b = some y → x.rate = y.rate ∧ ∀ q, x.rate = some q → 0 < q.num ∧ 0 < q.den) (e : optTimeEq a b = .ok true) : a = b := by
  cases a with
  | none => cases b with
    | none => rfl
    | some y => cases e
  | some x => cases b with
    | none => cases e
    | some y =>
      obtain ⟨h1, h2⟩ := h x y rfl rfl
      rw [time_true h1 h2 e]

private theorem opt_self (a : Option Time) : optTimeEq a a = .ok true ↔ ∀ t ∈ a.toList, t.Handy := by
  cases a with
  | none => simp [optTimeEq]
  | some t => simp [optTimeEq, time_self]

/-- C103: subtitles whose times are at one rate and which compare equal have the same times, the same number of lines, and in each line the same blocks at places that agree
(horizontally up to one 1998th of the screen). -/
theorem C103_sound (a b : Subtitle) (r : Option FRate) (ha : a.AtRate r) (hb : b.AtRate r) (h : a.eq b = .ok true) : a.Alike (1 / 1998 + 1 / 2 ^ 30) b := by
  obtain ⟨h1, h2, h3, h4, h5⟩ := (subtitle_true a b).1 h
  have rt : ∀ t ∈ a.times, ∀ u ∈ b.times, t.rate = u.rate ∧ ∀ q, t.rate = some q → 0 < q.num ∧ 0 < q.den := by
    intro t ht u hu
    rw [ha.1 t ht, hb.1 u hu]
    exact ⟨rfl, ha.2⟩
  have m1 : ∀ {s : Subtitle}, s.from_ ∈ s.times := by simp [Subtitle.times]
  have m2 : ∀ {s : Subtitle}, s.to_ ∈ s.times := by simp [Subtitle.times]
  have m3 : ∀ {s : Subtitle} {x}, s.fadeUp = some x → x ∈ s.times := by intro s x h; simp [Subtitle.times, h]
  have m4 : ∀ {s : Subtitle} {x}, s.fadeDown = some x → x ∈ s.times := by intro s x h; simp [Subtitle.times, h]
  refine ⟨time_true (rt _ m1 _ m1).1 (rt _ m1 _ m1).2 h1, time_true (rt _ m2 _ m2).1 (rt _ m2 _ m2).2 h2, opt_true (fun x y hx hy => rt _ (m3 hx) _ (m3 hy)) h3,
    opt_true (fun x y hx hy => rt _ (m4 hx) _ (m4 hy)) h4, ?_⟩
  rw [listEq_iff Line.eq _ line_iff] at h5
  refine h5.imp fun l m hl => ⟨⟨C19_ref _ _ hl.1, ?_⟩, hl.2⟩
  by_contra hc
  have := (C19_tolerance l.hpos m.hpos (C19_ref _ _ hl.1)).2 (by linarith)
  rw [hl.1] at this
  cases this

example : one.AtRate (some ⟨1000, 1⟩) ∧ other.AtRate (some ⟨1000, 1⟩) ∧ (one.eq other).toOption = some true := ⟨one_rate.1, one_rate.2, by decide +kernel⟩

/-- C103: subtitles with the same times (that can be compared with themselves) and lines that are alike compare equal. -/
theorem C103_complete (a b : Subtitle) (ht : ∀ t ∈ a.times, t.Handy) (h : a.Alike (1 / 1998 - 1 / 2 ^ 30) b) : a.eq b = .ok true := by
  obtain ⟨h1, h2, h3, h4, h5⟩ := h
  rw [subtitle_true, ← h1, ← h2, ← h3, ← h4, time_self, time_self, opt_self, opt_self, listEq_iff Line.eq _ line_iff]
  refine ⟨ht _ (by simp [Subtitle.times]), ht _ (by simp [Subtitle.times]), fun t m => ht t (by simp [Subtitle.times, Option.mem_toList.1 m]), fun t m => ht t (by simp [Subtitle.times, Option.mem_toList.1 m]), ?_⟩
  refine h5.imp fun l m hl => ⟨?_, hl.2⟩
  exact (C19_tolerance l.hpos m.hpos hl.1.1).1 hl.1.2

example : (∀ t ∈ one.times, t.Handy) ∧ one.Alike (1 / 1998 - 1 / 2 ^ 30) other := by
  refine ⟨one_handy, rfl, rfl, rfl, rfl, .cons ⟨⟨rfl, ?_⟩, ⟨rfl, by simp, .inr ⟨.inl rfl, by simp, rfl, .inr (.inl rfl)⟩⟩, rfl⟩ .nil⟩
  simp only [one, other]
  rw [abs_le]
  norm_num

/-- C103: a subtitle compares equal to itself if and only if its times can be compared and each of its lines has a vertical position. -/
theorem C103_self (a : Subtitle) : a.eq a = .ok true ↔ (∀ t ∈ a.times, t.Handy) ∧ ∀ l ∈ a.lines, l.vpos.Given := by
  have key : ∀ ls : List Line, listEq Line.eq ls ls = true ↔ ∀ l ∈ ls, l.vpos.Given := by
    intro ls
    induction ls with
    | nil => simp [listEq]
    | cons l ls ih =>
      rw [listEq, Bool.and_eq_true, ih, line_iff, ← vpos_eq, C17_refl_iff]
      simp [C19_refl, VPos.Given]
  rw [subtitle_true, time_self, time_self, opt_self, opt_self, key]
  simp only [Subtitle.times, List.mem_cons, List.mem_append, or_imp, forall_and, forall_eq]
  tauto

example : (∀ t ∈ one.times, t.Handy) ∧ ∀ l ∈ one.lines, l.vpos.Given := ⟨one_handy, by simp [one, VPos.Given]⟩

/-- C103: a comparison that reaches times of which one has a rate and the other none raises UnknownFrameRate. -/
theorem C103_mixed (a b : Subtitle) (h : (a.from_.rate = none ∧ b.from_.rate ≠ none) ∨ (a.from_.rate ≠ none ∧ b.from_.rate = none)) : a.eq b = .error .unknownFrameRate := by
  have : a.from_.eq b.from_ = .error .unknownFrameRate := by
    unfold Time.eq
    cases ha : a.from_.rate <;> cases hb : b.from_.rate <;> rw [ha, hb] at h <;> simp at h ⊢
  unfold Subtitle.eq andM
  rw [this]

example : ({ from_ := ⟨0, 0, none⟩ } : Subtitle).eq { from_ := ⟨0, 0, some ⟨25, 1⟩⟩ } = .error .unknownFrameRate := by decide +kernel

/-- C103: comparison fails only with UnknownFrameRate or (undefined behaviour) overflow of frame counts. -/
theorem C103_errors (a b : Subtitle) (e : Err) (h : a.eq b = .error e) : e = .unknownFrameRate ∨ e = .ub .intOverflow := by
  have ht : ∀ x y : Time, ∀ e, x.eq y = .error e → e = .unknownFrameRate ∨ e = .ub .intOverflow := by
    intro x y e h
    unfold Time.eq at h
    split at h
    · cases h
    · rename_i ra rb _ _
      split at h
      · cases h
      · rcases scaled_cases x.frames ra rb with k1 | k1 <;> rcases scaled_cases y.frames rb ra with k2 | k2 <;> rw [k1, k2] at h <;> cases h <;> simp
    · cases h; simp
  have ho : ∀ x y : Option Time, ∀ e, optTimeEq x y = .error e → e = .unknownFrameRate ∨ e = .ub .intOverflow := by
    intro x y e h
    cases x <;> cases y <;> first | cases h | exact ht _ _ _ h
  have ha : ∀ {x y : R Bool} {e}, andM x y = .error e → x = .error e ∨ y = .error e := by
    intro x y e h
    unfold andM at h
    cases x with
    | error e' => left; simpa using h
    | ok v => cases v <;> simp at h; right; exact h
  unfold Subtitle.eq at h
  rcases ha h with h | h
  · exact ht _ _ _ h
  rcases ha h with h | h
  · exact ht _ _ _ h
  rcases ha h with h | h
  · exact ho _ _ _ h
  rcases ha h with h | h
  · exact ho _ _ _ h
  · cases h

example : ({ from_ := ⟨0, 3000000, some ⟨1000, 1⟩⟩ } : Subtitle).eq { from_ := ⟨0, 3000000, some ⟨1000, 1⟩⟩ } = .error (.ub .intOverflow) := by decide +kernel

/-- C103 as one would state it: every subtitle is equal to itself. -/
abbrev C103_self_statement : Prop := ∀ a : Subtitle, a.eq a = .ok true

/-- C103 is false of a subtitle with a line as its constructor makes it. -/
theorem C103_self_false : ¬ C103_self_statement := by
  intro h
  have := h { lines := [{}] }
  rw [C103_self] at this
  exact (this.2 {} (by simp)).1 rfl

end LibSub
