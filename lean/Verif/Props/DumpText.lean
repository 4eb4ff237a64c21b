/-
Property C105: a dump can be read back.
-/
import Verif.Model.Dump
import Verif.Lemmas.Text
import Verif.Lemmas.Time
import Verif.Lemmas.Err
import Mathlib.Data.List.Basic

namespace LibSub

/-! ### Specification -/

/-- The characters of a line of a dump with the styles in which they stand: `<i>`, `</i>`, `<u>` and `</u>` switch, anything else is a character. -/
def marked : Bool → Bool → Str → List (Byte × Bool × Bool)
  | _, u, 60 :: 105 :: 62 :: s => marked true u s
  | _, u, 60 :: 47 :: 105 :: 62 :: s => marked false u s
  | i, _, 60 :: 117 :: 62 :: s => marked i true s
  | i, _, 60 :: 47 :: 117 :: 62 :: s => marked i false s
  | i, u, c :: s => (c, i, u) :: marked i u s
  | _, _, [] => []

/-- The characters of blocks with their styles. -/
def styledChars (bs : List Block) : List (Byte × Bool × Bool) := bs.flatMap fun b => b.text.map fun c => (c, b.italic, b.underline)

/-- What a dump tells about a vertical position: a fraction of the screen as it is written, a line number, or nothing; and what it is measured from. -/
def VPos.told (showF : Rat → Str) (v : VPos) : Option (Str ⊕ Int × Int) × Option VRef :=
  (match v.prop, v.line, v.lines with
    | some p, _, _ => some (.inl (showF p))
    | none, some l, some n => some (.inr (l, n))
    | _, _, _ => none, v.ref)

/-- Two lines look the same in a dump. -/
def Line.SameShown (showF : Rat → Str) (l m : Line) : Prop := l.vpos.told showF = m.vpos.told showF ∧ styledChars l.blocks = styledChars m.blocks

/-- Two subtitles look the same in a dump: same times, lines that look the same. -/
def Subtitle.SameShown (showF : Rat → Str) (s t : Subtitle) : Prop := s.from_ = t.from_ ∧ s.to_ = t.to_ ∧ List.Forall₂ (Line.SameShown showF) s.lines t.lines

/-- The text has no newline and no `<`. -/
def Subtitle.Clean (s : Subtitle) : Prop := ∀ l ∈ s.lines, ∀ b ∈ l.blocks, ∀ c ∈ b.text, c ≠ 10 ∧ c ≠ 60

/-- A line of metadata that cannot be taken for something else: no newline, no colon in the name, and the name does not begin like the heading of a
subtitle. -/
def CleanMeta (kv : Str × Str) : Prop :=
  (∀ c ∈ kv.1, c ≠ 10 ∧ c ≠ 58) ∧ (10 : Byte) ∉ kv.2 ∧ ∀ c s, kv.1 = b!"Subtitle " ++ c :: s → isDigit c = false

/-- Numbers are written with neither space nor tab nor newline. -/
def PlainNumbers (showF : Rat → Str) : Prop := ∀ x, ∀ c ∈ showF x, c ≠ 32 ∧ c ≠ 9 ∧ c ≠ 10

/-! ### Blocks -/

private theorem marked_cons {c : Byte} (h : c ≠ 60) (i u : Bool) (s : Str) : marked i u (c :: s) = (c, i, u) :: marked i u s := by
  rw [marked] <;> intros <;> simp_all

private theorem marked_text (i u : Bool) (t s : Str) (h : ∀ c ∈ t, c ≠ 60) : marked i u (t ++ s) = t.map (fun c => (c, i, u)) ++ marked i u s := by
  induction t with
  | nil => rfl
  | cons c t ih => rw [List.cons_append, marked_cons (h c (by simp)), ih (fun c hc => h c (by simp [hc]))]; rfl

private theorem marked_blocks (i u : Bool) (bs : List Block) (h : ∀ b ∈ bs, ∀ c ∈ b.text, c ≠ 60) : marked i u (dumpBlocks i u bs) = styledChars bs := by
  induction bs generalizing i u with
  | nil => cases i <;> cases u <;> rfl
  | cons b bs ih =>
    have e : marked b.italic b.underline (b.text ++ dumpBlocks b.italic b.underline bs) = styledChars (b :: bs) := by
      rw [marked_text _ _ _ _ (h b (by simp)), ih _ _ (fun b hb => h b (by simp [hb]))]
      rfl
    rw [← e, dumpBlocks]
    rw [List.append_assoc]
    generalize b.text ++ dumpBlocks b.italic b.underline bs = r
    generalize b.italic = bi
    generalize b.underline = bu
    cases i <;> cases u <;> cases bi <;> cases bu <;> simp [marked]

/-- C105: in a line of a dump every character stands in the styles of its block. -/
theorem C105_marked (bs : List Block) (h : ∀ b ∈ bs, ∀ c ∈ b.text, c ≠ 60) : marked false false (dumpBlocks false false bs) = styledChars bs :=
  marked_blocks false false bs h

example : marked false false b!"<i>a<u>b</i>c</u>" = [(97, true, false), (98, true, true), (99, false, true)] := by decide

/-! ### Numbers and times -/

private theorem split_at {c : Byte} {a a' r r' : Str} (h : c ∉ a) (h' : c ∉ a') (e : a ++ c :: r = a' ++ c :: r') : a = a' ∧ r = r' := by
  induction a generalizing a' with
  | nil =>
    cases a' with
    | nil => exact ⟨rfl, by simpa using e⟩
    | cons x a' => simp at e h'; exact absurd e.1 h'.1
  | cons y a ih =>
    cases a' with
    | nil => simp at e h; exact absurd e.1.symm h.1
    | cons x a' =>
      simp at e h h'
      obtain ⟨e1, e2⟩ := ih h.2 h'.2 e.2
      exact ⟨by rw [e.1, e1], e2⟩

/-- What follows is nothing, or begins with `c`. -/
private def EndAt (c : Byte) (r : Str) : Prop := r = [] ∨ ∃ t, r = c :: t

private theorem split_end {c : Byte} {a a' r r' : Str} (h : c ∉ a) (h' : c ∉ a') (hr : EndAt c r) (hr' : EndAt c r') (e : a ++ r = a' ++ r') : a = a' ∧ r = r' := by
  rcases hr with rfl | ⟨t, rfl⟩ <;> rcases hr' with rfl | ⟨t', rfl⟩
  · simpa using e
  · rw [List.append_nil] at e; subst e; simp at h
  · rw [List.append_nil] at e; subst e; simp at h'
  · obtain ⟨e1, e2⟩ := split_at h h' e
    exact ⟨e1, by rw [e2]⟩

private theorem intDec_chars (n : Int) : ∀ c ∈ intDec n, isDigit c = true ∨ c = 45 := by
  intro c hc
  unfold intDec at hc
  split at hc
  · rcases List.mem_cons.1 hc with h | h
    · exact .inr h
    · exact .inl (natDec_digits _ c h)
  · exact .inl (natDec_digits _ c hc)

private theorem pad_chars (w : Nat) (n : Int) : ∀ c ∈ setwPad w n, isDigit c = true ∨ c = 45 := by
  intro c hc
  unfold setwPad at hc
  rcases List.mem_append.1 hc with h | h
  · rw [List.eq_of_mem_replicate h]; exact .inl (by decide)
  · exact intDec_chars n c h

private theorem int_not (n : Int) {c : Byte} (h : isDigit c = false ∧ c ≠ 45) : c ∉ intDec n := by
  intro hm
  rcases intDec_chars n c hm with e | e
  · rw [h.1] at e; cases e
  · exact h.2 e

private theorem pad_not (w : Nat) (n : Int) {c : Byte} (h : isDigit c = false ∧ c ≠ 45) : c ∉ setwPad w n := by
  intro hm
  rcases pad_chars w n c hm with e | e
  · rw [h.1] at e; cases e
  · exact h.2 e

private theorem pad_inj {a b : Int} (h : setwPad 2 a = setwPad 2 b) : a = b := by
  have neg : ∀ n : Int, n < 0 → setwPad 2 n = intDec n := by
    intro n hn
    have := natDec_length_pos n.natAbs
    unfold setwPad intDec
    rw [if_pos hn]
    simp only [List.length_cons]
    rw [show 2 - ((natDec n.natAbs).length + 1) = 0 by omega]
    rfl
  have pos : ∀ n : Int, 0 ≤ n → ∀ c ∈ setwPad 2 n, isDigit c = true := by
    intro n hn c hc
    unfold setwPad intDec at hc
    rw [if_neg (by omega)] at hc
    rcases List.mem_append.1 hc with h | h
    · rw [List.eq_of_mem_replicate h]; decide
    · exact natDec_digits _ c h
  have minus : ∀ n : Int, n < 0 → (45 : Byte) ∈ intDec n := by
    intro n hn
    unfold intDec
    rw [if_pos hn]; simp
  have value : ∀ n : Int, 0 ≤ n → (decVal (setwPad 2 n) : Int) = n := by
    intro n hn
    unfold setwPad intDec
    rw [if_neg (by omega)]
    simp only []
    rw [decVal_zeros_append, decVal_natDec]
    omega
  by_cases ha : a < 0 <;> by_cases hb : b < 0
  · rw [neg a ha, neg b hb] at h; exact intDec_inj h
  · have := pos b (by omega) 45 (by rw [← h, neg a ha]; exact minus a ha)
    exact absurd this (by decide)
  · have := pos a (by omega) 45 (by rw [h, neg b hb]; exact minus b hb)
    exact absurd this (by decide)
  · rw [← value a (by omega), ← value b (by omega), h]

private theorem timeToStr_inj {s t : Time} (h : timeToStr s = timeToStr t) : s = t := by
  obtain ⟨ss, sf, sr⟩ := s
  obtain ⟨ts, tf, tr⟩ := t
  unfold timeToStr at h
  simp only [List.append_assoc] at h
  have c58 : isDigit 58 = false ∧ (58 : Byte) ≠ 45 := by decide
  have c32 : isDigit 32 = false ∧ (32 : Byte) ≠ 45 := by decide
  have c47 : isDigit 47 = false ∧ (47 : Byte) ≠ 45 := by decide
  obtain ⟨e1, h⟩ := split_at (c := 58) (pad_not _ _ c58) (pad_not _ _ c58) h
  obtain ⟨e2, h⟩ := split_at (c := 58) (pad_not _ _ c58) (pad_not _ _ c58) h
  obtain ⟨e3, h⟩ := split_at (c := 58) (pad_not _ _ c58) (pad_not _ _ c58) h
  have ee : ∀ r : Option FRate, EndAt 32 (match r with | some r => b!" @ " ++ (intDec r.num ++ (b!"/" ++ intDec r.den)) | none => []) := by
    intro r
    cases r with
    | none => exact .inl rfl
    | some r => exact .inr ⟨_, rfl⟩
  obtain ⟨e4, h⟩ := split_end (c := 32) (int_not _ c32) (int_not _ c32) (ee sr) (ee tr) h
  have hr : sr = tr := by
    cases sr <;> cases tr
    · rfl
    · cases h
    · cases h
    · simp only [List.cons_append, List.nil_append, List.cons.injEq, true_and] at h
      obtain ⟨e5, h⟩ := split_at (c := 47) (int_not _ c47) (int_not _ c47) h
      have e5 := intDec_inj e5
      have h := intDec_inj h
      congr 1
      cases ‹FRate›; cases ‹FRate›
      simp_all
  have e1 := pad_inj e1
  have e2 := pad_inj e2
  have e3 := pad_inj e3
  have e4 := intDec_inj e4
  subst hr
  have e6 : ss = ts := by
    simp only [Time.seconds, e1, e2] at e3
    omega
  rw [e4, e6]

/-! ### Lines -/

/-- Text put into lines. -/
private def ul (ls : List Str) : Str := (ls.map (· ++ [10])).flatten

private theorem ul_append (a b : List Str) : ul (a ++ b) = ul a ++ ul b := by unfold ul; simp

private theorem ul_inj {a b : List Str} (ha : ∀ l ∈ a, (10 : Byte) ∉ l) (hb : ∀ l ∈ b, (10 : Byte) ∉ l) (h : ul a = ul b) : a = b := by
  induction a generalizing b with
  | nil =>
    cases b with
    | nil => rfl
    | cons y b => simp [ul] at h
  | cons x a ih =>
    cases b with
    | nil => simp [ul] at h
    | cons y b =>
      have h' : x ++ 10 :: ul a = y ++ 10 :: ul b := by simpa [ul] using h
      obtain ⟨e1, e2⟩ := split_at (ha x (by simp)) (hb y (by simp)) h'
      rw [e1, ih (fun l hl => ha l (by simp [hl])) (fun l hl => hb l (by simp [hl])) e2]

private def headText (n : Nat) (s : Subtitle) : Str := b!"Subtitle " ++ natDec n ++ b!" at " ++ timeToStr s.from_ ++ b!" -> " ++ timeToStr s.to_

private def lineText (showF : Rat → Str) (l : Line) : Str := dumpPos showF l.vpos ++ dumpBlocks false false l.blocks

private def subText (showF : Rat → Str) (n : Nat) : List Subtitle → List Str
  | [] => []
  | s :: ss => headText n s :: (s.lines.map (lineText showF) ++ subText showF (n + 1) ss)

private theorem dumpSubs_ul (showF : Rat → Str) (n : Nat) (ss : List Subtitle) : dumpSubs showF n ss = ul (subText showF n ss) := by
  induction ss generalizing n with
  | nil => rfl
  | cons s ss ih =>
    rw [dumpSubs, ih, subText]
    have e : (s.lines.map (dumpLine showF)).flatten = ul (s.lines.map (lineText showF)) := by
      unfold ul
      rw [List.map_map]
      rfl
    rw [e, show headText n s :: (s.lines.map (lineText showF) ++ subText showF (n + 1) ss) = [headText n s] ++ s.lines.map (lineText showF) ++ subText showF (n + 1) ss by simp,
      ul_append, ul_append]
    simp [ul, headText]

/-! ### Positions -/

private def fromText : Option VRef → Str
  | some r => b!" from " ++ vrefText r
  | none => []

private theorem from_inj {a b : Option VRef} (h : fromText a = fromText b) : a = b := by
  rcases a with _ | a <;> rcases b with _ | b <;> first | rfl | cases h | (cases a <;> cases b <;> first | rfl | (revert h; decide))

private def whereText (showF : Rat → Str) (v : VPos) : Str :=
  match v.prop with
    | some p => showF p ++ b!" of screen"
    | none =>
      match v.line, v.lines with
      | some l, some n => intDec l ++ b!" lines of " ++ intDec n
      | _, _ => []

private theorem dumpPos_eq (showF : Rat → Str) (v : VPos) : dumpPos showF v = 9 :: (whereText showF v ++ fromText v.ref ++ [9]) := by
  obtain ⟨p, l, n, r⟩ := v
  unfold dumpPos whereText fromText
  cases p <;> cases l <;> cases n <;> cases r <;> simp

private theorem from_end (r : Option VRef) : EndAt 32 (fromText r) := by
  cases r with
  | none => exact .inl rfl
  | some r => exact .inr ⟨_, rfl⟩

/-- The three forms of a position. -/
private theorem where_forms (showF : Rat → Str) (v : VPos) :
    (∃ p, (v.told showF).1 = some (.inl (showF p)) ∧ whereText showF v = showF p ++ 32 :: b!"of screen") ∨
    (∃ l n, (v.told showF).1 = some (.inr (l, n)) ∧ whereText showF v = intDec l ++ 32 :: (b!"lines of " ++ intDec n)) ∨
    ((v.told showF).1 = none ∧ whereText showF v = []) := by
  unfold VPos.told whereText
  cases v.prop with
  | some p => exact .inl ⟨p, rfl, rfl⟩
  | none =>
    cases v.line with
    | none => exact .inr (.inr ⟨rfl, rfl⟩)
    | some l =>
      cases v.lines with
      | none => exact .inr (.inr ⟨rfl, rfl⟩)
      | some n => exact .inr (.inl ⟨l, n, rfl, by simp⟩)

private theorem pos_inj (showF : Rat → Str) (hf : PlainNumbers showF) (v w : VPos) (h : whereText showF v ++ fromText v.ref = whereText showF w ++ fromText w.ref) :
    v.told showF = w.told showF := by
  have key : (v.told showF).1 = (w.told showF).1 ∧ v.ref = w.ref := by
    have hs : ∀ p, (32 : Byte) ∉ showF p := fun p hm => (hf p 32 hm).1 rfl
    have hi : ∀ n : Int, (32 : Byte) ∉ intDec n := fun n => int_not n (by decide)
    rcases where_forms showF v with ⟨p, e1, e2⟩ | ⟨l, n, e1, e2⟩ | ⟨e1, e2⟩ <;> rcases where_forms showF w with ⟨q, g1, g2⟩ | ⟨k, m, g1, g2⟩ | ⟨g1, g2⟩ <;>
      rw [e2, g2] at h <;> rw [e1, g1] <;> clear e1 g1 e2 g2 <;> generalize v.ref = r1 at h ⊢ <;> generalize w.ref = r2 at h ⊢
    · rw [List.append_assoc, List.append_assoc] at h
      obtain ⟨h1, h2⟩ := split_at (hs p) (hs q) h
      exact ⟨by rw [h1], from_inj (List.append_cancel_left h2)⟩
    · rw [List.append_assoc, List.append_assoc] at h
      obtain ⟨h1, h2⟩ := split_at (hs p) (hi k) h
      simp at h2
    · rw [List.append_assoc, List.nil_append] at h
      rcases r2 with _ | r
      · simp [fromText] at h
      · obtain ⟨h1, h2⟩ := split_at (a' := []) (hs p) (by simp) h
        simp at h2
    · rw [List.append_assoc, List.append_assoc] at h
      obtain ⟨h1, h2⟩ := split_at (hi l) (hs q) h
      simp at h2
    · rw [List.append_assoc, List.append_assoc] at h
      obtain ⟨h1, h2⟩ := split_at (hi l) (hi k) h
      obtain ⟨h3, h4⟩ := split_end (hi n) (hi m) (from_end r1) (from_end r2) (by simpa using h2)
      exact ⟨by rw [intDec_inj h1, intDec_inj h3], from_inj h4⟩
    · rw [List.append_assoc, List.nil_append] at h
      rcases r2 with _ | r
      · simp [fromText] at h
      · obtain ⟨h1, h2⟩ := split_at (a' := []) (hi l) (by simp) h
        simp at h2
    · rw [List.append_assoc, List.nil_append] at h
      rcases r1 with _ | r
      · simp [fromText] at h
      · obtain ⟨h1, h2⟩ := split_at (a := []) (by simp) (hs q) h
        simp at h2
    · rw [List.append_assoc, List.nil_append] at h
      rcases r1 with _ | r
      · simp [fromText] at h
      · obtain ⟨h1, h2⟩ := split_at (a := []) (by simp) (hi k) h
        simp at h2
    · exact ⟨rfl, from_inj h⟩
  exact Prod.ext key.1 key.2

private theorem where_chars (showF : Rat → Str) (hf : PlainNumbers showF) (v : VPos) : ∀ c ∈ whereText showF v ++ fromText v.ref, c ≠ 9 ∧ c ≠ 10 := by
  have hi : ∀ n : Int, ∀ c ∈ intDec n, c ≠ 9 ∧ c ≠ 10 := by
    intro n c hc
    exact ⟨fun e => int_not n (c := 9) (by decide) (e ▸ hc), fun e => int_not n (c := 10) (by decide) (e ▸ hc)⟩
  have hr : ∀ c ∈ fromText v.ref, c ≠ 9 ∧ c ≠ 10 := by
    rcases v.ref with _ | r
    · simp [fromText]
    · cases r <;> decide
  intro c hc
  rcases List.mem_append.1 hc with hc | hc
  · rcases where_forms showF v with ⟨p, -, e⟩ | ⟨l, n, -, e⟩ | ⟨-, e⟩ <;> rw [e] at hc
    · rcases List.mem_append.1 hc with hc | hc
      · exact (hf p c hc).2
      · exact (by decide : ∀ c ∈ b!" of screen", c ≠ 9 ∧ c ≠ 10) c hc
    · rcases List.mem_append.1 hc with hc | hc
      · exact hi l c hc
      · rw [← List.cons_append] at hc
        rcases List.mem_append.1 hc with hc | hc
        · exact (by decide : ∀ c ∈ b!" lines of ", c ≠ 9 ∧ c ≠ 10) c hc
        · exact hi n c hc
    · cases hc
  · exact hr c hc

private theorem line_inj (showF : Rat → Str) (hf : PlainNumbers showF) (l m : Line) (hl : ∀ b ∈ l.blocks, ∀ c ∈ b.text, c ≠ 60) (hm : ∀ b ∈ m.blocks, ∀ c ∈ b.text, c ≠ 60)
    (h : lineText showF l = lineText showF m) : l.SameShown showF m := by
  unfold lineText at h
  rw [dumpPos_eq, dumpPos_eq] at h
  simp only [List.cons_append, List.cons.injEq, true_and] at h
  rw [List.append_assoc _ [9], List.append_assoc _ [9]] at h
  obtain ⟨h1, h2⟩ := split_at (fun hh => (where_chars showF hf _ 9 hh).1 rfl) (fun hh => (where_chars showF hf _ 9 hh).1 rfl) h
  refine ⟨pos_inj showF hf _ _ h1, ?_⟩
  rw [← C105_marked _ hl, ← C105_marked _ hm]
  exact congrArg _ h2

private theorem time_chars (t : Time) : ∀ c ∈ timeToStr t, c ≠ 62 ∧ c ≠ 10 := by
  have hi : ∀ n : Int, ∀ c ∈ intDec n, c ≠ 62 ∧ c ≠ 10 := by
    intro n c hc
    exact ⟨fun e => int_not n (c := 62) (by decide) (e ▸ hc), fun e => int_not n (c := 10) (by decide) (e ▸ hc)⟩
  have hp : ∀ n : Int, ∀ c ∈ setwPad 2 n, c ≠ 62 ∧ c ≠ 10 := by
    intro n c hc
    exact ⟨fun e => pad_not 2 n (c := 62) (by decide) (e ▸ hc), fun e => pad_not 2 n (c := 10) (by decide) (e ▸ hc)⟩
  intro c hc
  unfold timeToStr at hc
  simp only [List.mem_append] at hc
  rcases hc with ((((((hc | hc) | hc) | hc) | hc) | hc) | hc) | hc
  · exact hp _ c hc
  · revert c; decide
  · exact hp _ c hc
  · revert c; decide
  · exact hp _ c hc
  · revert c; decide
  · exact hi _ c hc
  · split at hc
    · simp only [List.mem_append] at hc
      rcases hc with ((hc | hc) | hc) | hc
      · revert c; decide
      · exact hi _ c hc
      · revert c; decide
      · exact hi _ c hc
    · cases hc

private theorem head_inj (n : Nat) (s t : Subtitle) (h : headText n s = headText n t) : s.from_ = t.from_ ∧ s.to_ = t.to_ := by
  unfold headText at h
  simp only [List.append_assoc] at h
  have h := List.append_cancel_left (List.append_cancel_left (List.append_cancel_left h))
  have h : (timeToStr s.from_ ++ b!" -") ++ 62 :: (b!" " ++ timeToStr s.to_) = (timeToStr t.from_ ++ b!" -") ++ 62 :: (b!" " ++ timeToStr t.to_) := by simpa using h
  have hn : ∀ t : Time, (62 : Byte) ∉ timeToStr t ++ b!" -" := by
    intro t hm
    rcases List.mem_append.1 hm with hm | hm
    · exact (time_chars t 62 hm).1 rfl
    · revert hm; decide
  obtain ⟨h1, h2⟩ := split_at (hn _) (hn _) h
  exact ⟨timeToStr_inj (List.append_cancel_right h1), timeToStr_inj (List.append_cancel_left h2)⟩

/-- Two lists made of a part where `P` holds and a part that does not begin with `P`. -/
private theorem parts_inj {α : Type} (P : α → Prop) {a a' b b' : List α} (ha : ∀ x ∈ a, P x) (ha' : ∀ x ∈ a', P x) (hb : ∀ x, b.head? = some x → ¬ P x)
    (hb' : ∀ x, b'.head? = some x → ¬ P x) (h : a ++ b = a' ++ b') : a = a' ∧ b = b' := by
  induction a generalizing a' with
  | nil =>
    cases a' with
    | nil => exact ⟨rfl, h⟩
    | cons y a' => exact absurd (ha' y (by simp)) (hb y (by rw [List.nil_append] at h; rw [h]; rfl))
  | cons x a ih =>
    cases a' with
    | nil => exact absurd (ha x (by simp)) (hb' x (by rw [List.nil_append] at h; rw [← h]; rfl))
    | cons y a' =>
      simp only [List.cons_append, List.cons.injEq] at h
      obtain ⟨e1, e2⟩ := ih (fun x hx => ha x (by simp [hx])) (fun x hx => ha' x (by simp [hx])) h.2
      exact ⟨by rw [h.1, e1], e2⟩

private theorem map_inj (showF : Rat → Str) (hf : PlainNumbers showF) (ls ms : List Line) (hl : ∀ l ∈ ls, ∀ b ∈ l.blocks, ∀ c ∈ b.text, c ≠ 60)
    (hm : ∀ l ∈ ms, ∀ b ∈ l.blocks, ∀ c ∈ b.text, c ≠ 60) (h : ls.map (lineText showF) = ms.map (lineText showF)) : List.Forall₂ (Line.SameShown showF) ls ms := by
  induction ls generalizing ms with
  | nil =>
    cases ms with
    | nil => exact .nil
    | cons m ms => cases h
  | cons l ls ih =>
    cases ms with
    | nil => cases h
    | cons m ms =>
      simp only [List.map_cons, List.cons.injEq] at h
      exact .cons (line_inj showF hf l m (hl l (by simp)) (hm m (by simp)) h.1) (ih ms (fun l hh => hl l (by simp [hh])) (fun l hh => hm l (by simp [hh])) h.2)

private theorem sub_head (showF : Rat → Str) (n : Nat) (ss : List Subtitle) : ∀ x, (subText showF n ss).head? = some x → ∃ c t, x = b!"Subtitle " ++ c :: t ∧ isDigit c = true := by
  intro x hx
  cases ss with
  | nil => cases hx
  | cons s ss =>
    simp only [subText, List.head?_cons, Option.some.injEq] at hx
    cases hd : natDec n with
    | nil => exact absurd hd (natDec_ne_nil n)
    | cons c r =>
      refine ⟨c, r ++ b!" at " ++ timeToStr s.from_ ++ b!" -> " ++ timeToStr s.to_, ?_, natDec_digits n c (by rw [hd]; simp)⟩
      rw [← hx, headText, hd]
      simp

private theorem subs_inj (showF : Rat → Str) (hf : PlainNumbers showF) (n : Nat) (ss ts : List Subtitle) (hs : ∀ s ∈ ss, s.Clean) (ht : ∀ s ∈ ts, s.Clean)
    (h : subText showF n ss = subText showF n ts) : List.Forall₂ (Subtitle.SameShown showF) ss ts := by
  induction ss generalizing n ts with
  | nil =>
    cases ts with
    | nil => exact .nil
    | cons t ts => cases h
  | cons s ss ih =>
    cases ts with
    | nil => cases h
    | cons t ts =>
      simp only [subText, List.cons.injEq] at h
      obtain ⟨e1, e2⟩ := head_inj n s t h.1
      have hh : ∀ ls : List Line, ∀ x ∈ ls.map (lineText showF), x.head? = some 9 := by
        intro ls x hx
        obtain ⟨l, -, rfl⟩ := List.mem_map.1 hx
        unfold lineText
        rw [dumpPos_eq]; rfl
      have hb : ∀ us : List Subtitle, ∀ x, (subText showF (n + 1) us).head? = some x → ¬ x.head? = some 9 := by
        intro us x hx
        obtain ⟨c, t, rfl, -⟩ := sub_head showF _ us x hx
        simp
      obtain ⟨h1, h2⟩ := parts_inj (fun x : Str => x.head? = some 9) (hh _) (hh _) (hb _) (hb _) h.2
      exact .cons ⟨e1, e2, map_inj showF hf _ _ (fun l hl b hb c hc => (hs s (by simp) l hl b hb c hc).2) (fun l hl b hb c hc => (ht t (by simp) l hl b hb c hc).2) h1⟩
        (ih (n + 1) ts (fun s hh => hs s (by simp [hh])) (fun s hh => ht s (by simp [hh])) h2)

private theorem subs_lines (showF : Rat → Str) (hf : PlainNumbers showF) (n : Nat) (ss : List Subtitle) (hs : ∀ s ∈ ss, s.Clean) : ∀ l ∈ subText showF n ss, (10 : Byte) ∉ l := by
  have hk : ∀ (bs : List Block), (∀ b ∈ bs, ∀ c ∈ b.text, c ≠ 10) → ∀ i u, (10 : Byte) ∉ dumpBlocks i u bs := by
    intro bs
    induction bs with
    | nil => intro _ i u; cases i <;> cases u <;> decide
    | cons b bs ih =>
      intro hb i u
      rw [dumpBlocks]
      have h1 := ih (fun b h => hb b (by simp [h])) b.italic b.underline
      have h2 : (10 : Byte) ∉ b.text := fun hm => hb b (by simp) 10 hm rfl
      generalize b.italic = bi at *
      generalize b.underline = bu at *
      cases i <;> cases u <;> cases bi <;> cases bu <;> simp [h1, h2]
  induction ss generalizing n with
  | nil => simp [subText]
  | cons s ss ih =>
    intro l hl
    rw [subText, List.mem_cons, List.mem_append, List.mem_map] at hl
    rcases hl with rfl | ⟨x, hx, rfl⟩ | hl
    · have h1 : (10 : Byte) ∉ natDec n := fun hm => absurd (natDec_digits n 10 hm) (by decide)
      have h2 : ∀ t : Time, (10 : Byte) ∉ timeToStr t := fun t hm => (time_chars t 10 hm).2 rfl
      simp [headText, h1, h2]
    · unfold lineText
      rw [dumpPos_eq, List.mem_append, List.mem_cons, List.mem_append]
      rintro ((h | h | h) | h)
      · revert h; decide
      · exact (where_chars showF hf _ 10 h).2 rfl
      · revert h; decide
      · exact hk _ (fun b hb c hc => (hs s (by simp) x hx b hb c hc).1) _ _ h
    · exact ih (n + 1) (fun s h => hs s (by simp [h])) l hl

private def metaText (kv : Str × Str) : Str := kv.1 ++ b!": " ++ kv.2

private theorem meta_not_head (kv : Str × Str) (h : CleanMeta kv) : ¬ ∃ c t, metaText kv = b!"Subtitle " ++ c :: t ∧ isDigit c = true := by
  rintro ⟨c, t, e, hc⟩
  have e : kv.1 ++ (58 :: 32 :: kv.2) = (b!"Subtitle " ++ [c]) ++ t := by simpa [metaText] using e
  rcases List.append_eq_append_iff.1 e with ⟨a, e1, e2⟩ | ⟨a, e1, e2⟩
  · cases a with
    | nil =>
      rw [List.append_nil] at e1
      rw [h.2.2 c [] e1.symm] at hc
      cases hc
    | cons x a =>
      rw [List.cons_append, List.cons.injEq] at e2
      have hm : (58 : Byte) ∈ b!"Subtitle " ++ [c] := by rw [e1, ← e2.1]; simp
      rcases List.mem_append.1 hm with hm | hm
      · revert hm; decide
      · rw [List.mem_singleton] at hm
        rw [← hm] at hc
        revert hc; decide
  · rw [h.2.2 c a (by rw [e1]; simp)] at hc
    cases hc

private theorem meta_inj (ms ns : List (Str × Str)) (hm : ∀ kv ∈ ms, CleanMeta kv) (hn : ∀ kv ∈ ns, CleanMeta kv) (h : ms.map metaText = ns.map metaText) : ms = ns := by
  induction ms generalizing ns with
  | nil =>
    cases ns with
    | nil => rfl
    | cons n ns => cases h
  | cons m ms ih =>
    cases ns with
    | nil => cases h
    | cons n ns =>
      simp only [List.map_cons, List.cons.injEq] at h
      rw [ih ns (fun x hx => hm x (by simp [hx])) (fun x hx => hn x (by simp [hx])) h.2]
      have e : m.1 ++ 58 :: (b!" " ++ m.2) = n.1 ++ 58 :: (b!" " ++ n.2) := by simpa [metaText] using h.1
      obtain ⟨e1, e2⟩ := split_at (fun hh => ((hm m (by simp)).1 58 hh).2 rfl) (fun hh => ((hn n (by simp)).1 58 hh).2 rfl) e
      rw [Prod.ext e1 (List.append_cancel_left e2)]

/-- C105: two dumps that are the same are of the same metadata and of subtitles with the same times, whose lines are the same in position (as far as it is
written) and in every character and its styles; provided that there is no newline or `<` in the text, and nothing in the metadata that looks like the heading of a
subtitle. -/
theorem C105_dump (showF : Rat → Str) (hf : PlainNumbers showF) (ms ns : List (Str × Str)) (hm : ∀ kv ∈ ms, CleanMeta kv) (hn : ∀ kv ∈ ns, CleanMeta kv)
    (rs qs : List Raw) (ss ts : List Subtitle) (hs : collect rs = .ok ss) (ht : collect qs = .ok ts) (cs : ∀ s ∈ ss, s.Clean) (ct : ∀ t ∈ ts, t.Clean)
    (out : Str) (h1 : dump showF ms rs = .ok out) (h2 : dump showF ns qs = .ok out) : ms = ns ∧ List.Forall₂ (Subtitle.SameShown showF) ss ts := by
  unfold dump at h1 h2
  rw [hs, ok_bind, pure_eq_ok, Except.ok.injEq] at h1
  rw [ht, ok_bind, pure_eq_ok, Except.ok.injEq] at h2
  have em : ∀ l : List (Str × Str), (l.map (fun kv => kv.1 ++ b!": " ++ kv.2 ++ b!"\n")).flatten = ul (l.map metaText) := by
    intro l
    unfold ul
    rw [List.map_map]
    rfl
  rw [em, dumpSubs_ul, ← ul_append] at h1 h2
  have lm : ∀ l : List (Str × Str), (∀ kv ∈ l, CleanMeta kv) → ∀ x ∈ l.map metaText, (10 : Byte) ∉ x := by
    intro l hl x hx
    obtain ⟨kv, hkv, rfl⟩ := List.mem_map.1 hx
    have := hl kv hkv
    have h1 : (10 : Byte) ∉ kv.1 := fun hh => (this.1 10 hh).1 rfl
    simp [metaText, h1, this.2.1]
  have e := ul_inj (by
      intro l hl
      rcases List.mem_append.1 hl with hl | hl
      · exact lm ms hm l hl
      · exact subs_lines showF hf 0 ss cs l hl) (by
      intro l hl
      rcases List.mem_append.1 hl with hl | hl
      · exact lm ns hn l hl
      · exact subs_lines showF hf 0 ts ct l hl) (h1.trans h2.symm)
  have hp : ∀ l : List (Str × Str), (∀ kv ∈ l, CleanMeta kv) → ∀ x ∈ l.map metaText, ¬ ∃ c t, x = b!"Subtitle " ++ c :: t ∧ isDigit c = true := by
    intro l hl x hx
    obtain ⟨kv, hkv, rfl⟩ := List.mem_map.1 hx
    exact meta_not_head kv (hl kv hkv)
  obtain ⟨e1, e2⟩ := parts_inj (fun x : Str => ¬ ∃ c t, x = b!"Subtitle " ++ c :: t ∧ isDigit c = true) (hp ms hm) (hp ns hn)
    (fun x hx hh => hh (sub_head showF 0 ss x hx)) (fun x hx hh => hh (sub_head showF 0 ts x hx)) e
  exact ⟨meta_inj ms ns hm hn e1, subs_inj showF hf 0 ss ts cs ct e2⟩

/-- Two subtitles for examples: in two blocks or in one, with `<` or in italics. -/
private def exRaw (text : Str) (italic : Bool) : Raw where
  text := text
  italic := italic
  from_ := ⟨1, 0, some ⟨25, 1⟩⟩
  to_ := ⟨2, 12, some ⟨25, 1⟩⟩
  vpos := { line := some 20, lines := some 23, ref := some .topOfScreen }

-- a dump meets the conditions, and another division into blocks gives the same dump
example : CleanMeta (b!"Subtitle groups", b!"1") ∧ PlainNumbers (fun _ => b!"0.5") ∧
    dump (fun _ => b!"0.5") [(b!"Subtitle groups", b!"1")] [exRaw b!"ab" true] =
      .ok b!"Subtitle groups: 1\nSubtitle 0 at 00:00:01:0 @ 25/1 -> 00:00:02:12 @ 25/1\n\t20 lines of 23 from top\t<i>ab</i>\n" ∧
    dump (fun _ => b!"0.5") [(b!"Subtitle groups", b!"1")] [exRaw b!"a" true, exRaw b!"b" true] = dump (fun _ => b!"0.5") [(b!"Subtitle groups", b!"1")] [exRaw b!"ab" true] ∧
    (collect [exRaw b!"a" true, exRaw b!"b" true]).toOption.map (·.map (fun s => s.lines.map (fun l => l.blocks.length))) = some [[2]] := by
  refine ⟨⟨by decide, by decide, ?_⟩, ?_, by decide +kernel, by decide +kernel, by decide +kernel⟩
  · intro c s h
    simp at h
    rw [← h.1]; decide
  · exact fun x c hc => (by decide : ∀ c ∈ b!"0.5", c ≠ 32 ∧ c ≠ 9 ∧ c ≠ 10) c hc

/-- C105 needs the condition on `<`: text with a tag in it is dumped like text in italics. -/
theorem C105_tag_witness : dump (fun _ => []) [] [exRaw b!"<i>a</i>" false] = dump (fun _ => []) [] [exRaw b!"a" true] ∧
    (collect [exRaw b!"<i>a</i>" false]).toOption ≠ (collect [exRaw b!"a" true]).toOption := by
  constructor <;> decide +kernel

/-- C105 needs the condition on newlines: a newline and a tab in the text look like another line. -/
theorem C105_newline_witness : dump (fun _ => []) [] [exRaw b!"a\n\t21 lines of 23 from top\tb" false] =
    dump (fun _ => []) [] [exRaw b!"a" false, { exRaw b!"b" false with vpos := { line := some 21, lines := some 23, ref := some .topOfScreen } }] ∧
    (collect [exRaw b!"a\n\t21 lines of 23 from top\tb" false]).toOption.map (·.map (·.lines.length)) = some [1] := by
  constructor <;> decide +kernel

end LibSub
