/-
Property C145: the regular expressions of the SubRip and WebVTT readers.
-/
import Verif.Model.Regex
import Mathlib.Tactic.Linarith
import Verif.Lemmas.Text

namespace LibSub

/-! ### Specification -/

/-- The strings that a regular expression describes, whatever the order in which they are tried. -/
inductive Describes : List RePiece → Str → Prop where
  | nil : Describes [] []
  | one {k r c m} : k.test c = true → Describes r m → Describes (.one k :: r) (c :: m)
  | optNone {k r m} : Describes r m → Describes (.opt k :: r) m
  | optSome {k r c m} : k.test c = true → Describes r m → Describes (.opt k :: r) (c :: m)
  | star {k r xs m} : (∀ c ∈ xs, k.test c = true) → Describes r m → Describes (.star k :: r) (xs ++ m)
  | plus {k r xs m} : xs ≠ [] → (∀ c ∈ xs, k.test c = true) → Describes r m → Describes (.plus k :: r) (xs ++ m)
  | openGroup {r m} : Describes r m → Describes (.openGroup :: r) m
  | closeGroup {r m} : Describes r m → Describes (.closeGroup :: r) m

/-! ### Searching -/

private theorem greedy_sound {α : Type} {p : Byte → Bool} {k : Str → Option α} {x : α} (s : Str) (h : greedy p k s = some x) :
    ∃ xs t, s = xs ++ t ∧ (∀ c ∈ xs, p c = true) ∧ k t = some x := by
  induction s with
  | nil => exact ⟨[], [], rfl, by simp, h⟩
  | cons c cs ih =>
    rw [greedy] at h
    split at h
    · rename_i hp
      cases hg : greedy p k cs with
      | some y =>
        rw [hg] at h
        cases h
        obtain ⟨xs, t, e, h1, h2⟩ := ih hg
        exact ⟨c :: xs, t, by rw [e]; rfl, by simpa [hp] using h1, h2⟩
      | none =>
        rw [hg] at h
        exact ⟨[], c :: cs, rfl, by simp, h⟩
    · exact ⟨[], c :: cs, rfl, by simp, h⟩

private theorem greedy_complete {α : Type} {p : Byte → Bool} {k : Str → Option α} (xs t : Str) (h : ∀ c ∈ xs, p c = true)
    (hk : (k t).isSome) : (greedy p k (xs ++ t)).isSome := by
  induction xs with
  | nil =>
    rw [List.nil_append]
    cases t with
    | nil => exact hk
    | cons c cs =>
      rw [greedy]
      split
      · cases greedy p k cs <;> simp_all [Option.orElse]
      · exact hk
  | cons c cs ih =>
    rw [List.cons_append, greedy, if_pos (h c (by simp))]
    have := ih (fun c hc => h c (by simp [hc]))
    obtain ⟨y, hy⟩ := Option.isSome_iff_exists.1 this
    rw [hy]
    rfl

private theorem run_sound (r : List RePiece) : ∀ (o : Str) (caps : List Str) (s : Str) (x : List Str × Str), runRe r o caps s = some x →
    ∃ m, s = m ++ x.2 ∧ Describes r m := by
  induction r with
  | nil => intro o caps s x h; cases h; exact ⟨[], rfl, .nil⟩
  | cons pc r ih =>
    intro o caps s x h
    cases pc with
    | one k =>
      rw [runRe.eq_def] at h
      cases s with
      | nil => cases h
      | cons c cs =>
        simp only at h
        split at h
        · obtain ⟨m, e, hd⟩ := ih _ _ _ _ h
          exact ⟨c :: m, by rw [e]; rfl, .one ‹_› hd⟩
        · cases h
    | opt k =>
      rw [runRe.eq_def] at h
      cases s with
      | nil =>
        obtain ⟨m, e, hd⟩ := ih _ _ _ _ h
        exact ⟨m, e, .optNone hd⟩
      | cons c cs =>
        simp only at h
        split at h
        · cases hg : runRe r o caps cs with
          | some y =>
            rw [hg] at h
            cases h
            obtain ⟨m, e, hd⟩ := ih _ _ _ _ hg
            exact ⟨c :: m, by rw [e]; rfl, .optSome ‹_› hd⟩
          | none =>
            rw [hg] at h
            obtain ⟨m, e, hd⟩ := ih _ _ _ _ h
            exact ⟨m, e, .optNone hd⟩
        · obtain ⟨m, e, hd⟩ := ih _ _ _ _ h
          exact ⟨m, e, .optNone hd⟩
    | star k =>
      rw [runRe.eq_def] at h
      obtain ⟨xs, t, e, hx, hk⟩ := greedy_sound _ h
      obtain ⟨m, e', hd⟩ := ih _ _ _ _ hk
      exact ⟨xs ++ m, by rw [e, e', List.append_assoc], .star hx hd⟩
    | plus k =>
      rw [runRe.eq_def] at h
      cases s with
      | nil => cases h
      | cons c cs =>
        simp only at h
        split at h
        · obtain ⟨xs, t, e, hx, hk⟩ := greedy_sound _ h
          obtain ⟨m, e', hd⟩ := ih _ _ _ _ hk
          exact ⟨(c :: xs) ++ m, by rw [e, e', List.cons_append, List.cons_append, List.append_assoc], .plus (by simp) (by simpa using ⟨‹_›, hx⟩) hd⟩
        · cases h
    | openGroup =>
      rw [runRe.eq_def] at h
      obtain ⟨m, e, hd⟩ := ih _ _ _ _ h
      exact ⟨m, e, .openGroup hd⟩
    | closeGroup =>
      rw [runRe.eq_def] at h
      obtain ⟨m, e, hd⟩ := ih _ _ _ _ h
      exact ⟨m, e, .closeGroup hd⟩

private theorem run_complete {r : List RePiece} {m : Str} (h : Describes r m) : ∀ (o : Str) (caps : List Str) (t : Str), (runRe r o caps (m ++ t)).isSome := by
  induction h with
  | nil => intro o caps t; rfl
  | one hk _ ih => intro o caps t; rw [runRe.eq_def]; simp only [List.cons_append]; rw [if_pos hk]; exact ih _ _ _
  | @optNone k r m _ ih =>
    intro o caps t
    rw [runRe.eq_def]
    have := ih o caps t
    cases hm : m ++ t with
    | nil => rw [hm] at this; exact this
    | cons c cs =>
      rw [hm] at this
      simp only
      split
      · cases runRe r o caps cs with
        | some y => rfl
        | none => exact this
      · exact this
  | @optSome k r c m hk _ ih =>
    intro o caps t
    rw [runRe.eq_def]
    simp only [List.cons_append]
    rw [if_pos hk]
    obtain ⟨y, hy⟩ := Option.isSome_iff_exists.1 (ih o caps t)
    rw [hy]
    rfl
  | star hx _ ih => intro o caps t; rw [runRe.eq_def]; simp only [List.append_assoc]; exact greedy_complete _ _ hx (ih _ _ _)
  | @plus k r xs m hne hx _ ih =>
    intro o caps t
    rw [runRe.eq_def]
    cases xs with
    | nil => exact absurd rfl hne
    | cons c cs =>
      simp only [List.cons_append, List.append_assoc]
      rw [if_pos (hx c (by simp))]
      exact greedy_complete _ _ (fun c hc => hx c (by simp [hc])) (ih _ _ _)
  | openGroup _ ih => intro o caps t; rw [runRe.eq_def]; exact ih _ _ _
  | closeGroup _ ih => intro o caps t; rw [runRe.eq_def]; exact ih _ _ _

/-- C145: what `regex_search` finds is a string that the expression describes, and no such string starts further left. -/
theorem C145_sound (r : List RePiece) (s before : Str) (caps : List Str) (after : Str) (h : regexSearch r s = some (before, caps, after)) :
    (∃ m, s = before ++ m ++ after ∧ Describes r m) ∧ ∀ b m a, s = b ++ m ++ a → Describes r m → before.length ≤ b.length := by
  induction s generalizing before with
  | nil =>
    rw [regexSearch] at h
    obtain ⟨x, hx, e⟩ := Option.map_eq_some_iff.1 h
    cases e
    obtain ⟨m, e, hd⟩ := run_sound _ _ _ _ _ hx
    exact ⟨⟨m, by simpa using e, hd⟩, fun _ _ _ _ _ => Nat.zero_le _⟩
  | cons c cs ih =>
    rw [regexSearch] at h
    cases hr : runRe r [] [] (c :: cs) with
    | some x =>
      rw [hr] at h
      cases h
      obtain ⟨m, e, hd⟩ := run_sound _ _ _ _ _ hr
      exact ⟨⟨m, by simpa using e, hd⟩, fun _ _ _ _ _ => Nat.zero_le _⟩
    | none =>
      rw [hr] at h
      obtain ⟨x, hx, e⟩ := Option.map_eq_some_iff.1 h
      obtain ⟨b, c', a⟩ := x
      cases e
      obtain ⟨⟨m, e, hd⟩, hl⟩ := ih b hx
      refine ⟨⟨m, by rw [e]; rfl, hd⟩, ?_⟩
      intro b' m' a' e' hd'
      cases b' with
      | nil =>
        have := run_complete hd' [] [] a'
        rw [List.nil_append] at e'
        rw [← e', hr] at this
        cases this
      | cons d b' =>
        have e' : c :: cs = d :: (b' ++ m' ++ a') := by simpa using e'
        injection e' with _ e'
        have := hl b' m' a' e' hd'
        simp only [List.length_cons]
        omega

/-- C145: when `regex_search` finds nothing, no part of the string is described by the expression. -/
theorem C145_complete (r : List RePiece) (s : Str) (h : regexSearch r s = none) (before m after : Str) (e : s = before ++ m ++ after) : ¬ Describes r m := by
  intro hd
  induction s generalizing before with
  | nil =>
    rw [regexSearch] at h
    have hn : before = [] ∧ m = [] ∧ after = [] := by
      have := e.symm
      simp only [List.append_eq_nil_iff] at this
      exact ⟨this.1.1, this.1.2, this.2⟩
    obtain ⟨rfl, rfl, rfl⟩ := hn
    have := run_complete hd [] [] []
    rw [List.append_nil] at this
    rw [Option.map_eq_none_iff.1 h] at this
    cases this
  | cons c cs ih =>
    rw [regexSearch] at h
    cases hr : runRe r [] [] (c :: cs) with
    | some x => rw [hr] at h; cases h
    | none =>
      rw [hr] at h
      cases before with
      | nil =>
        have := run_complete hd [] [] after
        rw [List.nil_append] at e
        rw [← e, hr] at this
        cases this
      | cons d b =>
        have e : c :: cs = d :: (b ++ m ++ after) := by simpa using e
        injection e with _ e
        exact ih (Option.map_eq_none_iff.1 h) b e

/-! ### The expressions -/

private theorem greedy_any {α : Type} (k : Str → Option α) (s : Str) : greedy (fun _ => true) k s = lastMatch k s := by
  induction s with
  | nil => rfl
  | cons c cs ih =>
    rw [greedy, if_pos rfl, lastMatch, ih]
    cases lastMatch k cs <;> rfl

private theorem search_any (r : List RePiece) (s : Str) :
    (regexSearch (.star .any :: r) s).map (fun x => x.2.1) = (lastMatch (runRe r [] []) s).map (fun x => x.1) := by
  have hrun : ∀ s, runRe (.star .any :: r) [] [] s = lastMatch (runRe r [] []) s := by
    intro s
    rw [runRe.eq_def]
    exact greedy_any _ s
  induction s with
  | nil => rw [regexSearch, hrun]; cases lastMatch (runRe r [] []) [] <;> rfl
  | cons c cs ih =>
    rw [regexSearch, hrun]
    cases hl : lastMatch (runRe r [] []) (c :: cs) with
    | some x => rfl
    | none =>
      rw [lastMatch] at hl
      cases hl' : lastMatch (runRe r [] []) cs with
      | some x => rw [hl'] at hl; cases hl
      | none =>
        rw [hl'] at ih
        simp only [Option.map_none, Option.map_eq_none_iff] at ih ⊢
        exact ih

private theorem lastMatch_map {α β γ : Type} (f : Str → Option α) (g : Str → Option β) (i : α → γ) (j : β → γ)
    (h : ∀ s, (f s).map i = (g s).map j) (s : Str) : (lastMatch f s).map i = (lastMatch g s).map j := by
  induction s with
  | nil => exact h []
  | cons c cs ih =>
    rw [lastMatch, lastMatch]
    cases hf : lastMatch f cs with
    | some x =>
      cases hg : lastMatch g cs with
      | some y => rw [hf, hg] at ih; exact ih
      | none => rw [hf, hg] at ih; cases ih
    | none =>
      cases hg : lastMatch g cs with
      | some y => rw [hf, hg] at ih; cases ih
      | none => exact h _

private theorem run_lit (w : Str) (r : List RePiece) (o : Str) (caps : List Str) : ∀ s,
    runRe (w.map (fun c => RePiece.one (.set [.chr c])) ++ r) o caps s = if startsWith s w then runRe r o caps (s.drop w.length) else none := by
  induction w with
  | nil => intro s; simp [startsWith]
  | cons d w ih =>
    intro s
    rw [List.map_cons, List.cons_append, runRe.eq_def]
    cases s with
    | nil => rfl
    | cons c cs =>
      simp only [ih]
      have ht : (Cls.set [.chr d]).test c = (c == d) := by simp [Cls.test, SetItem.test]
      rw [ht]
      by_cases hc : c = d
      · subst hc
        simp [startsWith, List.isPrefixOf]
      · have : (d == c) = false := by simpa using fun h => hc h.symm
        simp [startsWith, List.isPrefixOf, hc, this]

private theorem greedy_stop {α : Type} {p : Byte → Bool} {k : Str → Option α} (h : ∀ c cs, p c = true → k (c :: cs) = none) (s : Str) :
    greedy p k s = k (s.dropWhile p) := by
  induction s with
  | nil => rfl
  | cons c cs ih =>
    rw [greedy, List.dropWhile_cons]
    split
    · rename_i hp
      rw [ih, h c cs hp]
      cases k (cs.dropWhile p) <;> rfl
    · rfl

private theorem greedy_always {α : Type} {p : Byte → Bool} {k : Str → Option α} (h : ∀ s, (k s).isSome) (s : Str) :
    greedy p k s = k (s.dropWhile p) := by
  induction s with
  | nil => rfl
  | cons c cs ih =>
    rw [greedy, List.dropWhile_cons]
    split
    · rw [ih]
      obtain ⟨y, hy⟩ := Option.isSome_iff_exists.1 (h (cs.dropWhile p))
      rw [hy]
      rfl
    · rfl

private theorem take_drop (p : Byte → Bool) (s : Str) : s.take (s.length - (s.dropWhile p).length) = s.takeWhile p := by
  have h := List.takeWhile_append_dropWhile (p := p) (l := s)
  have hl : s.length = (s.takeWhile p).length + (s.dropWhile p).length := by rw [← List.length_append, h]
  have hn : s.length - (s.dropWhile p).length = (s.takeWhile p).length := by omega
  rw [hn]
  have := List.take_left' (l₁ := s.takeWhile p) (l₂ := s.dropWhile p) rfl
  rwa [h] at this

private theorem drop_takeWhile (p : Byte → Bool) (s : Str) : s.drop (s.takeWhile p).length = s.dropWhile p := by
  have := List.drop_left' (l₁ := s.takeWhile p) (l₂ := s.dropWhile p) rfl
  rwa [List.takeWhile_append_dropWhile] at this

private def lits (w : Str) : List RePiece := w.map (fun c => RePiece.one (.set [.chr c]))

private def quotes : Cls := .set [.chr 34, .chr 39]

private theorem hex_pieces : regex hexPattern = .star .any :: (lits b!"color=" ++ .opt quotes :: (lits b!"#" ++ [.openGroup, .plus (.set [.xdigit]), .closeGroup, .opt quotes])) := by
  decide +kernel

private def number (stop : Str) (r : List RePiece) : List RePiece :=
  .star (.set [.space]) :: .openGroup :: .plus (.set [.digit]) :: .closeGroup :: .star (.set [.space]) :: (lits stop ++ r)

private theorem rgba_pieces : regex rgbaPattern = .star .any :: (lits b!"color=\"rgba(" ++ number b!"," (number b!"," (number b!"," (number b!")" (lits b!"\""))))) := by
  decide +kernel

private theorem test_xdigit : (Cls.set [.xdigit]).test = isXDigit := by funext c; simp [Cls.test, SetItem.test]
private theorem test_digit : (Cls.set [.digit]).test = isDigit := by funext c; simp [Cls.test, SetItem.test]
private theorem test_space : (Cls.set [.space]).test = isSpace := by funext c; simp [Cls.test, SetItem.test]
private theorem test_quotes (c : Byte) : quotes.test c = (c == 34 || c == 39) := by simp [quotes, Cls.test, SetItem.test]

private theorem run_opt_end (k : Cls) (o : Str) (caps : List Str) (s : Str) : ∃ t, runRe [.opt k] o caps s = some (caps, t) := by
  rw [runRe.eq_def]
  cases s with
  | nil => exact ⟨_, rfl⟩
  | cons c cs =>
    simp only
    split
    · exact ⟨_, rfl⟩
    · exact ⟨_, rfl⟩

/-- The tail `#([[:xdigit:]]+)["']?` of the first expression. -/
private theorem run_hash (s : Str) : (runRe (lits b!"#" ++ [.openGroup, .plus (.set [.xdigit]), .closeGroup, .opt quotes]) [] [] s).map (fun x => x.1) =
    match s with
    | 35 :: ds => if (ds.takeWhile isXDigit).isEmpty then none else some [ds.takeWhile isXDigit]
    | _ => none := by
  rw [lits, run_lit]
  cases s with
  | nil => rfl
  | cons c cs =>
    by_cases hc : c = 35
    · subst hc
      have h1 : startsWith (35 :: cs) b!"#" = true := by simp [startsWith]
      rw [if_pos h1]
      have h2 : (35 :: cs).drop (b!"#").length = cs := rfl
      rw [h2, runRe.eq_def]
      simp only
      rw [runRe.eq_def]
      cases cs with
      | nil => rfl
      | cons d ds =>
        simp only [test_xdigit]
        by_cases hd : isXDigit d = true
        · rw [if_pos hd, greedy_always]
          · rw [runRe.eq_def]
            simp only
            have e : (d :: ds).dropWhile isXDigit = ds.dropWhile isXDigit := by rw [List.dropWhile_cons, if_pos hd]
            have := take_drop isXDigit (d :: ds)
            rw [e] at this
            rw [this]
            obtain ⟨t, ht⟩ := run_opt_end quotes (d :: ds) ([] ++ [(d :: ds).takeWhile isXDigit]) (ds.dropWhile isXDigit)
            rw [ht]
            simp [hd]
          · intro s
            rw [runRe.eq_def]
            simp only
            obtain ⟨t, ht⟩ := run_opt_end quotes (d :: ds) ([] ++ [(d :: ds).take ((d :: ds).length - s.length)]) s
            rw [ht]
            rfl
        · rw [if_neg hd]
          simp [hd]
    · have h1 : startsWith (c :: cs) b!"#" = false := by
        have : ((35 : UInt8) == c) = false := by simpa using fun h => hc h.symm
        simp [startsWith, List.isPrefixOf, this]
      rw [h1]
      simp only [Bool.false_eq_true, if_false, Option.map_none]
      split
      · rename_i h; injection h with h _; exact absurd h hc
      · rfl

private def unquote (r : Str) : Str :=
  match r with
  | 34 :: r' => r'
  | 39 :: r' => r'
  | _ => r

private theorem fontHexAt_eq (s : Str) : fontHexAt s = if startsWith s b!"color=" then
      (match unquote (s.drop 6) with
        | 35 :: ds => if (ds.takeWhile isXDigit).isEmpty then none else some (ds.takeWhile isXDigit)
        | _ => none) else none := rfl

private theorem hex_at (s : Str) : (runRe (lits b!"color=" ++ .opt quotes :: (lits b!"#" ++ [.openGroup, .plus (.set [.xdigit]), .closeGroup, .opt quotes])) [] [] s).map (fun x => x.1) =
    (fontHexAt s).map (fun g => [g]) := by
  rw [lits, run_lit]
  rw [fontHexAt_eq]
  split
  · have h6 : (b!"color=").length = 6 := rfl
    rw [h6]
    generalize s.drop 6 = r
    rw [runRe.eq_def]
    cases r with
    | nil => simp only; rw [run_hash]; rfl
    | cons c cs =>
      simp only
      rw [test_quotes]
      by_cases hq : (c == 34 || c == 39) = true
      · rw [if_pos hq]
        have hne : c ≠ 35 := by rintro rfl; exact absurd hq (by decide)
        have hnone : runRe (lits b!"#" ++ [.openGroup, .plus (.set [.xdigit]), .closeGroup, .opt quotes]) [] [] (c :: cs) = none := by
          have := run_hash (c :: cs)
          split at this
          · rename_i h; injection h with h _; exact absurd h hne
          · exact Option.map_eq_none_iff.1 this
        rw [hnone]
        have ho : ∀ x : Option (List Str × Str), x.orElse (fun _ => none) = x := by intro x; cases x <;> rfl
        rw [ho, run_hash]
        have hr : unquote (c :: cs) = cs := by
          rw [Bool.or_eq_true] at hq
          rcases hq with h | h
          · rw [eq_of_beq h]; rfl
          · rw [eq_of_beq h]; rfl
        rw [hr]
        split
        · split <;> rfl
        · rfl
      · rw [if_neg hq, run_hash]
        have hr : unquote (c :: cs) = c :: cs := by
          unfold unquote
          split
          · rename_i h; injection h with h _; subst h; exact absurd rfl hq
          · rename_i h; injection h with h _; subst h; exact absurd rfl hq
          · rfl
        rw [hr]
        split
        · split <;> rfl
        · rfl
  · rfl

private theorem search_hex (tag : Str) : (regexSearch (regex hexPattern) tag).map (fun x => x.2.1) = (lastMatch fontHexAt tag).map (fun g => [g]) := by
  rw [hex_pieces, search_any]
  exact lastMatch_map (α := List Str × Str) _ _ (fun x => x.1) (fun g => [g]) hex_at tag

private theorem space_digit (c : Byte) (h : isSpace c = true) : isDigit c = false := by
  exact forall_byte (p := fun c => isSpace c = true → isDigit c = false) (by decide +kernel) c h

private theorem digit_space (c : Byte) (h : isDigit c = true) : isSpace c = false := by
  exact forall_byte (p := fun c => isDigit c = true → isSpace c = false) (by decide +kernel) c h

private theorem run_number (stop : Byte) (hs : isSpace stop = false) (hd : isDigit stop = false) (r : List RePiece) (o : Str) (caps : List Str) (s : Str) :
    runRe (number [stop] r) o caps s =
      match spacedInt stop s with
      | none => none
      | some (ds, rest) => runRe r (s.dropWhile isSpace) (caps ++ [ds]) rest := by
  have hlit : ∀ (o : Str) (caps : List Str) (c : Byte) (cs : Str), runRe (lits [stop] ++ r) o caps (c :: cs) = if c == stop then runRe r o caps cs else none := by
    intro o caps c cs
    rw [lits, run_lit]
    by_cases hc : c = stop
    · subst hc; simp [startsWith]
    · have : (stop == c) = false := by simpa using fun h => hc h.symm
      simp [startsWith, List.isPrefixOf, hc, this]
  have hlit0 : ∀ (o : Str) (caps : List Str), runRe (lits [stop] ++ r) o caps [] = none := by intro o caps; rfl
  have hclose : ∀ (o : Str) (caps : List Str) (s : Str), runRe (.closeGroup :: .star (.set [.space]) :: (lits [stop] ++ r)) o caps s =
      runRe (lits [stop] ++ r) o (caps ++ [o.take (o.length - s.length)]) (s.dropWhile isSpace) := by
    intro o caps s
    rw [runRe.eq_def]
    simp only
    rw [runRe.eq_def]
    simp only [test_space]
    rw [greedy_stop]
    intro c cs hc
    rw [hlit]
    have : (c == stop) = false := by
      by_contra hcon
      have : c = stop := by simpa using hcon
      rw [this, hs] at hc
      cases hc
    rw [this]
    rfl
  have hplus : ∀ (o : Str) (caps : List Str) (s : Str), runRe (.plus (.set [.digit]) :: .closeGroup :: .star (.set [.space]) :: (lits [stop] ++ r)) o caps s =
      if (takeDigits s).isEmpty then none
      else runRe (lits [stop] ++ r) o (caps ++ [o.take (o.length - (s.dropWhile isDigit).length)]) ((s.dropWhile isDigit).dropWhile isSpace) := by
    intro o caps s
    rw [runRe.eq_def]
    cases s with
    | nil => rfl
    | cons c cs =>
      simp only [test_digit]
      by_cases hc : isDigit c = true
      · rw [if_pos hc, greedy_stop, hclose]
        · simp [takeDigits, hc]
        · intro d ds hdd
          rw [hclose, List.dropWhile_cons, if_neg (by rw [digit_space d hdd]; simp), hlit]
          have : (d == stop) = false := by
            by_contra hcon
            have : d = stop := by simpa using hcon
            rw [this, hd] at hdd
            cases hdd
          rw [this]
          rfl
      · rw [if_neg hc]
        simp [takeDigits, hc]
  rw [number, runRe.eq_def]
  simp only [test_space]
  rw [greedy_stop]
  · rw [runRe.eq_def]
    simp only
    rw [hplus]
    unfold spacedInt
    simp only
    generalize s.dropWhile isSpace = s1
    split
    · rfl
    · have ht := take_drop isDigit s1
      have hdr := drop_takeWhile isDigit s1
      rw [ht]
      unfold takeDigits
      rw [hdr]
      cases hx : (s1.dropWhile isDigit).dropWhile isSpace with
      | nil => rw [hlit0]
      | cons c cs =>
        rw [hlit]
        simp only
        split
        · rfl
        · rfl
  · intro c cs hc
    rw [runRe.eq_def]
    simp only
    rw [hplus]
    simp [takeDigits, space_digit c hc]

private theorem rgba_at (s : Str) :
    (runRe (lits b!"color=\"rgba(" ++ number b!"," (number b!"," (number b!"," (number b!")" (lits b!"\""))))) [] [] s).bind (fun x => if x.1.length = 4 then some (x.1.take 3) else none) =
    (fontRgbaAt s).map (fun g => [g.1, g.2.1, g.2.2]) ∧
    ∀ x, runRe (lits b!"color=\"rgba(" ++ number b!"," (number b!"," (number b!"," (number b!")" (lits b!"\""))))) [] [] s = some x → x.1.length = 4 := by
  have hq : ∀ (o : Str) (caps : List Str) (s : Str), runRe (lits b!"\"") o caps s = if startsWith s b!"\"" then some (caps, s.drop 1) else none := by
    intro o caps s
    have := run_lit b!"\"" [] o caps s
    rw [List.append_nil] at this
    exact this
  rw [lits, run_lit]
  unfold fontRgbaAt
  split
  · have h12 : (b!"color=\"rgba(").length = 12 := rfl
    rw [h12]
    have e44 : b!"," = [44] := rfl
    have e41 : b!")" = [41] := rfl
    rw [e44, e41, run_number 44 (by decide) (by decide)]
    cases spacedInt 44 (s.drop 12) with
    | none => simp
    | some x =>
      simp only
      rw [run_number 44 (by decide) (by decide)]
      cases spacedInt 44 x.2 with
      | none => simp
      | some y =>
        simp only
        rw [run_number 44 (by decide) (by decide)]
        cases spacedInt 44 y.2 with
        | none => simp
        | some z =>
          simp only
          rw [run_number 41 (by decide) (by decide)]
          cases spacedInt 41 z.2 with
          | none => simp
          | some w =>
            simp only
            rw [hq]
            split
            · refine ⟨by simp, ?_⟩
              intro v hv
              cases hv
              rfl
            · simp
  · simp

private theorem search_rgba (tag : Str) :
    (∀ x, regexSearch (regex rgbaPattern) tag = some x → x.2.1.length = 4) ∧
    (regexSearch (regex rgbaPattern) tag).map (fun x => x.2.1.take 3) = (lastMatch fontRgbaAt tag).map (fun g => [g.1, g.2.1, g.2.2]) := by
  have hs := search_any (lits b!"color=\"rgba(" ++ number b!"," (number b!"," (number b!"," (number b!")" (lits b!"\""))))) tag
  rw [← rgba_pieces] at hs
  have hlen : ∀ (s : Str) x, lastMatch (runRe (lits b!"color=\"rgba(" ++ number b!"," (number b!"," (number b!"," (number b!")" (lits b!"\""))))) [] []) s = some x → x.1.length = 4 := by
    intro s
    induction s with
    | nil => intro x hx; exact (rgba_at []).2 x hx
    | cons c cs ih =>
      intro x hx
      rw [lastMatch] at hx
      split at hx
      · rename_i hr; cases hx; exact ih _ hr
      · exact (rgba_at _).2 x hx
  have hm := lastMatch_map (runRe (lits b!"color=\"rgba(" ++ number b!"," (number b!"," (number b!"," (number b!")" (lits b!"\""))))) [] []) fontRgbaAt
    (fun x => x.1.take 3) (fun g => [g.1, g.2.1, g.2.2]) (fun s => by
      obtain ⟨h1, h2⟩ := rgba_at s
      rw [← h1]
      cases hr : runRe (lits b!"color=\"rgba(" ++ number b!"," (number b!"," (number b!"," (number b!")" (lits b!"\""))))) [] [] s with
      | none => rfl
      | some x => have := h2 x hr; simp [this]) tag
  refine ⟨?_, ?_⟩
  · intro x hx
    rw [hx] at hs
    obtain ⟨y, hy, e⟩ := Option.map_eq_some_iff.1 hs.symm
    rw [← hlen tag y hy, e]
  · rw [← hm]
    cases hx : regexSearch (regex rgbaPattern) tag with
    | none =>
      rw [hx] at hs
      rw [Option.map_none] at hs
      rw [Option.map_eq_none_iff.1 hs.symm]
      rfl
    | some x =>
      rw [hx] at hs
      obtain ⟨y, hy, e⟩ := Option.map_eq_some_iff.1 hs.symm
      rw [hy]
      simp [e]

/-- C145: the colour of a `<font` tag is the one found by the regular expressions of the source, for every tag. -/
theorem C145_colour (n : Nat) (ctx : List Str) (tag : Str) : fontColour n ctx tag = fontColourRe n ctx tag := by
  unfold fontColour fontColourRe
  have h1 := search_hex tag
  cases hx : regexSearch (regex hexPattern) tag with
  | some x =>
    rw [hx] at h1
    obtain ⟨g, hg, e⟩ := Option.map_eq_some_iff.1 h1.symm
    obtain ⟨b, caps, a⟩ := x
    have e : [g] = caps := e
    subst e
    rw [hg]
    rfl
  | none =>
    rw [hx] at h1
    rw [Option.map_none] at h1
    rw [Option.map_eq_none_iff.1 h1.symm]
    obtain ⟨h2, h3⟩ := search_rgba tag
    cases hy : regexSearch (regex rgbaPattern) tag with
    | none =>
      rw [hy] at h3
      rw [Option.map_none] at h3
      rw [Option.map_eq_none_iff.1 h3.symm]
    | some x =>
      have h4 := h2 x hy
      rw [hy] at h3
      obtain ⟨g, hg, e⟩ := Option.map_eq_some_iff.1 h3.symm
      rw [hg]
      obtain ⟨b, caps, a⟩ := x
      obtain ⟨r, g', b'⟩ := g
      have e : [r, g', b'] = caps.take 3 := e
      have h4 : caps.length = 4 := h4
      match caps, h4, e with
      | [w, x, y, z], _, e =>
        injection e with e1 e
        injection e with e2 e
        injection e with e3 e
        subst e1 e2 e3
        rfl

/-! ### Lines -/

private theorem sep_pieces : regex lineSepPattern = lits lineSep := by decide +kernel

private theorem run_sep (s : Str) : runRe (lits lineSep) [] [] s = if startsWith s lineSep then some ([], s.drop 3) else none := by
  have := run_lit lineSep [] [] [] s
  rw [List.append_nil] at this
  exact this

private theorem go_skip (sep : Str) (n : Nat) (s : Str) : splitStrGo sep n s = splitStrGo sep 0 (s.drop n) := by
  induction s generalizing n with
  | nil => cases n <;> simp [splitStrGo]
  | cons c cs ih =>
    cases n with
    | zero => rfl
    | succ n => rw [splitStrGo, ih n]; rfl

private theorem go_search (s : Str) : splitStrGo lineSep 0 s =
    match regexSearch (lits lineSep) s with
    | some (before, _, rest) => before :: splitStrGo lineSep 0 rest
    | none => [s] := by
  induction s with
  | nil => rfl
  | cons c cs ih =>
    rw [splitStrGo, regexSearch, run_sep]
    split
    · simp only
      rw [go_skip]
      rfl
    · rw [ih]
      simp only
      cases regexSearch (lits lineSep) cs with
      | none => rfl
      | some x => rfl

private theorem search_shorter (s : Str) (x : Str × List Str × Str) (h : regexSearch (lits lineSep) s = some x) : x.2.2.length < s.length := by
  induction s generalizing x with
  | nil => rw [regexSearch, run_sep] at h; cases h
  | cons c cs ih =>
    rw [regexSearch, run_sep] at h
    split at h
    · rename_i m hm
      split at hm
      · cases hm; cases h
        simp only [List.length_drop, List.length_cons]
        omega
      · cases hm
    · obtain ⟨y, hy, e⟩ := Option.map_eq_some_iff.1 h
      have := ih y hy
      rw [← e]
      simp only [List.length_cons]
      omega

/-- C145: the lines into which a line is split at U+2028 are those found by the regular expression of the source. -/
theorem C145_lines (s : Str) : splitStr lineSep s = splitRegex (regex lineSepPattern) s := by
  rw [sep_pieces]
  unfold splitStr splitRegex
  have : ∀ (fuel : Nat) (s : Str), s.length < fuel → splitStrGo lineSep 0 s = splitRegexGo (lits lineSep) fuel s := by
    intro fuel
    induction fuel with
    | zero => intro s h; omega
    | succ fuel ih =>
      intro s h
      rw [go_search, splitRegexGo]
      cases hx : regexSearch (lits lineSep) s with
      | none => rfl
      | some x =>
        have := search_shorter s x hx
        simp only
        rw [ih x.2.2 (by omega)]
  exact this _ s (by omega)

/-! ### The number of steps -/

private theorem greedy_any_le {α : Type} {k : Str → Option α} {kc : Str → Nat} {m A : Nat}
    (h0 : ∀ s, k s = none → kc s ≤ m) (h1 : ∀ s, kc s ≤ m + A * s.length) (s : Str) :
    greedySteps (fun _ => true) k kc s ≤ (m + 1) * (s.length + 1) + (match greedy (fun _ => true) k s with | some _ => A * s.length | none => 0) := by
  induction s with
  | nil =>
    rw [greedySteps, greedy]
    have := h1 []
    simp only [List.length_nil] at *
    cases hk : k [] with
    | none => have := h0 [] hk; simp only; omega
    | some x => simp only; omega
  | cons c cs ih =>
    rw [greedySteps, if_pos rfl, greedy, if_pos rfl]
    cases hg : greedy (fun _ => true) k cs with
    | some x =>
      rw [hg] at ih
      simp only [Option.orElse, List.length_cons] at *
      nlinarith
    | none =>
      rw [hg] at ih
      simp only [Option.orElse, List.length_cons] at *
      cases hk : k (c :: cs) with
      | none => have := h0 _ hk; simp only; nlinarith
      | some x => have := h1 (c :: cs); simp only [List.length_cons] at *; nlinarith

private theorem steps_lit (w : Str) (r : List RePiece) (o : Str) (caps : List Str) : ∀ s,
    runSteps (w.map (fun c => RePiece.one (.set [.chr c])) ++ r) o caps s ≤ w.length + (if startsWith s w then runSteps r o caps (s.drop w.length) else 0) := by
  induction w with
  | nil => intro s; simp [startsWith]
  | cons d w ih =>
    intro s
    rw [List.map_cons, List.cons_append, runSteps.eq_def]
    cases s with
    | nil => simp only [List.length_cons]; omega
    | cons c cs =>
      have ht : (Cls.set [.chr d]).test c = (c == d) := by simp [Cls.test, SetItem.test]
      simp only [ht]
      have := ih cs
      by_cases hc : c = d
      · subst hc
        have e : startsWith (c :: cs) (c :: w) = startsWith cs w := by simp [startsWith, List.isPrefixOf]
        simp only [beq_self_eq_true, if_true, e, List.drop_succ_cons, List.length_cons]
        omega
      · have : (c == d) = false := by simpa using hc
        simp only [this, Bool.false_eq_true, if_false, List.length_cons]
        omega


/-- The number of leading characters of the kind that can be in the brackets of `rgba(…)"`. -/
private def inner (c : Byte) : Bool := isDigit c || isSpace c || c == 44 || c == 41 || c == 34

private def span (s : Str) : Nat := (s.takeWhile inner).length

private theorem span_cons {c : Byte} (h : inner c = true) (cs : Str) : span (c :: cs) = span cs + 1 := by
  unfold span
  rw [List.takeWhile_cons, if_pos h, List.length_cons]

private theorem span_drop {p : Byte → Bool} (h : ∀ c, p c = true → inner c = true) (s : Str) : span s = (s.takeWhile p).length + span (s.dropWhile p) := by
  induction s with
  | nil => rfl
  | cons c cs ih =>
    rw [List.takeWhile_cons, List.dropWhile_cons]
    split
    · rename_i hp
      rw [span_cons (h c hp), ih, List.length_cons]
      omega
    · simp

private theorem greedy_stop_le {α : Type} {p : Byte → Bool} {k : Str → Option α} {kc : Str → Nat} {m : Nat}
    (h : ∀ c cs, p c = true → kc (c :: cs) ≤ m) (s : Str) :
    greedySteps p k kc s ≤ (m + 1) * (s.takeWhile p).length + 1 + kc (s.dropWhile p) := by
  induction s with
  | nil => rw [greedySteps]; simp
  | cons c cs ih =>
    rw [greedySteps, List.takeWhile_cons, List.dropWhile_cons]
    split
    · rename_i hp
      have hm := h c cs hp
      rw [List.length_cons]
      cases greedy p k cs with
      | some x => simp only; nlinarith
      | none => simp only; nlinarith
    · simp

private theorem number_le (stop : Byte) (hs : isSpace stop = false) (hd : isDigit stop = false) (hi : inner stop = true) (r : List RePiece) (K : Nat)
    (hr : ∀ o caps s, runSteps r o caps s ≤ 5 * span s + K) (o : Str) (caps : List Str) (s : Str) :
    runSteps (number [stop] r) o caps s ≤ 5 * span s + (K + 12) := by
  have hlit : ∀ (o : Str) (caps : List Str) (s : Str), runSteps (lits [stop] ++ r) o caps s ≤ 5 * span s + (K + 1) := by
    intro o caps s
    have h := steps_lit [stop] r o caps s
    rw [lits]
    refine le_trans h ?_
    split
    · rename_i hst
      cases s with
      | nil => cases hst
      | cons c cs =>
        have hc : c = stop := by
          have : (stop == c) = true := by simpa [startsWith, List.isPrefixOf] using hst
          exact (eq_of_beq this).symm
        subst hc
        have := hr o caps cs
        rw [span_cons hi]
        simp only [List.length_singleton, List.drop_succ_cons, List.drop_zero]
        omega
    · simp only [List.length_singleton]; omega
  have hlit1 : ∀ (o : Str) (caps : List Str) (c : Byte) (cs : Str), c ≠ stop → runSteps (lits [stop] ++ r) o caps (c :: cs) ≤ 1 := by
    intro o caps c cs hc
    have h := steps_lit [stop] r o caps (c :: cs)
    have : startsWith (c :: cs) [stop] = false := by
      have : (stop == c) = false := by simpa using fun h => hc h.symm
      simp [startsWith, List.isPrefixOf, this]
    rw [this] at h
    exact h
  have hsp : ∀ c, isSpace c = true → inner c = true := by intro c h; simp [inner, h]
  have hdg : ∀ c, isDigit c = true → inner c = true := by intro c h; simp [inner, h]
  have hclose : ∀ (o : Str) (caps : List Str) (s : Str), runSteps (.closeGroup :: .star (.set [.space]) :: (lits [stop] ++ r)) o caps s ≤ 5 * span s + (K + 4) := by
    intro o caps s
    rw [runSteps.eq_def]
    simp only
    rw [runSteps.eq_def]
    simp only [test_space]
    have h1 := greedy_stop_le (p := isSpace) (k := runRe (lits [stop] ++ r) o (caps ++ [o.take (o.length - s.length)]))
      (kc := runSteps (lits [stop] ++ r) o (caps ++ [o.take (o.length - s.length)])) (m := 1)
      (fun c cs hc => hlit1 _ _ _ _ (by rintro rfl; rw [hs] at hc; cases hc)) s
    have h2 := hlit o (caps ++ [o.take (o.length - s.length)]) (s.dropWhile isSpace)
    have h3 := span_drop hsp s
    omega
  have hclose1 : ∀ (o : Str) (caps : List Str) (c : Byte) (cs : Str), isDigit c = true → runSteps (.closeGroup :: .star (.set [.space]) :: (lits [stop] ++ r)) o caps (c :: cs) ≤ 4 := by
    intro o caps c cs hc
    rw [runSteps.eq_def]
    simp only
    rw [runSteps.eq_def]
    simp only [test_space]
    rw [greedySteps, if_neg (by rw [digit_space c hc]; simp)]
    have := hlit1 o (caps ++ [o.take (o.length - (c :: cs).length)]) c cs (by rintro rfl; rw [hd] at hc; cases hc)
    omega
  have hplus : ∀ (o : Str) (caps : List Str) (s : Str), runSteps (.plus (.set [.digit]) :: .closeGroup :: .star (.set [.space]) :: (lits [stop] ++ r)) o caps s ≤ 5 * span s + (K + 6) := by
    intro o caps s
    rw [runSteps.eq_def]
    cases s with
    | nil => simp only; omega
    | cons c cs =>
      simp only [test_digit]
      split
      · rename_i hc
        have h1 := greedy_stop_le (p := isDigit) (k := runRe (.closeGroup :: .star (.set [.space]) :: (lits [stop] ++ r)) o caps)
          (kc := runSteps (.closeGroup :: .star (.set [.space]) :: (lits [stop] ++ r)) o caps) (m := 4) (fun c cs hc => hclose1 _ _ _ _ hc) cs
        have h2 := hclose o caps (cs.dropWhile isDigit)
        have h3 := span_drop hdg cs
        rw [span_cons (hdg c hc)]
        omega
      · omega
  rw [number, runSteps.eq_def]
  simp only [test_space]
  have h1 := greedy_stop_le (p := isSpace) (k := runRe (.openGroup :: .plus (.set [.digit]) :: .closeGroup :: .star (.set [.space]) :: (lits [stop] ++ r)) o caps)
    (kc := runSteps (.openGroup :: .plus (.set [.digit]) :: .closeGroup :: .star (.set [.space]) :: (lits [stop] ++ r)) o caps) (m := 2) (by
      intro c cs hc
      rw [runSteps.eq_def]
      simp only
      rw [runSteps.eq_def]
      simp only [test_digit]
      rw [if_neg (by rw [space_digit c hc]; simp)]) s
  have h2 : runSteps (.openGroup :: .plus (.set [.digit]) :: .closeGroup :: .star (.set [.space]) :: (lits [stop] ++ r)) o caps (s.dropWhile isSpace) ≤ 5 * span (s.dropWhile isSpace) + (K + 7) := by
    rw [runSteps.eq_def]
    simp only
    have := hplus (s.dropWhile isSpace) caps (s.dropWhile isSpace)
    omega
  have h3 := span_drop hsp s
  omega

/-- What is left of the second expression after `.*`. -/
private def rgbaTail : List RePiece := lits b!"color=\"rgba(" ++ number b!"," (number b!"," (number b!"," (number b!")" (lits b!"\""))))

/-- The characters that `rgbaTail` may have to look at again and again, at this place. -/
private def weight (s : Str) : Nat := if startsWith s b!"color=\"rgba(" then span (s.drop 12) else 0

private theorem tail_le (s : Str) : runSteps rgbaTail [] [] s ≤ 5 * weight s + 62 := by
  have hq : ∀ (o : Str) (caps : List Str) (s : Str), runSteps (lits b!"\"") o caps s ≤ 5 * span s + 2 := by
    intro o caps s
    have := steps_lit b!"\"" [] o caps s
    rw [List.append_nil] at this
    refine le_trans this ?_
    split
    · simp [runSteps]
    · simp
  have h4 := number_le 41 (by decide) (by decide) (by decide) _ _ hq
  have h3 := number_le 44 (by decide) (by decide) (by decide) _ _ h4
  have h2 := number_le 44 (by decide) (by decide) (by decide) _ _ h3
  have h1 := number_le 44 (by decide) (by decide) (by decide) _ _ h2
  have h := steps_lit b!"color=\"rgba(" (number b!"," (number b!"," (number b!"," (number b!")" (lits b!"\""))))) [] [] s
  unfold rgbaTail weight
  refine le_trans h ?_
  have e : (b!"color=\"rgba(").length = 12 := rfl
  rw [e]
  split
  · have := h1 [] [] (s.drop 12)
    exact le_trans (Nat.add_le_add_left this 12) (by omega)
  · omega

/-- The sum of the weights at all places. -/
private def weights : Str → Nat
  | [] => 0
  | c :: cs => weight (c :: cs) + weights cs

private theorem weights_le (n : Nat) : ∀ s : Str, s.length ≤ n → weights s + span s ≤ s.length := by
  induction n with
  | zero => intro s h; cases s with | nil => simp [weights, span] | cons c cs => simp at h
  | succ n ih =>
    intro s h
    by_cases hp : startsWith s b!"color=\"rgba(" = true
    · obtain ⟨t, rfl⟩ := List.isPrefixOf_iff_prefix.1 hp
      have := ih t (by simp at h; omega)
      have e : weights (b!"color=\"rgba(" ++ t) = span t + weights t := by
        simp [weights, weight, startsWith, List.isPrefixOf]
      have e2 : span (b!"color=\"rgba(" ++ t) = 0 := by simp [span, inner, isDigit, isSpace]
      rw [e, e2]
      simp
      omega
    · cases s with
      | nil => simp [weights, span]
      | cons c cs =>
        have h1 := ih cs (by simpa using h)
        have e : weight (c :: cs) = 0 := by unfold weight; rw [if_neg hp]
        rw [weights, e, List.length_cons]
        by_cases hc : inner c = true
        · rw [span_cons hc]; omega
        · have : span (c :: cs) = 0 := by unfold span; rw [List.takeWhile_cons, if_neg hc]; rfl
          omega

private theorem star_le (s : Str) : greedySteps (fun _ => true) (runRe rgbaTail [] []) (runSteps rgbaTail [] []) s ≤ 63 * (s.length + 1) + 5 * weights s := by
  induction s with
  | nil =>
    rw [greedySteps]
    have := tail_le []
    have e : weight [] = 0 := rfl
    rw [e] at this
    simp [weights]
    omega
  | cons c cs ih =>
    rw [greedySteps, if_pos rfl, weights, List.length_cons]
    have := tail_le (c :: cs)
    split <;> omega

private theorem end_le (o : Str) (caps : List Str) (s : Str) : runSteps [.closeGroup, .opt quotes] o caps s ≤ 3 ∧ (runRe [.closeGroup, .opt quotes] o caps s).isSome := by
  constructor
  · rw [runSteps.eq_def]
    simp only
    rw [runSteps.eq_def]
    cases s with
    | nil => simp [runSteps]
    | cons c cs => simp only; split <;> simp [runSteps, runRe]
  · rw [runRe.eq_def]
    simp only
    obtain ⟨t, ht⟩ := run_opt_end quotes o (caps ++ [o.take (o.length - s.length)]) s
    rw [ht]
    rfl

private theorem greedy_always_le {α : Type} {p : Byte → Bool} {k : Str → Option α} {kc : Str → Nat} {m : Nat}
    (h : ∀ s, (k s).isSome) (hm : ∀ s, kc s ≤ m) (s : Str) : (greedy p k s).isSome ∧ greedySteps p k kc s ≤ s.length + 1 + m := by
  induction s with
  | nil => exact ⟨h [], by rw [greedySteps]; have := hm []; simp; omega⟩
  | cons c cs ih =>
    obtain ⟨y, hy⟩ := Option.isSome_iff_exists.1 ih.1
    rw [greedy, greedySteps, hy]
    split
    · exact ⟨rfl, by simp only [List.length_cons]; omega⟩
    · exact ⟨h _, by have := hm (c :: cs); simp only [List.length_cons]; omega⟩

private def hashTail : List RePiece := lits b!"#" ++ [.openGroup, .plus (.set [.xdigit]), .closeGroup, .opt quotes]

private theorem hash_le (s : Str) : runSteps hashTail [] [] s ≤ 7 + s.length ∧ (runRe hashTail [] [] s = none → runSteps hashTail [] [] s ≤ 3) := by
  have h := steps_lit b!"#" [.openGroup, .plus (.set [.xdigit]), .closeGroup, .opt quotes] [] [] s
  have hr := run_lit b!"#" [.openGroup, .plus (.set [.xdigit]), .closeGroup, .opt quotes] [] [] s
  unfold hashTail
  have e : (b!"#").length = 1 := rfl
  rw [e] at h hr
  rw [lits, hr]
  by_cases hs : startsWith s b!"#" = true
  · rw [if_pos hs] at h ⊢
    cases s with
    | nil => cases hs
    | cons c cs =>
      rw [List.drop_succ_cons, List.drop_zero] at h ⊢
      rw [runSteps.eq_def (.openGroup :: _)] at h
      rw [runRe.eq_def]
      simp only at h ⊢
      rw [runSteps.eq_def (.plus _ :: _)] at h
      rw [runRe.eq_def]
      cases cs with
      | nil => simp only at h; exact ⟨by omega, fun _ => by omega⟩
      | cons d ds =>
        simp only at h ⊢
        by_cases hd : (Cls.set [.xdigit]).test d = true
        · rw [if_pos hd] at h ⊢
          obtain ⟨h1, h2⟩ := greedy_always_le (p := (Cls.set [.xdigit]).test) (fun s => (end_le (d :: ds) [] s).2) (fun s => (end_le (d :: ds) [] s).1) ds
          refine ⟨?_, fun hn => ?_⟩
          · simp only [List.length_cons]; omega
          · rw [hn] at h1; cases h1
        · rw [if_neg hd] at h ⊢
          exact ⟨by omega, fun _ => by omega⟩
  · rw [if_neg hs] at h ⊢
    exact ⟨by omega, fun _ => by omega⟩

private def hexTail : List RePiece := lits b!"color=" ++ .opt quotes :: hashTail

private theorem hex_le (s : Str) : runSteps hexTail [] [] s ≤ 14 + 1 * s.length ∧ (runRe hexTail [] [] s = none → runSteps hexTail [] [] s ≤ 14) := by
  have h := steps_lit b!"color=" (.opt quotes :: hashTail) [] [] s
  have hr := run_lit b!"color=" (.opt quotes :: hashTail) [] [] s
  unfold hexTail
  have e : (b!"color=").length = 6 := rfl
  rw [e] at h hr
  rw [lits, hr]
  by_cases hs : startsWith s b!"color=" = true
  · rw [if_pos hs] at h ⊢
    have hl : (s.drop 6).length ≤ s.length := by simp
    generalize s.drop 6 = t at *
    rw [runSteps.eq_def (.opt _ :: _)] at h
    rw [runRe.eq_def]
    cases t with
    | nil =>
      simp only at h ⊢
      have h1 := hash_le []
      simp only [List.length_nil] at h1
      exact ⟨by omega, fun _ => by omega⟩
    | cons c cs =>
      simp only [List.length_cons] at h hl ⊢
      have h1 := hash_le cs
      have h2 := hash_le (c :: cs)
      simp only [List.length_cons] at h2
      by_cases hq : quotes.test c = true
      · rw [if_pos hq] at h ⊢
        cases hx : runRe hashTail [] [] cs with
        | some x =>
          rw [hx] at h
          simp only at h
          refine ⟨by omega, fun hn => by cases hn⟩
        | none =>
          rw [hx] at h
          simp only at h
          have h3 := h1.2 hx
          have hnone : runRe hashTail [] [] (c :: cs) = none := by
            have := run_hash (c :: cs)
            split at this
            · rename_i h; injection h with h _; rw [test_quotes, h] at hq; exact absurd hq (by decide)
            · exact Option.map_eq_none_iff.1 this
          have h4 := h2.2 hnone
          exact ⟨by omega, fun _ => by omega⟩
      · rw [if_neg hq] at h ⊢
        refine ⟨by omega, fun hn => ?_⟩
        have := h2.2 hn
        omega
  · rw [if_neg hs] at h ⊢
    exact ⟨by omega, fun _ => by omega⟩

/-- C145: searching a tag for a colour takes a number of steps that grows with the square of the length of the tag at most, so no tag makes
the search take time out of proportion. -/
theorem C145_steps (tag : Str) : searchSteps (regex hexPattern) tag ≤ 17 * (tag.length + 1) ^ 2 ∧ searchSteps (regex rgbaPattern) tag ≤ 69 * (tag.length + 1) ^ 2 := by
  have hsum : ∀ (r : List RePiece) (A : Nat), (∀ s, runSteps r [] [] s ≤ A * (s.length + 1)) → ∀ s, searchSteps r s ≤ A * (s.length + 1) ^ 2 := by
    intro r A h s
    induction s with
    | nil => rw [searchSteps]; simpa using h []
    | cons c cs ih =>
      rw [searchSteps]
      have := h (c :: cs)
      simp only [List.length_cons] at *
      cases runRe r [] [] (c :: cs) with
      | some x => simp only; nlinarith
      | none => simp only; nlinarith
  constructor
  · refine hsum _ 17 (fun s => ?_) tag
    rw [hex_pieces, runSteps.eq_def]
    have h := greedy_any_le (k := runRe hexTail [] []) (kc := runSteps hexTail [] []) (m := 14) (A := 1) (fun s => (hex_le s).2) (fun s => (hex_le s).1) s
    have h2 : greedySteps (fun _ => true) (runRe hexTail [] []) (runSteps hexTail [] []) s ≤ 15 * (s.length + 1) + s.length := by
      refine le_trans h ?_
      split
      · rw [Nat.one_mul]
      · exact Nat.add_le_add_left (Nat.zero_le _) _
    have e : (Cls.any).test = fun _ => true := rfl
    simp only [e]
    exact le_trans (Nat.add_le_add_left h2 1) (by omega)
  · refine hsum _ 69 (fun s => ?_) tag
    rw [rgba_pieces, runSteps.eq_def]
    have h := star_le s
    have h1 := weights_le s.length s (le_refl _)
    have e : (Cls.any).test = fun _ => true := rfl
    simp only [e]
    exact le_trans (Nat.add_le_add_left h 1) (by omega)

/-! ### Cases -/

/-- `C145_sound`: the colour of a tag with two, the second is found; what is described, and where it starts. -/
example : regexSearch (regex hexPattern) b!" color=#ff0000 color='#00ff00'>" = some ([], [b!"00ff00"], b!">") := by decide +kernel

example : Describes (regex lineSepPattern) lineSep := by
  have : regex lineSepPattern = [.one (.set [.chr 0xe2]), .one (.set [.chr 0x80]), .one (.set [.chr 0xa8])] := by decide +kernel
  rw [this]
  exact .one rfl (.one rfl (.one rfl .nil))

/-- `C145_complete`: no `#`. -/
example : regexSearch (regex hexPattern) b!" color=red" = none := by decide +kernel

/-- `C145_colour`: both expressions, with spaces, and a colour of five digits. -/
example : regexSearch (regex rgbaPattern) b!" color=\"rgba( 255, 0 ,12,0)\"" = some ([], [b!"255", b!"0", b!"12", b!"0"], []) ∧
    (fontColourRe 1 [] b!" color=\"rgba( 255, 0 ,12,0)\"").toOption.isSome = true ∧
    fontColourRe 1 [] b!" color=#12345" = .error (.subrip 1 b!" color=#12345" badColourText []) := by decide +kernel

/-- `C145_lines`: two separators. -/
example : splitRegex (regex lineSepPattern) (b!"a" ++ lineSep ++ lineSep ++ b!"b") = [b!"a", [], b!"b"] := by decide +kernel

/-- `C145_steps`: a tag in which the first expression finds nothing and is tried at every place. -/
example : searchSteps (regex hexPattern) b!"color=color=" = 251 := by decide +kernel

end LibSub
