/-
Helper lemmas about splitting, trimming and reading lines.
-/
import Verif.Lemmas.Text
import Mathlib.Data.List.Infix

namespace LibSub

/-! ### splitAny -/

theorem splitAny_ne_nil (p : Byte → Bool) (s : Str) : splitAny p s ≠ [] := by
  induction s with
  | nil => simp [splitAny]
  | cons c cs ih =>
    unfold splitAny
    split
    · simp
    · split <;> simp

theorem splitAny_noSep {p : Byte → Bool} {a : Str} (h : ∀ c ∈ a, p c = false) : splitAny p a = [a] := by
  induction a with
  | nil => rfl
  | cons c cs ih =>
    unfold splitAny
    rw [if_neg (by simp [h c (by simp)]), ih (fun c hc => h c (by simp [hc]))]

theorem splitAny_append {p : Byte → Bool} {a : Str} {s : Byte} {b : Str} (h : ∀ c ∈ a, p c = false) (hs : p s = true) :
    splitAny p (a ++ s :: b) = a :: splitAny p b := by
  induction a with
  | nil => show splitAny p (s :: b) = _; rw [splitAny, if_pos hs]
  | cons c cs ih =>
    show splitAny p (c :: (cs ++ s :: b)) = _
    rw [splitAny, if_neg (by simp [h c (by simp)]), ih (fun c hc => h c (by simp [hc]))]

/-- A string has no separator, or it is cut at its first one. -/
theorem splitAny_cases (p : Byte → Bool) (t : Str) :
    (splitAny p t = [t] ∧ ∀ c ∈ t, p c = false) ∨
    (∃ a s b, t = a ++ s :: b ∧ (∀ c ∈ a, p c = false) ∧ p s = true ∧ splitAny p t = a :: splitAny p b) := by
  by_cases h : ∀ c ∈ t, p c = false
  · exact .inl ⟨splitAny_noSep h, h⟩
  · right
    have h' : ∃ a s b, t = a ++ s :: b ∧ (∀ c ∈ a, p c = false) ∧ p s = true := by
      induction t with
      | nil => simp at h
      | cons c cs ih =>
        by_cases hc : p c = true
        · exact ⟨[], c, cs, rfl, by simp, hc⟩
        · have hc' : p c = false := by simpa using hc
          have : ¬ ∀ c ∈ cs, p c = false := by
            intro hh
            apply h
            intro d hd
            rw [List.mem_cons] at hd
            rcases hd with rfl | hd
            · exact hc'
            · exact hh d hd
          obtain ⟨a, s, b, e, h1, h2⟩ := ih this
          refine ⟨c :: a, s, b, by rw [e]; rfl, ?_, h2⟩
          intro d hd
          rw [List.mem_cons] at hd
          rcases hd with rfl | hd
          · exact hc'
          · exact h1 d hd
    obtain ⟨a, s, b, e, h1, h2⟩ := h'
    exact ⟨a, s, b, e, h1, h2, by rw [e, splitAny_append h1 h2]⟩

theorem splitAny_length (p : Byte → Bool) (t : Str) : (splitAny p t).length = t.countP p + 1 := by
  induction t with
  | nil => rfl
  | cons c cs ih =>
    unfold splitAny
    by_cases hc : p c = true
    · rw [if_pos hc, List.length_cons, ih, List.countP_cons_of_pos hc]
    · rw [if_neg hc, List.countP_cons_of_neg hc]
      have := splitAny_ne_nil p cs
      revert ih
      cases hs : splitAny p cs with
      | nil => contradiction
      | cons t ts => simp

/-- No part contains a separator. -/
theorem splitAny_noSep_mem (p : Byte → Bool) (t : Str) : ∀ x ∈ splitAny p t, ∀ c ∈ x, p c = false := by
  induction t with
  | nil => simp [splitAny]
  | cons c cs ih =>
    unfold splitAny
    by_cases hc : p c = true
    · rw [if_pos hc]
      intro x hx
      rw [List.mem_cons] at hx
      rcases hx with rfl | hx
      · simp
      · exact ih x hx
    · rw [if_neg hc]
      have hne := splitAny_ne_nil p cs
      revert ih
      cases hs : splitAny p cs with
      | nil => contradiction
      | cons t ts =>
        intro ih x hx
        simp only [List.mem_cons] at hx
        rcases hx with rfl | hx
        · intro d hd
          rw [List.mem_cons] at hd
          rcases hd with rfl | hd
          · simpa using hc
          · exact ih t (by simp) d hd
        · exact ih x (by simp [hx])

/-! ### splitCompress -/

theorem splitCompressGo_seps {p : Byte → Bool} {s b : Str} (h : ∀ c ∈ s, p c = true) :
    splitCompressGo p true (s ++ b) = splitCompressGo p true b := by
  induction s with
  | nil => rfl
  | cons c cs ih =>
    show splitCompressGo p true (c :: (cs ++ b)) = _
    rw [splitCompressGo, if_pos (h c (by simp)), if_pos rfl, ih (fun c hc => h c (by simp [hc]))]

theorem splitCompressGo_token {p : Byte → Bool} {a : Str} (prev : Bool) (h : ∀ c ∈ a, p c = false) :
    splitCompressGo p prev a = [a] := by
  induction a generalizing prev with
  | nil => rfl
  | cons c cs ih =>
    rw [splitCompressGo, if_neg (by simp [h c (by simp)]), ih false (fun c hc => h c (by simp [hc]))]

/-- A token, one or more separators, and the rest. -/
theorem splitCompressGo_append {p : Byte → Bool} {a s b : Str} (prev : Bool) (ha : ∀ c ∈ a, p c = false) (hne : a ≠ [])
    (hs : ∀ c ∈ s, p c = true) (hsne : s ≠ []) :
    splitCompressGo p prev (a ++ (s ++ b)) = a :: splitCompressGo p true b := by
  induction a generalizing prev with
  | nil => contradiction
  | cons c cs ih =>
    show splitCompressGo p prev (c :: (cs ++ (s ++ b))) = _
    rw [splitCompressGo, if_neg (by simp [ha c (by simp)])]
    cases cs with
    | nil =>
      cases s with
      | nil => contradiction
      | cons d ds =>
        show (match splitCompressGo p false (d :: (ds ++ b)) with | [] => _ | t :: ts => _) = _
        rw [splitCompressGo, if_pos (hs d (by simp)), if_neg (by simp), splitCompressGo_seps (fun c hc => hs c (by simp [hc]))]
    | cons e es =>
      rw [ih false (fun c hc => ha c (by simp [hc])) (by simp)]

/-! ### trimming -/

theorem trimRightIf_append {p : Byte → Bool} {a b : Str} (hb : ∀ c ∈ b, p c = true) : trimRightIf p (a ++ b) = trimRightIf p a := by
  unfold trimRightIf
  rw [List.reverse_append, List.dropWhile_append_of_pos (by simpa using hb)]

theorem trimRightIf_of_last {p : Byte → Bool} {a : Str} (h : ∀ c, a.getLast? = some c → p c = false) : trimRightIf p a = a := by
  unfold trimRightIf
  cases hr : a.reverse with
  | nil => simpa using hr.symm
  | cons c cs =>
    have : a.getLast? = some c := by rw [List.getLast?_eq_head?_reverse, hr]; rfl
    rw [List.dropWhile_cons_of_neg (by simp [h c this]), ← hr, List.reverse_reverse]

theorem trimRightIf_none {p : Byte → Bool} {a : Str} (h : ∀ c ∈ a, p c = false) : trimRightIf p a = a :=
  trimRightIf_of_last (fun c hc => h c (List.mem_of_getLast? hc))

theorem trimRightIf_nil (p : Byte → Bool) : trimRightIf p [] = [] := rfl

theorem trimRightIf_all {p : Byte → Bool} {a : Str} (h : ∀ c ∈ a, p c = true) : trimRightIf p a = [] := by
  have := trimRightIf_append (a := []) h
  simpa [trimRightIf_nil] using this

/-- What is left does not end in a trimmed byte. -/
theorem trimRightIf_last (p : Byte → Bool) (a : Str) (c : Byte) (h : (trimRightIf p a).getLast? = some c) : p c = false := by
  unfold trimRightIf at h
  rw [List.getLast?_reverse] at h
  have := List.head?_dropWhile_not p a.reverse
  rw [h] at this
  simpa using this

theorem trimRightIf_prefix (p : Byte → Bool) (a : Str) : ∃ b, a = trimRightIf p a ++ b ∧ ∀ c ∈ b, p c = true := by
  refine ⟨(a.reverse.takeWhile p).reverse, ?_, ?_⟩
  · unfold trimRightIf
    rw [← List.reverse_append, List.takeWhile_append_dropWhile, List.reverse_reverse]
  · intro c hc
    rw [List.mem_reverse] at hc
    exact List.all_eq_true.1 List.all_takeWhile c hc

theorem removeBom_cases (l : Str) : (∃ r, l = 0xef :: 0xbb :: 0xbf :: r ∧ removeBom l = r) ∨ ((¬ ∃ r, l = 0xef :: 0xbb :: 0xbf :: r) ∧ removeBom l = l) := by
  unfold removeBom
  split
  · exact .inl ⟨_, rfl, rfl⟩
  · rename_i h
    exact .inr ⟨fun ⟨r, e⟩ => h r e, rfl⟩

theorem removeBom_bom (l : Str) : removeBom (0xef :: 0xbb :: 0xbf :: l) = l := rfl

theorem removeBom_of_not {l : Str} (h : ∀ r, l ≠ 0xef :: 0xbb :: 0xbf :: r) : removeBom l = l := by
  rcases removeBom_cases l with ⟨r, e, _⟩ | ⟨_, e⟩
  · exact absurd e (h r)
  · exact e

/-! ### splitStr, replaceAll -/

theorem startsWith_iff {s pre : Str} : startsWith s pre = true ↔ pre <+: s := List.isPrefixOf_iff_prefix

theorem startsWith_false_iff {s pre : Str} : startsWith s pre = false ↔ ¬ pre <+: s := by
  rw [← startsWith_iff, Bool.not_eq_true]

/-- No occurrence of `sep` in `a ++ b` starts inside `a`. -/
def NoOcc (sep a b : Str) : Prop := ∀ x u, a = x ++ u → u ≠ [] → ¬ sep <+: u ++ b

theorem NoOcc.tail {sep : Str} {c : Byte} {a b : Str} (h : NoOcc sep (c :: a) b) : NoOcc sep a b := by
  intro x u e hu
  exact h (c :: x) u (by rw [e]; rfl) hu

theorem NoOcc.head {sep : Str} {c : Byte} {a b : Str} (h : NoOcc sep (c :: a) b) : ¬ sep <+: (c :: a) ++ b :=
  h [] (c :: a) rfl (by simp)

theorem noOcc_of_not_infix {sep a : Str} (h : ¬ sep <:+: a) : NoOcc sep a [] := by
  intro x u e _ hp
  rw [List.append_nil] at hp
  apply h
  obtain ⟨y, hy⟩ := hp
  exact ⟨x, y, by rw [e, ← hy]; simp⟩

theorem splitStrGo_skip (sep : Str) (x b : Str) : splitStrGo sep x.length (x ++ b) = splitStrGo sep 0 b := by
  induction x with
  | nil => rfl
  | cons c cs ih =>
    show splitStrGo sep (cs.length + 1) (c :: (cs ++ b)) = _
    rw [splitStrGo, ih]

theorem splitStr_none {sep a : Str} (h : NoOcc sep a []) : splitStr sep a = [a] := by
  unfold splitStr
  induction a with
  | nil => rfl
  | cons c cs ih =>
    rw [splitStrGo, if_neg (by rw [startsWith_iff]; simpa using h.head), ih h.tail]

theorem splitStr_append {sep a b : Str} (hsep : sep ≠ []) (h : NoOcc sep a (sep ++ b)) :
    splitStr sep (a ++ (sep ++ b)) = a :: splitStr sep b := by
  unfold splitStr
  induction a with
  | nil =>
    obtain ⟨c, cs, rfl⟩ := List.exists_cons_of_ne_nil hsep
    show splitStrGo (c :: cs) 0 (c :: (cs ++ b)) = _
    rw [splitStrGo, if_pos (by rw [startsWith_iff]; exact ⟨b, by simp⟩)]
    rw [show (c :: cs).length - 1 = cs.length by simp, splitStrGo_skip]
  | cons c cs ih =>
    show splitStrGo sep 0 (c :: (cs ++ (sep ++ b))) = _
    rw [splitStrGo, if_neg (by rw [startsWith_iff]; exact h.head), ih h.tail]

theorem replaceAllGo_skip (s r : Str) (x b : Str) : replaceAllGo s r x.length (x ++ b) = replaceAllGo s r 0 b := by
  induction x with
  | nil => rfl
  | cons c cs ih =>
    show replaceAllGo s r (cs.length + 1) (c :: (cs ++ b)) = _
    rw [replaceAllGo, ih]

theorem replaceAllGo_noOcc {s r a b : Str} (h : NoOcc s a b) : replaceAllGo s r 0 (a ++ b) = a ++ replaceAllGo s r 0 b := by
  induction a with
  | nil => rfl
  | cons c cs ih =>
    show replaceAllGo s r 0 (c :: (cs ++ b)) = _
    rw [replaceAllGo, if_neg (by rw [startsWith_iff]; exact h.head), ih h.tail]
    rfl

theorem replaceAll_none {s r a : Str} (h : NoOcc s a []) : replaceAll a s r = a := by
  unfold replaceAll
  split
  · rfl
  · have := replaceAllGo_noOcc (r := r) h
    rw [List.append_nil] at this
    rw [this]; simp [replaceAllGo]

theorem replaceAll_append {s r a b : Str} (hs : s ≠ []) (h : NoOcc s a (s ++ b)) :
    replaceAll (a ++ (s ++ b)) s r = a ++ (r ++ replaceAll b s r) := by
  unfold replaceAll
  have : s.isEmpty = false := by cases s with | nil => contradiction | cons => rfl
  simp only [this, Bool.false_eq_true, if_false]
  rw [replaceAllGo_noOcc h]
  obtain ⟨c, cs, rfl⟩ := List.exists_cons_of_ne_nil hs
  show a ++ replaceAllGo (c :: cs) r 0 (c :: (cs ++ b)) = _
  rw [replaceAllGo, if_pos (by rw [startsWith_iff]; exact ⟨b, by simp⟩)]
  rw [show (c :: cs).length - 1 = cs.length by simp, replaceAllGo_skip]

/-! ### lines -/

theorem findIdx?_newline {a b : Str} (h : (10 : Byte) ∉ a) : (a ++ 10 :: b).findIdx? (· == 10) = some a.length := by
  induction a with
  | nil => rfl
  | cons c cs ih =>
    simp only [List.mem_cons, not_or] at h
    show (c :: (cs ++ 10 :: b)).findIdx? (· == 10) = _
    rw [List.findIdx?_cons, if_neg (by simp only [beq_iff_eq]; exact fun e => h.1 e.symm), ih h.2]
    rfl

theorem getLineString_newline {a b : Str} (h : (10 : Byte) ∉ a) : getLineString (a ++ 10 :: b) = some (a, b) := by
  unfold getLineString
  rw [if_neg (by simp), findIdx?_newline h]
  simp

theorem getLineString_last {a : Str} (h : (10 : Byte) ∉ a) (hne : a ≠ []) : getLineString a = some (a, []) := by
  unfold getLineString
  rw [if_neg (by simpa using hne), List.findIdx?_eq_none_iff.2 (by intro x hx; simp only [beq_eq_false_iff_ne]; rintro rfl; exact h hx)]

theorem getLineString_nil : getLineString [] = none := rfl

/-- A string has no newline, or is cut at its first one. -/
theorem newline_cases (s : Str) : (10 : Byte) ∉ s ∨ ∃ a b, s = a ++ 10 :: b ∧ (10 : Byte) ∉ a := by
  by_cases h : (10 : Byte) ∈ s
  · right
    obtain ⟨a, b, e, h⟩ := List.eq_append_cons_of_mem h
    exact ⟨a, b, e, h⟩
  · exact .inl h

theorem getLineString_shorter {s l rest : Str} (h : getLineString s = some (l, rest)) : rest.length < s.length := by
  rcases newline_cases s with hn | ⟨a, b, rfl, ha⟩
  · by_cases hs : s = []
    · subst hs; cases h
    · rw [getLineString_last hn hs] at h
      cases h
      exact List.length_pos_iff.2 hs
  · rw [getLineString_newline ha] at h
    cases h
    simp; omega

theorem fgetsTake_le (n : Nat) (s : Str) : (fgetsTake n s).length ≤ s.length := by
  induction n generalizing s with
  | zero => simp [fgetsTake]
  | succ n ih =>
    cases s with
    | nil => simp [fgetsTake]
    | cons c cs =>
      unfold fgetsTake
      split
      · simp
      · simpa using ih cs

theorem fgetsTake_pos (n : Nat) {s : Str} (h : s ≠ []) : 0 < (fgetsTake (n + 1) s).length := by
  cases s with
  | nil => contradiction
  | cons c cs =>
    unfold fgetsTake
    split <;> simp

theorem getLineFile_shorter {s l rest : Str} (h : getLineFile s = some (l, rest)) : rest.length < s.length := by
  unfold getLineFile at h
  split at h
  · cases h
  · rename_i he
    have hne : s ≠ [] := by simpa using he
    simp only [Option.some.injEq, Prod.mk.injEq] at h
    rw [← h.2, List.length_drop]
    have : 0 < (fgetsTake 255 s).length := fgetsTake_pos 254 hne
    have := List.length_pos_iff.2 hne
    omega

theorem allLinesGo_fuel {g : Str → Option (Str × Str)} (hg : ∀ s l r, g s = some (l, r) → r.length < s.length) (f f' : Nat) (s : Str)
    (h : s.length < f) (h' : s.length < f') : allLinesGo g f s = allLinesGo g f' s := by
  induction f generalizing f' s with
  | zero => omega
  | succ f ih =>
    cases f' with
    | zero => omega
    | succ f' =>
      unfold allLinesGo
      cases hs : g s with
      | none => rfl
      | some lr =>
        obtain ⟨l, r⟩ := lr
        have := hg s l r hs
        simp only
        rw [ih f' r (by omega) (by omega)]

theorem linesOfString_eq (s : Str) : linesOfString s = match getLineString s with | none => [] | some (l, r) => l :: linesOfString r := by
  unfold linesOfString
  rw [allLinesGo]
  cases hs : getLineString s with
  | none => rfl
  | some lr =>
    obtain ⟨l, r⟩ := lr
    have := getLineString_shorter hs
    simp only
    rw [allLinesGo_fuel (fun _ _ _ h => getLineString_shorter h) _ (r.length + 1) r (by omega) (by omega)]

theorem linesOfFile_eq (s : Str) : linesOfFile s = match getLineFile s with | none => [] | some (l, r) => l :: linesOfFile r := by
  unfold linesOfFile
  rw [allLinesGo]
  cases hs : getLineFile s with
  | none => rfl
  | some lr =>
    obtain ⟨l, r⟩ := lr
    have := getLineFile_shorter hs
    simp only
    rw [allLinesGo_fuel (fun _ _ _ h => getLineFile_shorter h) _ (r.length + 1) r (by omega) (by omega)]

theorem linesOfString_nil : linesOfString [] = [] := rfl

theorem linesOfString_newline {a b : Str} (h : (10 : Byte) ∉ a) : linesOfString (a ++ 10 :: b) = a :: linesOfString b := by
  rw [linesOfString_eq, getLineString_newline h]

theorem linesOfString_last {a : Str} (h : (10 : Byte) ∉ a) (hne : a ≠ []) : linesOfString a = [a] := by
  rw [linesOfString_eq, getLineString_last h hne]
  rfl

theorem fgetsTake_newline {a b : Str} {n : Nat} (h : (10 : Byte) ∉ a) (hn : a.length < n) : fgetsTake n (a ++ 10 :: b) = a ++ [10] := by
  induction a generalizing n with
  | nil =>
    cases n with
    | zero => simp at hn
    | succ n => rfl
  | cons c cs ih =>
    simp only [List.mem_cons, not_or] at h
    cases n with
    | zero => simp at hn
    | succ n =>
      show fgetsTake (n + 1) (c :: (cs ++ 10 :: b)) = _
      rw [fgetsTake, if_neg (by simp only [beq_iff_eq]; exact fun e => h.1 e.symm), ih h.2 (by simpa using hn)]
      rfl

theorem fgetsTake_last {a : Str} {n : Nat} (h : (10 : Byte) ∉ a) (hn : a.length ≤ n) : fgetsTake n a = a := by
  induction a generalizing n with
  | nil => cases n <;> rfl
  | cons c cs ih =>
    simp only [List.mem_cons, not_or] at h
    cases n with
    | zero => simp at hn
    | succ n =>
      rw [fgetsTake, if_neg (by simp only [beq_iff_eq]; exact fun e => h.1 e.symm), ih h.2 (by simpa using hn)]

theorem takeWhile_noNul {a : Str} (h : (0 : Byte) ∉ a) : a.takeWhile (· != 0) = a := by
  have := List.takeWhile_append_of_pos (p := (· != 0)) (l₁ := a) (l₂ := []) (by
    intro c hc
    simp only [bne_iff_ne]
    rintro rfl
    exact h hc)
  simpa using this

theorem linesOfFile_nil : linesOfFile [] = [] := rfl

theorem linesOfFile_newline {a b : Str} (h : (10 : Byte) ∉ a) (h0 : (0 : Byte) ∉ a) (hlen : a.length ≤ 254) :
    linesOfFile (a ++ 10 :: b) = (a ++ [10]) :: linesOfFile b := by
  rw [linesOfFile_eq]
  unfold getLineFile
  rw [if_neg (by simp), fgetsTake_newline h (by omega)]
  simp only
  rw [takeWhile_noNul (by simpa using h0)]
  congr 2
  rw [show a ++ 10 :: b = (a ++ [10]) ++ b by simp, List.drop_left]

theorem linesOfFile_last {a : Str} (h : (10 : Byte) ∉ a) (h0 : (0 : Byte) ∉ a) (hne : a ≠ []) (hlen : a.length ≤ 255) :
    linesOfFile a = [a] := by
  rw [linesOfFile_eq]
  unfold getLineFile
  rw [if_neg (by simpa using hne), fgetsTake_last h hlen]
  simp only
  rw [takeWhile_noNul h0, List.drop_length]
  rfl

end LibSub
