/-
Property C152: a read error is taken for the end of the file.
-/
import Verif.Model.ReadError
import Verif.Props.Incremental

namespace LibSub

/-! ### Specification -/

/-- Whole lines: ended by a newline, or cut after 255 bytes. -/
inductive WholeLines : Str → Prop
  | done : WholeLines []
  | line (a t : Str) : (10 : Byte) ∉ a → a.length < 255 → WholeLines t → WholeLines (a ++ 10 :: t)
  | long (a t : Str) : (10 : Byte) ∉ a → a.length = 255 → WholeLines t → WholeLines (a ++ t)

/-- `t` are the whole lines of `s`, before a line that is neither ended nor of 255 bytes. -/
def Delivered (s t : Str) : Prop := WholeLines t ∧ ∃ u, s = t ++ u ∧ (10 : Byte) ∉ u ∧ u.length < 255

/-! ### Lines -/

private theorem take_short : ∀ (n : Nat) (u : Str), (10 : Byte) ∉ u → u.length ≤ n → fgetsTake n u = u
  | 0, u, _, h => by cases u <;> simp_all [fgetsTake]
  | n + 1, [], _, _ => rfl
  | n + 1, c :: u, h1, h2 => by
    simp only [List.mem_cons, not_or] at h1
    rw [fgetsTake, if_neg (by simpa using Ne.symm h1.1), take_short n u h1.2 (by simpa using h2)]

private theorem take_line : ∀ (n : Nat) (a t : Str), (10 : Byte) ∉ a → a.length < n → fgetsTake n (a ++ 10 :: t) = a ++ [10]
  | 0, a, t, _, h => absurd h (by simp)
  | n + 1, [], t, _, _ => by simp [fgetsTake]
  | n + 1, c :: a, t, h1, h2 => by
    simp only [List.mem_cons, not_or] at h1
    rw [List.cons_append, fgetsTake, if_neg (by simpa using Ne.symm h1.1), take_line n a t h1.2 (by simpa using h2)]
    rfl

private theorem take_long : ∀ (n : Nat) (a t : Str), (10 : Byte) ∉ a → a.length = n → fgetsTake n (a ++ t) = a
  | 0, a, t, _, h => by
    cases a with
    | nil => cases t <;> rfl
    | cons => cases h
  | n + 1, [], t, _, h => by cases h
  | n + 1, c :: a, t, h1, h2 => by
    simp only [List.mem_cons, not_or] at h1
    rw [List.cons_append, fgetsTake, if_neg (by simpa using Ne.symm h1.1), take_long n a t h1.2 (by simpa using h2)]

private theorem whole_exists : ∀ (n : Nat) (s : Str), s.length ≤ n → ∃ t, Delivered s t
  | n, s, hn => by
    by_cases h10 : (10 : Byte) ∈ s.take 255
    · obtain ⟨a', b', h1, h3⟩ : ∃ a' b', s.take 255 = a' ++ 10 :: b' ∧ (10 : Byte) ∉ a' := by
        have := List.eq_append_cons_of_mem h10
        obtain ⟨a', b', h, h'⟩ := this
        exact ⟨a', b', h, h'⟩
      have hs : s = a' ++ 10 :: (b' ++ s.drop 255) := by
        conv => lhs; rw [← List.take_append_drop 255 s, h1]
        simp
      have hl : a'.length < 255 := by
        have := congrArg List.length h1
        simp only [List.length_take, List.length_append, List.length_cons] at this
        omega
      cases n with
      | zero => rw [hs] at hn; simp at hn
      | succ n =>
        obtain ⟨t, ht, u, hu, hu1, hu2⟩ := whole_exists n (b' ++ s.drop 255) (by have := congrArg List.length hs; simp only [List.length_append, List.length_cons] at this ⊢; omega)
        exact ⟨a' ++ 10 :: t, .line a' t h3 hl ht, u, by rw [hs, hu]; simp, hu1, hu2⟩
    · by_cases hl : s.length < 255
      · refine ⟨[], .done, s, rfl, ?_, hl⟩
        rwa [List.take_of_length_le (by omega)] at h10
      · cases n with
        | zero => omega
        | succ n =>
          obtain ⟨t, ht, u, hu, hu1, hu2⟩ := whole_exists n (s.drop 255) (by simp only [List.length_drop]; omega)
          exact ⟨s.take 255 ++ t, .long _ t h10 (by simp only [List.length_take]; omega) ht, u, by rw [List.append_assoc, ← hu, List.take_append_drop], hu1, hu2⟩

private theorem no_nl {a x b y : Str} (h : a ++ 10 :: x = b ++ y) (hb : (10 : Byte) ∉ b) (hl : a.length < b.length) : False := by
  rcases List.append_eq_append_iff.1 h with ⟨c, h1, h2⟩ | ⟨c, h1, _⟩
  · subst h1
    cases c with
    | nil => simp at hl
    | cons d c =>
      injection h2 with h3 _
      subst h3
      exact hb (by simp)
  · subst h1
    simp only [List.length_append] at hl
    omega

private theorem first_nl {a x b y : Str} (h : a ++ 10 :: x = b ++ 10 :: y) (ha : (10 : Byte) ∉ a) (hb : (10 : Byte) ∉ b) : a = b ∧ x = y := by
  have : a.length = b.length := by
    rcases Nat.lt_trichotomy a.length b.length with hl | hl | hl
    · exact (no_nl h hb hl).elim
    · exact hl
    · exact (no_nl h.symm ha hl).elim
  obtain ⟨h1, h2⟩ := List.append_inj h this
  exact ⟨h1, (List.cons.inj h2).2⟩

private theorem whole_unique {t : Str} (h : WholeLines t) : ∀ {t' u u' : Str}, WholeLines t' → t ++ u = t' ++ u' → (10 : Byte) ∉ u → u.length < 255 → (10 : Byte) ∉ u' → u'.length < 255 → t = t' := by
  induction h with
  | done =>
    intro t' u u' h' e h1 h2 _ _
    cases h' with
    | done => rfl
    | line a t _ _ _ => exact absurd (show (10 : Byte) ∈ u by rw [List.nil_append] at e; rw [e]; simp) h1
    | long a t _ h5 _ =>
      have := congrArg List.length e
      simp only [List.nil_append, List.length_append] at this
      omega
  | line a t h3 h4 _ ih =>
    intro t' u u' h' e h1 h2 h1' h2'
    cases h' with
    | done => exact absurd (show (10 : Byte) ∈ u' by rw [List.nil_append] at e; rw [← e]; simp) h1'
    | line a' t' h5 h6 h7 =>
      simp only [List.append_assoc, List.cons_append] at e
      obtain ⟨rfl, e2⟩ := first_nl e h3 h5
      rw [ih h7 e2 h1 h2 h1' h2']
    | long a' t' h5 h6 h7 =>
      simp only [List.append_assoc, List.cons_append] at e
      exact (no_nl e h5 (by omega)).elim
  | long a t h3 h4 _ ih =>
    intro t' u u' h' e h1 h2 h1' h2'
    cases h' with
    | done =>
      have := congrArg List.length e
      simp only [List.nil_append, List.length_append] at this
      omega
    | line a' t' h5 h6 h7 =>
      simp only [List.append_assoc, List.cons_append] at e
      exact (no_nl e.symm h3 (by omega)).elim
    | long a' t' h5 h6 h7 =>
      simp only [List.append_assoc] at e
      obtain ⟨rfl, e2⟩ := List.append_inj e (by omega)
      rw [ih h7 e2 h1 h2 h1' h2']

private theorem go_line {g : Str → Option (Str × Str)} {l r f : Str} {n : Nat} (h : g f = some (l, r)) : allLinesGo g (n + 1) f = l :: allLinesGo g n r := by
  rw [allLinesGo, h]

private theorem go_end {g : Str → Option (Str × Str)} {f : Str} {n : Nat} (h : g f = none) : allLinesGo g n f = [] := by
  cases n with
  | zero => rfl
  | succ n => rw [allLinesGo, h]

private theorem file_get (f : Str) : getLineFile f = getLineE false f := by
  unfold getLineFile getLineE
  cases f with
  | nil => rfl
  | cons c f =>
    have : (fgetsTake 255 (c :: f)).isEmpty = false := by rw [fgetsTake]; split <;> rfl
    simp [this]

/-- One line, from a file with or without an error. -/
private theorem get_line (err : Bool) (a t : Str) (h1 : (10 : Byte) ∉ a) (h2 : a.length < 255) : getLineE err (a ++ 10 :: t) = some ((a ++ [10]).takeWhile (· != 0), t) := by
  unfold getLineE
  rw [take_line _ _ _ h1 h2]
  simp

private theorem get_long (err : Bool) (a t : Str) (h1 : (10 : Byte) ∉ a) (h2 : a.length = 255) : getLineE err (a ++ t) = some (a.takeWhile (· != 0), t) := by
  unfold getLineE
  rw [take_long _ _ _ h1 h2]
  have : a.isEmpty = false := by cases a <;> simp_all
  simp [this, h2]

private theorem get_rest (u : Str) (h1 : (10 : Byte) ∉ u) (h2 : u.length < 255) : getLineE true u = none := by
  unfold getLineE
  rw [take_short _ _ h1 (by omega)]
  have h3 : u.getLast? ≠ some 10 := fun h => h1 (List.mem_of_getLast? h)
  have h4 : u.length ≠ 255 := by omega
  simp [h3, h4]

private theorem go_whole (err : Bool) {t : Str} (h : WholeLines t) : ∀ (n : Nat) (u : Str), (t ++ u).length < n → ∃ ls m, u.length < m ∧ allLinesGo (getLineE err) n (t ++ u) = ls ++ allLinesGo (getLineE err) m u ∧
    ∀ err' n' u', (t ++ u').length < n' → ∃ m', u'.length < m' ∧ allLinesGo (getLineE err') n' (t ++ u') = ls ++ allLinesGo (getLineE err') m' u' := by
  induction h with
  | done => exact fun n u hn => ⟨[], n, by simpa using hn, rfl, fun err' n' u' hn' => ⟨n', by simpa using hn', rfl⟩⟩
  | line a t h1 h2 _ ih =>
    intro n u hn
    cases n with
    | zero => simp at hn
    | succ n =>
      obtain ⟨ls, m, hm, h3, h4⟩ := ih n u (by simp only [List.length_append, List.length_cons] at hn ⊢; omega)
      refine ⟨(a ++ [10]).takeWhile (· != 0) :: ls, m, hm, ?_, ?_⟩
      · rw [List.append_assoc, List.cons_append, go_line (get_line err a _ h1 h2), h3]; rfl
      · intro err' n' u' hn'
        cases n' with
        | zero => simp at hn'
        | succ n' =>
          obtain ⟨m', hm', h5⟩ := h4 err' n' u' (by simp only [List.length_append, List.length_cons] at hn' ⊢; omega)
          exact ⟨m', hm', by rw [List.append_assoc, List.cons_append, go_line (get_line err' a _ h1 h2), h5]; rfl⟩
  | long a t h1 h2 _ ih =>
    intro n u hn
    cases n with
    | zero => simp at hn
    | succ n =>
      obtain ⟨ls, m, hm, h3, h4⟩ := ih n u (by simp only [List.length_append] at hn ⊢; omega)
      refine ⟨a.takeWhile (· != 0) :: ls, m, hm, ?_, ?_⟩
      · rw [List.append_assoc, go_line (get_long err a _ h1 h2), h3]; rfl
      · intro err' n' u' hn'
        cases n' with
        | zero => simp at hn'
        | succ n' =>
          obtain ⟨m', hm', h5⟩ := h4 err' n' u' (by simp only [List.length_append] at hn' ⊢; omega)
          exact ⟨m', hm', by rw [List.append_assoc, go_line (get_long err' a _ h1 h2), h5]; rfl⟩

private theorem lines_file (s : Str) : linesOfFile s = linesE false s := by
  unfold linesOfFile linesE
  rw [show getLineFile = getLineE false from funext file_get]

private theorem lines_delivered {s t : Str} (h : Delivered s t) : linesE true s = linesOfFile t := by
  obtain ⟨hw, u, rfl, h1, h2⟩ := h
  obtain ⟨ls, m, _, h3, h4⟩ := go_whole true hw ((t ++ u).length + 1) u (by omega)
  obtain ⟨m', _, h5⟩ := h4 false (t.length + 1) [] (by simp)
  rw [lines_file]
  unfold linesE
  rw [h3, go_end (get_rest u h1 h2)]
  rw [List.append_nil] at h5
  rw [h5, go_end rfl]

private theorem lines_longer {s t : Str} (h : Delivered s t) (rest : Str) : ∃ more, linesOfFile (s ++ rest) = linesE true s ++ more := by
  obtain ⟨hw, u, rfl, h1, h2⟩ := h
  obtain ⟨ls, m, _, h3, h4⟩ := go_whole true hw ((t ++ u).length + 1) u (by omega)
  obtain ⟨m', _, h5⟩ := h4 false ((t ++ (u ++ rest)).length + 1) (u ++ rest) (by omega)
  refine ⟨allLinesGo (getLineE false) m' (u ++ rest), ?_⟩
  rw [lines_file]
  unfold linesE
  rw [h3, go_end (get_rest u h1 h2), List.append_assoc t, h5, List.append_nil]

/-! ### The property -/

/-- C152: the whole lines of a text. -/
theorem C152_whole (s : Str) : ∃ t, Delivered s t := whole_exists s.length s le_rfl

/-- C152: they are unique. -/
theorem C152_whole_unique (s t t' : Str) (h : Delivered s t) (h' : Delivered s t') : t = t' := by
  obtain ⟨hw, u, rfl, h1, h2⟩ := h
  obtain ⟨hw', u', e, h1', h2'⟩ := h'
  exact whole_unique hw hw' e h1 h2 h1' h2'

example : Delivered b!"1\n00:00:01,000 --> 00:00:02,000\na\n\n2\n00:0" b!"1\n00:00:01,000 --> 00:00:02,000\na\n\n2\n" :=
  ⟨.line b!"1" _ (by decide) (by decide) (.line b!"00:00:01,000 --> 00:00:02,000" _ (by decide) (by decide) (.line b!"a" _ (by decide) (by decide) (.line [] _ (by decide) (by decide)
    (.line b!"2" _ (by decide) (by decide) .done)))), b!"00:0", rfl, by decide, by decide⟩

/-- C152: without an error the files are read as before. -/
theorem C152_without (s : Str) : srtReadE false s = srtReadFile s ∧ vttReadE false s = vttReadFile s ∧ ssaReadE false s = ssaReadFile s := by
  unfold srtReadE srtReadFile vttReadE vttReadFile ssaReadE ssaReadFile
  rw [lines_file]
  exact ⟨rfl, rfl, rfl⟩

/-- C152: with a read error a file is read as if it ended before the line with the error. -/
theorem C152_read (s t : Str) (h : Delivered s t) : srtReadE true s = srtReadFile t ∧ vttReadE true s = vttReadFile t ∧ ssaReadE true s = ssaReadFile t := by
  unfold srtReadE srtReadFile vttReadE vttReadFile ssaReadE ssaReadFile
  rw [lines_delivered h]
  exact ⟨rfl, rfl, rfl⟩

/-- C152: the error is never reported: if the whole file can be read, so can the file with an error anywhere, and gives the first of the subtitles. -/
theorem C152_unnoticed (s rest : Str) (r : List Raw) :
    (srtReadFile (s ++ rest) = .ok r → ∃ p, srtReadE true s = .ok p ∧ p <+: r) ∧ (vttReadFile (s ++ rest) = .ok r → ∃ p, vttReadE true s = .ok p ∧ p <+: r) ∧
    (ssaReadFile (s ++ rest) = .ok r → ∃ p, ssaReadE true s = .ok p ∧ p <+: r) := by
  obtain ⟨t, h⟩ := C152_whole s
  obtain ⟨more, hm⟩ := lines_longer h rest
  unfold srtReadE srtReadFile vttReadE vttReadFile ssaReadE ssaReadFile
  rw [hm]
  refine ⟨srtRead_prefix _ _ _, vttRead_prefix _ _ _, ?_⟩
  intro h
  obtain ⟨r2, h1, h⟩ := bind_eq_ok.1 h
  cases h
  rw [ssaLines_append] at h1
  obtain ⟨r1, h2, h3⟩ := bind_eq_ok.1 h1
  exact ⟨r1.subs, by rw [h2]; rfl, ssaLines_prefix h3⟩

/-- C152: `dumpsubs` prints what it prints for the shorter file, and ends in the same way. -/
theorem C152_dumpsubs (fs : Str → Entry) (path s t : Str) (args : List Str) (h : Delivered s t) (ha : dumpsubsArgs args = some [path]) (hx : toLower (extension path) = b!".srt")
    (hf : fs path = .file t) : dumpsubsE true s = dumpsubs fs args := by
  unfold dumpsubsE dumpsubs
  rw [ha, (C152_read s t h).1]
  simp only [hf, Entry.contents, factoryPrinted, readerFactory, hx]
  cases srtReadFile t with
  | error e => rfl
  | ok subs => rfl

/-- C152: the second subtitle is lost and nobody is told: the program prints the first and its exit code is 0. -/
theorem C152_witness :
    (match dumpsubsE true b!"1\n00:00:01,000 --> 00:00:02,000\na\n\n2\n00:00:03,000 --> 00:00:04,000\nb" with | .done out => some out | _ => none) =
      some b!"Subtitle 0 at 00:00:01:0 @ 1000/1 -> 00:00:02:0 @ 1000/1\n\t from top of subtitle\ta\n" ∧
    (match dumpsubsE false b!"1\n00:00:01,000 --> 00:00:02,000\na\n\n2\n00:00:03,000 --> 00:00:04,000\nb" with | .done out => some out | _ => none) =
      some b!"Subtitle 0 at 00:00:01:0 @ 1000/1 -> 00:00:02:0 @ 1000/1\n\t from top of subtitle\ta\nSubtitle 1 at 00:00:03:0 @ 1000/1 -> 00:00:04:0 @ 1000/1\n\t from top of subtitle\tb\n" := by
  decide +kernel

end LibSub
