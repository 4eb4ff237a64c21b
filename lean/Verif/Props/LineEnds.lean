/-
Properties C29 and C30 for SubRip, and C70: line ends, byte order marks, files and strings.
-/
import Verif.Props.SubRipRead

namespace LibSub

/-! ### Specification -/

/-- The text with every newline turned into carriage return and newline. -/
def toCrlf (s : Str) : Str := s.flatMap (fun c => if c = 10 then [13, 10] else [c])

/-- The UTF-8 byte order mark. -/
def bom : Str := b!"\uFEFF"

/-! ### C70 -/

/-- Induction over the lines of a string. -/
theorem lines_induction {P : Str → Prop} (nil : P []) (last : ∀ a, (10 : Byte) ∉ a → a ≠ [] → P a) (line : ∀ a b, (10 : Byte) ∉ a → P b → P (a ++ 10 :: b)) (s : Str) : P s := by
  have key : ∀ (k : Nat) (s : Str), s.length ≤ k → P s := by
    intro k
    induction k with
    | zero =>
      intro s hs
      have : s = [] := by simpa using hs
      rw [this]; exact nil
    | succ k ih =>
      intro s hs
      rcases newline_cases s with h | ⟨a, b, rfl, ha⟩
      · by_cases hne : s = []
        · rw [hne]; exact nil
        · exact last s h hne
      · apply line a b ha
        apply ih
        simp at hs
        omega
  exact key s.length s le_rfl

/-- C70: the lines of a string contain no newlines and, each followed by a newline, make up the string, but for a newline at its end
that may be missing. -/
theorem C70_lines (s : Str) :
    (∀ l ∈ linesOfString s, (10 : Byte) ∉ l) ∧ (unlines (linesOfString s) = s ∨ (unlines (linesOfString s) = s ++ [10] ∧ s ≠ [] ∧ s.getLast? ≠ some 10)) := by
  induction s using lines_induction with
  | nil => exact ⟨by simp [linesOfString_nil], .inl rfl⟩
  | last a h hne =>
    rw [linesOfString_last h hne]
    refine ⟨by simpa using h, .inr ⟨by simp [unlines], hne, ?_⟩⟩
    intro hl
    exact h (List.mem_of_getLast? hl)
  | line a b h ih =>
    rw [linesOfString_newline h]
    refine ⟨?_, ?_⟩
    · intro l hl
      rw [List.mem_cons] at hl
      rcases hl with rfl | hl
      · exact h
      · exact ih.1 l hl
    · have e : unlines (a :: linesOfString b) = a ++ 10 :: unlines (linesOfString b) := by simp [unlines]
      rw [e]
      rcases ih.2 with h2 | ⟨h2, h3, h4⟩
      · left; rw [h2]
      · right
        refine ⟨by rw [h2]; simp, by simp, ?_⟩
        rw [List.getLast?_append_of_ne_nil _ (by simp), List.getLast?_cons]
        cases hb : b.getLast? with
        | none => exact absurd (List.getLast?_eq_none_iff.1 hb) h3
        | some c => rw [hb] at h4; simpa using h4

/-- C70: and any list of lines is what its text is split into. -/
theorem C70_unlines (ls : List Str) (h : ∀ l ∈ ls, (10 : Byte) ∉ l) : linesOfString (unlines ls) = ls := linesOfString_unlines ls h

example : linesOfString b!"a\n\nb" = [b!"a", [], b!"b"] ∧ linesOfString b!"a\n\n" = [b!"a", []] := by decide

/-! ### C29 -/

theorem toCrlf_append (a b : Str) : toCrlf (a ++ b) = toCrlf a ++ toCrlf b := by
  unfold toCrlf; exact List.flatMap_append

theorem toCrlf_noNl {a : Str} (h : (10 : Byte) ∉ a) : toCrlf a = a := by
  induction a with
  | nil => rfl
  | cons c a ih =>
    simp only [List.mem_cons, not_or] at h
    have := ih h.2
    unfold toCrlf at this ⊢
    rw [List.flatMap_cons, this, if_neg (Ne.symm h.1)]
    rfl

private theorem cleanLine_cr (a : Str) : cleanLine (a ++ [13]) = cleanLine a := by
  unfold cleanLine
  rw [trimRightIf_append (by decide)]

/-- The lines of a text with other line ends. -/
theorem clean_crlf (s : Str) : (linesOfString (toCrlf s)).map cleanLine = (linesOfString s).map cleanLine := by
  induction s using lines_induction with
  | nil => rfl
  | last a h hne => rw [toCrlf_noNl h]
  | line a b h ih =>
    have e : toCrlf (a ++ 10 :: b) = (a ++ [13]) ++ 10 :: toCrlf b := by
      rw [toCrlf_append, toCrlf_noNl h]
      show a ++ ([13, 10] ++ toCrlf b) = _
      simp
    rw [e, linesOfString_newline (by simp [h]), linesOfString_newline h]
    simp only [List.map_cons, ih, cleanLine_cr]

theorem trimRightIf_bom (a : Str) : trimRightIf isNlCr (bom ++ a) = bom ++ trimRightIf isNlCr a := by
  obtain ⟨b, e, hb⟩ := trimRightIf_prefix isNlCr a
  conv_lhs => rw [e]
  rw [← List.append_assoc, trimRightIf_append hb]
  apply trimRightIf_of_last
  intro c hc
  cases ht : trimRightIf isNlCr a with
  | nil =>
    rw [ht, List.append_nil] at hc
    have : c = 0xbf := by
      have : (some (0xbf : Byte)) = some c := hc
      simpa using this.symm
    rw [this]; decide
  | cons x xs =>
    rw [ht, List.getLast?_append_of_ne_nil _ (by simp), ← ht] at hc
    exact trimRightIf_last _ _ _ hc

private theorem cleanLine_bom {a : Str} (h : ¬ bom <+: a) : cleanLine (bom ++ a) = cleanLine a := by
  unfold cleanLine
  rw [trimRightIf_bom]
  show trimRightIf isNlCr a = _
  rw [removeBom_of_not]
  intro r e
  apply h
  obtain ⟨b, e', _⟩ := trimRightIf_prefix isNlCr a
  exact ⟨r ++ b, by rw [e', e]; rfl⟩

/-- The lines of a text with a byte order mark. -/
theorem clean_bom {s : Str} (h : ¬ bom <+: s) (hne : s ≠ []) : (linesOfString (bom ++ s)).map cleanLine = (linesOfString s).map cleanLine := by
  rcases newline_cases s with hs | ⟨a, b, rfl, ha⟩
  · rw [linesOfString_last (by simp [hs, bom]) (by simp [hne]), linesOfString_last hs hne]
    simp only [List.map_cons, List.map_nil, cleanLine_bom h]
  · rw [← List.append_assoc, linesOfString_newline (by simp [ha, bom]), linesOfString_newline ha]
    simp only [List.map_cons]
    rw [cleanLine_bom]
    rintro ⟨r, e⟩
    exact h ⟨r ++ 10 :: b, by rw [← e]; simp⟩

/-- C29 for SubRip: a file reads the same with either kind of line end … -/
theorem C29_subrip_crlf (s : Str) (subs : List Raw) : srtReadString (toCrlf s) = .ok subs ↔ srtReadString s = .ok subs := by
  unfold srtReadString srtRead
  exact (srtLines_okEq _ _ _ _ _ _ _ _ _ (clean_crlf s)).iff subs

/-- … and with or without byte order mark. -/
theorem C29_subrip_bom (s : Str) (h : ¬ bom <+: s) (subs : List Raw) : srtReadString (bom ++ s) = .ok subs ↔ srtReadString s = .ok subs := by
  by_cases hne : s = []
  · subst hne
    have e1 : srtReadString (bom ++ []) = .ok [] := by decide +kernel
    have e2 : srtReadString [] = .ok [] := rfl
    rw [e1, e2]
  · unfold srtReadString srtRead
    exact (srtLines_okEq _ _ _ _ _ _ _ _ _ (clean_bom h hne)).iff subs

example : ¬ bom <+: b!"1\n0:0:1,0 --> 0:0:2,0\nx" := by decide

/-! ### C30 -/

/-- What `FILE*` reading needs: lines of at most 254 bytes, without NUL bytes. -/
def ShortLines (s : Str) : Prop := (∀ l ∈ linesOfString s, l.length ≤ 254) ∧ (0 : Byte) ∉ s

private theorem cleanLine_nl (a : Str) : cleanLine (a ++ [10]) = cleanLine a := by
  unfold cleanLine
  rw [trimRightIf_append (by decide)]

theorem clean_file {s : Str} (h : ShortLines s) : (linesOfFile s).map cleanLine = (linesOfString s).map cleanLine := by
  obtain ⟨h1, h2⟩ := h
  induction s using lines_induction with
  | nil => rfl
  | last a ha hne =>
    rw [linesOfString_last ha hne] at h1 ⊢
    rw [linesOfFile_last ha h2 hne (by have := h1 a (by simp); omega)]
  | line a b ha ih =>
    rw [linesOfString_newline ha] at h1 ⊢
    simp only [List.mem_append, List.mem_cons, not_or] at h2
    rw [linesOfFile_newline ha h2.1 (h1 a (by simp))]
    simp only [List.map_cons, cleanLine_nl, ih (fun l hl => h1 l (by simp [hl])) h2.2.2]

/-- C30 for SubRip: reading from a `FILE*` gives the same subtitles as reading from a string, if no line is longer than 254 bytes
and there are no NUL bytes. -/
theorem C30_subrip_partial (s : Str) (h : ShortLines s) (subs : List Raw) : srtReadFile s = .ok subs ↔ srtReadString s = .ok subs := by
  unfold srtReadFile srtReadString srtRead
  exact (srtLines_okEq _ _ _ _ _ _ _ _ _ (clean_file h)).iff subs

example (subs : List Raw) : srtReadFile b!"1\n0:0:1,0 --> 0:0:2,0\nx" = .ok subs ↔ srtReadString b!"1\n0:0:1,0 --> 0:0:2,0\nx" = .ok subs :=
  C30_subrip_partial _ (by unfold ShortLines; decide) subs

/-- A cue with a line of 255 bytes and then another. -/
private def longCue : Str := b!"1\n0:0:1,0 --> 0:0:2,0\n" ++ List.replicate 255 120 ++ b!"\ny\n"

/-- C30 fails for longer lines: after a line of 255 bytes the newline is taken for a blank line, so the text that follows it is
taken for the number of the next subtitle and lost. -/
theorem C30_long_witness : (srtReadFile longCue).toOption.map (·.map Raw.text) = some [List.replicate 255 120] ∧
    (srtReadString longCue).toOption.map (·.map Raw.text) = some [List.replicate 255 120, b!"y"] := by
  decide +kernel

/-- … and for NUL bytes. -/
theorem C30_nul_witness : (srtReadFile (b!"1\n0:0:1,0 --> 0:0:2,0\na" ++ [0] ++ b!"b\n")).toOption.map (·.map Raw.text) = some [b!"a"] ∧
    (srtReadString (b!"1\n0:0:1,0 --> 0:0:2,0\na" ++ [0] ++ b!"b\n")).toOption.map (·.map Raw.text) = some [b!"a" ++ [0] ++ b!"b"] := by
  decide +kernel

example : ShortLines b!"1\n0:0:1,0 --> 0:0:2,0\nx" := by unfold ShortLines; decide

end LibSub
