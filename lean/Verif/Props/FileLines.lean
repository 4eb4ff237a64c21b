/-
Properties C29 (for SSA) and C30: what exactly a reader gets that reads from a `FILE*`.
-/
import Verif.Props.WebVtt
import Verif.Props.Ssa

namespace LibSub

/-! ### Specification -/

/-- The text that a reader of a `FILE*` sees: a line ends after 255 bytes (if more of the file follows), and what comes after a NUL is lost up to the end of the line.  `n` is the number of bytes of the line
so far, `kept` whether there was one that was kept, `nul` whether there was a NUL. -/
def fileTextFrom (n : Nat) (kept nul : Bool) : Str → Str
  | [] => if n ≠ 0 ∧ !kept then [10] else []
  | c :: cs =>
    if c = 10 then 10 :: fileTextFrom 0 false false cs
    else
      (if nul || c == 0 then [] else [c]) ++
        if n = 254 then (if cs = [] then (if !kept && (nul || c == 0) then [10] else []) else 10 :: fileTextFrom 0 false false cs)
        else fileTextFrom (n + 1) (kept || !(nul || c == 0)) (nul || c == 0) cs

def fileText (s : Str) : Str := fileTextFrom 0 false false s

/-! ### Proofs -/

/-- What is kept of a piece. -/
private def keep (nul : Bool) (a : Str) : Str := if nul then [] else a.takeWhile (· != 0)

private theorem keep_cons (nul : Bool) (c : Byte) (a : Str) : keep nul (c :: a) = (if nul || c == 0 then [] else [c]) ++ keep (nul || c == 0) a := by
  unfold keep
  cases nul
  · by_cases h : c = 0
    · simp [h]
    · simp [h]
  · simp

private theorem from_append (a b : Str) (ha : (10 : Byte) ∉ a) : ∀ (n : Nat) (kept nul : Bool), n + a.length ≤ 254 →
    fileTextFrom n kept nul (a ++ b) = keep nul a ++ fileTextFrom (n + a.length) (kept || !(keep nul a).isEmpty) (nul || a.contains 0) b := by
  induction a with
  | nil => intro n kept nul h; cases nul <;> simp [keep]
  | cons c a ih =>
    intro n kept nul h
    rw [List.mem_cons, not_or] at ha
    rw [List.length_cons] at h
    rw [List.cons_append, fileTextFrom, if_neg (Ne.symm ha.1), if_neg (show ¬ n = 254 by omega), ih ha.2 (n + 1) _ _ (by omega), keep_cons, List.append_assoc]
    congr 2
    rw [List.length_cons]
    congr 1
    · omega
    · cases nul <;> cases kept <;> by_cases h0 : c = 0 <;> simp [h0, keep]
    · cases nul <;> by_cases h0 : c = 0 <;> simp [h0]
      rw [show (c == 0) = false by simp [h0], show decide (0 = c) = false by simp [Ne.symm h0]]

private theorem noNl_keep {nul : Bool} {a : Str} (h : (10 : Byte) ∉ a) : (10 : Byte) ∉ keep nul a := by
  unfold keep
  split
  · simp
  · intro hm
    exact h ((List.takeWhile_prefix _).subset hm)

private theorem fgetsTake_full {a b : Str} {n : Nat} (h : (10 : Byte) ∉ a) (hn : a.length = n) : fgetsTake n (a ++ b) = a := by
  induction a generalizing n with
  | nil => cases hn; cases b <;> rfl
  | cons c cs ih =>
    simp only [List.mem_cons, not_or] at h
    cases n with
    | zero => simp at hn
    | succ n =>
      rw [List.cons_append, fgetsTake, if_neg (by simp only [beq_iff_eq]; exact fun e => h.1 e.symm), ih h.2 (by simpa using hn)]

private theorem keep_take {a b : Str} (h : (0 : Byte) ∈ a) : (a ++ b).takeWhile (· != 0) = keep false a := by
  unfold keep
  rw [if_neg (by simp), List.takeWhile_append, if_neg]
  intro hl
  have := List.takeWhile_prefix (· != 0) (l := a)
  have e := this.eq_of_length hl
  rw [← e] at h
  have : ∀ x ∈ a.takeWhile (· != 0), (x != 0) = true := fun x hx => by
    have := List.all_takeWhile (p := (· != 0)) (l := a)
    rw [List.all_eq_true] at this
    exact this x hx
  simpa using this 0 h

private theorem keep_all {a : Str} (h : (0 : Byte) ∉ a) : keep false a = a := by
  unfold keep
  rw [if_neg (by simp), takeWhile_noNul h]

/-- The beginning of a text: a line, or a piece of a long one, or the rest. -/
private theorem piece_cases (s : Str) (hs : s ≠ []) : (∃ a b, s = a ++ 10 :: b ∧ (10 : Byte) ∉ a ∧ a.length ≤ 254) ∨ (∃ a c b, s = a ++ c :: b ∧ (10 : Byte) ∉ a ∧ c ≠ 10 ∧ a.length = 254 ∧ b ≠ []) ∨
    ((10 : Byte) ∉ s ∧ s.length ≤ 255) := by
  have long : ∀ t : Str, (10 : Byte) ∉ t → 255 ≤ t.length → ∀ u, t ++ u ≠ [] → 255 < (t ++ u).length → ∃ a c b, t ++ u = a ++ c :: b ∧ (10 : Byte) ∉ a ∧ c ≠ 10 ∧ a.length = 254 ∧ b ≠ [] := by
    intro t ht hl u _ hu
    have h1 : 254 < t.length := by omega
    refine ⟨t.take 254, t[254], t.drop 255 ++ u, ?_, fun hm => ht (List.mem_of_mem_take hm), fun e => ht (e ▸ List.getElem_mem _), by rw [List.length_take]; omega, ?_⟩
    · have e : t = t.take 254 ++ t[254] :: t.drop 255 := by
        rw [List.getElem_cons_drop, List.take_append_drop]
      have : t ++ u = (t.take 254 ++ t[254] :: t.drop 255) ++ u := by rw [← e]
      rw [List.append_assoc, List.cons_append] at this
      exact this
    · intro e
      have := congrArg List.length e
      rw [List.length_append, List.length_drop, List.length_nil] at this
      rw [List.length_append] at hu
      omega
  rcases newline_cases s with h | ⟨a, b, e, ha⟩
  · by_cases hl : s.length ≤ 255
    · exact .inr (.inr ⟨h, hl⟩)
    · have := long s h (by omega) [] (by simpa using hs) (by simp; omega)
      rw [List.append_nil] at this
      exact .inr (.inl this)
  · by_cases hl : a.length ≤ 254
    · exact .inl ⟨a, b, e, ha, hl⟩
    · have := long a ha (by omega) (10 :: b) (by simp) (by simp; omega)
      rw [← e] at this
      exact .inr (.inl this)

private theorem keep_snoc (a : Str) (c : Byte) : keep false (a ++ [c]) = keep false a ++ (if a.contains 0 || c == 0 then [] else [c]) := by
  by_cases h : (0 : Byte) ∈ a
  · have e : keep false (a ++ [c]) = (a ++ [c]).takeWhile (· != 0) := rfl
    rw [e, keep_take h]
    simp [h]
  · rw [keep_all h]
    unfold keep
    rw [if_neg (by simp), List.takeWhile_append_of_pos (fun x hx => by simp only [bne_iff_ne]; rintro rfl; exact h hx)]
    by_cases hc : c = 0 <;> simp [h, hc]

/-- The lines of a file are the lines of its text as seen, up to bytes that every reader strips. -/
private theorem lines_seen {f : Str → Str} (hf : ∀ a, f (a ++ [10]) = f a) (s : Str) : (linesOfFile s).map f = (linesOfString (fileText s)).map f := by
  have key : ∀ (k : Nat) (s : Str), s.length ≤ k → (linesOfFile s).map f = (linesOfString (fileText s)).map f := by
    intro k
    induction k with
    | zero =>
      intro s h
      have : s = [] := by simpa using h
      rw [this]; rfl
    | succ k ih =>
      intro s h
      by_cases hs : s = []
      · rw [hs]; rfl
      have line : ∀ (r : Str) (a b : Str), fgetsTake 255 s = r → s = r ++ b → (r = a ∨ r = a ++ [10]) → r ≠ [] → f (r.takeWhile (· != 0)) = f (keep false a) ∧
          (linesOfFile s).map f = f (keep false a) :: (linesOfString (fileText b)).map f := by
        intro r a b h1 h2 h3 h4
        have e : f (r.takeWhile (· != 0)) = f (keep false a) := by
          rcases h3 with rfl | rfl
          · rfl
          · by_cases h0 : (0 : Byte) ∈ a
            · rw [keep_take h0]
            · rw [keep_all h0, takeWhile_noNul (by simpa using h0), hf]
        refine ⟨e, ?_⟩
        rw [linesOfFile_eq]
        unfold getLineFile
        rw [if_neg (by simpa using hs), h1]
        simp only [List.map_cons]
        rw [e]
        have hb : s.drop r.length = b := by rw [h2, List.drop_left]
        rw [hb, ih b (by
          have : 0 < r.length := List.length_pos_iff.2 h4
          rw [h2, List.length_append] at h
          omega)]
      rcases piece_cases s hs with ⟨a, b, e, ha, hl⟩ | ⟨a, c, b, e, ha, hc, hl, hb⟩ | ⟨hn, hl⟩
      · have h1 : fgetsTake 255 s = a ++ [10] := by rw [e]; exact fgetsTake_newline ha (by omega)
        rw [(line (a ++ [10]) a b h1 (by rw [e]; simp) (.inr rfl) (by simp)).2]
        have e2 : fileText s = keep false a ++ 10 :: fileText b := by
          unfold fileText
          rw [e, from_append a _ ha 0 false false (by omega), fileTextFrom, if_pos rfl]
        rw [e2, linesOfString_newline (noNl_keep ha)]
        rfl
      · have hac : (10 : Byte) ∉ a ++ [c] := by simp [ha, Ne.symm hc]
        have e1 : s = (a ++ [c]) ++ b := by rw [e]; simp
        have h1 : fgetsTake 255 s = a ++ [c] := by rw [e1]; exact fgetsTake_full hac (by simp [hl])
        rw [(line (a ++ [c]) (a ++ [c]) b h1 e1 (.inl rfl) (by simp)).2]
        have e2 : fileText s = keep false (a ++ [c]) ++ 10 :: fileText b := by
          unfold fileText
          rw [e, from_append a _ ha 0 false false (by omega), fileTextFrom, if_neg hc, if_pos (show 0 + a.length = 254 by omega), if_neg hb, ← List.append_assoc]
          congr 1
          rw [keep_snoc, Bool.false_or]
        rw [e2, linesOfString_newline (noNl_keep hac)]
        rfl
      · have h1 : fgetsTake 255 s = s := fgetsTake_last hn hl
        rw [(line s s [] h1 (by simp) (.inl rfl) hs).2]
        have e2 : fileText s = keep false s ++ (if keep false s = [] then [10] else []) := by
          unfold fileText
          by_cases h254 : s.length ≤ 254
          · have := from_append s [] hn 0 false false (by omega)
            rw [List.append_nil] at this
            rw [this, fileTextFrom]
            congr 1
            have : 0 + s.length ≠ 0 := by have := List.length_pos_iff.2 hs; omega
            simp only [this, ne_eq, not_false_eq_true, true_and, Bool.false_or, Bool.not_not, List.isEmpty_iff]
          · obtain ⟨a, c, e⟩ : ∃ a c, s = a ++ [c] := ⟨s.dropLast, s.getLast hs, (List.dropLast_append_getLast hs).symm⟩
            have la : a.length = 254 := by have := congrArg List.length e; rw [List.length_append, List.length_singleton] at this; omega
            rw [e] at hn
            simp only [List.mem_append, List.mem_singleton, not_or] at hn
            rw [e, from_append a _ hn.1 0 false false (by omega), fileTextFrom, if_neg (Ne.symm hn.2), if_pos (show 0 + a.length = 254 by omega), if_pos rfl, keep_snoc, ← List.append_assoc]
            simp only [Bool.false_or]
            congr 1
            cases hk : keep false a with
            | nil => cases a.contains 0 <;> by_cases hc : c = 0 <;> simp [hc]
            | cons x xs => simp
        rw [e2]
        split
        · rename_i hk
          rw [hk]
          rfl
        · rename_i hk
          rw [List.append_nil, linesOfString_last (noNl_keep hn) hk]
          rfl
  exact key _ s (le_refl _)

theorem clean_seen (s : Str) : (linesOfFile s).map cleanLine = (linesOfString (fileText s)).map cleanLine := by
  apply lines_seen
  intro a
  unfold cleanLine
  rw [trimRightIf_append (by decide)]

/-- C30: reading from a `FILE*` is reading the text with its lines broken after 255 bytes and without what follows a NUL in a line; for SubRip … -/
theorem C30_subrip_exact_partial (s : Str) (subs : List Raw) : srtReadFile s = .ok subs ↔ srtReadString (fileText s) = .ok subs := by
  unfold srtReadFile srtReadString srtRead
  exact (srtLines_okEq _ _ _ _ _ _ _ _ _ (clean_seen s)).iff subs

/-- A subtitle with a line of 300 bytes is read with two lines. -/
example : ((srtReadFile (b!"1\n00:00:01,000 --> 00:00:02,000\n" ++ List.replicate 300 120)).toOption.map (·.map fun r => (r.text, r.vpos.line))) =
    some [(List.replicate 255 120, some 0), (List.replicate 45 120, some 1)] := by decide +kernel

/-- … for WebVTT … -/
theorem C30_vtt_exact_partial (s : Str) (subs : List Raw) : vttReadFile s = .ok subs ↔ vttReadString (fileText s) = .ok subs := by
  unfold vttReadString vttReadFile
  rw [vttRead_ok_iff, vttRead_ok_iff, vttFold_clean _ _ _ (clean_seen s)]

private theorem ssaLines_trim : ∀ (ls ls' : List Str), ls.map trim = ls'.map trim → ∀ r, ssaLines r ls = ssaLines r ls' := by
  intro ls
  induction ls with
  | nil =>
    intro ls' h r
    have : ls' = [] := by simpa using h.symm
    rw [this]
  | cons l ls ih =>
    intro ls' h r
    cases ls' with
    | nil => simp at h
    | cons l' ls' =>
      rw [List.map_cons, List.map_cons, List.cons.injEq] at h
      have e : ssaLine r l = ssaLine r l' := by unfold ssaLine; rw [h.1]
      rw [ssaLines, ssaLines, e]
      congr 1
      funext r'
      exact ih ls' h.2 r'

private theorem trim_nl (a : Str) : trim (a ++ [10]) = trim a := by
  unfold trim
  rw [trimRightIf_append (by decide)]

/-- … and for SSA, errors included. -/
theorem C30_ssa_exact_partial (s : Str) : ssaReadFile s = ssaReadString (fileText s) := by
  unfold ssaReadFile ssaReadString
  rw [ssaLines_trim _ _ (lines_seen trim_nl s)]

/-- Short lines without NUL are seen as they are. -/
theorem fileText_short (s : Str) (h : ShortLines s) : fileText s = s := by
  obtain ⟨h1, h2⟩ := h
  induction s using lines_induction with
  | nil => rfl
  | last a ha hne =>
    rw [linesOfString_last ha hne] at h1
    have := from_append a [] ha 0 false false (by have := h1 a (by simp); omega)
    rw [List.append_nil, keep_all h2, fileTextFrom, if_neg (by simp [hne])] at this
    unfold fileText
    rw [this, List.append_nil]
  | line a b ha ih =>
    rw [linesOfString_newline ha] at h1
    simp only [List.mem_append, List.mem_cons, not_or] at h2
    have := from_append a (10 :: b) ha 0 false false (by have := h1 a (by simp); omega)
    rw [keep_all h2.1, fileTextFrom, if_pos rfl] at this
    unfold fileText at ih ⊢
    rw [this, ih (fun l hl => h1 l (by simp [hl])) h2.2.2]

/-- C30 for SSA: reading from a `FILE*` gives the same result as reading from a string, if no line is longer than 254 bytes and there are no NUL bytes. -/
theorem C30_ssa_partial (s : Str) (h : ShortLines s) : ssaReadFile s = ssaReadString s := by
  rw [C30_ssa_exact_partial, fileText_short s h]

example : ShortLines b!"[Events]\nFormat: Start, End, Text\nDialogue: 0:00:01.00,0:00:02.00,x\n" := by unfold ShortLines; decide

/-- A line of 255 bytes is broken off before its newline, a longer one after 255 bytes; a NUL hides the rest of its line. -/
example : fileText (List.replicate 255 120 ++ b!"\ny\n") = List.replicate 255 120 ++ b!"\n\ny\n" ∧ fileText (List.replicate 300 120 ++ b!"\ny") = List.replicate 255 120 ++ 10 :: List.replicate 45 120 ++ b!"\ny" ∧
    fileText (b!"a" ++ [0] ++ b!"b\nc") = b!"a\nc" := by decide +kernel

/-- C30 fails for SSA: a dialogue whose line is longer than 255 bytes stops the reader (with the exception for programming errors) if it reads from a `FILE*`. -/
theorem C30_ssa_long_witness :
    ssaReadFile (b!"[Events]\nFormat: Start, End, Text\nDialogue: 0:00:01.00,0:00:02.00," ++ List.replicate 300 120) = .error .programming ∧
    (ssaReadString (b!"[Events]\nFormat: Start, End, Text\nDialogue: 0:00:01.00,0:00:02.00," ++ List.replicate 300 120)).toOption.map (·.map Raw.text) = some [List.replicate 300 120] := by
  decide +kernel

/-! ### C29 for SSA -/

private theorem trim_cr (a : Str) : trim (a ++ [13]) = trim a := by
  unfold trim
  rw [trimRightIf_append (by decide)]

private theorem trim_crlf (s : Str) : (linesOfString (toCrlf s)).map trim = (linesOfString s).map trim := by
  induction s using lines_induction with
  | nil => rfl
  | last a h hne => rw [toCrlf_noNl h]
  | line a b h ih =>
    have e : toCrlf (a ++ 10 :: b) = (a ++ [13]) ++ 10 :: toCrlf b := by
      rw [toCrlf_append, toCrlf_noNl h]
      show a ++ ([13, 10] ++ toCrlf b) = _
      simp
    rw [e, linesOfString_newline (by simp [h]), linesOfString_newline h]
    simp only [List.map_cons, ih, trim_cr]

/-- C29 for SSA: a file reads the same with either kind of line end, errors included … -/
theorem C29_ssa_crlf (s : Str) : ssaReadString (toCrlf s) = ssaReadString s := by
  unfold ssaReadString
  rw [ssaLines_trim _ _ (trim_crlf s)]

example : toCrlf b!"[Events]\nFormat: Text" = b!"[Events]\r\nFormat: Text" := by decide

private theorem trimRight_bom_space (a : Str) : trimRightIf isSpace (bom ++ a) = bom ++ trimRightIf isSpace a := by
  obtain ⟨b, e, hb⟩ := trimRightIf_prefix isSpace a
  conv_lhs => rw [e]
  rw [← List.append_assoc, trimRightIf_append hb]
  apply trimRightIf_of_last
  intro c hc
  cases ht : trimRightIf isSpace a with
  | nil =>
    rw [ht, List.append_nil] at hc
    have : c = 0xbf := by
      have : (some (0xbf : Byte)) = some c := hc
      simpa using this.symm
    rw [this]; decide
  | cons x xs =>
    rw [ht, List.getLast?_append_of_ne_nil _ (by simp), ← ht] at hc
    exact trimRightIf_last _ _ _ hc

private theorem trim_bom {a : Str} (h : ¬ bom <+: a) (hs : ∀ c, a.head? = some c → isSpace c = false) : removeBom (trim (bom ++ a)) = removeBom (trim a) := by
  have e : trim a = trimRightIf isSpace a := by
    unfold trim
    obtain ⟨b, e, _⟩ := trimRightIf_prefix isSpace a
    cases ht : trimRightIf isSpace a with
    | nil => rfl
    | cons x xs =>
      rw [ht] at e
      have := hs x (by rw [e]; rfl)
      unfold trimLeftIf
      rw [List.dropWhile_cons, if_neg (by simp [this])]
  rw [e]
  unfold trim
  rw [trimRight_bom_space]
  show trimRightIf isSpace a = _
  rw [removeBom_of_not]
  intro r e
  apply h
  obtain ⟨b, e', _⟩ := trimRightIf_prefix isSpace a
  exact ⟨r ++ b, by rw [e', e]; rfl⟩

/-- … and with or without byte order mark, if the file does not begin with white space. -/
theorem C29_ssa_bom (s : Str) (h : ¬ bom <+: s) (hs : ∀ c, s.head? = some c → isSpace c = false) : ssaReadString (bom ++ s) = ssaReadString s := by
  by_cases hne : s = []
  · subst hne; decide +kernel
  unfold ssaReadString
  congr 1
  rcases newline_cases s with hn | ⟨a, b, rfl, ha⟩
  · rw [linesOfString_last (by simp [hn, bom]) (by simp [hne]), linesOfString_last hn hne]
    have : ∀ r, ssaLine r (bom ++ s) = ssaLine r s := fun r => by unfold ssaLine; rw [trim_bom h hs]
    rw [ssaLines, ssaLines, this]
  · rw [← List.append_assoc, linesOfString_newline (by simp [ha, bom]), linesOfString_newline ha]
    have : ∀ r, ssaLine r (bom ++ a) = ssaLine r a := fun r => by
      unfold ssaLine
      rw [trim_bom]
      · rintro ⟨r, e⟩
        exact h ⟨r ++ 10 :: b, by rw [← e]; simp⟩
      · intro c hc
        cases a with
        | nil => cases hc
        | cons x xs => exact hs c (by simpa using hc)
    rw [ssaLines, ssaLines, this]

example : ¬ bom <+: b!"[Events]\n" ∧ (∀ c, (b!"[Events]\n" : Str).head? = some c → isSpace c = false) := by
  refine ⟨by decide, ?_⟩
  rintro c ⟨⟩
  decide

/-- With white space first a byte order mark matters: behind it the white space stays, and the line is no longer taken for the start of a section. -/
theorem C29_ssa_bom_witness : ssaReadString (bom ++ b!" [Events]\nFormat: Text\n") = .error .programming ∧ (ssaReadString b!" [Events]\nFormat: Text\n").toOption = some [] := by
  decide +kernel

end LibSub
