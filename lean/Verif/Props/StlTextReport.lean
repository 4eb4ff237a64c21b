/-
Property C110: what the STL text reader prints about lines that it does not understand.
-/
import Verif.Props.StlText
import Verif.Props.Collectable
import Verif.Props.DumpTool
import Verif.Model.Compose

namespace LibSub

/-! ### Specification -/

/-- A time is written with three colons; if not, this is said of it. -/
def timeReport (t : Str) : List Str := if t.count 58 = 3 then [] else [b!"Unrecognised time " ++ trim t]

/-- What is said of a line. -/
def lineReport (l : Str) : Str := b!"Unrecognised line " ++ l

/-- What is said of a line without white space at its ends, in lines of output. -/
inductive Reports : Str → List Str → Prop where
  /-- a comment -/
  | comment (r : Str) : Reports (b!"//" ++ r) []
  /-- `$name=value` -/
  | setting (n v : Str) : (61 : Byte) ∉ n → (61 : Byte) ∉ v → Reports (36 :: (n ++ 61 :: v)) []
  /-- `$` with no or several `=` -/
  | badSetting (r : Str) : r.count 61 ≠ 1 → Reports (36 :: r) [lineReport (36 :: r)]
  /-- not of the form `from,to,text`, with at least two bytes before the first comma and one after the second -/
  | other (l : Str) : ¬ b!"//" <+: l → l.head? ≠ some 36 →
      (∀ A B C, l = A ++ 44 :: (B ++ 44 :: C) → (44 : Byte) ∉ A → (44 : Byte) ∉ B → A.length < 2 ∨ C = []) → Reports l [lineReport l]
  /-- `from,to,text`; the byte before the first comma does not count -/
  | subtitle (A B C : Str) (x : Byte) : ¬ b!"//" <+: A ++ x :: 44 :: (B ++ 44 :: C) → A.head? ≠ some 36 → (44 : Byte) ∉ A → x ≠ 44 → (44 : Byte) ∉ B →
      A ≠ [] → C ≠ [] → Reports (A ++ x :: 44 :: (B ++ 44 :: C))
        (timeReport A ++ timeReport B ++ if A.count 58 = 3 ∧ B.count 58 = 3 then [] else [lineReport (A ++ x :: 44 :: (B ++ 44 :: C))])

/-! ### Proof -/

private theorem trim_parts (s : Str) : ∃ a b, s = a ++ trim s ++ b ∧ (∀ c ∈ a, isSpace c = true) ∧ ∀ c ∈ b, isSpace c = true := by
  obtain ⟨b, hb, hbs⟩ := trimRightIf_prefix isSpace s
  refine ⟨(trimRightIf isSpace s).takeWhile isSpace, b, ?_, fun c hc => List.all_eq_true.1 (List.all_takeWhile (p := isSpace)) c hc, hbs⟩
  unfold trim trimLeftIf
  rw [List.takeWhile_append_dropWhile]
  exact hb

theorem count_trim (s : Str) (x : Byte) (hx : isSpace x = false) : (trim s).count x = s.count x := by
  obtain ⟨a, b, h, ha, hb⟩ := trim_parts s
  conv_rhs => rw [h]
  have z : ∀ a : Str, (∀ c ∈ a, isSpace c = true) → a.count x = 0 := by
    intro a ha
    rw [List.count_eq_zero]
    intro hm
    rw [ha x hm] at hx
    cases hx
  rw [List.count_append, List.count_append, z a ha, z b hb]
  omega

theorem split_count (x : Byte) (s : Str) : (splitAny (· == x) s).length = s.count x + 1 := by
  rw [splitAny_length]
  rfl

private theorem time_out (t : Str) : stlTextTimeOut (trim t) = unlines (timeReport t) := by
  have h := split_count 58 (trim t)
  rw [count_trim t 58 (by decide)] at h
  unfold stlTextTimeOut timeReport
  split
  · rename_i a b c d e
    rw [e] at h
    rw [if_pos (by simpa using h.symm)]
    rfl
  · rename_i hne
    rw [if_neg]
    · simp [unlines, warnTime]
    · intro hc
      rw [hc] at h
      match hs : splitAny (· == 58) (trim t), h with
      | [a, b, c, d], _ => exact hne a b c d hs

theorem time_none {t : Str} {o : Option Time} (h : stlTextTime (trim t) = .ok o) : o.isNone = decide (t.count 58 ≠ 3) := by
  have hl := split_count 58 (trim t)
  rw [count_trim t 58 (by decide)] at hl
  unfold stlTextTime at h
  split at h
  · rename_i a b c d e
    rw [e] at hl
    simp only [bind_eq_ok, pure_eq_ok, Except.ok.injEq] at h
    obtain ⟨_, _, _, _, _, _, _, _, _, _, rfl⟩ := h
    have : t.count 58 = 3 := by simpa using hl.symm
    simp [this]
  · rename_i hne
    cases h
    have : t.count 58 ≠ 3 := by
      intro hc
      rw [hc] at hl
      match hs : splitAny (· == 58) (trim t), hl with
      | [a, b, c, d], _ => exact hne a b c d hs
    simp [this]

theorem no_dollar {l : Str} (h : l.head? ≠ some 36) : startsWith l b!"$" = false := by
  rw [startsWith_false_iff]
  rintro ⟨r, rfl⟩
  exact h rfl

theorem comma_split (l : Str) : (44 : Byte) ∉ l ∨ ∃ A r, l = A ++ 44 :: r ∧ (44 : Byte) ∉ A := by
  by_cases h : (44 : Byte) ∈ l
  · obtain ⟨A, r, e, hA⟩ := List.eq_append_cons_of_mem h
    exact .inr ⟨A, r, e, hA⟩
  · exact .inl h

theorem findIdx?_none {l : Str} (h : (44 : Byte) ∉ l) : l.findIdx? (· == 44) = none := by
  rw [List.findIdx?_eq_none_iff]
  intro c hc
  have : c ≠ 44 := by rintro rfl; exact h hc
  simpa using this

/-- The same computation as in `line_shape`. -/
private theorem out_shape (raw A B C : Str) (ht : trim raw = A ++ 44 :: (B ++ 44 :: C)) (hA : (44 : Byte) ∉ A) (hB : (44 : Byte) ∉ B)
    (h1 : ¬ b!"//" <+: A ++ 44 :: (B ++ 44 :: C)) (h2 : (A ++ 44 :: (B ++ 44 :: C)).head? ≠ some 36) :
    stlTextLineOut raw = if A.length < 2 ∨ C = [] then warnLine (trim raw) else
      stlTextTimeOut (trim A.dropLast) ++
      match stlTextTime (trim A.dropLast) with
      | .error _ => []
      | .ok from_ =>
        stlTextTimeOut (trim B) ++
        match stlTextTime (trim B) with
        | .error _ => []
        | .ok to_ => if from_.isNone || to_.isNone then warnLine (trim raw) else [] := by
  unfold stlTextLineOut
  simp only [ht]
  rw [startsWith_false_iff.2 h1, no_dollar h2]
  simp only [Bool.false_eq_true, if_false]
  have hdrop : (A ++ 44 :: (B ++ 44 :: C)).drop (A.length + 1) = B ++ 44 :: C := by
    rw [← List.drop_drop, List.drop_left]
    rfl
  have hl : (A ++ 44 :: (B ++ 44 :: C)).length = A.length + B.length + C.length + 2 := by simp; omega
  simp only [findIdx?_comma hA, hdrop, findIdx?_comma hB]
  have hC : C = [] ↔ C.length = 0 := List.length_eq_zero_iff.symm
  rw [hl]
  by_cases hc : A.length < 2 ∨ C = []
  · rw [if_pos (by rw [hC] at hc; omega), if_pos hc]
  · rw [if_neg (by rw [hC] at hc; omega), if_neg hc]
    rw [hC] at hc
    have e1 : (A ++ 44 :: (B ++ 44 :: C)).take (A.length - 1) = A.dropLast := by
      rw [List.dropLast_eq_take, List.take_append_of_le_length (by omega)]
    have e2 : (B ++ 44 :: C).take (A.length + 1 + B.length - A.length - 1) = B := by
      have : A.length + 1 + B.length - A.length - 1 = B.length := by omega
      rw [this, List.take_left]
    rw [e1, e2]
    rfl

theorem short_line (s : StlTextSt) (raw A B C : Str) (ht : trim raw = A ++ 44 :: (B ++ 44 :: C)) (hA : (44 : Byte) ∉ A) (hB : (44 : Byte) ∉ B)
    (h1 : ¬ b!"//" <+: A ++ 44 :: (B ++ 44 :: C)) (h2 : (A ++ 44 :: (B ++ 44 :: C)).head? ≠ some 36) (hc : A.length < 2 ∨ C = []) :
    stlTextLine s raw = .ok s := by
  unfold stlTextLine
  simp only [ht]
  rw [startsWith_false_iff.2 h1, no_dollar h2]
  simp only [Bool.false_eq_true, if_false]
  have hdrop : (A ++ 44 :: (B ++ 44 :: C)).drop (A.length + 1) = B ++ 44 :: C := by
    rw [← List.drop_drop, List.drop_left]
    rfl
  have hl : (A ++ 44 :: (B ++ 44 :: C)).length = A.length + B.length + C.length + 2 := by simp; omega
  simp only [findIdx?_comma hA, hdrop, findIdx?_comma hB]
  have hC : C = [] ↔ C.length = 0 := List.length_eq_zero_iff.symm
  rw [hl, if_pos (by rw [hC] at hc; omega)]

/-- What is printed for a line is what `Reports` says, and a line with a report has no effect. -/
private theorem line_report {raw : Str} {r : List Str} (h : Reports (trim raw) r) {s s' : StlTextSt} (hs : stlTextLine s raw = .ok s') :
    stlTextLineOut raw = unlines r ∧ (r ≠ [] → s' = s) := by
  generalize hl : trim raw = l at h
  cases h with
  | comment t =>
    refine ⟨?_, fun h => absurd rfl h⟩
    unfold stlTextLineOut
    simp only [hl]
    rw [if_pos (startsWith_iff.2 (List.prefix_append _ _))]
    rfl
  | setting n v hn hv =>
    refine ⟨?_, fun h => absurd rfl h⟩
    have e : splitAny (· == 61) (36 :: (n ++ 61 :: v)) = [36 :: n, v] := by
      rw [← List.cons_append, splitAny_append _ (by decide), splitAny_noSep]
      · intro c hc
        simpa using fun e : c = 61 => hv (e ▸ hc)
      · intro c hc
        rcases List.mem_cons.1 hc with rfl | hc
        · decide
        · simpa using fun e : c = 61 => hn (e ▸ hc)
    unfold stlTextLineOut
    simp only [hl, e]
    rw [if_neg (by simp [startsWith]), if_pos (by simp [startsWith])]
    rfl
  | badSetting t ht =>
    have hc := split_count 61 (36 :: t)
    rw [List.count_cons_of_ne (by decide)] at hc
    have hne : ∀ a b, splitAny (· == 61) (36 :: t) ≠ [a, b] := by
      intro a b e
      rw [e] at hc
      simp at hc
      omega
    constructor
    · unfold stlTextLineOut
      simp only [hl]
      rw [if_neg (by simp [startsWith]), if_pos (by simp [startsWith])]
      simp [unlines, warnLine, lineReport]
    · intro _
      unfold stlTextLine at hs
      simp only [hl] at hs
      rw [if_neg (by simp [startsWith]), if_pos (by simp [startsWith])] at hs
      cases hs; rfl
  | other _ h1 h2 h3 =>
    have hw : unlines [lineReport l] = warnLine l := by simp [unlines, warnLine, lineReport]
    rw [hw]
    rcases comma_split l with hno | ⟨A, t, e, hA⟩
    · constructor
      · unfold stlTextLineOut
        simp only [hl]
        rw [startsWith_false_iff.2 h1, no_dollar h2, findIdx?_none hno]
        simp
      · intro _
        unfold stlTextLine at hs
        simp only [hl] at hs
        rw [startsWith_false_iff.2 h1, no_dollar h2, findIdx?_none hno] at hs
        simp at hs
        exact hs.symm
    · rcases comma_split t with hno | ⟨B, C, e', hB⟩
      · have hd : l.drop (A.length + 1) = t := by
          rw [e, ← List.drop_drop, List.drop_left]
          rfl
        have hi : l.findIdx? (· == 44) = some A.length := by rw [e]; exact findIdx?_comma hA
        constructor
        · unfold stlTextLineOut
          simp only [hl]
          rw [startsWith_false_iff.2 h1, no_dollar h2, hi]
          simp only [hd, findIdx?_none hno]
          simp
        · intro _
          unfold stlTextLine at hs
          simp only [hl] at hs
          rw [startsWith_false_iff.2 h1, no_dollar h2, hi] at hs
          simp only [hd, findIdx?_none hno] at hs
          simp at hs
          exact hs.symm
      · subst e'
        subst e
        have hc := h3 A B C rfl hA hB
        constructor
        · rw [out_shape raw A B C hl hA hB h1 h2, if_pos hc, hl]
        · intro _
          rw [short_line s raw A B C hl hA hB h1 h2 hc] at hs
          cases hs; rfl
  | subtitle A B C x h1 h2 hA hx hB hA0 hC =>
    have e : A ++ x :: 44 :: (B ++ 44 :: C) = (A ++ [x]) ++ 44 :: (B ++ 44 :: C) := by simp
    have hA' : (44 : Byte) ∉ A ++ [x] := by simp [hA, hx.symm]
    have hlen : 2 ≤ (A ++ [x]).length := by
      have := List.length_pos_iff.2 hA0
      simp
      omega
    have h2' : ((A ++ [x]) ++ 44 :: (B ++ 44 :: C)).head? ≠ some 36 := by
      cases A with
      | nil => exact absurd rfl hA0
      | cons a A => exact h2
    rw [e] at hl h1 ⊢
    rw [line_shape s raw (A ++ [x]) B C hl hA' hB h1 h2' hlen hC, List.dropLast_concat] at hs
    rw [out_shape raw (A ++ [x]) B C hl hA' hB h1 h2', if_neg (by rintro (h | h); exacts [by omega, hC h]), List.dropLast_concat]
    obtain ⟨f, hf, hs⟩ := bind_eq_ok.1 hs
    obtain ⟨t, ht, hs⟩ := bind_eq_ok.1 hs
    rw [hf, ht]
    simp only [time_none hf, time_none ht, time_out]
    have hu : ∀ a b : List Str, unlines (a ++ b) = unlines a ++ unlines b := fun a b => by simp [unlines]
    have hf' := time_none hf
    have ht' := time_none ht
    by_cases ca : A.count 58 = 3
    · by_cases cb : B.count 58 = 3
      · constructor
        · simp [timeReport, ca, cb, unlines]
        · intro h
          exact absurd (by simp [timeReport, ca, cb]) h
      · constructor
        · simp [hl, ca, cb, unlines, warnLine, lineReport]
        · intro _
          rw [decide_eq_true cb, Option.isNone_iff_eq_none] at ht'
          subst ht'
          cases f <;> cases hs <;> rfl
    · constructor
      · simp [hl, ca, unlines, warnLine, lineReport]
      · intro _
        rw [decide_eq_true ca, Option.isNone_iff_eq_none] at hf'
        subst hf'
        cases hs
        rfl

/-- Something is said, or nothing, of every line. -/
private theorem reports_total (l : Str) : ∃ r, Reports l r := by
  by_cases h1 : b!"//" <+: l
  · obtain ⟨t, rfl⟩ := h1
    exact ⟨_, .comment t⟩
  · by_cases h2 : l.head? = some 36
    · obtain ⟨t, rfl⟩ : ∃ t, l = 36 :: t := by
        cases l with
        | nil => cases h2
        | cons a t => exact ⟨t, by cases h2; rfl⟩
      by_cases h3 : t.count 61 = 1
      · have hm : (61 : Byte) ∈ t := List.count_pos_iff.1 (by omega)
        obtain ⟨n, v, rfl, hn⟩ := List.eq_append_cons_of_mem hm
        refine ⟨_, .setting n v hn ?_⟩
        rw [List.count_append, List.count_cons_self] at h3
        exact List.count_eq_zero.1 (by omega)
      · exact ⟨_, .badSetting t h3⟩
    · by_cases h3 : ∀ A B C, l = A ++ 44 :: (B ++ 44 :: C) → (44 : Byte) ∉ A → (44 : Byte) ∉ B → A.length < 2 ∨ C = []
      · exact ⟨_, .other l h1 h2 h3⟩
      · simp only [not_forall, not_or, not_lt] at h3
        obtain ⟨A, B, C, rfl, hA, hB, hlen, hC⟩ := h3
        obtain ⟨A', x, rfl⟩ : ∃ A' x, A = A' ++ [x] := by
          rcases List.eq_nil_or_concat A with h | ⟨A', x, h⟩
          · subst h; simp at hlen
          · exact ⟨A', x, by simpa using h⟩
        simp only [List.mem_append, List.mem_singleton, not_or] at hA
        have e : A' ++ [x] ++ 44 :: (B ++ 44 :: C) = A' ++ x :: 44 :: (B ++ 44 :: C) := by simp
        have hA0 : A' ≠ [] := by rintro rfl; simp at hlen
        rw [e] at h1 h2 ⊢
        refine ⟨_, .subtitle A' B C x h1 ?_ hA.1 (Ne.symm hA.2) hB hA0 hC⟩
        cases A' with
        | nil => exact absurd rfl hA0
        | cons a A' => exact h2

private theorem unlines_append (a b : List Str) : unlines (a ++ b) = unlines a ++ unlines b := by simp [unlines]

private theorem unlines_eq_nil {a : List Str} : unlines a = [] ↔ a = [] := by
  cases a <;> simp [unlines]

private theorem out_lines {ls : List Str} {rs : List (List Str)} (h : List.Forall₂ (fun l r => Reports (trim l) r) ls rs) {s s' : StlTextSt} (hs : stlTextLines s ls = .ok s') :
    stlTextOut s ls = unlines rs.flatten := by
  induction h generalizing s with
  | nil => rfl
  | cons h _ ih =>
    rw [stlTextLines] at hs
    obtain ⟨s1, h1, hs⟩ := bind_eq_ok.1 hs
    rw [stlTextOut, h1]
    simp only
    rw [ih hs, (line_report h h1).1, List.flatten_cons, unlines_append]

private theorem keep_lines {ls : List Str} {rs : List (List Str)} (h : List.Forall₂ (fun l r => Reports (trim l) r) ls rs) {s s' : StlTextSt} (hs : stlTextLines s ls = .ok s') :
    stlTextLines s (((ls.zip rs).filter (fun x => x.2.isEmpty)).map Prod.fst) = .ok s' := by
  induction h generalizing s with
  | nil => exact hs
  | @cons l r ls rs h _ ih =>
    rw [stlTextLines] at hs
    obtain ⟨s1, h1, hs⟩ := bind_eq_ok.1 hs
    rw [List.zip_cons_cons, List.filter_cons]
    by_cases hr : r = []
    · subst hr
      rw [if_pos (show ((l, ([] : List Str)).2.isEmpty) = true from rfl), List.map_cons, stlTextLines, h1, ok_bind]
      exact ih hs
    · rw [if_neg (by simpa using hr)]
      have := (line_report h h1).2 hr
      rw [this] at hs
      exact ih hs

private theorem stream_of (ls : List Str) (last : Str) (hl : ∀ l ∈ ls, (10 : Byte) ∉ l) (hlast : (10 : Byte) ∉ last) : streamLines (unlines ls ++ last) = ls := by
  rw [streamLines_append ls last hl]
  unfold streamLines
  rw [splitAny_noSep]
  · simp
  · intro c hc
    simpa using fun e : c = 10 => hlast (e ▸ hc)

private theorem reports_list (ls : List Str) : ∃ rs : List (List Str), List.Forall₂ (fun l r => Reports (trim l) r) ls rs := by
  induction ls with
  | nil => exact ⟨[], .nil⟩
  | cons l ls ih =>
    obtain ⟨rs, h⟩ := ih
    obtain ⟨r, hr⟩ := reports_total (trim l)
    exact ⟨r :: rs, .cons hr h⟩

/-- C110: an STL text file that can be read: the reader prints what `Reports` says of its lines, in order, and nothing else. -/
theorem C110_reports (ls : List Str) (last : Str) (hl : ∀ l ∈ ls, (10 : Byte) ∉ l) (hlast : (10 : Byte) ∉ last) (subs : List Raw) (h : stlTextRead (unlines ls ++ last) = .ok subs) :
    ∃ rs, List.Forall₂ (fun l r => Reports (trim l) r) ls rs ∧ stlTextPrinted (unlines ls ++ last) = unlines rs.flatten := by
  obtain ⟨rs, hr⟩ := reports_list ls
  refine ⟨rs, hr, ?_⟩
  unfold stlTextRead at h
  unfold stlTextPrinted
  rw [stream_of ls last hl hlast] at h ⊢
  obtain ⟨st, hst, -⟩ := bind_eq_ok.1 h
  exact out_lines hr hst

private theorem reports_inv {l : Str} {r : List Str} (h : Reports l r) :
    (b!"//" <+: l ∧ r = []) ∨ (∃ t, l = 36 :: t ∧ r = if t.count 61 = 1 then [] else [lineReport l]) ∨
    (¬ b!"//" <+: l ∧ l.head? ≠ some 36 ∧ (∀ A B C, l = A ++ 44 :: (B ++ 44 :: C) → (44 : Byte) ∉ A → (44 : Byte) ∉ B → A.length < 2 ∨ C = []) ∧ r = [lineReport l]) ∨
    (¬ b!"//" <+: l ∧ l.head? ≠ some 36 ∧ ∃ A B C x, l = (A ++ [x]) ++ 44 :: (B ++ 44 :: C) ∧ (44 : Byte) ∉ A ++ [x] ∧ (44 : Byte) ∉ B ∧ 2 ≤ (A ++ [x]).length ∧ C ≠ [] ∧
      r = timeReport A ++ timeReport B ++ if A.count 58 = 3 ∧ B.count 58 = 3 then [] else [lineReport l]) := by
  cases h with
  | comment t => exact .inl ⟨List.prefix_append _ _, rfl⟩
  | setting n v hn hv => exact .inr (.inl ⟨_, rfl, by rw [if_pos]; simp [List.count_append, List.count_eq_zero.2 hn, List.count_eq_zero.2 hv]⟩)
  | badSetting t ht => exact .inr (.inl ⟨_, rfl, by rw [if_neg ht]⟩)
  | other _ h1 h2 h3 => exact .inr (.inr (.inl ⟨h1, h2, h3, rfl⟩))
  | subtitle A B C x h1 h2 hA hx hB hA0 hC =>
    refine .inr (.inr (.inr ⟨h1, ?_, A, B, C, x, by simp, by simp [hA, hx.symm], hB, ?_, hC, rfl⟩))
    · cases A with
      | nil => exact absurd rfl hA0
      | cons a A => exact h2
    · have := List.length_pos_iff.2 hA0
      simp
      omega

theorem comma_unique {A A' t t' : Str} (hA : (44 : Byte) ∉ A) (hA' : (44 : Byte) ∉ A') (e : A ++ 44 :: t = A' ++ 44 :: t') : A = A' ∧ t = t' := by
  induction A generalizing A' with
  | nil =>
    cases A' with
    | nil => simpa using e
    | cons a A' => simp at e hA'; exact absurd e.1 hA'.1
  | cons a A ih =>
    cases A' with
    | nil => simp at e hA; exact absurd e.1.symm hA.1
    | cons a' A' =>
      simp only [List.cons_append, List.cons.injEq, List.mem_cons, not_or] at e hA hA'
      obtain ⟨rfl, h⟩ := ih hA.2 hA'.2 e.2
      exact ⟨by rw [e.1], h⟩

-- the messages are those that `String::compose` gives
example (l : Str) : composeStr b!"Unrecognised line %1" [l] = .ok (lineReport l) := by
  have h : composeParse (b!"Unrecognised line %1".length + 1) [] b!"Unrecognised line %1" = .ok [⟨b!"Unrecognised line ", some 1, []⟩] := by rfl
  unfold composeStr
  rw [h]
  cases l <;> simp [ok_bind, pure_eq_ok, Composition.arg, Composition.str, lineReport]

/-- A file with a comment, an empty line, a setting, a bad setting, a subtitle, and one whose first time is bad. -/
private def exLines : List Str := [b!"//x", b!" ", b!"$Bold=True", b!"$Bold", b!"00:00:01:00 ,00:00:02:00 ,Hi", b!"00:01:00 ,00:00:02:00 ,No"]

private def exReports : List (List Str) := [[], [b!"Unrecognised line "], [], [b!"Unrecognised line $Bold"], [],
  [b!"Unrecognised time 00:01:00", b!"Unrecognised line 00:01:00 ,00:00:02:00 ,No"]]

private theorem exReports_ok : List.Forall₂ (fun l r => Reports (trim l) r) exLines exReports := by
  refine .cons (.comment b!"x") (.cons ?_ (.cons (.setting b!"Bold" b!"True" (by decide) (by decide)) (.cons (.badSetting b!"Bold" (by decide)) (.cons ?_ (.cons ?_ .nil)))))
  · refine Reports.other [] (by decide) (by decide) ?_
    intro A B C e
    simp at e
  · exact Reports.subtitle b!"00:00:01:00" b!"00:00:02:00 " b!"Hi" 32 (by decide) (by decide) (by decide) (by decide) (by decide) (by decide) (by decide)
  · exact Reports.subtitle b!"00:01:00" b!"00:00:02:00 " b!"No" 32 (by decide) (by decide) (by decide) (by decide) (by decide) (by decide) (by decide)

private theorem exRead : ∃ subs, stlTextRead (unlines exLines ++ b!"rest") = .ok subs ∧ subs.length = 1 := by
  have h : (stlTextRead (unlines exLines ++ b!"rest")).toOption.map List.length = some 1 := by decide +kernel
  match h' : stlTextRead (unlines exLines ++ b!"rest") with
  | .error e => rw [h'] at h; cases h
  | .ok subs => rw [h'] at h; exact ⟨subs, rfl, Option.some.inj h⟩

example : ∃ rs, List.Forall₂ (fun l r => Reports (trim l) r) exLines rs ∧ stlTextPrinted (unlines exLines ++ b!"rest") = unlines rs.flatten := by
  obtain ⟨subs, h, -⟩ := exRead
  exact C110_reports exLines b!"rest" (by decide) (by decide) subs h

example : stlTextPrinted (unlines exLines ++ b!"rest") = unlines exReports.flatten := by decide +kernel

/-- C110: what is said of a line is determined by the line. -/
theorem C110_unique (l : Str) (r r' : List Str) (h : Reports l r) (h' : Reports l r') : r = r' := by
  have slash : ∀ t : Str, ¬ b!"//" <+: 36 :: t := by
    intro t ht
    simp at ht
  rcases reports_inv h with ⟨a1, rfl⟩ | ⟨t, rfl, rfl⟩ | ⟨a1, a2, a3, rfl⟩ | ⟨a1, a2, A, B, C, x, rfl, hA, hB, hlen, hC, rfl⟩ <;>
  rcases reports_inv h' with ⟨b1, rfl⟩ | ⟨t', e, rfl⟩ | ⟨b1, b2, b3, rfl⟩ | ⟨b1, b2, A', B', C', x', e, hA', hB', hlen', hC', rfl⟩
  · rfl
  · subst e; exact absurd a1 (slash t')
  · exact absurd a1 b1
  · exact absurd a1 b1
  · exact absurd b1 (slash t)
  · cases e; rfl
  · exact absurd rfl b2
  · exact absurd rfl b2
  · exact absurd b1 a1
  · subst e; exact absurd rfl a2
  · rfl
  · rcases a3 _ _ _ e hA' hB' with h | h
    · omega
    · exact absurd h hC'
  · exact absurd b1 a1
  · rw [e] at a2; exact absurd rfl a2
  · rcases b3 _ _ _ rfl hA hB with h | h
    · omega
    · exact absurd h hC
  · obtain ⟨e1, e2⟩ := comma_unique hA hA' e
    obtain ⟨rfl, e3⟩ := comma_unique hB hB' e2
    obtain ⟨rfl, -⟩ := List.append_inj' e1 rfl
    rfl

example : Reports b!"//,,,$=" [] ∧ Reports b!"$a=b=c" [b!"Unrecognised line $a=b=c"] := ⟨.comment b!",,,$=", .badSetting b!"a=b=c" (by decide)⟩

/-- C110: lines of which something is said are passed over: without them, the same subtitles are read, and nothing is printed. -/
theorem C110_ignored (ls : List Str) (last : Str) (hl : ∀ l ∈ ls, (10 : Byte) ∉ l) (hlast : (10 : Byte) ∉ last) (subs : List Raw) (h : stlTextRead (unlines ls ++ last) = .ok subs)
    (rs : List (List Str)) (hr : List.Forall₂ (fun l r => Reports (trim l) r) ls rs) :
    let kept := ((ls.zip rs).filter (fun x => x.2.isEmpty)).map Prod.fst
    stlTextRead (unlines kept ++ last) = .ok subs ∧ stlTextPrinted (unlines kept ++ last) = [] := by
  intro kept
  have hk : ∀ l ∈ kept, (10 : Byte) ∉ l := by
    intro l hm
    obtain ⟨x, hx, rfl⟩ := List.mem_map.1 hm
    exact hl _ (List.of_mem_zip (List.mem_filter.1 hx).1).1
  unfold stlTextRead at h
  rw [stream_of ls last hl hlast] at h
  obtain ⟨st, hst, h⟩ := bind_eq_ok.1 h
  have hks := keep_lines hr hst
  constructor
  · unfold stlTextRead
    rw [stream_of kept last hk hlast, hks]
    exact h
  · unfold stlTextPrinted
    rw [stream_of kept last hk hlast]
    have : ∀ (ls : List Str) (rs : List (List Str)), List.Forall₂ (fun l r => Reports (trim l) r) ls rs →
        List.Forall₂ (fun l r => Reports (trim l) r) (((ls.zip rs).filter (fun x => x.2.isEmpty)).map Prod.fst) (((ls.zip rs).filter (fun x => x.2.isEmpty)).map (fun _ => [])) := by
      intro ls rs hr
      induction hr with
      | nil => exact .nil
      | @cons l r ls rs h _ ih =>
        rw [List.zip_cons_cons, List.filter_cons]
        by_cases hr : r = []
        · subst hr
          exact .cons h ih
        · rw [if_neg (by simpa using hr)]
          exact ih
    rw [out_lines (this ls rs hr) hks]
    simp [unlines]

example : ∃ subs, stlTextRead (unlines exLines ++ b!"rest") = .ok subs ∧ stlTextRead (unlines [b!"//x", b!"$Bold=True", b!"00:00:01:00 ,00:00:02:00 ,Hi"] ++ b!"rest") = .ok subs := by
  obtain ⟨subs, h, -⟩ := exRead
  exact ⟨subs, h, (C110_ignored exLines b!"rest" (by decide) (by decide) subs h exReports exReports_ok).1⟩

/-- C110: nothing is printed exactly if every line is a comment, a `$name=value`, or a subtitle whose times have three colons each. -/
theorem C110_silent (ls : List Str) (last : Str) (hl : ∀ l ∈ ls, (10 : Byte) ∉ l) (hlast : (10 : Byte) ∉ last) (subs : List Raw) (h : stlTextRead (unlines ls ++ last) = .ok subs) :
    stlTextPrinted (unlines ls ++ last) = [] ↔ ∀ l ∈ ls, Reports (trim l) [] := by
  obtain ⟨rs, hr, e⟩ := C110_reports ls last hl hlast subs h
  rw [e, unlines_eq_nil]
  clear e h hl
  induction hr with
  | nil => simp
  | @cons l r ls rs h _ ih =>
    rw [List.flatten_cons, List.append_eq_nil_iff, ih]
    simp only [List.mem_cons, forall_eq_or_imp]
    constructor
    · rintro ⟨rfl, h2⟩
      exact ⟨h, h2⟩
    · rintro ⟨h1, h2⟩
      exact ⟨C110_unique _ _ _ h h1, h2⟩

example : ∃ l ∈ exLines, ¬ Reports (trim l) [] := by
  obtain ⟨subs, h, -⟩ := exRead
  by_contra hc
  have := (C110_silent exLines b!"rest" (by decide) (by decide) subs h).2 (by
    intro l hl
    by_contra hn
    exact hc ⟨l, hl, hn⟩)
  revert this
  decide +kernel

private theorem time_error {t : Str} {e : Err} (h : stlTextTime t = .error e) : stlTextTimeOut t = [] := by
  unfold stlTextTime at h
  unfold stlTextTimeOut
  split at h
  · rfl
  · cases h

private theorem takeWhile_findIdx {l : Str} {k : Nat} (h : l.findIdx? (· == 44) = some k) : l.takeWhile (· ≠ 44) = l.take k := by
  induction l generalizing k with
  | nil => cases h
  | cons a l ih =>
    rw [List.findIdx?_cons] at h
    by_cases ha : a = 44
    · subst ha
      rw [if_pos (by decide)] at h
      cases h
      rfl
    · rw [if_neg (by simpa using ha)] at h
      obtain ⟨j, hj, rfl⟩ := Option.map_eq_some_iff.1 h
      rw [List.takeWhile_cons, if_pos (by simpa using ha), List.take_succ_cons, ih hj]

/-- What is printed for a line at which reading fails. -/
private theorem bad_out {s : StlTextSt} {raw : Str} {e : Err} (h : stlTextLine s raw = .error e) :
    stlTextLineOut raw = unlines (if (trim raw).head? = some 36 then [] else timeReport ((trim raw).takeWhile (· ≠ 44)).dropLast) := by
  unfold stlTextLine at h
  unfold stlTextLineOut
  generalize trim raw = l at h ⊢
  simp only [] at h ⊢
  have hd : startsWith l b!"$" = decide (l.head? = some 36) := by
    cases l with
    | nil => rfl
    | cons a l =>
      rw [Bool.eq_iff_iff, startsWith_iff]
      simp [eq_comm]
  split at h
  · cases h
  · rename_i h1
    rw [if_neg h1]
    split at h
    · rename_i h2
      rw [if_pos h2]
      rw [hd] at h2
      rw [if_pos (by simpa using h2)]
      split at h
      · rfl
      · cases h
    · rename_i h2
      rw [if_neg h2]
      rw [hd] at h2
      rw [if_neg (by simpa using h2)]
      split at h
      · cases h
      · rename_i d0 e0
        split at h
        · cases h
        · rename_i k e1
          split at h
          · cases h
          · rename_i h3
            rw [if_neg h3, takeWhile_findIdx e0]
            have hlen : d0 < l.length := (List.findIdx?_eq_some_iff_getElem.1 e0).1
            have ht : (l.take d0).dropLast = l.take (d0 - 1) := by
              rw [List.dropLast_eq_take, List.length_take, List.take_take]
              congr 1
              omega
            rw [ht, time_out]
            conv_rhs => rw [← List.append_nil (unlines _)]
            congr 1
            generalize hf : stlTextTime (trim (l.take (d0 - 1))) = f at h ⊢
            cases f with
            | error _ => rfl
            | ok f =>
              rw [ok_bind] at h
              generalize ht' : stlTextTime (trim ((l.drop (d0 + 1)).take (d0 + 1 + k - d0 - 1))) = t at h ⊢
              cases t with
              | error _ => rw [time_error ht']; rfl
              | ok t =>
                rw [ok_bind] at h
                cases f with
                | none => cases h
                | some f =>
                  cases t with
                  | none => cases h
                  | some t =>
                    have := time_none ht'
                    simp only [Option.isNone_some, ne_eq, false_eq_decide_iff, not_not] at this
                    rw [time_out]
                    unfold timeReport
                    rw [if_pos this]
                    rfl

private theorem lines_error {ls : List Str} {e : Err} : ∀ {s : StlTextSt}, stlTextLines s ls = .error e →
    ∃ pre bad post s', ls = pre ++ bad :: post ∧ stlTextLines s pre = .ok s' ∧ stlTextLine s' bad = .error e := by
  induction ls with
  | nil => intro s h; cases h
  | cons l ls ih =>
    intro s h
    rw [stlTextLines] at h
    cases h1 : stlTextLine s l with
    | error e' =>
      rw [h1] at h
      exact ⟨[], l, ls, s, rfl, rfl, by rw [h1]; exact h⟩
    | ok s1 =>
      rw [h1, ok_bind] at h
      obtain ⟨pre, bad, post, s', rfl, h2, h3⟩ := ih h
      exact ⟨l :: pre, bad, post, s', rfl, by rw [stlTextLines, h1, ok_bind, h2], h3⟩

private theorem lines_then {pre : List Str} : ∀ {s s' : StlTextSt} (ls : List Str), stlTextLines s pre = .ok s' →
    stlTextLines s (pre ++ ls) = stlTextLines s' ls ∧ stlTextOut s (pre ++ ls) = stlTextOut s pre ++ stlTextOut s' ls := by
  induction pre with
  | nil => intro s s' ls h; cases h; exact ⟨rfl, rfl⟩
  | cons l pre ih =>
    intro s s' ls h
    rw [stlTextLines] at h
    obtain ⟨s1, h1, h⟩ := bind_eq_ok.1 h
    obtain ⟨i1, i2⟩ := ih ls h
    rw [List.cons_append, stlTextLines, stlTextOut, stlTextOut, h1, ok_bind]
    exact ⟨i1, by simp only [i2, List.append_assoc]⟩

/-- C110: an STL text file that cannot be read: there is a first line with which reading fails, after lines that can be read; the reader prints what `Reports` says of those, of the
bad line at most that its first time is not recognised (and that only if it begins with no `$`), and nothing of later lines. -/
theorem C110_error (ls : List Str) (last : Str) (hl : ∀ l ∈ ls, (10 : Byte) ∉ l) (hlast : (10 : Byte) ∉ last) (e : Err) (h : stlTextRead (unlines ls ++ last) = .error e) :
    ∃ pre bad post rs, ls = pre ++ bad :: post ∧ (∃ subs, stlTextRead (unlines pre) = .ok subs) ∧ stlTextRead (unlines (pre ++ [bad])) = .error e ∧
      List.Forall₂ (fun l r => Reports (trim l) r) pre rs ∧
      stlTextPrinted (unlines ls ++ last) =
        unlines (rs.flatten ++ if (trim bad).head? = some 36 then [] else timeReport ((trim bad).takeWhile (· ≠ 44)).dropLast) := by
  unfold stlTextRead at h
  rw [stream_of ls last hl hlast] at h
  have hst : stlTextLines {} ls = .error e := by
    cases h' : stlTextLines {} ls with
    | error e' => rw [h'] at h; cases h; rfl
    | ok st => rw [h'] at h; cases h
  obtain ⟨pre, bad, post, s', rfl, h1, h2⟩ := lines_error hst
  obtain ⟨rs, hr⟩ := reports_list pre
  have hp : ∀ l ∈ pre, (10 : Byte) ∉ l := fun l hm => hl l (by simp [hm])
  have hb : ∀ l ∈ pre ++ [bad], (10 : Byte) ∉ l := fun l hm => hl l (by simp at hm ⊢; tauto)
  refine ⟨pre, bad, post, rs, rfl, ⟨s'.subs, ?_⟩, ?_, hr, ?_⟩
  · have := stream_of pre [] hp (by simp)
    rw [List.append_nil] at this
    rw [stlTextRead, this, h1]
    rfl
  · have := stream_of (pre ++ [bad]) [] hb (by simp)
    rw [List.append_nil] at this
    rw [stlTextRead, this, (lines_then [bad] h1).1, stlTextLines, h2]
    rfl
  · unfold stlTextPrinted
    rw [stream_of _ last hl hlast, (lines_then (bad :: post) h1).2, out_lines hr h1, unlines_append, stlTextOut, h2, bad_out h2]
    simp

-- the second time of the third line is not understood
example : stlTextRead b!"x\n$Bold=True\n1:2:3 ,0:0:y:0 ,Hi\nz\n" = .error .badLexicalCast ∧
    stlTextPrinted b!"x\n$Bold=True\n1:2:3 ,0:0:y:0 ,Hi\nz\n" = b!"Unrecognised line x\nUnrecognised time 1:2:3\n" := by decide +kernel

/-- C110: `dumpsubs` of an STL text file that can be read: the messages, then the dump. -/
theorem C110_dumpsubs (fs : Str → Entry) (args : List Str) (pre e : Str) (ha : Operands args [pre ++ 46 :: e]) (he : toLower e = b!"stl") (ls : List Str) (last : Str)
    (hl : ∀ l ∈ ls, (10 : Byte) ∉ l) (hlast : (10 : Byte) ∉ last) (hf : fs (pre ++ 46 :: e) = .file (unlines ls ++ last)) (h11 : 11 ≤ (unlines ls ++ last).length)
    (hn : ((unlines ls ++ last).drop 3).take 3 ≠ b!"STL") (subs : List Raw) (h : stlTextRead (unlines ls ++ last) = .ok subs) :
    ∃ rs out, List.Forall₂ (fun l r => Reports (trim l) r) ls rs ∧ dump showFloat [] subs = .ok out ∧ dumpsubs fs args = .done (unlines rs.flatten ++ out) := by
  obtain ⟨rs, hr, hp⟩ := C110_reports ls last hl hlast subs h
  obtain ⟨cs, hc⟩ := C84_stltext _ _ h
  have hd : dump showFloat [] subs = .ok (dumpSubs showFloat 0 cs) := by
    unfold dump
    rw [hc]
    rfl
  refine ⟨rs, _, hr, hd, ?_⟩
  have hx : toLower (extension (pre ++ 46 :: e)) = b!".stl" := ext_of pre e _ he (by decide) (by decide) (by decide)
  have hrf : readerFactory (pre ++ 46 :: e) (some (unlines ls ++ last)) = .ok (.stlText subs) := by
    unfold readerFactory
    simp only [hx, if_true]
    rw [if_pos h11, if_neg hn, h]
    rfl
  have key := dumpsubs_reader ha hf hrf (by simp) hd
  rw [key]
  unfold factoryPrinted
  rw [if_pos hx]
  simp only
  rw [if_pos ⟨h11, hn⟩, hp]

example : ∃ rs out subs, List.Forall₂ (fun l r => Reports (trim l) r) exLines rs ∧ dump showFloat [] subs = .ok out ∧
    dumpsubs (fun _ => .file (unlines exLines ++ b!"rest")) [b!"a" ++ 46 :: b!"STL"] = .done (unlines rs.flatten ++ out) := by
  obtain ⟨subs, h, -⟩ := exRead
  obtain ⟨rs, out, h⟩ := C110_dumpsubs (fun _ => .file (unlines exLines ++ b!"rest")) [b!"a" ++ 46 :: b!"STL"] b!"a" b!"STL" ((args_some _ _).1 (by decide)) (by decide) exLines b!"rest"
    (by decide) (by decide) rfl (by decide) (by decide) subs h
  exact ⟨rs, out, subs, h⟩

/-- C110, witness: of a file with one subtitle between two empty lines, the output of `dumpsubs` is not the dump alone. -/
theorem C110_blank_witness :
    (match dumpsubs (fun _ => .file b!"\n00:00:01:00 ,00:00:02:00 ,Hi\n\n") [b!"a.stl"] with | .done s => some s | _ => none) =
      some b!"Unrecognised line \nUnrecognised line \nSubtitle 0 at 00:00:01:0 -> 00:00:02:0\n\t from top of subtitle\tHi\n" := by decide +kernel

/-- C110: `dumpsubs` of a binary STL file that can be read, and whose subtitles can be collected: the dump alone. -/
theorem C110_dumpsubs_binary (fs : Str → Entry) (args : List Str) (pre e : Str) (ha : Operands args [pre ++ 46 :: e]) (he : toLower e = b!"stl") (s : Str)
    (hf : fs (pre ++ 46 :: e) = .file s) (h11 : 11 ≤ s.length) (hn : (s.drop 3).take 3 = b!"STL") (info : StlInfo) (subs : List Raw) (h : stlRead s = .ok (info, subs))
    (out : Str) (hd : dump showFloat (stlMetadataSorted info) subs = .ok out) : dumpsubs fs args = .done out := by
  have hx : toLower (extension (pre ++ 46 :: e)) = b!".stl" := ext_of pre e _ he (by decide) (by decide) (by decide)
  have hrf : readerFactory (pre ++ 46 :: e) (some s) = .ok (.stlBinary info subs) := by
    unfold readerFactory
    simp only [hx, if_true]
    rw [if_pos h11, if_pos hn, h]
    rfl
  have key := dumpsubs_reader ha hf hrf (by simp) hd
  rw [key]
  unfold factoryPrinted
  rw [if_pos hx]
  simp only
  rw [if_neg (fun h => h.2 hn)]
  rfl

private def exBinary : Str := stlFileDemo b!"00001" [stlBlockDemo 20 0 b!"Hello"]

example : 11 ≤ exBinary.length ∧ (exBinary.drop 3).take 3 = b!"STL" ∧ (∃ r, (stlRead exBinary).toOption = some r ∧ ((dump showFloat (stlMetadataSorted r.1) r.2).toOption).isSome = true) ∧
    ∃ out, (match dumpsubs (fun _ => .file exBinary) [b!"a.stl"] with | .done s => some s | _ => none) = some out ∧ b!"Hello\n" <:+ out := by
  have h : ((stlRead exBinary).toOption.map fun r => (dump showFloat (stlMetadataSorted r.1) r.2).toOption.isSome) = some true := by decide +kernel
  have h' : (match dumpsubs (fun _ => .file exBinary) [b!"a.stl"] with | .done s => some (decide (b!"Hello\n" <:+ s)) | _ => none) = some true := by decide +kernel
  refine ⟨by decide +kernel, by decide +kernel, by simpa [Option.map_eq_some_iff] using h, ?_⟩
  revert h'
  cases dumpsubs (fun _ => .file exBinary) [b!"a.stl"] <;> simp

end LibSub
