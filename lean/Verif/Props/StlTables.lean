/-
Properties C67 (disk format codes) and C68 (code tables) of binary STL
(src/stl_util.cc, src/stl_binary_tables.cc).
-/
import Verif.Model.StlTables
import Verif.Model.StlUtil
import Verif.Lemmas.Time
import Verif.Lemmas.Text
import Verif.Lemmas.Float
import Mathlib.Tactic.NormNum
import Mathlib.Tactic.Linarith

namespace LibSub

/-! ### C68  code tables -/

/-- Two upper-case hex digits. -/
def hex2 (n : Nat) : Str := [b!"0123456789ABCDEF".getD (n / 16) 0, b!"0123456789ABCDEF".getD (n % 16) 0]

/-- The number of a language in the file: European languages count up from 00, the others, in the order of
the declaration, down from 7F. -/
def languageNumber (l : Language) : Nat := if l.ctorIdx ≤ 43 then l.ctorIdx else 127 + 44 - l.ctorIdx

/-- C68: the code of every language. -/
theorem C68_language_code (l : Language) : languageEnumToFile l = .ok (hex2 (languageNumber l)) := by
  have : (languageEnumToFile l).toOption = some (hex2 (languageNumber l)) := by
    cases l <;> decide +kernel
  cases h : languageEnumToFile l with
  | error e => rw [h] at this; cases this
  | ok k => rw [h] at this; cases this; rfl

/-- C68: every language survives a trip through its code. -/
theorem C68_language (l : Language) : (languageEnumToFile l).bind languageFileToEnum = .ok l := by
  have : ((languageEnumToFile l).bind languageFileToEnum).toOption = some l := by
    cases l <;> decide +kernel
  cases h : (languageEnumToFile l).bind languageFileToEnum with
  | error e => rw [h] at this; cases this
  | ok k => rw [h] at this; cases this; rfl

/-- C68: every language survives a trip through its description. -/
theorem C68_language_description (l : Language) : languageDescriptionToEnum (languageDescription l) = some l := by
  cases l <;> decide +kernel

theorem tableFind_mem {K E : Type} [DecidableEq K] (k : K) (v : E) : ∀ m : StlTable K E, tableFind k m = some v → ∃ d, (k, v, d) ∈ m := by
  intro m
  induction m with
  | nil => intro h; cases h
  | cons r m ih =>
    obtain ⟨k', v', d'⟩ := r
    intro h
    simp only [tableFind] at h
    split at h
    · rename_i e; cases h; subst e; exact ⟨d', by simp⟩
    · obtain ⟨d, hd⟩ := ih h; exact ⟨d, by simp [hd]⟩

/-- C68: a code that is accepted is the code of the language it gives: different codes give different
languages. -/
theorem C68_language_file (k : Str) (l : Language) (h : languageFileToEnum k = .ok l) : languageEnumToFile l = .ok k := by
  unfold languageFileToEnum strToEnum at h
  split at h
  · rename_i v hv
    cases h
    obtain ⟨d, hd⟩ := tableFind_mem _ _ _ hv
    have : ∀ r ∈ languageTable, (languageEnumToFile r.2.1).toOption = some r.1 := by decide +kernel
    have := this _ hd
    cases h : languageEnumToFile l with
    | error e => rw [h] at this; cases this
    | ok k => rw [h] at this; cases this; rfl
  · cases h

example : languageFileToEnum b!"1D" = .ok .dutch := by decide +kernel

/-- C68: the numeric codes of justification, cumulative status and comment flag are inverted by the reader's
tables, in both directions. -/
theorem C68_justification (j : Justification) (k : Int) : justificationEnumToFile j = .ok k ↔ justificationFileToEnum k = .ok j := by
  constructor
  · intro h
    cases j <;> (have h' : _ = Except.ok k := h; simp [justificationEnumToFile, enumToFile, tableFirst, justificationTable, intLt] at h'; subst h'; decide)
  · intro h
    unfold justificationFileToEnum intToEnum at h
    split at h
    · rename_i v hv
      cases h
      obtain ⟨d, hd⟩ := tableFind_mem _ _ _ hv
      simp only [justificationTable, List.mem_cons, Prod.mk.injEq, List.not_mem_nil, or_false] at hd
      rcases hd with ⟨rfl, rfl, _⟩ | ⟨rfl, rfl, _⟩ | ⟨rfl, rfl, _⟩ | ⟨rfl, rfl, _⟩ <;> decide
    · cases h

example : justificationEnumToFile .right = .ok 3 := by decide

@[inherit_doc C68_justification]
theorem C68_cumulative (j : CumulativeStatus) (k : Int) : cumulativeStatusEnumToFile j = .ok k ↔ cumulativeStatusFileToEnum k = .ok j := by
  constructor
  · intro h
    cases j <;> (have h' : _ = Except.ok k := h; simp [cumulativeStatusEnumToFile, enumToFile, tableFirst, cumulativeStatusTable, intLt] at h'; subst h'; decide)
  · intro h
    unfold cumulativeStatusFileToEnum intToEnum at h
    split at h
    · rename_i v hv
      cases h
      obtain ⟨d, hd⟩ := tableFind_mem _ _ _ hv
      simp only [cumulativeStatusTable, List.mem_cons, Prod.mk.injEq, List.not_mem_nil, or_false] at hd
      rcases hd with ⟨rfl, rfl, _⟩ | ⟨rfl, rfl, _⟩ | ⟨rfl, rfl, _⟩ | ⟨rfl, rfl, _⟩ <;> decide
    · cases h

example : cumulativeStatusEnumToFile .last = .ok 3 := by decide

@[inherit_doc C68_justification]
theorem C68_comment (j : Comment) (k : Int) : commentEnumToFile j = .ok k ↔ commentFileToEnum k = .ok j := by
  constructor
  · intro h
    cases j <;> (have h' : _ = Except.ok k := h; simp [commentEnumToFile, enumToFile, tableFirst, commentTable, intLt] at h'; subst h'; decide)
  · intro h
    unfold commentFileToEnum intToEnum at h
    split at h
    · rename_i v hv
      cases h
      obtain ⟨d, hd⟩ := tableFind_mem _ _ _ hv
      simp only [commentTable, List.mem_cons, Prod.mk.injEq, List.not_mem_nil, or_false] at hd
      rcases hd with ⟨rfl, rfl, _⟩ | ⟨rfl, rfl, _⟩ <;> decide
    · cases h

example : commentEnumToFile .yes = .ok 1 := by decide

/-- C68: which codes these are: in each table they count up from 0 in the order of the declaration. -/
theorem C68_codes : (∀ j : Justification, justificationEnumToFile j = .ok (j.ctorIdx : Int)) ∧ (∀ c : CumulativeStatus, cumulativeStatusEnumToFile c = .ok (c.ctorIdx : Int)) ∧
    commentEnumToFile .no = .ok 0 ∧ commentEnumToFile .yes = .ok 1 := by
  refine ⟨fun j => ?_, fun c => ?_, by decide, by decide⟩
  · cases j <;> decide
  · cases c <;> decide

example : justificationEnumToFile .centre = .ok 2 ∧ cumulativeStatusEnumToFile .intermediate = .ok 2 := by decide

/-- The meaning of the codes that only the reader uses. -/
theorem C68_reader_codes (s : Str) :
    (∀ e, displayStandardFileToEnum s = .ok e ↔
      (s = b!" " ∧ e = .undefined ∨ s = b!"0" ∧ e = .openSubtitling ∨ s = b!"1" ∧ e = .level1Teletext ∨ s = b!"2" ∧ e = .level2Teletext)) ∧
    (∀ e, timecodeStatusFileToEnum s = .ok e ↔ (s = b!"0" ∧ e = .notIntendedForUse ∨ s = b!"1" ∧ e = .intendedForUse)) := by
  constructor
  · intro e
    constructor
    · intro h
      unfold displayStandardFileToEnum strToEnum at h
      split at h
      · rename_i v hv
        cases h
        obtain ⟨d, hd⟩ := tableFind_mem _ _ _ hv
        simp only [displayStandardTable, List.mem_cons, Prod.mk.injEq, List.not_mem_nil, or_false] at hd
        rcases hd with ⟨rfl, rfl, _⟩ | ⟨rfl, rfl, _⟩ | ⟨rfl, rfl, _⟩ | ⟨rfl, rfl, _⟩ <;> decide
      · cases h
    · rintro (⟨rfl, rfl⟩ | ⟨rfl, rfl⟩ | ⟨rfl, rfl⟩ | ⟨rfl, rfl⟩) <;> decide
  · intro e
    constructor
    · intro h
      unfold timecodeStatusFileToEnum strToEnum at h
      split at h
      · rename_i v hv
        cases h
        obtain ⟨d, hd⟩ := tableFind_mem _ _ _ hv
        simp only [timecodeStatusTable, List.mem_cons, Prod.mk.injEq, List.not_mem_nil, or_false] at hd
        rcases hd with ⟨rfl, rfl, _⟩ | ⟨rfl, rfl, _⟩ <;> decide
      · cases h
    · rintro (⟨rfl, rfl⟩ | ⟨rfl, rfl⟩) <;> decide

example : displayStandardFileToEnum b!"2" = .ok .level2Teletext := by decide

/-- A row found by going through a table is in it and is what is sought. -/
theorem tableFirst_mem {K E : Type} (lt : K → K → Bool) (p : E × Str → Bool) : ∀ (m : StlTable K E) (r : K × E × Str), tableFirst lt p m = some r → r ∈ m ∧ p r.2 = true := by
  intro m
  induction m with
  | nil => intro r h; cases h
  | cons x m ih =>
    obtain ⟨k, v, d⟩ := x
    intro r h
    rw [tableFirst] at h
    cases hm : tableFirst lt p m with
    | none =>
      rw [hm] at h
      simp only at h
      split at h
      · cases h; exact ⟨by simp, by assumption⟩
      · cases h
    | some y =>
      obtain ⟨k', v', d'⟩ := y
      rw [hm] at h
      simp only at h
      split at h
      · rename_i hp
        cases h
        exact ⟨by simp, (Bool.and_eq_true_iff.1 hp).1⟩
      · cases h
        exact ⟨List.mem_cons_of_mem _ (ih _ hm).1, (ih _ hm).2⟩

private theorem language_rows : ∀ r ∈ languageTable, languageDescription r.2.1 = r.2.2 := by decide +kernel

/-- C68: a text is the description of at most one language, and other texts are of none. -/
theorem C68_language_described (d : Str) (l : Language) : languageDescriptionToEnum d = some l ↔ languageDescription l = d := by
  constructor
  · intro h
    unfold languageDescriptionToEnum descriptionToEnum at h
    split at h
    · rename_i k v d' hr
      cases h
      obtain ⟨h1, h2⟩ := tableFirst_mem _ _ _ _ hr
      have h2 : d' = d := by simpa using h2
      subst h2
      exact language_rows (k, l, d') h1
    · cases h
  · rintro rfl
    exact C68_language_description l

example : languageDescriptionToEnum b!"Serbo Croat" = some .serboCroat ∧ languageDescriptionToEnum b!"" = none ∧ languageDescriptionToEnum b!"serbo croat" = none := by decide +kernel

/-- C68: the descriptions in the other tables.  Of two rows for the same meaning (`04` and `U8`) the first in order of the codes is taken, and there is no row for UTF-8. -/
theorem C68_descriptions :
    [DisplayStandard.undefined, .openSubtitling, .level1Teletext, .level2Teletext].map displayStandardDescription = [b!"Undefined", b!"Open subtitling", b!"Level 1 teletext", b!"Level 2 teletext"] ∧
    [LanguageGroup.latin, .latinCyrillic, .latinArabic, .latinGreek, .latinHebrew, .utf8].map languageGroupDescription =
      [b!"Latin", b!"Latin/Cyrillic", b!"Latin/Arabic", b!"Latin/Greek", b!"Latin/Hebrew", b!""] ∧
    [TimecodeStatus.notIntendedForUse, .intendedForUse].map timecodeStatusDescription = [b!"Not intended for use", b!"Intended for use"] := by decide +kernel

example : languageGroupDescription .latinHebrew = b!"Latin/Hebrew" := by decide +kernel

/-- C68 is false of the language group: UTF-8 files read as Hebrew, and no code gives `UTF8`. -/
theorem C68_group_false : languageGroupFileToEnum b!"U8" = .ok .latinHebrew ∧ ∀ k, languageGroupFileToEnum k ≠ .ok .utf8 := by
  refine ⟨by decide, ?_⟩
  intro k h
  unfold languageGroupFileToEnum strToEnum at h
  split at h
  · rename_i v hv
    cases h
    obtain ⟨d, hd⟩ := tableFind_mem _ _ _ hv
    have : ∀ r ∈ languageGroupTable, r.2.1 ≠ LanguageGroup.utf8 := by decide
    exact this _ hd rfl
  · cases h

/-! ### C67  disk format codes -/

/-- The frame rates a disk format code can name: 23.976 is as near as a `float` gets. -/
def dfcRates : List (Str × Rat) :=
  [(b!"STL23.01", f32 (23976 / 1000)), (b!"STL24.01", 24), (b!"STL25.01", 25), (b!"STL30.01", 30)]

/-- C67: the reader accepts exactly the four codes, with the rate of each. -/
theorem C67_read (s : Str) :
    (∀ r, stlDfcToFrameRate s = .ok r ↔ (s, r) ∈ dfcRates) ∧
    ((∀ r, (s, r) ∉ dfcRates) → stlDfcToFrameRate s = .error (.stl (b!"Unknown disk format code " ++ s ++ b!" in binary STL file"))) := by
  unfold stlDfcToFrameRate
  constructor
  · intro r
    simp only [dfcRates, List.mem_cons, Prod.mk.injEq, List.not_mem_nil, or_false]
    constructor
    · intro h
      split at h
      · cases h; exact .inl ⟨by assumption, rfl⟩
      · split at h
        · cases h; exact .inr (.inl ⟨by assumption, rfl⟩)
        · split at h
          · cases h; exact .inr (.inr (.inl ⟨by assumption, rfl⟩))
          · split at h
            · cases h; exact .inr (.inr (.inr ⟨by assumption, rfl⟩))
            · cases h
    · rintro (⟨rfl, rfl⟩ | ⟨rfl, rfl⟩ | ⟨rfl, rfl⟩ | ⟨rfl, rfl⟩) <;> rfl
  · intro h
    simp only [dfcRates, List.mem_cons, Prod.mk.injEq, List.not_mem_nil, or_false, not_or, not_and] at h
    rw [if_neg (fun e => (h (f32 (23976 / 1000))).1 e rfl), if_neg (fun e => (h 24).2.1 e rfl),
      if_neg (fun e => (h 25).2.2.1 e rfl), if_neg (fun e => (h 30).2.2.2 e rfl)]

example : ∀ r, (b!"STL29.01", r) ∉ dfcRates := by
  intro r h
  simp only [dfcRates, List.mem_cons, Prod.mk.injEq, List.not_mem_nil, or_false] at h
  rcases h with ⟨h, _⟩ | ⟨h, _⟩ | ⟨h, _⟩ | ⟨h, _⟩ <;> exact absurd h (by decide)

private theorem tenth_thousandth : |f64 (1 / 10000) - 1 / 10000| ≤ 1 / 10 ^ 18 := by
  have h := f64_err (1 / 10000)
  rw [abs_of_pos (by norm_num : (0:ℚ) < 1 / 10000)] at h
  refine h.trans ?_
  norm_num

private theorem aboutEqual_of (a b : ℚ) (h : |a - b| ≤ 9999 / 100000000) : aboutEqual a b = true := by
  unfold aboutEqual
  rw [decide_eq_true_iff, absR_eq]
  have h1 := f32_err (a - b)
  have h2 := abs_le.1 tenth_thousandth
  have h3 := abs_sub_abs_le_abs_sub (f32 (a - b)) (a - b)
  norm_num at h1 h2 ⊢
  linarith

private theorem aboutEqual_not (a b : ℚ) (h : 10001 / 100000000 ≤ |a - b|) : aboutEqual a b = false := by
  unfold aboutEqual
  rw [decide_eq_false_iff_not, absR_eq, not_lt]
  have h1 := f32_err (a - b)
  have h2 := abs_le.1 tenth_thousandth
  have h3 := abs_sub_abs_le_abs_sub (a - b) (f32 (a - b))
  rw [abs_sub_comm (a - b) (f32 (a - b))] at h3
  norm_num at h1 h2 ⊢
  linarith

private theorem near23 : |f32 (23976 / 1000) - 23976 / 1000| ≤ 2 / 1000000 := by
  have h := f32_err (23976 / 1000)
  rw [abs_of_pos (by norm_num : (0:ℚ) < 23976 / 1000)] at h
  refine h.trans ?_
  norm_num

private theorem far_of (a b c : ℚ) (h : |a - b| ≤ 9999 / 100000000) (hbc : 2 / 100 ≤ |b - c|) : 10001 / 100000000 ≤ |a - c| := by
  have : |b - c| ≤ |a - b| + |a - c| := by
    have := abs_sub_le b a c
    rwa [abs_sub_comm b a] at this
  linarith

/-- C67: a frame rate within about a ten-thousandth of one of the four rates is written with the code that reads
back as that rate. -/
theorem C67_round_trip (r : ℚ) (c : Str) (n : ℚ) (hc : (c, n) ∈ dfcRates) (h : |r - n| ≤ 9999 / 100000000) :
    stlFrameRateToDfc r = c ∧ stlDfcToFrameRate (stlFrameRateToDfc r) = .ok n := by
  have k : stlFrameRateToDfc r = c := by
    unfold stlFrameRateToDfc
    have h23 := abs_le.1 near23
    simp only [dfcRates, List.mem_cons, Prod.mk.injEq, List.not_mem_nil, or_false] at hc
    rcases hc with ⟨rfl, rfl⟩ | ⟨rfl, rfl⟩ | ⟨rfl, rfl⟩ | ⟨rfl, rfl⟩
    · rw [aboutEqual_of _ _ h]; rfl
    · rw [aboutEqual_not r (f32 (23976 / 1000)) (far_of r 24 _ h (by rw [le_abs]; left; norm_num at h23 ⊢; linarith)),
        aboutEqual_of _ _ h]; rfl
    · rw [aboutEqual_not r (f32 (23976 / 1000)) (far_of r 25 _ h (by rw [le_abs]; left; norm_num at h23 ⊢; linarith)),
        aboutEqual_not r 24 (far_of r 25 _ h (by norm_num)), aboutEqual_of _ _ h]; rfl
    · rw [aboutEqual_not r (f32 (23976 / 1000)) (far_of r 30 _ h (by rw [le_abs]; left; norm_num at h23 ⊢; linarith)),
        aboutEqual_not r 24 (far_of r 30 _ h (by norm_num)), aboutEqual_not r 25 (far_of r 30 _ h (by norm_num)),
        aboutEqual_of _ _ h]; rfl
  exact ⟨k, by rw [k]; exact ((C67_read c).1 n).2 hc⟩

example : (b!"STL24.01", (24 : ℚ)) ∈ dfcRates ∧ |(24.00005 : ℚ) - 24| ≤ 9999 / 100000000 :=
  ⟨by simp [dfcRates], by norm_num [abs_of_pos]⟩

/-- C67: any other frame rate is written as 25; so whatever the rate, the writer's code is one the reader
accepts. -/
theorem C67_other (r : ℚ) (h : ∀ c n, (c, n) ∈ dfcRates → 10001 / 100000000 ≤ |r - n|) : stlFrameRateToDfc r = b!"STL25.01" := by
  unfold stlFrameRateToDfc
  rw [aboutEqual_not r _ (h b!"STL23.01" _ (by simp [dfcRates])), aboutEqual_not r _ (h b!"STL24.01" _ (by simp [dfcRates])),
    aboutEqual_not r _ (h b!"STL25.01" _ (by simp [dfcRates])), aboutEqual_not r _ (h b!"STL30.01" _ (by simp [dfcRates]))]
  rfl

example (c : Str) (n : ℚ) (h : (c, n) ∈ dfcRates) : 10001 / 100000000 ≤ |(29.97 : ℚ) - n| := by
  have h23 := abs_le.1 near23
  simp only [dfcRates, List.mem_cons, Prod.mk.injEq, List.not_mem_nil, or_false] at h
  rcases h with ⟨_, rfl⟩ | ⟨_, rfl⟩ | ⟨_, rfl⟩ | ⟨_, rfl⟩
  · rw [le_abs]; left; norm_num at h23 ⊢; linarith
  all_goals norm_num

@[inherit_doc C67_other]
theorem C67_accepted (r : ℚ) : ∃ n, (stlFrameRateToDfc r, n) ∈ dfcRates := by
  unfold stlFrameRateToDfc
  split
  · exact ⟨_, by simp [dfcRates]; rfl⟩
  · split
    · exact ⟨24, by simp [dfcRates]⟩
    · split
      · exact ⟨25, by simp [dfcRates]⟩
      · split
        · exact ⟨30, by simp [dfcRates]⟩
        · exact ⟨25, by simp [dfcRates]⟩

end LibSub
