/-
Property C144: the ISO 6937 tables and the script that made them.
-/
import Verif.Model.IsoGen
import Verif.Model.Iso6937
import Verif.Spec.IsoTablesText
import Verif.Props.StlWriteExact
import Verif.Lemmas.Split

namespace LibSub

/-! ### Specification: UnicodeData.txt -/

/-- Bytes that are UTF-8. -/
def IsUtf8 (s : Str) : Prop := ∃ w : List Char, s = (w.map String.utf8EncodeChar).flatten

/-- A row of UnicodeData.txt: fields that end with semicolons, the first being the code and the second the name of a character. -/
def CharRow (row code name : Str) : Prop := IsUtf8 row ∧ ∃ rest, row = code ++ b!";" ++ name ++ rest ∧ (59 : Byte) ∉ code ∧ (59 : Byte) ∉ name ∧ (rest = [] ∨ rest.head? = some 59)

/-- The first row for the name has the code, and so far all rows are in order. -/
def Named (rows : List Str) (name code : Str) : Prop :=
  ∃ before row after, rows = before ++ row :: after ∧ CharRow row code name ∧ ∀ x ∈ before, ∃ c n, CharRow x c n ∧ n ≠ name

/-! ### Specification: tables -/

/-- A code as in the tables: four hexadecimal digits. -/
def hexDigit4 (upper : Bool) (n : Nat) : Str := [n / 4096 % 16, n / 256 % 16, n / 16 % 16, n % 16].map fun d => UInt8.ofNat (if d < 10 then 48 + d else if upper then 55 + d else 87 + d)

/-- The marks of ISO 6937: their codes, their names in Unicode and in the source. -/
def isoMarks : List (Byte × Str × Str) := [(0xC1, b!"GRAVE", b!"grave"), (0xC2, b!"ACUTE", b!"acute"), (0xC3, b!"CIRCUMFLEX", b!"circumflex"), (0xC4, b!"TILDE", b!"tilde"),
  (0xC5, b!"MACRON", b!"macron"), (0xC6, b!"BREVE", b!"breve"), (0xC7, b!"DOT ABOVE", b!"dot"), (0xC8, b!"DIAERESIS", b!"diaeresis"), (0xCA, b!"RING ABOVE", b!"ring"),
  (0xCB, b!"CEDILLA", b!"cedilla"), (0xCD, b!"DOUBLE ACUTE", b!"double_acute"), (0xCE, b!"OGONEK", b!"ogonek"), (0xCF, b!"CARON", b!"caron")]

/-- The name of a letter with a mark. -/
def letterName (letter : Byte) (mark : Str) : Str :=
  if 97 ≤ letter then b!"LATIN SMALL LETTER " ++ [letter - 32] ++ b!" WITH " ++ mark else b!"LATIN CAPITAL LETTER " ++ [letter] ++ b!" WITH " ++ mark

/-- The letters with marks of the tables of Model/Iso6937.lean: name and code. -/
def markedLetters : List (Str × Str) := (isoMarks.zip isoDiacriticals).flatMap fun (m, _, l) => l.map fun (k, c) => (letterName k m.2.1, hexDigit4 true c)

/-- How a table is filled with its letters. -/
def markLines (m : Byte × Str × Str) (l : List (Byte × WChar)) : List Str := l.map fun (k, c) => b!"\t" ++ m.2.2 ++ b!"['" ++ [k] ++ b!"'] = 0x" ++ hexDigit4 true c ++ b!";"

/-- How a character is put into the main table: the newline, an ASCII character, and another. -/
def mainLine (k : Byte) (c : WChar) : Str :=
  if k = 10 then b!"\tmain[10] = 0x" ++ hexDigit4 true c ++ b!";"
  else if k < 128 then b!"\tmain['" ++ (if k = 39 ∨ k = 92 then [92, k] else [k]) ++ b!"'] = 0x" ++ hexDigit4 false c ++ b!";"
  else b!"\tmain[" ++ decSpec k.toNat ++ b!"U] = 0x" ++ hexDigit4 true c ++ b!";"

/-- How a table is entered for its mark. -/
def enterLine (m : Byte × Str × Str) : Str := b!"\tdiacriticals[0x" ++ (hexDigit4 false m.1.toNat).drop 2 ++ b!"] = &" ++ m.2.2 ++ b!";"

/-! ### Proofs -/

private theorem encode_chars (w : List Char) : utf8Encode (w.map Char.toNat) = (w.map String.utf8EncodeChar).flatten := by
  induction w with
  | nil => rfl
  | cons c w ih => rw [List.map_cons, List.map_cons, List.flatten_cons, utf8Encode, valid_char, if_pos rfl, encode_char, ih]

private theorem utf8_iff (s : Str) : utf8Encode (utf8Decode s) = s ↔ IsUtf8 s := by
  constructor
  · intro h
    have hw := (C123_chars s _).1 rfl
    have : ∃ w : List Char, utf8Decode s = w.map Char.toNat := by
      generalize utf8Decode s = v at hw
      clear h
      induction hw with
      | done => exact ⟨[], rfl⟩
      | char c _ _ _ ih => obtain ⟨w, rfl⟩ := ih; exact ⟨c :: w, rfl⟩
      | stray _ _ _ _ _ _ ih => exact ih
      | broken _ _ _ _ _ _ _ _ _ _ _ ih => exact ih
      | cut => exact ⟨[], rfl⟩
      | invalid _ _ _ _ _ _ _ _ _ _ ih => exact ih
    obtain ⟨w, hw⟩ := this
    rw [hw, encode_chars] at h
    exact ⟨w, h.symm⟩
  · rintro ⟨w, rfl⟩
    rw [← encode_chars, utf8Decode_encode]
    intro v hv
    obtain ⟨c, _, rfl⟩ := List.mem_map.1 hv
    exact valid_char c

/-- The first two fields. -/
private theorem row_split (l s0 s1 : Str) (tl : List Str) (h : splitAny (· == 59) l = s0 :: s1 :: tl) :
    ∃ rest, l = s0 ++ b!";" ++ s1 ++ rest ∧ (59 : Byte) ∉ s0 ∧ (59 : Byte) ∉ s1 ∧ (rest = [] ∨ rest.head? = some 59) := by
  have no : ∀ {a : Str}, (∀ c ∈ a, (c == 59) = false) → (59 : Byte) ∉ a := fun h hm => by simpa using h 59 hm
  rcases splitAny_cases (· == 59) l with ⟨h1, _⟩ | ⟨a, x, b, e, h1, hx, h2⟩
  · rw [h1] at h; cases h
  · rw [h2] at h
    obtain ⟨rfl, h'⟩ := List.cons.inj h
    have hx : x = 59 := by simpa using hx
    subst hx
    rcases splitAny_cases (· == 59) b with ⟨h3, h4⟩ | ⟨a', x', b', e', h3, hx', h4⟩
    · rw [h3] at h'
      obtain ⟨rfl, -⟩ := List.cons.inj h'
      exact ⟨[], by simp [e], no h1, no h4, .inl rfl⟩
    · rw [h4] at h'
      obtain ⟨rfl, -⟩ := List.cons.inj h'
      have hx' : x' = 59 := by simpa using hx'
      subst hx'
      exact ⟨59 :: b', by simp [e, e'], no h1, no h3, .inr rfl⟩

private theorem split_row {row code name : Str} (h : CharRow row code name) : ∃ tl, splitAny (· == 59) row = code :: name :: tl := by
  obtain ⟨_, rest, rfl, h1, h2, h3⟩ := h
  have no : ∀ {a : Str}, (59 : Byte) ∉ a → ∀ c ∈ a, (c == 59) = false := fun h c hc => by
    cases e : c == 59 with
    | false => rfl
    | true => rw [beq_iff_eq.1 e] at hc; exact absurd hc h
  rw [List.append_assoc, List.append_assoc]
  show ∃ tl, splitAny _ (code ++ 59 :: (name ++ rest)) = _
  rw [splitAny_append (no h1) (by rfl)]
  rcases h3 with rfl | h3
  · rw [List.append_nil, splitAny_noSep (no h2)]; exact ⟨_, rfl⟩
  · cases rest with
    | nil => cases h3
    | cons x r =>
      rw [Option.some.inj h3, splitAny_append (no h2) (by rfl)]
      exact ⟨_, rfl⟩

private theorem find_step {row code name : Str} (h : CharRow row code name) (n : Str) (ls : List Str) : findUnicode n (row :: ls) = if name = n then .found code else findUnicode n ls := by
  obtain ⟨tl, ht⟩ := split_row h
  rw [findUnicode, if_neg (by rw [not_not]; exact (utf8_iff row).2 h.1), ht]

/-! ### C144 -/

/-- C144: the assignments in src/iso6937_tables.cc are the tables of the model, in this order. -/
theorem C144_tables : isoDiacriticals.map (·.1) = isoMarks.map (·.1) ∧
    isoTablesCc.filter (fun l => b!"\t".isPrefixOf l) = [b!"\tusing namespace sub::iso6937;"] ++ ((isoMarks.zip isoDiacriticals).flatMap fun (m, _, l) => markLines m l) ++
      isoMain.map (fun (k, c) => mainLine k c) ++ isoMarks.map enterLine := by decide +kernel

/-- C144: what `find_unicode` finds: the code in the first row with the name, all rows up to it being rows of characters. -/
theorem C144_find (rows : List Str) (name code : Str) : findUnicode name rows = .found code ↔ Named rows name code := by
  constructor
  · intro h
    induction rows with
    | nil => cases h
    | cons l ls ih =>
      rw [findUnicode] at h
      by_cases hu : utf8Encode (utf8Decode l) ≠ l
      · rw [if_pos hu] at h; cases h
      · rw [if_neg hu] at h
        have hu := (utf8_iff l).1 (not_not.1 hu)
        cases hs : splitAny (· == 59) l with
        | nil => rw [hs] at h; cases h
        | cons s0 t =>
          cases t with
          | nil => rw [hs] at h; cases h
          | cons s1 tl =>
            rw [hs] at h
            simp only [] at h
            have hr : CharRow l s0 s1 := ⟨hu, row_split l s0 s1 tl hs⟩
            by_cases he : s1 = name
            · rw [if_pos he] at h
              cases h
              rw [he] at hr
              exact ⟨[], l, ls, rfl, hr, by simp⟩
            · rw [if_neg he] at h
              obtain ⟨before, row, after, e, h1, h2⟩ := ih h
              refine ⟨l :: before, row, after, by rw [e]; rfl, h1, fun x hx => ?_⟩
              rcases List.mem_cons.1 hx with rfl | hx
              · exact ⟨s0, s1, hr, he⟩
              · exact h2 x hx
  · rintro ⟨before, row, after, rfl, h1, h2⟩
    induction before with
    | nil => rw [List.nil_append, find_step h1, if_pos rfl]
    | cons x before ih =>
      obtain ⟨c, n, hx, hn⟩ := h2 x (by simp)
      rw [List.cons_append, find_step hx, if_neg hn]
      exact ih fun y hy => h2 y (by simp [hy])

example : Named [b!"0041;LATIN CAPITAL LETTER A;Lu;0", b!"00C0;LATIN CAPITAL LETTER A WITH GRAVE"] b!"LATIN CAPITAL LETTER A WITH GRAVE" b!"00C0" := (C144_find _ _ _).1 (by decide +kernel)

private theorem py_lines (rows : List Str) (h : ∀ r ∈ rows, (10 : Byte) ∉ r ∧ (13 : Byte) ∉ r) : pyLines (printed rows) = rows := by
  have line : ∀ (r t : Str), (10 : Byte) ∉ r → (13 : Byte) ∉ r → pyLines (r ++ 10 :: t) = r :: pyLines t := by
    intro r t
    induction r with
    | nil => intro _ _; rw [List.nil_append, pyLines] <;> simp
    | cons c r ih =>
      intro h1 h2
      have hc : c ≠ 10 ∧ c ≠ 13 := ⟨fun e => h1 (by simp [e]), fun e => h2 (by simp [e])⟩
      rw [List.cons_append, pyLines, ih (fun h => h1 (by simp [h])) (fun h => h2 (by simp [h]))]
      · simp [hc]
      · intro _ e; exact absurd e hc.2
  induction rows with
  | nil => rfl
  | cons r rows ih =>
    unfold printed at ih ⊢
    rw [List.map_cons, List.flatten_cons, List.append_assoc]
    show pyLines (r ++ 10 :: (rows.map (· ++ [10])).flatten) = _
    rw [line r _ (h r (by simp)).1 (h r (by simp)).2, ih fun x hx => h x (by simp [hx])]

/-- What the loop over letters writes if the codes are `f`. -/
private def lettersText (f : Byte → Str) (table : Str) (cs : Str) : Str := (cs.map fun c => b!"\t" ++ table ++ b!"['" ++ [c] ++ b!"'] = 0x" ++ f c ++ b!";\n").flatten

private theorem fill_found (rows : List Str) (mark table : Str) (f : Byte → Str) (cs : Str) (h : ∀ c ∈ cs, findUnicode (unicodeName mark c) rows = .found (f c)) :
    fillLetters rows mark table cs = (lettersText f table cs, none) := by
  induction cs with
  | nil => rfl
  | cons c cs ih =>
    rw [fillLetters, h c (by simp)]
    simp only [ih fun x hx => h x (by simp [hx])]
    rfl

private theorem printed_append (a b : List Str) : printed (a ++ b) = printed a ++ printed b := by simp [printed]

/-- The lines for letters. -/
private def letterLines (f : Byte → Str) (table : Str) (cs : Str) : List Str := cs.map fun c => b!"\t" ++ table ++ b!"['" ++ [c] ++ b!"'] = 0x" ++ f c ++ b!";"

private theorem letters_printed (f : Byte → Str) (table cs : Str) : lettersText f table cs = printed (letterLines f table cs) := by
  unfold lettersText printed letterLines
  rw [List.map_map]
  refine congrArg List.flatten (List.map_congr_left fun c _ => ?_)
  simp only [Function.comp_apply, List.append_assoc]
  rfl

private theorem groups_printed (f : Byte → Byte → Str) (gs : List (Byte × Str × Str × Str)) :
    (gs.map fun g => lettersText (f g.1) g.2.2.1 g.2.2.2 ++ b!"\n").flatten = printed (gs.flatMap fun g => letterLines (f g.1) g.2.2.1 g.2.2.2 ++ [[]]) := by
  induction gs with
  | nil => rfl
  | cons g gs ih => rw [List.map_cons, List.flatten_cons, ih, List.flatMap_cons, printed_append, printed_append, letters_printed]; rfl

private theorem externs_printed (gs : List (Byte × Str × Str × Str)) :
    (gs.map fun g => b!"extern std::map<char, wchar_t> " ++ g.2.2.1 ++ b!";\n").flatten = printed (gs.map fun g => b!"extern std::map<char, wchar_t> " ++ g.2.2.1 ++ b!";") := by
  unfold printed
  rw [List.map_map]
  refine congrArg List.flatten (List.map_congr_left fun c _ => ?_)
  simp only [Function.comp_apply, List.append_assoc]
  rfl

/-- The code of a letter with a mark, from the tables. -/
private def codeOf (d c : Byte) : Str := hexDigit4 true ((((isoDiacriticals.lookup d).getD []).lookup c).getD 0)

private theorem fillAll_found (rows : List Str) (gs : List (Byte × Str × Str × Str)) : ∀ (cc h : Str), (∀ g ∈ gs, ∀ c ∈ g.2.2.2, findUnicode (unicodeName g.2.1 c) rows = .found (codeOf g.1 c)) →
    fillAll rows gs cc h = .done (cc ++ (gs.map fun g => lettersText (codeOf g.1) g.2.2.1 g.2.2.2 ++ b!"\n").flatten)
      (h ++ (gs.map fun g => b!"extern std::map<char, wchar_t> " ++ g.2.2.1 ++ b!";\n").flatten) := by
  induction gs with
  | nil => intro cc h _; simp [fillAll]
  | cons g gs ih =>
    intro cc h hf
    obtain ⟨d, mark, table, letters⟩ := g
    rw [fillAll, fill_found rows mark table (codeOf d) letters (hf _ List.mem_cons_self)]
    simp only []
    rw [ih _ _ fun g hg => hf g (List.mem_cons_of_mem _ hg)]
    simp [List.append_assoc]

/-- The names that the script looks up are those of the letters with marks. -/
private theorem groups_eq : markedLetters = isoGroups.flatMap fun g => g.2.2.2.map fun c => (unicodeName g.2.1 c, codeOf g.1 c) := by decide +kernel

private theorem groups_named : ∀ g ∈ isoGroups, ∀ c ∈ g.2.2.2, (unicodeName g.2.1 c, codeOf g.1 c) ∈ markedLetters := by
  intro g hg c hc
  rw [groups_eq]
  exact List.mem_flatMap.2 ⟨g, hg, List.mem_map.2 ⟨c, hc, rfl⟩⟩

/-- C144: from any file of character names that gives the letters with marks the codes that they have in the tables, whatever else it has, the script makes the two files of the source byte for byte. -/
theorem C144_generates (rows : List Str) (hl : ∀ r ∈ rows, (10 : Byte) ∉ r ∧ (13 : Byte) ∉ r) (h : ∀ e ∈ markedLetters, Named rows e.1 e.2) :
    isoGenerate (printed rows) = .done (printed isoTablesCc) (printed isoTablesH) := by
  have hg : ∀ g ∈ isoGroups, ∀ c ∈ g.2.2.2, findUnicode (unicodeName g.2.1 c) rows = .found (codeOf g.1 c) :=
    fun g hg c hc => (C144_find _ _ _).2 (h _ (groups_named g hg c hc))
  unfold isoGenerate
  rw [py_lines rows hl]
  simp only [fillAll_found rows isoGroups _ _ hg]
  rw [groups_printed, externs_printed]
  simp only [← printed_append]
  rw [GenResult.done.injEq]
  exact ⟨congrArg printed (by decide +kernel), congrArg printed (by decide +kernel)⟩

/-- How a line of the data may end. -/
def LineEnd (e : Str) : Prop := e = [10] ∨ e = [13, 10] ∨ e = [13]

private theorem py_end (r e t : Str) (h1 : (10 : Byte) ∉ r) (h2 : (13 : Byte) ∉ r) (he : LineEnd e) (ht : t.head? ≠ some 10) : pyLines (r ++ (e ++ t)) = r :: pyLines t := by
  induction r with
  | nil =>
    rcases he with rfl | rfl | rfl
    · show pyLines (10 :: t) = _
      rw [pyLines] <;> simp
    · show pyLines (13 :: 10 :: t) = _
      rw [pyLines]
    · show pyLines (13 :: t) = _
      rw [pyLines]
      · simp
      · rintro cs _ h
        rw [h] at ht
        exact ht rfl
  | cons c r ih =>
    have hc : c ≠ 10 ∧ c ≠ 13 := ⟨fun e => h1 (by simp [e]), fun e => h2 (by simp [e])⟩
    rw [List.cons_append, pyLines, ih (fun h => h1 (by simp [h])) (fun h => h2 (by simp [h]))]
    · simp [hc.1, hc.2]
    · intro cs h _; exact hc.2 h

/-- C144: it does not matter with which of LF, CR LF and CR each line of the data ends, nor whether the last one has an end. -/
theorem C144_line_ends (rows : List (Str × Str)) (last : Str) (hl : ∀ r ∈ rows, r.1 ≠ [] ∧ (10 : Byte) ∉ r.1 ∧ (13 : Byte) ∉ r.1 ∧ LineEnd r.2)
    (hlast : last ≠ [] ∧ (10 : Byte) ∉ last ∧ (13 : Byte) ∉ last) :
    isoGenerate ((rows.flatMap fun r => r.1 ++ r.2) ++ last) = isoGenerate (printed (rows.map (·.1) ++ [last])) := by
  have key : pyLines ((rows.flatMap fun r => r.1 ++ r.2) ++ last) = rows.map (·.1) ++ [last] := by
    induction rows with
    | nil =>
      obtain ⟨h0, h1, h2⟩ := hlast
      have : ∀ t : Str, t ≠ [] → (10 : Byte) ∉ t → (13 : Byte) ∉ t → pyLines t = [t] := by
        intro t
        induction t with
        | nil => intro h; exact absurd rfl h
        | cons c t ih =>
          intro _ h1 h2
          have hc : c ≠ 10 ∧ c ≠ 13 := ⟨fun e => h1 (by simp [e]), fun e => h2 (by simp [e])⟩
          rw [pyLines]
          · simp only [hc.1, hc.2, decide_false, Bool.or_self, Bool.false_eq_true, if_false]
            cases t with
            | nil => rfl
            | cons d t => rw [ih (by simp) (fun h => h1 (by simp [h])) (fun h => h2 (by simp [h]))]
          · intro cs h _; exact hc.2 h
      exact this last h0 h1 h2
    | cons r rows ih =>
      obtain ⟨_, h1, h2, h3⟩ := hl r (by simp)
      rw [List.flatMap_cons, List.append_assoc, List.append_assoc, py_end r.1 r.2 _ h1 h2 h3, ih (fun r hr => hl r (by simp [hr]))]
      · rfl
      · cases rows with
        | nil =>
          obtain ⟨h0, h1, _⟩ := hlast
          cases last with
          | nil => exact absurd rfl h0
          | cons c t => intro h; injection h with h; exact h1 (by simp [h])
        | cons q rows =>
          obtain ⟨h0, h1, _⟩ := hl q (by simp)
          obtain ⟨q1, q2⟩ := q
          cases q1 with
          | nil => exact absurd rfl h0
          | cons c t => intro h; injection h with h; exact h1 (by simp [h])
  unfold isoGenerate
  rw [key, py_lines]
  intro r hr
  rcases List.mem_append.1 hr with hr | hr
  · obtain ⟨q, hq, rfl⟩ := List.mem_map.1 hr
    exact ⟨(hl q hq).2.1, (hl q hq).2.2.1⟩
  · rw [List.mem_singleton.1 hr]
    exact hlast.2

/-- Rows with the three ends. -/
example : ∀ r ∈ [(b!"0041;A", [10]), (b!"0042;B", [13, 10]), (b!"0043;C", ([13] : Str))], r.1 ≠ [] ∧ (10 : Byte) ∉ r.1 ∧ (13 : Byte) ∉ r.1 ∧ LineEnd r.2 := by
  unfold LineEnd; decide +kernel

/-- A row for a letter with a mark. -/
private def rowFor (e : Str × Str) : Str := e.2 ++ b!";" ++ e.1 ++ b!";Ll;0;L"

private theorem rows_named (es : List (Str × Str)) (hn : (es.map (·.1)).Nodup) (h : ∀ e ∈ es, ∀ c ∈ e.1 ++ e.2, c < 128 ∧ c ≠ 59) : ∀ e ∈ es, Named (es.map rowFor) e.1 e.2 := by
  have row : ∀ e ∈ es, CharRow (rowFor e) e.2 e.1 := by
    intro e he
    have hc := h e he
    refine ⟨?_, b!";Ll;0;L", rfl, fun hm => (hc 59 (by simp [hm])).2 rfl, fun hm => (hc 59 (by simp [hm])).2 rfl, .inr rfl⟩
    have ascii : ∀ s : Str, (∀ c ∈ s, c < 128) → IsUtf8 s := by
      intro s hs
      refine ⟨s.map fun c => Char.ofNat c.toNat, ?_⟩
      induction s with
      | nil => rfl
      | cons c s ih =>
        have e1 : String.utf8EncodeChar (Char.ofNat c.toNat) = [c] := by
          have := forall_byte (p := fun c => c < 128 → String.utf8EncodeChar (Char.ofNat c.toNat) = [c]) (by decide +kernel) c
          exact this (hs c (by simp))
        rw [List.map_cons, List.map_cons, List.flatten_cons, e1, ← ih fun x hx => hs x (by simp [hx])]
        rfl
    refine ascii _ fun c hm => ?_
    unfold rowFor at hm
    simp only [List.mem_append] at hm
    rcases hm with ((hm | hm) | hm) | hm
    · exact (hc c (by simp [hm])).1
    · rw [List.mem_singleton.1 hm]; decide
    · exact (hc c (by simp [hm])).1
    · revert c hm; decide
  intro e he
  obtain ⟨before, after, rfl⟩ := List.append_of_mem he
  refine ⟨before.map rowFor, rowFor e, after.map rowFor, by simp, row e he, fun x hx => ?_⟩
  obtain ⟨y, hy, rfl⟩ := List.mem_map.1 hx
  refine ⟨_, _, row y (by simp [hy]), fun e1 => ?_⟩
  rw [List.map_append, List.nodup_append] at hn
  exact hn.2.2 y.1 (List.mem_map_of_mem hy) e.1 (by simp) e1

/-- A file with rows for the letters with marks and no others. -/
example : (∀ r ∈ markedLetters.map rowFor, (10 : Byte) ∉ r ∧ (13 : Byte) ∉ r) ∧ (∀ e ∈ markedLetters, Named (markedLetters.map rowFor) e.1 e.2) ∧ markedLetters.length = 155 :=
  ⟨by decide +kernel, rows_named _ (by decide +kernel) (by decide +kernel), by decide +kernel⟩

private theorem find_total (rows : List Str) (name : Str) (hr : ∀ r ∈ rows, ∃ c n, CharRow r c n) :
    (∃ code, findUnicode name rows = .found code) ∨ (findUnicode name rows = .missing ∧ ∀ r ∈ rows, ∀ c n, CharRow r c n → n ≠ name) := by
  induction rows with
  | nil => exact .inr ⟨rfl, by simp⟩
  | cons r rows ih =>
    obtain ⟨c, n, h⟩ := hr r (by simp)
    rw [find_step h]
    by_cases e : n = name
    · exact .inl ⟨c, by rw [if_pos e]⟩
    · rw [if_neg e]
      rcases ih fun x hx => hr x (by simp [hx]) with h1 | ⟨h1, h2⟩
      · exact .inl h1
      · refine .inr ⟨h1, fun x hx c' n' hx' => ?_⟩
        rcases List.mem_cons.1 hx with rfl | hx
        · obtain ⟨t1, h3⟩ := split_row h
          obtain ⟨t2, h4⟩ := split_row hx'
          rw [h3] at h4
          obtain ⟨-, h4⟩ := List.cons.inj h4
          rw [← (List.cons.inj h4).1]
          exact e
        · exact h2 x hx c' n' hx'

private theorem fill_stops (rows : List Str) (mark table : Str) (hr : ∀ r ∈ rows, ∃ c n, CharRow r c n) (cs : Str) :
    ((∃ s, fillLetters rows mark table cs = (s, none)) ∧ ∀ c ∈ cs, ∃ code, findUnicode (unicodeName mark c) rows = .found code) ∨
    ∃ c ∈ cs, ∃ s, fillLetters rows mark table cs = (s, some (.missing (unicodeName mark c))) ∧ findUnicode (unicodeName mark c) rows = .missing := by
  induction cs with
  | nil => exact .inl ⟨⟨_, rfl⟩, by simp⟩
  | cons c cs ih =>
    rw [fillLetters]
    rcases find_total rows (unicodeName mark c) hr with ⟨code, h⟩ | ⟨h, _⟩
    · rw [h]
      rcases ih with ⟨⟨s, h1⟩, h2⟩ | ⟨d, hd, s, h1, h2⟩
      · refine .inl ⟨⟨_, by simp only [h1]; rfl⟩, fun x hx => ?_⟩
        rcases List.mem_cons.1 hx with rfl | hx
        · exact ⟨code, h⟩
        · exact h2 x hx
      · exact .inr ⟨d, by simp [hd], _, by simp only [h1]; rfl, h2⟩
    · rw [h]
      exact .inr ⟨c, by simp, _, rfl, h⟩

private theorem fillAll_stops (rows : List Str) (hr : ∀ r ∈ rows, ∃ c n, CharRow r c n) (gs : List (Byte × Str × Str × Str)) : ∀ cc h : Str,
    ((∃ cc' h', fillAll rows gs cc h = .done cc' h') ∧ ∀ g ∈ gs, ∀ c ∈ g.2.2.2, ∃ code, findUnicode (unicodeName g.2.1 c) rows = .found code) ∨
    ∃ g ∈ gs, ∃ c ∈ g.2.2.2, ∃ cc' h', fillAll rows gs cc h = .missing (unicodeName g.2.1 c) cc' h' ∧ findUnicode (unicodeName g.2.1 c) rows = .missing := by
  induction gs with
  | nil => intro cc h; exact .inl ⟨⟨_, _, rfl⟩, by simp⟩
  | cons g gs ih =>
    intro cc h
    obtain ⟨d, mark, table, letters⟩ := g
    rw [fillAll]
    rcases fill_stops rows mark table hr letters with ⟨⟨s, h1⟩, h2⟩ | ⟨c, hc, s, h1, h2⟩
    · rw [h1]
      simp only []
      rcases ih (cc ++ s ++ b!"\n") (h ++ b!"extern std::map<char, wchar_t> " ++ table ++ b!";\n") with ⟨h3, h4⟩ | ⟨g, hg, c, hc, h3⟩
      · refine .inl ⟨h3, fun g hg => ?_⟩
        rcases List.mem_cons.1 hg with rfl | hg
        · exact h2
        · exact h4 g hg
      · exact .inr ⟨g, by simp [hg], c, hc, h3⟩
    · rw [h1]
      exact .inr ⟨(d, mark, table, letters), List.mem_cons_self, c, hc, _, _, rfl, h2⟩

/-- C144: on any other file of rows of characters the script either finds all of the letters or says which it has not found; it raises no exception. -/
theorem C144_stops (rows : List Str) (hl : ∀ r ∈ rows, (10 : Byte) ∉ r ∧ (13 : Byte) ∉ r) (hr : ∀ r ∈ rows, ∃ c n, CharRow r c n) :
    ((∃ cc h, isoGenerate (printed rows) = .done cc h) ∧ ∀ e ∈ markedLetters, ∃ code, Named rows e.1 code) ∨
    ∃ e ∈ markedLetters, ∃ cc h, isoGenerate (printed rows) = .missing e.1 cc h ∧ ∀ r ∈ rows, ∀ c n, CharRow r c n → n ≠ e.1 := by
  have names : ∀ e ∈ markedLetters, ∃ g ∈ isoGroups, ∃ c ∈ g.2.2.2, unicodeName g.2.1 c = e.1 := by
    intro e he
    rw [groups_eq] at he
    obtain ⟨g, hg, he⟩ := List.mem_flatMap.1 he
    obtain ⟨c, hc, rfl⟩ := List.mem_map.1 he
    exact ⟨g, hg, c, hc, rfl⟩
  unfold isoGenerate
  rw [py_lines rows hl]
  simp only []
  rcases fillAll_stops rows hr isoGroups (printed isoHeadCc ++ printed (isoGroups.map fun g => b!"map<char, wchar_t> sub::iso6937::" ++ g.2.2.1 ++ b!";") ++
    printed [b!"map<char, wchar_t> sub::iso6937::main;", b!"map<char, map<char, wchar_t> *> sub::iso6937::diacriticals;"] ++ printed isoFunction)
    (printed isoHeadH ++ printed [b!"extern std::map<char, wchar_t> main;", b!"extern std::map<char, std::map<char, wchar_t> *> diacriticals;"]) with ⟨⟨cc, h, h1⟩, h2⟩ | ⟨g, hg, c, hc, cc, h, h1, h2⟩
  · rw [h1]
    refine .inl ⟨⟨_, _, rfl⟩, fun e he => ?_⟩
    obtain ⟨g, hg, c, hc, en⟩ := names e he
    obtain ⟨code, hf⟩ := h2 g hg c hc
    exact ⟨code, (C144_find _ _ _).1 (en ▸ hf)⟩
  · rw [h1]
    refine .inr ⟨_, groups_named g hg c hc, cc, h, rfl, ?_⟩
    rcases find_total rows (unicodeName g.2.1 c) hr with ⟨code, h3⟩ | ⟨_, h3⟩
    · rw [h2] at h3; cases h3
    · exact h3

/-- A file with one row. -/
example : isoGenerate (printed [b!"00C0;LATIN CAPITAL LETTER A WITH GRAVE;Lu"]) ≠ .raised [] [] ∧
    (match isoGenerate (printed [b!"00C0;LATIN CAPITAL LETTER A WITH GRAVE;Lu"]) with | .missing n _ _ => n | _ => []) = b!"LATIN CAPITAL LETTER E WITH GRAVE" := by decide +kernel

end LibSub
