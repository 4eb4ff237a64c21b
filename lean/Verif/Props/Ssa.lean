/-
Properties C27 (SSA part), C42, C43 and C44: SSA files.
-/
import Verif.Model.Ssa
import Verif.Props.StlText
import Verif.Props.Values

namespace LibSub

/-! ### Numbers -/

theorem makeLocal_classic (v : Str) : makeLocal Locale.c v = v := by
  unfold makeLocal replaceAll
  rw [if_neg (by decide)]
  induction v with
  | nil => rfl
  | cons c cs ih =>
    rw [replaceAllGo]
    split
    · rename_i h
      have : c = 46 := by
        rw [startsWith_iff] at h
        obtain ⟨t, ht⟩ := h
        exact (List.cons.inj ht).1.symm
      subst this
      show [46] ++ replaceAllGo b!"." Locale.c.decimalPoint 0 cs = _
      rw [ih]; rfl
    · rw [ih]

theorem takeWhile_all {p : Byte → Bool} {l : Str} (h : ∀ c ∈ l, p c = true) : l.takeWhile p = l := by
  induction l with
  | nil => rfl
  | cons a l ih => rw [List.takeWhile_cons_of_pos (h a (by simp)), ih (fun c hc => h c (by simp [hc]))]

/-- `raw_convert<int>` of a number with leading zeros. -/
theorem rawConvertInt_padded (pad n : Nat) (h : n < 2 ^ 31) : rawConvertInt (List.replicate pad 48 ++ decSpec n) = .ok (n : Int) := by
  rw [← natDec_eq_decSpec]
  have hall : ∀ c ∈ List.replicate pad (48 : Byte) ++ natDec n, isDigit c = true := by
    intro c hc
    rw [List.mem_append] at hc
    rcases hc with hc | hc
    · rw [List.eq_of_mem_replicate hc]; decide
    · exact natDec_digits n c hc
  unfold rawConvertInt rawConvertIntIn scanInt
  rw [makeLocal_classic]
  have hne : List.replicate pad (48 : Byte) ++ natDec n ≠ [] := by simp [natDec_ne_nil]
  cases hs : List.replicate pad (48 : Byte) ++ natDec n with
  | nil => exact absurd hs hne
  | cons a l =>
    rw [hs] at hall
    have ha := hall a (by simp)
    have hsp : isSpace a = false := by
      have := forall_byte (p := fun c => isDigit c = true → isSpace c = false) (by decide +kernel) a
      exact this ha
    have h45 : a ≠ 45 := by rintro rfl; revert ha; decide
    have h43 : a ≠ 43 := by rintro rfl; revert ha; decide
    rw [List.dropWhile_cons_of_neg (by simp [hsp])]
    have e1 : takeSign (a :: l) = (false, a :: l) := by simp [takeSign, h45, h43]
    rw [e1]
    have e2 : takeDigits (a :: l) = a :: l := by
      unfold takeDigits
      exact takeWhile_all hall
    simp only [e2]
    rw [← hs, decVal_zeros_append, decVal_natDec]
    have : InInt (n : Int) := by unfold InInt; omega
    simp [this]

/-! ### C42 times -/

/-- The time that `h:m:s.cc` means: `cc` are hundredths of a second, the time has a rate of 1000. -/
def Stamp.hundredths (t : Stamp) : Time := ⟨3600 * t.h + 60 * t.m + t.s, 10 * t.ms, some ⟨1000, 1⟩⟩

/-- Fields that fit in an `int` together. -/
def Stamp.Fits (t : Stamp) : Prop := 3600 * t.h + 60 * t.m + t.s < 2 ^ 31 ∧ 10 * t.ms < 2 ^ 31

private theorem padded_noSep (k n : Nat) : ∀ c ∈ List.replicate k (48 : Byte) ++ decSpec n, (c == 58 || c == 46) = false := by
  intro c hc
  rw [← natDec_eq_decSpec, List.mem_append] at hc
  have hd : isDigit c = true := by
    rcases hc with hc | hc
    · rw [List.eq_of_mem_replicate hc]; decide
    · exact natDec_digits n c hc
  exact forall_byte (p := fun c => isDigit c = true → (c == 58 || c == 46) = false) (by decide +kernel) c hd

/-- C42: `h:m:s.cc`, with any number of leading zeros in each field. -/
theorem C42_time (t : Stamp) (ht : t.Fits) : ssaParseTime (t.text 46) = .ok t.hundredths := by
  obtain ⟨h1, h2⟩ := ht
  have e : t.text 46 = (List.replicate t.padH 48 ++ decSpec t.h) ++ 58 :: ((List.replicate t.padM 48 ++ decSpec t.m) ++ 58 ::
      ((List.replicate t.padS 48 ++ decSpec t.s) ++ 46 :: (List.replicate t.padMs 48 ++ decSpec t.ms))) := by
    simp [Stamp.text]
  unfold ssaParseTime
  rw [e, splitAny_append (padded_noSep _ _) (by decide), splitAny_append (padded_noSep _ _) (by decide),
    splitAny_append (padded_noSep _ _) (by decide), splitAny_noSep (padded_noSep _ _)]
  simp only []
  rw [rawConvertInt_padded _ _ (by omega), ok_bind, rawConvertInt_padded _ _ (by omega), ok_bind, rawConvertInt_padded _ _ (by omega), ok_bind,
    rawConvertInt_padded _ _ (by omega), ok_bind, ck_ok (by unfold InInt; omega), ok_bind]
  unfold Time.fromHms hmsSeconds
  rw [ck_ok (by unfold InInt; omega), ok_bind, ck_ok (by unfold InInt; omega), ok_bind, ck_ok (by unfold InInt; omega), ok_bind,
    ck_ok (by unfold InInt; omega), ok_bind, pure_eq_ok]
  unfold Stamp.hundredths
  congr 2
  · omega
  · omega

example : Stamp.Fits ⟨1, 2, 3, 45, 0, 1, 1, 0⟩ ∧ (⟨1, 2, 3, 45, 0, 1, 1, 0⟩ : Stamp).text 46 = b!"1:02:03.45" ∧
    (⟨1, 2, 3, 45, 0, 1, 1, 0⟩ : Stamp).hundredths = ⟨3723, 450, some ⟨1000, 1⟩⟩ := by
  refine ⟨⟨by decide, by decide⟩, by decide, by decide⟩

/-- C42: anything but three separators is a `ProgrammingError`. -/
theorem C42_fields (s : Str) (h : s.countP (fun c => c = 58 ∨ c = 46) ≠ 3) : ssaParseTime s = .error .programming := by
  have hl := splitAny_length (fun c => c == 58 || c == 46) s
  have hc : s.countP (fun c => decide (c = 58 ∨ c = 46)) = s.countP (fun c => c == 58 || c == 46) := by
    congr 1; funext c; simp [beq_eq_decide]
  rw [hc] at h
  unfold ssaParseTime
  split
  · rename_i h'
    rw [h'] at hl
    exact absurd (Nat.succ.inj hl).symm h
  · rfl

example : b!"1:02:03".countP (fun c => c = 58 ∨ c = 46) ≠ 3 := by decide

/-! ### C43 the last field of a dialogue -/

private def joinComma : List Str → Str
  | [] => []
  | [a] => a
  | a :: b :: l => a ++ 44 :: joinComma (b :: l)

private theorem joinComma_last (i : List Str) (b e : Str) : joinComma (i ++ [b, e]) = joinComma (i ++ [b ++ [44] ++ e]) := by
  induction i with
  | nil => simp [joinComma]
  | cons a i ih =>
    cases i with
    | nil => simp [joinComma]
    | cons c i => simp only [List.cons_append, joinComma]; rw [← List.cons_append, ih]; rfl

private theorem joinComma_split (s : Str) : joinComma (splitAny isComma s) = s := by
  induction s with
  | nil => rfl
  | cons c cs ih =>
    rw [splitAny]
    have hne := splitAny_ne_nil isComma cs
    cases hsp : splitAny isComma cs with
    | nil => exact absurd hsp hne
    | cons t ts =>
      rw [hsp] at ih
      split
      · rename_i hc
        have : c = 44 := by simpa [isComma] using hc
        subst this
        simp [joinComma, ih]
      · cases ts with
        | nil => simp only [joinComma] at *; rw [ih]
        | cons u us => simp only [joinComma] at *; rw [← ih]; rfl

private theorem rejoin (fs tail : List Str) (fuel : Nat) (hf : tail.length ≤ fuel) (ht : tail ≠ []) :
    ssaRejoin (fs.length + 1) fuel (fs ++ tail) = fs ++ [joinComma tail] := by
  induction fuel generalizing tail with
  | zero => exact absurd (List.length_eq_zero_iff.1 (by omega)) ht
  | succ fuel ih =>
    rw [ssaRejoin]
    rcases List.eq_nil_or_concat tail with h | ⟨i, e, h⟩
    · exact absurd h ht
    · rcases List.eq_nil_or_concat i with h' | ⟨i', b, h'⟩
      · subst h'
        subst h
        simp [joinComma]
      · subst h'
        subst h
        rw [if_pos (by simp)]
        have er : (fs ++ ((i' ++ [b]) ++ [e])).reverse = e :: b :: (fs ++ i').reverse := by simp
        simp only [List.concat_eq_append] at *
        rw [er]
        simp only [List.reverse_reverse]
        rw [List.append_assoc fs, ih (i' ++ [b ++ [44] ++ e]) (by simp at hf ⊢; exact hf) (by simp)]
        rw [← joinComma_last]
        simp

private theorem split_fields (fs : List Str) (rest : Str) (h : ∀ f ∈ fs, (44 : Byte) ∉ f) :
    splitAny isComma ((fs.map (· ++ [44])).flatten ++ rest) = fs ++ splitAny isComma rest := by
  induction fs with
  | nil => rfl
  | cons f fs ih =>
    have hf := h f (by simp)
    have : (((f :: fs).map (· ++ [(44 : Byte)])).flatten ++ rest) = f ++ 44 :: ((fs.map (· ++ [44])).flatten ++ rest) := by simp
    rw [this, splitAny_append (fun c hc => by
      simp only [isComma, beq_eq_false_iff_ne]
      rintro rfl
      exact hf hc) (by decide), ih (fun g hg => h g (by simp [hg]))]
    rfl

/-- C43: a dialogue line whose first fields are `fs` (which contain no commas) and whose remainder is `rest` (which may) assigns
`rest`, as a whole, to the last key of the format line. -/
theorem C43_rest (r : SsaRead) (fs : List Str) (rest : Str) (hn : r.eventFormat.length = fs.length + 1) (h : ∀ f ∈ fs, (44 : Byte) ∉ f) :
    ssaDialogue r ((fs.map (· ++ [44])).flatten ++ rest) =
      (ssaEventFields r {} (r.eventFormat.zip (fs ++ [rest]))).map (fun ev => { r with subs := r.subs ++ ev.subs }) := by
  unfold ssaDialogue
  have hne : (!r.eventFormat.isEmpty) = true := by
    cases he : r.eventFormat with
    | nil => rw [he] at hn; simp at hn
    | cons a l => rfl
  simp only [split_fields fs rest h, hn]
  rw [rejoin fs _ _ (by simp) (splitAny_ne_nil _ _), joinComma_split, hne]
  have e2 : (!(fs ++ [rest]).isEmpty) = true := by cases fs <;> rfl
  have e3 : (fs.length + 1 == (fs ++ [rest]).length) = true := by simp
  rw [e2, e3]
  show (do let ev ← ssaEventFields r {} (r.eventFormat.zip (fs ++ [rest])); pure { r with subs := r.subs ++ ev.subs }) = _
  cases ssaEventFields r {} (r.eventFormat.zip (fs ++ [rest])) <;> rfl

/-- Any text with at least `n` commas is of the form that `C43_rest` is about. -/
theorem dialogue_fields (n : Nat) (body : Str) (h : n ≤ body.count 44) :
    ∃ (fs : List Str) (rest : Str), body = (fs.map (· ++ [44])).flatten ++ rest ∧ fs.length = n ∧ ∀ f ∈ fs, (44 : Byte) ∉ f := by
  induction n generalizing body with
  | zero => exact ⟨[], body, rfl, rfl, by simp⟩
  | succ n ih =>
    rcases splitAny_cases isComma body with ⟨_, hb⟩ | ⟨a, s, b, e, ha, hs, _⟩
    · have : body.count 44 = 0 := List.count_eq_zero.2 (fun hm => by have := hb _ hm; simp [isComma] at this)
      omega
    · have hs' : s = 44 := by simpa [isComma] using hs
      subst hs'
      have hna : (44 : Byte) ∉ a := fun hm => by have := ha _ hm; simp [isComma] at this
      have hc : body.count 44 = b.count 44 + 1 := by
        rw [e, List.count_append, List.count_eq_zero.2 hna]; simp
      obtain ⟨fs, rest, e', hl, hf⟩ := ih b (by omega)
      refine ⟨a :: fs, rest, ?_, by simp [hl], ?_⟩
      · rw [e, e']; simp
      · intro f hf'
        rcases List.mem_cons.1 hf' with rfl | hf'
        · exact hna
        · exact hf f hf'

/-- C43: with too few commas the line is refused. -/
theorem C43_short (r : SsaRead) (body : Str) (h : body.count 44 + 1 < r.eventFormat.length) : ssaDialogue r body = .error .programming := by
  unfold ssaDialogue
  have hl : (splitAny isComma body).length = body.count 44 + 1 := by rw [splitAny_length]; rfl
  have hne : (!r.eventFormat.isEmpty) = true := by
    cases he : r.eventFormat with
    | nil => rw [he] at h; simp at h
    | cons a l => rfl
  have hr : ∀ fuel, ssaRejoin r.eventFormat.length fuel (splitAny isComma body) = splitAny isComma body := by
    intro fuel
    cases fuel with
    | zero => rfl
    | succ n => rw [ssaRejoin, if_neg (by omega)]
  simp only [hr, hne]
  have e2 : (!(splitAny isComma body).isEmpty) = true := by
    cases hs : splitAny isComma body with
    | nil => exact absurd hs (splitAny_ne_nil _ _)
    | cons a l => rfl
  have e3 : (r.eventFormat.length == (splitAny isComma body).length) = false := by
    rw [hl]; simp; omega
  rw [e2, e3]
  rfl

example : ssaDialogue { eventFormat := [b!"Start", b!"End", b!"Text"] } b!"0:00:01.00,x" = .error .programming := C43_short _ _ (by decide)

/-- C43: when the last key is `Text`, that remainder (without surrounding white space) is the text of the dialogue, with the style, position and margins collected from the fields before. -/
theorem C43_text (r : SsaRead) (ks fs : List Str) (rest : Str) (hk : r.eventFormat = ks ++ [b!"Text"]) (hn : ks.length = fs.length) (h : ∀ f ∈ fs, (44 : Byte) ∉ f) (ev : SsaEvent)
    (hev : ssaEventFields r {} (ks.zip fs) = .ok ev) :
    ssaDialogue r ((fs.map (· ++ [44])).flatten ++ rest) =
      (ssaParseLine ⟨r.resX, r.resY, (ev.style.map SsaStyle.primaryColour).getD ⟨1, 1, 1⟩, ev.lmargin, ev.rmargin⟩ ev.sub (trim rest)).map
        (fun subs => { r with subs := r.subs ++ (ev.subs ++ subs) }) := by
  rw [C43_rest r fs rest (by rw [hk]; simp [hn]) h, hk, List.zip_append hn]
  have happ : ∀ (l : List (Str × Str)) (e : SsaEvent) (m : List (Str × Str)), ssaEventFields r e (l ++ m) = (do let e' ← ssaEventFields r e l; ssaEventFields r e' m) := by
    intro l
    induction l with
    | nil => intro e m; rfl
    | cons x l ih =>
      intro e m
      obtain ⟨k, v⟩ := x
      rw [List.cons_append, ssaEventFields, ssaEventFields]
      cases ssaEventField r e k v with
      | error e => rfl
      | ok a => exact ih a m
  rw [happ, hev, ok_bind]
  show Except.map _ (ssaEventFields r ev [(b!"Text", rest)]) = _
  rw [ssaEventFields]
  have : ssaEventField r ev b!"Text" rest = (ssaParseLine ⟨r.resX, r.resY, (ev.style.map SsaStyle.primaryColour).getD ⟨1, 1, 1⟩, ev.lmargin, ev.rmargin⟩ ev.sub (trim rest)).map
      (fun subs => { ev with subs := ev.subs ++ subs }) := by
    unfold ssaEventField
    simp only [if_neg (show b!"Text" ≠ b!"Start" by decide), if_neg (show b!"Text" ≠ b!"End" by decide), if_neg (show b!"Text" ≠ b!"Style" by decide),
      if_neg (show b!"Text" ≠ b!"MarginV" by decide), if_neg (show b!"Text" ≠ b!"MarginL" by decide), if_neg (show b!"Text" ≠ b!"MarginR" by decide)]
    rw [if_pos trivial]
    cases ev.style with
    | none =>
      simp only [Option.map, Option.getD]
      cases ssaParseLine ⟨r.resX, r.resY, ⟨1, 1, 1⟩, ev.lmargin, ev.rmargin⟩ ev.sub (trim rest) <;> rfl
    | some st =>
      simp only [Option.map, Option.getD]
      cases ssaParseLine ⟨r.resX, r.resY, st.primaryColour, ev.lmargin, ev.rmargin⟩ ev.sub (trim rest) <;> rfl
  rw [this]
  cases ssaParseLine _ _ _ <;> rfl

example : ∃ (r : SsaRead) (ks fs : List Str) (rest : Str) (ev : SsaEvent), r.eventFormat = ks ++ [b!"Text"] ∧ ks.length = fs.length ∧ (∀ f ∈ fs, (44 : Byte) ∉ f) ∧
    (fs.map (· ++ [44])).flatten ++ rest = b!"0:00:01.00,0:00:02.50,Hello, world" ∧ rest = b!"Hello, world" ∧ ssaEventFields r {} (ks.zip fs) = .ok ev :=
  ⟨{ eventFormat := [b!"Start", b!"End", b!"Text"] }, [b!"Start", b!"End"], [b!"0:00:01.00", b!"0:00:02.50"], b!"Hello, world",
    { sub := { from_ := ⟨1, 0, some ⟨1000, 1⟩⟩, to_ := ⟨2, 500, some ⟨1000, 1⟩⟩ } }, rfl, rfl, by decide, by decide, rfl, by decide +kernel⟩

/-! ### C44 text -/

/-- `SsaText s t`: `t` consists of the characters of `s` outside of `{...}` blocks (the last of which may be unterminated) and backslash escapes (a
backslash with the character after it, if any), without carriage returns and line feeds. -/
inductive SsaText : Str → Str → Prop
  | nil : SsaText [] []
  | char {c s t} : c ∉ b!"{\\\r\n" → SsaText s t → SsaText (c :: s) (c :: t)
  | newline {c s t} : c ∈ b!"\r\n" → SsaText s t → SsaText (c :: s) t
  | escape {c s t} : SsaText s t → SsaText (92 :: c :: s) t
  | escapeEnd : SsaText b!"\\" []
  | block {content s t} : (125 : Byte) ∉ content → SsaText s t → SsaText (123 :: (content ++ 125 :: s)) t
  | blockEnd {content} : (125 : Byte) ∉ content → SsaText (123 :: content) []

private theorem span_unique {a b : Str} {c : Byte} {s t : Str} (h : a ++ c :: s = b ++ c :: t) (ha : c ∉ a) (hb : c ∉ b) : a = b ∧ s = t := by
  induction a generalizing b with
  | nil =>
    cases b with
    | nil => simpa using h
    | cons x b =>
      have := (List.cons.inj h).1
      subst this
      simp at hb
  | cons y a ih =>
    cases b with
    | nil =>
      have := (List.cons.inj h).1
      subst this
      simp at ha
    | cons x b =>
      obtain ⟨h1, h2⟩ := List.cons.inj h
      obtain ⟨e1, e2⟩ := ih h2 (fun hm => ha (by simp [hm])) (fun hm => hb (by simp [hm]))
      exact ⟨by rw [h1, e1], e2⟩

/-- There is one such text for each string. -/
theorem ssaText_unique {s t u : Str} (h1 : SsaText s t) (h2 : SsaText s u) : t = u := by
  induction h1 generalizing u with
  | nil => cases h2; rfl
  | @char c s t hc _ ih =>
    cases h2 with
    | char _ h => rw [ih h]
    | newline hm _ => exact absurd hm (fun hm => hc (by simp at hm ⊢; grind))
    | escape _ => exact absurd (by simp) hc
    | escapeEnd => exact absurd (by simp) hc
    | block _ _ => exact absurd (by simp) hc
    | blockEnd _ => exact absurd (by simp) hc
  | @newline c s t hc _ ih =>
    cases h2 with
    | char hm _ => exact absurd hc (fun hm' => hm (by simp at hm' ⊢; grind))
    | newline _ h => exact ih h
    | escape _ => exact absurd hc (by decide)
    | escapeEnd => exact absurd hc (by decide)
    | block _ _ => exact absurd hc (by decide)
    | blockEnd _ => exact absurd hc (by decide)
  | escape _ ih =>
    cases h2 with
    | char hm _ => exact absurd (by simp) hm
    | newline hm _ => exact absurd hm (by decide)
    | escape h => exact ih h
  | escapeEnd =>
    cases h2 with
    | char hm _ => exact absurd (by simp) hm
    | newline hm _ => exact absurd hm (by decide)
    | escapeEnd => rfl
  | @block content s t hc _ ih =>
    generalize hw : 123 :: (content ++ 125 :: s) = w at h2
    cases h2 with
    | nil => cases hw
    | char hm _ => cases hw; exact absurd (by simp) hm
    | newline hm _ => cases hw; exact absurd hm (by decide)
    | escape h => cases hw
    | escapeEnd => cases hw
    | block hc' h =>
      obtain ⟨_, e⟩ := span_unique (List.cons.inj hw).2 hc hc'
      subst e
      exact ih h
    | blockEnd hc' =>
      have := (List.cons.inj hw).2
      subst this
      simp at hc'
  | @blockEnd content hc =>
    generalize hw : 123 :: content = w at h2
    cases h2 with
    | nil => cases hw
    | char hm _ => cases hw; exact absurd (by simp) hm
    | newline hm _ => cases hw; exact absurd hm (by decide)
    | escape h => cases hw
    | escapeEnd => cases hw
    | block hc' h =>
      have := (List.cons.inj hw).2
      subst this
      simp at hc
    | blockEnd hc' => rfl

private def SsaState.reads (st : SsaState) (s t : Str) : Prop :=
  match st with
  | .text => SsaText s t
  | .tag => SsaText (123 :: s) t
  | .backslash => SsaText (92 :: s) t

private theorem text_step_brace (c : Byte) (s t : Str) (hc : c ≠ 125) (h : SsaText (123 :: s) t) : SsaText (123 :: c :: s) t := by
  generalize hw : 123 :: s = w at h
  cases h with
  | nil => cases hw
  | char hm _ => cases hw; exact absurd (by simp) hm
  | newline hm _ => cases hw; exact absurd hm (by decide)
  | escape h => cases hw
  | escapeEnd => cases hw
  | @block content s' t hc' h' =>
    have := (List.cons.inj hw).2
    subst this
    exact SsaText.block (content := c :: content) (by simp [hc', Ne.symm hc]) h'
  | @blockEnd content hc' =>
    have := (List.cons.inj hw).2
    subst this
    exact SsaText.blockEnd (content := c :: s) (by simp [hc', Ne.symm hc])

/-- There is such a text for each string. -/
theorem ssaText_exists (s : Str) : ∃ t, SsaText s t := by
  suffices h : ∀ st : SsaState, ∃ t, st.reads s t from h .text
  induction s with
  | nil =>
    intro st
    cases st with
    | text => exact ⟨[], .nil⟩
    | tag => exact ⟨[], .blockEnd (by simp)⟩
    | backslash => exact ⟨[], .escapeEnd⟩
  | cons c s ih =>
    intro st
    cases st with
    | text =>
      by_cases h1 : c = 123
      · subst h1; exact ih .tag
      · by_cases h2 : c = 92
        · subst h2; exact ih .backslash
        · obtain ⟨t, ht⟩ := ih .text
          by_cases h3 : c ∈ b!"\r\n"
          · exact ⟨t, .newline h3 ht⟩
          · exact ⟨c :: t, .char (by simp at h3 ⊢; grind) ht⟩
    | tag =>
      by_cases h : c = 125
      · subst h
        obtain ⟨t, ht⟩ := ih .text
        exact ⟨t, SsaText.block (content := []) (by simp) ht⟩
      · obtain ⟨t, ht⟩ := ih .tag
        exact ⟨t, text_step_brace c s t h ht⟩
    | backslash =>
      obtain ⟨t, ht⟩ := ih .text
      exact ⟨t, .escape ht⟩

private theorem updateH_text {ctx : SsaContext} {sub r : Raw} (h : ctx.updateH sub = .ok r) : r.text = sub.text := by
  unfold SsaContext.updateH at h
  simp only [] at h
  split at h
  · rw [bind_eq_ok] at h
    obtain ⟨_, _, h⟩ := h
    cases h; rfl
  · simp only [bind_eq_ok] at h
    obtain ⟨_, _, _, _, _, _, h⟩ := h
    cases h; rfl
  · rw [bind_eq_ok] at h
    obtain ⟨_, _, h⟩ := h
    cases h; rfl

/-- Every result of `x` satisfies `P`. -/
structure OkIn {α : Type} (P : α → Prop) (x : R α) : Prop where
  h : ∀ a, x = .ok a → P a

theorem OkIn.ok {α : Type} {P : α → Prop} {a : α} (h : P a) : OkIn P (.ok a : R α) := ⟨fun _ h' => by cases h'; exact h⟩

theorem OkIn.error {α : Type} {P : α → Prop} {e : Err} : OkIn P (.error e : R α) := ⟨fun _ h' => by cases h'⟩

theorem OkIn.bind {α β : Type} {P : β → Prop} {x : R α} {f : α → R β} (hf : ∀ a, x = .ok a → OkIn P (f a)) : OkIn P (x >>= f) := by
  cases x with
  | ok a => exact hf a rfl
  | error e => exact .error

theorem OkIn.ite {α : Type} {P : α → Prop} {c : Prop} [Decidable c] {x y : R α} (hx : OkIn P x) (hy : OkIn P y) : OkIn P (if c then x else y) := by
  split
  · exact hx
  · exact hy

private theorem parseTag_text {ctx : SsaContext} {sub r : Raw} {tag : Str} (h : ssaParseTag ctx sub tag = .ok r) : r.text = sub.text := by
  have hal : ∀ {a b}, OkIn (fun r : Raw => r.text = sub.text) (ssaAlign ctx sub a b) := by
    intro a b
    constructor
    intro r h
    have := updateH_text h
    exact this
  suffices hs : OkIn (fun r : Raw => r.text = sub.text) (ssaParseTag ctx sub tag) from hs.h _ h
  unfold ssaParseTag
  refine .ite (.ok rfl) (.ite (.ok rfl) (.ite (.ok rfl) (.ite (.ok rfl) (.ite (.ok rfl) (.ite (.ok rfl) (.ite hal (.ite hal (.ite hal (.ite hal (.ite hal
    (.ite hal (.ite hal (.ite hal (.ite hal (.ite ?_ (.ite ?_ (.ite (.ite ?_ (.ok rfl)) (.ok rfl))))))))))))))))))
  · split
    · exact .bind fun _ _ => .bind fun _ _ => .bind fun _ _ => .bind fun _ _ => .ok rfl
    · exact .error
  · exact .bind fun _ _ => .bind fun _ _ => .bind fun _ _ => .ok rfl
  · exact .bind fun _ _ => .ok rfl

private def SsaLoop.out (l : SsaLoop) : Str := (l.subs.map Raw.text).flatten ++ l.current.text

private theorem flush_out (l : SsaLoop) : l.flush.out = l.out ∧ l.flush.current.text = [] ∧ l.flush.out = (l.flush.subs.map Raw.text).flatten := by
  unfold SsaLoop.flush SsaLoop.out
  split
  · rename_i h
    have : l.current.text = [] := by simpa using h
    simp [this]
  · simp

private theorem run_out (ctx : SsaContext) (ls : Rat) (s : Str) (l l' : SsaLoop) (h : ssaRun ctx ls l s = .ok l') :
    ∃ t, l.state.reads s t ∧ l'.out = l.out ++ t := by
  induction s generalizing l with
  | nil =>
    have := Except.ok.inj h
    subst this
    cases hs : l.state with
    | text => exact ⟨[], .nil, by simp⟩
    | tag => exact ⟨[], .blockEnd (by simp), by simp⟩
    | backslash => exact ⟨[], .escapeEnd, by simp⟩
  | cons c s ih =>
    rw [ssaRun, bind_eq_ok] at h
    obtain ⟨m, hm, h⟩ := h
    obtain ⟨t, ht, he⟩ := ih m h
    unfold ssaStep at hm
    cases hs : l.state with
    | text =>
      rw [hs] at hm
      simp only [] at hm
      split at hm
      · rename_i hc
        have : c = 123 := by simpa using hc
        subst this
        cases hm
        exact ⟨t, ht, he⟩
      · rename_i h1
        split at hm
        · rename_i hc
          have : c = 92 := by simpa using hc
          subst this
          cases hm
          exact ⟨t, ht, he⟩
        · rename_i h2
          split at hm
          · rename_i h3
            cases hm
            refine ⟨c :: t, .char (by simp at h1 h2 h3 ⊢; grind) ?_, ?_⟩
            · simp only [SsaState.reads] at ht; exact ht
            · rw [he]; simp [SsaLoop.out]
          · rename_i h3
            cases hm
            refine ⟨t, .newline (by simp at h3 ⊢; grind) ?_, he⟩
            simp only [SsaState.reads, hs] at ht; exact ht
    | tag =>
      rw [hs] at hm
      simp only [] at hm
      obtain ⟨f1, f2, f3⟩ := flush_out l
      split at hm
      · rename_i hc
        have : c = 125 := by simpa using hc
        subst this
        rw [bind_eq_ok] at hm
        obtain ⟨cur, hcur, hm⟩ := hm
        cases hm
        refine ⟨t, SsaText.block (content := []) (by simp) ht, ?_⟩
        rw [he, ← f1]
        simp [SsaLoop.out, parseTag_text hcur]
      · rename_i h1
        split at hm
        · rename_i hc
          have : c = 92 := by simpa using hc
          subst this
          rw [bind_eq_ok] at hm
          obtain ⟨cur, hcur, hm⟩ := hm
          cases hm
          have hst : l.flush.state = .tag := by unfold SsaLoop.flush; split <;> exact hs
          refine ⟨t, ?_, ?_⟩
          · simp only [hst] at ht
            exact text_step_brace _ _ _ (by decide) ht
          · rw [he, ← f1]
            simp [SsaLoop.out, parseTag_text hcur]
        · cases hm
          simp only [] at ht
          exact ⟨t, text_step_brace _ _ _ (by simpa using h1) ht, he⟩
    | backslash =>
      rw [hs] at hm
      simp only [] at hm
      obtain ⟨f1, f2, f3⟩ := flush_out l
      split at hm
      · rw [bind_eq_ok] at hm
        obtain ⟨v, hv, hm⟩ := hm
        cases hm
        refine ⟨t, .escape ht, ?_⟩
        rw [he, ← f1]
        simp [SsaLoop.out]
      · cases hm
        exact ⟨t, .escape ht, he⟩

private theorem finishAll_text {bp : VPos} {n : Nat} {ls : Rat} {subs r : List Raw} (h : ssaFinishAll bp n ls subs = .ok r) :
    r.map Raw.text = subs.map Raw.text := by
  induction subs generalizing r with
  | nil => cases h; rfl
  | cons s ss ih =>
    rw [ssaFinishAll] at h
    simp only [bind_eq_ok] at h
    obtain ⟨a, ha, b, hb, h⟩ := h
    cases h
    unfold ssaFinishPos at ha
    simp only [bind_eq_ok] at ha
    obtain ⟨_, _, _, _, ha⟩ := ha
    cases ha
    simp [ih hb]

private theorem prepare_text {ctx : SsaContext} {base cur : Raw} (h : ssaPrepare ctx base = .ok cur) : cur.text = base.text := by
  unfold ssaPrepare at h
  simp only [bind_eq_ok] at h
  obtain ⟨a, ha, h⟩ := h
  have := updateH_text ha
  split at h
  · cases h; exact this
  · rw [bind_eq_ok] at h
    obtain ⟨_, _, h⟩ := h
    cases h; exact this

/-- C44: the texts that come out of a dialogue line, one after the other, are the text in it. -/
theorem C44_text (ctx : SsaContext) (base : Raw) (line : Str) (subs : List Raw) (hb : base.text = []) (h : ssaParseLine ctx base line = .ok subs) :
    SsaText line (subs.map Raw.text).flatten := by
  unfold ssaParseLine at h
  simp only [bind_eq_ok] at h
  obtain ⟨cur, hcur, fs, _, l, hl, h⟩ := h
  obtain ⟨t, ht, he⟩ := run_out _ _ _ _ _ hl
  obtain ⟨f1, _, f3⟩ := flush_out l
  rw [finishAll_text h, ← f3, f1, he]
  have : cur.text = [] := by rw [prepare_text hcur, hb]
  simpa [SsaLoop.out, this, SsaState.reads] using ht

example : ∃ subs, ssaParseLine ⟨288, 288, ⟨1, 1, 1⟩, 0, 0⟩ {} b!"Hello {\\i1}big{\\i0\\b1} w\\Norld" = .ok subs ∧ subs.map Raw.text = [b!"Hello ", b!"big", b!" w", b!"orld"] :=
  ⟨(ssaParseLine ⟨288, 288, ⟨1, 1, 1⟩, 0, 0⟩ {} b!"Hello {\\i1}big{\\i0\\b1} w\\Norld").toOption.getD [], by decide +kernel, by decide +kernel⟩

/-! ### C27 no empty subtitles -/

private theorem run_nonempty (ctx : SsaContext) (ls : Rat) (s : Str) (l l' : SsaLoop) (h : ssaRun ctx ls l s = .ok l') (hl : ∀ x ∈ l.subs, x.text ≠ []) :
    ∀ x ∈ l'.subs, x.text ≠ [] := by
  have hfl : ∀ l : SsaLoop, (∀ x ∈ l.subs, x.text ≠ []) → ∀ x ∈ l.flush.subs, x.text ≠ [] := by
    intro l hl
    unfold SsaLoop.flush
    split
    · exact hl
    · rename_i hne
      intro x hx
      rcases List.mem_append.1 hx with hx | hx
      · exact hl x hx
      · simp only [List.mem_singleton] at hx
        subst hx
        simpa using hne
  induction s generalizing l with
  | nil => cases h; exact hl
  | cons c s ih =>
    rw [ssaRun, bind_eq_ok] at h
    obtain ⟨m, hm, h⟩ := h
    refine ih m h ?_
    suffices hs : OkIn (fun m : SsaLoop => ∀ x ∈ m.subs, x.text ≠ []) (ssaStep ctx ls l c) from hs.h m hm
    unfold ssaStep
    split
    · exact .ite (.ok hl) (.ite (.ok hl) (.ite (.ok hl) (.ok hl)))
    · exact .ite (.bind fun _ _ => .ok (hfl l hl)) (.ite (.bind fun _ _ => .ok (hfl l hl)) (.ok hl))
    · exact .ite (.bind fun _ _ => .ok (hfl l hl)) (.ok hl)

private theorem parseLine_nonempty (ctx : SsaContext) (base : Raw) (line : Str) (subs : List Raw) (h : ssaParseLine ctx base line = .ok subs) : ∀ x ∈ subs, x.text ≠ [] := by
  unfold ssaParseLine at h
  simp only [bind_eq_ok] at h
  obtain ⟨cur, _, fs, _, l, hl, h⟩ := h
  have h1 := run_nonempty _ _ _ _ _ hl (by simp)
  have h2 : ∀ x ∈ l.flush.subs, x.text ≠ [] := by
    unfold SsaLoop.flush
    split
    · exact h1
    · rename_i hne
      intro x hx
      rcases List.mem_append.1 hx with hx | hx
      · exact h1 x hx
      · simp only [List.mem_singleton] at hx
        subst hx
        simpa using hne
  intro x hx
  have hm : x.text ∈ subs.map Raw.text := List.mem_map_of_mem hx
  rw [finishAll_text h] at hm
  obtain ⟨y, hy, e⟩ := List.mem_map.1 hm
  rw [← e]
  exact h2 y hy

private theorem eventFields_subs (P : Raw → Prop) (r : SsaRead) (l : List (Str × Str)) (ev : SsaEvent) (hev : ∀ x ∈ ev.subs, P x)
    (hP : ∀ ctx base line subs, ssaParseLine ctx base line = .ok subs → ∀ x ∈ subs, P x) (ev' : SsaEvent) (h : ssaEventFields r ev l = .ok ev') :
    ∀ x ∈ ev'.subs, P x := by
  induction l generalizing ev with
  | nil => cases h; exact hev
  | cons kv l ih =>
    obtain ⟨k, v⟩ := kv
    rw [ssaEventFields, bind_eq_ok] at h
    obtain ⟨m, hm, h⟩ := h
    refine ih m ?_ h
    suffices hs : OkIn (fun m : SsaEvent => ∀ x ∈ m.subs, P x) (ssaEventField r ev k v) from hs.h m hm
    unfold ssaEventField
    refine .ite (.bind fun _ _ => .ok hev) (.ite (.bind fun _ _ => .ok hev) (.ite ?_ (.ite (.ite (.bind fun _ _ => .bind fun _ _ => .ok hev) (.ok hev))
      (.ite (.ite (.bind fun _ _ => .ok hev) (.ok hev)) (.ite (.ite (.bind fun _ _ => .ok hev) (.ok hev)) (.ite (.bind fun subs hs => .ok ?_) (.ok hev)))))))
    · split
      · exact .ok hev
      · unfold ssaApplyStyle
        exact .bind fun _ _ => .ite (.bind fun _ _ => .ok hev) (.ok hev)
    · intro x hx
      rcases List.mem_append.1 hx with hx | hx
      · exact hev x hx
      · exact hP _ _ _ _ hs x hx

private theorem line_subs (P : Raw → Prop) (hP : ∀ ctx base line subs, ssaParseLine ctx base line = .ok subs → ∀ x ∈ subs, P x) (r : SsaRead) (raw : Str) (hr : ∀ x ∈ r.subs, P x) :
    OkIn (fun r : SsaRead => ∀ x ∈ r.subs, P x) (ssaLine r raw) := by
  unfold ssaLine
  refine .ite (.ok hr) (.ite (.ite (.ok hr) (.ite (.ok hr) (.ite (.ok hr) (.ok hr)))) ?_)
  split
  · exact .error
  · split
    · exact .ite (.bind fun _ _ => .ok hr) (.ite (.bind fun _ _ => .ok hr) (.ok hr))
    · exact .ite (.ok hr) (.ite (.bind fun _ _ => .bind fun _ _ => .ok hr) (.ok hr))
    · refine .ite (.ok hr) (.ite ?_ (.ok hr))
      unfold ssaDialogue
      refine .bind fun _ _ => .bind fun _ _ => .bind fun _ _ => .bind fun ev hev => .ok ?_
      intro x hx
      rcases List.mem_append.1 hx with hx | hx
      · exact hr x hx
      · exact eventFields_subs P r _ _ (by simp) hP ev hev x hx

private theorem lines_subs (P : Raw → Prop) (hP : ∀ ctx base line subs, ssaParseLine ctx base line = .ok subs → ∀ x ∈ subs, P x) (ls : List Str) (r r' : SsaRead)
    (hr : ∀ x ∈ r.subs, P x) (h : ssaLines r ls = .ok r') : ∀ x ∈ r'.subs, P x := by
  induction ls generalizing r with
  | nil => cases h; exact hr
  | cons l ls ih =>
    rw [ssaLines, bind_eq_ok] at h
    obtain ⟨m, hm, h⟩ := h
    exact ih m ((line_subs P hP r l hr).h m hm) h

/-- C27: no subtitle that an SSA reader makes has an empty text. -/
theorem C27_ssa (s : Str) (subs : List Raw) (h : ssaReadString s = .ok subs ∨ ssaReadFile s = .ok subs) : ∀ x ∈ subs, x.text ≠ [] := by
  unfold ssaReadString ssaReadFile at h
  rcases h with h | h <;>
  · rw [bind_eq_ok] at h
    obtain ⟨r, hr, h⟩ := h
    cases h
    exact lines_subs _ parseLine_nonempty _ _ _ (by simp) hr

example : ∃ subs, ssaReadString b!"[Events]\nFormat: Start, End, Text\nDialogue: 0:00:01.00,0:00:02.00,{\\i1}Hello\\N{\\i0}\\Nworld" = .ok subs ∧ subs.map Raw.text = [b!"Hello", b!"world"] :=
  ⟨(ssaReadString b!"[Events]\nFormat: Start, End, Text\nDialogue: 0:00:01.00,0:00:02.00,{\\i1}Hello\\N{\\i0}\\Nworld").toOption.getD [], by decide +kernel, by decide +kernel⟩

end LibSub
