/-
Property C109: the texts of the exceptions of the SubRip and WebVTT readers.
-/
import Verif.Model.Exceptions
import Verif.Props.Compose
import Verif.Props.Failures
import Verif.Props.SubRipRead
import Verif.Props.WebVtt
import Verif.Props.WebVttReject

namespace LibSub

/-! ### Specification -/

/-- How a piece of a file is named in a message. -/
def quoted (saw : Str) : Str := if saw = [] then b!"an empty string" else saw

/-- The message about line `n` of a SubRip file. -/
def srtMessage (n : Nat) (saw ex : Str) : Str :=
  b!"Error in SubRip file line " ++ decSpec n ++ b!": saw " ++ quoted saw ++ b!" when expecting " ++ ex

/-- The message about a WebVTT file. -/
def vttMessage (saw ex : Str) : Str := b!"Error in WebVTT file: saw " ++ quoted saw ++ b!" when expecting " ++ ex

/-! ### Proofs -/

private theorem quoted_isEmpty (saw : Str) : (if saw.isEmpty then b!"an empty string" else saw) = quoted saw := by
  unfold quoted
  cases saw <;> rfl

private theorem quoted_ne (saw : Str) : quoted saw ≠ [] := by
  unfold quoted
  split
  · decide
  · assumption

private theorem decSpec_ne (n : Nat) : decSpec n ≠ [] := by rw [← natDec_eq_decSpec]; exact natDec_ne_nil n

/-- The text of a `SubripError`, whatever is in the pieces of it: signs such as `%3` in a file are copied. -/
theorem subripWhat_eq (n : Nat) (saw ex : Str) : subripWhat n saw ex = .ok ((srtMessage n saw ex).takeWhile (· != 0)) := by
  have hv : ValidFmt b!"Error in SubRip file line " [(.arg 0 1, b!": saw "), (.arg 0 2, b!" when expecting "), (.arg 0 3, [])] := by simp [ValidFmt, isDigit]
  have ht : fmtText b!"Error in SubRip file line " [(.arg 0 1, b!": saw "), (.arg 0 2, b!" when expecting "), (.arg 0 3, [])] =
      b!"Error in SubRip file line %1: saw %2 when expecting %3" := by decide +kernel
  unfold subripWhat
  rw [quoted_isEmpty, natDec_eq_decSpec, ← ht, C71_compose _ _ _ hv, ok_bind, pure_eq_ok]
  have h1 : (decSpec n != []) = true := by simpa using decSpec_ne n
  have h2 : (quoted saw != []) = true := by simpa using quoted_ne saw
  congr 1
  unfold cString srtMessage
  congr 1
  by_cases he : ex = []
  · subst he
    simp [fmtValue, FTok.value, nthArg, h1, h2]
  · simp [fmtValue, FTok.value, nthArg, decSpec_ne, quoted_ne, he]

theorem webvttWhat_eq (saw ex : Str) : webvttWhat saw ex = (vttMessage saw ex).takeWhile (· != 0) := by
  unfold webvttWhat
  rw [quoted_isEmpty]
  rfl


private theorem quoted_nul {saw : Str} (h : (0 : Byte) ∉ saw) : (0 : Byte) ∉ quoted saw := by
  unfold quoted
  split
  · decide
  · exact h

private theorem decSpec_digits (n : Nat) : ∀ c ∈ decSpec n, isDigit c = true := by
  rw [← natDec_eq_decSpec]
  exact natDec_digits n

private theorem decSpec_nul (n : Nat) : (0 : Byte) ∉ decSpec n := fun h => absurd (decSpec_digits n 0 h) (by decide)

private theorem srtExpected_nul : ∀ e ∈ srtExpected, (0 : Byte) ∉ e := by decide +kernel

private theorem vttExpected_nul : ∀ e ∈ vttExpected, (0 : Byte) ∉ e := by decide +kernel

private theorem srtMessage_nul {n : Nat} {saw ex : Str} (hs : (0 : Byte) ∉ saw) (he : (0 : Byte) ∉ ex) : (0 : Byte) ∉ srtMessage n saw ex := by
  unfold srtMessage
  simp only [List.mem_append, not_or]
  exact ⟨⟨⟨⟨⟨by decide, decSpec_nul n⟩, by decide⟩, quoted_nul hs⟩, by decide⟩, he⟩

private theorem vttMessage_nul {saw ex : Str} (hs : (0 : Byte) ∉ saw) (he : (0 : Byte) ∉ ex) : (0 : Byte) ∉ vttMessage saw ex := by
  unfold vttMessage
  simp only [List.mem_append, not_or]
  exact ⟨⟨⟨by decide, quoted_nul hs⟩, by decide⟩, he⟩

/-! ### Taking a message apart -/

/-- What is said to be expected can be found from the end of the message. -/
private theorem expected_unique (E : List Str) (hE : ∀ e ∈ E, ∀ e' ∈ E, b!" when expecting " ++ e <:+ b!" when expecting " ++ e' → e = e')
    {a a' e e' : Str} (he : e ∈ E) (he' : e' ∈ E) (h : a ++ b!" when expecting " ++ e = a' ++ b!" when expecting " ++ e') : e = e' ∧ a = a' := by
  have h1 : b!" when expecting " ++ e <:+ a ++ b!" when expecting " ++ e := ⟨a, by simp⟩
  have h2 : b!" when expecting " ++ e' <:+ a ++ b!" when expecting " ++ e := ⟨a', by rw [h]; simp⟩
  have hee : e = e' := by
    rcases List.suffix_or_suffix_of_suffix h1 h2 with hs | hs
    · exact hE e he e' he' hs
    · exact (hE e' he' e he hs).symm
  subst hee
  exact ⟨rfl, by simpa using h⟩

private theorem srt_suffix : ∀ e ∈ srtExpected, ∀ e' ∈ srtExpected, b!" when expecting " ++ e <:+ b!" when expecting " ++ e' → e = e' := by decide +kernel

private theorem vtt_suffix : ∀ e ∈ vttExpected, ∀ e' ∈ vttExpected, b!" when expecting " ++ e <:+ b!" when expecting " ++ e' → e = e' := by decide +kernel

private theorem digits_unique {a a' r r' : Str} (ha : ∀ c ∈ a, isDigit c = true) (ha' : ∀ c ∈ a', isDigit c = true) (h : a ++ 58 :: r = a' ++ 58 :: r') : a = a' ∧ r = r' := by
  have hd : isDigit 58 = false := by decide
  have e1 : (a ++ 58 :: r).takeWhile isDigit = a := by
    rw [List.takeWhile_append_of_pos ha, List.takeWhile_cons_of_neg (by simp [hd])]; simp
  have e2 : (a' ++ 58 :: r').takeWhile isDigit = a' := by
    rw [List.takeWhile_append_of_pos ha', List.takeWhile_cons_of_neg (by simp [hd])]; simp
  have : a = a' := by rw [← e1, ← e2, h]
  subst this
  exact ⟨rfl, by simpa using h⟩

private theorem quoted_same {a b : Str} (h : quoted a = quoted b) : a = b ∨ (a = [] ∧ b = b!"an empty string") ∨ (b = [] ∧ a = b!"an empty string") := by
  unfold quoted at h
  split at h
  · split at h
    · left; rw [‹a = []›, ‹b = []›]
    · right; left; exact ⟨‹a = []›, h.symm⟩
  · split at h
    · right; right; exact ⟨‹b = []›, h⟩
    · exact .inl h

theorem srtMessage_unique {n n' : Nat} {a a' e e' : Str} (he : e ∈ srtExpected) (he' : e' ∈ srtExpected) (h : srtMessage n a e = srtMessage n' a' e') :
    n = n' ∧ e = e' ∧ quoted a = quoted a' := by
  unfold srtMessage at h
  obtain ⟨h1, h2⟩ := expected_unique _ srt_suffix he he' h
  have h3 : decSpec n ++ 58 :: (b!" saw " ++ quoted a) = decSpec n' ++ 58 :: (b!" saw " ++ quoted a') := by
    have : b!"Error in SubRip file line " ++ (decSpec n ++ 58 :: (b!" saw " ++ quoted a)) =
        b!"Error in SubRip file line " ++ (decSpec n' ++ 58 :: (b!" saw " ++ quoted a')) := by simpa using h2
    exact List.append_cancel_left this
  obtain ⟨h4, h5⟩ := digits_unique (decSpec_digits n) (decSpec_digits n') h3
  refine ⟨?_, h1, List.append_cancel_left h5⟩
  rw [← natDec_eq_decSpec, ← natDec_eq_decSpec] at h4
  exact natDec_inj h4

theorem vttMessage_unique {a a' e e' : Str} (he : e ∈ vttExpected) (he' : e' ∈ vttExpected) (h : vttMessage a e = vttMessage a' e') : e = e' ∧ quoted a = quoted a' := by
  unfold vttMessage at h
  obtain ⟨h1, h2⟩ := expected_unique _ vtt_suffix he he' h
  exact ⟨h1, List.append_cancel_left h2⟩

/-! ### C109 -/

private theorem srt_expects {lines : List Str} {m : Nat} {saw ex : Str} {ctx : List Str} (h : srtRead lines = .error (.subrip m saw ex ctx)) : ex ∈ srtExpected := by
  rcases C86_subrip lines _ h with ⟨n, s, x, c, hx, e⟩ | e | e | e | e | ⟨_, e⟩ | e <;> cases e
  exact hx

private theorem vtt_expects {lines : List Str} {saw ex : Str} {ctx : List Str} (h : vttRead lines = .error (.webvtt saw ex ctx)) : ex ∈ vttExpected := by
  rcases C86_webvtt lines _ h with e | ⟨s, x, c, hx, e⟩ | e <;> cases e
  exact hx

/-- The text quoted in a message is part of the file. -/
private theorem srt_saw {lines : List Str} {m : Nat} {saw ex : Str} {ctx : List Str} (h : srtRead lines = .error (.subrip m saw ex ctx))
    (h0 : ∀ l ∈ lines, (0 : Byte) ∉ l) : (0 : Byte) ∉ saw := by
  obtain ⟨A, l, B, rfl, -, -, hs, -, -⟩ := C28_report lines m saw ex ctx h
  exact fun hc => h0 l (by simp) (cleanLine_mem l _ (hs.subset hc))

private theorem splitOnP_subset (l : Str) : ∀ w ∈ l.splitOnP (· == 32), ∀ c ∈ w, c ∈ l := by
  induction l with
  | nil =>
    intro w hw c hc
    simp at hw
    subst hw
    cases hc
  | cons x xs ih =>
    intro w hw c hc
    rw [List.splitOnP_cons_eq_if_modifyHead] at hw
    split at hw
    · rcases List.mem_cons.1 hw with rfl | hw
      · cases hc
      · exact List.mem_cons_of_mem _ (ih w hw c hc)
    · cases e : xs.splitOnP (· == 32) with
      | nil => rw [e] at hw; cases hw
      | cons v vs =>
        rw [e, List.modifyHead_cons] at hw
        rw [e] at ih
        rcases List.mem_cons.1 hw with rfl | hw
        · rcases List.mem_cons.1 hc with rfl | hc
          · exact List.mem_cons_self
          · exact List.mem_cons_of_mem _ (ih v List.mem_cons_self c hc)
        · exact List.mem_cons_of_mem _ (ih w (List.mem_cons_of_mem _ hw) c hc)

private theorem wordsOf_bytes {l : Str} {i : Nat} {c : Byte} (h : c ∈ (wordsOf l).getD i []) : c ∈ l := by
  have : ∀ w ∈ wordsOf l, ∀ c ∈ w, c ∈ l := by
    intro w hw c hc
    unfold wordsOf at hw
    rw [List.mem_append] at hw
    rcases hw with hw | hw
    · split at hw
      · simp at hw; subst hw; cases hc
      · cases hw
    · exact splitOnP_subset l w (List.mem_filter.1 hw).1 c hc
  rw [List.getD_eq_getElem?_getD] at h
  cases e : (wordsOf l)[i]? with
  | none => rw [e] at h; cases h
  | some w => rw [e] at h; exact this w (List.mem_of_getElem? e) c h

private theorem vtt_saw {lines : List Str} {saw ex : Str} {ctx : List Str} (h : vttRead lines = .error (.webvtt saw ex ctx))
    (h0 : ∀ l ∈ lines, (0 : Byte) ∉ l) : (0 : Byte) ∉ saw := by
  obtain ⟨A, l, B, subs, k, rfl, -, -, -, hb, -⟩ := (C98_rejected_iff lines saw ex ctx).1 h
  intro hc
  refine h0 l (by simp) (cleanLine_mem l _ ?_)
  cases hb with
  | words _ k hl _ _ _ => rw [hl]; exact List.mem_append_left _ hc
  | first _ _ _ => exact wordsOf_bytes hc
  | second _ _ _ _ => exact wordsOf_bytes hc

/-- C109 for SubRip: if the reader rejects a file, the text of the exception gives the number of the first line that cannot be accepted,
quotes a part of that line, and names what the reader expected, which is one of a few fixed texts.  A NUL in the file ends the text. -/
theorem C109_subrip (lines : List Str) (m : Nat) (saw ex : Str) (ctx : List Str) (h : srtRead lines = .error (.subrip m saw ex ctx)) :
    ∃ A l B, lines = A ++ l :: B ∧ (∃ subs, srtRead A = .ok subs) ∧ (∀ subs, srtRead (A ++ [l]) ≠ .ok subs) ∧ saw <:+: cleanLine l ∧ ex ∈ srtExpected ∧
      (Err.subrip m saw ex ctx).what = .ok (some ((srtMessage (A.length + 1) saw ex).takeWhile (· != 0))) := by
  obtain ⟨A, l, B, h1, rfl, h2, h3, -, h4⟩ := C28_report lines m saw ex ctx h
  refine ⟨A, l, B, h1, h2, fun subs hx => ?_, h3, srt_expects h, ?_⟩
  · obtain ⟨c, hc⟩ := h4 []
    rw [hc] at hx
    cases hx
  · simp only [Err.what, subripWhat_eq, ok_bind, pure_eq_ok]

/-- C109 for SubRip: of a file without NUL the text is complete. -/
theorem C109_subrip_whole (lines : List Str) (m : Nat) (saw ex : Str) (ctx : List Str) (h : srtRead lines = .error (.subrip m saw ex ctx))
    (h0 : ∀ l ∈ lines, (0 : Byte) ∉ l) : (Err.subrip m saw ex ctx).what = .ok (some (srtMessage m saw ex)) := by
  simp only [Err.what, subripWhat_eq, ok_bind, pure_eq_ok]
  rw [takeWhile_noNul (srtMessage_nul (srt_saw h h0) (srtExpected_nul ex (srt_expects h)))]

/-- A line of times with signs such as those used for composing the message. -/
example : srtRead [b!"1", b!"%1 %3"] = .error (.subrip 2 b!"%1 %3" b!"a time/position line" [b!"1", b!"%1 %3"]) ∧
    (Err.subrip 2 b!"%1 %3" b!"a time/position line" [b!"1", b!"%1 %3"]).what = .ok (some b!"Error in SubRip file line 2: saw %1 %3 when expecting a time/position line") := by
  decide +kernel

/-- C109 for SubRip: two messages about files without NUL are the same only if they are about lines of the same number, the same is quoted (but
for nothing and the words "an empty string", which are not told apart) and the same is expected, even if the files contain the words of the message. -/
theorem C109_subrip_tells (lines lines' : List Str) (m m' : Nat) (saw saw' ex ex' : Str) (ctx ctx' : List Str) (h : srtRead lines = .error (.subrip m saw ex ctx))
    (h' : srtRead lines' = .error (.subrip m' saw' ex' ctx')) (h0 : ∀ l ∈ lines ++ lines', (0 : Byte) ∉ l)
    (hw : (Err.subrip m saw ex ctx).what = (Err.subrip m' saw' ex' ctx').what) :
    m = m' ∧ ex = ex' ∧ (saw = saw' ∨ (saw = [] ∧ saw' = b!"an empty string") ∨ (saw' = [] ∧ saw = b!"an empty string")) := by
  rw [C109_subrip_whole _ _ _ _ _ h (fun l hl => h0 l (by simp [hl])), C109_subrip_whole _ _ _ _ _ h' (fun l hl => h0 l (by simp [hl]))] at hw
  injection hw with hw
  injection hw with hw
  obtain ⟨h1, h2, h3⟩ := srtMessage_unique (srt_expects h) (srt_expects h') hw
  exact ⟨h1, h2, quoted_same h3⟩

/-- Two lines in which the words of the message occur. -/
example :
    srtRead [b!"1", b!"x when expecting integer hour value"] =
      .error (.subrip 2 b!"x when expecting integer hour value" b!"a time/position line" [b!"1", b!"x when expecting integer hour value"]) ∧
    srtRead [b!"1", b!"x:0:0,0 --> y"] = .error (.subrip 2 b!"x:0:0,0" b!"integer hour value" [b!"1", b!"x:0:0,0 --> y"]) := by
  decide +kernel

/-- C109 is not true of files with a NUL: what follows it is missing from the text. -/
theorem C109_nul_witness :
    srtRead [b!"1", b!"x\x00y"] = .error (.subrip 2 b!"x\x00y" b!"a time/position line" [b!"1", b!"x\x00y"]) ∧
    (Err.subrip 2 b!"x\x00y" b!"a time/position line" [b!"1", b!"x\x00y"]).what = .ok (some b!"Error in SubRip file line 2: saw x") := by
  decide +kernel

/-- C109 for assertions: the text names file and line, whatever the name of the file. -/
theorem C109_programming (file : Str) (line : Nat) (hne : file ≠ []) (h0 : (0 : Byte) ∉ file) :
    programmingWhat file line = .ok (b!"Programming error at " ++ file ++ b!":" ++ decSpec line) := by
  have hv : ValidFmt b!"Programming error at " [(.arg 0 1, b!":"), (.arg 0 2, [])] := by simp [ValidFmt, isDigit]
  have ht : fmtText b!"Programming error at " [(.arg 0 1, b!":"), (.arg 0 2, [])] = b!"Programming error at %1:%2" := by decide +kernel
  unfold programmingWhat
  rw [natDec_eq_decSpec, ← ht, C71_compose _ _ _ hv, ok_bind, pure_eq_ok]
  have hm : (0 : Byte) ∉ b!"Programming error at " ++ file ++ b!":" ++ decSpec line := by
    simp only [List.mem_append, not_or]
    exact ⟨⟨⟨by decide, h0⟩, by decide⟩, decSpec_nul line⟩
  rw [← takeWhile_noNul hm]
  congr 1
  unfold cString
  congr 1
  simp [fmtValue, FTok.value, nthArg, hne, decSpec_ne]

example : programmingWhat b!"../src/%2.cc" 42 = .ok b!"Programming error at ../src/%2.cc:42" := by decide +kernel

/-- C109 for WebVTT: if the reader rejects a file because of a time line, that is a bad time line after lines in which nothing is wrong, the text quotes what is
wrong in it, and names what the reader expected. -/
theorem C109_webvtt (lines : List Str) (saw ex : Str) (ctx : List Str) (h : vttRead lines = .error (.webvtt saw ex ctx)) :
    ∃ A l B, lines = A ++ l :: B ∧ (∃ subs, vttRead A = .ok subs) ∧ (∃ k, BadTimes 46 b!"a time line" (cleanLine l) saw ex k) ∧ ex ∈ vttExpected ∧
      (Err.webvtt saw ex ctx).what = .ok (some ((vttMessage saw ex).takeWhile (· != 0))) := by
  obtain ⟨A, l, B, subs, k, h1, h2, -, -, h3, -⟩ := (C98_rejected_iff lines saw ex ctx).1 h
  exact ⟨A, l, B, h1, ⟨subs, h2⟩, ⟨k, h3⟩, vtt_expects h, by rw [Err.what, webvttWhat_eq]⟩

example : vttRead [b!"WEBVTT", b!" -->"] = .error (.webvtt b!" -->" b!"a time line" [b!"WEBVTT", b!" -->"]) ∧
    (Err.webvtt b!" -->" b!"a time line" [b!"WEBVTT", b!" -->"]).what = .ok (some b!"Error in WebVTT file: saw  --> when expecting a time line") := by decide +kernel

/-- C109 for WebVTT: two messages about files without NUL are the same only if the same is quoted (but for nothing and the words "an empty string") and the same is expected. -/
theorem C109_webvtt_tells (lines lines' : List Str) (saw saw' ex ex' : Str) (ctx ctx' : List Str) (h : vttRead lines = .error (.webvtt saw ex ctx))
    (h' : vttRead lines' = .error (.webvtt saw' ex' ctx')) (h0 : ∀ l ∈ lines ++ lines', (0 : Byte) ∉ l)
    (hw : (Err.webvtt saw ex ctx).what = (Err.webvtt saw' ex' ctx').what) :
    ex = ex' ∧ (saw = saw' ∨ (saw = [] ∧ saw' = b!"an empty string") ∨ (saw' = [] ∧ saw = b!"an empty string")) := by
  have n1 := vttMessage_nul (vtt_saw h (fun l hl => h0 l (by simp [hl]))) (vttExpected_nul ex (vtt_expects h))
  have n2 := vttMessage_nul (vtt_saw h' (fun l hl => h0 l (by simp [hl]))) (vttExpected_nul ex' (vtt_expects h'))
  simp only [Err.what, webvttWhat_eq] at hw
  rw [takeWhile_noNul n1, takeWhile_noNul n2] at hw
  injection hw with hw
  injection hw with hw
  obtain ⟨h2, h3⟩ := vttMessage_unique (vtt_expects h) (vtt_expects h') hw
  exact ⟨h2, quoted_same h3⟩

example : vttRead [b!"WEBVTT", b!"0:0:0.0 --> 0:x:0.0"] = .error (.webvtt b!"0:x:0.0" b!"integer minute value" [b!"WEBVTT", b!"0:0:0.0 --> 0:x:0.0"]) ∧
    vttRead [b!"WEBVTT", b!"a when expecting b -->"] = .error (.webvtt b!"a when expecting b -->" b!"a time line" [b!"WEBVTT", b!"a when expecting b -->"]) := by decide +kernel

/-- C109: a text which is not empty and does not begin with `WEBVTT` (after a byte order mark or not) is rejected with a message that says so, and no other text is. -/
theorem C109_webvtt_header (s : Str) (hne : s ≠ []) :
    ¬ (b!"WEBVTT" <+: s ∨ bom ++ b!"WEBVTT" <+: s) ↔ ∃ e, vttReadString s = .error e ∧ e.what = .ok (some b!"No WEBVTT header found") := by
  rw [← C35_header s hne]
  constructor
  · intro h
    exact ⟨_, h, rfl⟩
  · rintro ⟨e, h, hw⟩
    rcases C86_webvtt _ e h with rfl | ⟨saw, ex, ctx, -, rfl⟩ | rfl
    · exact h
    · exfalso
      rw [Err.what, webvttWhat_eq] at hw
      injection hw with hw
      injection hw with hw
      have := congrArg (fun x => x.take 3) hw
      simp [vttMessage] at this
    · cases hw

example : ∃ e, vttReadString b!"1\n0:0:1.0 --> 0:0:2.0\nx" = .error e ∧ e.what = .ok (some b!"No WEBVTT header found") := (C109_webvtt_header _ (by decide)).1 (by decide)

/-! ### Messages that the model writes out -/

private theorem compose_one (t u : Str) (s : Str) (hv : ValidFmt t [(.arg 0 1, u)]) : composeStr (t ++ b!"%1" ++ u) [s] = .ok (t ++ s ++ u) := by
  have ht : fmtText t [(.arg 0 1, u)] = t ++ b!"%1" ++ u := by
    have : (FTok.arg 0 1).text = b!"%1" := by decide +kernel
    simp only [fmtText, this]
  rw [← ht, C71_compose _ _ _ hv]
  cases s with
  | nil => simp [fmtValue, FTok.value, nthArg]
  | cons c s => simp [fmtValue, FTok.value, nthArg]

/-- C109: the messages that the readers' models write out are those that `String::compose` makes of the code's format strings, whatever is quoted (also `%1` or nothing). -/
theorem C109_composed (name k s : Str) (hn : name ≠ []) :
    composeStr b!"Unknown %1 %2 in binary STL file" [name, k] = .ok (b!"Unknown " ++ name ++ b!" " ++ k ++ b!" in binary STL file") ∧
    composeStr b!"Unknown disk format code %1 in binary STL file" [s] = .ok (b!"Unknown disk format code " ++ s ++ b!" in binary STL file") ∧
    composeStr b!"Could not read %1 block from binary STL file" [s] = .ok (b!"Could not read " ++ s ++ b!" block from binary STL file") ∧
    composeStr b!"Badly formatted colour tag %1" [s] = .ok (b!"Badly formatted colour tag " ++ s) ∧
    composeStr b!"Unrecognised line %1" [s] = .ok (b!"Unrecognised line " ++ s) ∧
    composeStr b!"Unrecognised time %1" [s] = .ok (b!"Unrecognised time " ++ s) ∧
    composeStr b!"time in the format h:m:s%1ms" [s] = .ok (b!"time in the format h:m:s" ++ s ++ b!"ms") := by
  refine ⟨?_, ?_, ?_, ?_, ?_, ?_, ?_⟩
  · have hv : ValidFmt b!"Unknown " [(.arg 0 1, b!" "), (.arg 0 2, b!" in binary STL file")] := by simp [ValidFmt, isDigit]
    have ht : fmtText b!"Unknown " [(.arg 0 1, b!" "), (.arg 0 2, b!" in binary STL file")] = b!"Unknown %1 %2 in binary STL file" := by decide +kernel
    rw [← ht, C71_compose _ _ _ hv]
    by_cases hk : k = []
    · subst hk; simp [fmtValue, FTok.value, nthArg, hn]
    · simp [fmtValue, FTok.value, nthArg, hn, hk]
  · exact compose_one b!"Unknown disk format code " b!" in binary STL file" s (by simp [ValidFmt, isDigit])
  · exact compose_one b!"Could not read " b!" block from binary STL file" s (by simp [ValidFmt, isDigit])
  · have := compose_one b!"Badly formatted colour tag " [] s (by simp [ValidFmt])
    rwa [List.append_nil, List.append_nil] at this
  · have := compose_one b!"Unrecognised line " [] s (by simp [ValidFmt])
    rwa [List.append_nil, List.append_nil] at this
  · have := compose_one b!"Unrecognised time " [] s (by simp [ValidFmt])
    rwa [List.append_nil, List.append_nil] at this
  · exact compose_one b!"time in the format h:m:s" b!"ms" s (by simp [ValidFmt, isDigit])

/-- A code made of a format letter. -/
example : composeStr b!"Unknown %1 %2 in binary STL file" [b!"language code", b!"%1"] = .ok b!"Unknown language code %1 in binary STL file" := by decide +kernel

end LibSub
