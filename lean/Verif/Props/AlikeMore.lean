/-
Property C151: what may be changed in an SSA or STL text file without changing what it means.
-/
import Verif.Props.StlTextExact
import Verif.Props.SsaTextAlike

namespace LibSub

/-! ### Specification -/

/-- Where one is in an SSA file, as far as it tells which lines do something: the section, the format of styles and the names of the columns of events. -/
structure SsaPlace where
  sec : SsaPart := .info
  format : Str := []
  names : List Str := []

/-- The place after an entry. -/
def SsaPlace.after (p : SsaPlace) : SsaEntry → SsaPlace
  | .heading t => { p with sec := (sectionOf t).getD p.sec }
  | .field type body =>
    if p.sec = .styles ∧ type = b!"Format" then { p with format := body }
    else if p.sec = .events ∧ type = b!"Format" then { p with names := (splitAny (· == 44) body).map trim }
    else p

/-- Nothing, or an entry that does nothing: a heading that begins no section or the one that there is already, a field of another type than those of the section. -/
inductive Idle (p : SsaPlace) : Option SsaEntry → Prop
  | nothing : Idle p none
  | heading (t : Str) : sectionOf t = none ∨ sectionOf t = some p.sec → Idle p (some (.heading t))
  | field (t b : Str) : (p.sec, t) ∉ [(.info, b!"PlayResX"), (.info, b!"PlayResY"), (.styles, b!"Format"), (.styles, b!"Style"), (.events, b!"Format"), (.events, b!"Dialogue")] →
      Idle p (some (.field t b))

/-- Two values of a column, without white space at their ends, that mean the same. -/
inductive SameValue : Str → Str → Str → Prop
  | same (n v : Str) : SameValue n v v
  | other (n v v' : Str) : n ∉ [b!"Start", b!"End", b!"Style", b!"MarginV", b!"MarginL", b!"MarginR", b!"Text"] → SameValue n v v'
  | time (n v v' : Str) (t : Time) : n ∈ [b!"Start", b!"End"] → SsaStamp v t → SsaStamp v' t → SameValue n v v'
  | style (stars stars' name : Str) : (∀ c ∈ stars ++ stars', c = 42) → name.head? ≠ some 42 → SameValue b!"Style" (stars ++ name) (stars' ++ name)
  | margin (n v v' : Str) (i : Int) : n ∈ [b!"MarginL", b!"MarginR"] → v ≠ b!"0" → v' ≠ b!"0" → IntAtStart v i → IntAtStart v' i → SameValue n v v'
  | marginV (v v' : Str) (q : ℚ) : v ≠ b!"0" → v' ≠ b!"0" → FloatText v q → FloatText v' q → SameValue b!"MarginV" v v'
  | text (v v' : Str) : SpokenAlike v v' → SameValue b!"Text" v v'

/-- Two lines of dialogue with values that mean the same in all columns. -/
def SameDialogue (names : List Str) (b b' : Str) : Prop :=
  ∃ vs vs', ValuesOf b vs ∧ ValuesOf b' vs' ∧ names.length = vs.length ∧ names.length = vs'.length ∧ ∀ c ∈ names.zip (vs.zip vs'), SameValue c.1 (trim c.2.1) (trim c.2.2)

/-- Two entries that do the same. -/
inductive SameEntry (p : SsaPlace) : SsaEntry → SsaEntry → Prop
  | same (e : SsaEntry) : SameEntry p e e
  | section_ (t t' : Str) : sectionOf t = sectionOf t' → SameEntry p (.heading t) (.heading t')
  | side (type b b' : Str) (n : Int) : p.sec = .info → type ∈ [b!"PlayResX", b!"PlayResY"] → IntAtStart b n → IntAtStart b' n → SameEntry p (.field type b) (.field type b')
  | style (b b' : Str) (s : SsaStyle) : p.sec = .styles → StyleMeans p.format b s → StyleMeans p.format b' s → SameEntry p (.field b!"Style" b) (.field b!"Style" b')
  | columns (b b' : Str) (names names' : List Str) : p.sec = .events → CommaList b names → CommaList b' names' → names.map trim = names'.map trim → SameEntry p (.field b!"Format" b) (.field b!"Format" b')
  | dialogue (b b' : Str) : p.sec = .events → SameDialogue p.names b b' → SameEntry p (.field b!"Dialogue" b) (.field b!"Dialogue" b')

/-- SSA files that are alike: the lines that do something are the same or do the same, one after the other.  After a line that is wrong anything may follow. -/
inductive SsaAlike : SsaPlace → List Str → List Str → Prop
  | done (p : SsaPlace) : SsaAlike p [] []
  | left (p : SsaPlace) (l : Str) (e : Option SsaEntry) (ls ls' : List Str) : OnLine l e → Idle p e → SsaAlike p ls ls' → SsaAlike p (l :: ls) ls'
  | right (p : SsaPlace) (l : Str) (e : Option SsaEntry) (ls ls' : List Str) : OnLine l e → Idle p e → SsaAlike p ls ls' → SsaAlike p ls (l :: ls')
  | both (p : SsaPlace) (l l' : Str) (e e' : SsaEntry) (ls ls' : List Str) : OnLine l (some e) → OnLine l' (some e') → SameEntry p e e' → SsaAlike (p.after e) ls ls' →
      SsaAlike p (l :: ls) (l' :: ls')
  | wrong (p : SsaPlace) (l l' : Str) (ls ls' : List Str) : (∀ e, ¬ OnLine l e) → (∀ e, ¬ OnLine l' e) → SsaAlike p (l :: ls) (l' :: ls')

/-- STL text files that are alike: the lines that say something say the same, one after the other. -/
inductive StlTextAlike : List Str → List Str → Prop
  | done : StlTextAlike [] []
  | left (l x : Str) (ls ls' : List Str) : Padded l x → StlLineSays x [] → StlTextAlike ls ls' → StlTextAlike (l :: ls) ls'
  | right (l x : Str) (ls ls' : List Str) : Padded l x → StlLineSays x [] → StlTextAlike ls ls' → StlTextAlike ls (l :: ls')
  | both (l l' x x' : Str) (e : List Ev) (ls ls' : List Str) : Padded l x → Padded l' x' → StlLineSays x e → StlLineSays x' e → StlTextAlike ls ls' → StlTextAlike (l :: ls) (l' :: ls')

/-! ### SSA -/

private def At (p : SsaPlace) (r : SsaRead) : Prop := r.part = p.sec ∧ r.styleFormat = p.format ∧ r.eventFormat = p.names

private theorem idle_line {p : SsaPlace} {r : SsaRead} (h : At p r) {l : Str} {e : Option SsaEntry} (hl : OnLine l e) (hi : Idle p e) : ssaLine r l = .ok r := by
  rw [line_entry hl r]
  cases hi with
  | nothing => rfl
  | heading t ht =>
    have : (sectionOf t).getD r.part = r.part := by
      rcases ht with ht | ht
      · rw [ht]; rfl
      · rw [ht, h.1]; rfl
    simp only [this]
  | field t b ht =>
    simp only [List.mem_cons, Prod.mk.injEq, List.not_mem_nil, or_false, not_or, not_and] at ht
    simp only [h.1]
    obtain ⟨h1, h2, h3, h4, h5, h6⟩ := ht
    cases hs : p.sec with
    | info => simp only; rw [if_neg (h1 hs), if_neg (h2 hs)]
    | styles => simp only; rw [if_neg (h3 hs), if_neg (h4 hs)]
    | events => simp only; rw [if_neg (h5 hs), if_neg (h6 hs)]

private theorem stars_trim (stars name : Str) (h : ∀ c ∈ stars, c = 42) (hn : name.head? ≠ some 42) : trimLeftIf (· == 42) (stars ++ name) = name := by
  unfold trimLeftIf
  rw [List.dropWhile_append_of_pos (fun c hc => by simp [h c hc])]
  cases name with
  | nil => rfl
  | cons c t =>
    rw [List.dropWhile_cons_of_neg]
    intro hc
    exact hn (by simpa using hc)

private theorem ne_names (a b : Str) (h : decide (a = b) = false) : a ≠ b := by simpa using h

private theorem field_same {r : SsaRead} {ev : SsaEvent} {n v v' : Str} (h : SameValue n (trim v) (trim v')) : ssaEventField r ev n v = ssaEventField r ev n v' := by
  unfold ssaEventField
  generalize trim v = w at h
  generalize trim v' = w' at h
  cases h with
  | same => rfl
  | other _ _ _ hn =>
    simp only [List.mem_cons, List.not_mem_nil, or_false, not_or] at hn
    obtain ⟨h1, h2, h3, h4, h5, h6, h7⟩ := hn
    simp only [if_neg h1, if_neg h2, if_neg h3, if_neg h4, if_neg h5, if_neg h6, if_neg h7]
  | time _ _ _ t hn h1 h2 =>
    have e1 := (C118_time _ _).2 h1
    have e2 := (C118_time _ _).2 h2
    simp only [List.mem_cons, List.not_mem_nil, or_false] at hn
    rcases hn with rfl | rfl
    · simp only [if_true, e1, e2]
    · simp only [if_neg (ne_names b!"End" b!"Start" (by decide)), if_true, e1, e2]
  | style stars stars' name hs hn =>
    have e1 := stars_trim stars name (fun c hc => hs c (by simp [hc])) hn
    have e2 := stars_trim stars' name (fun c hc => hs c (by simp [hc])) hn
    simp only [if_neg (ne_names b!"Style" b!"Start" (by decide)), if_neg (ne_names b!"Style" b!"End" (by decide)), if_true, e1, e2]
  | margin _ _ _ i hn h1 h2 h3 h4 =>
    have e1 := (C117_int _ _).2 h3
    have e2 := (C117_int _ _).2 h4
    simp only [List.mem_cons, List.not_mem_nil, or_false] at hn
    rcases hn with rfl | rfl
    · simp only [if_neg (ne_names b!"MarginL" b!"Start" (by decide)), if_neg (ne_names b!"MarginL" b!"End" (by decide)), if_neg (ne_names b!"MarginL" b!"Style" (by decide)),
        if_neg (ne_names b!"MarginL" b!"MarginV" (by decide)), if_true, e1, e2, if_pos h1, if_pos h2]
    · simp only [if_neg (ne_names b!"MarginR" b!"Start" (by decide)), if_neg (ne_names b!"MarginR" b!"End" (by decide)), if_neg (ne_names b!"MarginR" b!"Style" (by decide)),
        if_neg (ne_names b!"MarginR" b!"MarginV" (by decide)), if_neg (ne_names b!"MarginR" b!"MarginL" (by decide)), if_true, e1, e2, if_pos h1, if_pos h2]
  | marginV _ _ q h1 h2 h3 h4 =>
    have e1 := (C117_float _ _).2 h3
    have e2 := (C117_float _ _).2 h4
    simp only [if_neg (ne_names b!"MarginV" b!"Start" (by decide)), if_neg (ne_names b!"MarginV" b!"End" (by decide)), if_neg (ne_names b!"MarginV" b!"Style" (by decide)), if_true,
      e1, e2, ne_eq, h1, h2, not_false_eq_true, true_and]
  | text _ _ h =>
    have e : ∀ ctx base, ssaParseLine ctx base w = ssaParseLine ctx base w' := fun ctx base => C154_text ctx base w w' h
    simp only [if_neg (ne_names b!"Text" b!"Start" (by decide)), if_neg (ne_names b!"Text" b!"End" (by decide)), if_neg (ne_names b!"Text" b!"Style" (by decide)),
      if_neg (ne_names b!"Text" b!"MarginV" (by decide)), if_neg (ne_names b!"Text" b!"MarginL" (by decide)), if_neg (ne_names b!"Text" b!"MarginR" (by decide)), if_true, e]

private theorem fields_same {r : SsaRead} : ∀ (names vs vs' : List Str) {ev : SsaEvent}, names.length = vs.length → names.length = vs'.length →
    (∀ c ∈ names.zip (vs.zip vs'), SameValue c.1 (trim c.2.1) (trim c.2.2)) → ssaEventFields r ev (names.zip vs) = ssaEventFields r ev (names.zip vs')
  | [], vs, vs', ev, _, _, _ => by simp
  | n :: names, v :: vs, v' :: vs', ev, h1, h2, h => by
    simp only [List.zip_cons_cons, ssaEventFields]
    rw [field_same (h (n, v, v') (by simp))]
    cases ssaEventField r ev n v' with
    | error e => rfl
    | ok ev' => exact fields_same names vs vs' (by simpa using h1) (by simpa using h2) fun c hc => h c (by simp [hc])
  | n :: names, [], vs', ev, h1, _, _ => by simp at h1
  | n :: names, v :: vs, [], ev, _, h2, _ => by simp at h2

private theorem dialogue_same {r : SsaRead} {b b' : Str} (h : SameDialogue r.eventFormat b b') : ssaDialogue r b = ssaDialogue r b' := by
  obtain ⟨_, _, ⟨fs, rest, rfl, rfl, h1⟩, ⟨fs', rest', rfl, rfl, h2⟩, h3, h4, h5⟩ := h
  rw [C43_rest r fs rest (by simpa using h3) h1, C43_rest r fs' rest' (by simpa using h4) h2, fields_same _ _ _ h3 h4 h5]

private theorem entry_same {p : SsaPlace} {r : SsaRead} (h : At p r) {l l' : Str} {e e' : SsaEntry} (hl : OnLine l (some e)) (hl' : OnLine l' (some e')) (hs : SameEntry p e e') :
    ssaLine r l = ssaLine r l' := by
  rw [line_entry hl r, line_entry hl' r]
  obtain ⟨a1, a2, a3⟩ := h
  cases hs with
  | same => cases e <;> rfl
  | section_ t t' ht => simp only [ht]
  | side type b b' n hp ht h1 h2 =>
    have e1 := (C117_int _ _).2 h1
    have e2 := (C117_int _ _).2 h2
    simp only [a1, hp, e1, e2]
  | style b b' s hp h1 h2 =>
    have e1 := (C118_style _ _ _).2 h1
    have e2 := (C118_style _ _ _).2 h2
    simp only [a1, hp, a2, if_neg (ne_names b!"Style" b!"Format" (by decide)), e1, e2]
  | columns b b' names names' hp h1 h2 h3 =>
    have e1 := (commaList_iff _ _).1 h1
    have e2 := (commaList_iff _ _).1 h2
    simp only [a1, hp, if_true, e1, e2, h3]
  | dialogue b b' hp h1 =>
    rw [← a3] at h1
    simp only [a1, hp, if_neg (ne_names b!"Dialogue" b!"Format" (by decide)), if_true, dialogue_same h1]

private theorem at_after {p : SsaPlace} {r r' : SsaRead} (h : At p r) {l : Str} {e : SsaEntry} (hl : OnLine l (some e)) (hr : ssaLine r l = .ok r') : At (p.after e) r' := by
  rw [line_entry hl r] at hr
  obtain ⟨a1, a2, a3⟩ := h
  cases e with
  | heading t =>
    cases hr
    exact ⟨by simp [SsaPlace.after, a1], a2, a3⟩
  | field type body =>
    simp only [a1] at hr
    unfold SsaPlace.after
    cases hs : p.sec with
    | info =>
      rw [hs] at hr a1
      simp only at hr
      simp only [reduceCtorEq, false_and, if_false]
      split at hr
      · obtain ⟨x, _, h2⟩ := bind_eq_ok.1 hr
        cases h2
        exact ⟨hs.symm, a2, a3⟩
      · split at hr
        · obtain ⟨x, _, h2⟩ := bind_eq_ok.1 hr
          cases h2
          exact ⟨hs.symm, a2, a3⟩
        · cases hr
          exact ⟨a1.trans hs.symm, a2, a3⟩
    | styles =>
      rw [hs] at hr a1
      simp only at hr
      simp only [reduceCtorEq, false_and, if_false, true_and]
      split at hr
      · rename_i ht
        cases hr
        rw [if_pos ht]
        exact ⟨rfl, rfl, a3⟩
      · rename_i ht
        rw [if_neg ht]
        split at hr
        · obtain ⟨_, _, h2⟩ := bind_eq_ok.1 hr
          obtain ⟨s, _, h3⟩ := bind_eq_ok.1 h2
          cases h3
          exact ⟨hs.symm, a2, a3⟩
        · cases hr
          exact ⟨a1.trans hs.symm, a2, a3⟩
    | events =>
      rw [hs] at hr a1
      simp only at hr
      simp only [reduceCtorEq, false_and, if_false, true_and]
      split at hr
      · rename_i ht
        cases hr
        rw [if_pos ht]
        exact ⟨rfl, a2, rfl⟩
      · rename_i ht
        rw [if_neg ht]
        split at hr
        · unfold ssaDialogue at hr
          obtain ⟨_, _, hr⟩ := bind_eq_ok.1 hr
          obtain ⟨_, _, hr⟩ := bind_eq_ok.1 hr
          obtain ⟨_, _, hr⟩ := bind_eq_ok.1 hr
          obtain ⟨_, _, hr⟩ := bind_eq_ok.1 hr
          cases hr
          exact ⟨a1.trans hs.symm, a2, a3⟩
        · cases hr
          exact ⟨a1.trans hs.symm, a2, a3⟩

/-- The place in a file is what the reader has stored of it. -/
theorem place_after {p : SsaPlace} {r r' : SsaRead} (h : r.part = p.sec ∧ r.styleFormat = p.format ∧ r.eventFormat = p.names) {l : Str} {e : SsaEntry} (hl : OnLine l (some e)) (hr : ssaLine r l = .ok r') :
    r'.part = (p.after e).sec ∧ r'.styleFormat = (p.after e).format ∧ r'.eventFormat = (p.after e).names := at_after h hl hr

private theorem ssa_alike {p : SsaPlace} {ls ls' : List Str} (h : SsaAlike p ls ls') : ∀ r, At p r → ssaLines r ls = ssaLines r ls' := by
  induction h with
  | done p => intro r _; rfl
  | left p l e ls ls' hl hi _ ih =>
    intro r hr
    rw [ssaLines, idle_line hr hl hi]
    exact ih r hr
  | right p l e ls ls' hl hi _ ih =>
    intro r hr
    rw [ssaLines, idle_line hr hl hi]
    exact ih r hr
  | both p l l' e e' ls ls' hl hl' hs _ ih =>
    intro r hr
    rw [ssaLines, ssaLines, ← entry_same hr hl hl' hs]
    cases h1 : ssaLine r l with
    | error e => rfl
    | ok r' => exact ih r' (at_after hr hl h1)
  | wrong p l l' ls ls' h h' =>
    intro r hr
    rw [ssaLines, ssaLines, line_none h, line_none h']
    rfl

/-- C151: SSA files that are alike give the same subtitles or the same error. -/
theorem C151_ssa (ls ls' : List Str) (h : SsaAlike {} ls ls') : ssaReadLines ls = ssaReadLines ls' := by
  unfold ssaReadLines
  rw [ssa_alike h {} ⟨rfl, rfl, rfl⟩]

private theorem onField {line type rest body : Str} (h1 : ssaClean line = type ++ 58 :: rest) (h2 : (58 : Byte) ∉ type) (h3 : ¬ b!";" <+: type) (h4 : ¬ b!"[" <+: type) (h5 : trim rest = body) :
    OnLine line (some (.field type body)) := h5 ▸ .field type rest h1 h2 h3 h4

/-- A comment, a setting and a section without a meaning go, times, the width and blanks are written in another way, the unused column `Name` changes. -/
example : SsaAlike {}
    [b!"[Script Info]", b!"; by hand", b!"Title: x", b!"PlayResX: 384", b!"[Fonts]", b!"[Events]", b!"Format: Start, End, Name, MarginL, Text", b!"Dialogue: 0:00:01.00,0:00:02.50,Ann,10,Hi, you"]
    [b!"PlayResX:+0384 px", b!"", b!" [Events]", b!"Format:Start,End,Name,MarginL,Text", b!"Comment: 1", b!"Dialogue: 0:0:1:0, 00:00:2.50,,010,Hi, you "] := by
  have hi : ∀ (s : Str) (n : Int), rawConvertInt s = .ok n → IntAtStart s n := fun s n => (C117_int s n).1
  have ht : ∀ (s : Str) (t : Time), ssaParseTime s = .ok t → SsaStamp s t := fun s t => (C118_time s t).1
  refine .left _ _ (some (.heading b!"[Script Info]")) _ _ (.heading (by decide)) (.heading _ (by decide)) ?_
  refine .left _ _ none _ _ (.nothing (by decide)) .nothing ?_
  refine .left _ _ _ _ _ (onField (type := b!"Title") (rest := b!" x") (by decide) (by decide) (by decide) (by decide) rfl) (.field _ _ (by decide)) ?_
  refine .both _ _ _ _ _ _ _ (onField (type := b!"PlayResX") (rest := b!" 384") (body := b!"384") (by decide) (by decide) (by decide) (by decide) (by decide))
    (onField (type := b!"PlayResX") (rest := b!"+0384 px") (body := b!"+0384 px") (by decide) (by decide) (by decide) (by decide) (by decide))
    (.side _ _ _ 384 rfl (by decide) (hi _ _ (by decide +kernel)) (hi _ _ (by decide +kernel))) ?_
  refine .left _ _ (some (.heading b!"[Fonts]")) _ _ (.heading (by decide)) (.heading _ (by decide)) ?_
  refine .right _ _ none _ _ (.nothing (by decide)) .nothing ?_
  refine .both _ _ _ (.heading b!"[Events]") (.heading b!"[Events]") _ _ (.heading (by decide)) (.heading (by decide)) (.same _) ?_
  refine .both _ _ _ _ _ _ _ (onField (type := b!"Format") (rest := b!" Start, End, Name, MarginL, Text") (body := b!"Start, End, Name, MarginL, Text") (by decide) (by decide) (by decide) (by decide) (by decide))
    (onField (type := b!"Format") (rest := b!"Start,End,Name,MarginL,Text") (body := b!"Start,End,Name,MarginL,Text") (by decide) (by decide) (by decide) (by decide) (by decide))
    (.columns _ _ _ _ rfl ((commaList_iff _ _).2 rfl) ((commaList_iff _ _).2 rfl) (by decide)) ?_
  refine .right _ _ _ _ _ (onField (type := b!"Comment") (rest := b!" 1") (by decide) (by decide) (by decide) (by decide) rfl) (.field _ _ (by decide)) ?_
  refine .both _ _ _ _ _ _ _ (onField (type := b!"Dialogue") (rest := b!" 0:00:01.00,0:00:02.50,Ann,10,Hi, you") (body := b!"0:00:01.00,0:00:02.50,Ann,10,Hi, you") (by decide) (by decide) (by decide) (by decide) (by decide))
    (onField (type := b!"Dialogue") (rest := b!" 0:0:1:0, 00:00:2.50,,010,Hi, you") (body := b!"0:0:1:0, 00:00:2.50,,010,Hi, you") (by decide) (by decide) (by decide) (by decide) (by decide))
    (.dialogue _ _ rfl ⟨[b!"0:00:01.00", b!"0:00:02.50", b!"Ann", b!"10", b!"Hi, you"], [b!"0:0:1:0", b!" 00:00:2.50", b!"", b!"010", b!"Hi, you"], ?_, ?_, by decide, by decide, ?_⟩) (.done _)
  · exact ⟨[b!"0:00:01.00", b!"0:00:02.50", b!"Ann", b!"10"], b!"Hi, you", rfl, by decide, by decide⟩
  · exact ⟨[b!"0:0:1:0", b!" 00:00:2.50", b!"", b!"010"], b!"Hi, you", rfl, by decide, by decide⟩
  · have e : (SsaPlace.after (SsaPlace.after (SsaPlace.after {} (.field b!"PlayResX" b!"384")) (.heading b!"[Events]")) (.field b!"Format" b!"Start, End, Name, MarginL, Text")).names =
        [b!"Start", b!"End", b!"Name", b!"MarginL", b!"Text"] := by decide
    rw [e]
    simp only [List.zip_cons_cons, List.zip_nil_left, List.mem_cons, List.not_mem_nil, or_false]
    rintro c (rfl | rfl | rfl | rfl | rfl)
    · exact .time _ _ _ ⟨1, 0, some ⟨1000, 1⟩⟩ (by decide) (ht _ _ (by decide +kernel)) (ht _ _ (by decide +kernel))
    · exact .time _ _ _ ⟨2, 500, some ⟨1000, 1⟩⟩ (by decide) (ht _ _ (by decide +kernel)) (ht _ _ (by decide +kernel))
    · exact .other _ _ _ (by decide)
    · exact .margin _ _ _ 10 (by decide) (by decide) (by decide) (hi _ _ (by decide +kernel)) (hi _ _ (by decide +kernel))
    · exact .same _ _

/-- C151: a margin of 0 may not be written as 00: the one leaves the margin of the style, the other sets it. -/
theorem C151_margin_witness :
    let file := fun m => [b!"[V4 Styles]", b!"Format: Name, MarginL, Alignment", b!"Style: A, 20, 1", b!"[Events]", b!"Format: Style, MarginL, Text", b!"Dialogue: A," ++ m ++ b!",Hi"]
    (ssaReadLines (file b!"0")).toOption.map (fun rs => rs.map fun r => r.hpos.prop) ≠ (ssaReadLines (file b!"00")).toOption.map (fun rs => rs.map fun r => r.hpos.prop) := by decide +kernel

/-! ### STL text -/

private theorem stl_events {ls ls' : List Str} (h : StlTextAlike ls ls') : ∃ es es' : List (List Ev), es.flatten = es'.flatten ∧
    List.Forall₂ (fun l e => ∃ x, Padded l x ∧ StlLineSays x e) ls es ∧ List.Forall₂ (fun l e => ∃ x, Padded l x ∧ StlLineSays x e) ls' es' := by
  induction h with
  | done => exact ⟨[], [], rfl, .nil, .nil⟩
  | left l x ls ls' h1 h2 _ ih =>
    obtain ⟨es, es', e, a, b⟩ := ih
    exact ⟨[] :: es, es', by simpa using e, .cons ⟨x, h1, h2⟩ a, b⟩
  | right l x ls ls' h1 h2 _ ih =>
    obtain ⟨es, es', e, a, b⟩ := ih
    exact ⟨es, [] :: es', by simpa using e, a, .cons ⟨x, h1, h2⟩ b⟩
  | both l l' x x' ev ls ls' h1 h2 h3 h4 _ ih =>
    obtain ⟨es, es', e, a, b⟩ := ih
    exact ⟨ev :: es, ev :: es', by simp [e], .cons ⟨x, h1, h3⟩ a, .cons ⟨x', h2, h4⟩ b⟩

private theorem line_for (hist : List Ev) (subs : List Raw) (raw : Str) (st : StlTextSt) {e : List Ev} (h : StlLineSays (trim raw) e) :
    stlTextLine (HistSt hist subs) raw = .ok st ↔ LinesFit hist e ∧ st = HistSt (hist ++ e) (subs ++ evRaws hist e) := by
  constructor
  · intro ho
    suffices LinesFit hist e by
      refine ⟨this, ?_⟩
      rw [(line_says hist subs raw _).2 ⟨e, h, this, rfl⟩] at ho
      cases ho
      rfl
    generalize hx : trim raw = x at h
    cases h with
    | comment => trivial
    | setting n v n' v' _ h1 h2 h3 h4 h5 => exact (settingSays_raws h5 hist).2
    | badSetting => trivial
    | unknown => trivial
    | badTime => trivial
    | subtitle _ A B C f t e hl hA hB hC =>
      subst hx
      rw [line_subtitle hist subs raw A B C hl, (time_says _ _).2 hA, ok_bind, (time_says _ _).2 hB, ok_bind] at ho
      have e3 : ({ HistSt hist subs with sub := { (HistSt hist subs).sub with from_ := f, to_ := t } } : StlTextSt) = HistSt (hist ++ [.times f t]) subs := by
        unfold HistSt
        rw [raw_times]
      simp only [e3] at ho
      obtain ⟨s, h1, h2⟩ := bind_eq_ok.1 ho
      have := (chars_says hC (hist ++ [.times f t]) subs (HistSt (hist ++ [.times f t]) subs) st (.inl rfl)).1 (by rw [h1]; exact h2)
      exact ⟨(by intro h; cases h), this.1⟩
  · rintro ⟨h1, rfl⟩
    exact (line_says hist subs raw _).2 ⟨e, h, h1, rfl⟩

private theorem lines_for : ∀ {ls : List Str} {es : List (List Ev)}, List.Forall₂ (fun l e => ∃ x, Padded l x ∧ StlLineSays x e) ls es → ∀ (hist : List Ev) (subs : List Raw) (st : StlTextSt),
    stlTextLines (HistSt hist subs) ls = .ok st ↔ LinesFit hist es.flatten ∧ st = HistSt (hist ++ es.flatten) (subs ++ evRaws hist es.flatten) := by
  intro ls es h
  induction h with
  | nil =>
    intro hist subs st
    rw [stlTextLines]
    simp only [List.flatten_nil, LinesFit, evRaws, List.append_nil, true_and, Except.ok.injEq]
    exact eq_comm
  | @cons l e ls es h1 _ ih =>
    intro hist subs st
    obtain ⟨x, hx, he⟩ := h1
    rw [← (padded_iff l x).1 hx] at he
    rw [stlTextLines, List.flatten_cons, linesFit_append, evRaws_append]
    constructor
    · intro ho
      obtain ⟨s1, h2, h3⟩ := bind_eq_ok.1 ho
      obtain ⟨f1, rfl⟩ := (line_for hist subs l s1 he).1 h2
      obtain ⟨f2, rfl⟩ := (ih _ _ _).1 h3
      exact ⟨⟨f1, f2⟩, by simp⟩
    · rintro ⟨⟨f1, f2⟩, rfl⟩
      rw [(line_for hist subs l _ he).2 ⟨f1, rfl⟩, ok_bind]
      exact (ih _ _ _).2 ⟨f2, by simp⟩

/-- C151: STL text files that are alike give the same subtitles, whatever stands after the last newline. -/
theorem C151_stl (ls ls' : List Str) (last last' : Str) (hn : ∀ l ∈ ls ++ ls', (10 : Byte) ∉ l) (hl : (10 : Byte) ∉ last) (hl' : (10 : Byte) ∉ last') (h : StlTextAlike ls ls') (subs : List Raw) :
    stlTextRead (unlines ls ++ last) = .ok subs ↔ stlTextRead (unlines ls' ++ last') = .ok subs := by
  have e0 : ({} : StlTextSt) = HistSt [] [] := by decide +kernel
  obtain ⟨es, es', e, a, b⟩ := stl_events h
  have key : ∀ (ls : List Str) (last : Str) (es : List (List Ev)), (∀ l ∈ ls, (10 : Byte) ∉ l) → (10 : Byte) ∉ last → List.Forall₂ (fun l e => ∃ x, Padded l x ∧ StlLineSays x e) ls es →
      (stlTextRead (unlines ls ++ last) = .ok subs ↔ LinesFit [] es.flatten ∧ subs = evRaws [] es.flatten) := by
    intro ls last es h1 h2 h3
    unfold stlTextRead
    rw [streamLines_unlines ls last h1 h2, e0]
    constructor
    · intro ho
      obtain ⟨st, h4, h5⟩ := bind_eq_ok.1 ho
      obtain ⟨f, rfl⟩ := (lines_for h3 [] [] st).1 h4
      cases h5
      exact ⟨f, by simp [HistSt]⟩
    · rintro ⟨f, rfl⟩
      rw [(lines_for h3 [] [] _).2 ⟨f, rfl⟩]
      simp [HistSt]
  rw [key ls last es (fun l h => hn l (by simp [h])) hl a, key ls' last' es' (fun l h => hn l (by simp [h])) hl' b, e]

example : StlTextAlike [b!"// made by hand", b!"$Bold = True", b!"00:00:01:05 , 00:00:02:00 , Hi"] [b!"$Bold=True", b!"?", b!"0:0:1:5 ,0:00:2:0, Hi", b!"$Bold"] := by
  have ht : ∀ (w : Str) (t : Time), stlTextTime (trim w) = .ok (some t) → TimeSays w t := fun w t => (time_says w t).1
  refine .left _ _ _ _ (padded_trim _) (.comment _) ?_
  refine .both _ _ _ _ [.setFace .bold true] _ _ (padded_trim _) (padded_trim _) (.setting b!"Bold " b!" True" b!"$Bold" b!"True" _ (by decide) (by decide) ((padded_iff _ _).2 (by decide)) ((padded_iff _ _).2 (by decide)) (.face .bold _))
    (.setting b!"Bold" b!"True" b!"$Bold" b!"True" _ (by decide) (by decide) ((padded_iff _ _).2 (by decide)) ((padded_iff _ _).2 (by decide)) (.face .bold _)) ?_
  refine .right _ _ _ _ (padded_trim _) (.unknown _ (by decide) (by decide) ?_) ?_
  · rintro A B C ⟨x, h, _⟩
    have : (44 : Byte) ∈ trim b!"?" := by rw [h]; simp
    exact absurd this (by decide)
  refine .both _ _ _ _ _ _ _ (padded_trim _) (padded_trim _)
    (.subtitle b!"00:00:01:05 , 00:00:02:00 , Hi" b!"00:00:01:05" b!" 00:00:02:00 " b!" Hi" ⟨1, 5, none⟩ ⟨2, 0, none⟩ [.text b!" Hi"] ⟨32, by decide⟩ (ht _ _ (by decide +kernel)) (ht _ _ (by decide +kernel)) ?_)
    (.subtitle b!"0:0:1:5 ,0:00:2:0, Hi" b!"0:0:1:5" b!"0:00:2:0" b!" Hi" ⟨1, 5, none⟩ ⟨2, 0, none⟩ [.text b!" Hi"] ⟨32, by decide⟩ (ht _ _ (by decide +kernel)) (ht _ _ (by decide +kernel)) ?_) ?_
  · exact .text b!" Hi" [] [] (by decide) (by decide) (by simp) .done
  · exact .text b!" Hi" [] [] (by decide) (by decide) (by simp) .done
  · exact .right _ _ _ _ (padded_trim _) (.badSetting b!"Bold" (by decide)) .done

end LibSub
