/-
Property C118: what an SSA file means, exactly.
-/
import Verif.Props.SsaEventExact
import Verif.Props.SsaFile

namespace LibSub

/-! ### Specification -/

/-- A line that tells something: a heading in brackets, or a field with a type and a body. -/
inductive SsaEntry where
  | heading (t : Str)
  | field (type body : Str)

/-- What is on a line: nothing when it is blank or a comment. -/
inductive OnLine (line : Str) : Option SsaEntry → Prop
  | nothing : ssaClean line = [] ∨ b!";" <+: ssaClean line → OnLine line none
  | heading : b!"[" <+: ssaClean line → OnLine line (some (.heading (ssaClean line)))
  | field (type rest : Str) : ssaClean line = type ++ 58 :: rest → (58 : Byte) ∉ type → ¬ b!";" <+: type → ¬ b!"[" <+: type → OnLine line (some (.field type (trim rest)))

/-- The sections; other headings do not begin a section. -/
def sectionOf (t : Str) : Option SsaPart :=
  if t = b!"[Script Info]" then some .info
  else if t = b!"[V4 Styles]" ∨ t = b!"[V4+ Styles]" then some .styles
  else if t = b!"[Events]" then some .events
  else none

/-- The section after some entries, the newest first: that of the newest heading that begins one. -/
def sectionAfter : List SsaEntry → SsaPart
  | [] => .info
  | .heading t :: past => (sectionOf t).getD (sectionAfter past)
  | .field _ _ :: past => sectionAfter past

/-- `a` is what the newest of the entries tells that tells anything of the kind `tells`, which may depend on the entries before. -/
def Newest {α : Type} (tells : SsaEntry → List SsaEntry → α → Prop) (past : List SsaEntry) (a : α) : Prop :=
  ∃ newer e older, past = newer ++ e :: older ∧ tells e older a ∧ ∀ n1 e' n2, newer = n1 ++ e' :: n2 → ∀ a', ¬ tells e' (n2 ++ e :: older) a'

/-- The body of the newest field of a type in a section. -/
def Setting (past : List SsaEntry) (sec : SsaPart) (type body : Str) : Prop :=
  Newest (fun e older b => e = .field type b ∧ sectionAfter older = sec) past body

/-- One side of the screen: 288 unless the file tells otherwise. -/
def Side (past : List SsaEntry) (type : Str) (n : Int) : Prop :=
  (∃ b, Setting past .info type b ∧ IntAtStart b n) ∨ ((∀ b, ¬ Setting past .info type b) ∧ n = 288)

/-- An entry that describes a style, in the format that there is before it. -/
def StyleEntry (e : SsaEntry) (older : List SsaEntry) (s : SsaStyle) : Prop :=
  ∃ f b, e = .field b!"Style" b ∧ sectionAfter older = .styles ∧ Setting older .styles b!"Format" f ∧ f ≠ [] ∧ StyleMeans f b s

/-- The newest style of a name. -/
def NamedStyle (past : List SsaEntry) (name : Str) (s : SsaStyle) : Prop := Newest (fun e older s => StyleEntry e older s ∧ s.name = name) past s

/-- An entry that is accepted and gives no subtitles. -/
inductive Quiet (past : List SsaEntry) : SsaEntry → Prop
  | heading (t : Str) : Quiet past (.heading t)
  | side (t b : Str) (n : Int) : t = b!"PlayResX" ∨ t = b!"PlayResY" → IntAtStart b n → Quiet past (.field t b)
  | style (b : Str) (s : SsaStyle) : StyleEntry (.field b!"Style" b) past s → Quiet past (.field b!"Style" b)
  | other (t b : Str) : (sectionAfter past, t) ∉ [(.info, b!"PlayResX"), (.info, b!"PlayResY"), (.styles, b!"Style"), (.events, b!"Dialogue")] → Quiet past (.field t b)

/-- What the lines of a file mean after some entries, the newest first. -/
inductive SsaFile : List SsaEntry → List Str → List Raw → Prop
  | done (past : List SsaEntry) : SsaFile past [] []
  | nothing (past : List SsaEntry) (l : Str) (ls : List Str) (r : List Raw) : OnLine l none → SsaFile past ls r → SsaFile past (l :: ls) r
  | quiet (past : List SsaEntry) (l : Str) (e : SsaEntry) (ls : List Str) (r : List Raw) : OnLine l (some e) → Quiet past e → SsaFile (e :: past) ls r → SsaFile past (l :: ls) r
  | dialogue (past : List SsaEntry) (l b f : Str) (w h : Int) (ls : List Str) (r r' : List Raw) : OnLine l (some (.field b!"Dialogue" b)) → sectionAfter past = .events →
      Setting past .events b!"Format" f → Side past b!"PlayResX" w → Side past b!"PlayResY" h → DialogueMeans w h (NamedStyle past) f b r →
      SsaFile (.field b!"Dialogue" b :: past) ls r' → SsaFile past (l :: ls) (r ++ r')

/-! ### Lines -/

private theorem trim_parts (s : Str) : ∃ a b, s = a ++ trim s ++ b ∧ (∀ c ∈ a, isSpace c = true) ∧ ∀ c ∈ b, isSpace c = true := by
  obtain ⟨b, hb, hbs⟩ := trimRightIf_prefix isSpace s
  refine ⟨(trimRightIf isSpace s).takeWhile isSpace, b, ?_, fun c hc => List.all_eq_true.1 (List.all_takeWhile (p := isSpace)) c hc, hbs⟩
  unfold trim trimLeftIf
  rw [List.takeWhile_append_dropWhile]
  exact hb

theorem trim_trimmed (s : Str) : Trimmed (trim s) := by
  unfold trim trimLeftIf trimRightIf
  constructor
  · intro c hc
    have := List.head?_dropWhile_not isSpace (s.reverse.dropWhile isSpace).reverse
    rw [hc] at this
    exact this
  · intro c hc
    have hs : (List.dropWhile isSpace (List.dropWhile isSpace s.reverse).reverse) <:+ (List.dropWhile isSpace s.reverse).reverse := List.dropWhile_suffix _
    obtain ⟨z, hz⟩ := hs
    have h1 : (List.dropWhile isSpace s.reverse).reverse.getLast? = some c := by
      rw [← hz, List.getLast?_append, hc]
      rfl
    rw [List.getLast?_reverse] at h1
    have := List.head?_dropWhile_not isSpace s.reverse
    rw [h1] at this
    exact this

theorem onLine_cases (line : Str) : (∃ e, OnLine line e) ∨ (58 : Byte) ∉ ssaClean line := by
  by_cases h1 : ssaClean line = [] ∨ b!";" <+: ssaClean line
  · exact .inl ⟨_, .nothing h1⟩
  by_cases h2 : b!"[" <+: ssaClean line
  · exact .inl ⟨_, .heading h2⟩
  by_cases h3 : (58 : Byte) ∈ ssaClean line
  · obtain ⟨a, b, e, hn⟩ := List.eq_append_cons_of_mem h3
    refine .inl ⟨_, .field a b e hn ?_ ?_⟩
    · rintro ⟨r, hr⟩; exact h1 (.inr ⟨r ++ 58 :: b, by rw [e, ← hr]; simp⟩)
    · rintro ⟨r, hr⟩; exact h2 ⟨r ++ 58 :: b, by rw [e, ← hr]; simp⟩
  · exact .inr h3

/-- What a line does, by what is on it. -/
theorem line_entry {line : Str} {e : Option SsaEntry} (h : OnLine line e) (r : SsaRead) : ssaLine r line =
    match e with
    | none => .ok r
    | some (.heading t) => .ok { r with part := (sectionOf t).getD r.part }
    | some (.field type body) =>
      match r.part with
      | .info =>
        if type = b!"PlayResX" then do let x ← rawConvertInt body; pure { r with resX := x }
        else if type = b!"PlayResY" then do let x ← rawConvertInt body; pure { r with resY := x }
        else .ok r
      | .styles =>
        if type = b!"Format" then .ok { r with styleFormat := body }
        else if type = b!"Style" then do
          subAssert (!r.styleFormat.isEmpty)
          let s ← SsaStyle.make r.styleFormat body
          pure { r with styles := (s.name, s) :: r.styles }
        else .ok r
      | .events =>
        if type = b!"Format" then .ok { r with eventFormat := (splitAny isComma body).map trim }
        else if type = b!"Dialogue" then ssaDialogue r body
        else .ok r := by
  unfold ssaLine
  cases h with
  | nothing h =>
    unfold ssaClean at h
    simp only
    rw [if_pos]
    rcases h with h | h
    · exact .inr h
    · exact .inl (startsWith_iff.2 h)
  | heading h =>
    unfold ssaClean at h ⊢
    obtain ⟨x, hx⟩ := h
    simp only
    rw [if_neg, if_pos (startsWith_iff.2 ⟨x, hx⟩)]
    · unfold sectionOf
      by_cases h1 : removeBom (trim line) = b!"[Script Info]"
      · rw [if_pos h1, if_pos h1]; rfl
      rw [if_neg h1, if_neg h1]
      by_cases h2 : removeBom (trim line) = b!"[V4 Styles]" ∨ removeBom (trim line) = b!"[V4+ Styles]"
      · rw [if_pos h2, if_pos h2]; rfl
      rw [if_neg h2, if_neg h2]
      by_cases h3 : removeBom (trim line) = b!"[Events]"
      · rw [if_pos h3, if_pos h3]; rfl
      rw [if_neg h3, if_neg h3]
      rfl
    · rw [← hx]
      rintro (h | h)
      · exact absurd h (by simp [startsWith, List.isPrefixOf])
      · exact absurd h (by simp)
  | field type rest h hc h1 h2 =>
    unfold ssaClean at h
    simp only
    rw [h]
    have e1 : ¬ (startsWith (type ++ 58 :: rest) b!";" = true ∨ type ++ 58 :: rest = []) := by
      rintro (h' | h')
      · cases type with
        | nil => exact absurd h' (by simp [startsWith, List.isPrefixOf])
        | cons c t =>
          refine h1 ⟨t, ?_⟩
          obtain ⟨x, hx⟩ := startsWith_iff.1 h'
          rw [List.cons_append] at hx
          rw [(List.cons.inj hx).1]; rfl
      · simp at h'
    have e2 : ¬ startsWith (type ++ 58 :: rest) b!"[" = true := by
      intro h'
      cases type with
      | nil => exact absurd h' (by simp [startsWith, List.isPrefixOf])
      | cons c t =>
        refine h2 ⟨t, ?_⟩
        obtain ⟨x, hx⟩ := startsWith_iff.1 h'
        rw [List.cons_append] at hx
        rw [(List.cons.inj hx).1]; rfl
    have e3 : (type ++ 58 :: rest).findIdx? (· == 58) = some type.length := by
      rw [List.findIdx?_append]
      have : type.findIdx? (· == 58) = none := by
        rw [List.findIdx?_eq_none_iff]
        intro c hm
        simp only [beq_eq_false_iff_ne, ne_eq]
        rintro rfl
        exact hc hm
      rw [this]
      simp [List.findIdx?_cons]
    have e4 : (type ++ 58 :: rest).take type.length = type := List.take_left
    have e5 : (type ++ 58 :: rest).drop (type.length + 1) = rest := by
      rw [show type ++ 58 :: rest = (type ++ [58]) ++ rest by simp, show type.length + 1 = (type ++ [58]).length by simp, List.drop_left]
    rw [if_neg e1, if_neg e2, e3]
    simp only
    rw [e4, e5]
    cases r.part <;> rfl

theorem line_none {line : Str} (h : ∀ e, ¬ OnLine line e) (r : SsaRead) : ssaLine r line = .error .programming := by
  rcases onLine_cases line with ⟨e, he⟩ | hc
  · exact absurd he (h e)
  unfold ssaLine
  unfold ssaClean at hc
  simp only
  rw [if_neg, if_neg]
  · have : (removeBom (trim line)).findIdx? (· == 58) = none := by
      rw [List.findIdx?_eq_none_iff]
      intro c hm
      simp only [beq_eq_false_iff_ne, ne_eq]
      rintro rfl
      exact hc hm
    rw [this]
  · intro h'; exact h _ (.heading (startsWith_iff.1 h'))
  · rintro (h' | h')
    · exact h _ (.nothing (.inr (startsWith_iff.1 h')))
    · exact h _ (.nothing (.inl h'))

/-! ### What is in force -/

theorem newest_nil {α : Type} (tells : SsaEntry → List SsaEntry → α → Prop) (a : α) : ¬ Newest tells [] a := by
  rintro ⟨n, e, o, h, _⟩
  simp at h

theorem newest_cons {α : Type} (tells : SsaEntry → List SsaEntry → α → Prop) (e : SsaEntry) (past : List SsaEntry) (a : α) :
    Newest tells (e :: past) a ↔ tells e past a ∨ ((∀ a', ¬ tells e past a') ∧ Newest tells past a) := by
  constructor
  · rintro ⟨newer, e', older, h, hs, hn⟩
    cases newer with
    | nil =>
      obtain ⟨rfl, rfl⟩ := List.cons.inj h
      exact .inl hs
    | cons x newer =>
      obtain ⟨rfl, rfl⟩ := List.cons.inj h
      refine .inr ⟨hn [] e newer rfl, newer, e', older, rfl, hs, ?_⟩
      intro n1 e'' n2 hh
      exact hn (e :: n1) e'' n2 (by rw [hh]; rfl)
  · rintro (hs | ⟨h1, newer, e', older, rfl, hs, hn⟩)
    · exact ⟨[], e, past, rfl, hs, fun n1 e' n2 h => by simp at h⟩
    · refine ⟨e :: newer, e', older, rfl, hs, ?_⟩
      intro n1 e'' n2 hh
      cases n1 with
      | nil =>
        obtain ⟨rfl, rfl⟩ := List.cons.inj hh
        exact h1
      | cons y n1 =>
        obtain ⟨_, hh⟩ := List.cons.inj hh
        exact hn n1 e'' n2 hh

theorem setting_cons (e : SsaEntry) (past : List SsaEntry) (sec : SsaPart) (type body : Str) : Setting (e :: past) sec type body ↔
    (e = .field type body ∧ sectionAfter past = sec) ∨ ((∀ b, ¬ (e = .field type b ∧ sectionAfter past = sec)) ∧ Setting past sec type body) := newest_cons _ e past body

/-- A field of the kind. -/
theorem setting_hit (past : List SsaEntry) (sec : SsaPart) (type b body : Str) (h : sectionAfter past = sec) : Setting (.field type b :: past) sec type body ↔ body = b := by
  rw [setting_cons]
  constructor
  · rintro (⟨h1, _⟩ | ⟨h1, _⟩)
    · cases h1; rfl
    · exact absurd ⟨rfl, h⟩ (h1 b)
  · rintro rfl; exact .inl ⟨rfl, h⟩

/-- Any other entry. -/
theorem setting_miss (e : SsaEntry) (past : List SsaEntry) (sec : SsaPart) (type body : Str) (h : ∀ b, e = .field type b → sectionAfter past ≠ sec) :
    Setting (e :: past) sec type body ↔ Setting past sec type body := by
  rw [setting_cons]
  constructor
  · rintro (⟨h1, h2⟩ | ⟨_, h2⟩)
    · exact absurd h2 (h _ h1)
    · exact h2
  · intro h2; exact .inr ⟨fun b hb => h b hb.1 hb.2, h2⟩

theorem side_miss (e : SsaEntry) (past : List SsaEntry) (type : Str) (n : Int) (h : ∀ b, e = .field type b → sectionAfter past ≠ .info) :
    Side (e :: past) type n ↔ Side past type n := by
  unfold Side
  simp only [setting_miss e past .info type _ h]

theorem side_hit (past : List SsaEntry) (type b : Str) (n : Int) (h : sectionAfter past = .info) : Side (.field type b :: past) type n ↔ IntAtStart b n := by
  unfold Side
  simp only [setting_hit past .info type b _ h]
  constructor
  · rintro (⟨_, rfl, h⟩ | ⟨h, _⟩)
    · exact h
    · exact absurd rfl (h b)
  · intro h; exact .inl ⟨b, rfl, h⟩

theorem named_miss (e : SsaEntry) (past : List SsaEntry) (name : Str) (s : SsaStyle) (h : ∀ b, e = .field b!"Style" b → sectionAfter past ≠ .styles) :
    NamedStyle (e :: past) name s ↔ NamedStyle past name s := by
  unfold NamedStyle
  rw [newest_cons]
  constructor
  · rintro (⟨⟨f, b, h1, h2, _⟩, _⟩ | ⟨_, h2⟩)
    · exact absurd h2 (h b h1)
    · exact h2
  · intro h2
    refine .inr ⟨?_, h2⟩
    rintro s' ⟨⟨f, b, h1, h2, _⟩, _⟩
    exact h b h1 h2

/-- What the reader knows is what the entries so far say. -/
structure Knows (r : SsaRead) (past : List SsaEntry) : Prop where
  part : r.part = sectionAfter past
  resX : ∀ n, Side past b!"PlayResX" n ↔ n = r.resX
  resY : ∀ n, Side past b!"PlayResY" n ↔ n = r.resY
  sformat : ∀ f, f ≠ [] → (Setting past .styles b!"Format" f ↔ r.styleFormat = f)
  eformat : ∀ f, Setting past .events b!"Format" f → r.eventFormat = (splitAny isComma f).map trim
  noformat : (∀ f, ¬ Setting past .events b!"Format" f) → r.eventFormat = []
  styles : ∀ n s, NamedStyle past n s ↔ r.styles.lookup n = some s

theorem knows_nil : Knows {} [] where
  part := rfl
  resX n := by
    unfold Side Setting
    constructor
    · rintro (⟨b, h, _⟩ | ⟨_, h⟩)
      · exact absurd h (newest_nil _ _)
      · exact h
    · intro h; exact .inr ⟨fun b => newest_nil _ _, h⟩
  resY n := by
    unfold Side Setting
    constructor
    · rintro (⟨b, h, _⟩ | ⟨_, h⟩)
      · exact absurd h (newest_nil _ _)
      · exact h
    · intro h; exact .inr ⟨fun b => newest_nil _ _, h⟩
  sformat f hf := by
    constructor
    · intro h; exact absurd h (newest_nil _ _)
    · rintro rfl; exact absurd rfl hf
  eformat f h := absurd h (newest_nil _ _)
  noformat _ := rfl
  styles n s := by
    constructor
    · intro h; exact absurd h (newest_nil _ _)
    · intro h; simp at h

/-- An entry that tells nothing about the screen, formats and styles. -/
theorem Knows.plain {r : SsaRead} {past : List SsaEntry} (k : Knows r past) (e : SsaEntry) (subs : List Raw)
    (h : ∀ t b, e = .field t b → (sectionAfter past, t) ∉ [(.info, b!"PlayResX"), (.info, b!"PlayResY"), (.styles, b!"Format"), (.styles, b!"Style"), (.events, b!"Format")]) :
    Knows { r with part := sectionAfter (e :: past), subs := subs } (e :: past) where
  part := rfl
  resX n := by
    rw [side_miss]
    · exact k.resX n
    · rintro b rfl h'; exact h _ _ rfl (by rw [h']; simp)
  resY n := by
    rw [side_miss]
    · exact k.resY n
    · rintro b rfl h'; exact h _ _ rfl (by rw [h']; simp)
  sformat f hf := by
    rw [setting_miss]
    · exact k.sformat f hf
    · rintro b rfl h'; exact h _ _ rfl (by rw [h']; simp)
  eformat f hf := by
    refine k.eformat f ((setting_miss e past _ _ _ ?_).1 hf)
    rintro b rfl h'; exact h _ _ rfl (by rw [h']; simp)
  noformat hf := by
    refine k.noformat (fun f hf' => hf f ((setting_miss e past _ _ _ ?_).2 hf'))
    rintro b rfl h'; exact h _ _ rfl (by rw [h']; simp)
  styles n s := by
    rw [named_miss]
    · exact k.styles n s
    · rintro b rfl h'; exact h _ _ rfl (by rw [h']; simp)

theorem Knows.keep {r : SsaRead} {past : List SsaEntry} (k : Knows r past) (t b : Str) (subs : List Raw)
    (h : (sectionAfter past, t) ∉ [(.info, b!"PlayResX"), (.info, b!"PlayResY"), (.styles, b!"Format"), (.styles, b!"Style"), (.events, b!"Format")]) :
    Knows { r with subs := subs } (.field t b :: past) := by
  have := k.plain (.field t b) subs (by rintro t' b' e; cases e; exact h)
  rw [show sectionAfter (.field t b :: past) = r.part from k.part.symm] at this
  exact this

theorem Knows.playResX {r : SsaRead} {past : List SsaEntry} (k : Knows r past) (b : Str) (x : Int) (hs : sectionAfter past = .info) (hx : IntAtStart b x) :
    Knows { r with resX := x } (.field b!"PlayResX" b :: past) where
  part := k.part
  resX n := by
    rw [side_hit _ _ _ _ hs]
    constructor
    · intro h
      have h1 := (C117_int b n).2 h
      rw [(C117_int b x).2 hx] at h1
      exact (Except.ok.inj h1).symm
    · rintro rfl; exact hx
  resY n := by rw [side_miss _ _ _ _ (by rintro b' e; exact absurd (SsaEntry.field.inj e).1 (by decide))]; exact k.resY n
  sformat f hf := by rw [setting_miss _ _ _ _ _ (by rintro b' e; exact absurd (SsaEntry.field.inj e).1 (by decide))]; exact k.sformat f hf
  eformat f hf := k.eformat f ((setting_miss _ _ _ _ _ (by rintro b' e; exact absurd (SsaEntry.field.inj e).1 (by decide))).1 hf)
  noformat hf := k.noformat (fun f hf' => hf f ((setting_miss _ _ _ _ _ (by rintro b' e; exact absurd (SsaEntry.field.inj e).1 (by decide))).2 hf'))
  styles n s := by rw [named_miss _ _ _ _ (by rintro b' e; exact absurd (SsaEntry.field.inj e).1 (by decide))]; exact k.styles n s

theorem Knows.playResY {r : SsaRead} {past : List SsaEntry} (k : Knows r past) (b : Str) (x : Int) (hs : sectionAfter past = .info) (hx : IntAtStart b x) :
    Knows { r with resY := x } (.field b!"PlayResY" b :: past) where
  part := k.part
  resX n := by rw [side_miss _ _ _ _ (by rintro b' e; exact absurd (SsaEntry.field.inj e).1 (by decide))]; exact k.resX n
  resY n := by
    rw [side_hit _ _ _ _ hs]
    constructor
    · intro h
      have h1 := (C117_int b n).2 h
      rw [(C117_int b x).2 hx] at h1
      exact (Except.ok.inj h1).symm
    · rintro rfl; exact hx
  sformat f hf := by rw [setting_miss _ _ _ _ _ (by rintro b' e; exact absurd (SsaEntry.field.inj e).1 (by decide))]; exact k.sformat f hf
  eformat f hf := k.eformat f ((setting_miss _ _ _ _ _ (by rintro b' e; exact absurd (SsaEntry.field.inj e).1 (by decide))).1 hf)
  noformat hf := k.noformat (fun f hf' => hf f ((setting_miss _ _ _ _ _ (by rintro b' e; exact absurd (SsaEntry.field.inj e).1 (by decide))).2 hf'))
  styles n s := by rw [named_miss _ _ _ _ (by rintro b' e; exact absurd (SsaEntry.field.inj e).1 (by decide))]; exact k.styles n s

theorem Knows.styleFormat {r : SsaRead} {past : List SsaEntry} (k : Knows r past) (b : Str) (hs : sectionAfter past = .styles) :
    Knows { r with styleFormat := b } (.field b!"Format" b :: past) where
  part := k.part
  resX n := by rw [side_miss _ _ _ _ (by rintro b' e; exact absurd (SsaEntry.field.inj e).1 (by decide))]; exact k.resX n
  resY n := by rw [side_miss _ _ _ _ (by rintro b' e; exact absurd (SsaEntry.field.inj e).1 (by decide))]; exact k.resY n
  sformat f hf := by rw [setting_hit _ _ _ _ _ hs]; exact eq_comm
  eformat f hf := k.eformat f ((setting_miss _ _ _ _ _ (by rintro b' e; rw [hs]; simp)).1 hf)
  noformat hf := k.noformat (fun f hf' => hf f ((setting_miss _ _ _ _ _ (by rintro b' e; rw [hs]; simp)).2 hf'))
  styles n s := by rw [named_miss _ _ _ _ (by rintro b' e; exact absurd (SsaEntry.field.inj e).1 (by decide))]; exact k.styles n s

theorem Knows.eventFormat {r : SsaRead} {past : List SsaEntry} (k : Knows r past) (b : Str) (hs : sectionAfter past = .events) :
    Knows { r with eventFormat := (splitAny isComma b).map trim } (.field b!"Format" b :: past) where
  part := k.part
  resX n := by rw [side_miss _ _ _ _ (by rintro b' e; exact absurd (SsaEntry.field.inj e).1 (by decide))]; exact k.resX n
  resY n := by rw [side_miss _ _ _ _ (by rintro b' e; exact absurd (SsaEntry.field.inj e).1 (by decide))]; exact k.resY n
  sformat f hf := by rw [setting_miss _ _ _ _ _ (by rintro b' e; rw [hs]; simp)]; exact k.sformat f hf
  eformat f hf := by rw [(setting_hit _ _ _ _ _ hs).1 hf]
  noformat hf := absurd ((setting_hit past .events b!"Format" b b hs).2 rfl) (hf b)
  styles n s := by rw [named_miss _ _ _ _ (by rintro b' e; exact absurd (SsaEntry.field.inj e).1 (by decide))]; exact k.styles n s

theorem styleEntry_make {r : SsaRead} {past : List SsaEntry} (k : Knows r past) (b : Str) (s : SsaStyle) (hs : sectionAfter past = .styles) :
    StyleEntry (.field b!"Style" b) past s ↔ r.styleFormat ≠ [] ∧ SsaStyle.make r.styleFormat b = .ok s := by
  unfold StyleEntry
  constructor
  · rintro ⟨f, b', e, _, h1, h2, h3⟩
    cases e
    rw [(k.sformat f h2).1 h1]
    exact ⟨h2, (C118_style _ _ _).2 h3⟩
  · rintro ⟨h1, h2⟩
    exact ⟨r.styleFormat, b, rfl, hs, (k.sformat _ h1).2 rfl, h1, (C118_style _ _ _).1 h2⟩

theorem Knows.style {r : SsaRead} {past : List SsaEntry} (k : Knows r past) (b : Str) (s : SsaStyle) (hs : sectionAfter past = .styles)
    (hx : StyleEntry (.field b!"Style" b) past s) : Knows { r with styles := (s.name, s) :: r.styles } (.field b!"Style" b :: past) where
  part := k.part
  resX n := by rw [side_miss _ _ _ _ (by rintro b' e; exact absurd (SsaEntry.field.inj e).1 (by decide))]; exact k.resX n
  resY n := by rw [side_miss _ _ _ _ (by rintro b' e; exact absurd (SsaEntry.field.inj e).1 (by decide))]; exact k.resY n
  sformat f hf := by rw [setting_miss _ _ _ _ _ (by rintro b' e; exact absurd (SsaEntry.field.inj e).1 (by decide))]; exact k.sformat f hf
  eformat f hf := k.eformat f ((setting_miss _ _ _ _ _ (by rintro b' e; exact absurd (SsaEntry.field.inj e).1 (by decide))).1 hf)
  noformat hf := k.noformat (fun f hf' => hf f ((setting_miss _ _ _ _ _ (by rintro b' e; exact absurd (SsaEntry.field.inj e).1 (by decide))).2 hf'))
  styles n s' := by
    have uniq : ∀ s', StyleEntry (.field b!"Style" b) past s' → s' = s := by
      intro s' h
      have h1 := ((styleEntry_make k b s' hs).1 h).2
      rw [((styleEntry_make k b s hs).1 hx).2] at h1
      exact (Except.ok.inj h1).symm
    unfold NamedStyle
    rw [newest_cons, List.lookup_cons]
    by_cases hn : n = s.name
    · subst hn
      simp only [beq_self_eq_true]
      constructor
      · rintro (⟨h, _⟩ | ⟨h, _⟩)
        · rw [uniq s' h]
        · exact absurd ⟨hx, rfl⟩ (h s)
      · intro h; cases h; exact .inl ⟨hx, rfl⟩
    · have e : (n == s.name) = false := by simpa using hn
      simp only [e]
      constructor
      · rintro (⟨h, h'⟩ | ⟨_, h⟩)
        · rw [uniq s' h] at h'; exact absurd h'.symm hn
        · exact (k.styles n s').1 h
      · intro h
        refine .inr ⟨?_, (k.styles n s').2 h⟩
        rintro s'' ⟨h1, h2⟩
        rw [uniq s'' h1] at h2
        exact hn h2.symm

/-! ### Lines in a file -/

/-- A line that is accepted. -/
theorem line_step {r r' : SsaRead} {past : List SsaEntry} (k : Knows r past) {l : Str} (h : ssaLine r l = .ok r') :
    (OnLine l none ∧ r' = r) ∨ (∃ e, OnLine l (some e) ∧ Quiet past e ∧ Knows r' (e :: past) ∧ r'.subs = r.subs) ∨
      (∃ b f w g subs, OnLine l (some (.field b!"Dialogue" b)) ∧ sectionAfter past = .events ∧ Setting past .events b!"Format" f ∧ Side past b!"PlayResX" w ∧ Side past b!"PlayResY" g ∧
        DialogueMeans w g (NamedStyle past) f b subs ∧ Knows r' (.field b!"Dialogue" b :: past) ∧ r'.subs = r.subs ++ subs) := by
  by_cases ho : ∃ e, OnLine l e
  swap
  · rw [line_none (fun e he => ho ⟨e, he⟩) r] at h; cases h
  obtain ⟨e, he⟩ := ho
  rw [line_entry he r] at h
  cases e with
  | none => cases h; exact .inl ⟨he, rfl⟩
  | some e =>
    right
    cases e with
    | heading t =>
      left
      simp only at h
      cases h
      refine ⟨_, he, .heading t, ?_, rfl⟩
      have := k.plain (.heading t) r.subs (by rintro t' b e; cases e)
      rw [show sectionAfter (.heading t :: past) = (sectionOf t).getD r.part by rw [k.part]; rfl] at this
      exact this
    | field t b =>
      simp only at h
      cases hp : r.part with
      | info =>
        have hs : sectionAfter past = .info := by rw [← k.part, hp]
        rw [hp] at h
        simp only at h
        left
        rcases ite_cases h with ⟨e, g⟩ | ⟨n1, h⟩
        · subst e
          obtain ⟨x, g1, g2⟩ := bind_eq_ok.1 g
          cases g2
          have hx := (C117_int _ _).1 g1
          exact ⟨_, he, .side _ _ x (.inl rfl) hx, by have := k.playResX b x hs hx; rw [hp] at this; exact this, rfl⟩
        rcases ite_cases h with ⟨e, g⟩ | ⟨n2, h⟩
        · subst e
          obtain ⟨x, g1, g2⟩ := bind_eq_ok.1 g
          cases g2
          have hx := (C117_int _ _).1 g1
          exact ⟨_, he, .side _ _ x (.inr rfl) hx, by have := k.playResY b x hs hx; rw [hp] at this; exact this, rfl⟩
        · cases h
          exact ⟨_, he, .other _ _ (by rw [hs]; simp [n1, n2]), k.keep t b r.subs (by rw [hs]; simp [n1, n2]), rfl⟩
      | styles =>
        have hs : sectionAfter past = .styles := by rw [← k.part, hp]
        rw [hp] at h
        simp only at h
        left
        rcases ite_cases h with ⟨e, g⟩ | ⟨n1, h⟩
        · subst e
          cases g
          exact ⟨_, he, .other _ _ (by rw [hs]; decide), by have := k.styleFormat b hs; rw [hp] at this; exact this, rfl⟩
        rcases ite_cases h with ⟨e, g⟩ | ⟨n2, h⟩
        · subst e
          obtain ⟨_, g0, g⟩ := bind_eq_ok.1 g
          obtain ⟨s, g1, g2⟩ := bind_eq_ok.1 g
          cases g2
          have h0 : r.styleFormat ≠ [] := by
            intro h0
            rw [h0] at g0
            cases g0
          have hx := (styleEntry_make k b s hs).2 ⟨h0, g1⟩
          exact ⟨_, he, .style _ s hx, by have := k.style b s hs hx; rw [hp] at this; exact this, rfl⟩
        · cases h
          exact ⟨_, he, .other _ _ (by rw [hs]; simp [n2]), k.keep t b r.subs (by rw [hs]; simp [n1, n2]), rfl⟩
      | events =>
        have hs : sectionAfter past = .events := by rw [← k.part, hp]
        rw [hp] at h
        simp only at h
        rcases ite_cases h with ⟨e, g⟩ | ⟨n1, h⟩
        · subst e
          cases g
          exact .inl ⟨_, he, .other _ _ (by rw [hs]; decide), by have := k.eventFormat b hs; rw [hp] at this; exact this, rfl⟩
        rcases ite_cases h with ⟨e, g⟩ | ⟨n2, h⟩
        · subst e
          by_cases hf : ∃ f, Setting past .events b!"Format" f
          · obtain ⟨f, hf⟩ := hf
            obtain ⟨subs, h1, rfl⟩ := (C118_dialogue r r' f b (k.eformat f hf)).1 g
            refine .inr ⟨b, f, r.resX, r.resY, subs, he, hs, hf, (k.resX _).2 rfl, (k.resY _).2 rfl, ?_, k.keep _ b _ (by rw [hs]; decide), rfl⟩
            have e : r.named = NamedStyle past := by
              funext n s
              exact propext (k.styles n s).symm
            rw [← e]
            exact h1
          · have h0 := k.noformat (fun f hf' => hf ⟨f, hf'⟩)
            unfold ssaDialogue at g
            rw [h0] at g
            cases g
        · cases h
          exact .inl ⟨_, he, .other _ _ (by rw [hs]; simp [n2]), k.keep t b r.subs (by rw [hs]; simp [n1]), rfl⟩

theorem lines_sound {past : List SsaEntry} {r : SsaRead} (k : Knows r past) {ls : List Str} {r' : SsaRead} (h : ssaLines r ls = .ok r') :
    ∃ subs, SsaFile past ls subs ∧ r'.subs = r.subs ++ subs := by
  induction ls generalizing r past with
  | nil => cases h; exact ⟨[], .done _, by simp⟩
  | cons l ls ih =>
    obtain ⟨r1, h1, h2⟩ := bind_eq_ok.1 h
    rcases line_step k h1 with ⟨ho, rfl⟩ | ⟨e, ho, hq, hk, hs⟩ | ⟨b, f, w, g, subs, ho, hse, hf, hw, hg, hd, hk, hs⟩
    · obtain ⟨subs, h3, h4⟩ := ih k h2
      exact ⟨subs, .nothing _ _ _ _ ho h3, h4⟩
    · obtain ⟨subs, h3, h4⟩ := ih hk h2
      exact ⟨subs, .quiet _ _ e _ _ ho hq h3, by rw [h4, hs]⟩
    · obtain ⟨subs', h3, h4⟩ := ih hk h2
      exact ⟨subs ++ subs', .dialogue _ _ b f w g _ _ _ ho hse hf hw hg hd h3, by rw [h4, hs, List.append_assoc]⟩

theorem onLine_unique {l : Str} {e e' : Option SsaEntry} (h : OnLine l e) (h' : OnLine l e') : e = e' := by
  have pre : ∀ (x : Byte) (t r : Str), x ≠ 58 → [x] <+: t ++ 58 :: r → [x] <+: t := by
    intro x t r hx hp
    obtain ⟨y, hy⟩ := hp
    cases t with
    | nil => exact absurd (List.cons.inj hy).1 hx
    | cons c t => exact ⟨t, by rw [(List.cons.inj hy).1]; rfl⟩
  cases h with
  | nothing h =>
    cases h' with
    | nothing => rfl
    | heading h' =>
      obtain ⟨y, hy⟩ := h'
      rw [← hy] at h
      rcases h with h | ⟨z, hz⟩
      · cases h
      · exact absurd (List.cons.inj hz).1 (by decide)
    | field t r h1 h2 h3 h4 =>
      rw [h1] at h
      rcases h with h | h
      · simp at h
      · exact absurd (pre _ _ _ (by decide) h) h3
  | heading h =>
    cases h' with
    | nothing h' =>
      obtain ⟨y, hy⟩ := h
      rw [← hy] at h'
      rcases h' with h' | ⟨z, hz⟩
      · cases h'
      · exact absurd (List.cons.inj hz).1 (by decide)
    | heading h' => rfl
    | field t r h1 h2 h3 h4 => rw [h1] at h; exact absurd (pre _ _ _ (by decide) h) h4
  | field t r h1 h2 h3 h4 =>
    cases h' with
    | nothing h' =>
      rw [h1] at h'
      rcases h' with h' | h'
      · simp at h'
      · exact absurd (pre _ _ _ (by decide) h') h3
    | heading h' => rw [h1] at h'; exact absurd (pre _ _ _ (by decide) h') h4
    | field t' r' h1' h2' h3' h4' =>
      rw [h1] at h1'
      have : t = t' ∧ r = r' := by
        rcases List.append_eq_append_iff.1 h1' with ⟨z, hz, hz2⟩ | ⟨z, hz, hz2⟩
        · cases z with
          | nil => exact ⟨by rw [hz]; simp, (List.cons.inj hz2).2⟩
          | cons c z =>
            have := (List.cons.inj hz2).1
            subst this
            exact absurd (by rw [hz]; simp) h2'
        · cases z with
          | nil => exact ⟨by rw [hz]; simp, (List.cons.inj hz2).2.symm⟩
          | cons c z =>
            have := (List.cons.inj hz2).1
            subst this
            exact absurd (by rw [hz]; simp) h2
      rw [this.1, this.2]

theorem quiet_ok {past : List SsaEntry} {r : SsaRead} (k : Knows r past) {l : Str} {e : SsaEntry} (ho : OnLine l (some e)) (hq : Quiet past e) :
    ∃ r', ssaLine r l = .ok r' ∧ r'.subs = r.subs := by
  rw [line_entry ho r]
  cases hq with
  | heading t => exact ⟨_, rfl, rfl⟩
  | side t b n ht hn =>
    simp only
    cases hp : r.part with
    | info =>
      simp only
      rcases ht with rfl | rfl
      · rw [if_pos rfl, (C117_int _ _).2 hn]; exact ⟨_, rfl, rfl⟩
      · rw [if_neg (by decide), if_pos rfl, (C117_int _ _).2 hn]; exact ⟨_, rfl, rfl⟩
    | styles => rcases ht with rfl | rfl <;> exact ⟨r, rfl, rfl⟩
    | events => rcases ht with rfl | rfl <;> exact ⟨r, rfl, rfl⟩
  | style b s hx =>
    have hs : sectionAfter past = .styles := by obtain ⟨_, _, _, h, _⟩ := hx; exact h
    obtain ⟨h1, h2⟩ := (styleEntry_make k b s hs).1 hx
    simp only
    rw [show r.part = .styles by rw [k.part, hs]]
    simp only
    have e : (!r.styleFormat.isEmpty) = true := by
      cases hf : r.styleFormat with
      | nil => exact absurd hf h1
      | cons a t => rfl
    rw [if_neg (by decide), if_pos trivial, e, h2]
    exact ⟨_, rfl, rfl⟩
  | other t b hn =>
    simp only
    rw [← k.part] at hn
    cases hp : r.part with
    | info =>
      rw [hp] at hn
      simp only [List.mem_cons, Prod.mk.injEq, List.not_mem_nil, or_false, not_or, true_and] at hn
      simp only
      rw [if_neg hn.1, if_neg hn.2.1]
      exact ⟨r, rfl, rfl⟩
    | styles =>
      rw [hp] at hn
      have n2 : t ≠ b!"Style" := by rintro rfl; exact hn (by simp)
      simp only
      rw [if_neg n2]
      by_cases hf : t = b!"Format"
      · rw [if_pos hf]; exact ⟨_, rfl, rfl⟩
      · rw [if_neg hf]; exact ⟨r, rfl, rfl⟩
    | events =>
      rw [hp] at hn
      have n2 : t ≠ b!"Dialogue" := by rintro rfl; exact hn (by simp)
      simp only
      rw [if_neg n2]
      by_cases hf : t = b!"Format"
      · rw [if_pos hf]; exact ⟨_, rfl, rfl⟩
      · rw [if_neg hf]; exact ⟨r, rfl, rfl⟩

theorem lines_complete {past : List SsaEntry} {ls : List Str} {subs : List Raw} (h : SsaFile past ls subs) {r : SsaRead} (k : Knows r past) :
    ∃ r', ssaLines r ls = .ok r' ∧ r'.subs = r.subs ++ subs := by
  induction h generalizing r with
  | done past => exact ⟨r, rfl, by simp⟩
  | nothing past l ls subs ho _ ih =>
    obtain ⟨r', h1, h2⟩ := ih k
    refine ⟨r', ?_, h2⟩
    rw [ssaLines, line_entry ho r]
    exact h1
  | quiet past l e ls subs ho hq _ ih =>
    obtain ⟨r1, h1, h2⟩ := quiet_ok k ho hq
    have k1 : Knows r1 (e :: past) := by
      rcases line_step k h1 with ⟨ho', _⟩ | ⟨e', ho', _, hk, _⟩ | ⟨b, f, w, g, subs, ho', _, _, _, _, _, hk, _⟩
      · exact absurd (onLine_unique ho ho') (by simp)
      · cases onLine_unique ho ho'; exact hk
      · cases onLine_unique ho ho'; exact hk
    obtain ⟨r', h3, h4⟩ := ih k1
    exact ⟨r', by rw [ssaLines, h1]; exact h3, by rw [h4, h2]⟩
  | dialogue past l b f w g ls subs subs' ho hs hf hw hg hd _ ih =>
    have e : r.named = NamedStyle past := by
      funext n s
      exact propext (k.styles n s).symm
    have ew := (k.resX w).1 hw
    have eg := (k.resY g).1 hg
    subst ew eg
    rw [← e] at hd
    have h1 : ssaLine r l = .ok { r with subs := r.subs ++ subs } := by
      rw [line_entry ho r]
      have hp : r.part = .events := by rw [k.part, hs]
      simp only [hp]
      rw [if_neg (by decide), if_pos trivial]
      have h := (C118_dialogue r _ f b (k.eformat f hf)).2 ⟨subs, hd, rfl⟩
      rw [h]
      simp only [hp]
    obtain ⟨r', h3, h4⟩ := ih (k.keep b!"Dialogue" b (r.subs ++ subs) (by rw [hs]; decide))
    exact ⟨r', by rw [ssaLines, h1]; exact h3, by rw [h4]; simp⟩

/-! ### C118 -/

/-- C118: what the lines of an SSA file mean. -/
theorem C118_exact (lines : List Str) (subs : List Raw) : ssaReadLines lines = .ok subs ↔ SsaFile [] lines subs := by
  unfold ssaReadLines
  constructor
  · intro h
    cases hr : ssaLines {} lines with
    | error e => rw [hr] at h; cases h
    | ok r =>
      rw [hr] at h
      obtain ⟨s, h1, h2⟩ := lines_sound knows_nil hr
      have h : r.subs = subs := Except.ok.inj h
      rw [← h, h2]
      simpa using h1
  · intro h
    obtain ⟨r, h1, h2⟩ := lines_complete h knows_nil
    rw [h1]
    show Except.ok r.subs = _
    rw [h2]
    simp

example : ∀ subs, ¬ SsaFile [] [b!"[Events]", b!"no colon here"] subs := fun subs h => by
  have := (C118_exact _ _).2 h
  rw [show ssaReadLines [b!"[Events]", b!"no colon here"] = .error .programming by decide +kernel] at this
  cases this

/-- C118: what a text means as SSA. -/
theorem C118_string (s : Str) (subs : List Raw) : ssaReadString s = .ok subs ↔ SsaFile [] (linesOfString s) subs := by
  rw [← C118_exact]
  unfold ssaReadString ssaReadLines
  cases ssaLines {} (linesOfString s) <;> exact Iff.rfl

/-- C118: what an SSA file means. -/
theorem C118_file (s : Str) (subs : List Raw) : ssaReadFile s = .ok subs ↔ SsaFile [] (linesOfFile s) subs := by
  rw [← C118_exact]
  unfold ssaReadFile ssaReadLines
  cases ssaLines {} (linesOfFile s) <;> exact Iff.rfl

/-- A file in which a style is defined twice. -/
private def exSsa : Str := b!"\uFEFF[Script Info]\n; comment\nPlayResY: 480\n[V4+ Styles]\nFormat: Name, Bold\nStyle: A,-1\nStyle: A,0\n[Other]\n[Events]\nFormat: Start, End, Style, Text\nDialogue: 0:00:01.00,0:00:02.00,A,Hello, world\n"

example : ∃ subs, SsaFile [] (linesOfString exSsa) subs ∧ subs.map (fun s => (s.text, s.bold)) = [(b!"Hello, world", false)] :=
  ⟨(ssaReadString exSsa).toOption.getD [], (C118_string _ _).1 (by decide +kernel), by decide +kernel⟩

example : ∃ subs, SsaFile [] (linesOfFile exSsa) subs ∧ subs.map (fun s => (s.text, s.bold)) = [(b!"Hello, world", false)] :=
  ⟨(ssaReadFile exSsa).toOption.getD [], (C118_file _ _).1 (by decide +kernel), by decide +kernel⟩

/-- C118: a file means one thing at most. -/
theorem C118_unique (lines : List Str) (a b : List Raw) (ha : SsaFile [] lines a) (hb : SsaFile [] lines b) : a = b := by
  have h1 := (C118_exact lines a).2 ha
  rw [(C118_exact lines b).2 hb] at h1
  exact (Except.ok.inj h1).symm

example : SsaFile [] (linesOfString exSsa) ((ssaReadString exSsa).toOption.getD []) := (C118_string _ _).1 (by decide +kernel)

/-- C118: the text on a line: without white space at either end and without a byte order mark. -/
theorem C118_clean (line t : Str) : ssaClean line = t ↔
    ∃ a core b, line = a ++ core ++ b ∧ (∀ c ∈ a ++ b, isBlank c) ∧ (∀ c ∈ core.head?, ¬ isBlank c) ∧ (∀ c ∈ core.getLast?, ¬ isBlank c) ∧
      (core = b!"\uFEFF" ++ t ∨ (¬ b!"\uFEFF" <+: core ∧ core = t)) := by
  have hbom : ∀ core : Str, removeBom core = t ↔ (core = b!"\uFEFF" ++ t ∨ (¬ b!"\uFEFF" <+: core ∧ core = t)) := by
    intro core
    by_cases h : b!"\uFEFF" <+: core
    · obtain ⟨r, rfl⟩ := h
      have e : removeBom (b!"\uFEFF" ++ r) = r := rfl
      rw [e]
      constructor
      · rintro rfl; exact .inl rfl
      · rintro (h | ⟨h, _⟩)
        · exact List.append_cancel_left h
        · exact absurd ⟨r, rfl⟩ h
    · have e : removeBom core = core := by
        unfold removeBom
        split
        · rename_i r; exact absurd ⟨r, rfl⟩ h
        · rfl
      rw [e]
      constructor
      · intro h'; exact .inr ⟨h, h'⟩
      · rintro (h' | ⟨_, h'⟩)
        · exact absurd ⟨t, h'.symm⟩ h
        · exact h'
  have hnb : ∀ c : Byte, isSpace c = false ↔ ¬ isBlank c := by
    intro c
    rw [← isBlank_iff]
    simp
  have ht : ∀ core, trim line = core ↔ ∃ a b, line = a ++ core ++ b ∧ (∀ c ∈ a ++ b, isBlank c) ∧ (∀ c ∈ core.head?, ¬ isBlank c) ∧ (∀ c ∈ core.getLast?, ¬ isBlank c) := by
    intro core
    constructor
    · rintro rfl
      obtain ⟨a, b, h1, h2, h3⟩ := trim_parts line
      refine ⟨a, b, h1, ?_, ?_, ?_⟩
      · intro c hc
        rcases List.mem_append.1 hc with hc | hc
        · exact (isBlank_iff c).1 (h2 c hc)
        · exact (isBlank_iff c).1 (h3 c hc)
      · intro c hc
        exact (hnb c).1 ((trim_trimmed line).1 c hc)
      · intro c hc
        exact (hnb c).1 ((trim_trimmed line).2 c hc)
    · rintro ⟨a, b, rfl, h1, h2, h3⟩
      exact trim_around (fun c hc => (isBlank_iff c).2 (h1 c (by simp [hc]))) (fun c hc => (isBlank_iff c).2 (h1 c (by simp [hc])))
        ⟨fun c hc => (hnb c).2 (h2 c hc), fun c hc => (hnb c).2 (h3 c hc)⟩
  unfold ssaClean
  rw [hbom]
  constructor
  · intro h
    obtain ⟨a, b, h1, h2, h3, h4⟩ := (ht (trim line)).1 rfl
    exact ⟨a, trim line, b, h1, h2, h3, h4, h⟩
  · rintro ⟨a, core, b, h1, h2, h3, h4, h⟩
    rw [(ht core).2 ⟨a, b, h1, h2, h3, h4⟩]
    exact h

example : ssaClean b!" \uFEFFFormat: \r\n" = b!"Format:" := (C118_clean _ _).2 ⟨b!" ", b!"\uFEFFFormat:", b!" \r\n", rfl, by simp [isBlank], by simp [isBlank], by simp [isBlank], .inl rfl⟩

end LibSub
