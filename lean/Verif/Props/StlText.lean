/-
Properties C37–C41, and C27 for STL text: textual STL files.
-/
import Verif.Model.StlText
import Verif.Props.SubRipFile

namespace LibSub

/-! ### Specification of the file format -/

/-- What a textual STL file says, in order: times of a subtitle, text, line breaks, toggles of a face, and settings. -/
inductive Ev where
  | times (from_ to_ : Time)
  | text (s : Str)
  | bar
  | toggle (f : Face)
  | setFace (f : Face) (on : Bool)
  | setFont (name : Str)
  | setSize (pts : Int)
  deriving DecidableEq

/-- The value that an event sets a face to. -/
def Ev.faceSet (f : Face) : Ev → Option Bool
  | .setFace g on => if g = f then some on else none
  | _ => none

/-- Is it some text? -/
def Ev.isText : Ev → Bool
  | .text _ => true
  | _ => false

/-- The events after the last one satisfying `p`. -/
def after (p : Ev → Bool) (hist : List Ev) : List Ev := (hist.reverse.takeWhile (fun e => !p e)).reverse

/-- The last value of something. -/
def latest {α : Type} (p : Ev → Option α) (hist : List Ev) : Option α := hist.reverse.findSome? p

/-- The state of a face: as last set (off if never set), inverted once for each toggle since. -/
def faceNow (f : Face) (hist : List Ev) : Bool :=
  ((latest (Ev.faceSet f) hist).getD false).xor (decide ((after (fun e => (e.faceSet f).isSome) hist).count (.toggle f) % 2 = 1))

/-- The number of line breaks since the last text. -/
def barsSinceText (hist : List Ev) : Nat := (after Ev.isText hist).count .bar

/-- The times last given. -/
def timesNow (hist : List Ev) : Time × Time := (latest (fun e => match e with | .times f t => some (f, t) | _ => none) hist).getD ({}, {})

/-- The font last set. -/
def fontNow (hist : List Ev) : Option Str := latest (fun e => match e with | .setFont n => some n | _ => none) hist

/-- The font size last set. -/
def sizeNow (hist : List Ev) : Option Int := latest (fun e => match e with | .setSize n => some n | _ => none) hist

/-- The subtitle for text after the given events. -/
def evRaw (hist : List Ev) (s : Str) : Raw :=
  { text := s, font := fontNow hist, fontSize := { pts := sizeNow hist }, bold := faceNow .bold hist, italic := faceNow .italic hist, underline := faceNow .underline hist, vpos := { line := some (barsSinceText hist : Int), ref := some .topOfSubtitle }, from_ := (timesNow hist).1, to_ := (timesNow hist).2 }

/-- The subtitles for the texts among `evs`, which come after `hist`. -/
def evRaws (hist : List Ev) : List Ev → List Raw
  | [] => []
  | .text s :: r => evRaw hist s :: evRaws (hist ++ [.text s]) r
  | e :: r => evRaws (hist ++ [e]) r

/-- Parts of the text of a subtitle. -/
inductive TTok where
  | text (s : Str)
  /-- `|` -/
  | bar
  /-- `^B`, `^I`, `^U` -/
  | toggle (f : Face)
  /-- `^` and any other byte -/
  | other (c : Byte)

/-- The letter of a face. -/
def faceByte : Face → Byte
  | .bold => 66
  | .italic => 73
  | .underline => 85

/-- How it is written. -/
def TTok.render : TTok → Str
  | .text s => s
  | .bar => b!"|"
  | .toggle f => [94, faceByte f]
  | .other c => [94, c]

/-- What it says. -/
def TTok.events : TTok → List Ev
  | .text s => [.text s]
  | .bar => [.bar]
  | .toggle f => [.toggle f]
  | .other _ => []

/-- The text as written. -/
def toksText (ts : List TTok) : Str := (ts.map TTok.render).flatten

/-- No empty text and no text directly after text; `|` and `^` do not occur in text. -/
def ValidToks : List TTok → Prop
  | [] => True
  | .text s :: r => s ≠ [] ∧ (∀ c ∈ s, c ≠ 124 ∧ c ≠ 94 ∧ c ≠ 10) ∧ (∀ s' r', r ≠ .text s' :: r') ∧ ValidToks r
  | .other c :: r => (c ≠ 66 ∧ c ≠ 73 ∧ c ≠ 85 ∧ c ≠ 10) ∧ ValidToks r
  | _ :: r => ValidToks r

/-- Settings. -/
inductive TVar where
  | font (name : Str)
  | face (f : Face) (value : Str)
  | size (pad n : Nat)
  | other (name value : Str)

/-- The names of the face settings. -/
def faceVar : Face → Str
  | .bold => b!"$Bold"
  | .italic => b!"$Italic"
  | .underline => b!"$Underlined"

/-- Its name. -/
def TVar.name : TVar → Str
  | .font _ => b!"$FontName"
  | .face f _ => faceVar f
  | .size _ _ => b!"$FontSize"
  | .other n _ => n

/-- Its value. -/
def TVar.value : TVar → Str
  | .font v => v
  | .face _ v => v
  | .size pad n => List.replicate pad 48 ++ decSpec n
  | .other _ v => v

/-- What it says: a face is on exactly if its value is "True". -/
def TVar.events : TVar → List Ev
  | .font v => [.setFont v]
  | .face f v => [.setFace f (decide (v = b!"True"))]
  | .size _ n => [.setSize n]
  | .other _ _ => []

/-- White space at neither end. -/
def Trimmed (s : Str) : Prop := (∀ c, s.head? = some c → isSpace c = false) ∧ ∀ c, s.getLast? = some c → isSpace c = false

/-- A setting that can be written. -/
def TVar.Valid (v : TVar) : Prop :=
  Trimmed v.name ∧ Trimmed v.value ∧ v.value ≠ [] ∧ (∀ c ∈ v.value, c ≠ 61 ∧ c ≠ 10) ∧ (∀ c ∈ v.name, c ≠ 61 ∧ c ≠ 10) ∧
  match v with
  | .size _ n => n < 2 ^ 31
  | .other n _ => n.head? = some 36 ∧ n ∉ [b!"$FontName", b!"$Bold", b!"$Italic", b!"$Underlined", b!"$FontSize"]
  | _ => True

/-- A line of the file. -/
inductive TItem where
  /-- a comment, or a line without commas which is no setting -/
  | ignored (s : Str)
  /-- a setting, with spaces around the `=` -/
  | var (v : TVar) (sp1 sp2 : Nat)
  /-- times and text of a subtitle, with spaces: at least one before the first comma -/
  | sub (from_ to_ : Stamp) (sp1 sp2 sp3 : Nat) (text : List TTok)

/-- How it is written, without indentation. -/
def TItem.core : TItem → Str
  | .ignored s => s
  | .var v sp1 sp2 => v.name ++ List.replicate sp1 32 ++ b!"=" ++ List.replicate sp2 32 ++ v.value
  | .sub f t sp1 sp2 sp3 ts =>
    f.text 58 ++ List.replicate (sp1 + 1) 32 ++ b!"," ++ List.replicate sp2 32 ++ t.text 58 ++ List.replicate sp3 32 ++ b!"," ++ toksText ts

/-- The time written, which has no frame rate. -/
def Stamp.frameTime (t : Stamp) : Time := ⟨3600 * t.h + 60 * t.m + t.s, t.ms, none⟩

/-- What it says. -/
def TItem.events : TItem → List Ev
  | .ignored _ => []
  | .var v _ _ => v.events
  | .sub f t _ _ _ ts => .times f.frameTime t.frameTime :: (ts.map TTok.events).flatten

/-- A line that can be written. -/
def TItem.Valid : TItem → Prop
  | .ignored s => Trimmed s ∧ (10 : Byte) ∉ s ∧ (b!"//" <+: s ∨ ((44 : Byte) ∉ s ∧ s.head? ≠ some 36))
  | .var v _ _ => v.Valid
  | .sub f t _ _ _ ts => f.Valid ∧ t.Valid ∧ ValidToks ts ∧ toksText ts ≠ [] ∧ ∀ c, (toksText ts).getLast? = some c → isSpace c = false

/-- A line of the file: white space, the item, white space. -/
structure TLine where
  lead : Str
  item : TItem
  trail : Str

/-- How it is written. -/
def TLine.text (l : TLine) : Str := l.lead ++ l.item.core ++ l.trail

/-- A line that can be written. -/
def TLine.Valid (l : TLine) : Prop := (∀ c ∈ l.lead, isSpace c = true ∧ c ≠ 10) ∧ (∀ c ∈ l.trail, isSpace c = true ∧ c ≠ 10) ∧ l.item.Valid

/-- What a file says. -/
def fileEvents (ls : List TLine) : List Ev := (ls.map (fun l => l.item.events)).flatten

/-! ### Proofs: the text of a subtitle -/

def HistSt (hist : List Ev) (subs : List Raw) : StlTextSt := { sub := evRaw hist [], subs := subs }

theorem latest_snoc {α : Type} (p : Ev → Option α) (hist : List Ev) (e : Ev) : latest p (hist ++ [e]) = (p e).or (latest p hist) := by
  unfold latest
  rw [List.reverse_append, List.reverse_singleton, List.singleton_append, List.findSome?_cons]
  cases p e <;> rfl

private theorem after_snoc (p : Ev → Bool) (hist : List Ev) (e : Ev) : after p (hist ++ [e]) = if p e then [] else after p hist ++ [e] := by
  unfold after
  rw [List.reverse_append, List.reverse_singleton, List.singleton_append, List.takeWhile_cons]
  cases p e <;> simp

private theorem odd_succ (n : Nat) : decide ((n + 1) % 2 = 1) = !decide (n % 2 = 1) := by
  rcases Nat.mod_two_eq_zero_or_one n with h | h
  · have : (n + 1) % 2 = 1 := by omega
    simp [h, this]
  · have : (n + 1) % 2 = 0 := by omega
    simp [h, this]

private theorem face_toggle (f g : Face) (hist : List Ev) : faceNow f (hist ++ [.toggle g]) = if g = f then !faceNow f hist else faceNow f hist := by
  unfold faceNow
  rw [latest_snoc, after_snoc]
  have e0 : (Ev.toggle g).faceSet f = none := rfl
  simp only [e0, Option.none_or, Option.isSome_none, Bool.false_eq_true, if_false, List.count_append]
  by_cases h : g = f
  · subst h
    rw [if_pos rfl, show List.count (Ev.toggle g) [Ev.toggle g] = 1 by simp, odd_succ, Bool.xor_not]
  · have : List.count (Ev.toggle f) [Ev.toggle g] = 0 := by
      rw [List.count_eq_zero]; simp; exact fun e => h e.symm
    rw [if_neg h, this, Nat.add_zero]

private theorem face_set (f g : Face) (on : Bool) (hist : List Ev) : faceNow f (hist ++ [.setFace g on]) = if g = f then on else faceNow f hist := by
  unfold faceNow
  rw [latest_snoc, after_snoc]
  by_cases h : g = f
  · subst h
    have e0 : (Ev.setFace g on).faceSet g = some on := by simp [Ev.faceSet]
    simp [e0]
  · have e0 : (Ev.setFace g on).faceSet f = none := by simp [Ev.faceSet, h]
    have hc : List.count (Ev.toggle f) [Ev.setFace g on] = 0 := by
      rw [List.count_eq_zero]; simp
    simp [e0, h, hc]

private theorem face_other (f : Face) (hist : List Ev) (e : Ev) (h1 : ∀ g, e ≠ .toggle g) (h2 : ∀ g on, e ≠ .setFace g on) :
    faceNow f (hist ++ [e]) = faceNow f hist := by
  unfold faceNow
  rw [latest_snoc, after_snoc]
  have : e.faceSet f = none := by
    cases e <;> first | rfl | exact absurd rfl (h2 _ _)
  have hc : List.count (Ev.toggle f) [e] = 0 := by
    rw [List.count_eq_zero]; simp; exact fun e => h1 f e.symm
  simp [this, hc]

theorem bars_bar (hist : List Ev) : barsSinceText (hist ++ [.bar]) = barsSinceText hist + 1 := by
  simp [barsSinceText, after_snoc, Ev.isText]

theorem bars_text (hist : List Ev) (s : Str) : barsSinceText (hist ++ [.text s]) = 0 := by
  simp [barsSinceText, after_snoc, Ev.isText]

theorem bars_other (hist : List Ev) (e : Ev) (h1 : e ≠ .bar) (h2 : e.isText = false) : barsSinceText (hist ++ [e]) = barsSinceText hist := by
  have hc : List.count Ev.bar [e] = 0 := by
    rw [List.count_eq_zero]; simp; exact fun e => h1 e.symm
  simp [barsSinceText, after_snoc, h2, hc]

private theorem bars_le (hist : List Ev) : barsSinceText hist ≤ hist.count .bar := by
  unfold barsSinceText after
  rw [List.count_reverse, ← List.count_reverse (l := hist)]
  exact List.Sublist.count_le _ (List.takeWhile_sublist _)

theorem raw_bar (hist : List Ev) (s : Str) :
    evRaw (hist ++ [.bar]) s = { evRaw hist s with vpos := { line := some ((barsSinceText hist : Int) + 1), ref := some .topOfSubtitle } } := by
  unfold evRaw fontNow sizeNow timesNow
  simp [latest_snoc, bars_bar, face_other]

private theorem raw_text (hist : List Ev) (s t : Str) :
    evRaw (hist ++ [.text t]) s = { evRaw hist s with vpos := { line := some 0, ref := some .topOfSubtitle } } := by
  unfold evRaw fontNow sizeNow timesNow
  simp [latest_snoc, bars_text, face_other]

theorem raw_toggle (hist : List Ev) (s : Str) (f : Face) :
    evRaw (hist ++ [.toggle f]) s =
      match f with
      | .bold => { evRaw hist s with bold := !(evRaw hist s).bold }
      | .italic => { evRaw hist s with italic := !(evRaw hist s).italic }
      | .underline => { evRaw hist s with underline := !(evRaw hist s).underline } := by
  have hb := bars_other hist (.toggle f) (by simp) rfl
  cases f <;> (unfold evRaw fontNow sizeNow timesNow; simp [latest_snoc, hb, face_toggle])

theorem raw_setFace (hist : List Ev) (s : Str) (f : Face) (on : Bool) :
    evRaw (hist ++ [.setFace f on]) s =
      match f with
      | .bold => { evRaw hist s with bold := on }
      | .italic => { evRaw hist s with italic := on }
      | .underline => { evRaw hist s with underline := on } := by
  have hb := bars_other hist (.setFace f on) (by simp) rfl
  cases f <;> (unfold evRaw fontNow sizeNow timesNow; simp [latest_snoc, hb, face_set])

theorem raw_font (hist : List Ev) (s n : Str) : evRaw (hist ++ [.setFont n]) s = { evRaw hist s with font := some n } := by
  have hb := bars_other hist (.setFont n) (by simp) rfl
  unfold evRaw fontNow sizeNow timesNow
  simp [latest_snoc, hb, face_other]

theorem raw_size (hist : List Ev) (s : Str) (n : Int) : evRaw (hist ++ [.setSize n]) s = { evRaw hist s with fontSize := { pts := some n } } := by
  have hb := bars_other hist (.setSize n) (by simp) rfl
  unfold evRaw fontNow sizeNow timesNow
  simp [latest_snoc, hb, face_other]

theorem raw_times (hist : List Ev) (s : Str) (f t : Time) : evRaw (hist ++ [.times f t]) s = { evRaw hist s with from_ := f, to_ := t } := by
  have hb := bars_other hist (.times f t) (by simp) rfl
  unfold evRaw fontNow sizeNow timesNow
  simp [latest_snoc, hb, face_other]

private theorem push_empty (hist : List Ev) (subs : List Raw) : (HistSt hist subs).maybePush = HistSt hist subs := rfl

theorem push_text (hist : List Ev) (subs : List Raw) (s : Str) (h : s ≠ []) :
    (⟨evRaw hist s, subs⟩ : StlTextSt).maybePush = HistSt (hist ++ [.text s]) (subs ++ [evRaw hist s]) := by
  unfold StlTextSt.maybePush HistSt
  rw [if_neg (by simpa [evRaw] using h), raw_text]
  rfl

theorem chars_text (st : StlTextSt) (s rest : Str) (h : ∀ c ∈ s, c ≠ 124 ∧ c ≠ 94) :
    stlTextChars st (s ++ rest) = stlTextChars { st with sub := { st.sub with text := st.sub.text ++ s } } rest := by
  induction s generalizing st with
  | nil => simp
  | cons c s ih =>
    have hc := h c (by simp)
    rw [List.cons_append, stlTextChars, ih _ (fun c hc => h c (by simp [hc]))]
    · simp
    · exact hc.1
    · rintro rfl; exact absurd rfl hc.2
    · rintro d ds rfl; exact absurd rfl hc.2

theorem chars_bar (st : StlTextSt) (rest : Str) (l : Int) (hl : st.maybePush.sub.vpos.line = some l) (hb : l + 1 ≤ 2147483647) (h0 : 0 ≤ l) :
    stlTextChars st (124 :: rest) = stlTextChars { st.maybePush with sub := { st.maybePush.sub with vpos := { st.maybePush.sub.vpos with line := some (l + 1) } } } rest := by
  rw [stlTextChars]
  simp only [hl]
  show (optGet (some l) >>= _) = _
  simp only [optGet, ok_bind]
  rw [ck_ok (by unfold InInt; omega)]
  rfl

/-- The state after the text of a subtitle. -/
private theorem chars_toks (toks : List TTok) (hist : List Ev) (subs : List Raw) (hv : ValidToks toks)
    (hb : (hist ++ (toks.map TTok.events).flatten).count .bar < 2 ^ 31 - 1) :
    (stlTextChars (HistSt hist subs) (toksText toks)).map StlTextSt.maybePush =
      .ok (HistSt (hist ++ (toks.map TTok.events).flatten) (subs ++ evRaws hist (toks.map TTok.events).flatten)) := by
  suffices key : ∀ n, ∀ toks : List TTok, toks.length ≤ n → ∀ (hist : List Ev) (subs : List Raw), ValidToks toks →
      (hist ++ (toks.map TTok.events).flatten).count .bar < 2 ^ 31 - 1 → ∀ st : StlTextSt,
      (st = HistSt hist subs ∨ (st.maybePush = HistSt hist subs ∧ ∀ s' r', toks ≠ .text s' :: r')) →
      (stlTextChars st (toksText toks)).map StlTextSt.maybePush =
      .ok (HistSt (hist ++ (toks.map TTok.events).flatten) (subs ++ evRaws hist (toks.map TTok.events).flatten)) from
    key _ toks (Nat.le_refl _) hist subs hv hb _ (.inl rfl)
  intro n
  induction n with
  | zero =>
    intro toks hn hist subs hv hb st hst
    have : toks = [] := List.length_eq_zero_iff.1 (by omega)
    subst this
    have hp : st.maybePush = HistSt hist subs := by
      rcases hst with h | h
      · rw [h]; rfl
      · exact h.1
    simp [toksText, stlTextChars, Except.map, hp, evRaws]
  | succ n ih =>
    intro toks hn hist subs hv hb st hst
    have hp : st.maybePush = HistSt hist subs := by
      rcases hst with h | h
      · rw [h]; rfl
      · exact h.1
    cases toks with
    | nil => simp [toksText, stlTextChars, Except.map, hp, evRaws]
    | cons k toks =>
      have hlen : toks.length ≤ n := by simpa using hn
      cases k with
      | text s =>
        have hst : st = HistSt hist subs := by
          rcases hst with h | h
          · exact h
          · exact absurd rfl (h.2 s toks)
        obtain ⟨h1, h2, h3, h4⟩ := hv
        have e : toksText (.text s :: toks) = s ++ toksText toks := rfl
        rw [e, hst, chars_text _ _ _ (fun c hc => ⟨(h2 c hc).1, (h2 c hc).2.1⟩)]
        have e2 : ({ HistSt hist subs with sub := { (HistSt hist subs).sub with text := (HistSt hist subs).sub.text ++ s } } : StlTextSt) = ⟨evRaw hist s, subs⟩ := rfl
        rw [e2, ih toks hlen (hist ++ [.text s]) (subs ++ [evRaw hist s]) h4 (by simpa [TTok.events] using hb) _ (.inr ⟨push_text hist subs s h1, h3⟩)]
        simp [TTok.events, evRaws]
      | bar =>
        have hline : st.maybePush.sub.vpos.line = some (barsSinceText hist : Int) := by rw [hp]; rfl
        have hb' : barsSinceText hist < 2 ^ 31 - 1 := by
          have := bars_le hist
          rw [List.count_append] at hb
          omega
        have e : toksText (.bar :: toks) = 124 :: toksText toks := rfl
        rw [e, chars_bar st _ _ hline (by omega) (by omega), hp]
        have e2 : ({ HistSt hist subs with sub := { (HistSt hist subs).sub with vpos := { (HistSt hist subs).sub.vpos with line := some ((barsSinceText hist : Int) + 1) } } } : StlTextSt) =
            HistSt (hist ++ [.bar]) subs := by
          unfold HistSt
          rw [raw_bar]
          rfl
        rw [e2, ih toks hlen (hist ++ [Ev.bar]) subs hv (by simpa [TTok.events] using hb) _ (.inl rfl)]
        simp [TTok.events, evRaws]
      | toggle f =>
        have e : toksText (.toggle f :: toks) = 94 :: faceByte f :: toksText toks := rfl
        rw [e, stlTextChars, hp]
        have e2 : (if (faceByte f == 66) = true then { HistSt hist subs with sub := { (HistSt hist subs).sub with bold := !(HistSt hist subs).sub.bold } }
            else if (faceByte f == 73) = true then { HistSt hist subs with sub := { (HistSt hist subs).sub with italic := !(HistSt hist subs).sub.italic } }
            else if (faceByte f == 85) = true then { HistSt hist subs with sub := { (HistSt hist subs).sub with underline := !(HistSt hist subs).sub.underline } }
            else HistSt hist subs) = HistSt (hist ++ [.toggle f]) subs := by
          unfold HistSt
          rw [raw_toggle]
          cases f <;> rfl
        simp only [e2]
        rw [ih toks hlen (hist ++ [Ev.toggle f]) subs hv (by simpa [TTok.events] using hb) _ (.inl rfl)]
        simp [TTok.events, evRaws]
      | other c =>
        obtain ⟨hc, hv'⟩ := hv
        have e : toksText (.other c :: toks) = 94 :: c :: toksText toks := rfl
        rw [e, stlTextChars, hp]
        have b1 : (c == 66) = false := by simpa using hc.1
        have b2 : (c == 73) = false := by simpa using hc.2.1
        have b3 : (c == 85) = false := by simpa using hc.2.2.1
        simp only [b1, b2, b3, Bool.false_eq_true, if_false]
        rw [ih toks hlen hist subs hv' (by simpa [TTok.events] using hb) _ (.inl rfl)]
        simp [TTok.events]

/-! ### Proofs: lines -/

private theorem dropWhile_head {p : Byte → Bool} {s : Str} (h : ∀ c, s.head? = some c → p c = false) : s.dropWhile p = s := by
  cases s with
  | nil => rfl
  | cons c s => simp [List.dropWhile_cons, h c rfl]

private theorem dropWhile_all {p : Byte → Bool} {a b : Str} (h : ∀ c ∈ a, p c = true) : (a ++ b).dropWhile p = b.dropWhile p := by
  induction a with
  | nil => rfl
  | cons c a ih => rw [List.cons_append, List.dropWhile_cons, if_pos (h c (by simp)), ih (fun c hc => h c (by simp [hc]))]

theorem trim_around {a s b : Str} (ha : ∀ c ∈ a, isSpace c = true) (hb : ∀ c ∈ b, isSpace c = true) (hs : Trimmed s) : trim (a ++ s ++ b) = s := by
  unfold trim
  rw [trimRightIf_append hb]
  cases hne : s with
  | nil =>
    rw [List.append_nil, trimRightIf_all ha]
    rfl
  | cons c r =>
    rw [← hne]
    have hs0 : s ≠ [] := by rw [hne]; simp
    rw [trimRightIf_of_last, trimLeftIf, dropWhile_all ha, dropWhile_head hs.1]
    intro c hc
    rw [List.getLast?_append_of_ne_nil _ hs0] at hc
    exact hs.2 c hc

private theorem spaces_space (n : Nat) : ∀ c ∈ List.replicate n (32 : Byte), isSpace c = true := by
  intro c hc
  rw [List.eq_of_mem_replicate hc]; decide

theorem findIdx?_comma {a b : Str} (h : (44 : Byte) ∉ a) : (a ++ 44 :: b).findIdx? (· == 44) = some a.length := by
  rw [List.findIdx?_append, List.findIdx?_eq_none_iff.2]
  · simp [List.findIdx?_cons]
  · intro c hc
    have : c ≠ 44 := by rintro rfl; exact h hc
    simpa using this

/-- Lines with two commas: `A,B,C`. -/
theorem line_shape (s : StlTextSt) (raw A B C : Str) (ht : trim raw = A ++ 44 :: (B ++ 44 :: C)) (hA : (44 : Byte) ∉ A) (hB : (44 : Byte) ∉ B)
    (h1 : ¬ b!"//" <+: A ++ 44 :: (B ++ 44 :: C)) (h2 : (A ++ 44 :: (B ++ 44 :: C)).head? ≠ some 36) (hlen : 2 ≤ A.length) (hC : C ≠ []) :
    stlTextLine s raw = (do
      let from_ ← stlTextTime (trim A.dropLast)
      let to_ ← stlTextTime (trim B)
      match from_, to_ with
      | some f, some t => do
        let s ← stlTextChars { s with sub := { s.sub with from_ := f, to_ := t } } C
        pure s.maybePush
      | _, _ => pure s) := by
  unfold stlTextLine
  simp only [ht]
  rw [startsWith_false_iff.2 h1]
  have hd : startsWith (A ++ 44 :: (B ++ 44 :: C)) b!"$" = false := by
    rw [startsWith_false_iff]
    intro hp
    apply h2
    obtain ⟨r, hr⟩ := hp
    rw [← hr]; rfl
  rw [hd]
  simp only [Bool.false_eq_true, if_false]
  have hdrop : (A ++ 44 :: (B ++ 44 :: C)).drop (A.length + 1) = B ++ 44 :: C := by
    rw [← List.drop_drop, List.drop_left]
    rfl
  have hC' : 0 < C.length := List.length_pos_iff.2 hC
  have hl : (A ++ 44 :: (B ++ 44 :: C)).length = A.length + B.length + C.length + 2 := by simp; omega
  simp only [findIdx?_comma hA, hdrop, findIdx?_comma hB]
  rw [hl, if_neg (by omega)]
  have e1 : (A ++ 44 :: (B ++ 44 :: C)).take (A.length - 1) = A.dropLast := by
    rw [List.dropLast_eq_take, List.take_append_of_le_length (by omega)]
  have e2 : (B ++ 44 :: C).take (A.length + 1 + B.length - A.length - 1) = B := by
    have : A.length + 1 + B.length - A.length - 1 = B.length := by omega
    rw [this, List.take_left]
  have e3 : (A ++ 44 :: (B ++ 44 :: C)).drop (A.length + 1 + B.length + 1) = C := by
    have : A.length + 1 + B.length + 1 = A.length + 1 + (B.length + 1) := by omega
    rw [this, ← List.drop_drop, hdrop, ← List.drop_drop, List.drop_left]
    rfl
  rw [e1, e2, e3]
  rfl

private theorem noColon (k n : Nat) : ∀ c ∈ List.replicate k 48 ++ decSpec n, (c == 58) = false := by
  intro c hc
  have hd : isDigit c = true := by
    rw [← natDec_eq_decSpec, List.mem_append] at hc
    rcases hc with hc | hc
    · rw [List.eq_of_mem_replicate hc]; decide
    · exact natDec_digits _ _ hc
  have := isDigit_ne hd 58 (by decide)
  simpa using this

theorem stlTextTime_stamp (t : Stamp) (ht : t.Valid) : stlTextTime (t.text 58) = .ok (some t.frameTime) := by
  obtain ⟨h1, h2, h3, h4⟩ := ht
  have e : t.text 58 = (List.replicate t.padH 48 ++ decSpec t.h) ++ 58 :: ((List.replicate t.padM 48 ++ decSpec t.m) ++ 58 ::
      ((List.replicate t.padS 48 ++ decSpec t.s) ++ 58 :: (List.replicate t.padMs 48 ++ decSpec t.ms))) := by
    unfold Stamp.text; simp
  have es : splitAny (· == 58) (t.text 58) = [List.replicate t.padH 48 ++ decSpec t.h, List.replicate t.padM 48 ++ decSpec t.m,
      List.replicate t.padS 48 ++ decSpec t.s, List.replicate t.padMs 48 ++ decSpec t.ms] := by
    rw [e, splitAny_append (noColon _ _) (by decide), splitAny_append (noColon _ _) (by decide), splitAny_append (noColon _ _) (by decide),
      splitAny_noSep (noColon _ _)]
  unfold stlTextTime
  rw [es]
  simp only [(lexicalCastInt_iff _ _).2 (intText_padded t.padH t.h (by omega)), (lexicalCastInt_iff _ _).2 (intText_padded t.padM t.m (by omega)),
    (lexicalCastInt_iff _ _).2 (intText_padded t.padS t.s (by omega)), (lexicalCastInt_iff _ _).2 (intText_padded t.padMs t.ms (by omega)), ok_bind]
  unfold Time.fromHmsf hmsSeconds
  rw [ck_ok (by unfold InInt; omega)]
  simp only [ok_bind]
  rw [ck_ok (by unfold InInt; omega)]
  simp only [ok_bind]
  rw [ck_ok (by unfold InInt; omega)]
  simp only [ok_bind]
  rw [ck_ok (by unfold InInt; omega)]
  simp only [ok_bind, pure_eq_ok]
  unfold Stamp.frameTime
  congr 3
  ring

private theorem stamp58 (t : Stamp) : ∀ c ∈ t.text 58, c ≠ 44 ∧ isSpace c = false ∧ c ≠ 36 ∧ c ≠ 47 ∧ c ≠ 10 := by
  intro c hc
  have : isDigit c = true ∨ c = 58 := by
    rcases stamp_digits 58 t c hc with h | h | h
    · exact .inl h
    · exact .inr h
    · exact .inr h
  rcases this with h | rfl
  · exact forall_byte (p := fun c => isDigit c = true → c ≠ 44 ∧ isSpace c = false ∧ c ≠ 36 ∧ c ≠ 47 ∧ c ≠ 10) (by decide +kernel) c h
  · decide

private theorem stamp_trimmed (t : Stamp) : Trimmed (t.text 58) :=
  ⟨fun c hc => (stamp58 t c (List.mem_of_mem_head? hc)).2.1, fun c hc => (stamp58 t c (List.mem_of_getLast? hc)).2.1⟩

private theorem item_trimmed (i : TItem) (h : i.Valid) : Trimmed i.core := by
  cases i with
  | ignored s => exact h.1
  | var v a b =>
    obtain ⟨h1, h2, h3, -, -, h6⟩ := h
    have hne : v.name ≠ [] := by
      cases v with
      | font => simp [TVar.name]
      | face f _ => cases f <;> simp [TVar.name, faceVar]
      | size => simp [TVar.name]
      | other n _ => intro e; rw [show n = [] from e] at h6; cases h6.1
    constructor
    · intro c hc
      apply h1.1 c
      simp only [TItem.core] at hc
      cases hn : v.name with
      | nil => exact absurd hn hne
      | cons d r => rw [hn] at hc; simpa using hc
    · intro c hc
      apply h2.2 c
      rw [← hc]
      show _ = (v.name ++ List.replicate a 32 ++ b!"=" ++ List.replicate b 32 ++ v.value).getLast?
      rw [List.getLast?_append_of_ne_nil _ h3]
  | sub f t a b c ts =>
    obtain ⟨-, -, -, h4, h5⟩ := h
    constructor
    · intro x hx
      apply (stamp_trimmed f).1 x
      have hne := stamp_ne_nil 58 f
      simp only [TItem.core] at hx
      cases hn : f.text 58 with
      | nil => exact absurd hn hne
      | cons d r => rw [hn] at hx; simpa using hx
    · intro x hx
      apply h5 x
      rw [← hx]
      unfold TItem.core
      rw [List.getLast?_append_of_ne_nil _ h4]

private theorem var_line (v : TVar) (a b : Nat) (hv : v.Valid) (hist : List Ev) (subs : List Raw) (raw : Str) (ht : trim raw = (TItem.var v a b).core) :
    stlTextLine (HistSt hist subs) raw = .ok (HistSt (hist ++ v.events) subs) := by
  obtain ⟨h1, h2, h3, h4, h5, h6⟩ := hv
  have hd : ∃ r, v.name = 36 :: r := by
    cases v with
    | font => exact ⟨_, rfl⟩
    | face f _ => cases f <;> exact ⟨_, rfl⟩
    | size => exact ⟨_, rfl⟩
    | other n _ =>
      cases n with
      | nil => cases h6.1
      | cons c r =>
        have := h6.1
        simp at this
        exact ⟨r, by rw [← this]; rfl⟩
  obtain ⟨r, hr⟩ := hd
  have ecore : (TItem.var v a b).core = (v.name ++ List.replicate a 32) ++ 61 :: (List.replicate b 32 ++ v.value) := by
    simp [TItem.core]
  have ecore2 : (TItem.var v a b).core = 36 :: (r ++ List.replicate a 32 ++ 61 :: (List.replicate b 32 ++ v.value)) := by
    rw [ecore, hr]; simp
  unfold stlTextLine
  simp only [ht]
  have s1 : startsWith (TItem.var v a b).core b!"//" = false := by
    rw [ecore2]; rfl
  have s2 : startsWith (TItem.var v a b).core b!"$" = true := by
    rw [ecore2]; rfl
  rw [s1, s2]
  have hsp : splitAny (· == 61) (TItem.var v a b).core = [v.name ++ List.replicate a 32, List.replicate b 32 ++ v.value] := by
    rw [ecore, splitAny_append _ (by decide), splitAny_noSep]
    · intro c hc
      rw [List.mem_append] at hc
      rcases hc with hc | hc
      · rw [List.eq_of_mem_replicate hc]; decide
      · have := (h4 c hc).1; simpa using this
    · intro c hc
      rw [List.mem_append] at hc
      rcases hc with hc | hc
      · have := (h5 c hc).1; simpa using this
      · rw [List.eq_of_mem_replicate hc]; decide
  have t1 : trim (v.name ++ List.replicate a 32) = v.name := by
    have := trim_around (a := []) (by intro c hc; cases hc) (spaces_space a) h1
    simpa using this
  have t2 : trim (List.replicate b 32 ++ v.value) = v.value := by
    have := trim_around (b := []) (spaces_space b) (by intro c hc; cases hc) h2
    simpa using this
  simp only [Bool.false_eq_true, if_false, if_true, hsp, t1, t2]
  unfold StlTextSt.set
  cases v with
  | font n => 
    simp only [TVar.name, TVar.value, TVar.events, if_true]
    unfold HistSt
    rw [raw_font]
  | face f n =>
    have hb : (n == b!"True") = decide (n = b!"True") := by
      by_cases h : n = b!"True" <;> simp [h]
    cases f with
    | bold =>
      simp only [TVar.name, faceVar, TVar.value, TVar.events, if_true, hb]
      rw [if_neg (by decide)]
      unfold HistSt
      rw [raw_setFace]
    | italic =>
      simp only [TVar.name, faceVar, TVar.value, TVar.events, if_true, hb]
      rw [if_neg (by decide), if_neg (by decide)]
      unfold HistSt
      rw [raw_setFace]
    | underline =>
      simp only [TVar.name, faceVar, TVar.value, TVar.events, if_true, hb]
      rw [if_neg (by decide), if_neg (by decide), if_neg (by decide)]
      unfold HistSt
      rw [raw_setFace]
  | size pad n =>
    simp only [TVar.name, TVar.value, TVar.events, if_true, (lexicalCastInt_iff _ _).2 (intText_padded pad n h6), ok_bind, pure_eq_ok]
    rw [if_neg (by decide), if_neg (by decide), if_neg (by decide), if_neg (by decide)]
    unfold HistSt
    rw [raw_size]
    rfl
  | other n val =>
    have := h6.2
    simp only [List.mem_cons, List.not_mem_nil, or_false, not_or] at this
    obtain ⟨n1, n2, n3, n4, n5⟩ := this
    simp only [TVar.events, List.append_nil]
    have en : (TVar.other n val).name = n := rfl
    rw [← en] at n1 n2 n3 n4 n5
    rw [if_neg n1, if_neg n2, if_neg n3, if_neg n4, if_neg n5]

theorem evRaws_var (hist : List Ev) (v : TVar) : evRaws hist v.events = [] := by
  cases v <;> rfl

private theorem item_line (l : TLine) (hv : l.Valid) (hist : List Ev) (subs : List Raw) (hb : (hist ++ l.item.events).count .bar < 2 ^ 31 - 1) :
    stlTextLine (HistSt hist subs) l.text = .ok (HistSt (hist ++ l.item.events) (subs ++ evRaws hist l.item.events)) := by
  obtain ⟨lead, item, trail⟩ := l
  obtain ⟨hl, hr, hi⟩ := hv
  have ht : trim (TLine.text ⟨lead, item, trail⟩) = item.core :=
    trim_around (fun c hc => (hl c hc).1) (fun c hc => (hr c hc).1) (item_trimmed item hi)
  cases item with
  | ignored s =>
    obtain ⟨-, -, h⟩ := hi
    have e : evRaws hist (TItem.ignored s).events = [] := rfl
    show _ = Except.ok (HistSt (hist ++ []) (subs ++ []))
    rw [List.append_nil, List.append_nil]
    unfold stlTextLine
    simp only [ht, TItem.core]
    split
    · rfl
    · rename_i hs
      rcases h with h | ⟨h1, h2⟩
      · exact absurd (startsWith_iff.2 h) hs
      · have : startsWith s b!"$" = false := by
          rw [startsWith_false_iff]
          rintro ⟨r, hr⟩
          apply h2
          rw [← hr]; rfl
        rw [this]
        have hf : s.findIdx? (· == 44) = none := by
          rw [List.findIdx?_eq_none_iff]
          intro c hc
          have : c ≠ 44 := by rintro rfl; exact h1 hc
          simpa using this
        simp [hf]
  | var v a b =>
    rw [var_line v a b hi hist subs _ ht]
    show _ = Except.ok (HistSt (hist ++ v.events) (subs ++ evRaws hist v.events))
    rw [evRaws_var, List.append_nil]
  | sub f t a b c ts =>
    obtain ⟨hf, htt, hts, hne, -⟩ := hi
    have ecore : (TItem.sub f t a b c ts).core = (f.text 58 ++ List.replicate (a + 1) 32) ++ 44 :: ((List.replicate b 32 ++ t.text 58 ++ List.replicate c 32) ++ 44 :: toksText ts) := by
      simp [TItem.core]
    have nc : ∀ n, (44 : Byte) ∉ List.replicate n (32 : Byte) := by
      intro n hm
      exact absurd (List.eq_of_mem_replicate hm) (by decide)
    obtain ⟨d, r, hdr⟩ := List.exists_cons_of_ne_nil (stamp_ne_nil 58 f)
    have hd := stamp58 f d (by rw [hdr]; simp)
    have hlen : 1 ≤ (f.text 58).length := by rw [hdr]; simp
    rw [line_shape (HistSt hist subs) _ (f.text 58 ++ List.replicate (a + 1) 32) (List.replicate b 32 ++ t.text 58 ++ List.replicate c 32) (toksText ts)
      (by rw [ht, ecore]) (by simp only [List.mem_append, not_or]; exact ⟨fun h => (stamp58 f 44 h).1 rfl, nc _⟩)
      (by simp only [List.mem_append, not_or]; exact ⟨⟨nc _, fun h => (stamp58 t 44 h).1 rfl⟩, nc _⟩)
      (by
        rw [hdr]
        rintro ⟨x, hx⟩
        simp only [List.cons_append, List.cons.injEq] at hx
        exact hd.2.2.2.1 hx.1.symm)
      (by rw [hdr]; simp; exact hd.2.2.1) (by simp; omega) hne]
    have e1 : trim (f.text 58 ++ List.replicate (a + 1) 32).dropLast = f.text 58 := by
      have : (f.text 58 ++ List.replicate (a + 1) 32).dropLast = f.text 58 ++ List.replicate a 32 := by
        rw [List.replicate_succ', ← List.append_assoc, List.dropLast_concat]
      rw [this]
      have := trim_around (a := []) (by intro c hc; cases hc) (spaces_space a) (stamp_trimmed f)
      simpa using this
    have e2 : trim (List.replicate b 32 ++ t.text 58 ++ List.replicate c 32) = t.text 58 := trim_around (spaces_space b) (spaces_space c) (stamp_trimmed t)
    rw [e1, e2, stlTextTime_stamp f hf, ok_bind, stlTextTime_stamp t htt, ok_bind]
    have e3 : ({ HistSt hist subs with sub := { (HistSt hist subs).sub with from_ := f.frameTime, to_ := t.frameTime } } : StlTextSt) =
        HistSt (hist ++ [.times f.frameTime t.frameTime]) subs := by
      unfold HistSt
      rw [raw_times]
    simp only [e3]
    have hcount : (hist ++ [Ev.times f.frameTime t.frameTime] ++ (ts.map TTok.events).flatten).count .bar < 2 ^ 31 - 1 := by
      simpa [TItem.events] using hb
    have := chars_toks ts (hist ++ [Ev.times f.frameTime t.frameTime]) subs hts hcount
    cases hc : stlTextChars (HistSt (hist ++ [Ev.times f.frameTime t.frameTime]) subs) (toksText ts) with
    | error e => rw [hc] at this; cases this
    | ok s =>
      rw [hc] at this
      simp only [Except.map] at this
      rw [ok_bind, pure_eq_ok, this]
      simp [TItem.events, evRaws]

theorem evRaws_append (hist a b : List Ev) : evRaws hist (a ++ b) = evRaws hist a ++ evRaws (hist ++ a) b := by
  induction a generalizing hist with
  | nil => simp [evRaws]
  | cons e a ih =>
    cases e <;> simp [evRaws, ih]

private theorem lines_fold (ls : List TLine) (hv : ∀ l ∈ ls, l.Valid) (hist : List Ev) (subs : List Raw) (hb : (hist ++ fileEvents ls).count .bar < 2 ^ 31 - 1) :
    stlTextLines (HistSt hist subs) (ls.map TLine.text) = .ok (HistSt (hist ++ fileEvents ls) (subs ++ evRaws hist (fileEvents ls))) := by
  induction ls generalizing hist subs with
  | nil => simp [stlTextLines, fileEvents, evRaws]
  | cons l ls ih =>
    have e : fileEvents (l :: ls) = l.item.events ++ fileEvents ls := rfl
    rw [e] at hb ⊢
    rw [List.map_cons, stlTextLines, item_line l (hv l (by simp)) hist subs (by simp only [List.count_append] at hb ⊢; omega), ok_bind,
      ih (fun l hl => hv l (by simp [hl])) _ _ (by rw [List.append_assoc]; exact hb), evRaws_append]
    simp

theorem streamLines_unlines (ls : List Str) (last : Str) (h : ∀ l ∈ ls, (10 : Byte) ∉ l) (hl : (10 : Byte) ∉ last) : streamLines (unlines ls ++ last) = ls := by
  have no : ∀ l : Str, (10 : Byte) ∉ l → ∀ c ∈ l, (c == 10) = false := by
    intro l hl c hc
    have : c ≠ 10 := by rintro rfl; exact hl hc
    simpa using this
  unfold streamLines
  have : splitAny (· == 10) (unlines ls ++ last) = ls ++ [last] := by
    induction ls with
    | nil => exact splitAny_noSep (no _ hl)
    | cons l ls ih =>
      have e : unlines (l :: ls) ++ last = l ++ 10 :: (unlines ls ++ last) := by simp [unlines]
      rw [e, splitAny_append (no _ (h l (by simp))) (by decide), ih (fun l hl => h l (by simp [hl]))]
      rfl
  rw [this, List.dropLast_concat]

private theorem toks_noNl (ts : List TTok) (h : ValidToks ts) : (10 : Byte) ∉ toksText ts := by
  induction ts with
  | nil => simp [toksText]
  | cons k ts ih =>
    have e : toksText (k :: ts) = k.render ++ toksText ts := rfl
    rw [e, List.mem_append, not_or]
    cases k with
    | text s => exact ⟨fun hm => (h.2.1 10 hm).2.2 rfl, ih h.2.2.2⟩
    | bar => exact ⟨by decide, ih h⟩
    | toggle f => exact ⟨by cases f <;> decide, ih h⟩
    | other c =>
      refine ⟨?_, ih h.2⟩
      have := h.1.2.2.2
      simp [TTok.render]
      exact fun e => this e.symm

private theorem line_noNl (l : TLine) (h : l.Valid) : (10 : Byte) ∉ l.text := by
  obtain ⟨lead, item, trail⟩ := l
  obtain ⟨hl, hr, hi⟩ := h
  have sp : ∀ n, (10 : Byte) ∉ List.replicate n (32 : Byte) := by
    intro n hm
    exact absurd (List.eq_of_mem_replicate hm) (by decide)
  have hc : (10 : Byte) ∉ item.core := by
    cases item with
    | ignored s => exact hi.2.1
    | var v a b =>
      obtain ⟨-, -, -, h4, h5, -⟩ := hi
      simp only [TItem.core, List.mem_append, not_or]
      exact ⟨⟨⟨⟨fun hm => (h5 _ hm).2 rfl, sp _⟩, by decide⟩, sp _⟩, fun hm => (h4 _ hm).2 rfl⟩
    | sub f t a b c ts =>
      simp only [TItem.core, List.mem_append, not_or]
      exact ⟨⟨⟨⟨⟨⟨⟨fun hm => (stamp58 f _ hm).2.2.2.2 rfl, sp _⟩, by decide⟩, sp _⟩, fun hm => (stamp58 t _ hm).2.2.2.2 rfl⟩, sp _⟩, by decide⟩, toks_noNl ts hi.2.2.1⟩
  simp only [TLine.text, List.mem_append, not_or]
  exact ⟨⟨fun hm => (hl _ hm).2 rfl, hc⟩, fun hm => (hr _ hm).2 rfl⟩

/-! ### C37, C40: whole files -/

/-- A file of comments, settings and subtitles is read as the texts of the subtitles, split at `|` and `^`, each with the times of its subtitle, the
faces as last set and toggled since, the font and font size last set, and as line number the number of `|` since the previous text. -/
theorem C37_file (ls : List TLine) (hv : ∀ l ∈ ls, l.Valid) (hb : (fileEvents ls).count .bar < 2 ^ 31 - 1) :
    stlTextRead (unlines (ls.map TLine.text)) = .ok (evRaws [] (fileEvents ls)) := by
  have h := streamLines_unlines (ls.map TLine.text) [] (by
    intro x hx
    obtain ⟨l, hl, rfl⟩ := List.mem_map.1 hx
    exact line_noNl l (hv l hl)) (by simp)
  rw [List.append_nil] at h
  unfold stlTextRead
  rw [h]
  have := lines_fold ls hv [] [] (by simpa using hb)
  have e : HistSt [] [] = {} := rfl
  rw [e] at this
  rw [this]
  simp [HistSt]

/-- A file with a comment, settings, an unindented and an indented subtitle. -/
private def demo : List TLine :=
  [⟨[], .ignored b!"// c", []⟩, ⟨[], .var (.face .bold b!"True") 1 1, []⟩, ⟨[], .var (.size 0 42) 0 1, b!"\r"⟩,
   ⟨[], .sub ⟨0, 0, 41, 9, 1, 1, 0, 1⟩ ⟨0, 0, 42, 21, 1, 1, 0, 0⟩ 0 1 1 [.text b!" Th,is ", .bar, .toggle .italic, .text b!"x"], []⟩,
   ⟨b!" ", .sub ⟨0, 1, 1, 1, 0, 0, 0, 0⟩ ⟨0, 1, 2, 10, 0, 0, 0, 0⟩ 2 0 0 [.text b!"y", .other 98, .toggle .bold, .text b!"z"], b!"\t"⟩]

example : (∀ l ∈ demo, l.Valid) ∧ (fileEvents demo).count .bar < 2 ^ 31 - 1 ∧
    unlines (demo.map TLine.text) = b!"// c\n$Bold = True\n$FontSize= 42\r\n00:00:41:09 , 00:00:42:21 , Th,is |^Ix\n 0:1:1:1   ,0:1:2:10,y^b^Bz\t\n" ∧
    (evRaws [] (fileEvents demo)).map (fun r => (r.text, r.bold, r.italic, r.vpos.line, r.from_.secs)) =
      [(b!" Th,is ", true, false, some 0, 41), (b!"x", true, true, some 1, 41), (b!"y", true, true, some 0, 61), (b!"z", false, true, some 0, 61)] := by
  refine ⟨?_, by decide, by decide +kernel, by decide +kernel⟩
  intro l hl
  simp only [demo, List.mem_cons, List.not_mem_nil, or_false] at hl
  rcases hl with rfl | rfl | rfl | rfl | rfl
  · refine ⟨by decide, by decide, ?_⟩
    refine ⟨⟨?_, ?_⟩, by decide, .inl (by decide)⟩ <;> (intro c hc; cases hc; decide)
  · refine ⟨by decide, by decide, ⟨?_, ?_⟩, ⟨?_, ?_⟩, by decide, by decide, by decide, trivial⟩ <;> (intro c hc; cases hc; decide)
  · refine ⟨by decide, by decide, ⟨?_, ?_⟩, ⟨?_, ?_⟩, by decide +kernel, by decide +kernel, by decide, by decide⟩
    · intro c hc; cases hc; decide
    · intro c hc; cases hc; decide
    · intro c hc
      have : (b!"42" : Str).head? = some c := hc
      cases this; decide
    · intro c hc
      have : (b!"42" : Str).getLast? = some c := hc
      cases this; decide
  · refine ⟨by decide, by decide, ?_, ?_, ?_, by decide +kernel, ?_⟩
    · simp [Stamp.Valid]
    · simp [Stamp.Valid]
    · simp [ValidToks]
    · intro c hc; cases hc; decide
  · refine ⟨by decide, by decide, ?_, ?_, ?_, by decide +kernel, ?_⟩
    · simp [Stamp.Valid]
    · simp [Stamp.Valid]
    · simp [ValidToks]
    · intro c hc; cases hc; decide

private theorem evRaws_length (hist evs : List Ev) : (evRaws hist evs).length = evs.countP Ev.isText := by
  induction evs generalizing hist with
  | nil => rfl
  | cons e evs ih =>
    cases e <;> simp [evRaws, ih, List.countP_cons, Ev.isText]

private theorem evRaws_at (hist rest : List Ev) (s : Str) : (evRaws [] (hist ++ .text s :: rest))[hist.countP Ev.isText]? = some (evRaw hist s) := by
  rw [evRaws_append, List.getElem?_append_right (by rw [evRaws_length]), evRaws_length]
  simp [evRaws]

/-- C40: for every text in a file, whatever comes before it (`hist`): bold, italic and underline are the last set value, inverted if there has been an
odd number of toggles since; font and size are the last set. -/
theorem C40_styles (ls : List TLine) (hv : ∀ l ∈ ls, l.Valid) (hb : (fileEvents ls).count .bar < 2 ^ 31 - 1) (hist rest : List Ev) (s : Str)
    (h : fileEvents ls = hist ++ .text s :: rest) :
    ∃ raws r, stlTextRead (unlines (ls.map TLine.text)) = .ok raws ∧ raws[hist.countP Ev.isText]? = some r ∧ r.text = s ∧
      r.bold = faceNow .bold hist ∧ r.italic = faceNow .italic hist ∧ r.underline = faceNow .underline hist ∧
      r.font = fontNow hist ∧ r.fontSize = { prop := none, pts := sizeNow hist } :=
  ⟨_, _, C37_file ls hv hb, by rw [h]; exact evRaws_at hist rest s, rfl, rfl, rfl, rfl, rfl, rfl⟩

/-- Set on, toggled three times, with other things between. -/
example : faceNow .bold [.toggle .bold, .setFace .bold true, .toggle .bold, .bar, .text b!"x", .toggle .bold, .setFace .italic false, .toggle .bold] = false ∧
    faceNow .italic [.toggle .italic, .times {} {}] = true ∧ fontNow [.setFont b!"a", .setFont b!"b", .bar] = some b!"b" := by decide

theorem lines_append (st : StlTextSt) (a b : List Str) : stlTextLines st (a ++ b) = (stlTextLines st a >>= fun st' => stlTextLines st' b) := by
  induction a generalizing st with
  | nil => rfl
  | cons l a ih =>
    rw [List.cons_append, stlTextLines, stlTextLines]
    cases stlTextLine st l with
    | error e => rfl
    | ok st' => exact ih st'

theorem streamLines_cons (l rest : Str) (h : (10 : Byte) ∉ l) : streamLines (l ++ 10 :: rest) = l :: streamLines rest := by
  have no : ∀ c ∈ l, (c == 10) = false := by
    intro c hc
    have : c ≠ 10 := by rintro rfl; exact h hc
    simpa using this
  unfold streamLines
  rw [splitAny_append no (by decide), List.dropLast_cons_of_ne_nil (splitAny_ne_nil _ _)]

theorem streamLines_append (ls : List Str) (rest : Str) (h : ∀ l ∈ ls, (10 : Byte) ∉ l) : streamLines (unlines ls ++ rest) = ls ++ streamLines rest := by
  induction ls with
  | nil => rfl
  | cons l ls ih =>
    have e : unlines (l :: ls) ++ rest = l ++ 10 :: (unlines ls ++ rest) := by simp [unlines]
    rw [e, streamLines_cons _ _ (h l (by simp)), ih (fun l hl => h l (by simp [hl]))]
    rfl

/-- C40: a comment, indented or not, anywhere in any file changes nothing. -/
theorem C40_comment (ls : List Str) (indent c rest : Str) (h : ∀ l ∈ ls, (10 : Byte) ∉ l) (hi : ∀ x ∈ indent, isSpace x = true ∧ x ≠ 10) (hc : (10 : Byte) ∉ c) :
    stlTextRead (unlines ls ++ (indent ++ b!"//" ++ c ++ 10 :: rest)) = stlTextRead (unlines ls ++ rest) := by
  have hn : (10 : Byte) ∉ indent ++ b!"//" ++ c := by
    simp only [List.mem_append, not_or]
    exact ⟨⟨fun hm => (hi 10 hm).2 rfl, by decide⟩, hc⟩
  have hline : ∀ st, stlTextLine st (indent ++ b!"//" ++ c) = .ok st := by
    intro st
    have ht : ∃ r, trim (indent ++ b!"//" ++ c) = b!"//" ++ r := by
      unfold trim
      have e : ∃ r, trimRightIf isSpace (indent ++ b!"//" ++ c) = indent ++ b!"//" ++ r := by
        have h0 : trimRightIf isSpace (indent ++ b!"//" ++ c) = indent ++ b!"//" ++ trimRightIf isSpace c := by
          obtain ⟨w, hw, hws⟩ := trimRightIf_prefix isSpace c
          conv_lhs => rw [hw]
          rw [← List.append_assoc, trimRightIf_append hws, trimRightIf_of_last]
          intro x hx
          by_cases hcn : trimRightIf isSpace c = []
          · rw [hcn, List.append_nil, List.getLast?_append_of_ne_nil _ (by decide)] at hx
            cases hx; decide
          · rw [List.getLast?_append_of_ne_nil _ hcn] at hx
            exact trimRightIf_last _ _ _ hx
        exact ⟨_, h0⟩
      obtain ⟨r, hr⟩ := e
      refine ⟨r, ?_⟩
      rw [hr, trimLeftIf, List.append_assoc, dropWhile_all (fun x hx => (hi x hx).1)]
      rfl
    obtain ⟨r, hr⟩ := ht
    unfold stlTextLine
    simp only [hr]
    rw [if_pos (startsWith_iff.2 (List.prefix_append _ _))]
  unfold stlTextRead
  rw [streamLines_append _ _ h, streamLines_append _ _ h, streamLines_cons _ _ hn, lines_append, lines_append]
  congr 2
  funext st
  rw [stlTextLines, hline, ok_bind]

example : (∀ x ∈ (b!" " : Str), isSpace x = true ∧ x ≠ 10) ∧ (stlTextRead (unlines [b!"0:0:1:0 ,0:0:2:0,a"] ++ (b!" " ++ b!"//" ++ b!" c" ++ 10 :: []))).toOption.map (·.map Raw.text) = some [b!"a"] := by
  decide +kernel

/-! ### C39: line numbers -/

private theorem bars_append (prev seg : List Ev) (h : ∀ e ∈ seg, e.isText = false) : barsSinceText (prev ++ seg) = barsSinceText prev + seg.count .bar := by
  induction seg using List.reverseRecOn with
  | nil => simp
  | append_singleton seg e ih =>
    rw [← List.append_assoc, List.count_append]
    by_cases hbar : e = .bar
    · subst hbar
      rw [bars_bar, ih (fun e he => h e (by simp [he]))]
      simp; omega
    · rw [bars_other _ _ hbar (h e (by simp)), ih (fun e he => h e (by simp [he]))]
      have : List.count Ev.bar [e] = 0 := by
        rw [List.count_eq_zero]; simp; exact fun e => hbar e.symm
      omega

/-- C39: for a subtitle that does not follow one ending in `|`, with `seg` the part of its text before some text `s`: the line number given to `s` is
the number of `|` before it in the subtitle exactly if no `|` comes before an earlier text of the same subtitle. -/
theorem C39_line_partial (ls : List TLine) (hv : ∀ l ∈ ls, l.Valid) (hb : (fileEvents ls).count .bar < 2 ^ 31 - 1) (prev seg rest : List Ev) (f t : Time) (s : Str)
    (h : fileEvents ls = prev ++ .times f t :: seg ++ .text s :: rest) (h0 : barsSinceText prev = 0) :
    ∃ raws r l, stlTextRead (unlines (ls.map TLine.text)) = .ok raws ∧ raws[(prev ++ .times f t :: seg).countP Ev.isText]? = some r ∧ r.text = s ∧
      r.vpos = { line := some l, ref := some .topOfSubtitle } ∧
      (l = seg.count .bar ↔ ∀ a s' b, seg = a ++ .text s' :: b → a.count .bar = 0) := by
  refine ⟨_, _, _, C37_file ls hv hb, by rw [h]; exact evRaws_at _ rest s, rfl, rfl, ?_⟩
  have hcases : (∀ e ∈ seg, e.isText = false) ∨ ∃ a s' b, seg = a ++ .text s' :: b ∧ ∀ e ∈ b, e.isText = false := by
    clear h
    induction seg with
    | nil => left; simp
    | cons e seg ih =>
      rcases ih with ih | ⟨a, s', b, rfl, hb⟩
      · cases he : e.isText with
        | false => left; intro x hx; rcases List.mem_cons.1 hx with rfl | hx; exacts [he, ih x hx]
        | true =>
          right
          cases e with
          | text s' => exact ⟨[], s', seg, rfl, ih⟩
          | _ => cases he
      · right; exact ⟨e :: a, s', b, rfl, hb⟩
  rcases hcases with hn | ⟨a, s', b, rfl, hn⟩
  · have : barsSinceText (prev ++ .times f t :: seg) = seg.count .bar := by
      rw [bars_append, h0]
      · simp
      · intro e he
        rcases List.mem_cons.1 he with rfl | he
        · rfl
        · exact hn e he
    rw [this]
    constructor
    · rintro - a s' b rfl
      have := hn (.text s') (by simp)
      cases this
    · intro _; rfl
  · have : barsSinceText (prev ++ .times f t :: (a ++ .text s' :: b)) = b.count .bar := by
      have e : prev ++ .times f t :: (a ++ .text s' :: b) = (prev ++ .times f t :: a ++ [.text s']) ++ b := by simp
      rw [e, bars_append _ _ hn, bars_text, Nat.zero_add]
    rw [this]
    constructor
    · intro hl a' s'' b' he
      have hcnt : (a ++ Ev.text s' :: b).count .bar = a.count .bar + b.count .bar := by simp
      rw [hcnt] at hl
      have ha : a.count .bar = 0 := by omega
      -- an earlier text lies within `a`, or is the last one
      have hsub : a' <+: a := by
        have h1 : a' <+: a ++ Ev.text s' :: b := he ▸ List.prefix_append _ _
        have h2 : a <+: a ++ Ev.text s' :: b := List.prefix_append _ _
        rcases List.prefix_or_prefix_of_prefix h1 h2 with h3 | h3
        · exact h3
        · obtain ⟨w, rfl⟩ := h3
          cases w with
          | nil => simp
          | cons x w =>
            rw [List.append_assoc] at he
            have := List.append_cancel_left he
            simp only [List.cons_append, List.cons.injEq] at this
            have hm := hn (.text s'') (by rw [this.2]; simp)
            cases hm
      exact Nat.le_zero.1 (ha ▸ List.Sublist.count_le _ hsub.sublist)
    · intro hall
      have := hall a s' b rfl
      simp [this]

/-- A subtitle in two lines after another. -/
example : fileEvents demo = [.setFace .bold true, .setSize 42] ++ .times ⟨41, 9, none⟩ ⟨42, 21, none⟩ :: [.text b!" Th,is ", .bar, .toggle .italic] ++ .text b!"x" ::
    [.times ⟨61, 1, none⟩ ⟨62, 10, none⟩, .text b!"y", .toggle .bold, .text b!"z"] ∧ barsSinceText [.setFace .bold true, .setSize 42] = 0 := by decide +kernel

/-- C39 is false in general: the third line of a subtitle has number 1, like the second; after a toggle within a line the number is 0 again; and a `|` at
the end of one subtitle counts for the next. -/
theorem C39_false :
    (stlTextRead b!"0:0:1:0 ,0:0:2:0,a|b|c\n").toOption.map (·.map (fun r => (r.text, r.vpos.line))) = some [(b!"a", some 0), (b!"b", some 1), (b!"c", some 1)] ∧
    (stlTextRead b!"0:0:1:0 ,0:0:2:0,a|b^Ic\n").toOption.map (·.map (fun r => (r.text, r.vpos.line))) = some [(b!"a", some 0), (b!"b", some 1), (b!"c", some 0)] ∧
    (stlTextRead b!"0:0:1:0 ,0:0:2:0,a|\n0:0:3:0 ,0:0:4:0,b\n").toOption.map (·.map (fun r => (r.text, r.vpos.line))) = some [(b!"a", some 0), (b!"b", some 1)] := by
  refine ⟨?_, ?_, ?_⟩ <;> decide +kernel

/-! ### C38: the byte before the first comma -/

/-- C38: the byte before the first comma of a subtitle line is ignored, whatever it is; so nothing is lost if it is a space, but a digit is. -/
theorem C38_ignored_byte (s : StlTextSt) (A B C : Str) (x y : Byte) (hA : (44 : Byte) ∉ A) (hx : x ≠ 44) (hy : y ≠ 44) (hA0 : A ≠ []) (hB : (44 : Byte) ∉ B)
    (hC : C ≠ []) (ht : Trimmed (A ++ x :: 44 :: (B ++ 44 :: C))) (h36 : A.head? ≠ some 36) (h47 : A.head? ≠ some 47) :
    stlTextLine s (A ++ x :: 44 :: (B ++ 44 :: C)) = stlTextLine s (A ++ y :: 44 :: (B ++ 44 :: C)) := by
  obtain ⟨a, A', rfl⟩ := List.exists_cons_of_ne_nil hA0
  have key : ∀ z : Byte, z ≠ 44 → stlTextLine s ((a :: A') ++ z :: 44 :: (B ++ 44 :: C)) = (do
      let from_ ← stlTextTime (trim (a :: A'))
      let to_ ← stlTextTime (trim B)
      match from_, to_ with
      | some f, some t => do
        let s ← stlTextChars { s with sub := { s.sub with from_ := f, to_ := t } } C
        pure s.maybePush
      | _, _ => pure s) := by
    intro z hz
    have e : (a :: A') ++ z :: 44 :: (B ++ 44 :: C) = ((a :: A') ++ [z]) ++ 44 :: (B ++ 44 :: C) := by simp
    have htz : trim (((a :: A') ++ [z]) ++ 44 :: (B ++ 44 :: C)) = ((a :: A') ++ [z]) ++ 44 :: (B ++ 44 :: C) := by
      have : Trimmed (((a :: A') ++ [z]) ++ 44 :: (B ++ 44 :: C)) := by
        constructor
        · intro c hc; exact ht.1 c (by simpa using hc)
        · intro c hc
          apply ht.2 c
          rw [← hc]
          have hCl : ∀ w : Str, (w ++ C).getLast? = C.getLast? := fun w => List.getLast?_append_of_ne_nil _ hC
          have e1 : (a :: A') ++ x :: 44 :: (B ++ 44 :: C) = ((a :: A') ++ x :: 44 :: (B ++ [44])) ++ C := by simp
          have e2 : (a :: A' ++ [z]) ++ 44 :: (B ++ 44 :: C) = ((a :: A' ++ [z]) ++ 44 :: (B ++ [44])) ++ C := by simp
          rw [e1, e2, hCl, hCl]
      have h := trim_around (a := []) (b := []) (by intro c hc; cases hc) (by intro c hc; cases hc) this
      simpa using h
    rw [e, line_shape s _ ((a :: A') ++ [z]) B C htz (by simp only [List.mem_append, List.mem_singleton, not_or]; exact ⟨hA, Ne.symm hz⟩) hB
      (by
        rintro ⟨w, hw⟩
        simp only [List.cons_append, List.cons.injEq] at hw
        exact h47 (by rw [← hw.1]; rfl))
      (by simpa using h36) (by simp) hC, List.dropLast_concat]
  rw [key x hx, key y hy]

/-- The last digit of the frames is lost. -/
example (s : StlTextSt) : stlTextLine s b!"0:0:1:02,0:0:2:0,a" = stlTextLine s b!"0:0:1:0 ,0:0:2:0,a" :=
  C38_ignored_byte s b!"0:0:1:0" b!"0:0:2:0" b!"a" 50 32 (by decide) (by decide) (by decide) (by decide) (by decide) (by decide)
    ⟨by intro c hc; cases hc; decide, by intro c hc; cases hc; decide⟩ (by decide) (by decide)

/-- C38 is false: without a space before the comma the last digit of the frame is lost (and if it is the only digit, `bad_lexical_cast` is thrown). -/
theorem C38_false :
    (stlTextRead b!"00:00:01:24 , 00:00:02:10 , a\n").toOption.map (·.map (fun r => r.from_)) = some [⟨1, 24, none⟩] ∧
    (stlTextRead b!"00:00:01:24, 00:00:02:10, a\n").toOption.map (·.map (fun r => r.from_)) = some [⟨1, 2, none⟩] ∧
    stlTextRead b!"0:0:1:4, 0:0:2:1, a\n" = .error .badLexicalCast := by
  refine ⟨?_, ?_, ?_⟩ <;> decide +kernel

/-- C38: with any number of spaces, at least one, before the first comma, and any number after it and around the second, the times are the same. -/
theorem C38_spaced_partial (f t : Stamp) (ts : List TTok) (hi : (TItem.sub f t 0 0 0 ts).Valid) (hb : (TItem.sub f t 0 0 0 ts).events.count .bar < 2 ^ 31 - 1) (a b c : Nat) :
    stlTextRead ((TItem.sub f t a b c ts).core ++ [10]) = stlTextRead ((TItem.sub f t 0 0 0 ts).core ++ [10]) := by
  have key : ∀ a b c, stlTextRead ((TItem.sub f t a b c ts).core ++ [10]) = .ok (evRaws [] ((TItem.sub f t 0 0 0 ts).events)) := by
    intro a b c
    have h := C37_file [⟨[], .sub f t a b c ts, []⟩] (by
      intro l hl
      rw [List.mem_singleton] at hl
      subst hl
      exact ⟨by simp, by simp, hi⟩) (by simpa [fileEvents, TItem.events] using hb)
    have e1 : unlines ([(⟨[], .sub f t a b c ts, []⟩ : TLine)].map TLine.text) = (TItem.sub f t a b c ts).core ++ [10] := by
      simp [unlines, TLine.text]
    have e2 : fileEvents [(⟨[], .sub f t a b c ts, []⟩ : TLine)] = (TItem.sub f t 0 0 0 ts).events := by
      simp [fileEvents, TItem.events]
    rw [e1, e2] at h
    exact h
  rw [key a b c, key 0 0 0]

example : (TItem.sub ⟨0, 0, 1, 24, 1, 1, 1, 0⟩ ⟨0, 0, 2, 10, 1, 1, 1, 0⟩ 0 0 0 [.text b!"a"]).Valid := by
  refine ⟨?_, ?_, ?_, by decide +kernel, ?_⟩
  · simp [Stamp.Valid]
  · simp [Stamp.Valid]
  · simp [ValidToks]
  · intro c hc; cases hc; decide

/-! ### C41: the last line -/

/-- C41: what comes after the last newline is never read. -/
theorem C41_dropped (s last : Str) (h : (10 : Byte) ∉ last) : stlTextRead (s ++ 10 :: last) = stlTextRead (s ++ [10]) := by
  have key : ∀ n, ∀ s : Str, s.length ≤ n → streamLines (s ++ 10 :: last) = streamLines (s ++ [10]) := by
    intro n
    induction n with
    | zero =>
      intro s hs
      have : s = [] := List.length_eq_zero_iff.1 (by omega)
      subst this
      rw [List.nil_append, List.nil_append, ← List.nil_append (10 :: last), streamLines_cons _ _ (by simp), ← List.nil_append [10], streamLines_cons _ _ (by simp)]
      congr 1
      have := streamLines_unlines [] last (by simp) h
      simpa [unlines, streamLines, splitAny] using this
    | succ n ih =>
      intro s hs
      rcases newline_cases s with hn | ⟨a, b, rfl, ha⟩
      · rw [streamLines_cons _ _ hn, streamLines_cons _ _ hn]
        congr 1
        have := streamLines_unlines [] last (by simp) h
        simpa [unlines, streamLines, splitAny] using this
      · have e1 : a ++ 10 :: b ++ 10 :: last = a ++ 10 :: (b ++ 10 :: last) := by simp
        have e2 : a ++ 10 :: b ++ [10] = a ++ 10 :: (b ++ [10]) := by simp
        rw [e1, e2, streamLines_cons _ _ ha, streamLines_cons _ _ ha, ih b (by simp at hs; omega)]
  unfold stlTextRead
  rw [key s.length s (Nat.le_refl _)]

example : stlTextRead b!"\n0:0:1:0 ,0:0:2:0,a" = .ok [] := (C41_dropped [] b!"0:0:1:0 ,0:0:2:0,a" (by decide)).trans (by decide +kernel)

/-- C41 is false: a file of one subtitle line is read as empty if it does not end in a newline. -/
theorem C41_false :
    stlTextRead b!"0:0:1:0 ,0:0:2:0,a" = .ok [] ∧ (stlTextRead b!"0:0:1:0 ,0:0:2:0,a\n").toOption.map (·.map Raw.text) = some [b!"a"] := by
  constructor <;> decide +kernel

/-- C41: if the last line ends in a newline it is read (it is processed after all others). -/
theorem C41_newline_partial (ls : List Str) (last : Str) (h : ∀ l ∈ ls, (10 : Byte) ∉ l) (hl : (10 : Byte) ∉ last) :
    stlTextRead (unlines ls ++ (last ++ [10])) = (do
      let st ← stlTextLines {} ls
      let st ← stlTextLine st last
      pure st.subs) := by
  have e : streamLines (unlines ls ++ (last ++ [10])) = ls ++ [last] := by
    rw [streamLines_append _ _ h, streamLines_cons _ _ hl]; rfl
  unfold stlTextRead
  rw [e, lines_append]
  cases stlTextLines {} ls with
  | error e => rfl
  | ok st =>
    rw [ok_bind, ok_bind, stlTextLines]
    cases stlTextLine st last <;> rfl

example : (10 : Byte) ∉ (b!"0:0:1:0 ,0:0:2:0,a" : Str) := by decide

/-! ### C27 for STL text -/

private theorem push_ne (s : StlTextSt) (h : ∀ r ∈ s.subs, r.text ≠ []) : ∀ r ∈ s.maybePush.subs, r.text ≠ [] := by
  unfold StlTextSt.maybePush
  split
  · exact h
  · rename_i hne
    intro r hr
    simp only [List.mem_append, List.mem_singleton] at hr
    rcases hr with hr | rfl
    · exact h r hr
    · simpa using hne

private theorem chars_ne (cs : Str) (s s' : StlTextSt) (h : ∀ r ∈ s.subs, r.text ≠ []) (he : stlTextChars s cs = .ok s') : ∀ r ∈ s'.subs, r.text ≠ [] := by
  suffices key : ∀ n, ∀ cs : Str, cs.length ≤ n → ∀ s s' : StlTextSt, (∀ r ∈ s.subs, r.text ≠ []) → stlTextChars s cs = .ok s' → ∀ r ∈ s'.subs, r.text ≠ [] from
    key _ cs (Nat.le_refl _) s s' h he
  intro n
  induction n with
  | zero =>
    intro cs hn s s' h he
    have : cs = [] := List.length_eq_zero_iff.1 (by omega)
    subst this
    cases he
    exact h
  | succ n ih =>
    intro cs hn s s' h he
    unfold stlTextChars at he
    split at he
    · cases he; exact h
    · rename_i cs
      rw [bind_eq_ok] at he
      obtain ⟨l, -, he⟩ := he
      rw [bind_eq_ok] at he
      obtain ⟨l', -, he⟩ := he
      refine ih cs (by simpa using hn) _ _ ?_ he
      exact push_ne s h
    · cases he; exact push_ne s h
    · rename_i d cs
      refine ih cs (by simp at hn; omega) _ _ ?_ he
      have := push_ne s h
      split
      · exact this
      · split
        · exact this
        · split <;> exact this
    · rename_i c cs _ _ _
      refine ih cs (by simpa using hn) _ _ ?_ he
      exact h

private theorem set_subs (s s' : StlTextSt) (n v : Str) (h : s.set n v = .ok s') : s'.subs = s.subs := by
  unfold StlTextSt.set at h
  split at h
  · cases h; rfl
  · split at h
    · cases h; rfl
    · split at h
      · cases h; rfl
      · split at h
        · cases h; rfl
        · split at h
          · rw [bind_eq_ok] at h
            obtain ⟨i, -, h⟩ := h
            cases h; rfl
          · cases h; rfl

private theorem line_ne (l : Str) (s s' : StlTextSt) (h : ∀ r ∈ s.subs, r.text ≠ []) (he : stlTextLine s l = .ok s') : ∀ r ∈ s'.subs, r.text ≠ [] := by
  unfold stlTextLine at he
  simp only at he
  split at he
  · cases he; exact h
  · split at he
    · split at he
      · rw [set_subs _ _ _ _ he]; exact h
      · cases he; exact h
    · split at he
      · cases he; exact h
      · split at he
        · cases he; exact h
        · split at he
          · cases he; exact h
          · rw [bind_eq_ok] at he
            obtain ⟨f, -, he⟩ := he
            rw [bind_eq_ok] at he
            obtain ⟨t, -, he⟩ := he
            split at he
            · rw [bind_eq_ok] at he
              obtain ⟨st, hc, he⟩ := he
              cases he
              refine push_ne _ (chars_ne _ _ _ ?_ hc)
              exact h
            · cases he; exact h

/-- C27 for STL text: every subtitle read has some text. -/
theorem C27_stltext (file : Str) (subs : List Raw) (h : stlTextRead file = .ok subs) : ∀ r ∈ subs, r.text ≠ [] := by
  unfold stlTextRead at h
  rw [bind_eq_ok] at h
  obtain ⟨st, h, he⟩ := h
  cases he
  generalize streamLines file = ls at h
  have key : ∀ ls : List Str, ∀ s s' : StlTextSt, (∀ r ∈ s.subs, r.text ≠ []) → stlTextLines s ls = .ok s' → ∀ r ∈ s'.subs, r.text ≠ [] := by
    intro ls
    induction ls with
    | nil => intro s s' h he; cases he; exact h
    | cons l ls ih =>
      intro s s' h he
      rw [stlTextLines, bind_eq_ok] at he
      obtain ⟨s1, h1, h2⟩ := he
      exact ih s1 s' (line_ne _ _ _ h h1) h2
  exact key ls {} st (by intro r hr; cases hr) h

/-- Text of separators and toggles only. -/
example : (stlTextRead b!"0:0:1:0 ,0:0:2:0,||^B^I|\n0:0:1:0 ,0:0:2:0,^Ba^^\n").toOption.map (·.map Raw.text) = some [b!"a"] := by decide +kernel

end LibSub
