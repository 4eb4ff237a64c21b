/-
Property C119: what an STL text file means.
-/
import Verif.Props.StlTextReport
import Verif.Props.SsaFileExact

namespace LibSub

/-! ### Specification -/

/-- `x` with white space around it, or with none. -/
def Padded (w x : Str) : Prop := Trimmed x ∧ ∃ a b, w = a ++ x ++ b ∧ ∀ c ∈ a ++ b, isSpace c = true

/-- A time: four whole numbers with colons between them, the last one counting frames of an unknown rate. -/
def TimeSays (w : Str) (t : Time) : Prop := ∃ x h m s f, Padded w x ∧ HmsFields 58 x h m s f ∧ SecondsFit h m s ∧ t = ⟨h * 3600 + m * 60 + s, f, none⟩

/-- What a setting says; of names which are not known, nothing. -/
inductive SettingSays : Str → Str → List Ev → Prop
  | font (v : Str) : SettingSays b!"$FontName" v [.setFont v]
  | face (f : Face) (v : Str) : SettingSays (faceVar f) v [.setFace f (decide (v = b!"True"))]
  | size (v : Str) (n : Int) : IntText v n → SettingSays b!"$FontSize" v [.setSize n]
  | other (n v : Str) : n ∉ [b!"$FontName", b!"$Bold", b!"$Italic", b!"$Underlined", b!"$FontSize"] → SettingSays n v []

/-- What the text of a subtitle says. -/
inductive TextSays : Str → List Ev → Prop
  | done : TextSays [] []
  /-- `^` at the end -/
  | last : TextSays [94] []
  /-- `|` -/
  | bar (r : Str) (e : List Ev) : TextSays r e → TextSays (124 :: r) (.bar :: e)
  /-- `^B`, `^I`, `^U` -/
  | toggle (f : Face) (r : Str) (e : List Ev) : TextSays r e → TextSays (94 :: faceByte f :: r) (.toggle f :: e)
  /-- `^` and any other byte -/
  | other (c : Byte) (r : Str) (e : List Ev) : (∀ f, c ≠ faceByte f) → TextSays r e → TextSays (94 :: c :: r) e
  /-- as much text as there is up to `|` or `^` -/
  | text (s r : Str) (e : List Ev) : s ≠ [] → (∀ c ∈ s, c ≠ 124 ∧ c ≠ 94) → (∀ c, r.head? = some c → c = 124 ∨ c = 94) → TextSays r e → TextSays (s ++ r) (.text s :: e)

/-- A line of the form `from,to,text`, with at least one byte in `from` and in `text`; the byte before the first comma does not count. -/
def SubtitleLine (l A B C : Str) : Prop :=
  ∃ x, l = A ++ x :: 44 :: (B ++ 44 :: C) ∧ (44 : Byte) ∉ A ∧ x ≠ 44 ∧ (44 : Byte) ∉ B ∧ A ≠ [] ∧ C ≠ [] ∧ ¬ b!"//" <+: l ∧ ¬ b!"$" <+: l

/-- What a line without white space at its ends says. -/
inductive StlLineSays : Str → List Ev → Prop
  | comment (r : Str) : StlLineSays (b!"//" ++ r) []
  /-- `$name=value` -/
  | setting (n v n' v' : Str) (e : List Ev) : (61 : Byte) ∉ n → (61 : Byte) ∉ v → Padded (36 :: n) n' → Padded v v' → SettingSays n' v' e → StlLineSays (36 :: (n ++ 61 :: v)) e
  /-- `$` with no or several `=` -/
  | badSetting (r : Str) : r.count 61 ≠ 1 → StlLineSays (36 :: r) []
  /-- none of these -/
  | unknown (l : Str) : ¬ b!"//" <+: l → ¬ b!"$" <+: l → (∀ A B C, ¬ SubtitleLine l A B C) → StlLineSays l []
  /-- a time has more or fewer than three colons: the line is passed over; but if the other has three, then its four parts must be whole numbers -/
  | badTime (l A B C : Str) : SubtitleLine l A B C → (∃ w ∈ [A, B], w.count 58 ≠ 3) → (∀ w ∈ [A, B], w.count 58 = 3 → ∃ t, TimeSays w t) → StlLineSays l []
  | subtitle (l A B C : Str) (f t : Time) (e : List Ev) : SubtitleLine l A B C → TimeSays A f → TimeSays B t → TextSays C e → StlLineSays l (.times f t :: e)

/-- The line numbers can be counted in an `int`. -/
def LinesFit (hist : List Ev) : List Ev → Prop
  | [] => True
  | e :: r => (e = .bar → barsSinceText hist < 2147483647) ∧ LinesFit (hist ++ [e]) r

/-- The subtitles of an STL text file: the lines which end with a newline say, one after the other, how to read on and what the texts are. -/
def StlTextFile (s : Str) (subs : List Raw) : Prop :=
  ∃ (ls : List Str) (last : Str) (es : List (List Ev)), s = unlines ls ++ last ∧ (∀ l ∈ ls, (10 : Byte) ∉ l) ∧ (10 : Byte) ∉ last ∧
    List.Forall₂ (fun l e => ∃ x, Padded l x ∧ StlLineSays x e) ls es ∧ LinesFit [] es.flatten ∧ subs = evRaws [] es.flatten

/-! ### White space -/

theorem padded_trim (w : Str) : Padded w (trim w) := by
  obtain ⟨b, hb, hbs⟩ := trimRightIf_prefix isSpace w
  refine ⟨trim_trimmed w, (trimRightIf isSpace w).takeWhile isSpace, b, ?_, ?_⟩
  · rw [show trim w = (trimRightIf isSpace w).dropWhile isSpace from rfl, List.takeWhile_append_dropWhile]
    exact hb
  · intro c hc
    rcases List.mem_append.1 hc with hc | hc
    · exact List.all_eq_true.1 (List.all_takeWhile (p := isSpace)) c hc
    · exact hbs c hc

theorem padded_iff (w x : Str) : Padded w x ↔ trim w = x := by
  constructor
  · rintro ⟨hx, a, b, rfl, h⟩
    exact trim_around (fun c hc => h c (by simp [hc])) (fun c hc => h c (by simp [hc])) hx
  · rintro rfl
    exact padded_trim w

/-! ### Times -/

theorem time_says (w : Str) (t : Time) : stlTextTime (trim w) = .ok (some t) ↔ TimeSays w t := by
  unfold stlTextTime TimeSays
  constructor
  · intro h
    split at h
    · rename_i a b c d e
      obtain ⟨x, y, z, hx, hy, hz, e, -⟩ := (split4_iff _ _ _ _ _ _).1 e
      simp only [beq_iff_eq] at hx hy hz
      subst hx hy hz
      obtain ⟨h', h1, h⟩ := bind_eq_ok.1 h
      obtain ⟨m, h2, h⟩ := bind_eq_ok.1 h
      obtain ⟨s, h3, h⟩ := bind_eq_ok.1 h
      obtain ⟨f, h4, h⟩ := bind_eq_ok.1 h
      obtain ⟨t', h5, h⟩ := bind_eq_ok.1 h
      cases h
      unfold Time.fromHmsf at h5
      obtain ⟨q, k, h6⟩ := bind_eq_ok.1 h5
      cases h6
      have fit : SecondsFit h' m s ∧ q = h' * 3600 + m * 60 + s := by
        unfold hmsSeconds at k
        obtain ⟨_, c1, k⟩ := bind_eq_ok.1 k
        obtain ⟨_, c2, k⟩ := bind_eq_ok.1 k
        obtain ⟨_, c3, k⟩ := bind_eq_ok.1 k
        rw [ck_eq_ok] at c1 c2 c3 k
        obtain ⟨k1, rfl⟩ := c1
        obtain ⟨k2, rfl⟩ := c2
        obtain ⟨k3, rfl⟩ := c3
        obtain ⟨k4, rfl⟩ := k
        exact ⟨⟨k1, k2, k3, k4⟩, rfl⟩
      obtain ⟨fit, rfl⟩ := fit
      exact ⟨trim w, h', m, s, f, padded_trim w, ⟨a, b, c, d, e, (lexicalCastInt_iff _ _).1 h1, (lexicalCastInt_iff _ _).1 h2, (lexicalCastInt_iff _ _).1 h3, (lexicalCastInt_iff _ _).1 h4⟩, fit, rfl⟩
    · cases h
  · rintro ⟨x, h, m, s, f, hp, ⟨a, b, c, d, e, h1, h2, h3, h4⟩, ⟨k1, k2, k3, k4⟩, rfl⟩
    rw [(padded_iff w x).1 hp]
    have no : ∀ {a : Str} {v : Int}, IntText a v → ∀ c ∈ a, (c == 58) = false := by
      rintro a v ⟨-, ds, -, hd, h⟩ c hc
      have hm : c ∈ ds ∨ c = 43 ∨ c = 45 := by
        rcases h with ⟨rfl | rfl, -⟩ | ⟨rfl, -⟩
        · exact .inl hc
        · exact (List.mem_cons.1 hc).elim (fun e => .inr (.inl e)) .inl
        · exact (List.mem_cons.1 hc).elim (fun e => .inr (.inr e)) .inl
      rcases hm with hm | rfl | rfl
      · exact forall_byte (p := fun c => c ∈ b!"0123456789" → (c == 58) = false) (by decide +kernel) c (hd c hm)
      · rfl
      · rfl
    rw [(split4_iff _ _ a b c d).2 ⟨58, 58, 58, by decide, by decide, by decide, e, by
      intro c hc
      simp only [List.mem_append] at hc
      rcases hc with ((hc | hc) | hc) | hc
      · exact no h1 c hc
      · exact no h2 c hc
      · exact no h3 c hc
      · exact no h4 c hc⟩]
    simp only [(lexicalCastInt_iff _ _).2 h1, (lexicalCastInt_iff _ _).2 h2, (lexicalCastInt_iff _ _).2 h3, (lexicalCastInt_iff _ _).2 h4, ok_bind]
    unfold Time.fromHmsf hmsSeconds
    rw [ck_ok k1]
    simp only [ok_bind]
    rw [ck_ok k2]
    simp only [ok_bind]
    rw [ck_ok k3]
    simp only [ok_bind]
    rw [ck_ok k4]
    rfl

theorem time_passed (w : Str) : stlTextTime (trim w) = .ok none ↔ w.count 58 ≠ 3 := by
  constructor
  · intro h
    have := time_none h
    simpa using this
  · intro h
    unfold stlTextTime
    have hl := split_count 58 (trim w)
    rw [count_trim w 58 (by decide)] at hl
    split
    · rename_i a b c d e
      rw [e] at hl
      simp at hl
      omega
    · rfl

theorem timeSays_count {w : Str} {t : Time} (h : TimeSays w t) : w.count 58 = 3 := by
  have := time_none ((time_says w t).2 h)
  simpa using this

/-! ### Settings -/

theorem setting_says (hist : List Ev) (subs : List Raw) (n v : Str) (st : StlTextSt) :
    (HistSt hist subs).set n v = .ok st ↔ ∃ e, SettingSays n v e ∧ st = HistSt (hist ++ e) subs := by
  unfold StlTextSt.set
  have hb : (v == b!"True") = decide (v = b!"True") := by
    by_cases h : v = b!"True" <;> simp [h]
  rw [hb]
  constructor
  · intro h
    rcases ite_cases h with ⟨c1, g⟩ | ⟨c1, g⟩
    · cases g
      exact ⟨_, (c1 ▸ SettingSays.font v : SettingSays n v [.setFont v]), by unfold HistSt; rw [raw_font]⟩
    rcases ite_cases g with ⟨c2, g⟩ | ⟨c2, g⟩
    · cases g
      exact ⟨_, (c2 ▸ SettingSays.face .bold v : SettingSays n v [.setFace .bold (decide (v = b!"True"))]), by unfold HistSt; rw [raw_setFace]⟩
    rcases ite_cases g with ⟨c3, g⟩ | ⟨c3, g⟩
    · cases g
      exact ⟨_, (c3 ▸ SettingSays.face .italic v : SettingSays n v [.setFace .italic (decide (v = b!"True"))]), by unfold HistSt; rw [raw_setFace]⟩
    rcases ite_cases g with ⟨c4, g⟩ | ⟨c4, g⟩
    · cases g
      exact ⟨_, (c4 ▸ SettingSays.face .underline v : SettingSays n v [.setFace .underline (decide (v = b!"True"))]), by unfold HistSt; rw [raw_setFace]⟩
    rcases ite_cases g with ⟨c5, g⟩ | ⟨c5, g⟩
    · obtain ⟨i, hi, g⟩ := bind_eq_ok.1 g
      cases g
      exact ⟨_, (c5 ▸ SettingSays.size v i ((lexicalCastInt_iff _ _).1 hi) : SettingSays n v [.setSize i]), by unfold HistSt; rw [raw_size]; rfl⟩
    · cases g
      exact ⟨_, .other n v (by simp [c1, c2, c3, c4, c5]), by simp⟩
  · rintro ⟨e, h, rfl⟩
    cases h with
    | font => 
      rw [if_pos rfl]
      unfold HistSt; rw [raw_font]
    | face f =>
      cases f with
      | bold =>
        rw [if_neg (by decide), if_pos (by decide)]
        unfold HistSt; rw [raw_setFace]
      | italic =>
        rw [if_neg (by decide), if_neg (by decide), if_pos (by decide)]
        unfold HistSt; rw [raw_setFace]
      | underline =>
        rw [if_neg (by decide), if_neg (by decide), if_neg (by decide), if_pos (by decide)]
        unfold HistSt; rw [raw_setFace]
    | size _ i hi =>
      rw [if_neg (by decide), if_neg (by decide), if_neg (by decide), if_neg (by decide), if_pos rfl, (lexicalCastInt_iff _ _).2 hi]
      unfold HistSt; rw [raw_size]
      rfl
    | other _ _ hn =>
      simp only [List.mem_cons, List.not_mem_nil, or_false, not_or] at hn
      obtain ⟨n1, n2, n3, n4, n5⟩ := hn
      rw [if_neg n1, if_neg n2, if_neg n3, if_neg n4, if_neg n5, List.append_nil]

theorem settingSays_raws {n v : Str} {e : List Ev} (h : SettingSays n v e) (hist : List Ev) : evRaws hist e = [] ∧ LinesFit hist e := by
  cases h <;> simp [evRaws, LinesFit]

/-! ### Text -/

theorem textSays_total (s : Str) : ∃ e, TextSays s e := by
  suffices key : ∀ n, ∀ s : Str, s.length ≤ n → ∃ e, TextSays s e from key _ s (Nat.le_refl _)
  intro n
  induction n with
  | zero =>
    intro s hs
    have : s = [] := List.length_eq_zero_iff.1 (by omega)
    subst this
    exact ⟨_, .done⟩
  | succ n ih =>
    intro s hs
    match s, hs with
    | [], _ => exact ⟨_, .done⟩
    | c :: r, hs =>
      simp only [List.length_cons] at hs
      by_cases h1 : c = 124
      · obtain ⟨e, he⟩ := ih r (by omega)
        subst h1
        exact ⟨_, .bar r e he⟩
      by_cases h2 : c = 94
      · subst h2
        match r, hs with
        | [], _ => exact ⟨_, .last⟩
        | d :: r, hs =>
          simp only [List.length_cons] at hs
          obtain ⟨e, he⟩ := ih r (by omega)
          by_cases h3 : ∃ f, d = faceByte f
          · obtain ⟨f, rfl⟩ := h3
            exact ⟨_, .toggle f r e he⟩
          · exact ⟨_, .other d r e (fun f hf => h3 ⟨f, hf⟩) he⟩
      · have split := List.takeWhile_append_dropWhile (p := fun c => !(c == 124 || c == 94)) (l := r)
        obtain ⟨e, he⟩ := ih (r.dropWhile (fun c => !(c == 124 || c == 94))) (by
          have := congrArg List.length split
          rw [List.length_append] at this
          omega)
        refine ⟨.text (c :: r.takeWhile (fun c => !(c == 124 || c == 94))) :: e, ?_⟩
        have : c :: r = (c :: r.takeWhile (fun c => !(c == 124 || c == 94))) ++ r.dropWhile (fun c => !(c == 124 || c == 94)) := by
          rw [List.cons_append, split]
        rw [this]
        refine .text _ _ e (by simp) ?_ ?_ he
        · intro x hx
          rcases List.mem_cons.1 hx with rfl | hx
          · exact ⟨h1, h2⟩
          · have := List.all_eq_true.1 (List.all_takeWhile (p := fun c => !(c == 124 || c == 94))) x hx
            simpa using this
        · intro x hx
          have := List.head?_dropWhile_not (fun c => !(c == 124 || c == 94)) r
          rw [hx] at this
          by_cases h : x = 124
          · exact .inl h
          · exact .inr (by simpa [h] using this)

private theorem chars_overflow (st : StlTextSt) (rest : Str) (l : Int) (hl : st.maybePush.sub.vpos.line = some l) (hb : 2147483647 ≤ l) :
    stlTextChars st (124 :: rest) = .error (.ub .intOverflow) := by
  have : ¬ InInt (l + 1) := by unfold InInt; omega
  rw [stlTextChars]
  simp only [hl, optGet, ok_bind, ck, if_neg this, error_bind]

/-- The state after the text of a subtitle. -/
theorem chars_says {s : Str} {e : List Ev} (h : TextSays s e) (hist : List Ev) (subs : List Raw) (st st' : StlTextSt)
    (hst : st = HistSt hist subs ∨ (st.maybePush = HistSt hist subs ∧ ∀ c, s.head? = some c → c = 124 ∨ c = 94)) :
    (stlTextChars st s).map StlTextSt.maybePush = .ok st' ↔ LinesFit hist e ∧ st' = HistSt (hist ++ e) (subs ++ evRaws hist e) := by
  have hp : ∀ {hist : List Ev} {subs : List Raw} {st : StlTextSt} {P : Prop}, (st = HistSt hist subs ∨ (st.maybePush = HistSt hist subs ∧ P)) → st.maybePush = HistSt hist subs := by
    intro hist subs st P hst
    rcases hst with h | h
    · rw [h]; rfl
    · exact h.1
  have pp : ∀ (hist : List Ev) (subs : List Raw), (HistSt hist subs).maybePush = HistSt hist subs := fun _ _ => rfl
  have triv : ∀ x : StlTextSt, (Except.ok x : R StlTextSt) = .ok st' ↔ True ∧ st' = x := by
    intro x
    constructor
    · intro h; cases h; exact ⟨trivial, rfl⟩
    · rintro ⟨-, rfl⟩; rfl
  induction h generalizing hist subs st with
  | done =>
    have := hp hst
    simp only [stlTextChars, Except.map, this, LinesFit, evRaws, List.append_nil]
    exact triv _
  | last =>
    have := hp hst
    simp only [stlTextChars, Except.map, this, LinesFit, evRaws, List.append_nil, pp]
    exact triv _
  | bar r e _ ih =>
    have hp := hp hst
    have hline : st.maybePush.sub.vpos.line = some (barsSinceText hist : Int) := by rw [hp]; rfl
    by_cases hb : barsSinceText hist < 2147483647
    · rw [chars_bar st _ _ hline (by omega) (by omega), hp]
      have e2 : ({ HistSt hist subs with sub := { (HistSt hist subs).sub with vpos := { (HistSt hist subs).sub.vpos with line := some ((barsSinceText hist : Int) + 1) } } } : StlTextSt) =
          HistSt (hist ++ [.bar]) subs := by
        unfold HistSt
        rw [raw_bar]
        rfl
      rw [e2]
      refine (ih (hist ++ [.bar]) subs _ (.inl rfl)).trans ?_
      simp [LinesFit, evRaws, hb]
    · rw [chars_overflow st r _ hline (by omega)]
      constructor
      · intro h; cases h
      · intro h
        exact absurd (h.1.1 rfl) hb
  | toggle f r e _ ih =>
    rw [stlTextChars, hp hst]
    have e2 : (if (faceByte f == 66) = true then { HistSt hist subs with sub := { (HistSt hist subs).sub with bold := !(HistSt hist subs).sub.bold } }
        else if (faceByte f == 73) = true then { HistSt hist subs with sub := { (HistSt hist subs).sub with italic := !(HistSt hist subs).sub.italic } }
        else if (faceByte f == 85) = true then { HistSt hist subs with sub := { (HistSt hist subs).sub with underline := !(HistSt hist subs).sub.underline } }
        else HistSt hist subs) = HistSt (hist ++ [.toggle f]) subs := by
      unfold HistSt
      rw [raw_toggle]
      cases f <;> rfl
    simp only [e2]
    refine (ih (hist ++ [Ev.toggle f]) subs _ (.inl rfl)).trans ?_
    simp [LinesFit, evRaws]
  | other c r e hc _ ih =>
    rw [stlTextChars, hp hst]
    have b1 : (c == 66) = false := by simpa [faceByte] using hc .bold
    have b2 : (c == 73) = false := by simpa [faceByte] using hc .italic
    have b3 : (c == 85) = false := by simpa [faceByte] using hc .underline
    simp only [b1, b2, b3, Bool.false_eq_true, if_false]
    exact ih hist subs _ (.inl rfl)
  | text s r e h0 hs hr _ ih =>
    have hst : st = HistSt hist subs := by
      rcases hst with h | h
      · exact h
      · cases s with
        | nil => exact absurd rfl h0
        | cons c s =>
          have a1 := h.2 c rfl
          have a2 := hs c (by simp)
          exact absurd a1 (by simp [a2])
    rw [hst, chars_text _ _ _ hs]
    have e2 : ({ HistSt hist subs with sub := { (HistSt hist subs).sub with text := (HistSt hist subs).sub.text ++ s } } : StlTextSt) = ⟨evRaw hist s, subs⟩ := rfl
    rw [e2]
    refine (ih (hist ++ [.text s]) (subs ++ [evRaw hist s]) _ (.inr ⟨push_text hist subs s h0, hr⟩)).trans ?_
    simp [LinesFit, evRaws]

/-! ### Lines -/

theorem subtitleLine_or {l : Str} (h1 : ¬ b!"//" <+: l) (h2 : ¬ b!"$" <+: l) :
    (∃ A B C, SubtitleLine l A B C) ∨ ((∀ A B C, ¬ SubtitleLine l A B C) ∧ ∀ A B C, l = A ++ 44 :: (B ++ 44 :: C) → (44 : Byte) ∉ A → (44 : Byte) ∉ B → A.length < 2 ∨ C = []) := by
  by_cases h : ∃ A B C, SubtitleLine l A B C
  · exact .inl h
  · simp only [not_exists] at h
    refine .inr ⟨h, ?_⟩
    rintro A B C rfl hA hB
    by_contra hc
    simp only [not_or, not_lt] at hc
    obtain ⟨A', x, rfl⟩ : ∃ A' x, A = A' ++ [x] := by
      rcases List.eq_nil_or_concat A with h | ⟨A', x, h⟩
      · subst h; simp at hc
      · exact ⟨A', x, by simpa using h⟩
    simp only [List.mem_append, List.mem_singleton, not_or] at hA
    exact h A' B C ⟨x, by simp, hA.1, Ne.symm hA.2, hB, by rintro rfl; simp at hc, hc.2, h1, h2⟩

theorem not_dollar {l : Str} (h : ¬ b!"$" <+: l) : l.head? ≠ some 36 := by
  intro hh
  cases l with
  | nil => cases hh
  | cons a t => cases hh; exact h ⟨t, rfl⟩

private theorem stay (hist : List Ev) (subs : List Raw) (st : StlTextSt) {e : List Ev} (he : e = []) :
    (Except.ok (HistSt hist subs) : R StlTextSt) = .ok st ↔ LinesFit hist e ∧ st = HistSt (hist ++ e) (subs ++ evRaws hist e) := by
  subst he
  simp only [LinesFit, evRaws, List.append_nil, true_and, Except.ok.injEq]
  exact eq_comm

theorem line_unknown (st : StlTextSt) (raw : Str) (h1 : ¬ b!"//" <+: trim raw) (h2 : ¬ b!"$" <+: trim raw)
    (h : ∀ A B C, trim raw = A ++ 44 :: (B ++ 44 :: C) → (44 : Byte) ∉ A → (44 : Byte) ∉ B → A.length < 2 ∨ C = []) : stlTextLine st raw = .ok st := by
  rcases comma_split (trim raw) with hn | ⟨A, r, e, hA⟩
  · unfold stlTextLine
    simp only []
    rw [startsWith_false_iff.2 h1, startsWith_false_iff.2 h2]
    simp only [Bool.false_eq_true, if_false, findIdx?_none hn]
  · rcases comma_split r with hn | ⟨B, C, rfl, hB⟩
    · unfold stlTextLine
      simp only []
      rw [startsWith_false_iff.2 h1, startsWith_false_iff.2 h2, e]
      have hdrop : (A ++ 44 :: r).drop (A.length + 1) = r := by
        rw [← List.drop_drop, List.drop_left]
        rfl
      simp only [Bool.false_eq_true, if_false, findIdx?_comma hA, hdrop, findIdx?_none hn]
    · have := h A B C e hA hB
      rw [e] at h1 h2
      exact short_line st raw A B C e hA hB h1 (not_dollar h2) this

/-- What is done for a subtitle. -/
theorem line_subtitle (hist : List Ev) (subs : List Raw) (raw A B C : Str) (h : SubtitleLine (trim raw) A B C) :
    stlTextLine (HistSt hist subs) raw = (do
      let from_ ← stlTextTime (trim A)
      let to_ ← stlTextTime (trim B)
      match from_, to_ with
      | some f, some t => do
        let s ← stlTextChars { HistSt hist subs with sub := { (HistSt hist subs).sub with from_ := f, to_ := t } } C
        pure s.maybePush
      | _, _ => pure (HistSt hist subs)) := by
  obtain ⟨x, e, hA, hx, hB, hA0, hC, h1, h2⟩ := h
  have e' : trim raw = (A ++ [x]) ++ 44 :: (B ++ 44 :: C) := by rw [e]; simp
  rw [e'] at h1 h2
  have := line_shape (HistSt hist subs) raw (A ++ [x]) B C e' (by simp [hA, Ne.symm hx]) hB h1 (not_dollar h2)
    (by have := List.length_pos_iff.2 hA0; simp; omega) hC
  rw [List.dropLast_concat] at this
  exact this

theorem split2_iff (p : Byte → Bool) (t a b : Str) : splitAny p t = [a, b] ↔ ∃ x, p x = true ∧ t = a ++ x :: b ∧ ∀ e ∈ a ++ b, p e = false := by
  constructor
  · intro h
    rcases splitAny_cases p t with ⟨h1, _⟩ | ⟨a', s, r, rfl, h1, h2, h3⟩
    · rw [h1] at h; cases h
    · rw [h3] at h
      injection h with ha h
      subst ha
      rcases splitAny_cases p r with ⟨k1, k2⟩ | ⟨a'', s', r', rfl, k1, k2, k3⟩
      · rw [k1] at h
        cases h
        refine ⟨s, h2, rfl, fun e he => ?_⟩
        rcases List.mem_append.1 he with he | he
        · exact h1 e he
        · exact k2 e he
      · rw [k3] at h
        injection h with _ h
        have := splitAny_length p r'
        rw [h] at this
        simp at this
  · rintro ⟨x, hx, rfl, h⟩
    rw [splitAny_append (fun c hc => h c (by simp [hc])) hx, splitAny_noSep (fun c hc => h c (by simp [hc]))]

/-- What is done for `$`. -/
theorem line_dollar (st : StlTextSt) (raw r : Str) (h : trim raw = 36 :: r) :
    stlTextLine st raw = match splitAny (· == 61) (36 :: r) with
      | [n, v] => st.set (trim n) (trim v)
      | _ => .ok st := by
  unfold stlTextLine
  simp only [h]
  rw [show startsWith (36 :: r) b!"//" = false from rfl, show startsWith (36 :: r) b!"$" = true from rfl]
  rfl

/-- One line. -/
theorem line_says (hist : List Ev) (subs : List Raw) (raw : Str) (st : StlTextSt) :
    stlTextLine (HistSt hist subs) raw = .ok st ↔ ∃ e, StlLineSays (trim raw) e ∧ LinesFit hist e ∧ st = HistSt (hist ++ e) (subs ++ evRaws hist e) := by
  constructor
  · intro h
    by_cases h1 : b!"//" <+: trim raw
    · obtain ⟨r, hr⟩ := h1
      refine ⟨[], hr ▸ .comment r, (stay hist subs st rfl).1 ?_⟩
      rw [← h]
      unfold stlTextLine
      simp only []
      rw [if_pos (startsWith_iff.2 ⟨r, hr⟩)]
    · by_cases h2 : b!"$" <+: trim raw
      · obtain ⟨r, hr⟩ := h2
        rw [line_dollar _ raw r hr.symm] at h
        rw [← hr]
        show ∃ e, StlLineSays (36 :: r) e ∧ _
        have hc := split_count 61 (36 :: r)
        rw [List.count_cons_of_ne (by decide)] at hc
        split at h
        · rename_i n v e
          obtain ⟨x, hx, e, hno⟩ := (split2_iff _ _ _ _).1 e
          simp only [beq_iff_eq] at hx
          subst hx
          cases n with
          | nil => simp at e
          | cons c n =>
            simp only [List.cons_append, List.cons.injEq] at e
            obtain ⟨rfl, rfl⟩ := e
            obtain ⟨ev, hs, rfl⟩ := (setting_says _ _ _ _ _).1 h
            have no : ∀ e ∈ n ++ v, e ≠ 61 := fun e he => by simpa using hno e (by simpa using Or.inr (List.mem_append.1 he))
            refine ⟨ev, .setting n v _ _ ev (fun hm => no 61 (by simp [hm]) rfl) (fun hm => no 61 (by simp [hm]) rfl) (padded_trim _) (padded_trim _) hs, (settingSays_raws hs hist).2, ?_⟩
            rw [(settingSays_raws hs hist).1, List.append_nil]
        · rename_i hne
          refine ⟨[], .badSetting r ?_, (stay hist subs st rfl).1 h⟩
          intro h1
          rw [h1] at hc
          match hs : splitAny (· == 61) (36 :: r), hc with
          | [a, b], _ => exact hne a b hs
      · rcases subtitleLine_or h1 h2 with ⟨A, B, C, hl⟩ | ⟨hno, hl⟩
        · rw [line_subtitle hist subs raw A B C hl] at h
          obtain ⟨f, hf, h⟩ := bind_eq_ok.1 h
          obtain ⟨t, ht, h⟩ := bind_eq_ok.1 h
          match f, t, hf, ht, h with
          | some f, some t, hf, ht, h =>
            have hf := (time_says _ _).1 hf
            have ht := (time_says _ _).1 ht
            obtain ⟨e, he⟩ := textSays_total C
            have e3 : ({ HistSt hist subs with sub := { (HistSt hist subs).sub with from_ := f, to_ := t } } : StlTextSt) = HistSt (hist ++ [.times f t]) subs := by
              unfold HistSt
              rw [raw_times]
            simp only [e3] at h
            have := (chars_says he (hist ++ [.times f t]) subs (HistSt (hist ++ [.times f t]) subs) st (.inl rfl)).1 (by
              obtain ⟨s1, h1, h⟩ := bind_eq_ok.1 h
              cases h
              rw [h1]
              rfl)
            refine ⟨_, .subtitle _ A B C f t e hl hf ht he, ⟨(by intro h; cases h), this.1⟩, ?_⟩
            rw [this.2]
            simp [evRaws]
          | none, t, hf, ht, h =>
            refine ⟨[], .badTime _ A B C hl ⟨A, by simp, (time_passed A).1 hf⟩ ?_, (stay hist subs st rfl).1 (by cases t <;> exact h)⟩
            intro w hw hc
            simp only [List.mem_cons, List.not_mem_nil, or_false] at hw
            rcases hw with rfl | rfl
            · exact absurd hc ((time_passed _).1 hf)
            · cases t with
              | none => exact absurd hc ((time_passed _).1 ht)
              | some t => exact ⟨t, (time_says _ _).1 ht⟩
          | some f, none, hf, ht, h =>
            refine ⟨[], .badTime _ A B C hl ⟨B, by simp, (time_passed B).1 ht⟩ ?_, (stay hist subs st rfl).1 h⟩
            intro w hw hc
            simp only [List.mem_cons, List.not_mem_nil, or_false] at hw
            rcases hw with rfl | rfl
            · exact ⟨f, (time_says _ _).1 hf⟩
            · exact absurd hc ((time_passed _).1 ht)
        · refine ⟨[], .unknown _ h1 h2 hno, (stay hist subs st rfl).1 ?_⟩
          rw [← h]
          exact (line_unknown (HistSt hist subs) raw h1 h2 hl).symm
  · rintro ⟨e, h, hf, rfl⟩
    generalize el : trim raw = l at h
    cases h with
    | comment r =>
      rw [(stay hist subs _ rfl).2 ⟨hf, rfl⟩ |>.symm]
      unfold stlTextLine
      simp only [el]
      rw [if_pos (startsWith_iff.2 ⟨r, rfl⟩)]
    | setting n v n' v' _ hn hv pn pv hs =>
      rw [line_dollar _ raw _ el, show (36 :: (n ++ 61 :: v) : Str) = (36 :: n) ++ 61 :: v from rfl,
        (split2_iff _ _ (36 :: n) v).2 ⟨61, by decide, rfl, ?_⟩]
      · simp only [(padded_iff _ _).1 pn, (padded_iff _ _).1 pv]
        rw [(settingSays_raws hs hist).1, List.append_nil]
        exact (setting_says _ _ _ _ _).2 ⟨_, hs, rfl⟩
      · intro c hc
        simp only [List.cons_append, List.mem_cons, List.mem_append] at hc
        have : c ≠ 61 := by
          rintro rfl
          rcases hc with hc | hc | hc
          · exact absurd hc (by decide)
          · exact hn hc
          · exact hv hc
        simpa using this
    | badSetting r hr =>
      rw [line_dollar _ raw _ el, (stay hist subs _ rfl).2 ⟨hf, rfl⟩ |>.symm]
      split
      · rename_i n v e
        have hc := split_count 61 (36 :: r)
        rw [e, List.count_cons_of_ne (by decide)] at hc
        simp at hc
        exact absurd hc hr
      · rfl
    | unknown _ h1 h2 h3 =>
      subst el
      rcases subtitleLine_or h1 h2 with ⟨A, B, C, hl⟩ | ⟨-, hl⟩
      · exact absurd hl (h3 A B C)
      · rw [line_unknown (HistSt hist subs) raw h1 h2 hl]
        exact (stay hist subs _ rfl).2 ⟨hf, rfl⟩
    | badTime _ A B C hl hb hg =>
      subst el
      rw [line_subtitle hist subs raw A B C hl]
      have each : ∀ w ∈ [A, B], stlTextTime (trim w) = .ok none ∨ ∃ t, stlTextTime (trim w) = .ok (some t) := by
        intro w hw
        by_cases hc : w.count 58 = 3
        · obtain ⟨t, ht⟩ := hg w hw hc
          exact .inr ⟨t, (time_says _ _).2 ht⟩
        · exact .inl ((time_passed _).2 hc)
      refine Eq.trans ?_ ((stay hist subs _ rfl).2 ⟨hf, rfl⟩)
      rcases each A (by simp) with ha | ⟨f, ha⟩
      · rcases each B (by simp) with hb' | ⟨t, hb'⟩ <;> rw [ha, hb'] <;> rfl
      · rcases each B (by simp) with hb' | ⟨t, hb'⟩
        · rw [ha, hb']; rfl
        · exfalso
          obtain ⟨w, hw, hc⟩ := hb
          have := (time_passed w).2 hc
          simp only [List.mem_cons, List.not_mem_nil, or_false] at hw
          rcases hw with rfl | rfl
          · rw [ha] at this; cases this
          · rw [hb'] at this; cases this
    | subtitle _ A B C f t e hl hA hB hC =>
      subst el
      rw [line_subtitle hist subs raw A B C hl, (time_says _ _).2 hA, ok_bind, (time_says _ _).2 hB, ok_bind]
      have e3 : ({ HistSt hist subs with sub := { (HistSt hist subs).sub with from_ := f, to_ := t } } : StlTextSt) = HistSt (hist ++ [.times f t]) subs := by
        unfold HistSt
        rw [raw_times]
      simp only [e3]
      have := (chars_says hC (hist ++ [.times f t]) subs (HistSt (hist ++ [.times f t]) subs) _ (.inl rfl)).2 ⟨hf.2, rfl⟩
      cases hc : stlTextChars (HistSt (hist ++ [Ev.times f t]) subs) C with
      | error e => rw [hc] at this; cases this
      | ok s =>
        rw [hc] at this
        simp only [Except.map] at this
        rw [ok_bind, pure_eq_ok, this]
        simp [evRaws]

/-! ### Files -/

theorem linesFit_append (hist a b : List Ev) : LinesFit hist (a ++ b) ↔ LinesFit hist a ∧ LinesFit (hist ++ a) b := by
  induction a generalizing hist with
  | nil => simp [LinesFit]
  | cons e a ih => simp [LinesFit, ih, and_assoc]

theorem lines_say (ls : List Str) (hist : List Ev) (subs : List Raw) (st : StlTextSt) :
    stlTextLines (HistSt hist subs) ls = .ok st ↔ ∃ es : List (List Ev), List.Forall₂ (fun l e => ∃ x, Padded l x ∧ StlLineSays x e) ls es ∧ LinesFit hist es.flatten ∧
      st = HistSt (hist ++ es.flatten) (subs ++ evRaws hist es.flatten) := by
  induction ls generalizing hist subs with
  | nil =>
    rw [stlTextLines]
    constructor
    · intro h
      cases h
      exact ⟨[], .nil, trivial, by simp [evRaws]⟩
    · rintro ⟨es, h, -, rfl⟩
      cases h
      simp [evRaws]
  | cons l ls ih =>
    rw [stlTextLines]
    constructor
    · intro h
      obtain ⟨s1, h1, h⟩ := bind_eq_ok.1 h
      obtain ⟨e, he, hf, rfl⟩ := (line_says hist subs l s1).1 h1
      obtain ⟨es, hs, hf', rfl⟩ := (ih _ _).1 h
      refine ⟨e :: es, .cons ⟨_, padded_trim l, he⟩ hs, ?_, ?_⟩
      · rw [List.flatten_cons, linesFit_append]
        exact ⟨hf, hf'⟩
      · rw [List.flatten_cons, evRaws_append]
        simp
    · rintro ⟨es, h, hf, rfl⟩
      cases h with
      | @cons _ e _ es he hs =>
        obtain ⟨x, hx, he⟩ := he
        rw [← (padded_iff l x).1 hx] at he
        rw [List.flatten_cons, linesFit_append] at hf
        rw [(line_says hist subs l _).2 ⟨e, he, hf.1, rfl⟩, ok_bind]
        refine (ih _ _).2 ⟨es, hs, hf.2, ?_⟩
        simp [evRaws_append]

theorem lines_of (s : Str) : ∃ (ls : List Str) (last : Str), s = unlines ls ++ last ∧ (∀ l ∈ ls, (10 : Byte) ∉ l) ∧ (10 : Byte) ∉ last := by
  suffices key : ∀ n, ∀ s : Str, s.length ≤ n → ∃ (ls : List Str) (last : Str), s = unlines ls ++ last ∧ (∀ l ∈ ls, (10 : Byte) ∉ l) ∧ (10 : Byte) ∉ last from key _ s (Nat.le_refl _)
  intro n
  induction n with
  | zero =>
    intro s hs
    have : s = [] := List.length_eq_zero_iff.1 (by omega)
    exact ⟨[], [], by simp [this, unlines], by simp, by simp⟩
  | succ n ih =>
    intro s hs
    by_cases h : (10 : Byte) ∈ s
    · obtain ⟨l, r, rfl, hl⟩ := List.eq_append_cons_of_mem h
      obtain ⟨ls, last, rfl, h1, h2⟩ := ih r (by simp at hs; omega)
      refine ⟨l :: ls, last, by simp [unlines], ?_, h2⟩
      intro l' hl'
      rcases List.mem_cons.1 hl' with rfl | hl'
      · exact hl
      · exact h1 l' hl'
    · exact ⟨[], s, by simp [unlines], by simp, h⟩

/-! ### C119 -/

/-- C119: an STL text file can be read exactly if it is as `StlTextFile` says, and then its subtitles are those which `StlTextFile` says. -/
theorem C119_exact (s : Str) (subs : List Raw) : stlTextRead s = .ok subs ↔ StlTextFile s subs := by
  have e0 : ({} : StlTextSt) = HistSt [] [] := by decide +kernel
  constructor
  · intro h
    obtain ⟨ls, last, rfl, hl, hlast⟩ := lines_of s
    unfold stlTextRead at h
    rw [streamLines_unlines ls last hl hlast, e0] at h
    obtain ⟨st, h1, h⟩ := bind_eq_ok.1 h
    cases h
    obtain ⟨es, hs, hf, rfl⟩ := (lines_say _ _ _ _).1 h1
    exact ⟨ls, last, es, rfl, hl, hlast, hs, hf, rfl⟩
  · rintro ⟨ls, last, es, rfl, hl, hlast, hs, hf, rfl⟩
    unfold stlTextRead
    rw [streamLines_unlines ls last hl hlast, e0, (lines_say ls [] [] _).2 ⟨es, hs, hf, rfl⟩]
    rfl

/-- A comment, a setting, a subtitle, a line which says nothing, and one which does not end. -/
private def exStl : List Str := [b!"// from here,to here,", b!" $Bold = True ", b!"00:00:01:05 ,00:00:02:00,A|^IB^", b!"1:2 ,00:00:02:00,no"]

private def exStlEvents : List (List Ev) :=
  [[], [.setFace .bold true], [.times ⟨1, 5, none⟩ ⟨2, 0, none⟩, .text b!"A", .bar, .toggle .italic, .text b!"B"], []]

private theorem exInt (s : Str) (v : Int) (h : lexicalCastInt s = .ok v) : IntText s v := (lexicalCastInt_iff s v).1 h

private theorem exTimeSays : TimeSays b!"00:00:01:05" ⟨1, 5, none⟩ ∧ TimeSays b!"00:00:02:00" ⟨2, 0, none⟩ := by
  constructor
  · exact ⟨_, 0, 0, 1, 5, ⟨⟨by decide, by decide⟩, [], [], rfl, by simp⟩, ⟨b!"00", b!"00", b!"01", b!"05", rfl, exInt _ _ rfl, exInt _ _ rfl, exInt _ _ rfl, exInt _ _ rfl⟩,
      by unfold SecondsFit InInt; omega, rfl⟩
  · exact ⟨_, 0, 0, 2, 0, ⟨⟨by decide, by decide⟩, [], [], rfl, by simp⟩, ⟨b!"00", b!"00", b!"02", b!"00", rfl, exInt _ _ rfl, exInt _ _ rfl, exInt _ _ rfl, exInt _ _ rfl⟩,
      by unfold SecondsFit InInt; omega, rfl⟩

-- the meaning derived from the rules alone
private theorem exStlFile : StlTextFile (unlines exStl ++ b!"$Bold") (evRaws [] exStlEvents.flatten) := by
  refine ⟨exStl, b!"$Bold", exStlEvents, rfl, by decide, by decide, ?_, ?_, rfl⟩
  · refine .cons ⟨exStl[0], ⟨⟨by decide, by decide⟩, [], [], by decide, by simp⟩, .comment b!" from here,to here,"⟩ (.cons ⟨b!"$Bold = True", ⟨⟨by decide, by decide⟩, b!" ", b!" ", by decide, by decide⟩,
      .setting b!"Bold " b!" True" b!"$Bold" b!"True" _ (by decide) (by decide) ⟨⟨by decide, by decide⟩, [], b!" ", by decide, by decide⟩
        ⟨⟨by decide, by decide⟩, b!" ", [], by decide, by decide⟩ (.face .bold b!"True")⟩
      (.cons ⟨exStl[2], ⟨⟨by decide, by decide⟩, [], [], by decide, by simp⟩, .subtitle _ b!"00:00:01:05" b!"00:00:02:00" b!"A|^IB^" _ _ _
        ⟨32, by decide, by decide, by decide, by decide, by decide, by decide, by decide, by decide⟩ exTimeSays.1 exTimeSays.2
        (.text b!"A" _ _ (by decide) (by decide) (by decide) (.bar _ _ (.toggle .italic _ _ (.text b!"B" _ _ (by decide) (by decide) (by decide) .last))))⟩
      (.cons ⟨exStl[3], ⟨⟨by decide, by decide⟩, [], [], by decide, by simp⟩, .badTime _ b!"1:2" b!"00:00:02:00" b!"no"
        ⟨32, by decide, by decide, by decide, by decide, by decide, by decide, by decide, by decide⟩ ⟨b!"1:2", by decide, by decide⟩ ?_⟩ .nil)))
    intro w hw hc
    simp only [List.mem_cons, List.not_mem_nil, or_false] at hw
    rcases hw with rfl | rfl
    · exact absurd hc (by decide)
    · exact ⟨_, exTimeSays.2⟩
  · simp [exStlEvents, LinesFit, barsSinceText, after, Ev.isText]

-- and read
example : stlTextRead (unlines exStl ++ b!"$Bold") = .ok (evRaws [] exStlEvents.flatten) := (C119_exact _ _).2 exStlFile
example : (evRaws [] exStlEvents.flatten).map (fun r => (r.text, r.bold, r.italic, r.vpos.line)) = [(b!"A", true, false, some 0), (b!"B", true, true, some 1)] := by decide +kernel

-- a time with three colons has to consist of numbers
example : ∀ subs, ¬ StlTextFile b!"00:00:01:xx ,00:00:02:00 ,A\n" subs := by
  intro subs h
  have := (C119_exact _ _).2 h
  have e : (stlTextRead b!"00:00:01:xx ,00:00:02:00 ,A\n").toOption = none := by decide +kernel
  rw [this] at e
  cases e

/-- C119: a file means at most one list of subtitles. -/
theorem C119_unique (s : Str) (subs subs' : List Raw) (h : StlTextFile s subs) (h' : StlTextFile s subs') : subs = subs' := by
  have := (C119_exact s subs).2 h
  rw [(C119_exact s subs').2 h'] at this
  cases this
  rfl

example : ∀ subs, StlTextFile (unlines exStl ++ b!"$Bold") subs → subs = evRaws [] exStlEvents.flatten := fun _ h => C119_unique _ _ _ h exStlFile

end LibSub
