/-
Property C134, first part: how reading an STL text file fails, exactly.
-/
import Verif.Props.StlTextExact

namespace LibSub

/-! ### Specification -/

/-- How a time fails. -/
inductive TextTimeFails (w : Str) : Err → Prop
  /-- four parts, but one of them is not a number -/
  | number (a b c d : Str) : Padded w (a ++ 58 :: (b ++ 58 :: (c ++ 58 :: d))) → (58 : Byte) ∉ a ++ b ++ c ++ d → (∃ y ∈ [a, b, c, d], ∀ v, ¬ IntText y v) → TextTimeFails w .badLexicalCast
  /-- numbers which are too large -/
  | huge (x : Str) (h m s f : Int) : Padded w x → HmsFields 58 x h m s f → ¬ SecondsFit h m s → TextTimeFails w (.ub .intOverflow)

/-- How a line without white space at its ends fails, after `hist`. -/
inductive StlLineFails (hist : List Ev) (l : Str) : Err → Prop
  /-- a font size which is not a number -/
  | size (n v v' : Str) : l = 36 :: (n ++ 61 :: v) → (61 : Byte) ∉ n → (61 : Byte) ∉ v → Padded (36 :: n) b!"$FontSize" → Padded v v' → (∀ i, ¬ IntText v' i) → StlLineFails hist l .badLexicalCast
  | first (A B C : Str) (e : Err) : SubtitleLine l A B C → TextTimeFails A e → StlLineFails hist l e
  /-- the second time counts only if there is nothing wrong with the first, though it may be passed over -/
  | second (A B C : Str) (e : Err) : SubtitleLine l A B C → (A.count 58 ≠ 3 ∨ ∃ t, TimeSays A t) → TextTimeFails B e → StlLineFails hist l e
  /-- too many lines in a subtitle to be counted -/
  | lines (A B C : Str) (f t : Time) (ev : List Ev) : SubtitleLine l A B C → TimeSays A f → TimeSays B t → TextSays C ev → ¬ LinesFit hist (.times f t :: ev) → StlLineFails hist l (.ub .intOverflow)

/-- How a file fails: in a line which ends with a newline, after lines which can be read. -/
def StlTextFails (s : Str) (e : Err) : Prop :=
  ∃ (ls : List Str) (l x : Str) (ls' : List Str) (last : Str) (es : List (List Ev)), s = unlines (ls ++ l :: ls') ++ last ∧ (∀ k ∈ ls ++ l :: ls', (10 : Byte) ∉ k) ∧ (10 : Byte) ∉ last ∧
    List.Forall₂ (fun l e => ∃ x, Padded l x ∧ StlLineSays x e) ls es ∧ LinesFit [] es.flatten ∧ Padded l x ∧ StlLineFails es.flatten x e

/-! ### Times -/

private theorem cast_kind {s : Str} {e : Err} (h : lexicalCastInt s = .error e) : e = .badLexicalCast ∧ ∀ v, ¬ IntText s v := by
  have hn : ∀ v, ¬ IntText s v := by
    intro v hv
    rw [(lexicalCastInt_iff s v).2 hv] at h
    cases h
  rw [lexicalCastInt_error s hn] at h
  cases h
  exact ⟨rfl, hn⟩

private theorem hmsf_fits {h m s : Int} (f : Int) (hf : SecondsFit h m s) : Time.fromHmsf h m s f none = .ok ⟨h * 3600 + m * 60 + s, f, none⟩ := by
  unfold Time.fromHmsf hmsSeconds
  rw [ck_ok hf.1]
  simp only [ok_bind]
  rw [ck_ok hf.2.1]
  simp only [ok_bind]
  rw [ck_ok hf.2.2.1]
  simp only [ok_bind]
  rw [ck_ok hf.2.2.2]
  rfl

private theorem hmsf_overflow {h m s : Int} (f : Int) (hf : ¬ SecondsFit h m s) : Time.fromHmsf h m s f none = .error (.ub .intOverflow) := by
  have key : hmsSeconds h m s = .error (.ub .intOverflow) := by
    have := hms_overflow 0 hf
    unfold Time.fromHms at this
    cases hq : hmsSeconds h m s with
    | ok v => rw [hq] at this; cases this
    | error e => rw [hq] at this; cases this; rfl
  unfold Time.fromHmsf
  rw [key]
  rfl

private theorem intText_noColon {a : Str} {v : Int} (h : IntText a v) : ∀ c ∈ a, (c == 58) = false := by
  obtain ⟨-, ds, -, hd, h⟩ := h
  intro c hc
  have hm : c ∈ ds ∨ c = 43 ∨ c = 45 := by
    rcases h with ⟨rfl | rfl, -⟩ | ⟨rfl, -⟩
    · exact .inl hc
    · exact (List.mem_cons.1 hc).elim (fun e => .inr (.inl e)) .inl
    · exact (List.mem_cons.1 hc).elim (fun e => .inr (.inr e)) .inl
  rcases hm with hm | rfl | rfl
  · exact forall_byte (p := fun c => c ∈ b!"0123456789" → (c == 58) = false) (by decide +kernel) c (hd c hm)
  · rfl
  · rfl

theorem time_fails (w : Str) (e : Err) : stlTextTime (trim w) = .error e ↔ TextTimeFails w e := by
  constructor
  · intro h
    unfold stlTextTime at h
    split at h
    · rename_i a b c d hs
      obtain ⟨x, y, z, hx, hy, hz, hw, hno⟩ := (split4_iff _ _ _ _ _ _).1 hs
      simp only [beq_iff_eq] at hx hy hz
      subst hx hy hz
      have hp : Padded w (a ++ 58 :: (b ++ 58 :: (c ++ 58 :: d))) := (padded_iff _ _).2 hw
      have hno' : (58 : Byte) ∉ a ++ b ++ c ++ d := fun hm => by simpa using hno 58 hm
      cases h1 : lexicalCastInt a with
      | error e' =>
        obtain ⟨rfl, hn⟩ := cast_kind h1
        rw [h1] at h
        cases h
        exact .number a b c d hp hno' ⟨a, by simp, hn⟩
      | ok va =>
        rw [h1, ok_bind] at h
        cases h2 : lexicalCastInt b with
        | error e' =>
          obtain ⟨rfl, hn⟩ := cast_kind h2
          rw [h2] at h
          cases h
          exact .number a b c d hp hno' ⟨b, by simp, hn⟩
        | ok vb =>
          rw [h2, ok_bind] at h
          cases h3 : lexicalCastInt c with
          | error e' =>
            obtain ⟨rfl, hn⟩ := cast_kind h3
            rw [h3] at h
            cases h
            exact .number a b c d hp hno' ⟨c, by simp, hn⟩
          | ok vc =>
            rw [h3, ok_bind] at h
            cases h4 : lexicalCastInt d with
            | error e' =>
              obtain ⟨rfl, hn⟩ := cast_kind h4
              rw [h4] at h
              cases h
              exact .number a b c d hp hno' ⟨d, by simp, hn⟩
            | ok vd =>
              rw [h4, ok_bind] at h
              have hf : HmsFields 58 (a ++ 58 :: (b ++ 58 :: (c ++ 58 :: d))) va vb vc vd :=
                ⟨a, b, c, d, rfl, (lexicalCastInt_iff _ _).1 h1, (lexicalCastInt_iff _ _).1 h2, (lexicalCastInt_iff _ _).1 h3, (lexicalCastInt_iff _ _).1 h4⟩
              by_cases hfit : SecondsFit va vb vc
              · rw [hmsf_fits vd hfit] at h
                cases h
              · rw [hmsf_overflow vd hfit] at h
                cases h
                exact .huge _ _ _ _ _ hp hf hfit
    · cases h
  · intro h
    cases h with
    | number a b c d hp hno hbad =>
      rw [(padded_iff _ _).1 hp]
      unfold stlTextTime
      rw [(split4_iff _ _ a b c d).2 ⟨58, 58, 58, by decide, by decide, by decide, rfl, fun e he => by
        simp only [beq_eq_false_iff_ne]
        rintro rfl
        exact hno he⟩]
      simp only
      have bad : ∀ {y : Str}, (∀ v, ¬ IntText y v) → lexicalCastInt y = .error .badLexicalCast := fun h => lexicalCastInt_error _ h
      have all : ∀ y : Str, lexicalCastInt y = .error .badLexicalCast ∨ ∃ v, lexicalCastInt y = .ok v := by
        intro y
        by_cases hy : ∃ v, IntText y v
        · obtain ⟨v, hy⟩ := hy
          exact .inr ⟨v, (lexicalCastInt_iff _ _).2 hy⟩
        · exact .inl (bad fun v hv => hy ⟨v, hv⟩)
      obtain ⟨y, hy, hv⟩ := hbad
      have hv := bad hv
      simp only [List.mem_cons, List.not_mem_nil, or_false] at hy
      rcases all a with ha | ⟨va, ha⟩
      · rw [ha]; rfl
      rcases all b with hb | ⟨vb, hb⟩
      · rw [ha, hb]; rfl
      rcases all c with hc | ⟨vc, hc⟩
      · rw [ha, hb, hc]; rfl
      rcases all d with hd | ⟨vd, hd⟩
      · rw [ha, hb, hc, hd]; rfl
      rcases hy with rfl | rfl | rfl | rfl
      · rw [ha] at hv; cases hv
      · rw [hb] at hv; cases hv
      · rw [hc] at hv; cases hv
      · rw [hd] at hv; cases hv
    | huge x h m s f hp hf hfit =>
      rw [(padded_iff _ _).1 hp]
      obtain ⟨a, b, c, d, rfl, h1, h2, h3, h4⟩ := hf
      unfold stlTextTime
      rw [(split4_iff _ _ a b c d).2 ⟨58, 58, 58, by decide, by decide, by decide, rfl, fun e he => by
        simp only [List.mem_append] at he
        rcases he with ((he | he) | he) | he
        · exact intText_noColon h1 e he
        · exact intText_noColon h2 e he
        · exact intText_noColon h3 e he
        · exact intText_noColon h4 e he⟩]
      simp only [(lexicalCastInt_iff _ _).2 h1, (lexicalCastInt_iff _ _).2 h2, (lexicalCastInt_iff _ _).2 h3, (lexicalCastInt_iff _ _).2 h4, ok_bind]
      rw [hmsf_overflow f hfit]
      rfl

/-! ### Lines -/

private theorem push_number {s : StlTextSt} (h : s.sub.vpos.line.isSome = true) : s.maybePush.sub.vpos.line.isSome = true := by
  unfold StlTextSt.maybePush
  split
  · exact h
  · rfl

theorem stlChars_kind (e : Err) (n : Nat) : ∀ (cs : Str), cs.length ≤ n → ∀ st : StlTextSt, st.sub.vpos.line.isSome = true → stlTextChars st cs = .error e → e = .ub .intOverflow := by
  induction n with
  | zero =>
    intro cs hn st hl h
    have : cs = [] := List.length_eq_zero_iff.1 (by omega)
    subst this
    cases h
  | succ n ih =>
    intro cs hn st hl h
    unfold stlTextChars at h
    split at h
    · cases h
    · rename_i cs
      obtain ⟨l, hs⟩ := Option.isSome_iff_exists.1 (push_number hl)
      simp only [hs, optGet, ok_bind] at h
      by_cases hi : InInt (l + 1)
      · rw [ck_ok hi] at h
        exact ih cs (by simpa using hn) { st.maybePush with sub := { st.maybePush.sub with vpos := { st.maybePush.sub.vpos with line := some (l + 1) } } } rfl h
      · rw [show ck (l + 1) = .error (.ub .intOverflow) from if_neg hi] at h
        cases h
        rfl
    · cases h
    · rename_i d cs
      refine ih cs (by simp at hn; omega) _ ?_ h
      have := push_number hl
      split
      · exact this
      · split
        · exact this
        · split <;> exact this
    · rename_i c cs _ _ _
      exact ih cs (by simpa using hn) { st with sub := { st.sub with text := st.sub.text ++ [c] } } hl h

private theorem time_three (w : Str) : w.count 58 ≠ 3 ∨ (∃ t, TimeSays w t) ∨ ∃ e, TextTimeFails w e := by
  cases h : stlTextTime (trim w) with
  | ok o =>
    cases o with
    | none => exact .inl ((time_passed w).1 h)
    | some t => exact .inr (.inl ⟨t, (time_says w t).1 h⟩)
  | error e => exact .inr (.inr ⟨e, (time_fails w e).1 h⟩)

private theorem hist_times (hist : List Ev) (subs : List Raw) (f t : Time) :
    ({ HistSt hist subs with sub := { (HistSt hist subs).sub with from_ := f, to_ := t } } : StlTextSt) = HistSt (hist ++ [.times f t]) subs := by
  unfold HistSt
  rw [raw_times]

private theorem chars_fail {C : Str} {ev : List Ev} (h : TextSays C ev) (hist : List Ev) (subs : List Raw) (e : Err) :
    stlTextChars (HistSt hist subs) C = .error e ↔ ¬ LinesFit hist ev ∧ e = .ub .intOverflow := by
  have hs := chars_says h hist subs (HistSt hist subs)
  constructor
  · intro he
    refine ⟨fun hf => ?_, stlChars_kind e _ C (Nat.le_refl _) _ rfl he⟩
    have := (hs _ (.inl rfl)).2 ⟨hf, rfl⟩
    rw [he] at this
    cases this
  · rintro ⟨hn, rfl⟩
    cases he : stlTextChars (HistSt hist subs) C with
    | ok st =>
      exact absurd ((hs st.maybePush (.inl rfl)).1 (by rw [he]; rfl)).1 hn
    | error e' => rw [stlChars_kind e' _ C (Nat.le_refl _) _ rfl he]

/-- One line. -/
theorem line_fails_iff (hist : List Ev) (subs : List Raw) (raw : Str) (e : Err) : stlTextLine (HistSt hist subs) raw = .error e ↔ StlLineFails hist (trim raw) e := by
  constructor
  · intro h
    by_cases h1 : b!"//" <+: trim raw
    · unfold stlTextLine at h
      simp only [] at h
      rw [if_pos (startsWith_iff.2 h1)] at h
      cases h
    by_cases h2 : b!"$" <+: trim raw
    · obtain ⟨r, hr⟩ := h2
      rw [line_dollar _ raw r hr.symm] at h
      rw [← hr]
      split at h
      · rename_i n v hs
        obtain ⟨x, hx, hs, hno⟩ := (split2_iff _ _ _ _).1 hs
        simp only [beq_iff_eq] at hx
        subst hx
        cases n with
        | nil => simp at hs
        | cons c n =>
          simp only [List.cons_append, List.cons.injEq] at hs
          obtain ⟨rfl, rfl⟩ := hs
          have no : ∀ e ∈ n ++ v, e ≠ 61 := fun e he => by simpa using hno e (by simpa using Or.inr (List.mem_append.1 he))
          unfold StlTextSt.set at h
          rcases ite_cases h with ⟨_, h⟩ | ⟨_, h⟩
          · cases h
          rcases ite_cases h with ⟨_, h⟩ | ⟨_, h⟩
          · cases h
          rcases ite_cases h with ⟨_, h⟩ | ⟨_, h⟩
          · cases h
          rcases ite_cases h with ⟨_, h⟩ | ⟨_, h⟩
          · cases h
          rcases ite_cases h with ⟨hn, h⟩ | ⟨_, h⟩
          · cases hc : lexicalCastInt (trim v) with
            | ok i => rw [hc] at h; cases h
            | error e' =>
              obtain ⟨rfl, hbad⟩ := cast_kind hc
              rw [hc] at h
              cases h
              exact .size n v (trim v) rfl (fun hm => no 61 (by simp [hm]) rfl) (fun hm => no 61 (by simp [hm]) rfl) ((padded_iff _ _).2 hn) (padded_trim v) hbad
          · cases h
      · cases h
    · rcases subtitleLine_or h1 h2 with ⟨A, B, C, hl⟩ | ⟨hno, hl⟩
      · rw [line_subtitle hist subs raw A B C hl] at h
        cases hA : stlTextTime (trim A) with
        | error e' =>
          rw [hA] at h
          cases h
          exact .first A B C e hl ((time_fails A e).1 hA)
        | ok f =>
          rw [hA, ok_bind] at h
          have hA' : A.count 58 ≠ 3 ∨ ∃ t, TimeSays A t := by
            cases f with
            | none => exact .inl ((time_passed A).1 hA)
            | some t => exact .inr ⟨t, (time_says A t).1 hA⟩
          cases hB : stlTextTime (trim B) with
          | error e' =>
            rw [hB] at h
            cases h
            exact .second A B C e hl hA' ((time_fails B e).1 hB)
          | ok t =>
            rw [hB, ok_bind] at h
            match f, t, hA, hB, h with
            | some f, some t, hA, hB, h =>
              obtain ⟨ev, hev⟩ := textSays_total C
              simp only [hist_times] at h
              cases hc : stlTextChars (HistSt (hist ++ [.times f t]) subs) C with
              | ok st => rw [hc] at h; cases h
              | error e' =>
                rw [hc] at h
                cases h
                obtain ⟨hn, rfl⟩ := (chars_fail hev _ _ _).1 hc
                exact .lines A B C f t ev hl ((time_says _ _).1 hA) ((time_says _ _).1 hB) hev (fun hf => hn hf.2)
            | none, none, _, _, h => cases h
            | none, some t, _, _, h => cases h
            | some f, none, _, _, h => cases h
      · rw [line_unknown (HistSt hist subs) raw h1 h2 hl] at h
        cases h
  · intro h
    cases h with
    | size n v v' el hn hv pn pv hbad =>
      rw [line_dollar _ raw _ el, show (36 :: (n ++ 61 :: v) : Str) = (36 :: n) ++ 61 :: v from rfl, (split2_iff _ _ (36 :: n) v).2 ⟨61, by decide, rfl, ?_⟩]
      · simp only [(padded_iff _ _).1 pn, (padded_iff _ _).1 pv]
        unfold StlTextSt.set
        rw [if_neg (by decide), if_neg (by decide), if_neg (by decide), if_neg (by decide), if_pos rfl, lexicalCastInt_error _ hbad]
        rfl
      · intro c hc
        simp only [List.cons_append, List.mem_cons, List.mem_append] at hc
        have : c ≠ 61 := by
          rintro rfl
          rcases hc with hc | hc | hc
          · exact absurd hc (by decide)
          · exact hn hc
          · exact hv hc
        simpa using this
    | first A B C _ hl hA =>
      rw [line_subtitle hist subs raw A B C hl, (time_fails A e).2 hA]
      rfl
    | second A B C _ hl hA hB =>
      rw [line_subtitle hist subs raw A B C hl]
      rcases hA with hA | ⟨t, hA⟩
      · rw [(time_passed A).2 hA, ok_bind, (time_fails B e).2 hB]
        rfl
      · rw [(time_says A t).2 hA, ok_bind, (time_fails B e).2 hB]
        rfl
    | lines A B C f t ev hl hA hB hC hn =>
      rw [line_subtitle hist subs raw A B C hl, (time_says _ _).2 hA, ok_bind, (time_says _ _).2 hB, ok_bind]
      simp only [hist_times]
      rw [(chars_fail hC _ _ _).2 ⟨fun hf => hn ⟨(by intro h; cases h), hf⟩, rfl⟩]
      rfl

/-! ### C134, STL text -/

private theorem lines_fail (ls : List Str) (hist : List Ev) (subs : List Raw) (e : Err) : stlTextLines (HistSt hist subs) ls = .error e ↔
    ∃ (a : List Str) (l x : Str) (b : List Str) (es : List (List Ev)), ls = a ++ l :: b ∧ List.Forall₂ (fun l e => ∃ x, Padded l x ∧ StlLineSays x e) a es ∧ LinesFit hist es.flatten ∧ Padded l x ∧
      StlLineFails (hist ++ es.flatten) x e := by
  induction ls generalizing hist subs with
  | nil =>
    refine ⟨fun h => (by cases h), ?_⟩
    rintro ⟨a, l, x, b, es, h, -⟩
    simp at h
  | cons l ls ih =>
    rw [stlTextLines]
    constructor
    · intro h
      cases hl : stlTextLine (HistSt hist subs) l with
      | error e' =>
        rw [hl] at h
        cases h
        exact ⟨[], l, trim l, ls, [], rfl, .nil, trivial, padded_trim l, by simpa using (line_fails_iff hist subs l e).1 hl⟩
      | ok st =>
        obtain ⟨ev, hs, hf, rfl⟩ := (line_says hist subs l st).1 hl
        rw [hl, ok_bind] at h
        obtain ⟨a, l', x, b, es, rfl, h1, h2, h3, h4⟩ := (ih _ _).1 h
        refine ⟨l :: a, l', x, b, ev :: es, rfl, .cons ⟨_, padded_trim l, hs⟩ h1, ?_, h3, ?_⟩
        · rw [List.flatten_cons, linesFit_append]
          exact ⟨hf, h2⟩
        · rw [List.flatten_cons, ← List.append_assoc]
          exact h4
    · rintro ⟨a, l', x, b, es, h, h1, h2, h3, h4⟩
      cases h1 with
      | nil =>
        injection h with h5 h6
        subst h5
        rw [← (padded_iff _ _).1 h3] at h4
        rw [(line_fails_iff hist subs l e).2 (by simpa using h4)]
        rfl
      | @cons _ ev a es he hs =>
        injection h with h5 h6
        subst h5
        obtain ⟨y, hy, he⟩ := he
        rw [← (padded_iff _ _).1 hy] at he
        rw [List.flatten_cons, linesFit_append] at h2
        rw [(line_says hist subs l _).2 ⟨ev, he, h2.1, rfl⟩, ok_bind]
        refine (ih _ _).2 ⟨a, l', x, b, es, h6, hs, h2.2, h3, ?_⟩
        rw [List.flatten_cons, ← List.append_assoc] at h4
        exact h4

/-- C134: an STL text file cannot be read, for reason `e`, exactly if `StlTextFails` says so. -/
theorem C134_stl_text (s : Str) (e : Err) : stlTextRead s = .error e ↔ StlTextFails s e := by
  have e0 : ({} : StlTextSt) = HistSt [] [] := by decide +kernel
  have key : ∀ ls last, s = unlines ls ++ last → (∀ l ∈ ls, (10 : Byte) ∉ l) → (10 : Byte) ∉ last → (stlTextRead s = .error e ↔ stlTextLines (HistSt [] []) ls = .error e) := by
    rintro ls last rfl hl hlast
    unfold stlTextRead
    rw [streamLines_unlines ls last hl hlast, e0]
    cases stlTextLines (HistSt [] []) ls with
    | ok st => exact ⟨fun h => (by cases h), fun h => by cases h⟩
    | error e' => rw [error_bind]; exact ⟨fun h => (by cases h; rfl), fun h => by cases h; rfl⟩
  constructor
  · intro h
    obtain ⟨ls, last, hs, hl, hlast⟩ := lines_of s
    rw [key ls last hs hl hlast, lines_fail] at h
    obtain ⟨a, l, x, b, es, rfl, h1, h2, h3, h4⟩ := h
    exact ⟨a, l, x, b, last, es, hs, hl, hlast, h1, h2, h3, h4⟩
  · rintro ⟨ls, l, x, ls', last, es, hs, hl, hlast, h1, h2, h3, h4⟩
    rw [key _ _ hs hl hlast, lines_fail]
    exact ⟨ls, l, x, ls', es, rfl, h1, h2, h3, h4⟩

/-- The second time counts although the first is passed over. -/
example : StlTextFails b!"$Bold = True\n1:2 ,0:0:x:0 ,A\nB" .badLexicalCast := by
  refine ⟨[b!"$Bold = True"], b!"1:2 ,0:0:x:0 ,A", b!"1:2 ,0:0:x:0 ,A", [], b!"B", [[.setFace .bold true]], by decide, by decide, by decide, .cons ⟨b!"$Bold = True", ⟨⟨by decide, by decide⟩, [], [], by decide, by simp⟩, ?_⟩ .nil,
    ⟨(by intro h; cases h), trivial⟩, ⟨⟨by decide, by decide⟩, [], [], by decide, by simp⟩, ?_⟩
  · exact .setting b!"Bold " b!" True" b!"$Bold" b!"True" _ (by decide) (by decide) ⟨⟨by decide, by decide⟩, [], b!" ", by decide, by decide⟩
        ⟨⟨by decide, by decide⟩, b!" ", [], by decide, by decide⟩ (.face .bold b!"True")
  · refine .second b!"1:2" b!"0:0:x:0 " b!"A" _ ⟨32, by decide, by decide, by decide, by decide, by decide, by decide, by decide, by decide⟩ (.inl (by decide))
      (.number b!"0" b!"0" b!"x" b!"0" ⟨⟨by decide, by decide⟩, [], b!" ", by decide, by decide⟩ (by decide) ⟨b!"x", by decide, fun v hv => ?_⟩)
    have := (lexicalCastInt_iff _ _).2 hv
    exact absurd this (by rw [show lexicalCastInt b!"x" = .error .badLexicalCast from rfl]; intro h; cases h)

-- undefined behaviour
example : StlTextFails b!"600000:0:0:0 ,0:0:0:0 ,A\n" (.ub .intOverflow) := (C134_stl_text _ _).1 (by decide +kernel)

-- a last line which does not end is not looked at
example : ∀ e, ¬ StlTextFails b!"$FontSize=x" e := fun e h => by
  have := (C134_stl_text _ e).2 h
  have e' : (stlTextRead b!"$FontSize=x").toOption.isSome := by decide +kernel
  rw [this] at e'
  cases e'

end LibSub
