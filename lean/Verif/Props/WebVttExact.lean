/-
Property C115: what a WebVTT file means, exactly.
-/
import Verif.Props.WebVttReject

namespace LibSub

/-! ### Specification

All lines here are without their line ends and without a byte order mark. -/

/-- The time that a time stamp stands for, in thousandths of a second. -/
def StampTime (sep : Byte) (w : Str) (t : Time) : Prop :=
  ∃ h m s ms, HmsFields sep w h m s ms ∧ SecondsFit h m s ∧ t = ⟨h * 3600 + m * 60 + s, ms, some ⟨1000, 1⟩⟩

/-- `ps` are the parts of the line `l` between its U+2028 characters. -/
def LineParts (l : Str) (ps : List Str) : Prop := ps ≠ [] ∧ l = joinParts ps ∧ ∀ p ∈ ps, ¬ b!"\u2028" <:+: p

/-- The subtitles of a cue: one for each part of its lines, numbered from 0 from the top. -/
def cueSubtitles (f t : Time) (parts : List Str) : List Raw :=
  parts.mapIdx (fun i p => { text := p, from_ := f, to_ := t, vpos := { line := some (i : Int), ref := some .topOfSubtitle } })

/-- What may follow a note or a cue: a blank line or nothing. -/
def BlankNext (ls : List Str) : Prop := ∀ l ∈ ls.head?, l = []

/-- What the lines after the first mean. -/
inductive VttBody : List Str → List Raw → Prop
  /-- The end. -/
  | done : VttBody [] []
  /-- A line that starts nothing: a blank line, a cue identifier and so on. -/
  | other (l : Str) (ls : List Str) (r : List Raw) : ¬ b!"NOTE" <+: l → ¬ b!"-->" <:+: l → VttBody ls r → VttBody (l :: ls) r
  /-- A note: up to the next blank line. -/
  | note (l : Str) (ns ls : List Str) (r : List Raw) : b!"NOTE" <+: l → (∀ n ∈ ns, n ≠ []) → BlankNext ls → VttBody ls r → VttBody (l :: ns ++ ls) r
  /-- A cue: its times, then text up to the next blank line. -/
  | cue (l : Str) (f t : Time) (text : List (Str × List Str)) (ls : List Str) (r : List Raw) : ¬ b!"NOTE" <+: l → b!"-->" <:+: l →
      ((wordsOf l).length = 3 ∨ (wordsOf l).length = 7) → StampTime 46 ((wordsOf l).getD 0 []) f → StampTime 46 ((wordsOf l).getD 2 []) t →
      (∀ x ∈ text, x.1 ≠ [] ∧ LineParts x.1 x.2) → (text.flatMap (·.2)).length < 2 ^ 31 → BlankNext ls → VttBody ls r →
      VttBody (l :: text.map (·.1) ++ ls) (cueSubtitles f t (text.flatMap (·.2)) ++ r)

/-- What a file means.  A file without any lines has no subtitles. -/
inductive VttFile : List Str → List Raw → Prop
  | empty : VttFile [] []
  | lines (h : Str) (ls : List Str) (r : List Raw) : b!"WEBVTT" <+: h → VttBody ls r → VttFile (h :: ls) r

/-! ### Parts of a line -/

theorem joinParts_append (a b : List Str) (ha : a ≠ []) (hb : b ≠ []) : joinParts (a ++ b) = joinParts a ++ b!"\u2028" ++ joinParts b := by
  induction a with
  | nil => contradiction
  | cons x a ih =>
    cases a with
    | nil =>
      obtain ⟨y, b, rfl⟩ := List.exists_cons_of_ne_nil hb
      rfl
    | cons y a =>
      show x ++ b!"\u2028" ++ joinParts ((y :: a) ++ b) = x ++ b!"\u2028" ++ joinParts (y :: a) ++ b!"\u2028" ++ joinParts b
      rw [ih (by simp)]
      simp

theorem lineParts_exist (l : Str) : ∃ ps, LineParts l ps := by
  induction hn : l.length using Nat.strong_induction_on generalizing l with
  | _ n ih =>
    by_cases h : b!"\u2028" <:+: l
    · obtain ⟨a, b, rfl⟩ := h
      subst hn
      obtain ⟨pa, ha1, ha2, ha3⟩ := ih a.length (by simp) a rfl
      obtain ⟨pb, hb1, hb2, hb3⟩ := ih b.length (by simp; omega) b rfl
      refine ⟨pa ++ pb, by simp [ha1], ?_, ?_⟩
      · rw [joinParts_append _ _ ha1 hb1, ← ha2, ← hb2]
      · intro p hp
        rcases List.mem_append.1 hp with hp | hp
        · exact ha3 p hp
        · exact hb3 p hp
    · exact ⟨[l], by simp, rfl, by simpa using h⟩

theorem lineParts_split {l : Str} {ps : List Str} (h : LineParts l ps) : splitStr lineSep l = ps := by
  obtain ⟨h1, rfl, h3⟩ := h
  exact splitStr_join ps h1 h3

/-! ### Steps of the reader -/

theorem vttSubLines_fits (ts : List Str) (rs : Raw) (i : Nat) (hi : rs.vpos.line = some (i : Int)) (hb : i < 2 ^ 31) (subs : List Raw) {q}
    (h : vttSubLines ts rs subs = .ok q) : i + ts.length < 2 ^ 31 := by
  induction ts generalizing rs i subs with
  | nil =>
    rw [List.length_nil, Nat.add_zero]
    exact hb
  | cons t ts ih =>
    rw [vttSubLines] at h
    simp only at h
    rw [hi, optGet, ok_bind] at h
    obtain ⟨l', h1, h2⟩ := bind_eq_ok.1 h
    obtain ⟨h3, rfl⟩ := ck_eq_ok.1 h1
    have hlt : i + 1 < 2 ^ 31 := by
      unfold InInt at h3
      omega
    have := ih _ (i + 1) (by simp) hlt _ h2
    simp only [List.length_cons]
    omega

theorem stampTime_convert {sep : Byte} (hsep : sep ∉ b!":+-0123456789") {w : Str} {t : Time} (h : StampTime sep w t) : convertTime w [sep] = .ok (.ok t) := by
  obtain ⟨h, m, s, ms, ⟨a, b, c, d, rfl, ha, hb, hc, hd⟩, hf, rfl⟩ := h
  rw [C21_value a b c d h m s ms sep hsep ha hb hc hd, hms_fits ms hf]
  rfl

theorem stampTime_of {sep : Byte} {w : Str} (h : TimeStamp sep w) : ∃ t, StampTime sep w t := by
  obtain ⟨h, m, s, ms, hf, hs⟩ := h
  exact ⟨_, h, m, s, ms, hf, hs, rfl⟩

theorem vttTiming_times {l : Str} {f t : Time} (hw : (wordsOf l).length = 3 ∨ (wordsOf l).length = 7) (h0 : StampTime 46 ((wordsOf l).getD 0 []) f)
    (h2 : StampTime 46 ((wordsOf l).getD 2 []) t) (rs : Raw) : vttTiming [] l [] rs = .ok { rs with from_ := f, to_ := t, vpos := { rs.vpos with line := some 0 } } := by
  unfold vttTiming
  simp only [words_eq]
  rw [if_neg (by omega), stampTime_convert (by decide) h0]
  simp only [ok_bind]
  rw [stampTime_convert (by decide) h2]
  rfl

theorem vttTiming_only {l : Str} {rs rs' : Raw} (h : vttTiming [] l [] rs = .ok rs') :
    ((wordsOf l).length = 3 ∨ (wordsOf l).length = 7) ∧ ∃ f t, StampTime 46 ((wordsOf l).getD 0 []) f ∧ StampTime 46 ((wordsOf l).getD 2 []) t ∧
      rs' = { rs with from_ := f, to_ := t, vpos := { rs.vpos with line := some 0 } } := by
  rcases times_cases 46 b!"a time line" l with hg | hg | ⟨saw, e, k, hg⟩
  · obtain ⟨hw, h0, h2⟩ := hg
    obtain ⟨f, h0⟩ := stampTime_of h0
    obtain ⟨t, h2⟩ := stampTime_of h2
    refine ⟨hw, f, t, h0, h2, ?_⟩
    rw [vttTiming_times hw h0 h2] at h
    cases h
    rfl
  · rw [vttTiming_huge hg] at h
    cases h
  · rw [vttTiming_bad hg] at h
    cases h

/-- Subtitles of the rest of a cue. -/
def restOfCue (rs : Raw) (i : Nat) (parts : List Str) : List Raw := parts.mapIdx (fun k p => vraw rs (i + k) p)

theorem restOfCue_append (rs : Raw) (i : Nat) (a b : List Str) : restOfCue rs i (a ++ b) = restOfCue rs i a ++ restOfCue rs (i + a.length) b := by
  unfold restOfCue
  rw [List.mapIdx_append]
  congr 2
  funext k p
  rw [Nat.add_assoc, Nat.add_comm k]

theorem restOfCue_vraw (rs : Raw) (j : Nat) (t : Str) (i : Nat) (a : List Str) : restOfCue (vraw rs j t) i a = restOfCue rs i a := rfl

theorem restOfCue_base {tx : Str} {f g : Time} {l : Option Int} (parts : List Str) :
    restOfCue { vttFresh with text := tx, from_ := f, to_ := g, vpos := { line := l, ref := some .topOfSubtitle } } 0 parts = cueSubtitles f g parts := by
  unfold restOfCue cueSubtitles
  congr 1
  funext k p
  rw [Nat.zero_add]
  rfl

theorem vbase_vraw {rs : Raw} (h : VBase rs) (i : Nat) (t : Str) : VBase (vraw rs i t) := by
  obtain ⟨t', f, g, l, rfl⟩ := h
  exact ⟨_, _, _, _, rfl⟩

theorem vbase_times {rs : Raw} (h : VBase rs) (f t : Time) : VBase { rs with from_ := f, to_ := t, vpos := { rs.vpos with line := some 0 } } := by
  obtain ⟨t', f', g, l, rfl⟩ := h
  exact ⟨_, _, _, _, rfl⟩

/-- The reader only does what the grammar allows, in each of its states. -/
theorem vttFold_sound (ls : List Str) : ∀ (rs : Raw) (subs : List Raw) (s : VttSt), VBase rs →
    (vttFold (.data, rs, subs) ls = .ok s → ∃ r, VttBody (ls.map cleanLine) r ∧ s.2.2 = subs ++ r) ∧
    (vttFold (.note, rs, subs) ls = .ok s → ∃ ns rest r, ls.map cleanLine = ns ++ rest ∧ (∀ n ∈ ns, n ≠ []) ∧ BlankNext rest ∧ VttBody rest r ∧ s.2.2 = subs ++ r) ∧
    (∀ i : Nat, rs.vpos.line = some (i : Int) → i < 2 ^ 31 → vttFold (.subtitle, rs, subs) ls = .ok s →
      ∃ (text : List (Str × List Str)) (rest : List Str) (r : List Raw), ls.map cleanLine = text.map (·.1) ++ rest ∧ (∀ x ∈ text, x.1 ≠ [] ∧ LineParts x.1 x.2) ∧
        i + (text.flatMap (·.2)).length < 2 ^ 31 ∧ BlankNext rest ∧ VttBody rest r ∧ s.2.2 = subs ++ restOfCue rs i (text.flatMap (·.2)) ++ r) := by
  have blank : ∀ (ls : List Str) (r : List Raw), VttBody ls r → VttBody ([] :: ls) r := fun ls r h => .other _ _ _ (by decide) (by decide) h
  induction ls with
  | nil =>
    intro rs subs s _
    refine ⟨fun h => ?_, fun h => ?_, fun i hi hb h => ?_⟩
    · cases h; exact ⟨[], .done, by simp⟩
    · cases h; exact ⟨[], [], [], rfl, by simp, by simp [BlankNext], .done, by simp⟩
    · cases h; exact ⟨[], [], [], rfl, by simp, by simpa using hb, by simp [BlankNext], .done, by simp [restOfCue]⟩
  | cons l ls ih =>
    intro rs subs s hrs
    refine ⟨fun h => ?_, fun h => ?_, fun i hi hb h => ?_⟩
    · rw [vttFold, vttStep] at h
      simp only at h
      split at h
      · rename_i hn
        obtain ⟨ns, rest, r, e, h1, h2, h3, h4⟩ := (ih rs subs s hrs).2.1 h
        refine ⟨r, ?_, h4⟩
        rw [List.map_cons, e]
        exact .note _ ns rest r (startsWith_iff.1 hn) h1 h2 h3
      · rename_i hn
        split at h
        · rename_i ha
          obtain ⟨s1, h1, h2⟩ := bind_eq_ok.1 h
          obtain ⟨rs1, h3, h4⟩ := bind_eq_ok.1 h1
          cases h4
          obtain ⟨hw, f, t, h0, h2', rfl⟩ := vttTiming_only h3
          obtain ⟨text, rest, r, e, k1, k2, k3, k4, k5⟩ := (ih _ subs s (vbase_times hrs f t)).2.2 0 rfl (by decide) h2
          refine ⟨cueSubtitles f t (text.flatMap (·.2)) ++ r, ?_, ?_⟩
          · rw [List.map_cons, e]
            exact .cue _ f t text rest r (fun hc => hn (startsWith_iff.2 hc)) (containsStr_iff.1 ha) hw h0 h2' k1 (by simpa using k2) k3 k4
          · rw [k5, List.append_assoc]
            obtain ⟨tx, f', g, ln, rfl⟩ := hrs
            rw [← restOfCue_base (tx := tx) (l := some 0)]
        · rename_i ha
          obtain ⟨r, h1, h2⟩ := (ih rs subs s hrs).1 h
          exact ⟨r, .other _ _ _ (fun hc => hn (startsWith_iff.2 hc)) (fun hc => ha (containsStr_iff.2 hc)) h1, h2⟩
    · rw [vttFold, vttStep] at h
      simp only at h
      split at h
      · rename_i hl
        obtain ⟨r, h1, h2⟩ := (ih rs subs s hrs).1 h
        exact ⟨[], cleanLine l :: ls.map cleanLine, r, rfl, by simp, by simp [BlankNext, hl], by rw [hl]; exact blank _ _ h1, h2⟩
      · rename_i hl
        obtain ⟨ns, rest, r, e, h1, h2, h3, h4⟩ := (ih rs subs s hrs).2.1 h
        exact ⟨cleanLine l :: ns, rest, r, by rw [List.map_cons, e]; rfl, by simpa [hl] using h1, h2, h3, h4⟩
    · rw [vttFold, vttStep] at h
      simp only at h
      split at h
      · rename_i hl
        obtain ⟨r, h1, h2⟩ := (ih rs subs s hrs).1 h
        exact ⟨[], cleanLine l :: ls.map cleanLine, r, rfl, by simp, by simpa using hb, by simp [BlankNext, hl], by rw [hl]; exact blank _ _ h1, by simpa [restOfCue] using h2⟩
      · rename_i hl
        obtain ⟨s1, h1, h2⟩ := bind_eq_ok.1 h
        obtain ⟨q, h3, h4⟩ := bind_eq_ok.1 h1
        cases h4
        obtain ⟨ps, hps⟩ := lineParts_exist (cleanLine l)
        rw [lineParts_split hps] at h3
        have hfit := vttSubLines_fits ps rs i hi hb subs h3
        obtain ⟨t', h5⟩ := vttSubLines_eq ps rs i hi hfit subs
        rw [h5] at h3
        cases h3
        obtain ⟨text, rest, r, e, k1, k2, k3, k4, k5⟩ := (ih _ _ s (vbase_vraw hrs (i + ps.length) t')).2.2 (i + ps.length) rfl hfit h2
        refine ⟨(cleanLine l, ps) :: text, rest, r, by rw [List.map_cons, e]; rfl, ?_, ?_, k3, k4, ?_⟩
        · intro x hx
          rcases List.mem_cons.1 hx with rfl | hx
          · exact ⟨hl, hps⟩
          · exact k1 x hx
        · simp only [List.flatMap_cons, List.length_append]
          omega
        · rw [k5, List.flatMap_cons, restOfCue_append, restOfCue_vraw]
          simp only [restOfCue, List.append_assoc]

theorem note_run (ns : List Str) (rs : Raw) (subs : List Raw) : ∀ (raws : List Str), raws.map cleanLine = ns → (∀ n ∈ ns, n ≠ []) →
    vttFold (.note, rs, subs) raws = .ok (.note, rs, subs) := by
  induction ns with
  | nil => intro raws e _; rw [List.map_eq_nil_iff.1 e]; rfl
  | cons n ns ih =>
    intro raws e h
    obtain ⟨x, raws, rfl, e1, e2⟩ := List.map_eq_cons_iff.1 e
    rw [vttFold, vttStep]
    simp only [e1, if_neg (h n (by simp))]
    exact ih raws e2 (fun m hm => h m (by simp [hm]))

theorem text_run (text : List (Str × List Str)) : ∀ (rs : Raw) (subs : List Raw) (i : Nat) (raws : List Str), rs.vpos.line = some (i : Int) →
    raws.map cleanLine = text.map (·.1) → (∀ x ∈ text, x.1 ≠ [] ∧ LineParts x.1 x.2) → i + (text.flatMap (·.2)).length < 2 ^ 31 →
    ∃ t', vttFold (.subtitle, rs, subs) raws = .ok (.subtitle, vraw rs (i + (text.flatMap (·.2)).length) t', subs ++ restOfCue rs i (text.flatMap (·.2))) := by
  induction text with
  | nil =>
    intro rs subs i raws hi e _ _
    rw [List.map_nil, List.map_eq_nil_iff] at e
    subst e
    refine ⟨rs.text, ?_⟩
    show Except.ok _ = Except.ok _
    simp only [List.flatMap_nil, restOfCue, List.mapIdx_nil, List.append_nil, List.length_nil, Nat.add_zero, vraw]
    rw [← hi]
  | cons x text ih =>
    intro rs subs i raws hi e h hb
    rw [List.map_cons] at e
    obtain ⟨y, raws, rfl, e1, e2⟩ := List.map_eq_cons_iff.1 e
    have hx := h x (by simp)
    simp only [List.flatMap_cons, List.length_append] at hb
    obtain ⟨t1, h1⟩ := vttSubLines_eq x.2 rs i hi (by omega) subs
    obtain ⟨t2, h2⟩ := ih (vraw rs (i + x.2.length) t1) (subs ++ restOfCue rs i x.2) (i + x.2.length) raws rfl e2 (fun z hz => h z (by simp [hz])) (by omega)
    refine ⟨t2, ?_⟩
    rw [vttFold, vttStep]
    simp only [e1, if_neg hx.1, lineParts_split hx.2, h1]
    show vttFold (.subtitle, vraw rs (i + x.2.length) t1, subs ++ restOfCue rs i x.2) raws = _
    rw [h2, List.flatMap_cons, restOfCue_append, restOfCue_vraw, List.length_append, Nat.add_assoc, List.append_assoc]
    rfl

/-- After a note or the text of a cue the reader goes on as after a blank line. -/
theorem blank_run {ls : List Str} (hb : BlankNext (ls.map cleanLine)) (rs : Raw) (subs : List Raw) {s : VttSt} (h : vttFold (.data, rs, subs) ls = .ok s) :
    (∃ s', vttFold (.note, rs, subs) ls = .ok s' ∧ s'.2.2 = s.2.2) ∧ ∃ s', vttFold (.subtitle, rs, subs) ls = .ok s' ∧ s'.2.2 = s.2.2 := by
  cases ls with
  | nil => cases h; exact ⟨⟨_, rfl, rfl⟩, ⟨_, rfl, rfl⟩⟩
  | cons l ls =>
    have hl : cleanLine l = [] := hb _ rfl
    rw [vttFold, vttStep] at h
    simp only [hl] at h
    refine ⟨⟨s, ?_, rfl⟩, ⟨s, ?_, rfl⟩⟩ <;>
    · rw [vttFold, vttStep]
      simp only [hl, if_true]
      exact h

/-- The reader does all that the grammar allows. -/
theorem vttFold_complete {L : List Str} {r : List Raw} (h : VttBody L r) : ∀ (ls : List Str) (rs : Raw) (subs : List Raw), ls.map cleanLine = L → VBase rs →
    ∃ s, vttFold (.data, rs, subs) ls = .ok s ∧ s.2.2 = subs ++ r := by
  induction h with
  | done =>
    intro ls rs subs e _
    rw [List.map_eq_nil_iff.1 e]
    exact ⟨_, rfl, by simp⟩
  | other l ls' r h1 h2 _ ih =>
    intro ls rs subs e hrs
    obtain ⟨x, ls, rfl, e1, e2⟩ := List.map_eq_cons_iff.1 e
    obtain ⟨s, h3, h4⟩ := ih ls rs subs e2 hrs
    refine ⟨s, ?_, h4⟩
    rw [vttFold, vttStep]
    simp only [e1]
    rw [if_neg (by rw [startsWith_iff]; exact h1), if_neg (by rw [containsStr_iff]; exact h2)]
    exact h3
  | note l ns ls' r h1 h2 h3 _ ih =>
    intro ls rs subs e hrs
    rw [List.cons_append] at e
    obtain ⟨x, ls, rfl, e1, e2⟩ := List.map_eq_cons_iff.1 e
    obtain ⟨as, bs, rfl, e3, e4⟩ := List.map_eq_append_iff.1 e2
    obtain ⟨s, h4, h5⟩ := ih bs rs subs e4 hrs
    obtain ⟨⟨s', h6, h7⟩, _⟩ := blank_run (by rw [e4]; exact h3) rs subs h4
    refine ⟨s', ?_, by rw [h7, h5]⟩
    rw [vttFold, vttStep]
    simp only [e1]
    rw [if_pos (startsWith_iff.2 h1)]
    show vttFold (.note, rs, subs) (as ++ bs) = _
    rw [vttFold_append, note_run ns rs subs as e3 h2]
    exact h6
  | cue l f t text ls' r h1 h2 hw h3 h4 h5 h6 h7 _ ih =>
    intro ls rs subs e hrs
    rw [List.cons_append] at e
    obtain ⟨x, ls, rfl, e1, e2⟩ := List.map_eq_cons_iff.1 e
    obtain ⟨as, bs, rfl, e3, e4⟩ := List.map_eq_append_iff.1 e2
    obtain ⟨q, hq⟩ : ∃ q : Raw, q = { rs with from_ := f, to_ := t, vpos := { rs.vpos with line := some 0 } } := ⟨_, rfl⟩
    have hqb : VBase q := by rw [hq]; exact vbase_times hrs f t
    obtain ⟨t', k1⟩ := text_run text q subs 0 as (by rw [hq]; rfl) e3 h5 (by simpa using h6)
    obtain ⟨s, k2, k3⟩ := ih bs _ (subs ++ restOfCue q 0 (text.flatMap (·.2))) e4 (vbase_vraw hqb (0 + (text.flatMap (·.2)).length) t')
    obtain ⟨_, ⟨s', k4, k5⟩⟩ := blank_run (by rw [e4]; exact h7) _ _ k2
    refine ⟨s', ?_, ?_⟩
    · rw [vttFold, vttStep]
      simp only [e1]
      rw [if_neg (by rw [startsWith_iff]; exact h1), if_pos (containsStr_iff.2 h2), vttTiming_times hw h3 h4, ← hq]
      show vttFold (.subtitle, q, subs) (as ++ bs) = _
      rw [vttFold_append, k1]
      exact k4
    · rw [k5, k3, List.append_assoc]
      obtain ⟨tx, f', g, ln, rfl⟩ := hrs
      rw [← restOfCue_base (tx := tx) (l := some 0), hq]

/-! ### C115 -/

/-- C115: reading succeeds with certain subtitles exactly if the file means them. -/
theorem C115_exact (lines : List Str) (subs : List Raw) : vttRead lines = .ok subs ↔ VttFile (lines.map cleanLine) subs := by
  have hb : VBase vttFresh := ⟨_, _, _, _, rfl⟩
  rw [vttRead_ok_iff]
  constructor
  · rintro ⟨st, rs, h⟩
    cases lines with
    | nil => cases h; exact .empty
    | cons l ls =>
      rw [vttFold, vttStep] at h
      simp only at h
      split at h
      · rename_i hl
        obtain ⟨r, h1, h2⟩ := (vttFold_sound ls vttFresh [] _ hb).1 h
        simp only [List.nil_append] at h2
        subst h2
        exact .lines _ _ _ (startsWith_iff.1 hl) h1
      · cases h
  · intro h
    generalize hL : lines.map cleanLine = L at h
    cases h with
    | empty => rw [List.map_eq_nil_iff.1 hL]; exact ⟨_, _, rfl⟩
    | lines h ls' _ h1 h2 =>
      obtain ⟨x, ls, rfl, e1, e2⟩ := List.map_eq_cons_iff.1 hL
      obtain ⟨s, h3, h4⟩ := vttFold_complete h2 ls vttFresh [] e2 hb
      refine ⟨s.1, s.2.1, ?_⟩
      rw [vttFold, vttStep]
      simp only [e1]
      rw [if_pos (startsWith_iff.2 h1)]
      show vttFold (.data, vttFresh, []) ls = _
      rw [h3]
      simp only [List.nil_append] at h4
      rw [← h4]

/-- A file with a note, a cue identifier and a cue of three parts in two lines. -/
example : VttFile [b!"WEBVTT x", b!"NOTE", b!"1 --> 2", [], b!"7", b!"00:00:01.5 --> 0:1:2.0", b!"a", b!"b\u2028c"]
    (cueSubtitles ⟨1, 5, some ⟨1000, 1⟩⟩ ⟨62, 0, some ⟨1000, 1⟩⟩ [b!"a", b!"b", b!"c"]) := by
  have int : ∀ (x : Str) (v : Int), lexicalCastInt x = .ok v → IntText x v := fun x v h => (lexicalCastInt_iff x v).1 h
  refine .lines _ _ _ (by decide) ?_
  refine .note _ [b!"1 --> 2"] _ _ (by decide) (by decide) (by simp [BlankNext]) ?_
  refine .other _ _ _ (by decide) (by decide) ?_
  refine .other _ _ _ (by decide) (by decide) ?_
  refine .cue _ _ _ [(b!"a", [b!"a"]), (b!"b\u2028c", [b!"b", b!"c"])] [] [] (by decide) (by decide) (.inl (by decide)) ?_ ?_ ?_ (by decide) (by simp [BlankNext]) .done
  · exact ⟨0, 0, 1, 5, ⟨b!"00", b!"00", b!"01", b!"5", by decide, int _ _ (by decide +kernel), int _ _ (by decide +kernel), int _ _ (by decide +kernel), int _ _ (by decide +kernel)⟩,
      by unfold SecondsFit InInt; omega, rfl⟩
  · exact ⟨0, 1, 2, 0, ⟨b!"0", b!"1", b!"2", b!"0", by decide, int _ _ (by decide +kernel), int _ _ (by decide +kernel), int _ _ (by decide +kernel), int _ _ (by decide +kernel)⟩,
      by unfold SecondsFit InInt; omega, rfl⟩
  · unfold LineParts; decide

/-- C115: a file means at most one thing. -/
theorem C115_unique (lines : List Str) (r r' : List Raw) (h : VttFile (lines.map cleanLine) r) (h' : VttFile (lines.map cleanLine) r') : r = r' := by
  have e := (C115_exact _ _).2 h
  rw [(C115_exact _ _).2 h'] at e
  cases e
  rfl

/-- C115 for a string … -/
theorem C115_string (s : Str) (subs : List Raw) : vttReadString s = .ok subs ↔ VttFile ((linesOfString s).map cleanLine) subs := C115_exact _ _

/-- … and for a file. -/
theorem C115_file (s : Str) (subs : List Raw) : vttReadFile s = .ok subs ↔ VttFile ((linesOfFile s).map cleanLine) subs := C115_exact _ _

end LibSub
