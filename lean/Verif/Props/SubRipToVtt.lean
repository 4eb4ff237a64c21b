/-
Property C132: a SubRip file of plain text and the WebVTT file made of it mean the same.
-/
import Verif.Props.SubRipExact
import Verif.Props.WrittenTimes

namespace LibSub

/-! ### Specification -/

/-- Commas become full stops. -/
def commasToStops (l : Str) : Str := l.map (fun c => if c = 44 then 46 else c)

/-- The lines of a SubRip file with the commas of time lines changed (blank lines are empty here). -/
def stopsInTimes : Place → List Str → List Str
  | _, [] => []
  | .counter, l :: ls => l :: stopsInTimes (if l = [] then .counter else .times) ls
  | .times, l :: ls => commasToStops l :: stopsInTimes .text ls
  | .text, l :: ls => l :: stopsInTimes (if l = [] then .counter else .text) ls

/-- The WebVTT file made of the lines of a SubRip file. -/
def vttOfSrt (lines : List Str) : List Str := b!"WEBVTT" :: [] :: stopsInTimes .counter (lines.map cleanLine)

/-- Text without tags or right-to-left embedding marks, of parts that are not empty. -/
def TextOnly (l : Str) : Prop := (60 : Byte) ∉ l ∧ (123 : Byte) ∉ l ∧ ¬ b!"\u202B" <:+: l ∧ ∀ ps, LineParts l ps → [] ∉ ps

/-- Counters that are no notes or time lines, time lines with an arrow, plain text. -/
def OrdinarySrt : Place → List Str → Prop
  | _, [] => True
  | .counter, l :: ls => (¬ b!"NOTE" <+: l ∧ ¬ b!"-->" <:+: l) ∧ OrdinarySrt (if l = [] then .counter else .times) ls
  | .times, l :: ls => b!"-->" <:+: l ∧ OrdinarySrt .text ls
  | .text, l :: ls => (l ≠ [] → TextOnly l) ∧ OrdinarySrt (if l = [] then .counter else .text) ls

/-! ### Time lines -/

private theorem stops_of (l : Str) (h : (44 : Byte) ∉ l) : commasToStops l = l := by
  unfold commasToStops
  rw [List.map_congr_left (g := id) (fun c hc => ?_), List.map_id]
  rw [if_neg]
  · rfl
  · rintro rfl
    exact h hc

private theorem int_no_comma {a : Str} {v : Int} (h : IntText a v) : (44 : Byte) ∉ a := by
  obtain ⟨-, ds, -, hd, h⟩ := h
  have h1 : (44 : Byte) ∉ ds := fun hm => by
    have := hd 44 hm
    revert this
    decide
  rcases h with ⟨rfl | rfl, -⟩ | ⟨rfl, -⟩ <;> simp [h1]

private theorem stamp_stops {w : Str} {t : Time} (h : StampTime 44 w t) : StampTime 46 (commasToStops w) t := by
  obtain ⟨h, m, s, ms, ⟨a, b, c, d, rfl, ha, hb, hc, hd⟩, hf, ht⟩ := h
  refine ⟨h, m, s, ms, ⟨a, b, c, d, ?_, ha, hb, hc, hd⟩, hf, ht⟩
  have key : ∀ x y : Str, commasToStops (x ++ y) = commasToStops x ++ commasToStops y := fun x y => List.map_append
  have one : ∀ (c : Byte) (y : Str), commasToStops (c :: y) = (if c = 44 then 46 else c) :: commasToStops y := fun c y => List.map_cons
  simp only [key, one, stops_of a (int_no_comma ha), stops_of b (int_no_comma hb), stops_of c (int_no_comma hc), stops_of d (int_no_comma hd)]
  rfl

private theorem stops_nil (l : Str) : commasToStops l = [] ↔ l = [] := by
  unfold commasToStops
  rw [List.map_eq_nil_iff]

private theorem split_stops (s : Str) : (commasToStops s).splitOnP (· == 32) = (s.splitOnP (· == 32)).map commasToStops := by
  induction s with
  | nil => rfl
  | cons c s ih =>
    have e : commasToStops (c :: s) = (if c = 44 then 46 else c) :: commasToStops s := rfl
    rw [e, List.splitOnP_cons_eq_if_modifyHead, List.splitOnP_cons_eq_if_modifyHead, ih]
    by_cases hc : c = 32
    · subst hc
      rfl
    · have h1 : ((if c = 44 then 46 else c : Byte) == 32) = false := by
        split
        · rfl
        · simpa using hc
      have h2 : (c == 32) = false := by simpa using hc
      rw [h1, h2]
      simp only [Bool.false_eq_true, if_false]
      cases hs : s.splitOnP (· == 32) with
      | nil => rfl
      | cons x xs =>
        simp only [List.map_cons, List.modifyHead_cons]
        rfl

private theorem words_stops (s : Str) : wordsOf (commasToStops s) = (wordsOf s).map commasToStops := by
  unfold wordsOf
  rw [List.map_append, split_stops, List.filter_map]
  congr 1
  · have h1 : (commasToStops s).head? = some 32 ↔ s.head? = some 32 := by
      cases s with
      | nil => simp [commasToStops]
      | cons c s =>
        have e : commasToStops (c :: s) = (if c = 44 then 46 else c) :: commasToStops s := rfl
        rw [e, List.head?_cons, List.head?_cons, Option.some.injEq, Option.some.injEq]
        split
        · rename_i h
          subst h
          decide
        · rfl
    by_cases h : s = [] ∨ s.head? = some 32
    · rw [if_pos h, if_pos (by rw [stops_nil, h1]; exact h)]
      rfl
    · rw [if_neg h, if_neg (by rw [stops_nil, h1]; exact h)]
      rfl
  · congr 1
    apply List.filter_congr
    intro x _
    simp only [Function.comp, ne_eq, stops_nil]

private theorem word_stops (s : Str) (i : Nat) : (wordsOf (commasToStops s)).getD i [] = commasToStops ((wordsOf s).getD i []) := by
  rw [words_stops, List.getD_eq_getElem?_getD, List.getD_eq_getElem?_getD, List.getElem?_map]
  cases (wordsOf s)[i]? <;> rfl

private theorem arrow_stops {l : Str} (h : b!"-->" <:+: l) : b!"-->" <:+: commasToStops l := by
  obtain ⟨a, b, rfl⟩ := h
  exact ⟨commasToStops a, commasToStops b, by unfold commasToStops; simp⟩

private theorem note_stops {l : Str} {t : Time} (h : StampTime 44 ((wordsOf l).getD 0 []) t) : ¬ b!"NOTE" <+: commasToStops l := by
  rintro ⟨r, hr⟩
  obtain ⟨c, cs, hc⟩ : ∃ c cs, l = c :: cs := by
    cases l with
    | nil => cases hr
    | cons c cs => exact ⟨c, cs, rfl⟩
  have hc78 : c = 78 := by
    subst hc
    have e : commasToStops (c :: cs) = (if c = 44 then 46 else c) :: commasToStops cs := rfl
    rw [e] at hr
    injection hr with h1 _
    split at h1
    · cases h1
    · exact h1.symm
  subst hc78
  have hw : ∃ w ws, wordsOf l = (78 :: w) :: ws := by
    subst hc
    unfold wordsOf
    rw [if_neg (by simp), List.splitOnP_cons_eq_if_modifyHead, if_neg (by decide)]
    cases hs : cs.splitOnP (· == 32) with
    | nil => exact absurd hs (List.splitOnP_ne_nil _ _)
    | cons x xs => exact ⟨x, xs.filter (· ≠ []), by simp⟩
  obtain ⟨w, ws, hw⟩ := hw
  rw [hw, List.getD_cons_zero] at h
  obtain ⟨hh, m, s, ms, ⟨a, b, c, d, e, ha, -⟩, -⟩ := h
  obtain ⟨-, ds, hne, hd, ha⟩ := ha
  rcases ha with ⟨rfl | rfl, -⟩ | ⟨rfl, -⟩
  · obtain ⟨x, xs, rfl⟩ := List.exists_cons_of_ne_nil hne
    injection e with e1 _
    have := hd x (by simp)
    rw [← e1] at this
    revert this
    decide
  · cases e
  · cases e

/-! ### Text -/

private theorem plain_written (l : Str) (h : (60 : Byte) ∉ l) (h' : (123 : Byte) ∉ l) : SrtWritten l (l.map .chr) := by
  induction l with
  | nil => exact .done
  | cons c l ih =>
    refine .chr c l _ ?_ (ih (fun hm => h (by simp [hm])) (fun hm => h' (by simp [hm])))
    intro v hv u r e hu
    have hu' := (inAnyCase_iff u v).1 hu
    have hfirst : ∃ x xs, v = x :: xs ∧ (x = 60 ∨ x = 123) := by
      have : ∀ v ∈ srtTagStarts, v.head? = some 60 ∨ v.head? = some 123 := by decide
      rcases this v hv with hx | hx
      · obtain ⟨xs, rfl⟩ := List.head?_eq_some_iff.1 hx
        exact ⟨60, xs, rfl, .inl rfl⟩
      · obtain ⟨xs, rfl⟩ := List.head?_eq_some_iff.1 hx
        exact ⟨123, xs, rfl, .inr rfl⟩
    obtain ⟨x, xs, rfl, hx⟩ := hfirst
    cases u with
    | nil => cases hu'
    | cons y ys =>
      injection e with e1 _
      subst e1
      have hl : lowerByte c = x := by
        unfold toLower at hu'
        rw [List.map_cons] at hu'
        exact (List.cons.inj hu').1
      have hc : c ≠ 60 ∧ c ≠ 123 := ⟨fun e => h (by simp [e]), fun e => h' (by simp [e])⟩
      have := forall_byte (p := fun c => lowerByte c = 60 ∨ lowerByte c = 123 → c = 60 ∨ c = 123) (by decide +kernel) c (by rw [hl]; exact hx)
      tauto

private theorem plain_line {p q : Raw} {cs : List Colour} {t : Str} {r : List Raw} (hne : t ≠ []) (h : ¬ b!"\u202B" <:+: t) (hl : LineMeans (p, cs) (t.map .chr) r q) :
    q = p ∧ r = [{ p with text := t }] := by
  have hall : ∀ x ∈ t.map Tok.chr, ∃ c, x = .chr c := by
    intro x hx
    obtain ⟨c, -, rfl⟩ := List.mem_map.1 hx
    exact ⟨c, rfl⟩
  generalize hts : t.map Tok.chr = ts at hl hall
  cases hl with
  | last _ _ _ _ text _ ho hr =>
    subst hts
    have e1 : pieceTags (t.map Tok.chr) = [] := by
      unfold pieceTags
      rw [List.filterMap_map]
      exact List.filterMap_eq_nil_iff.2 (fun _ _ => rfl)
    have e2 : pieceText (t.map Tok.chr) = t := by
      unfold pieceText
      rw [List.filterMap_map]
      exact List.filterMap_some
    rw [e1] at ho
    rw [e2] at hr
    cases ho
    refine ⟨rfl, ?_⟩
    have e3 : text = t := by
      cases hr with
      | none => rfl
      | some a b r' _ _ => exact absurd ⟨a, b, by simp⟩ h
    rw [e3]
    unfold subtitleOf
    rw [if_neg hne]
  | more _ _ _ _ s piece x rest r' _ _ hx _ =>
    obtain ⟨c, rfl⟩ := hall x (by simp)
    cases hx

private theorem plain_cue (f t : Time) (ps : List Str) : ∀ (k : Nat), k < 2 ^ 31 → (∀ p ∈ ps, p ≠ [] ∧ (60 : Byte) ∉ p ∧ (123 : Byte) ∉ p ∧ ¬ b!"\u202B" <:+: p) →
    ∀ r, CueMeans { from_ := f, to_ := t, vpos := { line := some (k : Int), ref := some .topOfSubtitle } } ps r →
      k + ps.length < 2 ^ 31 ∧ r = ps.mapIdx (fun i p => { text := p, from_ := f, to_ := t, vpos := { line := some ((k + i : Nat) : Int), ref := some .topOfSubtitle } }) := by
  induction ps with
  | nil =>
    intro k hk _ r h
    cases h
    exact ⟨hk, rfl⟩
  | cons p ps ih =>
    intro k hk hp r h
    obtain ⟨h1, h2, h3, h4⟩ := hp p (by simp)
    cases h with
    | line _ q k' _ _ toks r1 r2 hw hl hq hi hc =>
      have ht := C116_written_unique p _ _ hw (plain_written p h2 h3)
      subst ht
      obtain ⟨rfl, rfl⟩ := plain_line h1 h4 hl
      injection hq with hq
      subst hq
      obtain ⟨i1, i2⟩ := ih (k + 1) (by have := hi.2; omega) (fun x hx => hp x (by simp [hx])) r2 (by
        rw [Nat.cast_add, Nat.cast_one]
        exact hc)
      rw [List.length_cons]
      refine ⟨by omega, ?_⟩
      rw [i2, List.mapIdx_cons]
      have e : ∀ i, k + 1 + i = k + (i + 1) := fun i => by omega
      simp only [e]
      rfl

private theorem part_infix {p : Str} {ps : List Str} (h : p ∈ ps) : p <:+: joinParts ps := by
  induction ps with
  | nil => cases h
  | cons q ps ih =>
    cases ps with
    | nil =>
      rw [List.mem_singleton] at h
      rw [h]
      exact List.infix_rfl
    | cons q' ps =>
      show p <:+: q ++ b!"\u2028" ++ joinParts (q' :: ps)
      rcases List.mem_cons.1 h with rfl | h
      · exact ⟨[], b!"\u2028" ++ joinParts (q' :: ps), by simp⟩
      · exact (ih h).trans ⟨q ++ b!"\u2028", [], by simp⟩

private theorem part_plain {l : Str} {ps : List Str} (h : TextOnly l) (hp : LineParts l ps) : ∀ p ∈ ps, p ≠ [] ∧ (60 : Byte) ∉ p ∧ (123 : Byte) ∉ p ∧ ¬ b!"\u202B" <:+: p := by
  intro p hm
  have hin : p <:+: l := by
    obtain ⟨-, rfl, -⟩ := hp
    exact part_infix hm
  exact ⟨fun e => h.2.2.2 ps hp (e ▸ hm), fun hc => h.1 (hin.subset hc), fun hc => h.2.1 (hin.subset hc), fun hc => h.2.2.1 (hc.trans hin)⟩

/-! ### Files -/

private theorem text_lines (text : List (Str × List Str)) (hne : ∀ x ∈ text, x.1 ≠ [] ∧ LineParts x.1 x.2) (ls : List Str) :
    stopsInTimes .text (text.map (·.1) ++ ls) = text.map (·.1) ++ stopsInTimes .text ls ∧
      (OrdinarySrt .text (text.map (·.1) ++ ls) → (∀ x ∈ text, TextOnly x.1) ∧ OrdinarySrt .text ls) := by
  induction text with
  | nil => exact ⟨rfl, fun h => ⟨by simp, h⟩⟩
  | cons x text ih =>
    obtain ⟨i1, i2⟩ := ih (fun y hy => hne y (by simp [hy]))
    have hx := (hne x (by simp)).1
    rw [List.map_cons, List.cons_append, stopsInTimes, if_neg hx, i1]
    refine ⟨rfl, fun h => ?_⟩
    rw [OrdinarySrt, if_neg hx] at h
    obtain ⟨j1, j2⟩ := i2 h.2
    refine ⟨?_, j2⟩
    intro y hy
    rcases List.mem_cons.1 hy with rfl | hy
    · exact h.1 hx
    · exact j1 y hy

/-- After the text there is a blank line or nothing: then it does not matter which place it is. -/
private theorem blank_place (ls : List Str) (hb : BlankNext ls) : stopsInTimes .text ls = stopsInTimes .counter ls ∧ (OrdinarySrt .text ls → OrdinarySrt .counter ls) ∧ BlankNext (stopsInTimes .counter ls) := by
  cases ls with
  | nil => exact ⟨rfl, id, by simp [BlankNext, stopsInTimes]⟩
  | cons l ls =>
    have : l = [] := hb l rfl
    subst this
    refine ⟨rfl, fun h => ⟨⟨by decide, by decide⟩, h.2⟩, ?_⟩
    intro l hl
    rw [stopsInTimes] at hl
    simpa using hl.symm

private theorem srt_vtt {ls : List Str} {rs : List Raw} (h : SrtFile ls rs) : OrdinarySrt .counter ls → VttBody (stopsInTimes .counter ls) rs := by
  induction h with
  | done => exact fun _ => .done
  | blank ls r _ ih =>
    intro ho
    rw [OrdinarySrt, if_pos rfl] at ho
    rw [stopsInTimes, if_pos rfl]
    exact .other [] _ _ ho.1.1 ho.1.2 (ih ho.2)
  | number l hl =>
    intro ho
    rw [stopsInTimes, if_neg hl, stopsInTimes]
    exact .other l _ _ ho.1.1 ho.1.2 .done
  | cue l m f t text ls r r' hl hw h0 h2 hne hc hb _ ih =>
    intro ho
    have e : l :: m :: text.map (·.1) ++ ls = l :: m :: (text.map (·.1) ++ ls) := rfl
    rw [e] at ho ⊢
    rw [OrdinarySrt, if_neg hl, OrdinarySrt] at ho
    rw [stopsInTimes, if_neg hl, stopsInTimes]
    obtain ⟨i1, i2⟩ := text_lines text hne ls
    obtain ⟨j1, j2, j3⟩ := blank_place ls hb
    obtain ⟨k1, k2⟩ := i2 ho.2.2
    rw [i1, j1]
    refine .other l _ _ ho.1.1 ho.1.2 ?_
    obtain ⟨hlen, hr⟩ := plain_cue f t (text.flatMap (·.2)) 0 (by norm_num) (by
      intro p hp
      obtain ⟨x, hx, hp⟩ := List.mem_flatMap.1 hp
      exact part_plain (k1 x hx) (hne x hx).2 p hp) r hc
    rw [Nat.zero_add] at hlen
    have hr' : r = cueSubtitles f t (text.flatMap (·.2)) := by
      rw [hr]
      unfold cueSubtitles
      simp only [Nat.zero_add]
    rw [hr']
    exact .cue (commasToStops m) f t text (stopsInTimes .counter ls) r' (note_stops h0) (arrow_stops ho.2.1) (by rw [words_stops, List.length_map]; exact hw)
      (by rw [word_stops]; exact stamp_stops h0) (by rw [word_stops]; exact stamp_stops h2) hne hlen j3 (ih (j2 k2))

/-! ### Cleaning -/

private theorem clean_last (l : Str) (c : Byte) (h : (cleanLine l).getLast? = some c) : isNlCr c = false := by
  unfold cleanLine at h
  rcases removeBom_cases (trimRightIf isNlCr l) with ⟨r, h1, h2⟩ | ⟨-, h2⟩
  · rw [h2] at h
    refine trimRightIf_last isNlCr l c ?_
    rw [h1]
    cases r with
    | nil => cases h
    | cons x r => simpa using h
  · rw [h2] at h
    exact trimRightIf_last isNlCr l c h

private theorem clean_clean {l : Str} (h : ¬ b!"\uFEFF" <+: cleanLine l) : cleanLine (cleanLine l) = cleanLine l := by
  show removeBom (trimRightIf isNlCr (cleanLine l)) = _
  rw [trimRightIf_of_last (clean_last l)]
  exact removeBom_of_not (fun r e => h ⟨r, e.symm⟩)

private theorem clean_stops {l : Str} (h : ¬ b!"\uFEFF" <+: cleanLine l) : cleanLine (commasToStops (cleanLine l)) = commasToStops (cleanLine l) := by
  show removeBom (trimRightIf isNlCr (commasToStops (cleanLine l))) = _
  rw [trimRightIf_of_last]
  · refine removeBom_of_not (fun r e => h ?_)
    generalize cleanLine l = x at e
    match x, e with
    | a :: b :: c :: x, e =>
      unfold commasToStops at e
      rw [List.map_cons, List.map_cons, List.map_cons] at e
      injection e with e1 e
      injection e with e2 e
      injection e with e3 e
      have key : ∀ a v : Byte, v ≠ 46 → (if a = 44 then 46 else a) = v → a = v := by
        intro a v hv h
        split at h
        · exact absurd h.symm hv
        · exact h
      rw [key a _ (by decide) e1, key b _ (by decide) e2, key c _ (by decide) e3]
      exact ⟨x, rfl⟩
    | [], e => cases e
    | [_], e => exact absurd (congrArg List.length e) (by simp [commasToStops])
    | [_, _], e => exact absurd (congrArg List.length e) (by simp [commasToStops])
  · intro c hc
    unfold commasToStops at hc
    rw [List.getLast?_map] at hc
    obtain ⟨d, hd, rfl⟩ := Option.map_eq_some_iff.1 hc
    have := clean_last l d hd
    split
    · rfl
    · exact this

private theorem stops_clean (lines : List Str) (h : ∀ l ∈ lines, ¬ b!"\uFEFF" <+: cleanLine l) : ∀ p, (stopsInTimes p (lines.map cleanLine)).map cleanLine = stopsInTimes p (lines.map cleanLine) := by
  induction lines with
  | nil => intro p; cases p <;> rfl
  | cons l ls ih =>
    intro p
    have ih := ih (fun x hx => h x (by simp [hx]))
    have hl := h l (by simp)
    rw [List.map_cons]
    cases p with
    | counter => rw [stopsInTimes, List.map_cons, ih, clean_clean hl]
    | times => rw [stopsInTimes, List.map_cons, ih, clean_stops hl]
    | text => rw [stopsInTimes, List.map_cons, ih, clean_clean hl]

/-! ### The property -/

/-- Only the parts of a line found by splitting matter. -/
private theorem textOnly_of {l : Str} (h : (60 : Byte) ∉ l ∧ (123 : Byte) ∉ l ∧ ¬ b!"\u202B" <:+: l ∧ [] ∉ splitStr lineSep l) : TextOnly l :=
  ⟨h.1, h.2.1, h.2.2.1, fun _ hps => lineParts_split hps ▸ h.2.2.2⟩

/-- C132: what the SubRip reader makes of an ordinary file of plain text, the WebVTT reader makes of the WebVTT file made of it. -/
theorem C132_same (lines : List Str) (subs : List Raw) (h : srtRead lines = .ok subs) (hb : ∀ l ∈ lines, ¬ b!"\uFEFF" <+: cleanLine l)
    (ho : OrdinarySrt .counter (lines.map cleanLine)) : vttRead (vttOfSrt lines) = .ok subs := by
  rw [C115_exact]
  have h1 := srt_vtt ((C116_exact lines subs).1 h) ho
  have e : (vttOfSrt lines).map cleanLine = b!"WEBVTT" :: [] :: stopsInTimes .counter (lines.map cleanLine) := by
    unfold vttOfSrt
    rw [List.map_cons, List.map_cons, stops_clean lines hb]
    rfl
  rw [e]
  exact .lines _ _ _ (List.prefix_refl _) (.other [] _ _ (by decide) (by decide) h1)

/-- A byte order mark, Windows line ends, two cues, the second of two lines with a comma. -/
private def someSrt : List Str :=
  [b!"\uFEFF1\r", b!"00:00:01,500 --> 00:00:02,250\r", b!"Hello, you\r", b!"\r", b!"2\r", b!"00:01:00,000 --> 00:01:01,001 X1:1 X2:2 Y1:3 Y2:4\r", b!"One,\r", b!"two\r"]

example : (srtRead someSrt).toOption.map (·.map (·.text)) = some [b!"Hello, you", b!"One,", b!"two"] := by decide +kernel

example : vttOfSrt someSrt =
    [b!"WEBVTT", b!"", b!"1", b!"00:00:01.500 --> 00:00:02.250", b!"Hello, you", b!"", b!"2", b!"00:01:00.000 --> 00:01:01.001 X1:1 X2:2 Y1:3 Y2:4", b!"One,", b!"two"] := by decide +kernel

example : vttRead (vttOfSrt someSrt) = srtRead someSrt := by
  cases h : srtRead someSrt with
  | error e =>
    have : (srtRead someSrt).toOption ≠ none := by decide +kernel
    rw [h] at this
    exact absurd rfl this
  | ok subs =>
    refine C132_same someSrt subs h (by decide +kernel) ⟨by decide +kernel, by decide +kernel, ?_⟩
    refine ⟨fun _ => textOnly_of (by decide +kernel), fun h => absurd rfl h, by decide +kernel, by decide +kernel, ?_⟩
    exact ⟨fun _ => textOnly_of (by decide +kernel), fun _ => textOnly_of (by decide +kernel), trivial⟩

/-- Tags are needed to be absent: the SubRip reader takes them, the WebVTT reader keeps them as text. -/
theorem C132_tags : (srtRead [b!"1", b!"00:00:01,500 --> 00:00:02,250", b!"<b>Hello</b>"]).toOption.map (·.map (fun r => (r.text, r.bold))) = some [(b!"Hello", true)] ∧
    (vttRead (vttOfSrt [b!"1", b!"00:00:01,500 --> 00:00:02,250", b!"<b>Hello</b>"])).toOption.map (·.map (fun r => (r.text, r.bold))) = some [(b!"<b>Hello</b>", false)] := by
  decide +kernel

/-- The arrow is needed: the SubRip reader does not look at the word between the times, the WebVTT reader looks for nothing else. -/
theorem C132_arrow : (srtRead [b!"1", b!"00:00:01,500 to 00:00:02,250", b!"Hello"]).toOption.map (·.map (·.text)) = some [b!"Hello"] ∧
    vttRead (vttOfSrt [b!"1", b!"00:00:01,500 to 00:00:02,250", b!"Hello"]) = .ok [] := by
  constructor
  · decide +kernel
  · rw [C115_exact]
    exact .lines _ _ _ (by decide) (.other _ _ _ (by decide) (by decide) (.other _ _ _ (by decide) (by decide) (.other _ _ _ (by decide) (by decide) (.other _ _ _ (by decide) (by decide) .done))))

end LibSub
