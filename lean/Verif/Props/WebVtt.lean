/-
Properties C35 and C36, and C29, C30 and C31 for WebVTT.
-/
import Verif.Lemmas.WebVtt
import Verif.Props.LineEnds
import Verif.Props.SubRipText

namespace LibSub

/-! ### C29, C30, C31 -/

/-- C29 for WebVTT: a file reads the same with either kind of line end … -/
theorem C29_vtt_crlf (s : Str) (subs : List Raw) : vttReadString (toCrlf s) = .ok subs ↔ vttReadString s = .ok subs := by
  unfold vttReadString
  rw [vttRead_ok_iff, vttRead_ok_iff, vttFold_clean _ _ _ (clean_crlf s)]

/-- … and with or without byte order mark, unless it is empty. -/
theorem C29_vtt_bom (s : Str) (h : ¬ bom <+: s) (hne : s ≠ []) (subs : List Raw) : vttReadString (bom ++ s) = .ok subs ↔ vttReadString s = .ok subs := by
  unfold vttReadString
  rw [vttRead_ok_iff, vttRead_ok_iff, vttFold_clean _ _ _ (clean_bom h hne)]

/-- An empty file is accepted, but not if it has a byte order mark. -/
theorem C29_vtt_empty_witness : vttReadString [] = .ok [] ∧ vttReadString bom = .error .webvttHeader := by decide +kernel

/-- C30 for WebVTT. -/
theorem C30_vtt_partial (s : Str) (h : ShortLines s) (subs : List Raw) : vttReadFile s = .ok subs ↔ vttReadString s = .ok subs := by
  unfold vttReadString vttReadFile
  rw [vttRead_ok_iff, vttRead_ok_iff, vttFold_clean _ _ _ (clean_file h)]

example (subs : List Raw) : vttReadFile b!"WEBVTT\n\n0:0:1.0 --> 0:0:2.0\nx\n" = .ok subs ↔ vttReadString b!"WEBVTT\n\n0:0:1.0 --> 0:0:2.0\nx\n" = .ok subs :=
  C30_vtt_partial _ (by unfold ShortLines; decide) subs

theorem vttSubLines_append (a b : List Str) (p : Raw) (subs : List Raw) :
    vttSubLines (a ++ b) p subs = (vttSubLines a p subs).bind (fun q => vttSubLines b q.1 q.2) := by
  induction a generalizing p subs with
  | nil => rfl
  | cons t ts ih =>
    rw [List.cons_append, vttSubLines, vttSubLines]
    simp only
    cases optGet p.vpos.line with
    | error e => rfl
    | ok l =>
      simp only [ok_bind]
      cases ck (l + 1) with
      | error e => rfl
      | ok l' => exact ih _ _

/-- The lines `A` end inside the text of a cue: a line with `-->` that comes after the header or a blank line, then only lines that are not blank. -/
def InCue (A : List Str) : Prop :=
  ∃ P x t ls, A = P ++ x :: t :: ls ∧ (P = [] ∨ cleanLine x = []) ∧ ¬ b!"NOTE" <+: cleanLine t ∧ b!"-->" <:+: cleanLine t ∧ ∀ l ∈ ls, cleanLine l ≠ []

theorem prefix_append_cases {w a b : Str} (h : w <+: a ++ b) : w <+: a ∨ ∃ u, w = a ++ u ∧ u <+: b := by
  obtain ⟨r, hr⟩ := h
  rcases List.append_eq_append_iff.1 hr with ⟨z, h1, h2⟩ | ⟨z, h1, h2⟩
  · exact .inl ⟨z, h1.symm⟩
  · exact .inr ⟨z, h1, ⟨r, h2.symm⟩⟩

private theorem fold_inCue {A : List Str} (hA : InCue A) {s : VttSt} (h : vttFold (.header, vttFresh, []) A = .ok s) : s.1 = .subtitle := by
  obtain ⟨P, x, t, ls, rfl, hP, ht1, ht2, hls⟩ := hA
  rw [vttFold_append] at h
  obtain ⟨s1, h1, h2⟩ := bind_eq_ok.1 h
  rw [vttFold] at h2
  obtain ⟨s2, h3, h4⟩ := bind_eq_ok.1 h2
  rw [vttFold] at h4
  obtain ⟨s3, h5, h6⟩ := bind_eq_ok.1 h4
  have e2 : s2.1 = .data := by
    rcases hP with rfl | hx
    · cases h1
      unfold vttStep at h3
      simp only at h3
      split at h3
      · cases h3; rfl
      · cases h3
    · unfold vttStep at h3
      rw [hx] at h3
      split at h3
      · cases h3
      · cases h3; rfl
      · rw [if_pos rfl] at h3; cases h3; rfl
      · rw [if_pos rfl] at h3; cases h3; rfl
  have e3 : s3.1 = .subtitle := by
    unfold vttStep at h5
    rw [e2] at h5
    simp only at h5
    rw [if_neg (by rw [startsWith_iff]; exact ht1), if_pos (containsStr_iff.2 ht2)] at h5
    obtain ⟨r, _, h7⟩ := bind_eq_ok.1 h5
    cases h7
    rfl
  clear h1 h2 h3 h4 h5 h
  induction ls generalizing s3 with
  | nil => cases h6; exact e3
  | cons l ls ih =>
    rw [vttFold] at h6
    obtain ⟨s4, h7, h8⟩ := bind_eq_ok.1 h6
    refine ih (fun x hx => hls x (by simp [hx])) s4 h8 ?_
    unfold vttStep at h7
    rw [e3] at h7
    simp only [if_neg (hls l (by simp))] at h7
    obtain ⟨r, _, h9⟩ := bind_eq_ok.1 h7
    cases h9
    rfl

/-- C31 for WebVTT. -/
theorem C31_vtt_line_separator (A B : List Str) (hA : InCue A) (a b : Str) (ha : GoodLine a) (hb : GoodLine b) (hs : ¬ b!"\u2028" <:+: a) (subs : List Raw) :
    vttRead (A ++ [a ++ b!"\u2028" ++ b] ++ B) = .ok subs ↔ vttRead (A ++ [a, b] ++ B) = .ok subs := by
  have key : vttFold (.header, vttFresh, []) (A ++ [a ++ b!"\u2028" ++ b] ++ B) = vttFold (.header, vttFresh, []) (A ++ [a, b] ++ B) := by
    rw [vttFold_append, vttFold_append, vttFold_append, vttFold_append]
    cases hf : vttFold (.header, vttFresh, []) A with
    | error e => rfl
    | ok s =>
      have hc := fold_inCue hA hf
      obtain ⟨st, rs, subs⟩ := s
      simp only at hc
      subst hc
      show (vttFold (.subtitle, rs, subs) [a ++ b!"\u2028" ++ b]).bind _ = (vttFold (.subtitle, rs, subs) [a, b]).bind _
      congr 1
      have hab := goodLine_sep ha hb
      have e1 : splitStr lineSep (a ++ b!"\u2028" ++ b) = [a] ++ splitStr lineSep b := by
        rw [List.append_assoc]
        exact splitStr_append (sep := lineSep) (by decide) (noOcc_lineSep hs)
      have e2 : splitStr lineSep a = [a] := splitStr_none (noOcc_of_not_infix hs)
      simp only [vttFold, vttStep, cleanLine_good hab, cleanLine_good ha, if_neg hab.1, if_neg ha.1]
      rw [e1, e2, vttSubLines_append]
      cases vttSubLines [a] rs subs with
      | error e => rfl
      | ok q =>
        simp only [Except.bind, cleanLine_good hb, if_neg hb.1]
  rw [vttRead_ok_iff, vttRead_ok_iff, key]

example : InCue [b!"WEBVTT", b!"", b!"0:0:1.0 --> 0:0:2.0", b!"x"] :=
  ⟨[b!"WEBVTT"], b!"", b!"0:0:1.0 --> 0:0:2.0", [b!"x"], rfl, .inr rfl, by decide, by decide, by decide⟩

/-! ### C35 -/

private theorem no_header (st : VttState) (hst : st ≠ .header) (ctx : List Str) (rs : Raw) (subs : List Raw) (ls : List Str) :
    ErrIn (· ≠ .webvttHeader) (vttLines st ctx rs subs ls) := by
  have pl : ∀ e : Err, e.Plain → e ≠ .webvttHeader := by rintro e he rfl; exact he
  have ht : ∀ ctx line rest rs, ErrIn (· ≠ .webvttHeader) (vttTiming ctx line rest rs) := by
    intro ctx line rest rs
    unfold vttTiming
    refine .ite (.error (by nofun)) (.bind ((plain_convertTime _ _).mono pl) fun r _ => ?_)
    cases r with
    | error e => exact .error (by nofun)
    | ok t =>
      refine .bind ((plain_convertTime _ _).mono pl) fun r _ => ?_
      cases r with
      | error e => exact .error (by nofun)
      | ok t => exact .ok _
  have hs : ∀ ts rs subs, ErrIn (· ≠ .webvttHeader) (vttSubLines ts rs subs) := by
    intro ts
    induction ts with
    | nil => intro rs subs; exact .ok _
    | cons t ts ih => intro rs subs; exact .bind ((plain_optGet _).mono pl) fun _ _ => .bind ((plain_ck _).mono pl) fun _ _ => ih _ _
  induction ls generalizing st ctx rs subs with
  | nil => exact .ok _
  | cons l ls ih =>
    cases st with
    | header => contradiction
    | data =>
      rw [vttLines]
      exact .ite (ih _ (by nofun) ..) (.ite (.bind (ht ..) fun _ _ => ih _ (by nofun) ..) (ih _ (by nofun) ..))
    | subtitle =>
      rw [vttLines]
      exact .ite (ih _ (by nofun) ..) (.bind (hs ..) fun _ _ => ih _ (by nofun) ..)
    | note =>
      rw [vttLines]
      exact .ite (ih _ (by nofun) ..) (ih _ (by nofun) ..)

private theorem webvtt_clean {a : Str} : startsWith (cleanLine a) b!"WEBVTT" = true ↔ b!"WEBVTT" <+: a ∨ bom ++ b!"WEBVTT" <+: a := by
  have trim : ∀ (w a : Str), w ≠ [] → (∀ c ∈ w, isNlCr c = false) → (w <+: trimRightIf isNlCr a ↔ w <+: a) := by
    intro w a hw hc
    obtain ⟨b, e, hb⟩ := trimRightIf_prefix isNlCr a
    constructor
    · rintro ⟨r, hr⟩
      refine ⟨r ++ b, ?_⟩
      rw [← List.append_assoc, hr, ← e]
    · intro h
      rw [e] at h
      rcases prefix_append_cases h with h | ⟨u, hu, hub⟩
      · exact h
      · rw [hu]
        cases u with
        | nil => simp
        | cons x u =>
          exfalso
          have h1 := hc x (by rw [hu]; simp)
          have h2 := hb x (hub.subset (by simp))
          rw [h1] at h2
          cases h2
  rw [startsWith_iff]
  unfold cleanLine
  rcases removeBom_cases (trimRightIf isNlCr a) with ⟨r, e1, e2⟩ | ⟨h1, e2⟩
  · rw [e2]
    constructor
    · rintro ⟨x, hx⟩
      right
      rw [← trim _ _ (by decide) (by decide), e1, ← hx]
      exact ⟨x, by simp [bom]⟩
    · rintro (h | h)
      · rw [← trim _ _ (by decide) (by decide), e1] at h
        obtain ⟨x, hx⟩ := h
        simp at hx
      · rw [← trim _ _ (by decide) (by decide), e1] at h
        obtain ⟨x, hx⟩ := h
        refine ⟨x, ?_⟩
        simpa [bom] using hx
  · rw [e2, trim _ _ (by decide) (by decide)]
    constructor
    · exact .inl
    · rintro (h | h)
      · exact h
      · exfalso
        rw [← trim _ _ (by decide) (by decide)] at h
        obtain ⟨x, hx⟩ := h
        apply h1
        exact ⟨b!"WEBVTT" ++ x, by rw [← hx]; rfl⟩

private theorem prefix_line (w a b : Str) (hw : (10 : Byte) ∉ w) : w <+: a ++ 10 :: b ↔ w <+: a := by
  constructor
  · intro h
    rcases prefix_append_cases h with h | ⟨u, hu, hub⟩
    · exact h
    · rw [hu]
      cases u with
      | nil => simp
      | cons x u =>
        exfalso
        have : x = 10 := (List.cons_prefix_cons.1 hub).1
        apply hw
        rw [hu, this]
        simp
  · rintro ⟨r, hr⟩
    exact ⟨r ++ 10 :: b, by rw [← hr]; simp⟩

/-- C35: a file that is not empty is rejected for its header exactly if it does not start with `WEBVTT`, perhaps after a byte order mark. -/
theorem C35_header (s : Str) (hne : s ≠ []) : vttReadString s = .error .webvttHeader ↔ ¬ (b!"WEBVTT" <+: s ∨ bom ++ b!"WEBVTT" <+: s) := by
  have key : ∀ (a : Str) (ls : List Str), vttRead (a :: ls) = .error .webvttHeader ↔ ¬ (b!"WEBVTT" <+: a ∨ bom ++ b!"WEBVTT" <+: a) := by
    intro a ls
    unfold vttRead
    rw [vttLines, ← webvtt_clean]
    unfold cleanLine
    split
    · rename_i h
      exact ⟨fun h' => absurd rfl ((no_header .data (by nofun) _ _ _ _).h _ h'), fun h' => absurd h h'⟩
    · rename_i h
      exact ⟨fun _ => h, fun _ => rfl⟩
  unfold vttReadString
  rcases newline_cases s with h | ⟨a, b, rfl, ha⟩
  · rw [linesOfString_last h hne, key]
  · rw [linesOfString_newline ha, key, prefix_line _ _ _ (by decide), prefix_line _ _ _ (by decide)]

/-- C35: nothing else is looked at then. -/
theorem C35_nothing_else (a b : Str) (h : vttReadString (a ++ [10]) = .error .webvttHeader) : vttReadString (a ++ 10 :: b) = .error .webvttHeader := by
  have h' := h
  rw [C35_header _ (by simp)] at h' ⊢
  rcases newline_cases a with ha | ⟨a1, a2, rfl, ha⟩
  · rwa [show a ++ [10] = a ++ 10 :: [] from rfl, prefix_line _ _ _ (by decide), prefix_line _ _ _ (by decide),
      ← prefix_line _ a b (by decide), ← prefix_line _ a b (by decide)] at h'
  · simp only [List.append_assoc, List.cons_append] at h' ⊢
    rwa [prefix_line _ _ _ (by decide), prefix_line _ _ _ (by decide)] at h' ⊢

example : vttReadString b!"WEBVT\nWEBVTT\n\n0:0:1.0 --> 0:0:2.0\nx\n" = .error .webvttHeader := C35_nothing_else b!"WEBVT" b!"WEBVTT\n\n0:0:1.0 --> 0:0:2.0\nx\n" (by decide +kernel)

/-- C35: no subtitles in an empty file. -/
theorem C35_empty : vttReadString [] = .ok [] ∧ vttReadFile [] = .ok [] := ⟨rfl, rfl⟩

example : vttReadString b!"WEBVT\n\n0:0:1.0 --> 0:0:2.0\nx" = .error .webvttHeader := by decide +kernel

/-! ### C36 -/

/-- Something in a WebVTT file. -/
inductive VItem where
  /-- `NOTE` and the rest of its line, then more lines up to a blank line -/
  | note (first : Str) (more : List Str)
  /-- any other line: an identifier, a blank line, metadata -/
  | other (l : Str)
  /-- a cue: its times and its lines, each of one or more parts separated by U+2028 -/
  | cue (t : TimeLine) (lines : List (List Str))

/-- Parts joined by U+2028. -/
def joinParts : List Str → Str
  | [] => []
  | [p] => p
  | p :: ps => p ++ b!"\u2028" ++ joinParts ps

/-- The lines of an item.  Notes and cues end with a blank line. -/
def VItem.text : VItem → List Str
  | .note first more => (b!"NOTE" ++ first) :: more ++ [[]]
  | .other l => [l]
  | .cue t lines => t.text 46 :: lines.map joinParts ++ [[]]

/-- An item that can be written. -/
def VItem.Valid : VItem → Prop
  | .note first more => (10 : Byte) ∉ first ∧ ∀ l ∈ more, GoodLine l
  | .other l => l = [] ∨ (GoodLine l ∧ ¬ b!"NOTE" <+: l ∧ ¬ b!"-->" <:+: l)
  | .cue t lines => t.Valid ∧ (∀ l ∈ lines, l ≠ [] ∧ GoodLine (joinParts l) ∧ ∀ p ∈ l, ¬ b!"\u2028" <:+: p) ∧ lines.flatten.length < 2 ^ 31

/-- What an item should be read as: one subtitle for each part. -/
def VItem.raws : VItem → List Raw
  | .cue t lines => lines.flatten.mapIdx (fun i l => { text := l, from_ := t.from_.time, to_ := t.to_.time, vpos := { line := some (i : Int), ref := some .topOfSubtitle } })
  | _ => []

theorem splitStr_join (ps : List Str) (hne : ps ≠ []) (h : ∀ p ∈ ps, ¬ b!"\u2028" <:+: p) : splitStr lineSep (joinParts ps) = ps := by
  induction ps with
  | nil => contradiction
  | cons p ps ih =>
    cases ps with
    | nil => exact splitStr_none (noOcc_of_not_infix (h p (by simp)))
    | cons q ps =>
      show splitStr lineSep (p ++ b!"\u2028" ++ joinParts (q :: ps)) = _
      rw [List.append_assoc]
      have := splitStr_append (sep := lineSep) (a := p) (b := joinParts (q :: ps)) (by decide) (noOcc_lineSep (h p (by simp)))
      rw [show b!"\u2028" = lineSep from rfl, this, ih (by simp) (fun x hx => h x (by simp [hx]))]

/-- A subtitle with another text and line number. -/
def vraw (rs : Raw) (i : Nat) (t : Str) : Raw := { rs with text := t, vpos := { rs.vpos with line := some (i : Int) } }

theorem vttSubLines_eq (ts : List Str) (rs : Raw) (i : Nat) (hi : rs.vpos.line = some (i : Int)) (hb : i + ts.length < 2 ^ 31) (subs : List Raw) :
    ∃ t', vttSubLines ts rs subs = .ok (vraw rs (i + ts.length) t', subs ++ ts.mapIdx (fun k t => vraw rs (i + k) t)) := by
  induction ts generalizing rs i subs with
  | nil =>
    refine ⟨rs.text, ?_⟩
    show Except.ok _ = Except.ok _
    simp only [List.mapIdx_nil, List.append_nil, List.length_nil, Nat.add_zero, vraw]
    rw [← hi]
  | cons t ts ih =>
    rw [vttSubLines]
    simp only [List.length_cons] at hb
    simp only
    rw [hi, optGet, ok_bind, ck_ok (by unfold InInt; omega), ok_bind]
    obtain ⟨t', h⟩ := ih (vraw rs (i + 1) t) (i + 1) rfl (by omega) (subs ++ [vraw rs i t])
    refine ⟨t', ?_⟩
    have e1 : ({ rs with text := t, vpos := { rs.vpos with line := some ((i : Int) + 1) } } : Raw) = vraw rs (i + 1) t := by
      unfold vraw; push_cast; rfl
    have e2 : ({ rs with text := t } : Raw) = vraw rs i t := by
      unfold vraw; rw [← hi]
    rw [e1, e2, h, List.length_cons, List.mapIdx_cons]
    have e3 : ∀ k (t' : Str), vraw (vraw rs (i + 1) t) k t' = vraw rs k t' := fun _ _ => rfl
    simp only [e3, List.append_assoc, List.cons_append, List.nil_append, Nat.add_zero]
    rw [show i + 1 + ts.length = i + (ts.length + 1) by omega]
    simp only [show ∀ k, i + 1 + k = i + (k + 1) by intro k; omega]

private theorem vfold_content (ls : List (List Str)) (rs : Raw) (i : Nat) (hi : rs.vpos.line = some (i : Int)) (hb : i + ls.flatten.length < 2 ^ 31)
    (hv : ∀ l ∈ ls, l ≠ [] ∧ GoodLine (joinParts l) ∧ ∀ p ∈ l, ¬ b!"\u2028" <:+: p) (subs : List Raw) :
    ∃ t', vttFold (.subtitle, rs, subs) (ls.map joinParts) = .ok (.subtitle, vraw rs (i + ls.flatten.length) t', subs ++ ls.flatten.mapIdx (fun k t => vraw rs (i + k) t)) := by
  induction ls generalizing rs i subs with
  | nil =>
    refine ⟨rs.text, ?_⟩
    show Except.ok _ = Except.ok _
    simp only [List.flatten_nil, List.mapIdx_nil, List.append_nil, List.length_nil, Nat.add_zero, vraw]
    rw [← hi]
  | cons l ls ih =>
    have hl := hv l (by simp)
    simp only [List.flatten_cons, List.length_append] at hb
    obtain ⟨t1, h1⟩ := vttSubLines_eq l rs i hi (by omega) subs
    obtain ⟨t2, h2⟩ := ih (vraw rs (i + l.length) t1) (i + l.length) rfl (by omega) (fun x hx => hv x (by simp [hx])) (subs ++ l.mapIdx (fun k t => vraw rs (i + k) t))
    refine ⟨t2, ?_⟩
    rw [List.map_cons, vttFold, vttStep]
    simp only [cleanLine_good hl.2.1, if_neg hl.2.1.1, splitStr_join l hl.1 hl.2.2, h1]
    show vttFold (.subtitle, vraw rs (i + l.length) t1, subs ++ l.mapIdx (fun k t => vraw rs (i + k) t)) (ls.map joinParts) = _
    rw [h2]
    have e3 : ∀ k (t' : Str), vraw (vraw rs (i + l.length) t1) k t' = vraw rs k t' := fun _ _ => rfl
    simp only [e3, List.flatten_cons, List.length_append, List.append_assoc, List.mapIdx_append, Nat.add_assoc]
    congr 6
    funext k t
    rw [Nat.add_comm k]

/-- What does not change from one cue to the next. -/
def VBase (rs : Raw) : Prop := ∃ t f g l, rs = { vttFresh with text := t, from_ := f, to_ := g, vpos := { line := l, ref := some .topOfSubtitle } }

private theorem vttTiming_eq (t : TimeLine) (ht : t.Valid) (rs : Raw) :
    vttTiming [] (t.text 46) [] rs = .ok { rs with from_ := t.from_.time, to_ := t.to_.time, vpos := { rs.vpos with line := some 0 } } := by
  unfold vttTiming
  simp only [timeLine_words (sep := 46) (by decide) t ht]
  rw [if_neg]
  · show (convertTime (t.from_.text 46) [46] >>= _) = _
    rw [stamp_convert (by decide) _ ht.1]
    show (convertTime (t.to_.text 46) [46] >>= _) = _
    rw [stamp_convert (by decide) _ ht.2.1]
    rfl
  · simp only [List.length_cons, List.length_map]
    rcases ht.2.2.1 with h | h <;> rw [h] <;> decide

private theorem note_fold (rs : Raw) (subs : List Raw) (more : List Str) (h : ∀ l ∈ more, GoodLine l) :
    vttFold (.note, rs, subs) (more ++ [[]]) = .ok (.data, rs, subs) := by
  induction more with
  | nil => rfl
  | cons l more ih =>
    have hl := h l (by simp)
    rw [List.cons_append, vttFold, vttStep]
    simp only [cleanLine_good hl, if_neg hl.1]
    exact ih (fun x hx => h x (by simp [hx]))

private theorem item_fold (rs : Raw) (hrs : VBase rs) (subs : List Raw) (x : VItem) (hx : x.Valid) :
    ∃ rs', VBase rs' ∧ vttFold (.data, rs, subs) x.text = .ok (.data, rs', subs ++ x.raws) := by
  cases x with
  | note first more =>
    refine ⟨rs, hrs, ?_⟩
    have hn : startsWith (cleanLine (b!"NOTE" ++ first)) b!"NOTE" = true := by
      rw [startsWith_iff]
      obtain ⟨b, e, hb⟩ := trimRightIf_prefix isNlCr first
      have e1 : trimRightIf isNlCr (b!"NOTE" ++ first) = b!"NOTE" ++ trimRightIf isNlCr first := by
        conv_lhs => rw [e, ← List.append_assoc, trimRightIf_append hb]
        apply trimRightIf_of_last
        intro c hc
        cases ht : trimRightIf isNlCr first with
        | nil =>
          rw [ht, List.append_nil] at hc
          have : c = 69 := by
            have : (some (69 : Byte)) = some c := hc
            simpa using this.symm
          rw [this]; decide
        | cons y ys =>
          rw [ht, List.getLast?_append_of_ne_nil _ (by simp), ← ht] at hc
          exact trimRightIf_last _ _ _ hc
      unfold cleanLine
      rw [e1, removeBom_of_not (by intro r e; simp at e)]
      exact ⟨_, rfl⟩
    show vttFold _ ((b!"NOTE" ++ first) :: (more ++ [[]])) = _
    rw [vttFold, vttStep]
    simp only [hn, if_true]
    show vttFold (.note, rs, subs) (more ++ [[]]) = _
    rw [note_fold rs subs more hx.2]
    simp [VItem.raws]
  | other l =>
    refine ⟨rs, hrs, ?_⟩
    have e : vttStep (.data, rs, subs) l = .ok (.data, rs, subs) := by
      rcases hx with rfl | ⟨hg, h1, h2⟩
      · rfl
      · unfold vttStep
        simp only [cleanLine_good hg]
        rw [if_neg (by rw [startsWith_iff]; exact h1), if_neg (by rw [containsStr_iff]; exact h2)]
    show vttFold _ [l] = _
    rw [vttFold, e]
    simp [VItem.raws, vttFold, Except.bind]
  | cue t lines =>
    obtain ⟨h1, h2, h3⟩ := hx
    obtain ⟨tx, f, g, ln, hrs⟩ := hrs
    have hgood := timeLine_good (sep := 46) (by decide) t h1
    have hnote : ¬ b!"NOTE" <+: t.text 46 := by
      rintro ⟨r, hr⟩
      obtain ⟨c, cs, hcs⟩ := List.exists_cons_of_ne_nil (stamp_ne_nil 46 t.from_)
      have hd := stamp_digits 46 t.from_ c (by rw [hcs]; simp)
      have : c = 78 := by
        unfold TimeLine.text at hr
        rw [hcs] at hr
        simp only [List.cons_append, List.cons.injEq] at hr
        exact hr.1.symm
      rw [this] at hd
      revert hd
      decide
    have harrow : b!"-->" <:+: t.text 46 := by
      unfold TimeLine.text
      exact ⟨t.from_.text 46 ++ List.replicate (t.space1 + 1) 32, List.replicate (t.space2 + 1) 32 ++ t.to_.text 46 ++ coordsText t.coords ++ List.replicate t.trail 32, by simp⟩
    obtain ⟨q, hq⟩ : ∃ q : Raw, q = { rs with from_ := t.from_.time, to_ := t.to_.time, vpos := { rs.vpos with line := some 0 } } := ⟨_, rfl⟩
    have htm := vttTiming_eq t h1 rs
    rw [← hq] at htm
    obtain ⟨t', h4⟩ := vfold_content lines q 0 (by rw [hq]; rfl) (by simpa using h3) h2 subs
    have hstep : vttStep (.data, rs, subs) (t.text 46) = .ok (.subtitle, q, subs) := by
      unfold vttStep
      simp only [cleanLine_good hgood]
      rw [if_neg (by rw [startsWith_iff]; exact hnote), if_pos (containsStr_iff.2 harrow), htm]
      rfl
    refine ⟨vraw q (0 + lines.flatten.length) t', ?_, ?_⟩
    · rw [hq, hrs]
      exact ⟨_, _, _, _, rfl⟩
    · simp only [VItem.text, VItem.raws]
      rw [List.cons_append, vttFold, hstep]
      show vttFold (.subtitle, q, subs) (lines.map joinParts ++ [[]]) = _
      rw [vttFold_append, h4]
      have e : (fun (k : Nat) (t : Str) => vraw q (0 + k) t) =
          fun (k : Nat) (l : Str) => { text := l, from_ := t.from_.time, to_ := t.to_.time, vpos := { line := some (k : Int), ref := some .topOfSubtitle } } := by
        funext k l
        rw [hq, hrs, Nat.zero_add]
        rfl
      rw [e]
      rfl

private theorem items_fold (rs : Raw) (hrs : VBase rs) (subs : List Raw) (xs : List VItem) (hx : ∀ x ∈ xs, x.Valid) :
    ∃ rs', vttFold (.data, rs, subs) (xs.map VItem.text).flatten = .ok (.data, rs', subs ++ (xs.map VItem.raws).flatten) := by
  induction xs generalizing rs subs with
  | nil => exact ⟨rs, by simp [vttFold]⟩
  | cons x xs ih =>
    obtain ⟨rs1, hrs1, h1⟩ := item_fold rs hrs subs x (hx x (by simp))
    obtain ⟨rs2, h2⟩ := ih rs1 hrs1 (subs ++ x.raws) (fun y hy => hx y (by simp [hy]))
    refine ⟨rs2, ?_⟩
    rw [List.map_cons, List.flatten_cons, vttFold_append, h1]
    show vttFold (.data, rs1, subs ++ x.raws) _ = _
    rw [h2]
    simp

private theorem item_noNl {x : VItem} (hx : x.Valid) : ∀ l ∈ x.text, (10 : Byte) ∉ l := by
  intro l hl
  cases x with
  | note first more =>
    simp only [VItem.text, List.cons_append, List.mem_cons, List.mem_append, List.not_mem_nil, or_false] at hl
    rcases hl with rfl | hl | rfl
    · simpa using hx.1
    · exact (hx.2 l hl).2.2.1
    · simp
  | other y =>
    simp only [VItem.text, List.mem_singleton] at hl
    subst hl
    rcases hx with rfl | hx
    · simp
    · exact hx.1.2.2.1
  | cue t lines =>
    simp only [VItem.text, List.cons_append, List.mem_cons, List.mem_append, List.mem_map, List.not_mem_nil, or_false] at hl
    rcases hl with rfl | ⟨y, hy, rfl⟩ | rfl
    · exact (timeLine_good (sep := 46) (by decide) t hx.1).2.2.1
    · exact (hx.2.1 y hy).2.1.2.2.1
    · simp

/-- C36: reading the text of a WebVTT file with any list of notes, cues and other lines gives, in order, one subtitle for each part of each cue, with its text, the
times of the cue and its number in the cue; the rest gives nothing. -/
theorem C36_round_trip (title : Str) (ht : (10 : Byte) ∉ title) (xs : List VItem) (hx : ∀ x ∈ xs, x.Valid) :
    vttReadString (unlines ((b!"WEBVTT" ++ title) :: (xs.map VItem.text).flatten)) = .ok (xs.map VItem.raws).flatten := by
  unfold vttReadString
  rw [linesOfString_unlines]
  · rw [vttRead_ok_iff]
    obtain ⟨rs, h⟩ := items_fold vttFresh ⟨_, _, _, _, rfl⟩ [] xs hx
    refine ⟨.data, rs, ?_⟩
    rw [vttFold, vttStep]
    simp only [webvtt_clean.2 (.inl ⟨title, rfl⟩), if_true]
    exact h
  · intro l hl
    rw [List.mem_cons] at hl
    rcases hl with rfl | hl
    · simpa using ht
    · rw [List.mem_flatten] at hl
      obtain ⟨m, hm, hl⟩ := hl
      rw [List.mem_map] at hm
      obtain ⟨x, hxs, rfl⟩ := hm
      exact item_noNl (hx x hxs) l hl

/-- C36: a blank line more or less at the end makes no difference. -/
theorem C36_final_blank (ls : List Str) (hne : ls ≠ []) (subs : List Raw) : vttRead (ls ++ [[]]) = .ok subs ↔ vttRead ls = .ok subs := by
  rw [vttRead_ok_iff, vttRead_ok_iff, vttFold_append]
  have notHeader : ∀ (ls : List Str) (s s' : VttSt), (ls ≠ [] ∨ s.1 ≠ .header) → vttFold s ls = .ok s' → s'.1 ≠ .header := by
    intro ls
    induction ls with
    | nil => intro s s' h h'; cases h'; simpa using h
    | cons l ls ih =>
      intro s s' _ h'
      rw [vttFold] at h'
      obtain ⟨s1, h1, h2⟩ := bind_eq_ok.1 h'
      refine ih s1 s' (.inr ?_) h2
      unfold vttStep at h1
      split at h1
      · split at h1 <;> cases h1; nofun
      · split at h1
        · cases h1; nofun
        · split at h1
          · obtain ⟨r, _, h3⟩ := bind_eq_ok.1 h1
            cases h3; nofun
          · cases h1; nofun
      · split at h1
        · cases h1; nofun
        · obtain ⟨r, _, h3⟩ := bind_eq_ok.1 h1
          cases h3; nofun
      · split at h1 <;> cases h1 <;> nofun
  have blank : ∀ s : VttSt, s.1 ≠ .header → ∃ st, vttFold s [[]] = .ok (st, s.2) := by
    rintro ⟨st, rs, subs⟩ hs
    cases st with
    | header => contradiction
    | data => exact ⟨_, rfl⟩
    | subtitle => exact ⟨_, rfl⟩
    | note => exact ⟨_, rfl⟩
  cases hf : vttFold (.header, vttFresh, []) ls with
  | error e => simp [Except.bind]
  | ok s =>
    obtain ⟨st, hb⟩ := blank s (notHeader ls _ _ (.inl hne) hf)
    simp only [Except.bind, hb]
    constructor
    · rintro ⟨a, b, h⟩
      simp only [Except.ok.injEq, Prod.mk.injEq] at h
      have := congrArg Prod.snd h.2
      exact ⟨s.1, s.2.1, by rw [show subs = s.2.2 from this.symm]⟩
    · rintro ⟨a, b, h⟩
      simp only [Except.ok.injEq] at h
      exact ⟨st, b, by rw [h]⟩

private def vstamp : Stamp := ⟨0, 0, 1, 5, 1, 1, 1, 2⟩
private def vline : TimeLine := ⟨vstamp, vstamp, 0, 0, [], 0⟩

example : (VItem.cue vline [[b!"a", b!"<b>b"], [b!"c"]]).Valid := by
  refine ⟨⟨by unfold Stamp.Valid; decide, by unfold Stamp.Valid; decide, .inl rfl, by simp [vline]⟩, ?_, by decide⟩
  intro l hl
  simp only [List.mem_cons, List.not_mem_nil, or_false] at hl
  rcases hl with rfl | rfl
  · exact ⟨by simp, by unfold GoodLine; decide, by decide⟩
  · exact ⟨by simp, by unfold GoodLine; decide, by decide⟩

example : (VItem.note b!" x" [b!"0:0:1.0 --> 0:0:2.0"]).Valid ∧ (VItem.other b!"id 1").Valid ∧ (VItem.other b!"").Valid := by
  refine ⟨⟨by decide, by unfold GoodLine; decide⟩, .inr ⟨by unfold GoodLine; decide, by decide, by decide⟩, .inl rfl⟩

example : vttReadString b!"WEBVTT x\n\nNOTE y\n0:0:1.0 --> 0:0:2.0\n\nid\n00:00:01.005 --> 00:00:02.000\na\nb" =
    .ok [{ text := b!"a", from_ := ⟨1, 5, some ⟨1000, 1⟩⟩, to_ := ⟨2, 0, some ⟨1000, 1⟩⟩, vpos := { line := some 0, ref := some .topOfSubtitle } },
      { text := b!"b", from_ := ⟨1, 5, some ⟨1000, 1⟩⟩, to_ := ⟨2, 0, some ⟨1000, 1⟩⟩, vpos := { line := some 1, ref := some .topOfSubtitle } }] := by
  decide +kernel

end LibSub
