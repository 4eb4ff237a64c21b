/-
Properties C99 and C100: files cut short, and files put together.
-/
import Verif.Props.SubRipReject
import Verif.Props.WebVttReject
import Verif.Props.SsaFile
import Verif.Props.StlText

namespace LibSub

/-! ### Lines -/

theorem linesOfString_split (a b : Str) : linesOfString (a ++ 10 :: b) = linesOfString (a ++ [10]) ++ linesOfString b := by
  have key : ∀ (k : Nat) (a : Str), a.length ≤ k → linesOfString (a ++ 10 :: b) = linesOfString (a ++ [10]) ++ linesOfString b := by
    intro k
    induction k with
    | zero =>
      intro a ha
      have : a = [] := List.length_eq_zero_iff.1 (by omega)
      subst this
      rw [linesOfString_newline (by simp), linesOfString_newline (by simp)]
      rfl
    | succ k ih =>
      intro a ha
      by_cases h : (10 : Byte) ∈ a
      · obtain ⟨x, y, rfl, hx⟩ := List.eq_append_cons_of_mem h
        rw [List.append_assoc, List.cons_append, linesOfString_newline hx, List.append_assoc, List.cons_append, linesOfString_newline hx, ih y (by simp at ha; omega)]
        rfl
      · rw [linesOfString_newline h, linesOfString_newline h]
        rfl
  exact key a.length a (Nat.le_refl _)

private theorem fgetsTake_split (n : Nat) (a b : Str) : fgetsTake n (a ++ 10 :: b) = fgetsTake n (a ++ [10]) ∧ (fgetsTake n (a ++ [10])).length ≤ a.length + 1 := by
  induction n generalizing a with
  | zero => exact ⟨rfl, Nat.zero_le _⟩
  | succ n ih =>
    cases a with
    | nil => exact ⟨rfl, Nat.le_refl _⟩
    | cons c cs =>
      simp only [List.cons_append, fgetsTake]
      split
      · exact ⟨rfl, by simp⟩
      · obtain ⟨h1, h2⟩ := ih cs
        exact ⟨by rw [h1], by simp only [List.length_cons]; omega⟩

theorem linesOfFile_split (a b : Str) : linesOfFile (a ++ 10 :: b) = linesOfFile (a ++ [10]) ++ linesOfFile b := by
  have key : ∀ (k : Nat) (a : Str), a.length ≤ k → linesOfFile (a ++ 10 :: b) = linesOfFile (a ++ [10]) ++ linesOfFile b := by
    intro k
    induction k with
    | zero =>
      intro a ha
      have : a = [] := List.length_eq_zero_iff.1 (by omega)
      subst this
      rw [linesOfFile_newline (by simp) (by simp) (by simp), linesOfFile_newline (by simp) (by simp) (by simp)]
      rfl
    | succ k ih =>
      intro a ha
      obtain ⟨h1, h2⟩ := fgetsTake_split 255 a b
      have h3 := fgetsTake_pos 254 (s := a ++ [10]) (by simp)
      rw [linesOfFile_eq, linesOfFile_eq (a ++ [10])]
      unfold getLineFile
      rw [if_neg (by simp), if_neg (by simp)]
      simp only [h1]
      generalize fgetsTake 255 (a ++ [10]) = r at h2 h3
      by_cases hr : r.length = a.length + 1
      · rw [hr, List.drop_append, List.drop_append, List.drop_of_length_le (by omega)]
        simp [linesOfFile_nil]
      · rw [List.drop_append_of_le_length (by omega), List.drop_append_of_le_length (by omega), ih (a.drop r.length) (by simp; omega)]
        rfl
  exact key a.length a (Nat.le_refl _)

private theorem splitAny_split (p : Byte → Bool) (c : Byte) (hc : p c = true) (a b : Str) : splitAny p (a ++ c :: b) = splitAny p a ++ splitAny p b := by
  induction a with
  | nil => simp [splitAny, hc]
  | cons d a ih =>
    rw [List.cons_append, splitAny, splitAny, ih]
    split
    · rfl
    · cases h : splitAny p a with
      | nil => exact absurd h (splitAny_ne_nil p a)
      | cons t ts => rfl

theorem streamLines_split (a b : Str) : streamLines (a ++ 10 :: b) = streamLines (a ++ [10]) ++ streamLines b := by
  unfold streamLines
  rw [splitAny_split _ 10 rfl, splitAny_split _ 10 rfl a [], List.dropLast_append_of_ne_nil (splitAny_ne_nil _ _)]
  congr 1
  rw [show splitAny (· == 10) [] = [[]] from rfl, List.dropLast_concat]

/-! ### Reading goes on from what has been read -/

private theorem srtStep_prefix {s s' : SrtSt} {l : Str} (h : srtStep s l = .ok s') : s.2.2 <+: s'.2.2 := by
  unfold srtStep at h
  split at h
  · split at h <;> cases h <;> exact List.prefix_refl _
  · obtain ⟨rs, h1, h2⟩ := bind_eq_ok.1 h
    cases h2
    exact List.prefix_refl _
  · split at h
    · cases h; exact List.prefix_refl _
    · obtain ⟨q, h1, h2⟩ := bind_eq_ok.1 h
      cases h2
      have := convertSubLines_add 0 [] (splitStr lineSep (cleanLine l)) s.2.1 s.2.2 []
      rw [List.append_nil, h1] at this
      cases hx : convertSubLines 0 [] (splitStr lineSep (cleanLine l)) s.2.1 [] with
      | error e => rw [hx] at this; cases this
      | ok q' =>
        rw [hx] at this
        cases this
        exact List.prefix_append _ _

private theorem srtFold_prefix {s s' : SrtSt} {ls : List Str} (h : srtFold s ls = .ok s') : s.2.2 <+: s'.2.2 := by
  induction ls generalizing s with
  | nil => cases h; exact List.prefix_refl _
  | cons l ls ih =>
    obtain ⟨s1, h1, h2⟩ := bind_eq_ok.1 h
    exact (srtStep_prefix h1).trans (ih h2)

theorem srtRead_prefix (A B : List Str) (r : List Raw) (h : srtRead (A ++ B) = .ok r) : ∃ a, srtRead A = .ok a ∧ a <+: r := by
  obtain ⟨st, rs, h⟩ := (srtRead_ok_iff _ _).1 h
  rw [srtFold_append] at h
  obtain ⟨s1, h1, h2⟩ := bind_eq_ok.1 h
  exact ⟨s1.2.2, (srtRead_ok_iff _ _).2 ⟨_, _, h1⟩, srtFold_prefix h2⟩

private theorem vttSubLines_prefix {ts : List Str} {rs rs' : Raw} {subs subs' : List Raw} (h : vttSubLines ts rs subs = .ok (rs', subs')) : subs <+: subs' := by
  induction ts generalizing rs subs with
  | nil => cases h; exact List.prefix_refl _
  | cons t ts ih =>
    rw [vttSubLines] at h
    obtain ⟨l, h1, h⟩ := bind_eq_ok.1 h
    obtain ⟨l', h2, h⟩ := bind_eq_ok.1 h
    exact (List.prefix_append _ _).trans (ih h)

private theorem vttStep_prefix {s s' : VttSt} {l : Str} (h : vttStep s l = .ok s') : s.2.2 <+: s'.2.2 := by
  unfold vttStep at h
  split at h
  · split at h <;> cases h; exact List.prefix_refl _
  · split at h
    · cases h; exact List.prefix_refl _
    · split at h
      · obtain ⟨rs, h1, h2⟩ := bind_eq_ok.1 h
        cases h2
        exact List.prefix_refl _
      · cases h; exact List.prefix_refl _
  · split at h
    · cases h; exact List.prefix_refl _
    · obtain ⟨q, h1, h2⟩ := bind_eq_ok.1 h
      cases h2
      exact vttSubLines_prefix h1
  · split at h <;> cases h <;> exact List.prefix_refl _

private theorem vttFold_prefix {s s' : VttSt} {ls : List Str} (h : vttFold s ls = .ok s') : s.2.2 <+: s'.2.2 := by
  induction ls generalizing s with
  | nil => cases h; exact List.prefix_refl _
  | cons l ls ih =>
    obtain ⟨s1, h1, h2⟩ := bind_eq_ok.1 h
    exact (vttStep_prefix h1).trans (ih h2)

theorem vttRead_prefix (A B : List Str) (r : List Raw) (h : vttRead (A ++ B) = .ok r) : ∃ a, vttRead A = .ok a ∧ a <+: r := by
  obtain ⟨st, rs, h⟩ := (vttRead_ok_iff _ _).1 h
  rw [vttFold_append] at h
  obtain ⟨s1, h1, h2⟩ := bind_eq_ok.1 h
  exact ⟨s1.2.2, (vttRead_ok_iff _ _).2 ⟨_, _, h1⟩, vttFold_prefix h2⟩

private theorem ssaLine_prefix {r r' : SsaRead} {l : Str} (h : ssaLine r l = .ok r') : r.subs <+: r'.subs := by
  unfold ssaLine at h
  simp only at h
  split at h
  · cases h; exact List.prefix_refl _
  split at h
  · split at h
    · cases h; exact List.prefix_refl _
    split at h
    · cases h; exact List.prefix_refl _
    split at h <;> cases h <;> exact List.prefix_refl _
  split at h
  · cases h
  split at h
  · split at h
    · obtain ⟨x, h1, h2⟩ := bind_eq_ok.1 h
      cases h2; exact List.prefix_refl _
    split at h
    · obtain ⟨x, h1, h2⟩ := bind_eq_ok.1 h
      cases h2; exact List.prefix_refl _
    · cases h; exact List.prefix_refl _
  · split at h
    · cases h; exact List.prefix_refl _
    split at h
    · obtain ⟨x, h1, h2⟩ := bind_eq_ok.1 h
      obtain ⟨y, h3, h4⟩ := bind_eq_ok.1 h2
      cases h4; exact List.prefix_refl _
    · cases h; exact List.prefix_refl _
  · split at h
    · cases h; exact List.prefix_refl _
    split at h
    · unfold ssaDialogue at h
      obtain ⟨_, _, h⟩ := bind_eq_ok.1 h
      obtain ⟨_, _, h⟩ := bind_eq_ok.1 h
      obtain ⟨_, _, h⟩ := bind_eq_ok.1 h
      obtain ⟨_, _, h⟩ := bind_eq_ok.1 h
      cases h; exact List.prefix_append _ _
    · cases h; exact List.prefix_refl _

theorem ssaLines_prefix {r r' : SsaRead} {ls : List Str} (h : ssaLines r ls = .ok r') : r.subs <+: r'.subs := by
  induction ls generalizing r with
  | nil => cases h; exact List.prefix_refl _
  | cons l ls ih =>
    obtain ⟨s1, h1, h2⟩ := bind_eq_ok.1 h
    exact (ssaLine_prefix h1).trans (ih h2)

private theorem maybePush_prefix (s : StlTextSt) : s.subs <+: s.maybePush.subs := by
  unfold StlTextSt.maybePush
  split
  · exact List.prefix_refl _
  · exact List.prefix_append _ _

private theorem stlTextChars_prefix (cs : Str) (s s' : StlTextSt) (h : stlTextChars s cs = .ok s') : s.subs <+: s'.subs := by
  induction s, cs using stlTextChars.induct with
  | case1 s => rw [stlTextChars] at h; cases h; exact List.prefix_refl _
  | case2 s cs s1 ih =>
    rw [stlTextChars] at h
    obtain ⟨l, h1, h⟩ := bind_eq_ok.1 h
    obtain ⟨l', h2, h⟩ := bind_eq_ok.1 h
    exact (maybePush_prefix s).trans (ih l' h)
  | case3 s => rw [stlTextChars] at h; cases h; exact maybePush_prefix s
  | case4 s d cs s1 s2 ih =>
    rw [stlTextChars] at h
    refine (maybePush_prefix s).trans ?_
    have := ih h
    have e : s2.subs = s1.subs := by
      show (if _ then _ else _ : StlTextSt).subs = _
      split
      · rfl
      split
      · rfl
      split <;> rfl
    rw [e] at this
    exact this
  | case5 s c cs h1 h2 h3 ih =>
    rw [stlTextChars] at h
    · exact ih h
    all_goals assumption

private theorem stlTextLine_prefix {s s' : StlTextSt} {l : Str} (h : stlTextLine s l = .ok s') : s.subs <+: s'.subs := by
  unfold stlTextLine at h
  simp only at h
  split at h
  · cases h; exact List.prefix_refl _
  split at h
  · split at h
    · unfold StlTextSt.set at h
      repeat' split at h
      all_goals first
        | (cases h; exact List.prefix_refl _)
        | (obtain ⟨x, h1, h2⟩ := bind_eq_ok.1 h; cases h2; exact List.prefix_refl _)
    · cases h; exact List.prefix_refl _
  split at h
  · cases h; exact List.prefix_refl _
  split at h
  · cases h; exact List.prefix_refl _
  split at h
  · cases h; exact List.prefix_refl _
  obtain ⟨f, h1, h⟩ := bind_eq_ok.1 h
  obtain ⟨t, h2, h⟩ := bind_eq_ok.1 h
  split at h
  · obtain ⟨s1, h3, h⟩ := bind_eq_ok.1 h
    cases h
    exact (stlTextChars_prefix _ _ _ h3).trans (maybePush_prefix s1)
  · cases h; exact List.prefix_refl _

private theorem stlTextLines_prefix {s s' : StlTextSt} {ls : List Str} (h : stlTextLines s ls = .ok s') : s.subs <+: s'.subs := by
  induction ls generalizing s with
  | nil => cases h; exact List.prefix_refl _
  | cons l ls ih =>
    obtain ⟨s1, h1, h2⟩ := bind_eq_ok.1 h
    exact (stlTextLine_prefix h1).trans (ih h2)

private theorem stlTextLines_append (s : StlTextSt) (a b : List Str) : stlTextLines s (a ++ b) = stlTextLines s a >>= fun s' => stlTextLines s' b := by
  induction a generalizing s with
  | nil => rfl
  | cons l a ih =>
    rw [List.cons_append, stlTextLines, stlTextLines]
    cases stlTextLine s l with
    | error e => rfl
    | ok s' => exact ih s'

/-! ### C99 -/

/-- C99: if a file can be read, so can the part of it up to any line end, and gives the first of the subtitles.  SubRip. -/
theorem C99_subrip (a b : Str) (r : List Raw) :
    (srtReadString (a ++ 10 :: b) = .ok r → ∃ p, srtReadString (a ++ [10]) = .ok p ∧ p <+: r) ∧
    (srtReadFile (a ++ 10 :: b) = .ok r → ∃ p, srtReadFile (a ++ [10]) = .ok p ∧ p <+: r) := by
  unfold srtReadString srtReadFile
  rw [linesOfString_split, linesOfFile_split]
  exact ⟨srtRead_prefix _ _ _, srtRead_prefix _ _ _⟩

/-- Cut after the third line: the first subtitle only. -/
example : (srtReadString (b!"1\n00:00:01,000 --> 00:00:02,000\na" ++ 10 :: b!"\n2\n00:00:03,000 --> 00:00:04,000\nb\n")).toOption.map (·.map (·.text)) = some [b!"a", b!"b"] ∧
    (srtReadString (b!"1\n00:00:01,000 --> 00:00:02,000\na" ++ [10])).toOption.map (·.map (·.text)) = some [b!"a"] := by decide +kernel

/-- C99 for WebVTT. -/
theorem C99_vtt (a b : Str) (r : List Raw) :
    (vttReadString (a ++ 10 :: b) = .ok r → ∃ p, vttReadString (a ++ [10]) = .ok p ∧ p <+: r) ∧
    (vttReadFile (a ++ 10 :: b) = .ok r → ∃ p, vttReadFile (a ++ [10]) = .ok p ∧ p <+: r) := by
  unfold vttReadString vttReadFile
  rw [linesOfString_split, linesOfFile_split]
  exact ⟨vttRead_prefix _ _ _, vttRead_prefix _ _ _⟩

example : (vttReadString (b!"WEBVTT\n\n00:00:01.000 --> 00:00:02.000\na" ++ 10 :: b!"b\n")).toOption.map (·.map (·.text)) = some [b!"a", b!"b"] ∧
    (vttReadString (b!"WEBVTT\n\n00:00:01.000 --> 00:00:02.000\na" ++ [10])).toOption.map (·.map (·.text)) = some [b!"a"] := by decide +kernel

/-- C99 for SSA. -/
theorem C99_ssa (a b : Str) (r : List Raw) :
    (ssaReadString (a ++ 10 :: b) = .ok r → ∃ p, ssaReadString (a ++ [10]) = .ok p ∧ p <+: r) ∧
    (ssaReadFile (a ++ 10 :: b) = .ok r → ∃ p, ssaReadFile (a ++ [10]) = .ok p ∧ p <+: r) := by
  unfold ssaReadString ssaReadFile
  rw [linesOfString_split, linesOfFile_split]
  simp only [ssaLines_append]
  constructor
  all_goals
    intro h
    obtain ⟨r2, h1, h⟩ := bind_eq_ok.1 h
    cases h
    obtain ⟨r1, h2, h3⟩ := bind_eq_ok.1 h1
    exact ⟨r1.subs, by rw [h2]; rfl, ssaLines_prefix h3⟩

example : (ssaReadString (b!"[Events]\nFormat: Start, End, Text\nDialogue: 0:00:01.00,0:00:02.00,a" ++ 10 :: b!"Dialogue: 0:00:03.00,0:00:04.00,b\n")).toOption.map (·.map (·.text)) = some [b!"a", b!"b"] ∧
    (ssaReadString (b!"[Events]\nFormat: Start, End, Text\nDialogue: 0:00:01.00,0:00:02.00,a" ++ [10])).toOption.map (·.map (·.text)) = some [b!"a"] := by decide +kernel

/-- C99 for textual STL. -/
theorem C99_stl_text (a b : Str) (r : List Raw) (h : stlTextRead (a ++ 10 :: b) = .ok r) : ∃ p, stlTextRead (a ++ [10]) = .ok p ∧ p <+: r := by
  unfold stlTextRead at h ⊢
  rw [streamLines_split, stlTextLines_append] at h
  obtain ⟨r2, h1, h⟩ := bind_eq_ok.1 h
  cases h
  obtain ⟨r1, h2, h3⟩ := bind_eq_ok.1 h1
  exact ⟨r1.subs, by rw [h2]; rfl, stlTextLines_prefix h3⟩

example : (stlTextRead (b!"00:00:01:00 , 00:00:02:00 , a" ++ 10 :: b!"00:00:03:00 , 00:00:04:00 , b\n")).toOption.map (·.map (·.text)) = some [b!" a", b!" b"] ∧
    (stlTextRead (b!"00:00:01:00 , 00:00:02:00 , a" ++ [10])).toOption.map (·.map (·.text)) = some [b!" a"] := by decide +kernel

/-! ### After a blank line, SubRip -/

private theorem srtLines_fresh (n : Nat) (ctx : List Str) (rs rs' : Raw) (subs : List Raw) (B : List Str) : srtLines n .counter ctx rs subs B = srtLines n .counter ctx rs' subs B := by
  induction B generalizing n ctx with
  | nil => rfl
  | cons l B ih =>
    rw [srtLines, srtLines]
    split
    · exact ih ..
    · rfl

theorem placeAfter_append (p : Place) (A B : List Str) : placeAfter p (A ++ B) = placeAfter (placeAfter p A) B := by
  induction A generalizing p with
  | nil => rfl
  | cons l A ih => cases p <;> exact ih _

private theorem srtRead_blank {A B : List Str} {l : Str} {x : List Raw} (hl : cleanLine l = []) (h : srtRead (A ++ [l]) = .ok x) (r : List Raw) :
    srtRead (A ++ [l] ++ B) = .ok r ↔ ∃ y, srtRead B = .ok y ∧ r = x ++ y := by
  have hp : placeAfter .counter (A ++ [l]) = .counter := by
    rw [placeAfter_append]
    cases hq : placeAfter .counter A with
    | counter => simp [placeAfter, hl]
    | text => simp [placeAfter, hl]
    | times =>
      obtain ⟨a, ha, _⟩ := srtRead_prefix _ _ _ h
      obtain ⟨rs, hc⟩ := srt_compose 0 .counter [] srtFresh [] A a ha
      have h' := hc [l]
      rw [hq] at h'
      have h2 : srtLines (0 + A.length) (srtPlace .times) (lastN 5 (([] ++ A).map cleanLine)) rs a [l] = .ok x := by rw [← h']; exact h
      rw [srtPlace, srtLines] at h2
      obtain ⟨q, h3, _⟩ := bind_eq_ok.1 h2
      have e : removeBom (trimRightIf isNlCr l) = [] := hl
      rw [e] at h3
      cases h3
  obtain ⟨rs, hc⟩ := srt_compose 0 .counter [] srtFresh [] (A ++ [l]) x h
  have e : srtRead (A ++ [l] ++ B) = (srtLines (0 + (A ++ [l]).length) .counter (lastN 5 (([] ++ (A ++ [l])).map cleanLine)) srtFresh [] B).map (x ++ ·) := by
    rw [← srtLines_add, List.append_nil, ← srtLines_fresh _ _ rs]
    have := hc B
    rw [hp] at this
    exact this
  rw [e]
  have ok := srtLines_okEq (0 + (A ++ [l]).length) 0 .counter (lastN 5 (([] ++ (A ++ [l])).map cleanLine)) [] srtFresh [] B B rfl
  constructor
  · intro h
    cases hx : srtLines (0 + (A ++ [l]).length) .counter (lastN 5 (([] ++ (A ++ [l])).map cleanLine)) srtFresh [] B with
    | error e => rw [hx] at h; cases h
    | ok y =>
      rw [hx] at h
      cases h
      exact ⟨y, (ok.iff y).1 hx, rfl⟩
  · rintro ⟨y, hy, rfl⟩
    rw [(ok.iff y).2 hy]
    rfl

/-! ### After a blank line, WebVTT -/

/-- The subtitles that the reader has under construction. -/
private def vRaw (t : Str) (f g : Time) (l : Option Int) : Raw := { vttFresh with text := t, from_ := f, to_ := g, vpos := { vttFresh.vpos with line := l } }

private def VKind (a : Raw) : Prop := ∃ t f g l, a = vRaw t f g l

/-- How far the states of two readings may differ, the first having already read `x`. -/
private def VRel (x : List Raw) (s s' : VttSt) : Prop :=
  s.1 = s'.1 ∧ s.1 ≠ .header ∧ s.2.2 = x ++ s'.2.2 ∧ VKind s.2.1 ∧ VKind s'.2.1 ∧
  (s.1 = .subtitle → ∃ t t' f g l, s.2.1 = vRaw t f g l ∧ s'.2.1 = vRaw t' f g l)

private theorem vttTiming_raw (l : Str) (t t' : Str) (f f' g g' : Time) (n n' : Option Int) (rs : Raw) (h : vttTiming [] l [] (vRaw t f g n) = .ok rs) :
    ∃ f2 g2, rs = vRaw t f2 g2 (some 0) ∧ vttTiming [] l [] (vRaw t' f' g' n') = .ok (vRaw t' f2 g2 (some 0)) := by
  unfold vttTiming at h ⊢
  simp only at h ⊢
  split at h
  · cases h
  · rename_i hn
    rw [if_neg hn]
    obtain ⟨a, ha, h⟩ := bind_eq_ok.1 h
    rw [ha]
    cases a with
    | error e => cases h
    | ok a =>
      obtain ⟨b, hb, h⟩ := bind_eq_ok.1 h
      rw [ok_bind]
      simp only
      rw [hb]
      cases b with
      | error e => cases h
      | ok b =>
        cases h
        exact ⟨a, b, rfl, rfl⟩

private theorem vttSubLines_raw (ts : List Str) (t t' : Str) (f g : Time) (n : Option Int) (x subs : List Raw) (q : Raw × List Raw)
    (h : vttSubLines ts (vRaw t f g n) (x ++ subs) = .ok q) :
    ∃ t2 t2' n2 subs', q = (vRaw t2 f g n2, x ++ subs') ∧ vttSubLines ts (vRaw t' f g n) subs = .ok (vRaw t2' f g n2, subs') := by
  induction ts generalizing t t' n subs with
  | nil => cases h; exact ⟨t, t', n, subs, rfl, rfl⟩
  | cons a ts ih =>
    rw [vttSubLines] at h ⊢
    obtain ⟨l, h1, h⟩ := bind_eq_ok.1 h
    obtain ⟨l', h2, h⟩ := bind_eq_ok.1 h
    have h1' : optGet ({ vRaw t' f g n with text := a } : Raw).vpos.line = .ok l := h1
    simp only [h1', ok_bind, h2]
    rw [List.append_assoc] at h
    exact ih a a (some l') (subs ++ [vRaw a f g n]) h

private theorem vttSubLines_back (ts : List Str) (t t' : Str) (f g : Time) (n : Option Int) (x subs : List Raw) (q : Raw × List Raw)
    (h : vttSubLines ts (vRaw t' f g n) subs = .ok q) :
    ∃ q', vttSubLines ts (vRaw t f g n) (x ++ subs) = .ok q' := by
  induction ts generalizing t t' n subs with
  | nil => exact ⟨_, rfl⟩
  | cons a ts ih =>
    rw [vttSubLines] at h ⊢
    obtain ⟨l, h1, h⟩ := bind_eq_ok.1 h
    obtain ⟨l', h2, h⟩ := bind_eq_ok.1 h
    have h1' : optGet ({ vRaw t f g n with text := a } : Raw).vpos.line = .ok l := h1
    simp only [h1', ok_bind, h2]
    rw [List.append_assoc]
    exact ih a a (some l') (subs ++ [vRaw a f g n]) h

/-- Both readings fail, or both go on. -/
private def VBoth (x : List Raw) (a b : R VttSt) : Prop := (∀ s, a = .ok s → ∃ s', b = .ok s' ∧ VRel x s s') ∧ (∀ s', b = .ok s' → ∃ s, a = .ok s)

private theorem VBoth.ok {x : List Raw} {s s' : VttSt} (h : VRel x s s') : VBoth x (.ok s) (.ok s') :=
  ⟨fun _ h' => by cases h'; exact ⟨s', rfl, h⟩, fun _ _ => ⟨s, rfl⟩⟩

private theorem vttStep_rel {x : List Raw} {s s' : VttSt} (h : VRel x s s') (l : Str) : VBoth x (vttStep s l) (vttStep s' l) := by
  obtain ⟨st, rs, subs⟩ := s
  obtain ⟨st', rs', subs'⟩ := s'
  obtain ⟨h1, h2, h3, h4, h5, h6⟩ := h
  simp only at h1 h2 h3 h4 h5 h6
  subst h1 h3
  cases st with
  | header => exact absurd rfl h2
  | data =>
    simp only [vttStep]
    split
    · exact .ok ⟨rfl, by simp, rfl, h4, h5, by simp⟩
    split
    · obtain ⟨t, f, g, n, rfl⟩ := h4
      obtain ⟨t', f', g', n', rfl⟩ := h5
      constructor
      · intro s hs
        obtain ⟨q, hq, hs⟩ := bind_eq_ok.1 hs
        cases hs
        obtain ⟨f2, g2, rfl, e⟩ := vttTiming_raw _ _ t' _ f' _ g' _ n' _ hq
        exact ⟨(.subtitle, vRaw t' f2 g2 (some 0), subs'), by rw [e]; rfl, rfl, by simp, rfl, ⟨_, _, _, _, rfl⟩, ⟨_, _, _, _, rfl⟩, fun _ => ⟨_, _, _, _, _, rfl, rfl⟩⟩
      · intro s hs
        obtain ⟨q, hq, hs⟩ := bind_eq_ok.1 hs
        obtain ⟨f2, g2, _, e⟩ := vttTiming_raw _ _ t _ f _ g _ n _ hq
        exact ⟨_, by rw [e]; rfl⟩
    · exact .ok ⟨rfl, by simp, rfl, h4, h5, by simp⟩
  | subtitle =>
    simp only [vttStep]
    split
    · exact .ok ⟨rfl, by simp, rfl, h4, h5, by simp⟩
    · obtain ⟨t, t', f, g, n, rfl, rfl⟩ := h6 rfl
      constructor
      · intro s hs
        obtain ⟨q, hq, hs⟩ := bind_eq_ok.1 hs
        cases hs
        obtain ⟨t2, t2', n2, subs2, rfl, e⟩ := vttSubLines_raw _ _ t' _ _ _ _ _ _ hq
        exact ⟨(.subtitle, vRaw t2' f g n2, subs2), by rw [e]; rfl, rfl, by simp, rfl, ⟨_, _, _, _, rfl⟩, ⟨_, _, _, _, rfl⟩, fun _ => ⟨_, _, _, _, _, rfl, rfl⟩⟩
      · intro s hs
        obtain ⟨q, hq, hs⟩ := bind_eq_ok.1 hs
        obtain ⟨q', e⟩ := vttSubLines_back _ t _ _ _ _ x _ _ hq
        exact ⟨_, by rw [e]; rfl⟩
  | note =>
    simp only [vttStep]
    split
    · exact .ok ⟨rfl, by simp, rfl, h4, h5, by simp⟩
    · exact .ok ⟨rfl, by simp, rfl, h4, h5, by simp⟩

private theorem vttFold_rel {x : List Raw} {s s' : VttSt} (h : VRel x s s') (ls : List Str) : VBoth x (vttFold s ls) (vttFold s' ls) := by
  induction ls generalizing s s' with
  | nil => exact .ok h
  | cons l ls ih =>
    obtain ⟨k1, k2⟩ := vttStep_rel h l
    constructor
    · intro r hr
      obtain ⟨s1, h1, h2⟩ := bind_eq_ok.1 hr
      obtain ⟨s1', h1', hrel⟩ := k1 _ h1
      obtain ⟨r', h3, h4⟩ := (ih hrel).1 _ h2
      exact ⟨r', by rw [vttFold, h1']; exact h3, h4⟩
    · intro r hr
      obtain ⟨s1', h1', h2⟩ := bind_eq_ok.1 hr
      obtain ⟨s1, h1⟩ := k2 _ h1'
      obtain ⟨s2, h3, hrel⟩ := k1 _ h1
      rw [h1'] at h3
      cases h3
      obtain ⟨r', h4⟩ := (ih hrel).2 _ h2
      exact ⟨r', by rw [vttFold, h1]; exact h4⟩

/-- The subtitle under construction stays one of the kind. -/
private theorem vttFold_kind {A : List Str} {s : VttSt} (h : vttFold (.header, vttFresh, []) A = .ok s) : VKind s.2.1 := by
  cases A with
  | nil => cases h; exact ⟨_, _, _, _, rfl⟩
  | cons l A =>
    obtain ⟨s1, h1, h2⟩ := bind_eq_ok.1 h
    unfold vttStep at h1
    simp only at h1
    split at h1
    · cases h1
      have k : VKind vttFresh := ⟨_, _, _, _, rfl⟩
      obtain ⟨s', _, h3⟩ := (vttFold_rel (x := []) (s := (.data, vttFresh, [])) (s' := (.data, vttFresh, [])) ⟨rfl, by simp, rfl, k, k, by simp⟩ A).1 _ h2
      exact h3.2.2.2.1
    · cases h1

private theorem vttRead_blank {A B : List Str} {l hd : Str} {x : List Raw} (hl : cleanLine l = []) (hh : startsWith (cleanLine hd) b!"WEBVTT" = true)
    (h : vttRead (A ++ [l]) = .ok x) (r : List Raw) : vttRead (A ++ [l] ++ B) = .ok r ↔ ∃ y, vttRead (hd :: B) = .ok y ∧ r = x ++ y := by
  obtain ⟨st, rs, h⟩ := (vttRead_ok_iff _ _).1 h
  have hk := vttFold_kind h
  have hst : st = .data := by
    rw [vttFold_append] at h
    obtain ⟨⟨st1, rs1, subs1⟩, h1, h2⟩ := bind_eq_ok.1 h
    obtain ⟨s2, h2, h3⟩ := bind_eq_ok.1 h2
    cases h3
    cases st1 with
    | header =>
      simp only [vttStep, hl] at h2
      cases h2
    | data =>
      simp only [vttStep, hl] at h2
      cases h2
      rfl
    | subtitle =>
      simp only [vttStep, hl] at h2
      cases h2
      rfl
    | note =>
      simp only [vttStep, hl] at h2
      cases h2
      rfl
  subst hst
  have rel : VRel x (.data, rs, x) (.data, vttFresh, []) := ⟨rfl, by simp, by simp, hk, ⟨_, _, _, _, rfl⟩, by simp⟩
  obtain ⟨k1, k2⟩ := vttFold_rel rel B
  have e : vttFold (.header, vttFresh, []) (hd :: B) = vttFold (.data, vttFresh, []) B := by
    rw [vttFold]
    simp only [vttStep, hh]
    rfl
  rw [vttRead_ok_iff, vttFold_append, h]
  constructor
  · rintro ⟨st', rs', h'⟩
    obtain ⟨⟨st2, rs2, y⟩, h3, h4⟩ := k1 _ h'
    exact ⟨y, (vttRead_ok_iff _ _).2 ⟨st2, rs2, by rw [e]; exact h3⟩, h4.2.2.1⟩
  · rintro ⟨y, hy, rfl⟩
    obtain ⟨st2, rs2, h3⟩ := (vttRead_ok_iff _ _).1 hy
    rw [e] at h3
    obtain ⟨⟨st', rs', r⟩, h4⟩ := k2 _ h3
    obtain ⟨s', h5, h6⟩ := k1 _ h4
    rw [h3] at h5
    cases h5
    have := h6.2.2.1
    simp only at this
    subst this
    exact ⟨st', rs', h4⟩

private theorem string_blank (a b : Str) : linesOfString (a ++ b!"\n\n" ++ b) = linesOfString (a ++ [10]) ++ [[]] ++ linesOfString b ∧
    linesOfString (a ++ b!"\n\n") = linesOfString (a ++ [10]) ++ [[]] := by
  have e1 : a ++ b!"\n\n" ++ b = a ++ 10 :: (10 :: b) := by simp
  have e2 : linesOfString (10 :: b) = [] :: linesOfString b := linesOfString_newline (a := []) (by simp)
  refine ⟨by rw [e1, linesOfString_split, e2]; simp, ?_⟩
  rw [show a ++ b!"\n\n" = a ++ 10 :: [10] from rfl, linesOfString_split]
  rfl

private theorem file_blank (a b : Str) : linesOfFile (a ++ b!"\n\n" ++ b) = linesOfFile (a ++ [10]) ++ [[10]] ++ linesOfFile b ∧
    linesOfFile (a ++ b!"\n\n") = linesOfFile (a ++ [10]) ++ [[10]] := by
  have e0 : ∀ b, linesOfFile (10 :: b) = [10] :: linesOfFile b := fun b => linesOfFile_newline (a := []) (by simp) (by simp) (by simp)
  have e1 : a ++ b!"\n\n" ++ b = a ++ 10 :: (10 :: b) := by simp
  refine ⟨by rw [e1, linesOfFile_split, e0]; simp, ?_⟩
  rw [show a ++ b!"\n\n" = a ++ 10 :: [10] from rfl, linesOfFile_split, e0, linesOfFile_nil]

/-! ### C100 -/

/-- C100: what follows a file that ends with a blank line is read as a file of its own.  SubRip. -/
theorem C100_subrip (a b : Str) (x r : List Raw) :
    (srtReadString (a ++ b!"\n\n") = .ok x → (srtReadString (a ++ b!"\n\n" ++ b) = .ok r ↔ ∃ y, srtReadString b = .ok y ∧ r = x ++ y)) ∧
    (srtReadFile (a ++ b!"\n\n") = .ok x → (srtReadFile (a ++ b!"\n\n" ++ b) = .ok r ↔ ∃ y, srtReadFile b = .ok y ∧ r = x ++ y)) := by
  unfold srtReadString srtReadFile
  rw [(string_blank a b).1, (string_blank a b).2, (file_blank a b).1, (file_blank a b).2]
  exact ⟨fun h => srtRead_blank rfl h r, fun h => srtRead_blank rfl h r⟩

/-- A second file that cannot be read: neither can the two together. -/
example : (srtReadString (b!"1\n00:00:01,000 --> 00:00:02,000\na" ++ b!"\n\n")).toOption.map (·.length) = some 1 ∧
    (srtReadString (b!"1\n00:00:01,000 --> 00:00:02,000\na" ++ b!"\n\n" ++ b!"2\nb\n")).toOption = none ∧ (srtReadString b!"2\nb\n").toOption = none := by decide +kernel

/-- C100 for any number of files: the subtitles are those of the files, one after the other. -/
theorem C100_subrip_all (fs : List (Str × List Raw)) (h : ∀ f ∈ fs, srtReadString (f.1 ++ b!"\n\n") = .ok f.2) :
    srtReadString (fs.map (fun f => f.1 ++ b!"\n\n")).flatten = .ok (fs.map (·.2)).flatten := by
  induction fs with
  | nil => rfl
  | cons f fs ih =>
    rw [List.map_cons, List.map_cons, List.flatten_cons, List.flatten_cons]
    exact ((C100_subrip f.1 _ f.2 _).1 (h f List.mem_cons_self)).2 ⟨_, ih fun g hg => h g (List.mem_cons_of_mem _ hg), rfl⟩

example : ∃ x y, srtReadString (b!"1\n00:00:01,000 --> 00:00:02,000\na" ++ b!"\n\n") = .ok [x] ∧
    srtReadString (b!"1\n00:00:01,000 --> 00:00:02,000\nb" ++ b!"\n\n") = .ok [y] := ⟨_, _, rfl, rfl⟩

/-- C100 for WebVTT, where what follows must be given a header to be a file of its own. -/
theorem C100_vtt (a b : Str) (x r : List Raw) :
    (vttReadString (a ++ b!"\n\n") = .ok x → (vttReadString (a ++ b!"\n\n" ++ b) = .ok r ↔ ∃ y, vttReadString (b!"WEBVTT\n" ++ b) = .ok y ∧ r = x ++ y)) ∧
    (vttReadFile (a ++ b!"\n\n") = .ok x → (vttReadFile (a ++ b!"\n\n" ++ b) = .ok r ↔ ∃ y, vttReadFile (b!"WEBVTT\n" ++ b) = .ok y ∧ r = x ++ y)) := by
  have e1 : linesOfString (b!"WEBVTT\n" ++ b) = b!"WEBVTT" :: linesOfString b := linesOfString_newline (a := b!"WEBVTT") (by decide)
  have e2 : linesOfFile (b!"WEBVTT\n" ++ b) = b!"WEBVTT\n" :: linesOfFile b := linesOfFile_newline (a := b!"WEBVTT") (by decide) (by decide) (by decide)
  unfold vttReadString vttReadFile
  rw [e1, e2, (string_blank a b).1, (string_blank a b).2, (file_blank a b).1, (file_blank a b).2]
  exact ⟨fun h => vttRead_blank rfl (by decide) h r, fun h => vttRead_blank rfl (by decide) h r⟩

/-- Identifiers and notes do no harm. -/
example : ∃ x y, vttReadString (b!"WEBVTT\n\n00:00:01.000 --> 00:00:02.000\na" ++ b!"\n\n") = .ok [x] ∧
    vttReadString (b!"WEBVTT\n" ++ b!"NOTE 2\n\n2\n00:00:03.000 --> 00:00:04.000\nb\n") = .ok [y] := ⟨_, _, rfl, rfl⟩

private theorem header_again {h b : Str} (h1 : b!"WEBVTT" <+: h) (h2 : ∀ c ∈ h, c ≠ 10 ∧ c ≠ 13) (h3 : ¬ b!"-->" <:+: h) (y : List Raw) :
    vttReadString (h ++ 10 :: b) = .ok y → vttReadString (b!"WEBVTT\n" ++ (h ++ 10 :: b)) = .ok y := by
  have hc : cleanLine h = h := by
    unfold cleanLine
    rw [trimRightIf_none (fun c hc => by have := h2 c hc; simp only [isNlCr]; grind)]
    obtain ⟨t, rfl⟩ := h1
    rfl
  have hw : startsWith h b!"WEBVTT" = true := (startsWith_prefix ..).2 h1
  have hn : ¬ startsWith h b!"NOTE" = true := by
    intro h'
    obtain ⟨t, rfl⟩ := h1
    obtain ⟨t', e⟩ := (startsWith_prefix ..).1 h'
    cases e
  have ha : ¬ containsStr b!"-->" h = true := fun h' => h3 (containsStr_iff.1 h')
  unfold vttReadString
  rw [linesOfString_newline (a := h) (fun hm => (h2 10 hm).1 rfl),
    show linesOfString (b!"WEBVTT\n" ++ (h ++ 10 :: b)) = b!"WEBVTT" :: linesOfString (h ++ 10 :: b) from linesOfString_newline (a := b!"WEBVTT") (by decide),
    linesOfString_newline (a := h) (fun hm => (h2 10 hm).1 rfl), vttRead_ok_iff, vttRead_ok_iff]
  rintro ⟨st, rs, e⟩
  refine ⟨st, rs, ?_⟩
  have hs : ∀ s, vttStep (.data, s) h = .ok (.data, s) := fun s => by simp only [vttStep, hc, hn, ha]; rfl
  have hs' : ∀ s, vttStep (.header, s) h = .ok (.data, s) := fun s => by simp only [vttStep, hc, hw]; rfl
  rw [vttFold, hs'] at e
  show (vttStep (.data, _) h).bind _ = _
  rw [hs]
  exact e

/-- C100 for any number of WebVTT files, each with its own header line. -/
theorem C100_vtt_all (fs : List (Str × Str × List Raw)) (hne : fs ≠ [])
    (hh : ∀ f ∈ fs, b!"WEBVTT" <+: f.1 ∧ (∀ c ∈ f.1, c ≠ 10 ∧ c ≠ 13) ∧ ¬ b!"-->" <:+: f.1)
    (h : ∀ f ∈ fs, vttReadString (f.1 ++ b!"\n" ++ f.2.1 ++ b!"\n\n") = .ok f.2.2) :
    vttReadString (fs.map (fun f => f.1 ++ b!"\n" ++ f.2.1 ++ b!"\n\n")).flatten = .ok (fs.map (·.2.2)).flatten := by
  induction fs with
  | nil => exact absurd rfl hne
  | cons f fs ih =>
    rw [List.map_cons, List.map_cons, List.flatten_cons, List.flatten_cons]
    refine ((C100_vtt (f.1 ++ b!"\n" ++ f.2.1) _ f.2.2 _).1 (h f List.mem_cons_self)).2 ⟨(fs.map (·.2.2)).flatten, ?_, rfl⟩
    cases fs with
    | nil => rfl
    | cons g gs =>
      have := ih (by simp) (fun g hg => hh g (List.mem_cons_of_mem _ hg)) (fun g hg => h g (List.mem_cons_of_mem _ hg))
      obtain ⟨g1, g2, g3⟩ := hh g (by simp)
      rw [List.map_cons, List.flatten_cons] at this ⊢
      have e : g.1 ++ b!"\n" ++ g.2.1 ++ b!"\n\n" ++ (List.map (fun f => f.1 ++ b!"\n" ++ f.2.1 ++ b!"\n\n") gs).flatten =
        g.1 ++ 10 :: (g.2.1 ++ b!"\n\n" ++ (List.map (fun f => f.1 ++ b!"\n" ++ f.2.1 ++ b!"\n\n") gs).flatten) := by simp
      rw [e] at this ⊢
      exact header_again g1 g2 g3 _ this

example : ∃ x y, vttReadString (b!"WEBVTT" ++ b!"\n" ++ b!"\n00:00:01.000 --> 00:00:02.000\na" ++ b!"\n\n") = .ok [x] ∧
    vttReadString (b!"WEBVTT - second" ++ b!"\n" ++ b!"\n00:00:01.000 --> 00:00:02.000\nb" ++ b!"\n\n") = .ok [y] := ⟨_, _, rfl, rfl⟩

/-- A header line with an arrow is read as a time line when it is not the first line. -/
theorem C100_arrow_witness :
    vttReadString b!"WEBVTT a --> b\n\n" = .ok [] ∧
    (vttReadString (b!"WEBVTT\n\n" ++ b!"WEBVTT a --> b\n\n")).toOption = none := ⟨rfl, by decide +kernel⟩

/-- Without the blank line after the first file, this is not so: here the first file is read, and so is the second. -/
theorem C100_blank_witness :
    (srtReadString b!"1\n00:00:01,000 --> 00:00:02,000\na\n").toOption.map (·.length) = some 1 ∧
    (srtReadString b!"2\n00:00:03,000 --> 00:00:04,000\nb\n").toOption.map (·.length) = some 1 ∧
    (srtReadString b!"1\n00:00:01,000 --> 00:00:02,000\na\n2\n00:00:03,000 --> 00:00:04,000\nb\n").toOption.map (·.map (·.text)) =
      some [b!"a", b!"2", b!"00:00:03,000 --> 00:00:04,000", b!"b"] := by decide +kernel

end LibSub
