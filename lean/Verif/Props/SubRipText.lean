/-
Properties C31, C32 and C34: line separators, right-to-left marks and embedded SSA tags in SubRip text.
-/
import Verif.Props.SubRipRead

namespace LibSub

/-! ### C31 -/

/-- The lines `A` end inside the text of a subtitle: after what is before (nothing, or something that ends with a blank line) there are
a line that is not blank (the counter), one more line (the times) and then only lines that are not blank. -/
def InText (A : List Str) : Prop :=
  ∃ P c t ls, A = P ++ c :: t :: ls ∧ (P = [] ∨ ∃ P' x, P = P' ++ [x] ∧ cleanLine x = []) ∧ cleanLine c ≠ [] ∧ ∀ l ∈ ls, cleanLine l ≠ []

private theorem step_blank {s s' : SrtSt} {x : Str} (hx : cleanLine x = []) (h : srtStep s x = .ok s') : s'.1 = .counter := by
  unfold srtStep at h
  rw [hx] at h
  split at h
  · rename_i e
    rw [if_pos rfl] at h
    cases h
    exact e
  · exfalso
    obtain ⟨a, h1, _⟩ := bind_eq_ok.1 h
    have : srtMetadata 0 [] [] [] s.2.1 = .error (.subrip 0 [] b!"a time/position line" []) := rfl
    rw [this] at h1
    cases h1
  · rw [if_pos rfl] at h
    cases h
    rfl

private theorem step_counter {s s' : SrtSt} {x : Str} (hx : cleanLine x ≠ []) (hs : s.1 = .counter) (h : srtStep s x = .ok s') : s'.1 = .metadata := by
  obtain ⟨st, rs, subs⟩ := s
  subst hs
  rw [srtStep] at h
  simp only [if_neg hx] at h
  cases h
  rfl

private theorem step_metadata {s s' : SrtSt} {x : Str} (hs : s.1 = .metadata) (h : srtStep s x = .ok s') : s'.1 = .content := by
  obtain ⟨st, rs, subs⟩ := s
  subst hs
  rw [srtStep] at h
  obtain ⟨r, _, h3⟩ := bind_eq_ok.1 h
  cases h3
  rfl

private theorem step_content {s s' : SrtSt} {x : Str} (hx : cleanLine x ≠ []) (hs : s.1 = .content) (h : srtStep s x = .ok s') : s'.1 = .content := by
  obtain ⟨st, rs, subs⟩ := s
  subst hs
  rw [srtStep] at h
  simp only [if_neg hx] at h
  obtain ⟨r, _, h3⟩ := bind_eq_ok.1 h
  cases h3
  rfl

private theorem fold_inText {A : List Str} (hA : InText A) {s : SrtSt} (h : srtFold (.counter, srtFresh, []) A = .ok s) : s.1 = .content := by
  obtain ⟨P, c, t, ls, rfl, hP, hc, hls⟩ := hA
  rw [srtFold_append] at h
  obtain ⟨s1, h1, h2⟩ := bind_eq_ok.1 h
  have e1 : s1.1 = .counter := by
    rcases hP with rfl | ⟨P', x, rfl, hx⟩
    · cases h1; rfl
    · rw [srtFold_append] at h1
      obtain ⟨s0, _, h3⟩ := bind_eq_ok.1 h1
      rw [srtFold] at h3
      obtain ⟨s2, h4, h5⟩ := bind_eq_ok.1 h3
      cases h5
      exact step_blank hx h4
  rw [srtFold] at h2
  obtain ⟨s2, h3, h4⟩ := bind_eq_ok.1 h2
  rw [srtFold] at h4
  obtain ⟨s3, h5, h6⟩ := bind_eq_ok.1 h4
  have e3 := step_metadata (step_counter hc e1 h3) h5
  clear h1 h2 h3 h4 h5 h
  induction ls generalizing s3 with
  | nil => cases h6; exact e3
  | cons l ls ih =>
    rw [srtFold] at h6
    obtain ⟨s4, h7, h8⟩ := bind_eq_ok.1 h6
    exact ih (fun x hx => hls x (by simp [hx])) s4 h8 (step_content (hls l (by simp)) e3 h7)

private theorem convertSubLines_append (n : Nat) (ctx : List Str) (a b : List Str) (p : Raw) (subs : List Raw) :
    convertSubLines n ctx (a ++ b) p subs = (convertSubLines n ctx a p subs).bind (fun q => convertSubLines n ctx b q.1 q.2) := by
  induction a generalizing p subs with
  | nil => rfl
  | cons t ts ih =>
    rw [List.cons_append, convertSubLines, convertSubLines]
    cases convertLine n ctx t p subs with
    | error e => rfl
    | ok q =>
      obtain ⟨p', subs'⟩ := q
      simp only [ok_bind]
      cases optGet p'.vpos.line with
      | error e => rfl
      | ok l =>
        simp only [ok_bind]
        cases ck (l + 1) with
        | error e => rfl
        | ok l' =>
          simp only [ok_bind]
          exact ih _ _

theorem goodLine_sep {a b : Str} (ha : GoodLine a) (hb : GoodLine b) : GoodLine (a ++ b!"\u2028" ++ b) := by
  obtain ⟨a1, a2, a3, a4⟩ := ha
  obtain ⟨b1, b2, b3, b4⟩ := hb
  refine ⟨by simp, ?_, by simp [a3, b3], ?_⟩
  · rw [List.getLast?_append_of_ne_nil _ b1]; exact b2
  · rintro ⟨r, hr⟩
    match a, a1 with
    | [x], _ => simp at hr
    | [x, y], _ => simp at hr
    | x :: y :: z :: a, _ =>
      simp only [List.cons_append, List.nil_append, List.cons.injEq] at hr
      apply a4
      obtain ⟨e1, e2, e3, _⟩ := hr
      refine ⟨a, ?_⟩
      rw [e1, e2, e3]; rfl

/-- C31: a line with U+2028 in it reads as if it were two lines. -/
theorem C31_line_separator (A B : List Str) (hA : InText A) (a b : Str) (ha : GoodLine a) (hb : GoodLine b) (hs : ¬ b!"\u2028" <:+: a) (subs : List Raw) :
    srtRead (A ++ [a ++ b!"\u2028" ++ b] ++ B) = .ok subs ↔ srtRead (A ++ [a, b] ++ B) = .ok subs := by
  have key : srtFold (.counter, srtFresh, []) (A ++ [a ++ b!"\u2028" ++ b] ++ B) = srtFold (.counter, srtFresh, []) (A ++ [a, b] ++ B) := by
    rw [srtFold_append, srtFold_append, srtFold_append, srtFold_append]
    cases hf : srtFold (.counter, srtFresh, []) A with
    | error e => rfl
    | ok s =>
      have hc := fold_inText hA hf
      obtain ⟨st, rs, subs⟩ := s
      simp only at hc
      subst hc
      show (srtFold (.content, rs, subs) [a ++ b!"\u2028" ++ b]).bind _ = (srtFold (.content, rs, subs) [a, b]).bind _
      congr 1
      have hab := goodLine_sep ha hb
      have e1 : splitStr lineSep (a ++ b!"\u2028" ++ b) = [a] ++ splitStr lineSep b := by
        rw [List.append_assoc]
        exact splitStr_append (sep := lineSep) (by decide) (noOcc_lineSep hs)
      have e2 : splitStr lineSep a = [a] := splitStr_none (noOcc_of_not_infix hs)
      simp only [srtFold, srtStep, cleanLine_good hab, cleanLine_good ha, if_neg hab.1, if_neg ha.1]
      rw [e1, e2, convertSubLines_append]
      cases convertSubLines 0 [] [a] rs subs with
      | error e => rfl
      | ok q =>
        simp only [Except.bind, cleanLine_good hb, if_neg hb.1]
  rw [srtRead_ok_iff, srtRead_ok_iff, key]

example : InText [b!"0", b!"x", b!"\r", b!"7", b!"0:0:1,0 --> 0:0:2,0", b!"t"] :=
  ⟨[b!"0", b!"x", b!"\r"], b!"7", b!"0:0:1,0 --> 0:0:2,0", [b!"t"], rfl, .inr ⟨[b!"0", b!"x"], b!"\r", rfl, by decide⟩, by decide, by decide⟩

example : (srtReadString b!"1\n0:0:1,0 --> 0:0:2,0\na\u2028b\u2028\u2028c\nd").toOption.map (·.map (fun r => (r.text, r.vpos.line))) =
    some [(b!"a", some 0), (b!"b", some 1), (b!"c", some 3), (b!"d", some 4)] := by decide +kernel

/-! ### C32 -/

/-- Valid UTF-8: the encoding of a list of code points. -/
def utf8 (cs : List Nat) : Str := (cs.map utf8EncodeChar).flatten

/-- Code points UTF-8 can encode. -/
def ScalarValue (c : Nat) : Prop := c < 0xd800 ∨ (0xdfff < c ∧ c ≤ 0x10ffff)

private theorem ofNat_toNat (n : Nat) : (UInt8.ofNat n).toNat = n % 256 := by simp

theorem encode_cases (c : Nat) :
    (c ≤ 0x7f ∧ utf8EncodeChar c = [UInt8.ofNat c]) ∨
    ((0x7f < c ∧ c ≤ 0x7ff) ∧ utf8EncodeChar c = [UInt8.ofNat (c / 64 + 0xc0), UInt8.ofNat (c % 64 + 0x80)]) ∨
    ((0x7ff < c ∧ c ≤ 0xffff) ∧ utf8EncodeChar c = [UInt8.ofNat (c / 4096 + 0xe0), UInt8.ofNat (c / 64 % 64 + 0x80), UInt8.ofNat (c % 64 + 0x80)]) ∨
    (0xffff < c ∧ utf8EncodeChar c = [UInt8.ofNat (c / 262144 + 0xf0), UInt8.ofNat (c / 4096 % 64 + 0x80), UInt8.ofNat (c / 64 % 64 + 0x80), UInt8.ofNat (c % 64 + 0x80)]) := by
  by_cases h1 : c ≤ 0x7f
  · exact .inl ⟨h1, by unfold utf8EncodeChar; rw [if_pos h1]⟩
  · by_cases h2 : c ≤ 0x7ff
    · exact .inr (.inl ⟨⟨by omega, h2⟩, by unfold utf8EncodeChar; rw [if_neg h1, if_pos h2]⟩)
    · by_cases h3 : c ≤ 0xffff
      · exact .inr (.inr (.inl ⟨⟨by omega, h3⟩, by unfold utf8EncodeChar; rw [if_neg h1, if_neg h2, if_pos h3]⟩))
      · exact .inr (.inr (.inr ⟨by omega, by unfold utf8EncodeChar; rw [if_neg h1, if_neg h2, if_neg h3]⟩))

/-- The mark does not begin within the encoding of another character. -/
private theorem noOcc_char (c : Nat) (hc : ScalarValue c) (hne : c ≠ 0x202b) (b : Str) : NoOcc rle (utf8EncodeChar c) b := by
  have first : ∀ (y : Byte) (w : Str), y ≠ 0xe2 → ¬ rle <+: y :: w := by
    rintro y w hy ⟨z, hz⟩
    simp only [rle, List.cons_append, List.cons.injEq] at hz
    exact hy hz.1.symm
  have ne : ∀ n : Nat, n % 256 ≠ 0xe2 → UInt8.ofNat n ≠ 0xe2 := by
    intro n hn h
    apply hn
    rw [← ofNat_toNat, h]
    rfl
  intro x u e hu
  unfold ScalarValue at hc
  rcases encode_cases c with ⟨hr, he⟩ | ⟨hr, he⟩ | ⟨hr, he⟩ | ⟨hr, he⟩ <;> rw [he] at e
  · match x, u, hu with
    | [], [y], _ =>
      simp only [List.nil_append, List.cons.injEq, and_true] at e
      rw [← e]
      exact first _ _ (ne _ (by omega))
    | [], y :: z :: w, _ => simp at e
    | _ :: xs, y :: w, _ => simp at e
  · match x, u, hu with
    | [], y :: w, _ =>
      simp only [List.nil_append, List.cons.injEq] at e
      rw [← e.1]
      exact first _ _ (ne _ (by omega))
    | [_], y :: w, _ =>
      simp only [List.cons_append, List.nil_append, List.cons.injEq] at e
      rw [← e.2.1]
      exact first _ _ (ne _ (by omega))
    | _ :: _ :: xs, y :: w, _ => simp at e
  · match x, u, hu with
    | [], y0 :: w, _ =>
      simp only [List.nil_append] at e
      rw [← e]
      rintro ⟨z, hz⟩
      simp only [rle, List.cons_append, List.nil_append, List.cons.injEq] at hz
      obtain ⟨h0, h1, h2, _⟩ := hz
      have h0 := congrArg UInt8.toNat h0
      have h1 := congrArg UInt8.toNat h1
      have h2 := congrArg UInt8.toNat h2
      simp only [ofNat_toNat] at h0 h1 h2
      have e0 : UInt8.toNat 0xe2 = 0xe2 := rfl
      have e1 : UInt8.toNat 0x80 = 0x80 := rfl
      have e2 : UInt8.toNat 0xab = 0xab := rfl
      rw [e0] at h0
      rw [e1] at h1
      rw [e2] at h2
      omega
    | [_], y :: w, _ =>
      simp only [List.cons_append, List.nil_append, List.cons.injEq] at e
      rw [← e.2.1]
      exact first _ _ (ne _ (by omega))
    | [_, _], y :: w, _ =>
      simp only [List.cons_append, List.nil_append, List.cons.injEq] at e
      rw [← e.2.2.1]
      exact first _ _ (ne _ (by omega))
    | _ :: _ :: _ :: xs, y :: w, _ => simp at e
  · match x, u, hu with
    | [], y :: w, _ =>
      simp only [List.nil_append, List.cons.injEq] at e
      rw [← e.1]
      exact first _ _ (ne _ (by omega))
    | [_], y :: w, _ =>
      simp only [List.cons_append, List.nil_append, List.cons.injEq] at e
      rw [← e.2.1]
      exact first _ _ (ne _ (by omega))
    | [_, _], y :: w, _ =>
      simp only [List.cons_append, List.nil_append, List.cons.injEq] at e
      rw [← e.2.2.1]
      exact first _ _ (ne _ (by omega))
    | [_, _, _], y :: w, _ =>
      simp only [List.cons_append, List.nil_append, List.cons.injEq] at e
      rw [← e.2.2.2.1]
      exact first _ _ (ne _ (by omega))
    | _ :: _ :: _ :: _ :: xs, y :: w, _ => simp at e

private theorem utf8_cons (c : Nat) (cs : List Nat) : utf8 (c :: cs) = utf8EncodeChar c ++ utf8 cs := by
  simp [utf8]

/-- Removing the mark from UTF-8 text removes it from its characters. -/
theorem replaceAll_rle (cs : List Nat) (h : ∀ c ∈ cs, ScalarValue c) : replaceAll (utf8 cs) rle [] = utf8 (cs.filter (· ≠ 0x202b)) := by
  unfold replaceAll
  rw [if_neg (by decide)]
  induction cs with
  | nil => rfl
  | cons c cs ih =>
    have ih := ih (fun x hx => h x (by simp [hx]))
    rw [utf8_cons]
    by_cases hc : c = 0x202b
    · subst hc
      rw [List.filter_cons_of_neg (by simp), ← ih]
      exact replaceAllGo_skip rle [] [0x80, 0xab] (utf8 cs)
    · rw [List.filter_cons_of_pos (by simpa using hc), utf8_cons, replaceAllGo_noOcc (noOcc_char c (h c (by simp)) hc _), ih]

/-- UTF-8 text without the character does not contain its bytes. -/
theorem rle_not_infix (cs : List Nat) (h : ∀ c ∈ cs, ScalarValue c) (hne : 0x202b ∉ cs) : ¬ rle <:+: utf8 cs := by
  induction cs with
  | nil => decide
  | cons c cs ih =>
    simp only [List.mem_cons, not_or] at hne
    rintro ⟨x, y, e⟩
    rw [utf8_cons, List.append_assoc] at e
    rcases List.append_eq_append_iff.1 e with ⟨z, h1, h2⟩ | ⟨z, h1, h2⟩
    · by_cases hz : z = []
      · subst hz
        apply ih (fun x hx => h x (by simp [hx])) hne.2
        exact ⟨[], y, by simpa using h2⟩
      · exact noOcc_char c (h c (by simp)) (Ne.symm hne.1) (utf8 cs) x z h1 hz ⟨y, h2⟩
    · apply ih (fun x hx => h x (by simp [hx])) hne.2
      exact ⟨z, y, by rw [h2]; simp⟩

/-- C32: a line of UTF-8 text without tags loses its right-to-left embedding marks, and nothing else. -/
theorem C32_removed_partial (n : Nat) (ctx : List Str) (p : Raw) (hp : p.text = []) (cs : List Nat) (hcs : ∀ c ∈ cs, ScalarValue c)
    (h1 : (60 : Byte) ∉ utf8 cs) (h2 : (123 : Byte) ∉ utf8 cs) (subs : List Raw) :
    convertLine n ctx (utf8 cs) p subs =
        .ok (p, if cs.filter (· ≠ 0x202b) = [] then subs else subs ++ [{ p with text := utf8 (cs.filter (· ≠ 0x202b)) }]) ∧
      ¬ b!"\u202B" <:+: utf8 (cs.filter (· ≠ 0x202b)) := by
  refine ⟨?_, rle_not_infix _ (fun c hc => hcs c (List.mem_of_mem_filter hc)) (by simp)⟩
  have := srtRun_text n ctx ⟨p, [⟨1, 1, 1⟩], subs⟩ (plainText_of h1 h2) []
  rw [List.append_nil] at this
  rw [convertLine_eq, this, srtRun_nil]
  simp only [Except.bind, hp, List.nil_append, replaceAll_rle cs hcs, SrtLine.maybeContent]
  have hemp : utf8 (cs.filter (· ≠ 0x202b)) = [] ↔ cs.filter (· ≠ 0x202b) = [] := by
    generalize cs.filter (· ≠ 0x202b) = l
    cases l with
    | nil => simp [utf8]
    | cons c l =>
      rw [utf8_cons]
      simp only [List.append_eq_nil_iff, reduceCtorEq, iff_false, not_and]
      intro h
      unfold utf8EncodeChar at h
      repeat' split at h
      all_goals simp at h
  by_cases he : cs.filter (· ≠ 0x202b) = []
  · rw [if_pos he, if_pos (by rw [hemp.2 he]; rfl), hemp.2 he, ← hp]
  · rw [if_neg he, if_neg (by rw [List.isEmpty_iff]; exact fun h => he (hemp.1 h)), ← hp]

example : utf8 [0x202b, 0x5d0, 0x202b, 0x41] = b!"\u202Bא\u202BA" ∧ ∀ c ∈ [0x202b, 0x5d0, 0x202b, 0x41], ScalarValue c := by
  unfold ScalarValue; decide

/-- C32 fails if a tag follows the mark. -/
theorem C32_tag_witness : (srtReadString b!"1\n0:0:1,0 --> 0:0:2,0\n\u202Ba<b>b\u202B").toOption.map (·.map Raw.text) = some [b!"\u202Ba", b!"b"] := by
  decide +kernel

/-- … and in text that is not UTF-8 even without tags. -/
theorem C32_invalid_witness : (srtReadString (b!"1\n0:0:1,0 --> 0:0:2,0\n" ++ [0xe2, 0x80, 0xe2, 0x80, 0xab, 0xab])).toOption.map (·.map Raw.text) =
    some [b!"\u202B"] := by
  decide +kernel

/-! ### C34 -/

/-- C34 fails: text before the tag is changed as well, if there is no other tag between. -/
theorem C34_before_witness : (srtReadString b!"1\n0:0:1,0 --> 0:0:2,0\na{\\i1}b").toOption.map (·.map (fun r => (r.text, r.italic))) = some [(b!"ab", true)] := by
  decide +kernel

/-- Two tags in the same braces are taken for one, unknown, tag. -/
theorem C34_joined_witness : (srtReadString b!"1\n0:0:1,0 --> 0:0:2,0\n{\\b1\\i1}b").toOption.map (·.map (fun r => (r.text, r.italic, r.bold))) =
    some [(b!"b", false, false)] := by
  decide +kernel

private theorem ssa_tok (tag rest : Str) (h : (125 : Byte) ∉ tag) :
    nextTok 123 (92 :: (tag ++ 125 :: rest)) = (.ssa (92 :: tag), rest) := by
  have h92 : ∀ (x : Byte) (s : Str), x ≠ 92 → lowerByte 92 ≠ x → hasNext (123 :: 92 :: (tag ++ 125 :: rest)) (123 :: x :: s) = false := by
    intro x s _ hx
    cases hn : hasNext (123 :: 92 :: (tag ++ 125 :: rest)) (123 :: x :: s) with
    | false => rfl
    | true =>
      obtain ⟨c, d, r, e, _, h2⟩ := hasNext_two hn
      cases e
      exact absurd h2 hx
  have h60 : ∀ (x : Byte) (s : Str), hasNext (123 :: 92 :: (tag ++ 125 :: rest)) (60 :: x :: s) = false := by
    intro x s
    cases hn : hasNext (123 :: 92 :: (tag ++ 125 :: rest)) (60 :: x :: s) with
    | false => rfl
    | true =>
      obtain ⟨c, d, r, e, h1, _⟩ := hasNext_two hn
      cases e
      exact absurd h1 (by decide)
  unfold nextTok
  simp only [h60, h92 98 _ (by decide) (by decide), h92 47 _ (by decide) (by decide), h92 105 _ (by decide) (by decide), h92 117 _ (by decide) (by decide)]
  have hs : hasNext (123 :: 92 :: (tag ++ 125 :: rest)) b!"{\\" = true := rfl
  have ht : List.takeWhile (fun x => x != 125) (tag ++ 125 :: rest) = tag := by
    rw [List.takeWhile_append_of_pos (by intro c hc; simp only [bne_iff_ne]; rintro rfl; exact h hc)]
    simp
  simp only [hs, Bool.or_self, Bool.false_eq_true, if_false, if_true, List.drop_succ_cons, List.drop_zero, ht]
  simp

/-- C34: a tag at the start of a line does to the line, and the rest of the subtitle, what it means … -/
theorem C34_start_partial (n : Nat) (ctx : List Str) (tag rest : Str) (h : (125 : Byte) ∉ tag) (p : Raw) (subs : List Raw) :
    convertLine n ctx (b!"{\\" ++ tag ++ b!"}" ++ rest) p subs =
      (ssaParseTag srtSsaContext p (92 :: tag)).bind (fun p' => convertLine n ctx rest p' subs) := by
  have e : b!"{\\" ++ tag ++ b!"}" ++ rest = 123 :: 92 :: (tag ++ 125 :: rest) := by simp
  rw [convertLine_eq, e, srtRun_cons, ssa_tok tag rest h]
  simp only [SrtLine.exec]
  show Except.bind (Except.bind (Except.bind (ssaParseTag srtSsaContext p (92 :: tag)) _) _) _ = _
  rw [bind_assoc_R, bind_assoc_R]
  rfl

example (p : Raw) : convertLine 3 [] b!"{\\i1}x" p [] = (ssaParseTag srtSsaContext p b!"\\i1").bind (fun p' => convertLine 3 [] b!"x" p' []) := C34_start_partial 3 [] b!"i1" b!"x" (by decide) p []

/-- … which for the simple tags is: -/
theorem C34_faces_partial (p : Raw) :
    ssaParseTag srtSsaContext p b!"\\i1" = .ok { p with italic := true } ∧ ssaParseTag srtSsaContext p b!"\\i0" = .ok { p with italic := false } ∧
    ssaParseTag srtSsaContext p b!"\\b1" = .ok { p with bold := true } ∧ ssaParseTag srtSsaContext p b!"\\b0" = .ok { p with bold := false } ∧
    ssaParseTag srtSsaContext p b!"\\u1" = .ok { p with underline := true } ∧ ssaParseTag srtSsaContext p b!"\\u0" = .ok { p with underline := false } := by
  refine ⟨rfl, rfl, rfl, rfl, rfl, rfl⟩

example : (srtReadString b!"1\n0:0:1,0 --> 0:0:2,0\n{\\i1}a\nb").toOption.map (·.map (fun r => (r.text, r.italic))) = some [(b!"a", true), (b!"b", true)] := by
  decide +kernel

end LibSub
