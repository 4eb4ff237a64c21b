/-
Property C150: the signs of zero and of what is no number.
-/
import Verif.Model.SignBits
import Verif.Props.OutInf
import Verif.Props.NumberText
import Verif.Props.Collectable

namespace LibSub

/-! ### Specification -/

/-- Subtitles without the sign bit. -/
def SSubtitle.unsigned (s : SSubtitle) : XSubtitle := { s.x with lines := s.lines.map SLine.x }

/-- `out'` is `out`, but some of the places 0 and `nan` in it have a minus sign. -/
inductive WithSigns : Str → Str → Prop
  | done : WithSigns [] []
  | same (t out out' : Str) : WithSigns out out' → WithSigns (t ++ out) (t ++ out')
  | zero (out out' : Str) : WithSigns out out' → WithSigns (b!"\t0 of screen" ++ out) (b!"\t-0 of screen" ++ out')
  | nan (out out' : Str) : WithSigns out out' → WithSigns (b!"\tnan of screen" ++ out) (b!"\t-nan of screen" ++ out')

/-- The text begins with a word, in either case. -/
def WordHere (cs w : Str) : Prop := ∃ u r, cs = u ++ r ∧ InAnyCase u w

/-- The text begins with a digit, perhaps after a point. -/
def DigitHere (P : Byte → Prop) (s : Str) : Prop := ∃ c t, (s = c :: t ∨ s = 46 :: c :: t) ∧ P c

/-- There is a number at the start of the text.  `infi` that is not `infinity` is none. -/
def NumberHere (cs : Str) : Prop :=
  (WordHere cs b!"inf" ∧ ¬ WordHere cs b!"infi") ∨ WordHere cs b!"infinity" ∨ WordHere cs b!"nan" ∨
    (∃ x t, cs = 48 :: x :: t ∧ (x = 120 ∨ x = 88) ∧ DigitHere IsHex t) ∨ ((∀ x t, cs = 48 :: x :: t → x ≠ 120 ∧ x ≠ 88) ∧ DigitHere IsDec cs)

/-! ### The sign -/

private theorem mant_iff {p : Byte → Bool} {P : Byte → Prop} (hp : ∀ c, p c = true ↔ P c) (s : Str) :
    (!(scanMant p b!"." s).1.isEmpty || !(scanMant p b!"." s).2.1.isEmpty) = true ↔ DigitHere P s := by
  have hdot' : b!"." = [46] := rfl
  unfold DigitHere scanMant
  rw [hdot']
  cases s with
  | nil => simp [startsWith]
  | cons c t =>
    by_cases hc : p c = true
    · have h1 : (List.takeWhile p (c :: t)).isEmpty = false := by rw [List.takeWhile_cons_of_pos hc]; rfl
      simp only
      constructor
      · intro _; exact ⟨c, t, .inl rfl, (hp c).1 hc⟩
      · intro _
        split <;> simp [h1]
    · rw [List.dropWhile_cons_of_neg hc, List.takeWhile_cons_of_neg hc]
      by_cases hd : c = 46
      · subst hd
        rw [if_pos (by simp [startsWith])]
        cases t with
        | nil =>
          simp only [List.drop_succ_cons, List.length_cons, List.length_nil, List.drop_zero, List.takeWhile_nil, List.isEmpty_nil, Bool.not_true, Bool.or_self, Bool.false_eq_true, false_iff]
          rintro ⟨d, r, h | h, hP⟩
          · cases h; exact hc ((hp _).2 hP)
          · cases h
        | cons d r =>
          by_cases hd : p d = true
          · simp only [List.length_cons, List.length_nil, List.drop_succ_cons, List.drop_zero, List.takeWhile_cons_of_pos hd]
            exact ⟨fun _ => ⟨d, r, .inr rfl, (hp d).1 hd⟩, fun _ => rfl⟩
          · simp only [List.length_cons, List.length_nil, List.drop_succ_cons, List.drop_zero, List.takeWhile_cons_of_neg hd]
            constructor
            · intro h; cases h
            · rintro ⟨e, r', h | h, hP⟩
              · cases h; exact absurd ((hp _).2 hP) hc
              · cases h; exact absurd ((hp _).2 hP) hd
      · rw [if_neg (by simp [startsWith, Ne.symm hd])]
        constructor
        · intro h; cases h
        · rintro ⟨e, r', h | h, hP⟩
          · cases h; exact absurd ((hp _).2 hP) hc
          · cases h; exact absurd rfl hd

private theorem word_iff (cs w : Str) : startsWithNoCase cs w = true ↔ WordHere cs w := noCase_iff cs w

private theorem word_prefix {cs : Str} (a b : Str) (h : WordHere cs (a ++ b)) : WordHere cs a := by
  obtain ⟨u, r, rfl, h⟩ := h
  rw [inAnyCase_iff] at h
  obtain ⟨u1, u2, rfl, h1, h2⟩ := List.map_eq_append_iff.1 h
  exact ⟨u1, u2 ++ r, by simp, (inAnyCase_iff _ _).2 h1⟩

private theorem word_head {cs w : Str} {x : Byte} (h : WordHere cs (x :: w)) : ∃ c t, cs = c :: t ∧ lowerByte c = x := by
  obtain ⟨u, r, rfl, h⟩ := h
  rw [inAnyCase_iff] at h
  obtain ⟨a, u, rfl, h1, _⟩ := List.map_eq_cons_iff.1 h
  exact ⟨a, u ++ r, rfl, h1⟩

private theorem letter (c : Byte) (h : lowerByte c = 105 ∨ lowerByte c = 110) : c ≠ 48 ∧ c ≠ 46 ∧ ¬ IsDec c :=
  forall_byte (p := fun c => lowerByte c = 105 ∨ lowerByte c = 110 → c ≠ 48 ∧ c ≠ 46 ∧ ¬ c ∈ b!"0123456789") (by decide +kernel) c h

private theorem letters_no_digits {c : Byte} {t : Str} (h : lowerByte c = 105 ∨ lowerByte c = 110) :
    ¬ ((∃ x t', c :: t = 48 :: x :: t' ∧ (x = 120 ∨ x = 88) ∧ DigitHere IsHex t') ∨ ((∀ x t', c :: t = 48 :: x :: t' → x ≠ 120 ∧ x ≠ 88) ∧ DigitHere IsDec (c :: t))) := by
  have hc := letter c h
  rintro (⟨x, t', h, _⟩ | ⟨_, d, r, h | h, hd⟩)
  · cases h; exact hc.1 rfl
  · cases h; exact hc.2.2 hd
  · cases h; exact hc.2.1 rfl

private theorem number_iff (cs : Str) : numberHere cs = true ↔ NumberHere cs := by
  unfold numberHere NumberHere
  by_cases h1 : startsWithNoCase cs b!"inf" = true
  · rw [if_pos h1]
    have w1 := (word_iff _ _).1 h1
    obtain ⟨c, t, rfl, hc⟩ := word_head w1
    have hn : ¬ WordHere (c :: t) b!"nan" := by
      intro h
      obtain ⟨c', t', e, hc'⟩ := word_head h
      cases e
      rw [hc] at hc'
      cases hc'
    have hl := letters_no_digits (t := t) (.inl hc)
    rw [Bool.or_eq_true, Bool.not_eq_true', ← Bool.not_eq_true, word_iff, word_iff]
    constructor
    · rintro (h | h)
      · exact .inl ⟨w1, h⟩
      · exact .inr (.inl h)
    · rintro (h | h | h | h)
      · exact .inl h.2
      · exact .inr h
      · exact absurd h hn
      · exact absurd h hl
  · rw [if_neg h1]
    have w1 : ¬ WordHere cs b!"inf" := fun h => h1 ((word_iff _ _).2 h)
    have w2 : ¬ WordHere cs b!"infinity" := fun h => w1 (word_prefix b!"inf" b!"inity" h)
    by_cases h2 : startsWithNoCase cs b!"nan" = true
    · rw [if_pos h2]
      have := (word_iff _ _).1 h2
      tauto
    · rw [if_neg h2]
      have w3 : ¬ WordHere cs b!"nan" := fun h => h2 ((word_iff _ _).2 h)
      simp only [w1, w2, w3, false_and, false_or]
      by_cases h3 : startsWithNoCase cs b!"0x" = true
      · rw [if_pos h3, mant_iff isHex_iff]
        obtain ⟨x, t, rfl, hx⟩ := (hexStart_iff cs).1 h3
        constructor
        · intro h; exact .inl ⟨x, t, rfl, hx, h⟩
        · rintro (⟨x', t', e, _, h⟩ | ⟨h, _⟩)
          · cases e; exact h
          · rcases hx with hx | hx
            · exact absurd hx (h x t rfl).1
            · exact absurd hx (h x t rfl).2
      · rw [if_neg h3, mant_iff isDec_iff]
        have h4 : ∀ x t, cs = 48 :: x :: t → x ≠ 120 ∧ x ≠ 88 := by
          intro x t e
          constructor <;> rintro rfl <;> exact h3 ((hexStart_iff cs).2 ⟨_, t, e, by simp⟩)
        constructor
        · intro h; exact .inr ⟨h4, h⟩
        · rintro (⟨x, t, e, hx, _⟩ | ⟨_, h⟩)
          · have := h4 x t e; tauto
          · exact h

private theorem sign_iff (v : Str) : floatSign v = true ↔ ∃ cs, SignedAfterBlanks v true cs ∧ NumberHere cs := by
  unfold floatSign
  rw [makeLocal_classic]
  simp only [signedAfterBlanks_iff]
  generalize takeSign (v.dropWhile isSpace) = x
  obtain ⟨neg, cs⟩ := x
  simp only [Bool.and_eq_true, number_iff]
  constructor
  · rintro ⟨rfl, h⟩; exact ⟨cs, rfl, h⟩
  · rintro ⟨cs', h1, h2⟩; cases h1; exact ⟨rfl, h2⟩

/-! ### Reading -/

private def unsign (s : SrtLineS) : SrtLineX := ⟨s.p.x, s.colours, s.subs.map SRaw.x⟩

private theorem content_unsign (s : SrtLineS) : unsign s.maybeContent = (unsign s).maybeContent := by
  unfold SrtLineS.maybeContent SrtLineX.maybeContent
  rw [show (unsign s).p.raw.text = s.p.x.raw.text from rfl]
  split
  · rfl
  · simp [unsign]

private theorem tag_unsign (p : SRaw) (tag : Str) : (ssaParseTagS p tag).map SRaw.x = ssaParseTagX srtSsaContext p.x tag := by
  unfold ssaParseTagS
  cases ssaParseTagX srtSsaContext p.x tag with
  | error e => rfl
  | ok x =>
    rw [ok_bind]
    split
    · split <;> rfl
    · rfl

private theorem exec_unsign (n : Nat) (ctx : List Str) (s : SrtLineS) (t : Tok) : (s.exec n ctx t).map unsign = (unsign s).exec n ctx t := by
  cases t with
  | bold b => unfold SrtLineS.exec SrtLineX.exec; simp only; rw [← content_unsign]; rfl
  | italic b => unfold SrtLineS.exec SrtLineX.exec; simp only; rw [← content_unsign]; rfl
  | underline b => unfold SrtLineS.exec SrtLineX.exec; simp only; rw [← content_unsign]; rfl
  | chr c => rfl
  | ssa tag =>
    unfold SrtLineS.exec SrtLineX.exec
    simp only
    rw [show (unsign s).p = s.p.x from rfl, ← tag_unsign]
    cases ssaParseTagS s.p tag <;> rfl
  | fontOpen tag =>
    unfold SrtLineS.exec SrtLineX.exec
    simp only
    rw [← content_unsign]
    cases fontColour n ctx tag <;> rfl
  | fontClose =>
    unfold SrtLineS.exec SrtLineX.exec
    simp only
    rw [← content_unsign, show (unsign s.maybeContent).colours = s.maybeContent.colours from rfl]
    split
    · rfl
    · cases s.maybeContent.colours.dropLast.getLast? <;> rfl

private theorem loop_unsign (n : Nat) (ctx : List Str) : ∀ (fuel : Nat) (t : Str) (s : SrtLineS), (srtLoopS n ctx fuel s t).map unsign = srtLoopX n ctx fuel (unsign s) t
  | fuel, [], s => by rw [srtLoopS.eq_def, srtLoopX.eq_def]; rfl
  | 0, c :: cs, s => by rw [srtLoopS, srtLoopX]; rfl
  | fuel + 1, c :: cs, s => by
    rw [srtLoopS, srtLoopX, ← exec_unsign]
    cases s.exec n ctx (nextTok c cs).1 with
    | error e => rfl
    | ok s' => exact loop_unsign n ctx fuel _ s'

private def pairX (x : SRaw × List SRaw) : XRaw × List XRaw := (x.1.x, x.2.map SRaw.x)

private theorem line_unsign (n : Nat) (ctx : List Str) (t : Str) (p : SRaw) (subs : List SRaw) :
    (convertLineS n ctx t p subs).map pairX = convertLineX n ctx t p.x (subs.map SRaw.x) := by
  unfold convertLineS convertLineX
  have := loop_unsign n ctx t.length t { p := p, colours := [⟨1, 1, 1⟩], subs := subs }
  rw [show ({ p := p.x, colours := [⟨1, 1, 1⟩], subs := subs.map SRaw.x } : SrtLineX) = unsign { p := p, colours := [⟨1, 1, 1⟩], subs := subs } from rfl, ← this]
  cases srtLoopS n ctx t.length { p := p, colours := [⟨1, 1, 1⟩], subs := subs } t with
  | error e => rfl
  | ok s =>
    have e := content_unsign { s with p := ⟨{ s.p.x with raw := { s.p.x.raw with text := replaceAll s.p.x.raw.text rle [] } }, s.p.neg⟩ }
    simp only [Except.map, ok_bind, pure_eq_ok]
    have e1 := congrArg SrtLineX.p e
    have e2 := congrArg SrtLineX.subs e
    exact congrArg Except.ok (Prod.ext e1 e2)

private theorem subLines_unsign (n : Nat) (ctx : List Str) : ∀ (ts : List Str) (p : SRaw) (subs : List SRaw),
    (convertSubLinesS n ctx ts p subs).map pairX = convertSubLinesX n ctx ts p.x (subs.map SRaw.x)
  | [], p, subs => rfl
  | t :: ts, p, subs => by
    rw [convertSubLinesS, convertSubLinesX, ← line_unsign]
    cases convertLineS n ctx t p subs with
    | error e => rfl
    | ok y =>
      obtain ⟨q, subs'⟩ := y
      simp only [Except.map, ok_bind, pairX]
      cases optGet q.x.raw.vpos.line with
      | error e => rfl
      | ok l =>
        simp only [ok_bind]
        cases ck (l + 1) with
        | error e => rfl
        | ok l' => exact subLines_unsign n ctx ts ⟨{ q.x with raw := { q.x.raw with vpos := { q.x.raw.vpos with line := some l' }, text := [] } }, q.neg⟩ subs'

private theorem lines_unsign : ∀ (ls : List Str) (n : Nat) (st : SrtState) (ctx : List Str) (rs : SRaw) (subs : List SRaw),
    (srtLinesS n st ctx rs subs ls).map (List.map SRaw.x) = srtLinesX n st ctx rs.x (subs.map SRaw.x) ls
  | [], n, st, ctx, rs, subs => by rw [srtLinesS, srtLinesX]; rfl
  | raw :: rest, n, st, ctx, rs, subs => by
    cases st with
    | counter =>
      rw [srtLinesS, srtLinesX]
      split
      · exact lines_unsign rest _ _ _ _ _
      · exact lines_unsign rest _ _ _ ⟨{ raw := srtFresh }, false⟩ _
    | metadata =>
      rw [srtLinesS, srtLinesX]
      simp only
      cases srtMetadata (n + 1) (pushContext ctx (removeBom (trimRightIf isNlCr raw))) (removeBom (trimRightIf isNlCr raw)) rest rs.x.raw with
      | error e => rfl
      | ok r => exact lines_unsign rest _ _ _ ⟨{ rs.x with raw := r }, rs.neg⟩ _
    | content =>
      rw [srtLinesS, srtLinesX]
      simp only
      split
      · exact lines_unsign rest _ _ _ _ _
      · rw [← subLines_unsign]
        cases convertSubLinesS (n + 1) (pushContext ctx (removeBom (trimRightIf isNlCr raw))) (splitStr lineSep (removeBom (trimRightIf isNlCr raw))) rs subs with
        | error e => rfl
        | ok y => exact lines_unsign rest _ _ _ y.1 y.2

/-! ### Collecting -/

private def stX (st : List SSubtitle × Option SSubtitle) : List XSubtitle × Option XSubtitle := (st.1.map SSubtitle.unsigned, st.2.map SSubtitle.unsigned)

private theorem step_unsign (st : List SSubtitle × Option SSubtitle) (i : SRaw) : (collectStepS st i).map stX = collectStepX (stX st) i.x := by
  obtain ⟨out, cur⟩ := st
  cases cur with
  | none => rfl
  | some cur =>
    unfold collectStepX collectStepS
    simp only [stX, Option.map_some]
    rw [show cur.unsigned.sameMetadata i.x = cur.x.sameMetadata i.x from rfl]
    cases cur.x.sameMetadata i.x with
    | error e => rfl
    | ok b =>
      simp only [ok_bind]
      cases b with
      | false => simp [Except.map, stX]; rfl
      | true =>
        simp only [if_true]
        rw [show cur.unsigned.lines.getLast? = cur.lines.getLast?.map SLine.x from List.getLast?_map]
        cases hl : cur.lines.getLast? with
        | none => simp [Except.map, stX, SSubtitle.unsigned]; rfl
        | some l =>
          simp only [Option.map_some]
          by_cases hs : l.x.sameMetadata i.x = true
          · rw [if_pos hs, if_pos hs]
            simp [Except.map, stX, SSubtitle.unsigned, List.map_dropLast]
          · rw [if_neg hs, if_neg hs]
            simp [Except.map, stX, SSubtitle.unsigned]
            rfl

private theorem collectLoop_unsign : ∀ (is : List SRaw) (st : List SSubtitle × Option SSubtitle), (collectLoopS st is).map stX = collectLoopX (stX st) (is.map SRaw.x)
  | [], st => rfl
  | i :: is, st => by
    rw [List.map_cons, collectLoopX, collectLoopS, ← step_unsign]
    cases collectStepS st i with
    | error e => rfl
    | ok st' => exact collectLoop_unsign is st'

private theorem insert_unsign (le : Raw → Raw → Bool) (a : SRaw) : ∀ l : List SRaw, (insertS le a l).map SRaw.x = insertX le a.x (l.map SRaw.x)
  | [] => rfl
  | b :: l => by
    rw [List.map_cons, insertX, insertS]
    split
    · rfl
    · rw [List.map_cons, insert_unsign le a l]

private theorem sort_unsign (le : Raw → Raw → Bool) : ∀ l : List SRaw, (sortS le l).map SRaw.x = sortX le (l.map SRaw.x)
  | [] => rfl
  | a :: l => by rw [List.map_cons, sortX, sortS, insert_unsign, sort_unsign le l]

private theorem collect_unsign (raws : List SRaw) : (collectS raws).map (List.map SSubtitle.unsigned) = collectX (raws.map SRaw.x) := by
  unfold collectX collectS stableSortX
  rw [List.map_map, show (XRaw.raw ∘ SRaw.x) = fun r : SRaw => r.x.raw from rfl]
  cases allComparable (raws.map fun r => r.x.raw) with
  | error e => rfl
  | ok u =>
    simp only [ok_bind, pure_eq_ok]
    rw [← sort_unsign]
    generalize sortS _ raws = sorted
    have := collectLoop_unsign sorted ([], none)
    rw [show stX ([], none) = ([], none) from rfl] at this
    rw [← this]
    cases collectLoopS ([], none) sorted with
    | error e => rfl
    | ok st =>
      obtain ⟨out, cur⟩ := st
      cases cur with
      | none => rfl
      | some cur => simp [Except.map, collectFinishX, collectFinishS, stX]


/-! ### Printing -/

private theorem pos_signs (v : VPos) (prop : Option XF) (neg : Bool) (out out' : Str) (h : WithSigns out out') : WithSigns (dumpPosX v prop ++ out) (dumpPosS v prop neg ++ out') := by
  unfold dumpPosX dumpPosS
  have same : ∀ t : Str, WithSigns (t ++ out) (t ++ out') := fun t => .same t _ _ h
  cases prop with
  | none => exact same _
  | some p =>
    simp only [List.append_assoc]
    have rest : ∀ t u : Str, WithSigns (t ++ (u ++ out)) (t ++ (u ++ out')) := fun t u => by rw [← List.append_assoc, ← List.append_assoc]; exact same _
    cases p with
    | inf s => exact .same _ _ _ (.same _ _ _ (.same _ _ _ (rest _ _)))
    | nan =>
      cases neg
      · exact .same _ _ _ (.same _ _ _ (.same _ _ _ (rest _ _)))
      · exact .nan _ _ (rest _ _)
    | fin q =>
      unfold showFloatS showFloatX
      simp only
      by_cases hq : q = 0 ∧ neg = true
      · rw [if_pos hq, hq.1, show showFloat 0 = b!"0" by decide +kernel]
        exact .zero _ _ (rest _ _)
      · rw [if_neg hq]
        exact .same _ _ _ (.same _ _ _ (.same _ _ _ (rest _ _)))

private theorem dumpLines_signs (out out' : Str) (h : WithSigns out out') : ∀ ls : List SLine, WithSigns (((ls.map SLine.x).map dumpLineX).flatten ++ out) ((ls.map dumpLineS).flatten ++ out')
  | [] => h
  | l :: ls => by
    simp only [List.map_cons, List.flatten_cons, dumpLineX, dumpLineS, List.append_assoc]
    refine pos_signs _ _ _ _ _ ?_
    exact .same _ _ _ (.same _ _ _ (dumpLines_signs out out' h ls))

private theorem dumpSubs_signs : ∀ (subs : List SSubtitle) (n : Nat), WithSigns (dumpSubsX n (subs.map SSubtitle.unsigned)) (dumpSubsS n subs)
  | [], n => .done
  | s :: subs, n => by
    simp only [List.map_cons, dumpSubsX, dumpSubsS, List.append_assoc]
    refine .same _ _ _ (.same _ _ _ (.same _ _ _ (.same _ _ _ (.same _ _ _ (.same _ _ _ (.same _ _ _ ?_))))))
    exact dumpLines_signs _ _ (dumpSubs_signs subs (n + 1)) s.lines

private theorem withSigns_refl (o : Str) : WithSigns o o := by simpa using WithSigns.same o [] [] .done

/-! ### Without a minus sign -/

private theorem pieces_mem (p : Byte → Bool) (s : Str) : ∀ t ∈ splitAny p s, ∀ x ∈ t, x ∈ s := by
  induction s with
  | nil => intro t ht; simp [splitAny] at ht; simp [ht]
  | cons c cs ih =>
    intro t ht x hx
    rw [splitAny] at ht
    split at ht
    · rcases List.mem_cons.1 ht with rfl | ht
      · cases hx
      · exact List.mem_cons_of_mem _ (ih t ht x hx)
    · split at ht
      · simp only [List.mem_singleton] at ht
        subst ht
        simp only [List.mem_singleton] at hx
        simp [hx]
      · rename_i t0 ts he
        rcases List.mem_cons.1 ht with rfl | ht
        · rcases List.mem_cons.1 hx with rfl | hx
          · simp
          · exact List.mem_cons_of_mem _ (ih t0 (by rw [he]; simp) x hx)
        · exact List.mem_cons_of_mem _ (ih t (by rw [he]; simp [ht]) x hx)

private theorem minus_mem {v : Str} (h : floatSign v = true) : (45 : Byte) ∈ v := by
  obtain ⟨cs, ⟨w, t, ⟨rfl, _⟩, hs⟩, _⟩ := (sign_iff v).1 h
  rcases hs with ⟨rfl, _⟩ | ⟨_, h⟩ | ⟨_, h, _⟩
  · simp
  · cases h
  · cases h

private theorem tag_plain {p q : SRaw} {tag : Str} (ht : (45 : Byte) ∉ tag) (hp : p.neg = false) (h : ssaParseTagS p tag = .ok q) : q.neg = false := by
  obtain ⟨x, _, h⟩ := bind_eq_ok.1 h
  split at h
  · split at h
    · rename_i y e
      cases h
      show floatSign y = false
      rw [← Bool.not_eq_true]
      intro hf
      exact ht (pieces_mem _ _ y (by rw [e]; simp) _ (minus_mem hf))
    · cases h; exact hp
  · cases h; exact hp

private def SrtLineS.Plain (s : SrtLineS) : Prop := s.p.neg = false ∧ ∀ r ∈ s.subs, r.neg = false

private theorem content_plain {s : SrtLineS} (h : s.Plain) : s.maybeContent.Plain := by
  unfold SrtLineS.maybeContent
  split
  · exact h
  · refine ⟨h.1, fun r hr => ?_⟩
    rcases List.mem_append.1 hr with hr | hr
    · exact h.2 r hr
    · rw [List.mem_singleton.1 hr]; exact h.1

private theorem exec_plain {n : Nat} {ctx : List Str} {s s' : SrtLineS} {t : Tok} (ht : ∀ tag, t = .ssa tag → (45 : Byte) ∉ tag) (h : s.Plain) (he : s.exec n ctx t = .ok s') : s'.Plain := by
  have hc := content_plain h
  cases t with
  | bold b => cases he; exact hc
  | italic b => cases he; exact hc
  | underline b => cases he; exact hc
  | chr c => cases he; exact h
  | ssa tag =>
    obtain ⟨p, h1, h2⟩ := bind_eq_ok.1 he
    cases h2
    exact ⟨tag_plain (ht tag rfl) h.1 h1, h.2⟩
  | fontOpen tag =>
    obtain ⟨p, h1, h2⟩ := bind_eq_ok.1 he
    cases h2
    exact hc
  | fontClose =>
    unfold SrtLineS.exec at he
    simp only at he
    split at he
    · cases he; exact hc
    · split at he
      · cases he; exact hc
      · cases he

private theorem tag_mem (c : Byte) (cs tag : Str) (h : (nextTok c cs).1 = .ssa tag) : ∀ x ∈ tag, x ∈ c :: cs := by
  have h92 := nextTok_ssa c cs tag h
  unfold nextTok at h
  simp only at h
  repeat' split at h
  all_goals first | (cases h; done) | skip
  cases h
  intro x hx
  rcases List.mem_cons.1 hx with rfl | hx
  · exact List.mem_cons_of_mem _ h92
  · exact List.mem_of_mem_drop ((List.takeWhile_sublist _).subset hx)

/-- The line has no tag, or no minus sign. -/
private def QuietLine (l : Str) : Prop := (92 : Byte) ∈ l → (45 : Byte) ∉ l

private theorem quiet_sub {a b : Str} (h : QuietLine b) (hab : ∀ x ∈ a, x ∈ b) : QuietLine a := fun h1 h2 => h (hab _ h1) (hab _ h2)

private theorem loop_plain {n : Nat} {ctx : List Str} : ∀ (f : Nat) (t : Str) {s s' : SrtLineS}, QuietLine t → s.Plain → srtLoopS n ctx f s t = .ok s' → s'.Plain
  | f, [], s, s', _, h, he => by rw [srtLoopS.eq_def] at he; cases he; exact h
  | 0, c :: cs, s, s', _, h, he => by rw [srtLoopS] at he; cases he; exact h
  | f + 1, c :: cs, s, s', hq, h, he => by
    rw [srtLoopS] at he
    obtain ⟨s1, h1, h2⟩ := bind_eq_ok.1 he
    refine loop_plain f _ (quiet_sub hq (nextTok_sub c cs)) (exec_plain ?_ h h1) h2
    intro tag e h45
    exact hq (List.mem_cons_of_mem _ (nextTok_ssa c cs tag e)) (tag_mem c cs tag e _ h45)

private theorem line_plain {n : Nat} {ctx : List Str} {t : Str} {p : SRaw} {subs : List SRaw} {q : SRaw × List SRaw} (ht : QuietLine t) (hp : p.neg = false) (h : ∀ r ∈ subs, r.neg = false)
    (he : convertLineS n ctx t p subs = .ok q) : q.1.neg = false ∧ ∀ r ∈ q.2, r.neg = false := by
  obtain ⟨s, h1, h2⟩ := bind_eq_ok.1 he
  cases h2
  have : s.Plain := loop_plain _ _ (s := ⟨p, [⟨1, 1, 1⟩], subs⟩) ht ⟨hp, h⟩ h1
  exact content_plain (s := { s with p := ⟨{ s.p.x with raw := { s.p.x.raw with text := replaceAll s.p.x.raw.text rle [] } }, s.p.neg⟩ }) this

private theorem subLines_plain {n : Nat} {ctx : List Str} : ∀ (ts : List Str) {p : SRaw} {subs : List SRaw} {q : SRaw × List SRaw}, (∀ t ∈ ts, QuietLine t) → p.neg = false → (∀ r ∈ subs, r.neg = false) →
    convertSubLinesS n ctx ts p subs = .ok q → q.1.neg = false ∧ ∀ r ∈ q.2, r.neg = false
  | [], p, subs, q, _, hp, h, he => by cases he; exact ⟨hp, h⟩
  | t :: ts, p, subs, q, ht, hp, h, he => by
    obtain ⟨q1, h1, h2⟩ := bind_eq_ok.1 he
    obtain ⟨l, _, h3⟩ := bind_eq_ok.1 h2
    obtain ⟨l', _, h4⟩ := bind_eq_ok.1 h3
    obtain ⟨h5, h6⟩ := line_plain (ht t (by simp)) hp h h1
    exact subLines_plain ts (p := ⟨{ q1.1.x with raw := { q1.1.x.raw with vpos := { q1.1.x.raw.vpos with line := some l' }, text := [] } }, q1.1.neg⟩) (fun t' ht' => ht t' (by simp [ht'])) h5 h6 h4

private theorem lines_plain : ∀ (ls : List Str) {n : Nat} {st : SrtState} {ctx : List Str} {rs : SRaw} {subs out : List SRaw}, (∀ l ∈ ls, QuietLine l) → rs.neg = false → (∀ r ∈ subs, r.neg = false) →
    srtLinesS n st ctx rs subs ls = .ok out → ∀ r ∈ out, r.neg = false
  | [], n, st, ctx, rs, subs, out, _, _, h, he => by rw [srtLinesS] at he; cases he; exact h
  | raw :: rest, n, st, ctx, rs, subs, out, hq, hr, h, he => by
    have hq' : ∀ l ∈ rest, QuietLine l := fun l hl => hq l (by simp [hl])
    cases st with
    | counter =>
      rw [srtLinesS] at he
      split at he
      · exact lines_plain rest hq' hr h he
      · exact lines_plain rest hq' rfl h he
    | metadata =>
      rw [srtLinesS] at he
      obtain ⟨r, _, h2⟩ := bind_eq_ok.1 he
      exact lines_plain rest hq' (rs := ⟨{ rs.x with raw := r }, rs.neg⟩) hr h h2
    | content =>
      rw [srtLinesS] at he
      split at he
      · exact lines_plain rest hq' hr h he
      · obtain ⟨q, h1, h2⟩ := bind_eq_ok.1 he
        obtain ⟨h3, h4⟩ := subLines_plain _ (fun t ht => quiet_sub (hq raw (by simp)) fun x hx => cleanLine_mem raw x (splitStrGo_mem _ _ _ t ht x hx)) hr h h1
        exact lines_plain rest hq' h3 h4 h2

private theorem insert_mem (le : Raw → Raw → Bool) (a : SRaw) : ∀ l : List SRaw, ∀ x ∈ insertS le a l, x = a ∨ x ∈ l
  | [], x, hx => by simpa [insertS] using hx
  | b :: l, x, hx => by
    rw [insertS] at hx
    split at hx
    · simpa using hx
    · rcases List.mem_cons.1 hx with rfl | hx
      · simp
      · rcases insert_mem le a l x hx with h | h
        · exact .inl h
        · exact .inr (by simp [h])

private theorem sort_mem (le : Raw → Raw → Bool) : ∀ l : List SRaw, ∀ x ∈ sortS le l, x ∈ l
  | [], x, hx => hx
  | a :: l, x, hx => by
    rw [sortS] at hx
    rcases insert_mem le a _ x hx with h | h
    · simp [h]
    · simp [sort_mem le l x h]

private def PlainSub (s : SSubtitle) : Prop := ∀ l ∈ s.lines, l.neg = false

private def PlainSt (st : List SSubtitle × Option SSubtitle) : Prop := (∀ s ∈ st.1, PlainSub s) ∧ ∀ s, st.2 = some s → PlainSub s

private theorem step_plain {st st' : List SSubtitle × Option SSubtitle} {i : SRaw} (hi : i.neg = false) (h : PlainSt st) (he : collectStepS st i = .ok st') : PlainSt st' := by
  have hnew : PlainSub (SSubtitle.ofRaw i) := by
    intro l hl
    rw [List.mem_singleton.1 hl]
    exact hi
  have hadd : ∀ cur : SSubtitle, PlainSub cur → PlainSub { cur with lines := cur.lines ++ [SLine.ofRaw i] } := by
    intro cur hcur l hl
    rcases List.mem_append.1 hl with hl | hl
    · exact hcur l hl
    · rw [List.mem_singleton.1 hl]; exact hi
  have one : ∀ s : SSubtitle, PlainSub s → PlainSt (st.1, some s) := fun s hs => ⟨h.1, fun s' e => by cases e; exact hs⟩
  unfold collectStepS at he
  split at he
  · cases he; exact one _ hnew
  · rename_i cur hc
    have hcur := h.2 cur hc
    obtain ⟨b, _, he⟩ := bind_eq_ok.1 he
    split at he
    · split at he
      · rename_i l hl
        split at he
        · cases he
          refine one _ fun l' hl' => ?_
          rcases List.mem_append.1 hl' with hl' | hl'
          · exact hcur l' (List.mem_of_mem_dropLast hl')
          · rw [List.mem_singleton.1 hl']; exact hcur l (List.mem_of_getLast? hl)
        · cases he; exact one _ (hadd cur hcur)
      · cases he; exact one _ (hadd cur hcur)
    · cases he
      refine ⟨fun s hs => ?_, fun s e => by cases e; exact hnew⟩
      rcases List.mem_append.1 hs with hs | hs
      · exact h.1 s hs
      · rw [List.mem_singleton.1 hs]; exact hcur

private theorem loopC_plain : ∀ (is : List SRaw) {st st' : List SSubtitle × Option SSubtitle}, (∀ i ∈ is, i.neg = false) → PlainSt st → collectLoopS st is = .ok st' → PlainSt st'
  | [], st, st', _, h, he => by cases he; exact h
  | i :: is, st, st', hi, h, he => by
    obtain ⟨st1, h1, h2⟩ := bind_eq_ok.1 he
    exact loopC_plain is (fun j hj => hi j (by simp [hj])) (step_plain (hi i (by simp)) h h1) h2

private theorem collect_plain {raws : List SRaw} {subs : List SSubtitle} (h : ∀ r ∈ raws, r.neg = false) (he : collectS raws = .ok subs) : ∀ s ∈ subs, PlainSub s := by
  obtain ⟨_, _, h2⟩ := bind_eq_ok.1 he
  obtain ⟨st, h3, h4⟩ := bind_eq_ok.1 h2
  cases h4
  have := loopC_plain _ (fun i hi => h i (sort_mem _ _ i hi)) ⟨by simp, by simp⟩ h3
  intro s hs
  unfold collectFinishS at hs
  split at hs
  · exact this.1 s hs
  · rename_i cur hc
    rcases List.mem_append.1 hs with hs | hs
    · exact this.1 s hs
    · rw [List.mem_singleton.1 hs]; exact this.2 cur hc

private theorem dump_plain : ∀ (subs : List SSubtitle) (n : Nat), (∀ s ∈ subs, PlainSub s) → dumpSubsS n subs = dumpSubsX n (subs.map SSubtitle.unsigned)
  | [], n, _ => rfl
  | s :: subs, n, h => by
    have hl : ∀ l ∈ s.lines, dumpLineS l = dumpLineX l.x := by
      intro l hl
      unfold dumpLineS dumpLineX
      rw [h s (by simp) l hl]
      have : dumpPosS l.x.vpos l.x.vprop false = dumpPosX l.x.vpos l.x.vprop := by
        unfold dumpPosS dumpPosX
        cases l.x.vprop with
        | none => rfl
        | some p =>
          cases p with
          | fin q =>
            simp only [showFloatS, showFloatX, Bool.false_eq_true, and_false, if_false]
            rfl
          | inf s => rfl
          | nan => rfl
      rw [this]
    have : s.unsigned.lines.map dumpLineX = s.lines.map dumpLineS := by
      show (s.lines.map SLine.x).map dumpLineX = _
      rw [List.map_map]
      exact List.map_congr_left fun l h => (hl l h).symm
    rw [List.map_cons, dumpSubsX, dumpSubsS, this, dump_plain subs (n + 1) fun s hs => h s (by simp [hs])]
    rfl

private theorem dumpS_iff (raws : List SRaw) : (∃ subs, collectS raws = .ok subs ∧ dumpS raws = .ok (dumpSubsS 0 subs) ∧ dumpX (raws.map SRaw.x) = .ok (dumpSubsX 0 (subs.map SSubtitle.unsigned))) ∨
    ∃ e, dumpS raws = .error e ∧ dumpX (raws.map SRaw.x) = .error e := by
  unfold dumpS dumpX
  rw [← collect_unsign]
  cases collectS raws with
  | error e => exact .inr ⟨e, rfl, rfl⟩
  | ok subs => exact .inl ⟨subs, rfl, rfl, rfl⟩

private def endS (s : Str) : Exit :=
  match srtReadS (linesOfFile s) with
  | .error e => .failed e []
  | .ok raws =>
    match dumpS raws with
    | .ok out => .done out
    | .error e => .failed e []

private def endX (s : Str) : Exit :=
  match srtReadX (linesOfFile s) with
  | .error e => .failed e []
  | .ok raws =>
    match dumpX raws with
    | .ok out => .done out
    | .error e => .failed e []

private theorem main_cases (fs : Str → Entry) (args : List Str) : dumpsubsS fs args = dumpsubsX fs args ∨ ∃ path s, fs path = .file s ∧ dumpsubsS fs args = endS s ∧ dumpsubsX fs args = endX s := by
  unfold dumpsubsS dumpsubsX
  rcases dumpsubsArgs args with _ | (_ | ⟨path, _ | ⟨q, ps⟩⟩)
  · exact .inl rfl
  · exact .inl rfl
  · by_cases h : toLower (extension path) = b!".srt"
    · simp only [if_pos h]
      cases hs : fs path with
      | file s => exact .inr ⟨path, s, hs, rfl, rfl⟩
      | _ => exact .inl rfl
    · simp only [if_neg h]
      exact .inl trivial
  · exact .inl rfl

/-! ### Theorems -/

/-- C150: a number keeps a minus sign if it has one: after blanks, and before what may follow it. -/
theorem C150_sign (v : Str) : floatSign v = true ↔ ∃ cs, SignedAfterBlanks v true cs ∧ NumberHere cs := sign_iff v

example : floatSign b!" -0.0)" = true ∧ floatSign b!"-NaN" = true ∧ floatSign b!"-.0" = true ∧ floatSign b!"-x" = false ∧ floatSign b!"-infi" = false ∧ floatSign b!"- 0" = false ∧
    floatSign b!"0" = false := by decide +kernel

/-- C150: the sign changes nothing else of what is read. -/
theorem C150_reading (lines : List Str) : (srtReadS lines).map (List.map SRaw.x) = srtReadX lines := lines_unsign lines 0 .counter [] ⟨{ raw := srtFresh }, false⟩ []

/-- C150: nor of what is collected. -/
theorem C150_collect (raws : List SRaw) : (collectS raws).map (List.map SSubtitle.unsigned) = collectX (raws.map SRaw.x) := collect_unsign raws

example : (srtReadS [b!"1", b!"00:00:01,000 --> 00:00:02,000", b!"{\\pos(0,-0)}a"]).toOption.map (fun rs => rs.map fun r => (r.neg, r.x.vprop)) = some [(true, some (.fin 0))] := by decide +kernel

/-- C150: the output of dumpsubs is the one without signs of zero and NaN but for these signs, and the failures are the same. -/
theorem C150_output (fs : Str → Entry) (args : List Str) :
    dumpsubsS fs args = dumpsubsX fs args ∨ ∃ o o', dumpsubsX fs args = .done o ∧ dumpsubsS fs args = .done o' ∧ WithSigns o o' := by
  rcases main_cases fs args with h | ⟨path, s, _, h1, h2⟩
  · exact .inl h
  · rw [h1, h2]
    unfold endS endX
    rw [← C150_reading]
    cases srtReadS (linesOfFile s) with
    | error e => exact .inl rfl
    | ok raws =>
      simp only [Except.map]
      rcases dumpS_iff raws with ⟨subs, _, h2, h3⟩ | ⟨e, h2, h3⟩
      · rw [h2, h3]
        exact .inr ⟨_, _, rfl, rfl, dumpSubs_signs subs 0⟩
      · rw [h2, h3]
        exact .inl rfl

/-- C150: there are no such signs if no line has both a tag and a minus sign. -/
theorem C150_no_minus (fs : Str → Entry) (args : List Str) (h : ∀ path s, fs path = .file s → ∀ l ∈ linesOfFile s, (92 : Byte) ∈ l → (45 : Byte) ∉ l) : dumpsubsS fs args = dumpsubsX fs args := by
  rcases main_cases fs args with h1 | ⟨path, s, hs, h1, h2⟩
  · exact h1
  · rw [h1, h2]
    unfold endS endX
    rw [← C150_reading]
    cases hr : srtReadS (linesOfFile s) with
    | error e => rfl
    | ok raws =>
      simp only [Except.map]
      have hp : ∀ r ∈ raws, r.neg = false := lines_plain _ (h path s hs) rfl (by simp) hr
      rcases dumpS_iff raws with ⟨subs, h1, h2, h3⟩ | ⟨e, h2, h3⟩
      · rw [h2, h3, dump_plain subs 0 (collect_plain hp h1)]
      · rw [h2, h3]

example : ∀ l ∈ linesOfFile b!"1\n00:00:01,000 --> 00:00:02,000\n{\\pos(0,0)}a\n- b\n", (92 : Byte) ∈ l → (45 : Byte) ∉ l := by decide +kernel

/-- C150: the signs are there: a subtitle at the place -0, and one at none. -/
theorem C150_witness :
    (match dumpsubsS (fun _ => .file b!"1\n00:00:01,000 --> 00:00:02,000\n{\\pos(0,-0)}a\n\n2\n00:00:03,000 --> 00:00:04,000\n{\\pos(0,-nan)}b\n") [b!"x.srt"] with | .done out => some out | _ => none) =
    some b!"Subtitle 0 at 00:00:01:0 @ 1000/1 -> 00:00:02:0 @ 1000/1\n\t-0 of screen from top\ta\nSubtitle 1 at 00:00:03:0 @ 1000/1 -> 00:00:04:0 @ 1000/1\n\t-nan of screen from top\tb\n" := by
  decide +kernel

/-- The first of the raw subtitles of a line decides: `==` does not see the sign of zero. -/
example :
    (match dumpsubsS (fun _ => .file b!"1\n00:00:01,000 --> 00:00:02,000\n{\\pos(0,0)}a<i>{\\pos(0,-0)}b</i>\n") [b!"x.srt"] with | .done out => some out | _ => none) =
    some b!"Subtitle 0 at 00:00:01:0 @ 1000/1 -> 00:00:02:0 @ 1000/1\n\t0 of screen from top\ta<i>b</i>\n" := by
  decide +kernel

end LibSub
