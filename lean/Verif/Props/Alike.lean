/-
Property C148: what may be changed in a SubRip or WebVTT file without changing what it means.
-/
import Verif.Props.SubRipExact

namespace LibSub

/-! ### Specification

All lines here are without their line ends and without a byte order mark. -/

/-- Two words that stand for the same time, or neither stands for a time. -/
def SameStamp (sep : Byte) (w w' : Str) : Prop := ∀ t, StampTime sep w t ↔ StampTime sep w' t

/-- Two lines with the same times: whatever stands between them and after them. -/
def LineSameTimes (sep : Byte) (m m' : Str) : Prop :=
  ((wordsOf m).length = 3 ∨ (wordsOf m).length = 7) ∧ ((wordsOf m').length = 3 ∨ (wordsOf m').length = 7) ∧
  SameStamp sep ((wordsOf m).getD 0 []) ((wordsOf m').getD 0 []) ∧ SameStamp sep ((wordsOf m).getD 2 []) ((wordsOf m').getD 2 [])

/-- Two lines of text with the same characters and tags, however the tags are written (`<b>`, `<B>` or `{b}`). -/
def SameLine (x x' : Str) : Prop :=
  x ≠ [] ∧ x' ≠ [] ∧ ∃ ps ps', LineParts x ps ∧ LineParts x' ps' ∧ List.Forall₂ (fun p p' => ∃ toks, SrtWritten p toks ∧ SrtWritten p' toks) ps ps'

/-- SubRip files that are alike: they differ in blank lines between cues, in the numbers of cues, in a number without a cue at the end, in the way times and tags are written, and in what
stands between and after the times. -/
inductive SrtAlike : List Str → List Str → Prop
  | refl (ls : List Str) : SrtAlike ls ls
  | symm {ls ms : List Str} : SrtAlike ls ms → SrtAlike ms ls
  | trans {ls ms ns : List Str} : SrtAlike ls ms → SrtAlike ms ns → SrtAlike ls ns
  | blank (ls : List Str) : SrtAlike ([] :: ls) ls
  | number (l : Str) : l ≠ [] → SrtAlike [l] []
  | cue (l l' m m' : Str) (text text' ls ls' : List Str) : l ≠ [] → l' ≠ [] → LineSameTimes 44 m m' → List.Forall₂ SameLine text text' → BlankNext ls → BlankNext ls' →
      SrtAlike ls ls' → SrtAlike (l :: m :: text ++ ls) (l' :: m' :: text' ++ ls')

/-- WebVTT files that are alike, after the first line: they differ in blank lines, cue identifiers and other lines that start nothing, in notes, in the way times are written, and in what
stands between and after the times. -/
inductive VttAlike : List Str → List Str → Prop
  | refl (ls : List Str) : VttAlike ls ls
  | symm {ls ms : List Str} : VttAlike ls ms → VttAlike ms ls
  | trans {ls ms ns : List Str} : VttAlike ls ms → VttAlike ms ns → VttAlike ls ns
  | other (l : Str) (ls : List Str) : ¬ b!"NOTE" <+: l → ¬ b!"-->" <:+: l → VttAlike (l :: ls) ls
  | note (l : Str) (ns ls : List Str) : b!"NOTE" <+: l → (∀ n ∈ ns, n ≠ []) → BlankNext ls → VttAlike (l :: ns ++ ls) ls
  | cue (l l' : Str) (text ls ls' : List Str) : ¬ b!"NOTE" <+: l → b!"-->" <:+: l → ¬ b!"NOTE" <+: l' → b!"-->" <:+: l' → LineSameTimes 46 l l' → (∀ x ∈ text, x ≠ []) → BlankNext ls → BlankNext ls' →
      VttAlike ls ls' → VttAlike (l :: text ++ ls) (l' :: text ++ ls')

/-! ### Proofs -/

private theorem cut_unique : ∀ {text text' ls ls' : List Str}, (∀ x ∈ text, x ≠ []) → (∀ x ∈ text', x ≠ []) → BlankNext ls → BlankNext ls' → text ++ ls = text' ++ ls' →
    text = text' ∧ ls = ls' := by
  intro text
  induction text with
  | nil =>
    intro text' ls ls' _ h' hb hb' e
    cases text' with
    | nil => exact ⟨rfl, e⟩
    | cons x text' =>
      exfalso
      rw [List.nil_append] at e
      subst e
      exact h' x (by simp) (hb x (by simp))
  | cons x text ih =>
    intro text' ls ls' h h' hb hb' e
    cases text' with
    | nil =>
      exfalso
      rw [List.nil_append] at e
      subst e
      exact h x (by simp) (hb' x (by simp))
    | cons y text' =>
      injection e with e1 e2
      obtain ⟨r1, r2⟩ := ih (fun x hx => h x (by simp [hx])) (fun x hx => h' x (by simp [hx])) hb hb' e2
      exact ⟨by rw [e1, r1], r2⟩

private theorem same_symm {sep : Byte} {m m' : Str} (h : LineSameTimes sep m m') : LineSameTimes sep m' m :=
  ⟨h.2.1, h.1, fun t => (h.2.2.1 t).symm, fun t => (h.2.2.2 t).symm⟩

private theorem line_symm {x x' : Str} (h : SameLine x x') : SameLine x' x := by
  obtain ⟨h1, h2, ps, ps', h3, h4, h5⟩ := h
  exact ⟨h2, h1, ps', ps, h4, h3, h5.flip.imp (fun _ _ ⟨toks, a, b⟩ => ⟨toks, b, a⟩)⟩

private theorem cue_alike {ps ps' : List Str} (h : List.Forall₂ (fun p p' => ∃ toks, SrtWritten p toks ∧ SrtWritten p' toks) ps ps') :
    ∀ {p : Raw} {r : List Raw}, CueMeans p ps r → CueMeans p ps' r := by
  induction h with
  | nil => exact fun h => h
  | cons h1 _ ih =>
    intro p r hc
    obtain ⟨toks, t1, t2⟩ := h1
    cases hc with
    | line _ q k _ _ toks' r r' g1 g2 g3 g4 g5 =>
      cases C116_written_unique _ _ _ g1 t1
      exact .line p q k _ _ _ r r' t2 g2 g3 g4 (ih g5)

private theorem parts_alike : ∀ {text text' : List Str}, List.Forall₂ SameLine text text' → ∀ tx : List (Str × List Str), tx.map (·.1) = text → (∀ x ∈ tx, x.1 ≠ [] ∧ LineParts x.1 x.2) →
    ∃ tx' : List (Str × List Str), tx'.map (·.1) = text' ∧ (∀ x ∈ tx', x.1 ≠ [] ∧ LineParts x.1 x.2) ∧
      List.Forall₂ (fun p p' => ∃ toks, SrtWritten p toks ∧ SrtWritten p' toks) (tx.flatMap (·.2)) (tx'.flatMap (·.2)) := by
  intro text text' h
  induction h with
  | nil => intro tx he _; cases List.map_eq_nil_iff.1 he; exact ⟨[], rfl, by simp, .nil⟩
  | @cons x x' text text' hx _ ih =>
    intro tx he ht
    cases tx with
    | nil => cases he
    | cons y tx =>
      rw [List.map_cons] at he
      injection he with e1 e2
      obtain ⟨tx', h1, h2, h3⟩ := ih tx e2 (fun z hz => ht z (by simp [hz]))
      obtain ⟨g1, g2, ps, ps', g3, g4, g5⟩ := hx
      refine ⟨(x', ps') :: tx', by rw [List.map_cons, h1], ?_, ?_⟩
      · intro z hz
        rcases List.mem_cons.1 hz with rfl | hz
        · exact ⟨g2, g4⟩
        · exact h2 z hz
      · have e : y.2 = ps := by
          have := (ht y (by simp)).2
          rw [e1] at this
          exact (lineParts_split this).symm.trans (lineParts_split g3)
        rw [List.flatMap_cons, List.flatMap_cons, e]
        exact List.rel_append g5 h3

private theorem cue_step {l l' m m' : Str} {text text' ls ls' : List Str} (hl : l ≠ []) (hl' : l' ≠ []) (hm : LineSameTimes 44 m m') (ht : List.Forall₂ SameLine text text') (hb : BlankNext ls)
    (hb' : BlankNext ls') (ih : ∀ r, SrtFile ls r → SrtFile ls' r) {r : List Raw} (h : SrtFile (l :: m :: text ++ ls) r) : SrtFile (l' :: m' :: text' ++ ls') r := by
  generalize e : l :: m :: text ++ ls = file at h
  cases h with
  | done => cases e
  | blank ls r h => injection e with e1 e2; exact absurd e1 hl
  | number k hk => cases e
  | cue k m2 f t tx ls2 r1 r2 h1 h2 h3 h4 h5 h6 h7 h8 =>
    injection e with e1 e
    injection e with e2 e
    subst e1 e2
    have htext : ∀ x ∈ text, x ≠ [] := by
      intro x hx
      clear e ih
      induction ht with
      | nil => simp at hx
      | cons g _ ih =>
        rcases List.mem_cons.1 hx with rfl | hx
        · exact g.1
        · exact ih hx
    obtain ⟨e3, rfl⟩ := cut_unique htext (fun x hx => by obtain ⟨y, hy, rfl⟩ := List.mem_map.1 hx; exact (h5 y hy).1) hb h7 e
    obtain ⟨tx', g1, g2, g3⟩ := parts_alike ht tx e3.symm h5
    rw [← g1]
    exact .cue l' m' f t tx' ls' r1 r2 hl' hm.2.1 ((hm.2.2.1 f).1 h3) ((hm.2.2.2 t).1 h4) g2 (cue_alike g3 h6) hb' (ih r2 h8)

private theorem srt_same {ls ms : List Str} (h : SrtAlike ls ms) : ∀ r, SrtFile ls r ↔ SrtFile ms r := by
  induction h with
  | refl => exact fun _ => Iff.rfl
  | symm _ ih => exact fun r => (ih r).symm
  | trans _ _ ih1 ih2 => exact fun r => (ih1 r).trans (ih2 r)
  | blank ls =>
    intro r
    constructor
    · intro h
      generalize e : [] :: ls = file at h
      cases h with
      | done => cases e
      | blank _ _ h => cases e; exact h
      | number l hl => cases e; exact absurd rfl hl
      | cue l m f t tx ls2 r1 r2 h1 => injection e with e1 e2; exact absurd e1.symm h1
    · exact .blank ls r
  | number l hl =>
    intro r
    constructor
    · intro h
      generalize e : [l] = file at h
      cases h with
      | done => cases e
      | blank _ _ h => cases e; exact absurd rfl hl
      | number l hl => exact .done
      | cue l m f t tx ls2 r1 r2 h1 => injection e with e1 e2; cases e2
    · intro h
      cases h
      exact .number l hl
  | cue l l' m m' text text' ls ls' hl hl' hm ht hb hb' _ ih =>
    intro r
    exact ⟨cue_step hl hl' hm ht hb hb' (fun r => (ih r).1),
      cue_step hl' hl (same_symm hm) (ht.flip.imp fun _ _ g => line_symm g) hb' hb (fun r => (ih r).2)⟩

private theorem vtt_cue_step {l l' : Str} {text ls ls' : List Str} (h1 : ¬ b!"NOTE" <+: l) (h2 : b!"-->" <:+: l) (h1' : ¬ b!"NOTE" <+: l') (h2' : b!"-->" <:+: l') (hm : LineSameTimes 46 l l')
    (ht : ∀ x ∈ text, x ≠ []) (hb : BlankNext ls) (hb' : BlankNext ls') (ih : ∀ r, VttBody ls r → VttBody ls' r) {r : List Raw} (h : VttBody (l :: text ++ ls) r) :
    VttBody (l' :: text ++ ls') r := by
  generalize e : l :: text ++ ls = file at h
  cases h with
  | done => cases e
  | other k ls r g1 g2 => injection e with e1 e2; subst e1; exact absurd h2 g2
  | note k ns ls r g1 => injection e with e1 e2; subst e1; exact absurd g1 h1
  | cue k f t tx ls2 r2 g1 g2 g3 g4 g5 g6 g7 g8 g9 =>
    injection e with e1 e
    subst e1
    obtain ⟨e3, rfl⟩ := cut_unique ht (fun x hx => by obtain ⟨y, hy, rfl⟩ := List.mem_map.1 hx; exact (g6 y hy).1) hb g8 e
    rw [e3]
    exact .cue l' f t tx ls' r2 h1' h2' hm.2.1 ((hm.2.2.1 f).1 g4) ((hm.2.2.2 t).1 g5) g6 g7 hb' (ih r2 g9)

private theorem vtt_same {ls ms : List Str} (h : VttAlike ls ms) : ∀ r, VttBody ls r ↔ VttBody ms r := by
  induction h with
  | refl => exact fun _ => Iff.rfl
  | symm _ ih => exact fun r => (ih r).symm
  | trans _ _ ih1 ih2 => exact fun r => (ih1 r).trans (ih2 r)
  | other l ls hn ha =>
    intro r
    constructor
    · intro h
      generalize e : l :: ls = file at h
      cases h with
      | done => cases e
      | other _ _ _ _ _ h => cases e; exact h
      | note k ns ls r g1 => injection e with e1 e2; subst e1; exact absurd g1 hn
      | cue k f t tx ls2 r2 g1 g2 => injection e with e1 e2; subst e1; exact absurd g2 ha
    · exact .other l ls r hn ha
  | note l ns ls hn hns hb =>
    intro r
    constructor
    · intro h
      generalize e : l :: ns ++ ls = file at h
      cases h with
      | done => cases e
      | other k _ _ g1 _ h => injection e with e1 e2; subst e1; exact absurd hn g1
      | note k ns' ls' r g1 g2 g3 g4 =>
        injection e with e1 e
        obtain ⟨_, rfl⟩ := cut_unique hns g2 hb g3 e
        exact g4
      | cue k f t tx ls2 r2 g1 g2 => injection e with e1 e2; subst e1; exact absurd hn g1
    · exact .note l ns ls r hn hns hb
  | cue l l' text ls ls' h1 h2 h1' h2' hm ht hb hb' _ ih =>
    intro r
    exact ⟨vtt_cue_step h1 h2 h1' h2' hm ht hb hb' (fun r => (ih r).1), vtt_cue_step h1' h2' h1 h2 (same_symm hm) ht hb' hb (fun r => (ih r).2)⟩

/-- Two words for the same time. -/
theorem sameStamp_of {sep : Byte} (hsep : sep ∉ b!":+-0123456789") {w w' : Str} {t : Time} (h : StampTime sep w t) (h' : StampTime sep w' t) : SameStamp sep w w' := by
  have uniq : ∀ {v : Str} {t u : Time}, StampTime sep v t → StampTime sep v u → t = u := by
    intro v t u h1 h2
    have e := stampTime_convert hsep h1
    rw [stampTime_convert hsep h2] at e
    cases e
    rfl
  exact fun u => ⟨fun g => uniq h g ▸ h', fun g => uniq h' g ▸ h⟩

/-! ### C148 -/

/-- C148: SubRip files that are alike are read alike. -/
theorem C148_subrip (lines lines' : List Str) (h : SrtAlike (lines.map cleanLine) (lines'.map cleanLine)) (subs : List Raw) : srtRead lines = .ok subs ↔ srtRead lines' = .ok subs := by
  rw [C116_exact, C116_exact]
  exact srt_same h subs

example : SrtAlike ([b!"1\r", b!"00:00:01,005 --> 00:00:02,000\r", b!"<B>a\r", b!"\r", b!"2\r"].map cleanLine)
    ([b!"", b!"x", b!"0:0:1,5 to 0:0:2,0 X1:0 X2:0 Y1:0 Y2:0", b!"{b}a"].map cleanLine) := by
  have e : [b!"1\r", b!"00:00:01,005 --> 00:00:02,000\r", b!"<B>a\r", b!"\r", b!"2\r"].map cleanLine = b!"1" :: b!"00:00:01,005 --> 00:00:02,000" :: [b!"<B>a"] ++ [[], b!"2"] := by
    decide +kernel
  have e' : [b!"", b!"x", b!"0:0:1,5 to 0:0:2,0 X1:0 X2:0 Y1:0 Y2:0", b!"{b}a"].map cleanLine = [] :: (b!"x" :: b!"0:0:1,5 to 0:0:2,0 X1:0 X2:0 Y1:0 Y2:0" :: [b!"{b}a"] ++ []) := by
    decide +kernel
  rw [e, e']
  have int : ∀ (x : Str) (v : Int), lexicalCastInt x = .ok v → IntText x v := fun x v h => (lexicalCastInt_iff x v).1 h
  refine .trans (.cue _ b!"x" _ b!"0:0:1,5 to 0:0:2,0 X1:0 X2:0 Y1:0 Y2:0" _ [b!"{b}a"] _ [] (by decide) (by decide) ⟨by decide +kernel, by decide +kernel, ?_, ?_⟩ (.cons ?_ .nil)
    (by simp [BlankNext]) (by simp [BlankNext]) (.trans (.blank _) (.number _ (by decide)))) (.symm (.blank _))
  · exact sameStamp_of (t := ⟨1, 5, some ⟨1000, 1⟩⟩) (by decide)
      ⟨0, 0, 1, 5, ⟨b!"00", b!"00", b!"01", b!"005", by decide +kernel, int _ _ (by decide +kernel), int _ _ (by decide +kernel), int _ _ (by decide +kernel), int _ _ (by decide +kernel)⟩,
        by unfold SecondsFit InInt; omega, rfl⟩
      ⟨0, 0, 1, 5, ⟨b!"0", b!"0", b!"1", b!"5", by decide +kernel, int _ _ (by decide +kernel), int _ _ (by decide +kernel), int _ _ (by decide +kernel), int _ _ (by decide +kernel)⟩,
        by unfold SecondsFit InInt; omega, rfl⟩
  · exact sameStamp_of (t := ⟨2, 0, some ⟨1000, 1⟩⟩) (by decide)
      ⟨0, 0, 2, 0, ⟨b!"00", b!"00", b!"02", b!"000", by decide +kernel, int _ _ (by decide +kernel), int _ _ (by decide +kernel), int _ _ (by decide +kernel), int _ _ (by decide +kernel)⟩,
        by unfold SecondsFit InInt; omega, rfl⟩
      ⟨0, 0, 2, 0, ⟨b!"0", b!"0", b!"2", b!"0", by decide +kernel, int _ _ (by decide +kernel), int _ _ (by decide +kernel), int _ _ (by decide +kernel), int _ _ (by decide +kernel)⟩,
        by unfold SecondsFit InInt; omega, rfl⟩
  · refine ⟨by decide, by decide, [b!"<B>a"], [b!"{b}a"], by unfold LineParts; decide, by unfold LineParts; decide, .cons ⟨[.bold true, .chr 97], ?_, ?_⟩ .nil⟩
    · exact .fixed _ b!"<b>" b!"<B>" b!"a" _ (by decide) (by unfold InAnyCase; decide) (written_cons 97 [] [] .done)
    · exact .fixed _ b!"{b}" b!"{b}" b!"a" _ (by decide) (by unfold InAnyCase; decide) (written_cons 97 [] [] .done)

/-- C148: WebVTT files that are alike are read alike. -/
theorem C148_webvtt (first first' : Str) (lines lines' : List Str) (h1 : b!"WEBVTT" <+: cleanLine first) (h2 : b!"WEBVTT" <+: cleanLine first')
    (h : VttAlike (lines.map cleanLine) (lines'.map cleanLine)) (subs : List Raw) : vttRead (first :: lines) = .ok subs ↔ vttRead (first' :: lines') = .ok subs := by
  rw [C115_exact, C115_exact, List.map_cons, List.map_cons]
  constructor
  · intro g
    generalize e : cleanLine first :: lines.map cleanLine = file at g
    cases g with
    | empty => cases e
    | lines f ls r g1 g2 => injection e with e1 e2; subst e2; exact .lines _ _ _ h2 ((vtt_same h subs).1 g2)
  · intro g
    generalize e : cleanLine first' :: lines'.map cleanLine = file at g
    cases g with
    | empty => cases e
    | lines f ls r g1 g2 => injection e with e1 e2; subst e2; exact .lines _ _ _ h1 ((vtt_same h subs).2 g2)

example : VttAlike ([b!"", b!"NOTE a", b!"b --> c", b!"", b!"id", b!"00:00:01.005 --> 00:00:02.000", b!"a"].map cleanLine)
    ([b!"0:0:1.5 -->! 00:00:02.000 a b c d", b!"a", b!""].map cleanLine) := by
  have e : [b!"", b!"NOTE a", b!"b --> c", b!"", b!"id", b!"00:00:01.005 --> 00:00:02.000", b!"a"].map cleanLine =
      [] :: (b!"NOTE a" :: [b!"b --> c"] ++ [] :: b!"id" :: (b!"00:00:01.005 --> 00:00:02.000" :: [b!"a"] ++ [])) := by decide +kernel
  have e' : [b!"0:0:1.5 -->! 00:00:02.000 a b c d", b!"a", b!""].map cleanLine = b!"0:0:1.5 -->! 00:00:02.000 a b c d" :: [b!"a"] ++ [[]] := by decide +kernel
  rw [e, e']
  have int : ∀ (x : Str) (v : Int), lexicalCastInt x = .ok v → IntText x v := fun x v h => (lexicalCastInt_iff x v).1 h
  refine .trans (.other _ _ (by decide) (by decide)) (.trans (.note _ _ _ (by decide) (by decide) (by simp [BlankNext])) (.trans (.other _ _ (by decide) (by decide))
    (.trans (.other _ _ (by decide) (by decide)) (.cue _ _ _ _ _ (by decide +kernel) (by decide +kernel) (by decide +kernel) (by decide +kernel)
      ⟨by decide +kernel, by decide +kernel, ?_, fun t => Iff.rfl⟩ (by decide) (by simp [BlankNext]) (by simp [BlankNext]) (.symm (.other _ _ (by decide) (by decide)))))))
  exact sameStamp_of (t := ⟨1, 5, some ⟨1000, 1⟩⟩) (by decide)
    ⟨0, 0, 1, 5, ⟨b!"00", b!"00", b!"01", b!"005", by decide +kernel, int _ _ (by decide +kernel), int _ _ (by decide +kernel), int _ _ (by decide +kernel), int _ _ (by decide +kernel)⟩,
      by unfold SecondsFit InInt; omega, rfl⟩
    ⟨0, 0, 1, 5, ⟨b!"0", b!"0", b!"1", b!"5", by decide +kernel, int _ _ (by decide +kernel), int _ _ (by decide +kernel), int _ _ (by decide +kernel), int _ _ (by decide +kernel)⟩,
      by unfold SecondsFit InInt; omega, rfl⟩

/-- C148: it is the blank line that ends a cue.  Without it the number and the times of the next cue are text of the first: a file that is not alike is read differently. -/
theorem C148_blank_witness : ((srtRead [b!"1", b!"0:0:1,0 --> 0:0:2,0", b!"a", b!"", b!"2", b!"0:0:3,0 --> 0:0:4,0", b!"b"]).map fun l => l.map (·.text)) = .ok [b!"a", b!"b"] ∧
    ((srtRead [b!"1", b!"0:0:1,0 --> 0:0:2,0", b!"a", b!"2", b!"0:0:3,0 --> 0:0:4,0", b!"b"]).map fun l => l.map (·.text)) = .ok [b!"a", b!"2", b!"0:0:3,0 --> 0:0:4,0", b!"b"] := by
  decide +kernel

end LibSub
