/-
Property C57: what is written to a binary STL file is what is read from it.
-/
import Verif.Lemmas.Utf8
import Verif.Props.StlReader

namespace LibSub

/-! ### Specification -/

/-- A character on the screen. -/
structure Seen where
  from_ : Time
  to_ : Time
  row : Option Int
  align : HRef
  colour : Colour
  italic : Bool
  underline : Bool
  char : WChar
  deriving DecidableEq

/-- The characters of a subtitle that was read. -/
def Raw.seen (x : Raw) : List Seen := (utf8Decode x.text).map (fun c => ⟨x.from_, x.to_, x.vpos.line, x.hpos.ref, x.colour, x.italic, x.underline, c⟩)

/-- What the format makes of positions and times: the row of each line, and the frame numbers at the rate of the
file. -/
structure Placed where
  vps : List Int
  ff : Int
  tf : Int

/-- The characters of a subtitle that is written, to a file of `w` frames per second: every one on its row, with the
flags of its block and the alignment of the first line.  Colours are lost. -/
def Subtitle.seen (w : Int) (s : Subtitle) (p : Placed) : List Seen :=
  (s.lines.zip p.vps).flatMap (fun j => j.1.blocks.flatMap (fun k => (utf8Decode k.text).map (fun c =>
    ⟨⟨s.from_.secs, p.ff, some ⟨w, 1⟩⟩, ⟨s.to_.secs, p.tf, some ⟨w, 1⟩⟩, some j.2, (s.lines.map (·.hpos.ref)).headD .left, ⟨1, 1, 1⟩, k.italic, k.underline, c⟩)))

/-- A subtitle the format can hold: lines one below the other on the screen, characters of the set, no more text than
one block takes (with the codes for rows and styles and the end), less than 256 hours. -/
structure Fits (fps : ℚ) (s : Subtitle) (p : Placed) : Prop where
  lines : s.lines ≠ []
  rows : writerVposes s.lines = .ok p.vps
  down : p.vps.Pairwise (· < ·)
  onScreen : ∀ v ∈ p.vps, 0 ≤ v ∧ v ≤ 23
  text : ∀ l ∈ s.lines, ∀ k ∈ l.blocks, ∀ c ∈ utf8Decode k.text, Representable c
  size : ∀ t, writerText (s.lines.zip p.vps) = .ok t → t.length ≤ 112
  frames : ∃ n, WriterRate fps n ∧ s.from_.framesAt ⟨n, 1000⟩ = .ok p.ff ∧ s.to_.framesAt ⟨n, 1000⟩ = .ok p.tf
  small : 0 ≤ p.ff ∧ p.ff < 256 ∧ 0 ≤ p.tf ∧ p.tf < 256
  hours : 0 ≤ s.from_.secs ∧ s.from_.secs < 921600 ∧ 0 ≤ s.to_.secs ∧ s.to_.secs < 921600

/-! ### Proofs: characters and bytes -/

/-- The bytes of a character. -/
def isoBytes (c : WChar) : Str := (isoEncodeCharSt isoMade c).toOption.getD []

attribute [local irreducible] isoMade

theorem isoBytes_spec {c : WChar} (h : Representable c) :
    (∃ b, isoBytes c = [b] ∧ b ≠ 0 ∧ ¬ Diacritic b ∧ mainChar b = c) ∨ (∃ d b, isoBytes c = [d, b] ∧ Diacritic d ∧ b ≠ 0 ∧ ¬ Diacritic b ∧ accented d b = some c) := by
  obtain ⟨o, h1, h2⟩ := isoUnit_cases h
  unfold isoBytes
  rw [h1]
  exact h2

theorem encode_isoBytes (w : List WChar) (h : ∀ c ∈ w, Representable c) : isoEncode w = .ok (w.flatMap isoBytes) := by
  induction w with
  | nil => rfl
  | cons c w ih =>
    obtain ⟨o, h1, _⟩ := isoUnit_cases (h c (by simp))
    rw [isoEncode_cons, h1, ok_bind, ih (fun c hc => h c (by simp [hc])), ok_bind, List.flatMap_cons]
    have : isoBytes c = o := by unfold isoBytes; rw [h1]; rfl
    rw [this]
    rfl

private theorem encoded_units (t : Str) (h : ∀ c ∈ utf8Decode t, Representable c) : encoded t = (utf8Decode t).flatMap isoBytes := by
  have := isoEncode_encoded t
  rw [encode_isoBytes _ h] at this
  exact (Except.ok.inj this).symm

/-- The bytes of characters, each with the pen of the character. -/
private def penBytes (u : List (Pen × WChar)) : List (Pen × Byte) := u.flatMap (fun x => (isoBytes x.2).map (fun b => (x.1, b)))

private theorem diacritic_zero : ¬ Diacritic 0 := by decide

private theorem run_units (n : Nat) : ∀ (p : Pen) (t : Str) (w : List WChar) (u : List (Pen × WChar)) (r : List (Pen × Byte)), t.length ≤ n →
    (∀ x ∈ u, Representable x.2) → (∀ a d, t = a ++ [d] → ¬ Diacritic d) → IsoText t w → t.map (fun b => (p, b)) ++ r = penBytes u →
    ∃ v, u = w.map (fun c => (p, c)) ++ v ∧ r = penBytes v := by
  induction n with
  | zero =>
    intro p t w u r hn _ _ ht h
    have : t = [] := List.length_eq_zero_iff.1 (by omega)
    subst this
    cases ht
    exact ⟨u, rfl, h⟩
  | succ n ih =>
    intro p t w u r hn hu hd ht h
    cases t with
    | nil => cases ht; exact ⟨u, rfl, h⟩
    | cons x t =>
      cases u with
      | nil => simp [penBytes] at h
      | cons y u =>
        obtain ⟨p0, c⟩ := y
        have hr := hu (p0, c) (by simp)
        have hu' : ∀ x ∈ u, Representable x.2 := fun x hx => hu x (by simp [hx])
        simp only [List.length_cons] at hn
        rcases isoBytes_spec hr with ⟨b, e, h1, h2, h3⟩ | ⟨d, b, e, h0, h1, h2, h3⟩
        · simp only [] at e
          have e2 : penBytes ((p0, c) :: u) = (p0, b) :: penBytes u := by
            unfold penBytes; rw [List.flatMap_cons]; simp only []; rw [e]; rfl
          rw [e2, List.map_cons, List.cons_append] at h
          obtain ⟨h4, h5⟩ := List.cons.inj h
          cases h4
          obtain ⟨w', rfl, hw'⟩ : ∃ w', w = mainChar x :: w' ∧ IsoText t w' := by
            cases ht with
            | nul => exact absurd rfl h1
            | char _ _ hw => exact ⟨_, rfl, hw⟩
            | accent hd0 => exact absurd hd0 h2
            | again hd0 => exact absurd hd0 h2
            | lone hd0 => exact absurd hd0 h2
            | loneNul _ hd0 => exact absurd hd0 h2
          obtain ⟨v, k1, k2⟩ := ih p t w' u r (by omega) hu' (fun a d he => hd (x :: a) d (by rw [he]; rfl)) hw' h5
          refine ⟨v, ?_, k2⟩
          rw [k1, h3]
          rfl
        · simp only [] at e
          have e2 : penBytes ((p0, c) :: u) = (p0, d) :: (p0, b) :: penBytes u := by
            unfold penBytes; rw [List.flatMap_cons]; simp only []; rw [e]; rfl
          rw [e2, List.map_cons, List.cons_append] at h
          obtain ⟨h4, h5⟩ := List.cons.inj h
          cases h4
          cases t with
          | nil => exact absurd h0 (hd [] x rfl)
          | cons y t =>
            rw [List.map_cons, List.cons_append] at h5
            obtain ⟨h6, h7⟩ := List.cons.inj h5
            cases h6
            obtain ⟨w', rfl, hw'⟩ : ∃ w', w = c :: w' ∧ IsoText t w' := by
              cases ht with
              | nul => exact absurd h0 diacritic_zero
              | char _ hnd _ => exact absurd h0 hnd
              | accent _ _ _ ha hw => rw [h3] at ha; cases ha; exact ⟨_, rfl, hw⟩
              | again _ hd0 => exact absurd hd0 h2
              | loneNul => exact absurd rfl h1
            simp only [List.length_cons] at hn
            obtain ⟨v, k1, k2⟩ := ih p t w' u r (by omega) hu' (fun a d' he => hd (x :: _ :: a) d' (by rw [he]; rfl)) hw' h7
            refine ⟨v, ?_, k2⟩
            rw [k1]
            rfl

private theorem runs_units {α : Type} (f : Pen × Str → List WChar → α → Prop) (runs : List (Pen × Str)) (new : List α) (h : List.Forall₂ (fun q x => ∃ w, IsoText q.2 w ∧ f q w x) runs new) :
    ∀ u : List (Pen × WChar), (∀ x ∈ u, Representable x.2) → (∀ q ∈ runs, ∀ a d, q.2 = a ++ [d] → ¬ Diacritic d) →
    runs.flatMap (fun q => q.2.map (fun b => (q.1, b))) = penBytes u →
    ∃ ws : List (List WChar), u = (runs.zip ws).flatMap (fun q => q.2.map (fun c => (q.1.1, c))) ∧ List.Forall₂ (fun q x => f q.1 q.2 x) (runs.zip ws) new := by
  induction h with
  | nil =>
    intro u hu _ h
    cases u with
    | nil => exact ⟨[], rfl, .nil⟩
    | cons y u =>
      exfalso
      rcases isoBytes_spec (hu y (by simp)) with ⟨b, e, _⟩ | ⟨d, b, e, _⟩ <;> simp [penBytes, e] at h
  | cons hx _ ih =>
    rename_i q x runs new _
    intro u hu hd h
    obtain ⟨w, hw, hf⟩ := hx
    rw [List.flatMap_cons] at h
    obtain ⟨v, k1, k2⟩ := run_units q.2.length q.1 q.2 w u _ (le_refl _) hu (hd q (by simp)) hw h
    obtain ⟨ws, i1, i2⟩ := ih v (fun x hx => hu x (by rw [k1]; simp [hx])) (fun q hq => hd q (by simp [hq])) k2
    refine ⟨w :: ws, ?_, .cons hf i2⟩
    rw [List.zip_cons_cons, List.flatMap_cons, ← i1, k1]

/-! ### Proofs: no accent hangs in the air -/

/-- Every diacritical byte is followed by one that is not a control code. -/
private def NoDangling (s : Str) : Prop := ∀ a d b, s = a ++ d :: b → Diacritic d → ∃ u b', b = u :: b' ∧ ¬ StlControl u

private theorem NoDangling.append {s t : Str} (hs : NoDangling s) (ht : NoDangling t) : NoDangling (s ++ t) := by
  intro a d b h hd
  rcases List.append_eq_append_iff.1 h with ⟨a', rfl, h2⟩ | ⟨c, rfl, h2⟩
  · exact ht a' d b h2 hd
  · cases c with
    | nil => exact ht [] d b h2.symm hd
    | cons d' c =>
      rw [List.cons_append] at h2
      obtain ⟨rfl, rfl⟩ := List.cons.inj h2
      obtain ⟨u, b', rfl, hu⟩ := hs a d c rfl hd
      exact ⟨u, b' ++ t, rfl, hu⟩

private theorem noDangling_of {s : Str} (h : ∀ c ∈ s, ¬ Diacritic c) : NoDangling s := by
  intro a d b e hd
  exact absurd hd (h d (by rw [e]; simp))

private theorem noDangling_unit {c : WChar} (h : Representable c) : NoDangling (isoBytes c) := by
  rcases isoBytes_spec h with ⟨b, e, _, h2, _⟩ | ⟨d, b, e, h0, h1, h2, _⟩
  · rw [e]; exact noDangling_of (by simpa using h2)
  · have hp : ¬ StlControl b := C51_fresh [c] (isoBytes c) (by rw [encode_isoBytes [c] (by simpa using h)]; simp) b (by rw [e]; simp)
    rw [e]
    intro a d' b' e' hd'
    rcases a with _ | ⟨x, _ | ⟨y, _ | _⟩⟩
    · cases e'; exact ⟨b, [], rfl, hp⟩
    · cases e'; exact absurd hd' h2
    · simp at e'
    · simp at e'

private theorem noDangling_units (w : List WChar) (h : ∀ c ∈ w, Representable c) : NoDangling (w.flatMap isoBytes) := by
  induction w with
  | nil => exact noDangling_of (by simp)
  | cons c w ih =>
    rw [List.flatMap_cons]
    exact (noDangling_unit (h c (by simp))).append (ih (fun c hc => h c (by simp [hc])))

private theorem noDangling_blocks (ks : List Block) (h : ∀ k ∈ ks, ∀ c ∈ utf8Decode k.text, Representable c) : ∀ st t st', writerBlocks st ks = .ok (t, st') → NoDangling t := by
  induction ks with
  | nil => intro st t st' e; cases e; exact noDangling_of (by simp)
  | cons k ks ih =>
    intro st t st' e
    rw [writerBlocks, encode_isoBytes _ (h k (by simp)), ok_bind] at e
    obtain ⟨⟨rest, st2⟩, h1, e⟩ := bind_eq_ok.mp e
    cases e
    refine ((noDangling_of ?_).append (noDangling_units _ (h k (by simp)))).append (ih (fun k hk => h k (by simp [hk])) _ _ _ h1)
    intro c hc
    unfold styleCodes at hc
    rcases List.mem_append.1 hc with hc | hc
    all_goals
      split at hc
      · simp only [List.mem_singleton] at hc; subst hc; decide
      · split at hc
        · simp only [List.mem_singleton] at hc; subst hc; decide
        · simp at hc

private theorem noDangling_lines (js : List (Line × Int)) (h : ∀ j ∈ js, ∀ k ∈ j.1.blocks, ∀ c ∈ utf8Decode k.text, Representable c) :
    ∀ st last t st', writerLines st last js = .ok (t, st') → NoDangling t := by
  induction js with
  | nil => intro st last t st' e; cases e; exact noDangling_of (by simp)
  | cons j js ih =>
    intro st last t st' e
    obtain ⟨j, vp⟩ := j
    rw [writerLines] at e
    obtain ⟨⟨t1, st1⟩, h1, e⟩ := bind_eq_ok.mp e
    obtain ⟨⟨t2, st2⟩, h2, e⟩ := bind_eq_ok.mp e
    cases e
    refine ((noDangling_of ?_).append (noDangling_blocks _ (h (j, vp) (by simp)) _ _ _ h1)).append (ih (fun j hj => h j (by simp [hj])) _ _ _ _ h2)
    intro c hc
    unfold writerBreaks at hc
    split at hc
    · rw [List.eq_of_mem_replicate hc]; decide
    · simp at hc

private theorem noDangling_text (js : List (Line × Int)) (h : ∀ j ∈ js, ∀ k ∈ j.1.blocks, ∀ c ∈ utf8Decode k.text, Representable c) (t : Str) (e : writerText js = .ok t) : NoDangling t := by
  unfold writerText at e
  obtain ⟨⟨t1, st1⟩, h1, e⟩ := bind_eq_ok.mp e
  cases e
  refine (((noDangling_lines js h _ _ _ _ h1).append (noDangling_of ?_)).append (noDangling_of ?_)).append (noDangling_of ?_)
  · intro c hc; split at hc
    · simp only [List.mem_singleton] at hc; subst hc; decide
    · simp at hc
  · intro c hc; split at hc
    · simp only [List.mem_singleton] at hc; subst hc; decide
    · simp at hc
  · intro c hc; simp only [List.mem_singleton] at hc; subst hc; decide

private theorem splitAny_context {p : Byte → Bool} (n : Nat) : ∀ (t x : Str), t.length ≤ n → x ∈ splitAny p t → ∃ a b, t = a ++ (x ++ b) ∧ (b = [] ∨ ∃ s b', b = s :: b' ∧ p s = true) := by
  induction n with
  | zero =>
    intro t x hn hx
    have : t = [] := List.length_eq_zero_iff.1 (by omega)
    subst this
    have : x = [] := by simpa [splitAny] using hx
    subst this
    exact ⟨[], [], rfl, .inl rfl⟩
  | succ n ih =>
    intro t x hn hx
    rcases splitAny_cases p t with ⟨e, _⟩ | ⟨a, s, b, e, _, hs, e2⟩
    · rw [e] at hx
      have : x = t := by simpa using hx
      subst this
      exact ⟨[], [], by simp, .inl rfl⟩
    · rw [e2] at hx
      rcases List.mem_cons.1 hx with rfl | hx
      · exact ⟨[], s :: b, e, .inr ⟨s, b, rfl, hs⟩⟩
      · have hl : t.length = a.length + (b.length + 1) := by rw [e]; simp
        obtain ⟨a', b', e3, h⟩ := ih b x (by omega) hx
        exact ⟨a ++ s :: a', b', by rw [e, e3]; simp, h⟩

private theorem style_control (c : Byte) (h : (decide (c ≤ 7) || (decide (0x80 ≤ c) && decide (c ≤ 0x83))) = true) : StlControl c :=
  forall_byte (p := fun c => (decide (c ≤ 7) || (decide (0x80 ≤ c) && decide (c ≤ 0x83))) = true → StlControl c) (by decide +kernel) c h

private theorem textRuns_end (T t : Str) (hT : NoDangling T) (ht : t ∈ textRuns T) : ∀ a d, t = a ++ [d] → ¬ Diacritic d := by
  intro a d e hd
  unfold textRuns at ht
  obtain ⟨l, hl, ht⟩ := List.mem_flatMap.1 ht
  obtain ⟨a1, b1, e1, h1⟩ := splitAny_context T.length T l (le_refl _) hl
  obtain ⟨a2, b2, e2, h2⟩ := splitAny_context _ _ t (le_refl _) ht
  have e3 : l = l.takeWhile (· != 0x8f) ++ l.dropWhile (· != 0x8f) := List.takeWhile_append_dropWhile.symm
  have h3 : l.dropWhile (· != 0x8f) = [] ∨ ∃ b', l.dropWhile (· != 0x8f) = 0x8f :: b' := by
    cases hd : l.dropWhile (· != 0x8f) with
    | nil => exact .inl rfl
    | cons y ys =>
      have := List.head?_dropWhile_not (fun x => x != (0x8f : Byte)) l
      rw [hd] at this
      simp at this
      exact .inr ⟨ys, by rw [this]⟩
  obtain ⟨dw, hdw⟩ : ∃ dw, dw = l.dropWhile (· != 0x8f) := ⟨_, rfl⟩
  rw [← hdw] at e3 h3
  have eT : T = (a1 ++ a2 ++ a) ++ d :: (b2 ++ dw ++ b1) := by
    rw [e1, e3, e2, e]
    simp
  obtain ⟨u, b', e4, hu⟩ := hT _ d _ eT hd
  apply hu
  rcases h2 with rfl | ⟨s, b2', rfl, hs⟩
  · rcases h3 with rfl | ⟨b3, rfl⟩
    · rcases h1 with rfl | ⟨s, b1', rfl, hs⟩
      · simp at e4
      · simp only [List.nil_append] at e4
        have : s = 0x8a := by simpa using hs
        cases e4
        rw [this]; decide
    · cases e4
      decide
  · cases e4
    exact style_control _ hs

/-! ### Proofs: one block -/

theorem tti_bytes (fps : ℚ) (s : Subtitle) (b : Str) (h : ttiBlocks fps s = .ok [b]) (vps : List Int) (hv : writerVposes s.lines = .ok vps) :
    ∃ text, writerText (s.lines.zip vps) = .ok text ∧ blockText b = text ++ List.replicate (112 - text.length) 0x8f ∧
      blockAlign (b.getD 14 0) = (s.lines.map (·.hpos.ref)).headD .left ∧ b.getD 15 0 = 0 ∧ ∃ top, writerTop none vps = some top ∧ b.getD 13 0 = lowByte top := by
  unfold ttiBlocks at h
  rw [hv, ok_bind] at h
  obtain ⟨text, ht, h⟩ := bind_eq_ok.mp h
  obtain ⟨cum, hcum, h⟩ := bind_eq_ok.mp h
  obtain ⟨rn, _, h⟩ := bind_eq_ok.mp h
  obtain ⟨ff, hff, h⟩ := bind_eq_ok.mp h
  obtain ⟨tf, htf, h⟩ := bind_eq_ok.mp h
  obtain ⟨top, htop, h⟩ := bind_eq_ok.mp h
  refine ⟨text, ht, ?_⟩
  have htop' : writerTop none vps = some top := by
    unfold optGet at htop
    split at htop
    · cases htop; assumption
    · cases htop
  cases hl : s.lines with
  | nil => rw [hl] at h; cases h
  | cons l ls =>
    rw [hl] at h
    obtain ⟨j, hj, h⟩ := bind_eq_ok.mp h
    obtain ⟨c, hc, h⟩ := bind_eq_ok.mp h
    have hc0 : c = 0 := by
      have : commentEnumToFile .no = .ok 0 := by decide
      rw [this] at hc; cases hc; rfl
    subst hc0
    have hj' : blockAlign (lowByte j) = l.hpos.ref := by
      have h1 : justificationEnumToFile (hrefJustification .left) = .ok 1 := by decide
      have h2 : justificationEnumToFile (hrefJustification .centre) = .ok 2 := by decide
      have h3 : justificationEnumToFile (hrefJustification .right) = .ok 3 := by decide
      cases hh : l.hpos.ref <;> rw [hh] at hj
      · rw [h1] at hj; cases hj; decide
      · rw [h2] at hj; cases hj; decide
      · rw [h3] at hj; cases hj; decide
    have h := Except.ok.inj h
    cases htl : text.length with
    | zero =>
      rw [htl] at h
      simp [writerChunks] at h
    | succ n =>
      rw [htl, writerChunks] at h
      have hne : ¬ (text.isEmpty = true) := by
        intro he
        rw [List.isEmpty_iff.1 he] at htl
        cases htl
      rw [if_neg hne] at h
      simp only [List.map_cons] at h
      obtain ⟨h1, h2⟩ := List.cons.inj h
      have h2 := List.map_eq_nil_iff.1 h2
      have hle : text.length ≤ 112 := by
        by_contra hgt
        have hd : (text.drop 112).isEmpty = false := by
          cases hd : text.drop 112 with
          | nil => have := List.drop_eq_nil_iff.1 hd; omega
          | cons _ _ => rfl
        cases n with
        | zero => omega
        | succ n =>
          rw [writerChunks, hd] at h2
          simp at h2
      subst h1
      rw [List.take_of_length_le hle]
      refine ⟨?_, hj', rfl, top, htop', rfl⟩
      unfold blockText
      rw [List.take_of_length_le]
      · rw [← htl]; rfl
      · show (text ++ List.replicate (112 - text.length) 0x8f).length ≤ 112
        rw [List.length_append, List.length_replicate]; omega

private theorem play_fill (n : Nat) (p : Pen) (e : Bool) : play p e (List.replicate n 0x8f) = [] := by
  induction n generalizing e with
  | zero => rfl
  | succ n ih =>
    rw [List.replicate_succ, play, if_neg (by decide), if_pos (by simp), ih]

private theorem writerTop_le (vs : List Int) : ∀ v, (v :: vs).Pairwise (· < ·) → writerTop (some v) vs = some v := by
  induction vs with
  | nil => intros; rfl
  | cons w vs ih =>
    intro v h
    have hlt := (List.pairwise_cons.1 h).1 w (by simp)
    rw [writerTop, if_neg (by omega)]
    exact ih v (List.pairwise_cons.2 ⟨fun x hx => (List.pairwise_cons.1 h).1 x (by simp [hx]), (List.pairwise_cons.1 (List.pairwise_cons.1 h).2).2⟩)

private theorem lowByte_small (v : Int) (h0 : 0 ≤ v) (h1 : v < 256) : ((lowByte v).toNat : Int) = v := by
  unfold lowByte
  rw [UInt8.toNat_ofNat']
  have : v.emod 256 = v := Int.emod_eq_of_lt h0 h1
  rw [this]
  omega

/-- The characters written, with their pens. -/
private def unitsOf (js : List (Line × Nat)) : List (Pen × WChar) :=
  js.flatMap (fun j => j.1.blocks.flatMap (fun k => (utf8Decode k.text).map (fun c => (({ row := j.2, italic := k.italic, underline := k.underline } : Pen), c))))

private theorem penBytes_append (u v : List (Pen × WChar)) : penBytes (u ++ v) = penBytes u ++ penBytes v := by
  unfold penBytes; rw [List.flatMap_append]

private theorem penBytes_flatMap {α : Type} (l : List α) (f : α → List (Pen × WChar)) : penBytes (l.flatMap f) = l.flatMap (fun x => penBytes (f x)) := by
  unfold penBytes; rw [List.flatMap_assoc]

private theorem written_units (js : List (Line × Nat)) (h : ∀ j ∈ js, ∀ k ∈ j.1.blocks, ∀ c ∈ utf8Decode k.text, Representable c) : written js = penBytes (unitsOf js) := by
  unfold written unitsOf
  rw [penBytes_flatMap]
  apply List.flatMap_congr
  intro j hj
  rw [penBytes_flatMap]
  apply List.flatMap_congr
  intro k hk
  rw [encoded_units _ (h j hj k hk)]
  unfold penBytes
  rw [List.flatMap_map, List.map_flatMap]

theorem vposes_length (ls : List Line) : ∀ vs, writerVposes ls = .ok vs → vs.length = ls.length := by
  induction ls with
  | nil => intro vs h; cases h; rfl
  | cons l ls ih =>
    intro vs h
    rw [writerVposes] at h
    obtain ⟨v, _, h⟩ := bind_eq_ok.mp h
    obtain ⟨vs', h2, h⟩ := bind_eq_ok.mp h
    cases h
    rw [List.length_cons, List.length_cons, ih vs' h2]

/-- The pieces of a block that fits, with their characters. -/
theorem tti_times (fps : ℚ) (s : Subtitle) (p : Placed) (hf : Fits fps s p) (w : Int) (b : Str) (hb : ttiBlocks fps s = .ok [b]) :
    blockTime b 5 w = ⟨s.from_.secs, p.ff, some ⟨w, 1⟩⟩ ∧ blockTime b 9 w = ⟨s.to_.secs, p.tf, some ⟨w, 1⟩⟩ := by
  obtain ⟨n, hn, hff, htf⟩ := hf.frames
  obtain ⟨h1, h2, h3, h4⟩ := hf.hours
  obtain ⟨s1, s2, s3, s4⟩ := hf.small
  obtain ⟨ff', tf', e1, e2, hby⟩ := C62_bytes fps s [b] hb n hn ⟨h1, h2⟩ ⟨h3, h4⟩
  rw [hff] at e1; cases e1
  rw [htf] at e2; cases e2
  obtain ⟨bh, bm, bs, bh', bm', bs', q1, q2, q3, q4, q5, q6, q7⟩ := hby b (by simp)
  have hg : ∀ i, i < 8 → b.getD (5 + i) 0 = [bh, bm, bs, lowByte p.ff, bh', bm', bs', lowByte p.tf].getD i 0 := by
    intro i hi
    rw [← q1]
    simp only [List.getD_eq_getElem?_getD]
    rw [List.getElem?_take_of_lt hi, List.getElem?_drop]
  have g0 := hg 0 (by decide)
  have g1 := hg 1 (by decide)
  have g2 := hg 2 (by decide)
  have g3 := hg 3 (by decide)
  have g4 := hg 4 (by decide)
  have g5 := hg 5 (by decide)
  have g6 := hg 6 (by decide)
  have g7 := hg 7 (by decide)
  simp only [Nat.reduceAdd] at g0 g1 g2 g3 g4 g5 g6 g7
  unfold blockTime
  simp only [Nat.reduceAdd]
  rw [g0, g1, g2, g3, g4, g5, g6, g7]
  simp only [List.getD_cons_zero, List.getD_cons_succ]
  rw [lowByte_small _ s1 s2, lowByte_small _ s3 s4, q2, q5]
  exact ⟨rfl, rfl⟩

theorem tti_row (fps : ℚ) (s : Subtitle) (p : Placed) (hf : Fits fps s p) (b : Str) (hb : ttiBlocks fps s = .ok [b]) (v : Int) (vs : List Int) (hvp : p.vps = v :: vs) :
    blockRow b = v := by
  obtain ⟨text, ht, hbt, hal, _, top, htop, hrow⟩ := tti_bytes fps s b hb p.vps hf.rows
  have hdown := hf.down
  rw [hvp] at hdown htop
  have hv0 := hf.onScreen v (by rw [hvp]; simp)
  rw [writerTop, writerTop_le vs v hdown] at htop
  have htop := Option.some.inj htop
  subst htop
  unfold blockRow
  rw [hrow]
  exact lowByte_small v hv0.1 (by omega)

private theorem block_seen (fps : ℚ) (s : Subtitle) (p : Placed) (hf : Fits fps s p) (w : Int) (b : Str) (hb : ttiBlocks fps s = .ok [b]) (new : List Raw)
    (hs : Shows w 23 0 b new) : new.flatMap Raw.seen = s.seen w p := by
  obtain ⟨text, ht, hbt, hal, _, top, htop, hrow⟩ := tti_bytes fps s b hb p.vps hf.rows
  obtain ⟨runs, r1, r2, r3, _⟩ := hs.runs
  have hlen := vposes_length _ _ hf.rows
  have hm1 : (s.lines.zip p.vps).map (·.1) = s.lines := List.map_fst_zip (by omega)
  have hm2 : (s.lines.zip p.vps).map (·.2) = p.vps := List.map_snd_zip (by omega)
  have hpl := (C59_shown _ _ ht).1
  rw [hm1, hm2] at hpl
  have hrep : ∀ j ∈ s.lines.zip (rowsOf p.vps), ∀ k ∈ j.1.blocks, ∀ c ∈ utf8Decode k.text, Representable c :=
    fun j hj => hf.text j.1 (List.of_mem_zip hj).1
  rw [written_units _ hrep] at hpl
  rw [hbt, play_append, hpl, play_fill, List.append_nil] at r2
  have hnd : NoDangling (blockText b) := by
    rw [hbt]
    refine (noDangling_text _ (fun j hj => hf.text j.1 (List.of_mem_zip hj).1) _ ht).append (noDangling_of ?_)
    intro c hc
    rw [List.eq_of_mem_replicate hc]
    decide
  have hend : ∀ q ∈ runs, ∀ a d, q.2 = a ++ [d] → ¬ Diacritic d := by
    intro q hq a d e
    refine textRuns_end _ q.2 hnd ?_ a d e
    have : q.2 ∈ (runs.map (·.2)).filter (fun t => !t.isEmpty) := List.mem_filter.2 ⟨List.mem_map.2 ⟨q, hq, rfl⟩, by rw [e]; simp⟩
    rw [r3] at this
    exact (List.mem_filter.1 this).1
  have hurep : ∀ x ∈ unitsOf (s.lines.zip (rowsOf p.vps)), Representable x.2 := by
    intro x hx
    unfold unitsOf at hx
    obtain ⟨j, hj, hx⟩ := List.mem_flatMap.1 hx
    obtain ⟨k, hk, hx⟩ := List.mem_flatMap.1 hx
    obtain ⟨c, hc, rfl⟩ := List.mem_map.1 hx
    exact hrep j hj k hk c hc
  obtain ⟨ws, u1, u2⟩ := runs_units (fun q wd x => x = blockRaw w 23 b 0 q.1 wd) runs new r1 _ hurep hend r2
  -- the view of what was read
  have hview : new.flatMap Raw.seen = (unitsOf (s.lines.zip (rowsOf p.vps))).map (fun x =>
      (⟨blockTime b 5 w, blockTime b 9 w, some (blockRow b + x.1.row - 0), blockAlign (b.getD 14 0), x.1.colour, x.1.italic, x.1.underline, x.2⟩ : Seen)) := by
    have hval : ∀ q ∈ runs.zip ws, ∀ c ∈ q.2, validCodePoint c = true := by
      intro q hq c hc
      have := (hurep (q.1.1, c) (by rw [u1]; exact List.mem_flatMap.2 ⟨q, hq, List.mem_map.2 ⟨c, hc, rfl⟩⟩)).valid
      simp only [] at this
      unfold validCodePoint
      simp only [Bool.and_eq_true, decide_eq_true_eq, Bool.not_eq_true', Bool.and_eq_false_imp, decide_eq_false_iff_not]
      exact ⟨by have := this.1; show c ≤ 1114111; exact le_trans this (by decide), fun h => fun h' => this.2 ⟨h, h'⟩⟩
    rw [u1]
    clear u1 r1 r2 r3 hend hs
    generalize runs.zip ws = zs at *
    induction u2 with
    | nil => rfl
    | cons hx _ ih =>
      rename_i z x zs new _
      rw [List.flatMap_cons, List.flatMap_cons, List.map_append, ih (fun q hq => hval q (by simp [hq])), hx]
      congr 1
      unfold Raw.seen blockRaw
      simp only []
      rw [utf8Decode_encode _ (hval z (by simp)), List.map_map]
      rfl
  rw [hview]
  -- the view of what was written
  have htimes := tti_times fps s p hf w b hb
  rw [htimes.1, htimes.2, hal]
  unfold Subtitle.seen unitsOf
  cases hvp : p.vps with
  | nil => simp [rowsOf]
  | cons v vs =>
    have hdown := hf.down
    rw [hvp] at hdown
    rw [tti_row fps s p hf b hb v vs hvp, (C60_rows_partial v vs hdown).1, List.zip_map_right, List.flatMap_map, List.map_flatMap]
    apply List.flatMap_congr
    intro j hj
    have hjv : v ≤ j.2 := by
      rcases List.mem_cons.1 (List.of_mem_zip hj).2 with h | h
      · omega
      · have := (List.pairwise_cons.1 hdown).1 _ h; omega
    rw [List.map_flatMap]
    apply List.flatMap_congr
    intro k hk
    rw [List.map_map]
    apply List.map_congr_left
    intro c hc
    simp only [Function.comp_apply, Prod.map, id]
    have : v + ((j.2 - v).toNat : Int) - 0 = j.2 := by omega
    rw [this]

/-! ### Proofs: rows -/

private theorem count_blocks (ks : List Block) : ∀ st t st', writerBlocks st ks = .ok (t, st') → t.count 0x8a = 0 := by
  induction ks with
  | nil => intro st t st' e; cases e; rfl
  | cons k ks ih =>
    intro st t st' e
    rw [writerBlocks, isoEncode_encoded, ok_bind] at e
    obtain ⟨⟨rest, st2⟩, h1, e⟩ := bind_eq_ok.mp e
    cases e
    rw [List.count_append, List.count_append, ih _ _ _ h1]
    have h2 : (encoded k.text).count 0x8a = 0 := List.count_eq_zero.2 (fun h => encoded_plain k.text _ h (by decide))
    have h3 : (styleCodes st k).count 0x8a = 0 := by
      unfold styleCodes
      rw [List.count_append]
      have : ∀ (p q : Bool) (x y : Byte), x ≠ 0x8a → y ≠ 0x8a → (if p then [x] else if q then [y] else ([] : Str)).count 0x8a = 0 := by
        intro p q x y hx hy
        cases p <;> cases q <;> simp [hx, hy]
      rw [this _ _ _ _ (by decide) (by decide), this _ _ _ _ (by decide) (by decide)]
    omega

private theorem count_lines (M : Int) (js : List (Line × Int)) : ∀ st u t st', writerLines st (some u) js = .ok (t, st') → (u :: js.map (·.2)).Pairwise (· < ·) →
    (∀ v ∈ u :: js.map (·.2), v ≤ M) → u + t.count 0x8a ≤ M := by
  induction js with
  | nil => intro st u t st' e _ h; cases e; simpa using h u (by simp)
  | cons j js ih =>
    intro st u t st' e hp h
    obtain ⟨j, vp⟩ := j
    rw [writerLines] at e
    obtain ⟨⟨t1, st1⟩, h1, e⟩ := bind_eq_ok.mp e
    obtain ⟨⟨t2, st2⟩, h2, e⟩ := bind_eq_ok.mp e
    cases e
    have hlt := (List.pairwise_cons.1 hp).1 vp (by simp)
    have := ih _ _ _ _ h2 (List.pairwise_cons.1 hp).2 (fun v hv => h v (List.mem_cons_of_mem _ hv))
    rw [List.count_append, List.count_append, count_blocks _ _ _ _ h1]
    have hb : (writerBreaks (some u) vp).count 0x8a = (vp - u).toNat := by unfold writerBreaks; exact List.count_replicate_self
    rw [hb]
    push_cast
    omega

private theorem count_text (M v : Int) (vs : List Int) (js : List (Line × Int)) (t : Str) (h : writerText js = .ok t) (hj : js.map (·.2) = v :: vs) (hp : (v :: vs).Pairwise (· < ·))
    (hM : ∀ x ∈ v :: vs, x ≤ M) : v + t.count 0x8a ≤ M := by
  unfold writerText at h
  obtain ⟨⟨t1, st1⟩, h1, h⟩ := bind_eq_ok.mp h
  cases h
  cases js with
  | nil => cases hj
  | cons j js =>
    obtain ⟨j, vp⟩ := j
    rw [List.map_cons] at hj
    obtain ⟨e1, e2⟩ := List.cons.inj hj
    simp only [] at e1
    subst e1
    rw [writerLines] at h1
    obtain ⟨⟨ta, sta⟩, h2, h1⟩ := bind_eq_ok.mp h1
    obtain ⟨⟨tb, stb⟩, h3, h1⟩ := bind_eq_ok.mp h1
    cases h1
    have := count_lines M js _ _ _ _ h3 (by rw [e2]; exact hp) (by rw [e2]; exact hM)
    have hx : ∀ (p : Bool) (x : Byte), x ≠ 0x8a → (if p then [x] else ([] : Str)).count 0x8a = 0 := by
      intro p x hx
      cases p <;> simp [hx]
    simp only [List.count_append, count_blocks _ _ _ _ h2, hx _ _ (by decide : (0x83 : Byte) ≠ 0x8a), hx _ _ (by decide : (0x81 : Byte) ≠ 0x8a), writerBreaks, List.count_nil]
    have : List.count (0x8a : Byte) [0x8f] = 0 := by decide
    rw [this]
    omega

private theorem block_last (fps : ℚ) (s : Subtitle) (p : Placed) (hf : Fits fps s p) (b : Str) (hb : ttiBlocks fps s = .ok [b]) : isComment b = false ∧ blockLast b ≤ 23 := by
  obtain ⟨text, ht, hbt, _, hcom, top, htop, hrow⟩ := tti_bytes fps s b hb p.vps hf.rows
  constructor
  · unfold isComment; rw [hcom]; rfl
  have hlen := vposes_length _ _ hf.rows
  have hm2 : (s.lines.zip p.vps).map (·.2) = p.vps := List.map_snd_zip (by omega)
  cases hvp : p.vps with
  | nil => rw [hvp] at htop; cases htop
  | cons v vs =>
    have hdown := hf.down
    have hon := hf.onScreen
    rw [hvp] at hdown htop hon
    rw [writerTop, writerTop_le vs v hdown] at htop
    have htop := Option.some.inj htop
    subst htop
    have hv0 := hon v (by simp)
    have := count_text 23 v vs _ _ ht (by rw [hm2, hvp]) hdown (fun x hx => (hon x hx).2)
    unfold blockLast blockRow
    rw [hrow, lowByte_small v hv0.1 (by omega), hbt, List.count_append, List.count_replicate]
    simpa using this

/-! ### Proofs: the rows that are written on -/

private theorem ink_lines (js : List (Line × Int)) : ∀ st u t st' x a c b, writerLines st (some u) js = .ok (t, st') → (u :: js.map (·.2)).Pairwise (· < ·) →
    (0x8a : Byte) ∉ x → t ++ x = a ++ c :: b → c ≠ 0x8a → u + a.count 0x8a ∈ u :: js.map (·.2) := by
  induction js with
  | nil =>
    intro st u t st' x a c b e _ hx h _
    cases e
    have : a.count 0x8a = 0 := List.count_eq_zero.2 (fun ha => hx (by rw [List.nil_append] at h; rw [h]; simp [ha]))
    simp [this]
  | cons j js ih =>
    intro st u t st' x a c b e hp hx h hc
    obtain ⟨j, vp⟩ := j
    rw [writerLines] at e
    obtain ⟨⟨t1, st1⟩, h1, e⟩ := bind_eq_ok.mp e
    obtain ⟨⟨t2, st2⟩, h2, e⟩ := bind_eq_ok.mp e
    cases e
    have hlt := (List.pairwise_cons.1 hp).1 vp (by simp)
    have hb : (writerBreaks (some u) vp).count 0x8a = (vp - u).toNat := by unfold writerBreaks; exact List.count_replicate_self
    have hm : ∀ y ∈ writerBreaks (some u) vp, y = 0x8a := fun y hy => List.eq_of_mem_replicate hy
    rw [List.append_assoc, List.append_assoc, List.append_eq_append_iff] at h
    have key : ∀ a', t1 ++ (t2 ++ x) = a' ++ c :: b → a.count 0x8a = (vp - u).toNat + a'.count 0x8a → u + a.count 0x8a ∈ u :: (((j, vp) :: js).map (·.2)) := by
      intro a' h' ha
      rw [List.append_eq_append_iff] at h'
      apply List.mem_cons_of_mem
      have hz := count_blocks _ _ _ _ h1
      rcases h' with ⟨a2, e1, e2⟩ | ⟨a2, e1, e2⟩
      · have := ih _ _ _ _ _ _ _ _ h2 (List.pairwise_cons.1 hp).2 hx e2 hc
        rw [e1, List.count_append, hz] at ha
        rw [ha]
        push_cast
        rw [show u + ((vp - u).toNat + (0 + (a2.count 0x8a : Int))) = vp + a2.count 0x8a by omega]
        exact this
      · have hz' : a'.count 0x8a = 0 := by
          rw [e1, List.count_append] at hz
          omega
        rw [ha, hz']
        push_cast
        rw [show u + ((vp - u).toNat + (0 : Int)) = vp by omega]
        simp
    rcases h with ⟨a', e1, e2⟩ | ⟨a', e1, e2⟩
    · exact key a' e2 (by rw [e1, List.count_append, hb])
    · cases a' with
      | nil =>
        refine key [] (by simpa using e2.symm) ?_
        rw [← hb, e1]
        simp
      | cons y ys =>
        rw [List.cons_append] at e2
        obtain ⟨rfl, _⟩ := List.cons.inj e2
        exact absurd (hm _ (by rw [e1]; simp)) hc

private theorem ink_text (v : Int) (vs : List Int) (js : List (Line × Int)) (t : Str) (n : Nat) (h : writerText js = .ok t) (hj : js.map (·.2) = v :: vs) (hp : (v :: vs).Pairwise (· < ·))
    (r : Nat) (hr : Inked (t ++ List.replicate n 0x8f) r) : v + r ∈ v :: vs := by
  obtain ⟨a, c, b, e, rfl, _, hc, _⟩ := hr
  unfold writerText at h
  obtain ⟨⟨t1, st1⟩, h1, h⟩ := bind_eq_ok.mp h
  cases h
  cases js with
  | nil => cases hj
  | cons j js =>
    obtain ⟨j, vp⟩ := j
    rw [List.map_cons] at hj
    obtain ⟨e1, e2⟩ := List.cons.inj hj
    simp only [] at e1
    subst e1
    rw [List.append_assoc, List.append_assoc, List.append_assoc] at e
    rw [writerLines] at h1
    obtain ⟨⟨ta, sta⟩, h2, h1⟩ := bind_eq_ok.mp h1
    obtain ⟨⟨tb, stb⟩, h3, h1⟩ := bind_eq_ok.mp h1
    cases h1
    have hx : ∀ x, (0x8a : Byte) ∉ x → ta ++ (tb ++ x) = a ++ c :: b → vp + a.count 0x8a ∈ vp :: vs := by
      intro x hx e
      have hz := count_blocks _ _ _ _ h2
      rw [List.append_eq_append_iff] at e
      rcases e with ⟨a2, e3, e4⟩ | ⟨a2, e3, e4⟩
      · have := ink_lines js _ _ _ _ _ _ _ _ h3 (by rw [e2]; exact hp) hx e4 hc
        rw [e3, List.count_append, hz, ← e2]
        simpa using this
      · have hz' : a.count 0x8a = 0 := by
          rw [e3, List.count_append] at hz
          omega
        rw [hz']
        simp
    refine hx ((if st1.underline then [0x83] else []) ++ ((if st1.italic then [0x81] else []) ++ ([0x8f] ++ List.replicate n 0x8f))) ?_ ?_
    · cases st1.underline <;> cases st1.italic <;> simp
    · rw [← e]
      simp [writerBreaks]

/-- The subtitles that are read for a subtitle that is written: its characters, in pieces that are in order of their rows, all on rows of its lines. -/
structure ReadAs (w : Int) (s : Subtitle) (p : Placed) (new : List Raw) : Prop where
  seen : new.flatMap Raw.seen = s.seen w p
  rows : ∃ vs : List Int, List.Forall₂ (fun (v : Int) (x : Raw) => x.from_ = ⟨s.from_.secs, p.ff, some ⟨w, 1⟩⟩ ∧ x.to_ = ⟨s.to_.secs, p.tf, some ⟨w, 1⟩⟩ ∧
    x.vpos = { line := some v, lines := some 23, ref := some .topOfScreen } ∧ x.hpos = { ref := (s.lines.map (·.hpos.ref)).headD .left } ∧ x.fadeUp = none ∧ x.fadeDown = none) vs new ∧
    vs.Pairwise (· ≤ ·) ∧ ∀ v ∈ vs, v ∈ p.vps

private theorem block_readAs (fps : ℚ) (s : Subtitle) (p : Placed) (hf : Fits fps s p) (w : Int) (b : Str) (hb : ttiBlocks fps s = .ok [b]) (new : List Raw)
    (hs : Shows w 23 0 b new) : ReadAs w s p new := by
  refine ⟨block_seen fps s p hf w b hb new hs, ?_⟩
  obtain ⟨text, ht, hbt, hal, _, _⟩ := tti_bytes fps s b hb p.vps hf.rows
  obtain ⟨runs, r1, _, _, _, r2, r3, _⟩ := hs.runs
  obtain ⟨t1, t2⟩ := tti_times fps s p hf w b hb
  have hlen := vposes_length _ _ hf.rows
  have hm2 : (s.lines.zip p.vps).map (·.2) = p.vps := List.map_snd_zip (by omega)
  cases hvp : p.vps with
  | nil =>
    rw [hvp] at hlen
    exact absurd (List.eq_nil_of_length_eq_zero hlen.symm) hf.lines
  | cons v vs =>
    have hrow := tti_row fps s p hf b hb v vs hvp
    have hdown := hf.down
    rw [hvp] at hdown hm2
    refine ⟨runs.map (fun q => v + (q.1.row : Int)), ?_, ?_, ?_⟩
    · rw [List.forall₂_map_left_iff]
      refine r1.imp ?_
      rintro q x ⟨wd, _, rfl⟩
      unfold blockRaw
      rw [t1, t2, hal, hrow]
      simp
    · rw [List.pairwise_map]
      exact r2.imp (fun h => by omega)
    · intro u hu
      obtain ⟨q, hq, rfl⟩ := List.mem_map.1 hu
      have := r3 q hq
      rw [hbt] at this
      exact ink_text v vs _ _ _ ht (by rw [hvp]; exact hm2) hdown _ this

/-! ### Proofs: the file -/

private theorem fits_one (fps : ℚ) (s : Subtitle) (p : Placed) (hf : Fits fps s p) : ∃ b, ttiBlocks fps s = .ok [b] := by
  obtain ⟨text, ht⟩ := writerText_ok (s.lines.zip p.vps)
  have hs := hf.size text ht
  obtain ⟨n, hn, hff, htf⟩ := hf.frames
  have hlen := vposes_length _ _ hf.rows
  unfold WriterRate at hn
  have hcum : cumulativeStatusEnumToFile .notCumulative = .ok 0 := by decide
  have hcom : commentEnumToFile .no = .ok 0 := by decide
  have hne : text ≠ [] := by
    unfold writerText at ht
    obtain ⟨_, _, ht⟩ := bind_eq_ok.mp ht
    cases ht
    simp
  cases hl : s.lines with
  | nil => exact absurd hl hf.lines
  | cons l ls =>
    cases hv : p.vps with
    | nil => rw [hl, hv] at hlen; cases hlen
    | cons v vs =>
      have htop : writerTop none (v :: vs) = some v := by
        rw [writerTop]; exact writerTop_le vs v (hv ▸ hf.down)
      obtain ⟨j, hj⟩ : ∃ j, justificationEnumToFile (hrefJustification l.hpos.ref) = .ok j := by
        cases l.hpos.ref
        · exact ⟨1, by decide⟩
        · exact ⟨2, by decide⟩
        · exact ⟨3, by decide⟩
      have hrows := hf.rows
      rw [hl] at hrows ht
      rw [hv] at hrows ht
      unfold ttiBlocks
      rw [hl, hrows, ok_bind, ht, ok_bind, hcum, ok_bind, hn, ok_bind]
      simp only []
      rw [hff, ok_bind, htf, ok_bind, htop]
      simp only [optGet, ok_bind]
      rw [hj, ok_bind, hcom, ok_bind]
      cases text with
      | nil => exact absurd rfl hne
      | cons c t =>
        have : writerChunks (c :: t).length 0 (c :: t) = [(0xff, (c :: t) ++ List.replicate (112 - (c :: t).length) 0x8f)] := by
          rw [List.length_cons, writerChunks]
          have e1 : (c :: t).take 112 = c :: t := List.take_of_length_le hs
          have e2 : (c :: t).drop 112 = [] := List.drop_eq_nil_of_le hs
          have e3 : ∀ m k, writerChunks m k [] = [] := by intro m k; cases m <;> rfl
          simp only [e1, e2, e3, List.isEmpty_cons, List.isEmpty_nil, if_true]
          rfl
        rw [this]
        exact ⟨_, rfl⟩

private theorem fits_blocks (fps : ℚ) (ss : List Subtitle) (ps : List Placed) (h : List.Forall₂ (Fits fps) ss ps) :
    ∃ bs, makeTtiBlocks fps ss = .ok bs ∧ List.Forall₂ (fun s b => ttiBlocks fps s = .ok [b]) ss bs := by
  induction h with
  | nil => exact ⟨[], rfl, .nil⟩
  | cons hf _ ih =>
    obtain ⟨b, hb⟩ := fits_one _ _ _ hf
    obtain ⟨bs, h1, h2⟩ := ih
    refine ⟨b :: bs, ?_, .cons hb h2⟩
    rw [makeTtiBlocks, hb, ok_bind, h1]
    rfl

private theorem range_flatten (bs : List Str) (h : ∀ b ∈ bs, b.length = 128) : (List.range bs.length).map (fun i => (bs.flatten.drop (128 * i)).take 128) = bs := by
  induction bs with
  | nil => rfl
  | cons b bs ih =>
    have hb := h b (by simp)
    rw [List.length_cons, List.range_succ_eq_map, List.map_cons, List.map_map]
    congr 1
    · simp [← hb]
    · refine Eq.trans (List.map_congr_left ?_) (ih (fun b hb => h b (by simp [hb])))
      intro i _
      simp only [Function.comp_apply, List.flatten_cons, Nat.succ_eq_add_one]
      have : 128 * (i + 1) = b.length + 128 * i := by rw [hb]; omega
      rw [this, ← List.drop_drop, List.drop_left]

private theorem noBad_text (t : Str) (h : ∀ c ∈ utf8Decode t, Representable c) : ∀ x ∈ encoded t, x ≠ 0xC9 ∧ x ≠ 0xCC := by
  rw [encoded_units t h]
  intro x hx
  obtain ⟨c, hc, hx⟩ := List.mem_flatMap.1 hx
  have a9 : ∀ u, accented 0xC9 u = none := fun u => forall_byte (p := fun u => accented 0xC9 u = none) (by decide +kernel) u
  have aC : ∀ u, accented 0xCC u = none := fun u => forall_byte (p := fun u => accented 0xCC u = none) (by decide +kernel) u
  rcases isoBytes_spec (h c hc) with ⟨b, e, _, h2, _⟩ | ⟨d, b, e, h0, h1, h2, h3⟩
  · rw [e] at hx
    have : x = b := by simpa using hx
    subst this
    constructor <;> rintro rfl <;> exact h2 (by decide)
  · rw [e] at hx
    simp only [List.mem_cons, List.not_mem_nil, or_false] at hx
    rcases hx with rfl | rfl
    · constructor
      · rintro rfl; rw [a9] at h3; cases h3
      · rintro rfl; rw [aC] at h3; cases h3
    · constructor <;> rintro rfl <;> exact h2 (by decide)

private def Plain (t : Str) : Prop := ∀ x ∈ t, x ≠ 0xC9 ∧ x ≠ 0xCC

private theorem Plain.append {s t : Str} (hs : Plain s) (ht : Plain t) : Plain (s ++ t) := by
  intro x hx
  rcases List.mem_append.1 hx with h | h
  · exact hs x h
  · exact ht x h

private theorem plain_ite {p : Bool} {s t : Str} (hs : Plain s) (ht : Plain t) : Plain (if p then s else t) := by
  cases p
  · exact ht
  · exact hs

private theorem plain_one {b : Byte} (h : b ≠ 0xC9 ∧ b ≠ 0xCC) : Plain [b] := by
  intro x hx
  have : x = b := by simpa using hx
  rw [this]; exact h

private theorem plain_nil : Plain [] := by intro x hx; cases hx

private theorem plain_blocks (ks : List Block) (h : ∀ k ∈ ks, ∀ c ∈ utf8Decode k.text, Representable c) : ∀ st t st', writerBlocks st ks = .ok (t, st') → Plain t := by
  induction ks with
  | nil => intro st t st' e; cases e; exact plain_nil
  | cons k ks ih =>
    intro st t st' e
    rw [writerBlocks, isoEncode_encoded, ok_bind] at e
    obtain ⟨⟨rest, st2⟩, h1, e⟩ := bind_eq_ok.mp e
    cases e
    have hk : Plain (encoded k.text) := noBad_text _ (h k (by simp))
    refine Plain.append (Plain.append ?_ hk) (ih (fun k hk => h k (by simp [hk])) _ _ _ h1)
    unfold styleCodes
    exact Plain.append (plain_ite (plain_one (by decide)) (plain_ite (plain_one (by decide)) plain_nil))
      (plain_ite (plain_one (by decide)) (plain_ite (plain_one (by decide)) plain_nil))

private theorem plain_breaks (last : Option Int) (v : Int) : Plain (writerBreaks last v) := by
  unfold writerBreaks
  split
  · intro x hx; rw [List.eq_of_mem_replicate hx]; decide
  · exact plain_nil

private theorem plain_lines (js : List (Line × Int)) (h : ∀ j ∈ js, ∀ k ∈ j.1.blocks, ∀ c ∈ utf8Decode k.text, Representable c) :
    ∀ st u t st', writerLines st u js = .ok (t, st') → Plain t := by
  induction js with
  | nil => intro st u t st' e; cases e; exact plain_nil
  | cons j js ih =>
    intro st u t st' e
    obtain ⟨j, vp⟩ := j
    rw [writerLines] at e
    obtain ⟨⟨t1, st1⟩, h1, e⟩ := bind_eq_ok.mp e
    obtain ⟨⟨t2, st2⟩, h2, e⟩ := bind_eq_ok.mp e
    cases e
    exact Plain.append (Plain.append (plain_breaks _ _) (plain_blocks _ (h (j, vp) (by simp)) _ _ _ h1)) (ih (fun j hj => h j (by simp [hj])) _ _ _ _ h2)

private theorem plain_text (js : List (Line × Int)) (h : ∀ j ∈ js, ∀ k ∈ j.1.blocks, ∀ c ∈ utf8Decode k.text, Representable c) (t : Str) (e : writerText js = .ok t) :
    Plain t := by
  unfold writerText at e
  obtain ⟨⟨t1, st1⟩, h1, e⟩ := bind_eq_ok.mp e
  cases e
  have := plain_lines js h _ _ _ _ h1
  exact Plain.append (Plain.append (Plain.append this (plain_ite (plain_one (by decide)) plain_nil)) (plain_ite (plain_one (by decide)) plain_nil)) (plain_one (by decide))

private theorem block_sound (fps : ℚ) (s : Subtitle) (p : Placed) (hf : Fits fps s p) (b : Str) (hb : ttiBlocks fps s = .ok [b]) : b.getD 15 0 = 0 ∧ ¬ BadBlock b := by
  obtain ⟨text, ht, hbt, _, hcom, _⟩ := tti_bytes fps s b hb p.vps hf.rows
  refine ⟨hcom, C63_harmless b ?_⟩
  rw [hbt]
  refine Plain.append (plain_text _ ?_ _ ht) ?_
  · intro j hj
    exact hf.text j.1 (List.of_mem_zip hj).1
  · intro x hx; rw [List.eq_of_mem_replicate hx]; decide

private theorem foldl_max_le (M : Int) (f : Str → Int) (bs : List Str) (h : ∀ b ∈ bs, f b ≤ M) : ∀ a, a ≤ M → bs.foldl (fun h b => max h (f b)) a ≤ M := by
  induction bs with
  | nil => intro a ha; exact ha
  | cons b bs ih =>
    intro a ha
    rw [List.foldl_cons]
    exact ih (fun b hb => h b (by simp [hb])) _ (max_le ha (h b (by simp)))

/-- The pieces of a written file, as the reader cuts it. -/
private theorem file_cut (l : Locale) (hl : SaneLocale l) (ht : l.thousandsSep.head? ≠ some 45) (a : StlArgs) (blocks : List Str) (out : Str)
    (hb : makeTtiBlocks a.fps a.subtitles = .ok blocks) (hc : a.Counts blocks) (ho : writeStlIn l a = .ok out) (h1 : blocks.length < 100000) :
    out.length = 1024 + 128 * blocks.length ∧ HeaderOk out ∧ announced out = blocks.length ∧ (List.range blocks.length).map (ttiBlock out) = blocks ∧
    atoi ((out.drop 253).take 2) = 23 ∧ (out.drop 3).take 8 = stlFrameRateToDfc a.fps := by
  obtain ⟨hlen, hf, _, hd⟩ := C55_fields l hl ht a blocks out hb hc ho
  have f2 := hf (3, 8, stlFrameRateToDfc a.fps) (by simp [gsiSpec])
  have f3 := hf (11, 1, b!"0") (by simp [gsiSpec])
  have f4 := hf (12, 2, b!"00") (by simp [gsiSpec])
  have f5 := hf (14, 2, hex2 (languageNumber a.language)) (by simp [gsiSpec])
  have f6 := hf (238, 5, numberField 5 blocks.length) (by simp [gsiSpec])
  have f7 := hf (253, 2, b!"23") (by simp [gsiSpec])
  have f8 := hf (255, 1, b!"1") (by simp [gsiSpec])
  simp only [] at f2 f3 f4 f5 f6 f7 f8
  refine ⟨hlen, ⟨?_, by rw [f3]; decide, by rw [f4]; decide, ⟨_, f5⟩, by rw [f8]; decide⟩, ?_, ?_, by rw [f7]; decide, f2⟩
  · rw [f2]
    unfold stlFrameRateToDfc
    repeat' split
    all_goals decide
  · unfold announced
    rw [f6, C56_number 5 _ (by decide) (by omega)]
    exact Int.toNat_natCast _
  · have := range_flatten blocks (makeTtiBlocks_length _ _ _ hb)
    rw [← hd] at this
    refine Eq.trans (List.map_congr_left ?_) this
    intro i _
    unfold ttiBlock
    rw [List.drop_drop]

private theorem forall₂_readAs (fps : ℚ) (w : Int) {ss : List Subtitle} {ps : List Placed} (h : List.Forall₂ (Fits fps) ss ps) : ∀ {bs : List Str} {parts : List (List Raw)},
    List.Forall₂ (fun s b => ttiBlocks fps s = .ok [b]) ss bs → List.Forall₂ (Shows w 23 0) bs parts →
    List.Forall₂ (fun x part => ReadAs w x.1 x.2 part) (ss.zip ps) parts := by
  induction h with
  | nil => intro bs parts h1 h2; cases h1; cases h2; exact .nil
  | cons hf _ ih =>
    intro bs parts h1 h2
    cases h1 with
    | cons hb h1 =>
      cases h2 with
      | cons hs h2 => exact .cons (block_readAs _ _ _ hf _ _ hb _ hs) (ih h1 h2)

private theorem readAs_seen (w : Int) {xs : List (Subtitle × Placed)} {parts : List (List Raw)} (h : List.Forall₂ (fun x part => ReadAs w x.1 x.2 part) xs parts) :
    parts.flatten.flatMap Raw.seen = xs.flatMap (fun x => x.1.seen w x.2) := by
  induction h with
  | nil => rfl
  | cons hx _ ih => rw [List.flatten_cons, List.flatMap_append, ih, hx.seen, List.flatMap_cons]

private theorem forall₂_mem {ss : List Subtitle} {ps : List Placed} {bs : List Str} {fps : ℚ} (h : List.Forall₂ (Fits fps) ss ps) (h1 : List.Forall₂ (fun s b => ttiBlocks fps s = .ok [b]) ss bs) :
    ∀ b ∈ bs, ∃ s p, Fits fps s p ∧ ttiBlocks fps s = .ok [b] := by
  induction h generalizing bs with
  | nil => cases h1; intro b hb; cases hb
  | cons hf _ ih =>
    cases h1 with
    | cons hb h1 =>
      intro b hb'
      rcases List.mem_cons.1 hb' with rfl | h
      · exact ⟨_, _, hf, hb⟩
      · exact ih h1 b h

/-! ### C57 -/

/-- Subtitles that the format can hold: one block for each, and what is read from the blocks. -/
theorem stl_written (l : Locale) (hl : SaneLocale l) (ht : l.thousandsSep.head? ≠ some 45) (a : StlArgs) (hv : a.Valid) (hr : InInt a.revisionNumber)
    (hlong : InInt (stlLongest a.subtitles)) (hn : a.subtitles.length < 100000) (ps : List Placed) (hfit : List.Forall₂ (Fits a.fps) a.subtitles ps) :
    ∃ bs out info parts, makeTtiBlocks a.fps a.subtitles = .ok bs ∧ List.Forall₂ (fun s b => ttiBlocks a.fps s = .ok [b]) a.subtitles bs ∧ writeStlIn l a = .ok out ∧
      stlRead out = .ok (info, List.flatten parts) ∧ (stlFrameRateToDfc a.fps, info.frameRate) ∈ dfcWhole ∧ List.Forall₂ (Shows info.frameRate 23 0) bs parts := by
  obtain ⟨bs, hb, hbs⟩ := fits_blocks _ _ _ hfit
  have hlen := hbs.length_eq
  have hc : a.Counts bs := ⟨hr, by unfold InInt; omega, by unfold InInt; omega, hlong⟩
  have ho := (C55_layout l hl ht a bs hv hb hc).1
  generalize hout : ((gsiSpec a bs.length).map (·.2.2)).flatten ++ List.replicate 651 0 ++ bs.flatten = out at ho
  obtain ⟨c1, c2, c3, c4, c5, c6⟩ := file_cut l hl ht a bs out hb hc ho (by omega)
  have hmem := forall₂_mem hfit hbs
  have hblk : ∀ i < announced out, ttiBlock out i ∈ bs := by
    intro i hi
    rw [c3] at hi
    rw [← c4]
    exact List.mem_map.2 ⟨i, List.mem_range.2 hi, rfl⟩
  have hgood : ∀ i < announced out, (ttiBlock out i).getD 15 0 = 0 ∧ ¬ BadBlock (ttiBlock out i) := by
    intro i hi
    obtain ⟨s, p, hf, hsb⟩ := hmem _ (hblk i hi)
    exact block_sound _ _ _ hf _ hsb
  obtain ⟨⟨info, subs⟩, hread⟩ := (C63_reads out).2 ⟨⟨by omega, c2, by omega, fun i hi => .inl (hgood i hi).1⟩, fun i hi => (hgood i hi).2⟩
  obtain ⟨_, hp, _⟩ := read_steps hread
  obtain ⟨p1, _, p3⟩ := parseGsi_ok hp
  rw [c5] at p3
  have hrows : info.maximumRows = 23 := by rw [p3]; decide
  rw [c6] at p1
  obtain ⟨parts, q1, rfl⟩ := C66_file out info subs hread
  refine ⟨bs, out, info, parts, hb, hbs, ho, hread, p1, ?_⟩
  have hshown : shownBlocks out = bs := by
    unfold shownBlocks
    rw [c3, c4, List.filter_eq_self]
    intro b hb
    obtain ⟨s, p, hf, hsb⟩ := hmem b hb
    rw [(block_last _ _ _ hf _ hsb).1]
    rfl
  have hlast : lastRow out ≤ 23 := by
    unfold lastRow
    rw [hshown]
    apply foldl_max_le
    · intro b hb
      obtain ⟨s, p, hf, hsb⟩ := hmem b hb
      exact (block_last _ _ _ hf _ hsb).2
    · omega
  rw [hrows, hshown, max_eq_left (by omega)] at q1
  exact q1

/-- The pieces in which subtitles that the format can hold are read again. -/
theorem stl_parts (l : Locale) (hl : SaneLocale l) (ht : l.thousandsSep.head? ≠ some 45) (a : StlArgs) (hv : a.Valid) (hr : InInt a.revisionNumber)
    (hlong : InInt (stlLongest a.subtitles)) (hn : a.subtitles.length < 100000) (ps : List Placed) (hfit : List.Forall₂ (Fits a.fps) a.subtitles ps) :
    ∃ out info parts, writeStlIn l a = .ok out ∧ stlRead out = .ok (info, List.flatten parts) ∧ (stlFrameRateToDfc a.fps, info.frameRate) ∈ dfcWhole ∧
      List.Forall₂ (fun x part => ReadAs info.frameRate x.1 x.2 part) (a.subtitles.zip ps) parts := by
  obtain ⟨bs, out, info, parts, _, hbs, ho, hread, p1, q1⟩ := stl_written l hl ht a hv hr hlong hn ps hfit
  exact ⟨out, info, parts, ho, hread, p1, forall₂_readAs _ _ hfit hbs q1⟩

/-- C57: any list of subtitles that the format can hold can be written, in any locale, and read again, and what is
then on the screen, character by character, is what was written. -/
theorem C57_characters (l : Locale) (hl : SaneLocale l) (ht : l.thousandsSep.head? ≠ some 45) (a : StlArgs) (hv : a.Valid) (hr : InInt a.revisionNumber)
    (hlong : InInt (stlLongest a.subtitles)) (hn : a.subtitles.length < 100000) (ps : List Placed) (hfit : List.Forall₂ (Fits a.fps) a.subtitles ps) :
    ∃ out info subs, writeStlIn l a = .ok out ∧ stlRead out = .ok (info, subs) ∧ (stlFrameRateToDfc a.fps, info.frameRate) ∈ dfcWhole ∧
      subs.flatMap Raw.seen = (a.subtitles.zip ps).flatMap (fun x => x.1.seen info.frameRate x.2) := by
  obtain ⟨out, info, parts, h1, h2, h3, h4⟩ := stl_parts l hl ht a hv hr hlong hn ps hfit
  exact ⟨out, info, _, h1, h2, h3, readAs_seen _ h4⟩

/-- The characters of a subtitle, on the given rows. -/
def Subtitle.shown (s : Subtitle) (vps : List Int) : List Seen :=
  (s.lines.zip vps).flatMap (fun j => j.1.blocks.flatMap (fun k => (utf8Decode k.text).map (fun c =>
    ⟨s.from_, s.to_, some j.2, (s.lines.map (·.hpos.ref)).headD .left, ⟨1, 1, 1⟩, k.italic, k.underline, c⟩)))

/-- A time counted in frames of a `w`th of a second. -/
structure OwnTime (w : Int) (t : Time) : Prop where
  rate : t.rate = some ⟨w, 1⟩
  frames : 0 ≤ t.frames ∧ t.frames < w
  secs : 0 ≤ t.secs ∧ t.secs < 921600

/-- A subtitle a file of `w` frames per second can hold, its lines being on the rows `vps`. -/
structure Holds (w : Int) (s : Subtitle) (vps : List Int) : Prop where
  lines : s.lines ≠ []
  rows : writerVposes s.lines = .ok vps
  down : vps.Pairwise (· < ·)
  onScreen : ∀ v ∈ vps, 0 ≤ v ∧ v ≤ 23
  text : ∀ l ∈ s.lines, ∀ k ∈ l.blocks, ∀ c ∈ utf8Decode k.text, Representable c
  size : ∀ t, writerText (s.lines.zip vps) = .ok t → t.length ≤ 112
  from_ : OwnTime w s.from_
  to_ : OwnTime w s.to_

/-- A subtitle with times in frames of the file. -/
theorem Holds.fits {w : Int} (hw1 : 1 ≤ w) (hw2 : w ≤ 255) {s : Subtitle} {vps : List Int} (h : Holds w s vps) : Fits (w : ℚ) s ⟨vps, s.from_.frames, s.to_.frames⟩ := by
  refine ⟨h.lines, h.rows, h.down, h.onScreen, h.text, h.size, ⟨w * 1000, ?_, ?_, ?_⟩, ?_, ?_⟩
  · exact writerRate_int w hw1 hw2
  · exact (C62_own_rate_partial _ w hw1 hw2 h.from_.rate h.from_.frames.1 h.from_.frames.2).1
  · exact (C62_own_rate_partial _ w hw1 hw2 h.to_.rate h.to_.frames.1 h.to_.frames.2).1
  · have := h.from_.frames
    have := h.to_.frames
    refine ⟨?_, ?_, ?_, ?_⟩ <;> simp only [] <;> omega
  · exact ⟨h.from_.secs.1, h.from_.secs.2, h.to_.secs.1, h.to_.secs.2⟩

theorem holds_fits {w : Int} (hw1 : 1 ≤ w) (hw2 : w ≤ 255) {ss : List Subtitle} {vs : List (List Int)} (hfit : List.Forall₂ (Holds w) ss vs) :
    List.Forall₂ (Fits (w : ℚ)) ss ((ss.zip vs).map (fun x => ⟨x.2, x.1.from_.frames, x.1.to_.frames⟩)) := by
  induction hfit with
  | nil => exact .nil
  | cons h _ ih => exact .cons (h.fits hw1 hw2) ih

theorem dfc_own (w v : Int) (hw : w = 24 ∨ w = 25 ∨ w = 30) (h : (stlFrameRateToDfc (w : ℚ), v) ∈ dfcWhole) : v = w := by
  have hd : ((stlFrameRateToDfc (w : ℚ), w) ∈ dfcWhole) ∧ ∀ v, (stlFrameRateToDfc (w : ℚ), v) ∈ dfcWhole → v = w := by
    rcases hw with rfl | rfl | rfl
    · have : stlFrameRateToDfc ((24 : Int) : ℚ) = b!"STL24.01" := by decide +kernel
      rw [this]; simp [dfcWhole]
    · have : stlFrameRateToDfc ((25 : Int) : ℚ) = b!"STL25.01" := by decide +kernel
      rw [this]; simp [dfcWhole]
    · have : stlFrameRateToDfc ((30 : Int) : ℚ) = b!"STL30.01" := by decide +kernel
      rw [this]; simp [dfcWhole]
  exact hd.2 _ h

/-- `stl_written` for times in frames of the file (24, 25 or 30 a second). -/
theorem stl_written_own (l : Locale) (hl : SaneLocale l) (ht : l.thousandsSep.head? ≠ some 45) (a : StlArgs) (hv : a.Valid) (hr : InInt a.revisionNumber)
    (hlong : InInt (stlLongest a.subtitles)) (hn : a.subtitles.length < 100000) (w : Int) (hw : w = 24 ∨ w = 25 ∨ w = 30) (hfps : a.fps = w) (vs : List (List Int))
    (hfit : List.Forall₂ (Holds w) a.subtitles vs) :
    ∃ bs out info parts, makeTtiBlocks a.fps a.subtitles = .ok bs ∧ List.Forall₂ (fun s b => ttiBlocks a.fps s = .ok [b]) a.subtitles bs ∧ writeStlIn l a = .ok out ∧
      stlRead out = .ok (info, List.flatten parts) ∧ info.frameRate = w ∧ List.Forall₂ (Shows w 23 0) bs parts := by
  have h1 := holds_fits (by omega) (by omega) hfit
  rw [← hfps] at h1
  obtain ⟨bs, out, info, parts, o1, o2, o3, o4, o5, o6⟩ := stl_written l hl ht a hv hr hlong hn _ h1
  rw [hfps] at o5
  have hrate := dfc_own w _ hw o5
  rw [hrate] at o6
  exact ⟨bs, out, info, parts, o1, o2, o3, o4, hrate, o6⟩

/-- `stl_parts` for times in frames of the file (24, 25 or 30 a second). -/
theorem stl_parts_own (l : Locale) (hl : SaneLocale l) (ht : l.thousandsSep.head? ≠ some 45) (a : StlArgs) (hv : a.Valid) (hr : InInt a.revisionNumber)
    (hlong : InInt (stlLongest a.subtitles)) (hn : a.subtitles.length < 100000) (w : Int) (hw : w = 24 ∨ w = 25 ∨ w = 30) (hfps : a.fps = w) (vs : List (List Int))
    (hfit : List.Forall₂ (Holds w) a.subtitles vs) :
    ∃ out info parts, writeStlIn l a = .ok out ∧ stlRead out = .ok (info, List.flatten parts) ∧ info.frameRate = w ∧
      List.Forall₂ (fun x part => ReadAs w x.1 ⟨x.2, x.1.from_.frames, x.1.to_.frames⟩ part) (a.subtitles.zip vs) parts := by
  have h1 := holds_fits (by omega) (by omega) hfit
  rw [← hfps] at h1
  obtain ⟨out, info, parts, o1, o2, o3, o4⟩ := stl_parts l hl ht a hv hr hlong hn _ h1
  rw [hfps] at o3
  have hrate := dfc_own w _ hw o3
  refine ⟨out, info, parts, o1, o2, hrate, ?_⟩
  rw [hrate] at o4
  clear o1 o2 o3 h1 hlong hn
  generalize a.subtitles = ss at hfit o4
  induction hfit generalizing parts with
  | nil => cases o4; exact .nil
  | cons h _ ih =>
    rw [List.zip_cons_cons, List.map_cons, List.zip_cons_cons] at o4
    cases o4 with
    | cons p1 p2 => exact .cons p1 (ih _ p2)

private theorem shown_seen {w : Int} {s : Subtitle} {vps : List Int} (h : Holds w s vps) : s.seen w ⟨vps, s.from_.frames, s.to_.frames⟩ = s.shown vps := by
  have e1 : ∀ t : Time, OwnTime w t → (⟨t.secs, t.frames, some ⟨w, 1⟩⟩ : Time) = t := by
    intro t ht
    rw [← ht.rate]
  unfold Subtitle.seen Subtitle.shown
  simp only [e1 _ h.from_, e1 _ h.to_]

/-- What is read for a subtitle with times in frames of the file. -/
theorem ReadAs.shown {w : Int} {s : Subtitle} {vps : List Int} {new : List Raw} (h : Holds w s vps) (hr : ReadAs w s ⟨vps, s.from_.frames, s.to_.frames⟩ new) :
    new.flatMap Raw.seen = s.shown vps := by
  rw [hr.seen, shown_seen h]

/-- C57: with times in frames of the file (24, 25 or 30 a second) everything but colour comes back: times, rows,
characters, italic, underline, and the alignment. -/
theorem C57_round_trip (l : Locale) (hl : SaneLocale l) (ht : l.thousandsSep.head? ≠ some 45) (a : StlArgs) (hv : a.Valid) (hr : InInt a.revisionNumber)
    (hlong : InInt (stlLongest a.subtitles)) (hn : a.subtitles.length < 100000) (w : Int) (hw : w = 24 ∨ w = 25 ∨ w = 30) (hfps : a.fps = w) (vs : List (List Int))
    (hfit : List.Forall₂ (Holds w) a.subtitles vs) :
    ∃ out info subs, writeStlIn l a = .ok out ∧ stlRead out = .ok (info, subs) ∧ info.frameRate = w ∧
      subs.flatMap Raw.seen = (a.subtitles.zip vs).flatMap (fun x => x.1.shown x.2) := by
  obtain ⟨out, info, parts, o1, o2, o3, o4⟩ := stl_parts_own l hl ht a hv hr hlong hn w hw hfps vs hfit
  refine ⟨out, info, _, o1, o2, o3, ?_⟩
  clear o1 o2 o3 hlong hn
  generalize a.subtitles = ss at hfit o4
  induction hfit generalizing parts with
  | nil => cases o4; rfl
  | cons h _ ih =>
    rw [List.zip_cons_cons] at o4
    cases o4 with
    | cons p1 p2 => rw [List.flatten_cons, List.flatMap_append, ih _ p2, p1.shown h, List.zip_cons_cons, List.flatMap_cons]

private theorem size_of {x : R Str} {n : Nat} (h : x.toOption.all (fun t => decide (t.length ≤ n)) = true) : ∀ t, x = .ok t → t.length ≤ n := by
  rintro t rfl
  exact of_decide_eq_true h

theorem stlDemo_holds : List.Forall₂ (Holds 25) stlDemo.subtitles [[21, 22], [21]] := by
  refine .cons ?_ (.cons ?_ .nil)
  · refine ⟨by decide, by decide +kernel, by decide, by decide, fun l hl k hk c hc => representable_of_table c ?_, size_of (by decide +kernel), ⟨rfl, by decide, by decide⟩, ⟨rfl, by decide, by decide⟩⟩
    revert l k c
    decide +kernel
  · refine ⟨by decide, by decide +kernel, by decide, by decide, fun l hl k hk c hc => representable_of_table c ?_, size_of (by decide +kernel), ⟨rfl, by decide, by decide⟩, ⟨rfl, by decide, by decide⟩⟩
    revert l k c
    decide +kernel

theorem sane_c : SaneLocale Locale.c := ⟨⟨46, [], rfl, by decide, by decide, by decide, by decide, by decide⟩, by decide⟩

/-- A file C57 speaks about. -/
example : ∃ (out : Str) (info : StlInfo) (subs : List Raw), writeStl stlDemo = .ok out ∧ stlRead out = .ok (info, subs) ∧ info.frameRate = 25 ∧
    subs.flatMap Raw.seen = (stlDemo.subtitles.zip [[21, 22], [21]]).flatMap (fun x => x.1.shown x.2) :=
  C57_round_trip Locale.c sane_c (by decide) stlDemo stlDemo_valid (by decide) (by decide) (by decide) 25 (by decide) (by decide +kernel) _ stlDemo_holds

/-- Times in milliseconds, at 25 frames per second: `C57_characters` gives the frames that are read. -/
example : Fits 25 { from_ := ⟨3, 480, some ⟨1000, 1⟩⟩, to_ := ⟨5, 999, some ⟨1000, 1⟩⟩, lines := [{ vpos := { prop := some (1 / 2), ref := some .topOfScreen }, blocks := [{ text := b!"a" }] }] }
    ⟨[12], 12, 25⟩ := by
  refine ⟨by decide, by decide +kernel, by decide, by decide, fun l hl k hk c hc => representable_of_table c ?_, size_of (by decide +kernel), ⟨25000, ?_, by decide +kernel, by decide +kernel⟩, by decide, by decide⟩
  · revert l k c
    decide +kernel
  · unfold WriterRate; decide +kernel

/-- Text of two blocks. -/
def stlLong : Subtitle where
  from_ := ⟨1, 0, some ⟨25, 1⟩⟩
  to_ := ⟨2, 0, some ⟨25, 1⟩⟩
  lines := [{ vpos := { prop := some (1 / 2), ref := some .topOfScreen }, blocks := [{ text := List.replicate 112 97, italic := true }] }]

/-- Text that needs a second block is not read back as written: italic ends with the first block. -/
theorem C57_long_witness : ∃ out info subs, writeStl { stlDemo with subtitles := [stlLong] } = .ok out ∧
    stlRead out = .ok (info, subs) ∧ (subs.flatMap Raw.seen).map (fun c => (c.char, c.italic)) = List.replicate 111 (97, true) ++ [(97, false)] := by
  have h : ((writeStl { stlDemo with subtitles := [stlLong] }).bind stlRead).toOption.map
      (fun r => (r.2.flatMap Raw.seen).map (fun c => (c.char, c.italic))) = some (List.replicate 111 (97, true) ++ [(97, false)]) := by decide +kernel
  generalize writeStl _ = x at h
  cases x with
  | error e => cases h
  | ok out =>
    cases hr : stlRead out with
    | error e => rw [show (Except.ok out : R Str).bind stlRead = stlRead out from rfl, hr] at h; cases h
    | ok r =>
      rw [show (Except.ok out : R Str).bind stlRead = stlRead out from rfl, hr] at h
      exact ⟨out, r.1, r.2, rfl, hr, Option.some.inj h⟩

/-! ### C80 -/

/-- C80 as a user would put it: a line read from row `n` of an STL file of 23 rows is written to row `n` again. -/
def C80_statement : Prop := ∀ (n : Nat) (l : Line), n ≤ 23 → l.vpos = { line := some n, lines := some 23, ref := some .topOfScreen } → writerVpos l = .ok n

/-- C80 is false of rows 7 and 14, which move up. -/
theorem C80_false : ¬ C80_statement := by
  intro h
  have h1 := h 7 { vpos := { line := some 7, lines := some 23, ref := some .topOfScreen } } (by decide) rfl
  have h2 : writerVpos { vpos := { line := some 7, lines := some 23, ref := some .topOfScreen } } = .ok 6 := by decide +kernel
  rw [h2] at h1
  cases h1

/-- C80: all other rows stay. -/
theorem C80_rows_partial (n : Nat) (l : Line) (hn : n ≤ 23) (h7 : n ≠ 7) (h14 : n ≠ 14) (hl : l.vpos = { line := some n, lines := some 23, ref := some .topOfScreen }) :
    writerVpos l = .ok n := by
  have key : ∀ n : Nat, n < 24 → n ≠ 7 → n ≠ 14 → (writerVpos { vpos := { line := some (n : Int), lines := some 23, ref := some .topOfScreen } }).toOption = some (n : Int) := by decide +kernel
  have e : writerVpos l = writerVpos { vpos := { line := some (n : Int), lines := some 23, ref := some .topOfScreen } } := by
    unfold writerVpos; rw [hl]
  rw [e]
  have := key n (by omega) h7 h14
  revert this
  generalize writerVpos _ = x
  intro this
  cases x with
  | error e => cases this
  | ok v => cases this; rfl

/-- C80: the same with whole files: text on rows 6 and 7 is read and written again, and both lines are now on row 6,
run together. -/
theorem C80_file_witness : ((((stlRead (stlFileDemo b!"00001" [stlBlockDemo 6 0 (b!"a" ++ [0x8a] ++ b!"b")])).bind (fun r => collect r.2)).bind
      (fun ss => writeStl { stlDemo with subtitles := ss })).toOption.map (fun out => ((ttiBlock out 0).getD 13 0, (blockText (ttiBlock out 0)).take 3))) =
    some (6, b!"ab" ++ [0x8f]) := by decide +kernel

example : writerVpos { vpos := { line := some 14, lines := some 23, ref := some .topOfScreen } } = .ok 13 := by decide +kernel

end LibSub
