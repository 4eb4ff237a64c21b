/-
Property C116, first part: what the argument of a SubRip font tag means, exactly.
-/
import Verif.Props.SubRipLine
import Verif.Props.SsaColumns

namespace LibSub

/-! ### Specification -/

/-- The last place in `s` where something stands, and what it is.  `At r v`: at the start of `r` stands `v`. -/
def LastIn {α : Type} (At : Str → α → Prop) (s : Str) (v : α) : Prop :=
  ∃ a r, s = a ++ r ∧ At r v ∧ ∀ a' r' v', s = a' ++ r' → At r' v' → a'.length ≤ a.length

/-- It stands nowhere in `s`. -/
def NowhereIn {α : Type} (At : Str → α → Prop) (s : Str) : Prop := ∀ a r v, s = a ++ r → ¬ At r v

/-- `color=#` and hex digits (all that there are), with a quote of either kind before the # or without. -/
def HexColourAt (s g : Str) : Prop :=
  ∃ q rest, s = b!"color=" ++ q ++ b!"#" ++ g ++ rest ∧ (q = [] ∨ q = b!"\"" ∨ q = b!"'") ∧ g ≠ [] ∧ (∀ c ∈ g, (hexOf c).isSome) ∧
    ∀ c, rest.head? = some c → hexOf c = none

/-- Digits, with blanks around, then `stop`. -/
def NumberThen (stop : Byte) (s ds rest : Str) : Prop :=
  ∃ w w', s = w ++ ds ++ w' ++ stop :: rest ∧ (∀ c ∈ w ++ w', isBlank c) ∧ ds ≠ [] ∧ ∀ c ∈ ds, c ∈ b!"0123456789"

/-- `color="rgba(r,g,b,a)"` with blanks around the numbers. -/
def RgbaColourAt (s : Str) (v : Str × Str × Str) : Prop :=
  ∃ s0 s1 s2 s3 s4 a, s = b!"color=\"rgba(" ++ s0 ∧ NumberThen 44 s0 v.1 s1 ∧ NumberThen 44 s1 v.2.1 s2 ∧ NumberThen 44 s2 v.2.2 s3 ∧ NumberThen 41 s3 a s4 ∧
    b!"\"" <+: s4

/-- A component of a colour given by two hex digits. -/
def HexComponent (a b : Byte) (x : ℚ) : Prop := ∃ m n, hexOf a = some m ∧ hexOf b = some n ∧ x = component (16 * m + n)

/-- The colour that the argument of a font tag stands for.  A hex colour anywhere has precedence. -/
inductive FontMeans (arg : Str) : Colour → Prop
  | hex6 (r0 r1 g0 g1 b0 b1 : Byte) (r g b : ℚ) : LastIn HexColourAt arg [r0, r1, g0, g1, b0, b1] → HexComponent r0 r1 r → HexComponent g0 g1 g →
      HexComponent b0 b1 b → FontMeans arg ⟨r, g, b⟩
  | hex8 (r0 r1 g0 g1 b0 b1 a0 a1 : Byte) (r g b : ℚ) : LastIn HexColourAt arg [r0, r1, g0, g1, b0, b1, a0, a1] → HexComponent r0 r1 r → HexComponent g0 g1 g →
      HexComponent b0 b1 b → FontMeans arg ⟨r, g, b⟩
  | rgba (r g b : Str) : NowhereIn HexColourAt arg → LastIn RgbaColourAt arg (r, g, b) → (∀ x ∈ [r, g, b], textVal x < 2 ^ 31) →
      FontMeans arg ⟨f32 (f64 (textVal r / 255)), f32 (f64 (textVal g / 255)), f32 (f64 (textVal b / 255))⟩

/-! ### The regular expressions -/

theorem lastMatch_iff {α : Type} (f : Str → Option α) (s : Str) (v : α) : lastMatch f s = some v ↔ LastIn (fun r v => f r = some v) s v := by
  constructor
  · intro h
    induction s with
    | nil =>
      refine ⟨[], [], rfl, h, ?_⟩
      intro a' r' v' e _
      rw [(List.append_eq_nil_iff.1 e.symm).1]
    | cons c cs ih =>
      rw [lastMatch] at h
      cases e : lastMatch f cs with
      | some w =>
        rw [e] at h
        cases h
        obtain ⟨a, r, e1, e2, e3⟩ := ih e
        refine ⟨c :: a, r, by rw [e1]; rfl, e2, ?_⟩
        intro a' r' v' e' h'
        cases a' with
        | nil => simp
        | cons x a' =>
          simp only [List.cons_append, List.cons.injEq] at e'
          have := e3 a' r' v' e'.2 h'
          simpa using this
      | none =>
        rw [e] at h
        refine ⟨[], c :: cs, rfl, h, ?_⟩
        intro a' r' v' e' h'
        cases a' with
        | nil => simp
        | cons x a' =>
          exfalso
          simp only [List.cons_append, List.cons.injEq] at e'
          have key : ∀ (a r : Str), f r = some v' → lastMatch f (a ++ r) ≠ none := by
            intro a r hr
            induction a with
            | nil =>
              cases r with
              | nil => show lastMatch f [] ≠ none; rw [lastMatch, hr]; simp
              | cons y r =>
                show lastMatch f (y :: r) ≠ none
                rw [lastMatch]
                split
                · simp
                · rw [hr]; simp
            | cons y a ih =>
              rw [List.cons_append, lastMatch]
              split
              · simp
              · rename_i hn; exact absurd hn ih
          exact key a' r' h' (by rw [← e'.2]; exact e)
  · rintro ⟨a, r, rfl, h1, h2⟩
    refine lastMatch_suffix h1 ?_
    intro x u e hx
    cases hf : f u with
    | none => rfl
    | some w =>
      have := h2 (a ++ x) u w (by rw [e]; simp) hf
      simp only [List.length_append] at this
      have := List.length_pos_of_ne_nil hx
      omega

theorem lastMatch_none_iff {α : Type} (f : Str → Option α) (s : Str) : lastMatch f s = none ↔ NowhereIn (fun r v => f r = some v) s := by
  constructor
  · intro h a r v e hr
    subst e
    induction a with
    | nil =>
      cases r with
      | nil => rw [List.nil_append, lastMatch, hr] at h; cases h
      | cons y r =>
        rw [List.nil_append, lastMatch] at h
        split at h
        · cases h
        · rw [hr] at h; cases h
    | cons y a ih =>
      rw [List.cons_append, lastMatch] at h
      split at h
      · cases h
      · rename_i hn; exact ih hn
  · intro h
    refine lastMatch_none ?_
    intro x w e
    cases hf : f w with
    | none => rfl
    | some v => exact absurd hf (h x w v e)

theorem isXDigit_hexOf (c : Byte) : isXDigit c = (hexOf c).isSome := forall_byte (p := fun c => isXDigit c = (hexOf c).isSome) (by decide +kernel) c

theorem takeWhile_drop {p : Byte → Bool} (s : Str) : ∃ rest, s = s.takeWhile p ++ rest ∧ ∀ c, rest.head? = some c → p c = false := by
  refine ⟨s.dropWhile p, (List.takeWhile_append_dropWhile).symm, ?_⟩
  intro c hc
  induction s with
  | nil => cases hc
  | cons x s ih =>
    by_cases hx : p x = true
    · rw [List.dropWhile_cons_of_pos hx] at hc; exact ih hc
    · rw [List.dropWhile_cons_of_neg hx] at hc
      cases hc
      simpa using hx

theorem takeWhile_exact {p : Byte → Bool} {g rest : Str} (hg : ∀ c ∈ g, p c = true) (hr : ∀ c, rest.head? = some c → p c = false) : (g ++ rest).takeWhile p = g := by
  rw [List.takeWhile_append_of_pos hg]
  cases rest with
  | nil => simp
  | cons c rest => rw [List.takeWhile_cons_of_neg (by rw [hr c rfl]; simp)]; simp

theorem fontHexAt_iff (s g : Str) : fontHexAt s = some g ↔ HexColourAt s g := by
  have body : ∀ (ds g : Str), (if (ds.takeWhile isXDigit).isEmpty then none else some (ds.takeWhile isXDigit)) = some g ↔
      ∃ rest, ds = g ++ rest ∧ g ≠ [] ∧ (∀ c ∈ g, (hexOf c).isSome) ∧ ∀ c, rest.head? = some c → hexOf c = none := by
    intro ds g
    constructor
    · intro h
      split at h
      · cases h
      · rename_i hne
        cases h
        obtain ⟨rest, h1, h2⟩ := takeWhile_drop (p := isXDigit) ds
        refine ⟨rest, h1, by simpa using hne, ?_, ?_⟩
        · intro c hc
          have : isXDigit c = true := List.mem_takeWhile_imp hc
          rwa [isXDigit_hexOf] at this
        · intro c hc
          have := h2 c hc
          rw [isXDigit_hexOf] at this
          simpa using this
    · rintro ⟨rest, rfl, h1, h2, h3⟩
      have e : (g ++ rest).takeWhile isXDigit = g := by
        refine takeWhile_exact (fun c hc => by rw [isXDigit_hexOf]; exact h2 c hc) (fun c hc => ?_)
        rw [isXDigit_hexOf, h3 c hc]
        rfl
      rw [e, if_neg (by simpa using h1)]
  constructor
  · intro h
    unfold fontHexAt at h
    split at h
    · rename_i hs
      rw [startsWith_iff] at hs
      obtain ⟨r, rfl⟩ := hs
      simp only at h
      rw [show (b!"color=" ++ r).drop 6 = r from rfl] at h
      split at h
      · rename_i ds hds
        obtain ⟨rest, e, h1, h2, h3⟩ := (body ds g).1 h
        split at hds
        · subst hds; subst e; exact ⟨b!"\"", rest, by simp, by simp, h1, h2, h3⟩
        · subst hds; subst e; exact ⟨b!"'", rest, by simp, by simp, h1, h2, h3⟩
        · subst hds; subst e; exact ⟨[], rest, by simp, by simp, h1, h2, h3⟩
      · cases h
    · cases h
  · rintro ⟨q, rest, rfl, hq, h1, h2, h3⟩
    have hb := (body (g ++ rest) g).2 ⟨rest, rfl, h1, h2, h3⟩
    unfold fontHexAt
    rw [if_pos (by rw [startsWith_iff]; exact ⟨q ++ b!"#" ++ g ++ rest, by simp⟩)]
    rcases hq with rfl | rfl | rfl <;> exact hb

theorem isSpace_blank (c : Byte) : isSpace c = true ↔ isBlank c := forall_byte (p := fun c => isSpace c = true ↔ c ∈ ([32, 9, 10, 11, 12, 13] : List Byte)) (by decide +kernel) c

theorem spacedInt_iff {stop : Byte} (hs : isSpace stop = false ∧ isDigit stop = false) (s ds rest : Str) :
    spacedInt stop s = some (ds, rest) ↔ NumberThen stop s ds rest := by
  constructor
  · intro h
    unfold spacedInt at h
    simp only at h
    split at h
    · cases h
    · rename_i hne
      split at h
      · rename_i c rest' hc
        split at h
        · rename_i hstop
          cases h
          rw [beq_iff_eq] at hstop
          subst hstop
          obtain ⟨s1, e1⟩ : ∃ x, x = s.dropWhile isSpace := ⟨_, rfl⟩
          rw [← e1] at hne hc ⊢
          have e2 : s = s.takeWhile isSpace ++ s1 := by rw [e1, List.takeWhile_append_dropWhile]
          have e3 : s1.drop (takeDigits s1).length = s1.dropWhile isDigit := by
            unfold takeDigits
            have : ∀ l : Str, l.drop (l.takeWhile isDigit).length = l.dropWhile isDigit := by
              intro l
              induction l with
              | nil => rfl
              | cons x l ih => by_cases hx : isDigit x = true <;> simp [hx, ih]
            exact this s1
          refine ⟨s.takeWhile isSpace, (s1.drop (takeDigits s1).length).takeWhile isSpace, ?_, ?_, by simpa using hne, ?_⟩
          · have e4 := List.takeWhile_append_dropWhile (p := isSpace) (l := s1.drop (takeDigits s1).length)
            rw [hc] at e4
            rw [List.append_assoc _ _ (c :: rest), e4, e3, List.append_assoc]
            unfold takeDigits
            rw [List.takeWhile_append_dropWhile]
            exact e2
          · intro c hc
            rw [← isSpace_blank]
            rcases List.mem_append.1 hc with hc | hc <;> exact List.mem_takeWhile_imp hc
          · intro c hc
            rw [← isDigit_iff_mem]
            exact List.mem_takeWhile_imp hc
        · cases h
      · cases h
  · rintro ⟨w, w', rfl, h1, h2, h3⟩
    have := spacedInt_ok stop hs (a := w) (ds := ds) (b := w') rest (fun c hc => (isSpace_blank c).2 (h1 c (by simp [hc]))) (fun c hc => (isSpace_blank c).2 (h1 c (by simp [hc])))
      (fun c hc => (isDigit_iff_mem c).2 (h3 c hc)) h2
    simpa using this

theorem fontRgbaAt_iff (s : Str) (v : Str × Str × Str) : fontRgbaAt s = some v ↔ RgbaColourAt s v := by
  constructor
  · intro h
    unfold fontRgbaAt at h
    split at h
    · rename_i hs
      rw [startsWith_iff] at hs
      obtain ⟨s0, rfl⟩ := hs
      rw [show (b!"color=\"rgba(" ++ s0).drop 12 = s0 from rfl] at h
      split at h
      · cases h
      · rename_i r s1 h1
        split at h
        · cases h
        · rename_i g s2 h2
          split at h
          · cases h
          · rename_i b s3 h3
            split at h
            · cases h
            · rename_i a s4 h4
              split at h
              · rename_i h5
                cases h
                rw [spacedInt_iff (by decide)] at h1 h2 h3 h4
                exact ⟨s0, s1, s2, s3, s4, a, rfl, h1, h2, h3, h4, startsWith_iff.1 h5⟩
              · cases h
    · cases h
  · obtain ⟨r, g, b⟩ := v
    rintro ⟨s0, s1, s2, s3, s4, a, rfl, h1, h2, h3, h4, h5⟩
    simp only at h1 h2 h3
    rw [← spacedInt_iff (by decide)] at h1 h2 h3 h4
    unfold fontRgbaAt
    rw [if_pos (by rw [startsWith_iff]; exact ⟨s0, rfl⟩), show (b!"color=\"rgba(" ++ s0).drop 12 = s0 from rfl, h1]
    simp only [h2, h3, h4]
    rw [if_pos (startsWith_iff.2 h5)]

theorem decComp_iff {ds : Str} (hne : ds ≠ []) (hd : ∀ c ∈ ds, c ∈ b!"0123456789") (x : ℚ) : decComp ds = .ok x ↔ textVal ds < 2 ^ 31 ∧ x = f32 (f64 (textVal ds / 255)) := by
  have hl : LeadingNumber ds (textVal ds) := ⟨[], [], ds, [], by simp, by simp, hne, hd, (by intro c hc; cases hc), .inl ⟨.inl rfl, rfl⟩⟩
  have h1 := (C101_number ds).1 _ hl
  unfold decComp
  rw [h1]
  split
  · rename_i hi
    simp only [ok_bind]
    constructor
    · intro h
      cases h
      refine ⟨?_, by simp⟩
      unfold InInt at hi
      omega
    · rintro ⟨_, rfl⟩
      simp [pure_eq_ok]
  · rename_i hi
    constructor
    · intro h; cases h
    · rintro ⟨h, _⟩
      unfold InInt at hi
      omega

/-! ### C116, font tags -/

theorem lastIn_congr {α : Type} {P Q : Str → α → Prop} (h : ∀ s v, P s v ↔ Q s v) (s : Str) (v : α) : LastIn P s v ↔ LastIn Q s v := by
  have : P = Q := by funext s v; exact propext (h s v)
  rw [this]

theorem nowhereIn_congr {α : Type} {P Q : Str → α → Prop} (h : ∀ s v, P s v ↔ Q s v) (s : Str) : NowhereIn P s ↔ NowhereIn Q s := by
  have : P = Q := by funext s v; exact propext (h s v)
  rw [this]

/-- The argument of a font tag gives a colour exactly if it means that colour. -/
theorem C116_font (n : Nat) (ctx : List Str) (arg : Str) (c : Colour) : fontColour n ctx arg = .ok c ↔ FontMeans arg c := by
  have hhex : ∀ g, lastMatch fontHexAt arg = some g ↔ LastIn HexColourAt arg g := fun g => (lastMatch_iff _ _ _).trans (lastIn_congr fontHexAt_iff _ _)
  have hnone : lastMatch fontHexAt arg = none ↔ NowhereIn HexColourAt arg := (lastMatch_none_iff _ _).trans (nowhereIn_congr fontHexAt_iff _)
  have hrgba : ∀ v, lastMatch fontRgbaAt arg = some v ↔ LastIn RgbaColourAt arg v := fun g => (lastMatch_iff _ _ _).trans (lastIn_congr fontRgbaAt_iff _ _)
  constructor
  · intro h
    unfold fontColour at h
    split at h
    · rename_i g hg
      have hall : ∀ c ∈ g, ∃ m, hexOf c = some m := by
        obtain ⟨_, _, _, ⟨_, _, _, _, _, h4, _⟩, _⟩ := (hhex g).1 hg
        intro c hc
        exact Option.isSome_iff_exists.1 (h4 c hc)
      split at h
      · rename_i hlen
        match g, hlen with
        | [r0, r1, g0, g1, b0, b1], _ =>
          obtain ⟨x0, k0⟩ := hall r0 (by simp)
          obtain ⟨x1, k1⟩ := hall r1 (by simp)
          obtain ⟨x2, k2⟩ := hall g0 (by simp)
          obtain ⟨x3, k3⟩ := hall g1 (by simp)
          obtain ⟨x4, k4⟩ := hall b0 (by simp)
          obtain ⟨x5, k5⟩ := hall b1 (by simp)
          rw [C72_rgb r0 r1 g0 g1 b0 b1 x0 x1 x2 x3 x4 x5 [] k0 k1 k2 k3 k4 k5] at h
          cases h
          exact .hex6 r0 r1 g0 g1 b0 b1 _ _ _ ((hhex _).1 hg) ⟨x0, x1, k0, k1, rfl⟩ ⟨x2, x3, k2, k3, rfl⟩ ⟨x4, x5, k4, k5, rfl⟩
      · split at h
        · rename_i hlen
          match g, hlen with
          | [r0, r1, g0, g1, b0, b1, a0, a1], _ =>
            obtain ⟨x0, k0⟩ := hall r0 (by simp)
            obtain ⟨x1, k1⟩ := hall r1 (by simp)
            obtain ⟨x2, k2⟩ := hall g0 (by simp)
            obtain ⟨x3, k3⟩ := hall g1 (by simp)
            obtain ⟨x4, k4⟩ := hall b0 (by simp)
            obtain ⟨x5, k5⟩ := hall b1 (by simp)
            obtain ⟨x6, k6⟩ := hall a0 (by simp)
            obtain ⟨x7, k7⟩ := hall a1 (by simp)
            rw [C72_rgba r0 r1 g0 g1 b0 b1 a0 a1 x0 x1 x2 x3 x4 x5 x6 x7 [] k0 k1 k2 k3 k4 k5 k6 k7] at h
            cases h
            exact .hex8 r0 r1 g0 g1 b0 b1 a0 a1 _ _ _ ((hhex _).1 hg) ⟨x0, x1, k0, k1, rfl⟩ ⟨x2, x3, k2, k3, rfl⟩ ⟨x4, x5, k4, k5, rfl⟩
        · cases h
    · rename_i hg
      split at h
      · rename_i r g b hv
        have hl := (hrgba _).1 hv
        obtain ⟨_, _, _, ⟨_, _, _, _, _, _, _, ⟨_, _, _, _, r1, r2⟩, ⟨_, _, _, _, g1, g2⟩, ⟨_, _, _, _, b1, b2⟩, _⟩, _⟩ := hl
        obtain ⟨x, hx, h⟩ := bind_eq_ok.1 h
        obtain ⟨y, hy, h⟩ := bind_eq_ok.1 h
        obtain ⟨z, hz, h⟩ := bind_eq_ok.1 h
        cases h
        obtain ⟨hx1, rfl⟩ := (decComp_iff r1 r2 x).1 hx
        obtain ⟨hy1, rfl⟩ := (decComp_iff g1 g2 y).1 hy
        obtain ⟨hz1, rfl⟩ := (decComp_iff b1 b2 z).1 hz
        exact .rgba r g b (hnone.1 hg) ((hrgba _).1 hv) (by intro w hw; simp only [List.mem_cons, List.not_mem_nil, or_false] at hw; rcases hw with rfl | rfl | rfl <;> assumption)
      · cases h
  · intro h
    unfold fontColour
    cases h with
    | hex6 r0 r1 g0 g1 b0 b1 r g b hg hr hgr hb =>
      obtain ⟨x0, x1, k0, k1, rfl⟩ := hr
      obtain ⟨x2, x3, k2, k3, rfl⟩ := hgr
      obtain ⟨x4, x5, k4, k5, rfl⟩ := hb
      rw [(hhex _).2 hg]
      exact C72_rgb r0 r1 g0 g1 b0 b1 x0 x1 x2 x3 x4 x5 [] k0 k1 k2 k3 k4 k5
    | hex8 r0 r1 g0 g1 b0 b1 a0 a1 r g b hg hr hgr hb =>
      have hall : ∀ c ∈ [r0, r1, g0, g1, b0, b1, a0, a1], ∃ m, hexOf c = some m := by
        obtain ⟨_, _, _, ⟨_, _, _, _, _, h4, _⟩, _⟩ := hg
        intro c hc
        exact Option.isSome_iff_exists.1 (h4 c hc)
      obtain ⟨x6, k6⟩ := hall a0 (by simp)
      obtain ⟨x7, k7⟩ := hall a1 (by simp)
      obtain ⟨x0, x1, k0, k1, rfl⟩ := hr
      obtain ⟨x2, x3, k2, k3, rfl⟩ := hgr
      obtain ⟨x4, x5, k4, k5, rfl⟩ := hb
      rw [(hhex _).2 hg]
      exact C72_rgba r0 r1 g0 g1 b0 b1 a0 a1 x0 x1 x2 x3 x4 x5 x6 x7 [] k0 k1 k2 k3 k4 k5 k6 k7
    | rgba r g b hn hv hs =>
      rw [hnone.2 hn, (hrgba _).2 hv]
      obtain ⟨_, _, _, ⟨_, _, _, _, _, _, _, ⟨_, _, _, _, r1, r2⟩, ⟨_, _, _, _, g1, g2⟩, ⟨_, _, _, _, b1, b2⟩, _⟩, _⟩ := hv
      simp only
      rw [(decComp_iff r1 r2 _).2 ⟨hs r (by simp), rfl⟩, (decComp_iff g1 g2 _).2 ⟨hs g (by simp), rfl⟩, (decComp_iff b1 b2 _).2 ⟨hs b (by simp), rfl⟩]
      rfl

/-- The last of two hex colours counts, whatever is around. -/
example : FontMeans b!" color=#123456 x color='#ff0000 color=\"rgba(1,2,3,4)\"" ⟨1, 0, 0⟩ := (C116_font 0 [] _ _).1 (by decide +kernel)
example : ¬ ∃ c, FontMeans b!" color=\"#12345\"" c := by
  rintro ⟨c, h⟩
  have := (C116_font 0 [] _ _).2 h
  have e : (fontColour 0 [] b!" color=\"#12345\"").toOption = none := by decide +kernel
  rw [this] at e
  cases e

end LibSub
