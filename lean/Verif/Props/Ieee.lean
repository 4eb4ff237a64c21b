/-
C126: IEEE 754 arithmetic with its limits gives what the model gives.
-/
import Verif.Props.IeeeSubRip

namespace LibSub

/-! ### Specification -/

/-- A `float` that is not huge. -/
def SmallFloat (p : ℚ) : Prop := IeeeNum 24 (-149) p ∧ |p| ≤ 2 ^ 96

/-- The numbers of a vertical position: `int`s, and a `float` that is not huge. -/
def VPosOk (v : VPos) : Prop := (∀ p, v.prop = some p → SmallFloat p) ∧ (∀ n, v.line = some n → InInt n) ∧ ∀ n, v.lines = some n → InInt n

/-! ### Positions and sizes -/

private theorem ite_split {α : Type} {c : Bool} {a b a' b' : R α} (h1 : a = a') (h2 : b = b') : (if c then a else b) = (if c then a' else b') := by rw [h1, h2]

private theorem intRatio_eq {a b : Int} (ha : InInt a) (hb : InInt b) : Ieee.intRatio a b = intRatio a b ∧ ∀ q, intRatio a b = .ok q → Sized (-54) 31 q := by
  rcases intRatio_track ha hb with h | h
  · unfold intRatio at h
    by_cases h0 : f32 (b : ℚ) = 0
    · rw [h0, fdiv_zero] at h; cases h
    · rw [fdiv_ne h0] at h; cases h
  · exact h

private theorem fits96 {p : ℚ} (h : SmallFloat p) : Sized (-149) 96 p := by
  obtain ⟨⟨m, e, -, he, rfl⟩, hb⟩ := h
  refine ⟨Grid.mono ⟨m, rfl⟩ he, ?_⟩
  have : (2 : ℚ) ^ (96 : Int) = 2 ^ 96 := by norm_num
  rw [this]
  exact hb

private theorem fits_of_small {p : ℚ} (h : SmallFloat p) : GoodP p := (fits96 h).mono

private theorem f23 : Sized 0 5 (23 : ℚ) := ⟨by simpa using Grid.int 23, by norm_num⟩
private theorem f1000 : Sized 0 10 (1000 : ℚ) := ⟨by simpa using Grid.int 1000, by norm_num⟩
private theorem fone : Sized 0 0 (1 : ℚ) := ⟨by simpa using Grid.int 1, by norm_num⟩
private theorem fhalf : Sized (-1) 0 (1 / 2 : ℚ) := fone.half
private theorem f23half : Sized (-1) 5 (23 / 2 : ℚ) := f23.half

private theorem optGet_ok {α : Type} {o : Option α} {x : α} (h : optGet o = .ok x) : o = some x := by
  unfold optGet at h
  split at h <;> simp_all

private theorem top_eq {v : VPos} (h : VPosOk v) : Ieee.fractionFromTop v = v.fractionFromTop := by
  unfold Ieee.fractionFromTop VPos.fractionFromTop
  obtain ⟨h1', h2, h3⟩ := h
  have h1 : ∀ p, _ = some p → GoodP p := fun p hp => fits_of_small (h1' p hp)
  cases v.ref with
  | none => rfl
  | some ref =>
    dsimp only
    refine ite_split rfl ?_
    have fin : ∀ p : ℚ, GoodP p →
        (match ref with
          | .topOfScreen => pure p
          | .centreOfScreen => do let a ← Ieee.ieee64 (p + 1/2); Ieee.ieee32 a
          | .bottomOfScreen => Ieee.ieee32 (1 - p)
          | .topOfSubtitle => pure p : R ℚ) =
        (match ref with
          | .topOfScreen => pure p
          | .centreOfScreen => pure (f32 (f64 (p + 1/2)))
          | .bottomOfScreen => pure (f32 (1 - p))
          | .topOfSubtitle => pure p : R ℚ) := by
      intro p hp
      cases ref with
      | topOfScreen => rfl
      | topOfSubtitle => rfl
      | centreOfScreen =>
        have a := hp.add (fhalf.mono (g' := -149) (k' := 100))
        dsimp only
        rw [ieee64_fits a]
        exact ieee32_fits a.f64
      | bottomOfScreen => exact ieee32_fits ((fone.mono (g' := -149) (k' := 100)).sub hp)
    cases e : v.prop with
    | some p => exact fin p (h1 p e)
    | none =>
      cases el : v.line with
      | none => rfl
      | some l =>
        cases en : v.lines with
        | none => rfl
        | some n =>
          obtain ⟨k1, k2⟩ := intRatio_eq (h2 l el) (h3 n en)
          simp only [optGet, ok_bind]
          rw [k1]
          unfold intRatio at k2 ⊢
          cases eq : fdiv (f32 l) (f32 n) with
          | error x => rfl
          | ok q => exact fin (f32 q) (k2 (f32 q) (by rw [eq]; rfl)).mono

private theorem wpos_eq {l : Line} (h : VPosOk l.vpos) : Ieee.writerVpos l = writerVpos l := by
  unfold Ieee.writerVpos writerVpos
  obtain ⟨h1', h2, h3⟩ := h
  have h1 : ∀ p, _ = some p → GoodP p := fun p hp => fits_of_small (h1' p hp)
  cases e : l.vpos.prop with
  | some p =>
    have hp := h1 p e
    have m : Sized (-149) 105 (p * stlRows) := (hp.mul (f23)).mono
    dsimp only
    cases l.vpos.ref.getD .topOfScreen with
    | topOfScreen => dsimp only; rw [ieee32_fits m]; rfl
    | topOfSubtitle => rfl
    | centreOfScreen =>
      dsimp only
      rw [ieee32_fits m]
      simp only [ok_bind]
      rw [ieee64_fits (m.f32.add (f23half.mono (g' := -149) (k' := 105)))]
      rfl
    | bottomOfScreen =>
      dsimp only
      rw [ieee32_fits m]
      simp only [ok_bind]
      have : Sized (-149) 106 (stlRows - f32 (p * stlRows)) := (f23.mono (g' := -149) (k' := 105)).sub m.f32
      rw [ieee32_fits this]
      rfl
  | none =>
    dsimp only
    cases el : l.vpos.line with
    | none => rfl
    | some k =>
      dsimp only
      cases en : l.vpos.lines with
      | none => rfl
      | some n =>
        obtain ⟨k1, k2⟩ := intRatio_eq (h2 k el) (h3 n en)
        show (do let p ← Ieee.intRatio k n; _) = (do let q ← fdiv (f32 k) (f32 n); _)
        rw [k1]
        unfold intRatio at k2 ⊢
        cases eq : fdiv (f32 k) (f32 n) with
        | error x => rfl
        | ok q =>
          have hq := k2 (f32 q) (by rw [eq]; rfl)
          show (match l.vpos.ref.getD .topOfScreen with | .topOfScreen => _ | .centreOfScreen => _ | .bottomOfScreen => _ | .topOfSubtitle => _) = (match l.vpos.ref.getD .topOfScreen with | .topOfScreen => _ | .centreOfScreen => _ | .bottomOfScreen => _ | .topOfSubtitle => _)
          cases l.vpos.ref.getD .topOfScreen with
          | topOfScreen => dsimp only; rw [ieee32_fits (show Sized (-54) 36 (f32 q * stlRows) from (hq.mul f23).mono)]; rfl
          | topOfSubtitle => rfl
          | centreOfScreen =>
            dsimp only
            have a := hq.add (fhalf.mono (g' := -54) (k' := 31))
            rw [ieee64_fits a]
            simp only [ok_bind]
            rw [ieee64_fits (show Sized (-54) 37 (f64 (f32 q + 1 / 2) * stlRows) from (a.f64.mul f23).mono)]
            rfl
          | bottomOfScreen =>
            dsimp only
            have a := (fone.mono (g' := -54) (k' := 31)).sub hq
            rw [ieee32_fits a]
            simp only [ok_bind]
            rw [ieee32_fits (show Sized (-54) 37 (f32 (1 - f32 q) * stlRows) from (a.f32.mul f23).mono)]
            rfl

private theorem hpos_eq {a b : HPos} (ha : SmallFloat a.prop) (hb : SmallFloat b.prop) : Ieee.hposEq a b = .ok (a.eq b) := by
  unfold Ieee.hposEq HPos.eq
  rw [ieee32_fits ((fits_of_small ha).sub (fits_of_small hb)), show Ieee.ieee64 (1 / 1998) = .ok (f64 (1 / 1998)) by decide +kernel]
  rfl

private theorem about_eq {a b : ℚ} (ha : SmallFloat a) (hb : GoodP b) : Ieee.aboutEqual a b = .ok (aboutEqual a b) := by
  unfold Ieee.aboutEqual aboutEqual
  rw [ieee32_fits ((fits_of_small ha).sub hb), show Ieee.ieee64 (1 / 10000) = .ok (f64 (1 / 10000)) by decide +kernel]
  rfl

private theorem dfc_eq {r : ℚ} (h : SmallFloat r) : Ieee.stlFrameRateToDfc r = .ok (stlFrameRateToDfc r) := by
  have i : ∀ n : Int, InInt n → GoodP (n : ℚ) := fun n hn => (Sized.int hn).mono
  have e0 : f32 (23976 / 1000) = 12570329 / 2 ^ 19 := by decide +kernel
  have f0 : GoodP (f32 (23976 / 1000)) := by
    rw [e0]
    refine ⟨Grid.mono (h := -19) ⟨12570329, by norm_num⟩ (by norm_num), ?_⟩
    norm_num
  have f24 : GoodP 24 := by simpa using i 24 (by decide)
  have f25 : GoodP 25 := by simpa using i 25 (by decide)
  have f30 : GoodP 30 := by simpa using i 30 (by decide)
  unfold Ieee.stlFrameRateToDfc stlFrameRateToDfc
  rw [show Ieee.ieee32 (23976 / 1000) = .ok (f32 (23976 / 1000)) by decide +kernel]
  simp only [ok_bind, about_eq h f0, about_eq h f24, about_eq h f25, about_eq h f30]
  cases aboutEqual r (f32 (23976 / 1000)) <;> cases aboutEqual r 24 <;> cases aboutEqual r 25 <;> cases aboutEqual r 30 <;> rfl

private theorem points_eq {s : FontSize} {n : Int} (hp : ∀ p, s.prop = some p → SmallFloat p) (hn : InInt n) : Ieee.pointsAt s n = s.pointsAt n := by
  unfold Ieee.pointsAt FontSize.pointsAt
  cases s.pts with
  | some p => rfl
  | none =>
    dsimp only
    cases e : s.prop with
    | none => rfl
    | some p =>
      have f := Sized.int hn
      have m : Sized (-149) 127 (p * f32 n) := ((fits96 (hp p e)).mul f.f32).mono
      simp only [optGet, ok_bind]
      rw [ieee32_fits f]
      simp only [ok_bind]
      rw [ieee32_fits m]
      rfl

private theorem prop_eq {s : FontSize} {n : Int} (hp : ∀ p, s.pts = some p → InInt p) (hn : InInt n) : Ieee.proportionalAt s n = s.proportionalAt n := by
  unfold Ieee.proportionalAt FontSize.proportionalAt
  cases s.prop with
  | some p => rfl
  | none =>
    dsimp only
    cases e : s.pts with
    | none => rfl
    | some p =>
      simp only [optGet, ok_bind]
      rw [(intRatio_eq (hp p e) hn).1]
      rfl

private theorem wrate_eq {fps : ℚ} (h : SmallFloat fps) : Ieee.writerRate fps = toInt (f32 (fps * 1000)) := by
  unfold Ieee.writerRate
  rw [ieee32_fits (show Sized (-149) 110 (fps * 1000) from ((fits_of_small h).mul f1000).mono)]
  rfl

/-! ### Theorems -/

/-- The arithmetic of Model/Ieee.lean is that of IEEE 754: binary32 and binary64 rounding to nearest, ties to even, with gradual
underflow, and no result where the rounded number would be too large. -/
theorem C126_rounding (x r : ℚ) :
    (Ieee.ieee32 x = .ok r ↔ IeeeRounded 24 (-149) 128 x r) ∧ (Ieee.ieee64 x = .ok r ↔ IeeeRounded 53 (-1074) 1024 x r) :=
  ⟨ieee_iff (by norm_num) _ _ x r, ieee_iff (by norm_num) _ _ x r⟩

-- A subnormal, a tie at the smallest exponent, an underflow to 0, and the largest float with an overflow after it.
example : Ieee.ieee32 (5 / 2 ^ 149) = .ok (5 / 2 ^ 149) := by decide +kernel
example : Ieee.ieee32 (5 / 2 ^ 150) = .ok (2 / 2 ^ 149) ∧ Ieee.ieee32 (1 / 2 ^ 150) = .ok 0 := by decide +kernel
example : Ieee.ieee32 (2 ^ 128 - 2 ^ 104) = .ok (2 ^ 128 - 2 ^ 104) ∧ Ieee.ieee32 (2 ^ 128 - 2 ^ 103) = .error .nonFinite := by decide +kernel
example : IeeeRounded 24 (-149) 128 (1 / 10) (13421773 / 2 ^ 27) := (C126_rounding _ _).1.1 (by decide +kernel)
-- Without the limits the first of these is not rounded to 0 and the second is not an overflow.
example : f32 (1 / 2 ^ 150) = 1 / 2 ^ 150 ∧ f32 (2 ^ 128 - 2 ^ 103) = 2 ^ 128 := by decide +kernel

/-- `Time` and `Rational`, for all `int`s; the factor of `scale` is any `float`. -/
theorem C126_time (t u : Time) (r q : FRate) (f : ℚ) (ht : IntTime t) (hu : IntTime u) (hr : IntRate r) (hq : IntRate q)
    (hf : IeeeNum 24 (-149) f) (hm : |f| < 2 ^ 128) :
    Ieee.fraction r = r.fraction ∧ Ieee.rateMax r q = FRate.max r q ∧ Ieee.framesAt t r = t.framesAt r ∧
      Ieee.allAsSeconds t = t.allAsSeconds ∧ Ieee.add t u = t.add u ∧ Ieee.scale t f = t.scale f := by
  refine ⟨(fraction_track hr).1, (max_track hr hq).1, (framesAt_track ht hr).1, (seconds_track ht).1, add_track ht hu, scale_track ht ?_⟩
  obtain ⟨m, e, -, he, rfl⟩ := hf
  refine ⟨Grid.mono ⟨m, rfl⟩ he, hm.le.trans (by norm_num)⟩

example : IntTime ⟨3661, 12, some ⟨25, 1⟩⟩ ∧ IntRate ⟨24000, 1001⟩ ∧ IeeeNum 24 (-149) (3 / 2) ∧ |(3 / 2 : ℚ)| < 2 ^ 128 ∧
    (Ieee.scale ⟨3661, 12, some ⟨25, 1⟩⟩ (3 / 2)).toOption = some ⟨5492, 6, some ⟨25, 1⟩⟩ := by
  refine ⟨⟨by decide, by decide, ?_⟩, ⟨by decide, by decide⟩, ⟨3, -1, by norm_num, by norm_num, by norm_num⟩, by norm_num [abs_of_pos], by decide +kernel⟩
  intro r hr
  cases hr
  exact ⟨by decide, by decide⟩

/-- A script of fewer than 2^31 bytes given as a string: the IEEE reader does what the model's reader does, in every case
the model's reader covers (numbers in the text that are 0 or between 2^-90 and 2^90). -/
theorem C126_ssa_string (s : Str) (h : s.length < 2 ^ 31) : ssaReadString s = .error .unmodelled ∨ Ieee.ssaReadString s = ssaReadString s := by
  unfold ssaReadString Ieee.ssaReadString
  exact ((ssaLines_track _ (fun l hl => lt_of_le_of_lt (length_linesOfString hl) h) ssaRead_start).bind (Q := fun _ => True) fun r _ => .ok trivial).eq

/-- A script in a file of any length. -/
theorem C126_ssa_file (s : Str) : ssaReadFile s = .error .unmodelled ∨ Ieee.ssaReadFile s = ssaReadFile s := by
  unfold ssaReadFile Ieee.ssaReadFile
  exact ((ssaLines_track _ (fun l hl => lt_of_le_of_lt (length_linesOfFile hl) (by norm_num)) ssaRead_start).bind (Q := fun _ => True) fun r _ => .ok trivial).eq

/-- A script with a style, a position and a line break. -/
def ieeeScript : Str := b!"[V4 Styles]\nFormat: Name, Fontsize, PrimaryColour, MarginV\nStyle: Default, 21, &H0080FF, 10\n[Events]\nFormat: Style, Start, End, Text\nDialogue: Default,0:00:01.00,0:00:02.00,{\\pos(96.5,1e-20)}a\\Nb\n"

example : ieeeScript.length < 2 ^ 31 ∧ (ssaReadString ieeeScript).toOption.isSome = true ∧
    ((ssaReadString ieeeScript).toOption.getD []).length = 2 := by decide +kernel
example : ((ssaReadFile ieeeScript).toOption.getD []).length = 2 := by decide +kernel

/-- SubRip files, given as a string or as a file. -/
theorem C126_subrip (s : Str) : (srtReadString s = .error .unmodelled ∨ Ieee.srtReadString s = srtReadString s) ∧
    (srtReadFile s = .error .unmodelled ∨ Ieee.srtReadFile s = srtReadFile s) := by
  have h : ∀ ls, srtRead ls = .error .unmodelled ∨ Ieee.srtLines 0 .counter [] srtFresh [] ls = srtRead ls :=
    fun ls => (srtLines_track ls 0 .counter [] (fun p hp => by cases hp) []).eq
  exact ⟨h _, h _⟩

example : ((Ieee.srtReadString b!"1\n00:00:01,000 --> 00:00:02,000\n<font color=\"#102030\">x</font>{\\an8}y\n").toOption.getD []).map (·.text) = [b!"x", b!"y"] := by
  decide +kernel

/-- Positions and sizes: all comparisons and conversions, for `int`s and for `float`s up to 2^96. -/
theorem C126_positions (v : VPos) (l : Line) (a b : HPos) (z : FontSize) (n : Int) (fps : ℚ) (hv : VPosOk v) (hl : VPosOk l.vpos)
    (ha : SmallFloat a.prop) (hb : SmallFloat b.prop) (hz : ∀ p, z.prop = some p → SmallFloat p) (hz' : ∀ p, z.pts = some p → InInt p)
    (hn : InInt n) (hf : SmallFloat fps) :
    Ieee.fractionFromTop v = v.fractionFromTop ∧ Ieee.writerVpos l = writerVpos l ∧ Ieee.hposEq a b = .ok (a.eq b) ∧
      Ieee.pointsAt z n = z.pointsAt n ∧ Ieee.proportionalAt z n = z.proportionalAt n ∧
      Ieee.stlFrameRateToDfc fps = .ok (stlFrameRateToDfc fps) ∧ Ieee.writerRate fps = toInt (f32 (fps * 1000)) :=
  ⟨top_eq hv, wpos_eq hl, hpos_eq ha hb, points_eq hz hn, prop_eq hz' hn, dfc_eq hf, wrate_eq hf⟩

example : SmallFloat (25 / 2) ∧ VPosOk { prop := some (25 / 2), line := some 3, lines := some 24, ref := some .bottomOfScreen } ∧
    Ieee.stlFrameRateToDfc 24 = .ok b!"STL24.01" ∧ Ieee.writerRate (25 / 2) = .ok 12500 := by
  have h : SmallFloat (25 / 2) := ⟨⟨25, -1, by norm_num, by norm_num, by norm_num⟩, by norm_num [abs_of_pos]⟩
  refine ⟨h, ⟨fun p hp => ?_, fun n hn => ?_, fun n hn => ?_⟩, by decide +kernel, by decide +kernel⟩
  · cases hp; exact h
  · cases hn; decide
  · cases hn; decide

end LibSub
