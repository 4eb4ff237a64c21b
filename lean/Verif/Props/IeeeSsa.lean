/-
C126: the SSA reader with the limits of `float` and `double`.
-/
import Verif.Props.IeeeTime

namespace LibSub

/-! ### Numbers -/

private theorem ite_two {α : Type} {c : Prop} [Decidable c] {a b x : α} (h : (if c then a else b) = x) : (c ∧ a = x) ∨ (¬ c ∧ b = x) := by
  split at h
  · exact .inl ⟨‹_›, h⟩
  · exact .inr ⟨‹_›, h⟩

theorem scanInt_inInt {s : Str} {n : Int} (h : rawConvertInt s = .ok n) : InInt n := by
  unfold rawConvertInt rawConvertIntIn scanInt at h
  rcases ite_two h with ⟨i, h⟩ | ⟨i, h⟩
  · cases h; exact i
  · cases h

theorem int_track (s : Str) : Track InInt (rawConvertInt s) (rawConvertInt s) := .same fun _ h => scanInt_inInt h

private theorem byte_track (v : Int) (k : Nat) : Ieee.byteComp v k = .ok (byteComp v k) := by
  unfold Ieee.byteComp byteComp
  have h : Sized 0 31 (((v.fdiv (2 ^ (8 * k))).fmod 256 : Int) : ℚ) := Sized.int (by
    rw [Int.fmod_eq_emod_of_nonneg _ (by norm_num)]
    unfold InInt
    omega)
  have f255 : Sized 0 8 (255 : ℚ) := ⟨by simpa using Grid.int 255, by norm_num⟩
  obtain ⟨a, b⟩ := div64 h h.low f255 (by norm_num)
  rw [a]
  exact ieee32_fits b

theorem byteColour_track (v : Int) : Ieee.byteColour v = .ok ⟨byteComp v 0, byteComp v 1, byteComp v 2⟩ := by
  unfold Ieee.byteColour
  rw [byte_track, byte_track, byte_track]
  rfl

theorem hColour_track (s : Str) : Ieee.hColour s = hColour s := by
  by_cases hs : ∃ t, s = 38 :: 72 :: t
  · obtain ⟨t, rfl⟩ := hs
    exact byteColour_track _
  · unfold Ieee.hColour hColour
    split
    · exact absurd ⟨_, rfl⟩ hs
    · split
      · exact absurd ⟨_, rfl⟩ hs
      · rfl

theorem styleColour_track (c : Str) : Ieee.styleColour c = SsaStyle.colour c := by
  by_cases hs : ∃ t, c = 38 :: t
  · obtain ⟨t, rfl⟩ := hs
    exact hColour_track _
  · unfold Ieee.styleColour SsaStyle.colour
    split
    · exact absurd ⟨_, rfl⟩ hs
    · split
      · exact absurd ⟨_, rfl⟩ hs
      · cases rawConvertInt c with
        | error e => rfl
        | ok i => exact byteColour_track i

theorem intRatio_track {a b : Int} (ha : InInt a) (hb : InInt b) : Track (Sized (-54) 31) (intRatio a b) (Ieee.intRatio a b) := by
  unfold intRatio Ieee.intRatio
  have fa := Sized.int ha
  have fb := Sized.int hb
  rw [ieee32_fits fa, ieee32_fits fb]
  simp only [ok_bind]
  by_cases h0 : f32 (b : ℚ) = 0
  · rw [h0, fdiv_zero]; exact .error _
  · rw [fdiv_ne h0]
    simp only [ok_bind]
    obtain ⟨x, y⟩ := div32 fa.f32 fa.f32.low fb.f32 h0
    rw [x]
    exact .ok y.mono

private def floatA (p : Bool × Str) : R Rat :=
  if startsWithNoCase p.2 b!"inf" || startsWithNoCase p.2 b!"nan" then .error .unmodelled
  else
    let v := if startsWithNoCase p.2 b!"0x" then scanHexadecimal b!"." (p.2.drop 2) else scanDecimal b!"." p.2
    if floatSafe v then .ok (f32 (if p.1 then -v else v)) else .error .unmodelled

private def floatB (p : Bool × Str) : R Rat :=
  if startsWithNoCase p.2 b!"inf" || startsWithNoCase p.2 b!"nan" then .error .unmodelled
  else
    let v := if startsWithNoCase p.2 b!"0x" then scanHexadecimal b!"." (p.2.drop 2) else scanDecimal b!"." p.2
    Ieee.ieee32 (if p.1 then -v else v)

private theorem floatA_eq (s : Str) : scanFloat Locale.c.decimalPoint s = floatA (takeSign (s.dropWhile isSpace)) := rfl

private theorem floatB_eq (s : Str) : Ieee.scanFloat s = floatB (takeSign (s.dropWhile isSpace)) := rfl

/-- What the model reads as a `float` is 0 or neither very small nor very large. -/
theorem float_track (v : Str) : Track (fun x => Sized (-113) 90 x ∧ (x = 0 ∨ (2 : ℚ) ^ (-90 : Int) ≤ |x|)) (rawConvertFloat v) (Ieee.rawConvertFloat v) := by
  unfold rawConvertFloat rawConvertFloatIn Ieee.rawConvertFloat
  rw [floatA_eq, floatB_eq]
  unfold floatA floatB
  rcases takeSign ((makeLocal Locale.c v).dropWhile isSpace) with ⟨neg, cs⟩
  dsimp only
  refine .ite (fun _ => .error _) fun _ => ?_
  generalize (if startsWithNoCase cs b!"0x" = true then scanHexadecimal b!"." (cs.drop 2) else scanDecimal b!"." cs) = x
  by_cases hs : floatSafe x = true
  · rw [if_pos hs]
    have hx : x = 0 ∨ (2 : ℚ) ^ (-90 : Int) ≤ |x| ∧ |x| ≤ (2 : ℚ) ^ (90 : Int) := by
      unfold floatSafe at hs
      simp only [Bool.or_eq_true, beq_iff_eq, Bool.and_eq_true, decide_eq_true_eq] at hs
      rcases hs with h | ⟨h1, h2⟩
      · exact .inl h
      · right
        have : 0 ≤ x := le_trans (by norm_num) h1
        rw [abs_of_nonneg this]
        constructor
        · norm_num at h1 ⊢; exact h1
        · norm_num at h2 ⊢; exact h2
    have hy : ∀ y : ℚ, y = 0 ∨ (2 : ℚ) ^ (-90 : Int) ≤ |y| ∧ |y| ≤ (2 : ℚ) ^ (90 : Int) →
        Track (fun x => Sized (-113) 90 x ∧ (x = 0 ∨ (2 : ℚ) ^ (-90 : Int) ≤ |x|)) (.ok (f32 y)) (Ieee.ieee32 y) := by
      rintro y (rfl | ⟨h1, h2⟩)
      · rw [f32_zero]
        have : Ieee.ieee32 0 = .ok 0 := by simp [Ieee.ieee32, Ieee.ieee]
        rw [this]
        exact .ok ⟨.zero _ _, .inl rfl⟩
      · rw [ieee32_large (le_trans (zpow_le_zpow_right₀ (by norm_num) (by norm_num)) h1) 90 h2]
        refine .ok ⟨⟨?_, abs_rnd_le (by norm_num) h2⟩, .inr (le_abs_rnd (by norm_num) h1)⟩
        have := Grid.of_large (p := 24) h1
        norm_num at this
        exact this
    apply hy
    split
    · rw [neg_eq_zero, abs_neg]; exact hx
    · exact hx
  · rw [if_neg hs]; exact .inl rfl

theorem textRatio_track (v : Str) {res : Int} (hr : InInt res) :
    Track (Sized (-144) 90) (do let f ← rawConvertFloat v; let q ← fdiv f (f32 res); pure (f32 q)) (Ieee.textRatio v res) := by
  unfold Ieee.textRatio
  refine (float_track v).bind fun f hf => ?_
  have fr := Sized.int hr
  rw [ieee32_fits fr]
  simp only [ok_bind]
  by_cases h0 : f32 (res : ℚ) = 0
  · rw [h0, fdiv_zero]; exact .error _
  · rw [fdiv_ne h0]
    simp only [ok_bind]
    obtain ⟨x, y⟩ := div32 hf.1 hf.2 fr.f32 h0
    rw [x]
    exact .ok y.mono

/-! ### Positions -/

/-- Sizes of a vertical position. -/
def GoodP (p : ℚ) : Prop := Sized (-149) 100 p

/-- The vertical position of a sub, if it has one, is of that size. -/
def PosOk (s : Raw) : Prop := ∀ p, s.vpos.prop = some p → GoodP p

/-- The `int`s of a context. -/
def CtxOk (c : SsaContext) : Prop := InInt c.resX ∧ InInt c.resY ∧ InInt c.lmargin ∧ InInt c.rmargin

theorem updateH_track {ctx : SsaContext} (hc : CtxOk ctx) (sub : Raw) :
    Track (fun s => s.vpos = sub.vpos ∧ s.fontSize = sub.fontSize) (ctx.updateH sub) (Ieee.updateH ctx sub) := by
  unfold SsaContext.updateH Ieee.updateH
  obtain ⟨h1, h2, h3, h4⟩ := hc
  cases sub.hpos.ref with
  | left => exact (intRatio_track h3 h1).bind fun _ _ => .ok ⟨rfl, rfl⟩
  | right => exact (intRatio_track h4 h1).bind fun _ _ => .ok ⟨rfl, rfl⟩
  | centre =>
    refine Track.bind (P := InInt) (.same fun x hx => ?_) fun d hd => Track.bind (P := InInt) (.same fun x hx => ?_) fun w hw =>
      (intRatio_track hd hw).bind fun _ _ => .ok ⟨rfl, rfl⟩
    · obtain ⟨i, rfl⟩ := ck_eq_ok.1 hx; exact i
    · obtain ⟨i, rfl⟩ := ck_eq_ok.1 hx; exact i

theorem align_track {ctx : SsaContext} (hc : CtxOk ctx) {sub : Raw} (hs : PosOk sub) (h : HRef) (v : VRef) :
    Track PosOk (ssaAlign ctx sub h v) (Ieee.ssaAlign ctx sub h v) := by
  unfold ssaAlign Ieee.ssaAlign
  refine (updateH_track hc _).imp fun s e => ?_
  intro p hp
  rw [e.1] at hp
  exact hs p hp

private theorem tag_rest {ctx : SsaContext} {sub : Raw} {tag : Str} (hs : PosOk sub)
    (n1 : tag ≠ b!"\\an1") (n2 : tag ≠ b!"\\an2") (n3 : tag ≠ b!"\\an3") (n4 : tag ≠ b!"\\an4") (n5 : tag ≠ b!"\\an5") (n6 : tag ≠ b!"\\an6")
    (n7 : tag ≠ b!"\\an7") (n8 : tag ≠ b!"\\an8") (n9 : tag ≠ b!"\\an9") (m1 : ¬startsWith tag b!"\\pos" = true)
    (m2 : ¬startsWith tag b!"\\fs" = true) (m3 : ¬startsWith tag b!"\\c" = true) (x : Raw) (h : ssaParseTag ctx sub tag = .ok x) : PosOk x := by
  unfold ssaParseTag at h
  rw [if_neg n1, if_neg n2, if_neg n3, if_neg n4, if_neg n5, if_neg n6, if_neg n7, if_neg n8, if_neg n9, if_neg m1, if_neg m2, if_neg m3] at h
  rcases ite_two h with ⟨-, h⟩ | ⟨-, h⟩
  · cases h; exact hs
  rcases ite_two h with ⟨-, h⟩ | ⟨-, h⟩
  · cases h; exact hs
  rcases ite_two h with ⟨-, h⟩ | ⟨-, h⟩
  · cases h; exact hs
  rcases ite_two h with ⟨-, h⟩ | ⟨-, h⟩
  · cases h; exact hs
  rcases ite_two h with ⟨-, h⟩ | ⟨-, h⟩
  · cases h; exact hs
  rcases ite_two h with ⟨-, h⟩ | ⟨-, h⟩
  · cases h; exact hs
  cases h; exact hs

private theorem tag_skip {ctx : SsaContext} {sub : Raw} {tag : Str}
    (h : startsWith tag b!"\\pos" = true ∨ startsWith tag b!"\\fs" = true ∨ startsWith tag b!"\\c" = true) :
    ssaParseTag ctx sub tag =
      if startsWith tag b!"\\pos" then
        match splitAny (fun c => c == 40 || c == 44) tag with
        | [_, x, y] => do
          let fx ← rawConvertFloat x
          let hp ← fdiv fx (f32 ctx.resX)
          let fy ← rawConvertFloat y
          let vp ← fdiv fy (f32 ctx.resY)
          pure { sub with hpos := ⟨.left, f32 hp⟩, vpos := { sub.vpos with ref := some .topOfScreen, prop := some (f32 vp) } }
        | _ => .error .programming
      else if startsWith tag b!"\\fs" then do
        subAssert (decide (tag.length > 3))
        let f ← rawConvertFloat (tag.drop 3)
        let q ← fdiv f (f32 ctx.resY)
        pure { sub with fontSize := { sub.fontSize with prop := some (f32 q) } }
      else if startsWith tag b!"\\c" then
        if tag.length > 2 then do
          let c ← hColour ((tag.drop 2).take (tag.length - 3))
          pure { sub with colour := c }
        else .ok { sub with colour := ctx.primaryColour }
      else .ok sub := by
  have ne : ∀ l : Str, (startsWith l b!"\\pos" || startsWith l b!"\\fs" || startsWith l b!"\\c") = false → tag ≠ l := by
    rintro l hl rfl
    simp only [Bool.or_eq_false_iff] at hl
    obtain ⟨⟨a, b⟩, c⟩ := hl
    rw [a, b, c] at h
    simp at h
  conv_lhs => unfold ssaParseTag
  rw [if_neg (ne _ (by decide +kernel)), if_neg (not_or.2 ⟨ne _ (by decide +kernel), ne _ (by decide +kernel)⟩), if_neg (ne _ (by decide +kernel)),
    if_neg (ne _ (by decide +kernel)), if_neg (ne _ (by decide +kernel)), if_neg (ne _ (by decide +kernel)), if_neg (ne _ (by decide +kernel)),
    if_neg (ne _ (by decide +kernel)), if_neg (ne _ (by decide +kernel)), if_neg (ne _ (by decide +kernel)), if_neg (ne _ (by decide +kernel)),
    if_neg (ne _ (by decide +kernel)), if_neg (ne _ (by decide +kernel)), if_neg (ne _ (by decide +kernel)), if_neg (ne _ (by decide +kernel))]
  rfl

theorem tag_track {ctx : SsaContext} (hc : CtxOk ctx) {sub : Raw} (hs : PosOk sub) (tag : Str) :
    Track PosOk (ssaParseTag ctx sub tag) (Ieee.ssaParseTag ctx sub tag) := by
  unfold Ieee.ssaParseTag
  by_cases n1 : tag = b!"\\an1"
  · rw [if_pos n1]; subst n1; rw [show ssaParseTag ctx sub b!"\\an1" = ssaAlign ctx sub .left .bottomOfScreen by simp [ssaParseTag]]; exact align_track hc hs _ _
  rw [if_neg n1]
  by_cases n2 : tag = b!"\\an2"
  · rw [if_pos n2]; subst n2; rw [show ssaParseTag ctx sub b!"\\an2" = ssaAlign ctx sub .centre .bottomOfScreen by simp [ssaParseTag]]; exact align_track hc hs _ _
  rw [if_neg n2]
  by_cases n3 : tag = b!"\\an3"
  · rw [if_pos n3]; subst n3; rw [show ssaParseTag ctx sub b!"\\an3" = ssaAlign ctx sub .right .bottomOfScreen by simp [ssaParseTag]]; exact align_track hc hs _ _
  rw [if_neg n3]
  by_cases n4 : tag = b!"\\an4"
  · rw [if_pos n4]; subst n4; rw [show ssaParseTag ctx sub b!"\\an4" = ssaAlign ctx sub .left .centreOfScreen by simp [ssaParseTag]]; exact align_track hc hs _ _
  rw [if_neg n4]
  by_cases n5 : tag = b!"\\an5"
  · rw [if_pos n5]; subst n5; rw [show ssaParseTag ctx sub b!"\\an5" = ssaAlign ctx sub .centre .centreOfScreen by simp [ssaParseTag]]; exact align_track hc hs _ _
  rw [if_neg n5]
  by_cases n6 : tag = b!"\\an6"
  · rw [if_pos n6]; subst n6; rw [show ssaParseTag ctx sub b!"\\an6" = ssaAlign ctx sub .right .centreOfScreen by simp [ssaParseTag]]; exact align_track hc hs _ _
  rw [if_neg n6]
  by_cases n7 : tag = b!"\\an7"
  · rw [if_pos n7]; subst n7; rw [show ssaParseTag ctx sub b!"\\an7" = ssaAlign ctx sub .left .topOfScreen by simp [ssaParseTag]]; exact align_track hc hs _ _
  rw [if_neg n7]
  by_cases n8 : tag = b!"\\an8"
  · rw [if_pos n8]; subst n8; rw [show ssaParseTag ctx sub b!"\\an8" = ssaAlign ctx sub .centre .topOfScreen by simp [ssaParseTag]]; exact align_track hc hs _ _
  rw [if_neg n8]
  by_cases n9 : tag = b!"\\an9"
  · rw [if_pos n9]; subst n9; rw [show ssaParseTag ctx sub b!"\\an9" = ssaAlign ctx sub .right .topOfScreen by simp [ssaParseTag]]; exact align_track hc hs _ _
  rw [if_neg n9]
  by_cases m1 : startsWith tag b!"\\pos" = true
  · rw [tag_skip (.inl m1), if_pos m1, if_pos m1]
    generalize splitAny (fun c => c == 40 || c == 44) tag = L
    rcases L with _ | ⟨u, _ | ⟨v, _ | ⟨w, _ | ⟨d, t⟩⟩⟩⟩
    · exact .error _
    · exact .error _
    · exact .error _
    · have tx := textRatio_track v hc.1
      have ty := textRatio_track w hc.2.1
      have := tx.bind (f := fun hp => do
          let vp ← (do let f ← rawConvertFloat w; let q ← fdiv f (f32 ctx.resY); pure (f32 q))
          pure { sub with hpos := ⟨.left, hp⟩, vpos := { sub.vpos with ref := some .topOfScreen, prop := some vp } })
        (g := fun hp => do
          let vp ← Ieee.textRatio w ctx.resY
          pure { sub with hpos := ⟨.left, hp⟩, vpos := { sub.vpos with ref := some .topOfScreen, prop := some vp } })
        (Q := PosOk) fun hp _ => ty.bind fun vp hv => .ok fun p hp => by cases hp; exact hv.mono
      simpa only [bind_assoc, pure_bind] using this
    · exact .error _
  rw [if_neg m1]
  by_cases m2 : startsWith tag b!"\\fs" = true
  · rw [tag_skip (.inr (.inl m2)), if_neg m1, if_pos m2, if_pos m2]
    refine Track.bind (P := fun _ => True) (.same fun _ _ => trivial) fun _ _ => ?_
    have := (textRatio_track (tag.drop 3) hc.2.1).bind (f := fun q => pure { sub with fontSize := { sub.fontSize with prop := some q } })
      (g := fun q => pure { sub with fontSize := { sub.fontSize with prop := some q } }) (Q := PosOk) fun q _ => .ok hs
    simpa only [bind_assoc, pure_bind] using this
  rw [if_neg m2]
  by_cases m3 : startsWith tag b!"\\c" = true
  · rw [tag_skip (.inr (.inr m3)), if_neg m1, if_neg m2, if_pos m3, if_pos m3]
    refine .ite (fun _ => ?_) fun _ => .ok hs
    rw [hColour_track]
    exact Track.bind (P := fun _ => True) (.same fun _ _ => trivial) fun c _ => .ok hs
  rw [if_neg m3]
  exact .same (tag_rest hs n1 n2 n3 n4 n5 n6 n7 n8 n9 m1 m2 m3)

private theorem f64_top {x : ℚ} (h : |x| ≤ 2 ^ 100 + 2 ^ 32) : |f64 x| ≤ (2 : ℚ) ^ (100 : Int) := by
  have e : f64 (2 ^ 100 + 2 ^ 32) = 2 ^ 100 := by decide +kernel
  rw [abs_le] at h ⊢
  have a := f64_mono h.1
  have b := f64_mono h.2
  have n : f64 (-(2 ^ 100 + 2 ^ 32)) = -f64 (2 ^ 100 + 2 ^ 32) := rnd_neg _ _
  rw [n, e] at a
  rw [e] at b
  norm_num at a b ⊢
  exact ⟨a, b⟩

theorem move_track {size : ℚ} (hl : Sized (-135) 32 size) {v : VPos} (hv : ∀ p, v.prop = some p → GoodP p) :
    Track (fun w => ∀ p, w.prop = some p → GoodP p) (ssaMoveDown size v) (Ieee.ssaMoveDown size v) := by
  unfold ssaMoveDown Ieee.ssaMoveDown
  refine Track.bind (P := fun _ => True) (.same fun _ _ => trivial) fun ref _ => ?_
  refine Track.bind (P := GoodP) (.same fun x hx => hv x (by unfold optGet at hx; split at hx <;> simp_all)) fun p hp => ?_
  have key : ∀ x : ℚ, Grid (-149) x → |x| ≤ 2 ^ 100 + 2 ^ 32 →
      (do let a ← Ieee.ieee64 x; let b ← Ieee.ieee32 a; pure { v with prop := some b } : R VPos) = .ok { v with prop := some (f32 (f64 x)) } ∧ GoodP (f32 (f64 x)) := by
    intro x hg hx
    have g1 : Sized (-149) 100 (f64 x) := ⟨hg.rnd, f64_top hx⟩
    rw [ieee64_grid (hg.mono (by norm_num)) 101 (hx.trans (by norm_num))]
    simp only [ok_bind]
    rw [ieee32_fits g1]
    exact ⟨rfl, g1.f32⟩
  have hl2 := hl.2
  have hp2 := hp.2
  norm_num at hl2 hp2
  by_cases hr : ref = .bottomOfScreen
  · obtain ⟨k1, k2⟩ := key (p - size) (hp.1.sub (hl.1.mono (by norm_num))) ((abs_sub _ _).trans (by norm_num; linarith))
    rw [if_pos hr, if_pos hr, k1]
    exact .ok fun q hq => by cases hq; exact k2
  · obtain ⟨k1, k2⟩ := key (p + size) (hp.1.add (hl.1.mono (by norm_num))) ((abs_add_le _ _).trans (by norm_num; linarith))
    rw [if_neg hr, if_neg hr, k1]
    exact .ok fun q hq => by cases hq; exact k2

/-! ### Lines -/

/-- All positions in the loop are of the right size. -/
def LoopOk (l : SsaLoop) : Prop := PosOk l.current ∧ ∀ s ∈ l.subs, PosOk s

theorem flush_ok {l : SsaLoop} (h : LoopOk l) : LoopOk l.flush := by
  unfold SsaLoop.flush
  split
  · exact h
  · refine ⟨h.1, fun s hs => ?_⟩
    rcases List.mem_append.1 hs with hs | hs
    · exact h.2 s hs
    · rw [List.mem_singleton.1 hs]; exact h.1

theorem step_track {ctx : SsaContext} (hc : CtxOk ctx) {size : ℚ} (hl : Sized (-135) 32 size) {l : SsaLoop} (h : LoopOk l) (c : Byte) :
    Track LoopOk (ssaStep ctx size l c) (Ieee.ssaStep ctx size l c) := by
  unfold ssaStep Ieee.ssaStep
  cases l.state with
  | text =>
    refine .ite (fun _ => .ok h) fun _ => .ite (fun _ => .ok h) fun _ => .ite (fun _ => .ok h) fun _ => .ok h
  | tag =>
    have hf := flush_ok h
    refine .ite (fun _ => (tag_track hc hf.1 _).bind fun cur hcur => .ok ⟨hcur, hf.2⟩) fun _ =>
      .ite (fun _ => (tag_track hc hf.1 _).bind fun cur hcur => .ok ⟨hcur, hf.2⟩) fun _ => .ok h
  | backslash =>
    have hf := flush_ok h
    refine .ite (fun _ => (move_track hl hf.1).bind fun v hv => .ok ⟨hv, hf.2⟩) fun _ => .ok h

theorem run_track {ctx : SsaContext} (hc : CtxOk ctx) {size : ℚ} (hl : Sized (-135) 32 size) (s : Str) : ∀ {l : SsaLoop}, LoopOk l →
    Track LoopOk (ssaRun ctx size l s) (Ieee.ssaRun ctx size l s) := by
  induction s with
  | nil => intro l h; exact .ok h
  | cons c cs ih => intro l h; exact (step_track hc hl h c).bind fun l' h' => ih h'

theorem finish_track {size : ℚ} (hl : Sized (-135) 32 size) {breaks : Nat} (hb : breaks < 2 ^ 31) {base : VPos} (hm : ∀ p, base.prop = some p → GoodP p)
    {s : Raw} (hs : PosOk s) : Track (fun _ => True) (ssaFinishPos base breaks size s) (Ieee.ssaFinishPos base breaks size s) := by
  unfold ssaFinishPos Ieee.ssaFinishPos
  refine Track.bind (P := fun _ => True) (.same fun _ _ => trivial) fun ref _ => ?_
  refine Track.bind (P := GoodP) (.same fun x hx => hs x (by unfold optGet at hx; split at hx <;> simp_all)) fun p hp => ?_
  have hg : GoodP (base.prop.getD 0) := by
    cases e : base.prop with
    | none => exact .zero _ _
    | some q => exact hm q e
  generalize base.prop.getD 0 = margin at hg
  dsimp only
  have sum := hp.add hg
  cases ref with
  | topOfScreen => simp only [ieee32_fits sum]; exact .ok trivial
  | topOfSubtitle => simp only [ieee32_fits sum]; exact .ok trivial
  | centreOfScreen =>
    have f1 := (Sized.nat (n := breaks + 1) (k := 31) (by omega)).mul hl
    have f2 := f1.f64.half
    have f3 := (hp.mono (g' := -149) (k' := 100)).sub (f2.f64.mono)
    simp only [ieee64_fits f1, ok_bind, ieee64_fits f2, ieee64_fits f3, ieee32_fits f3.f64]
    exact .ok trivial
  | bottomOfScreen =>
    have f1 := (Sized.nat (n := breaks) (k := 31) (by omega)).mul hl
    have f3 := (sum.f32.mono (g' := -149) (k' := 101)).add (f1.f64.mono)
    simp only [ieee32_fits sum, ieee64_fits f1, ok_bind, ieee64_fits f3, ieee32_fits f3.f64]
    exact .ok trivial

theorem finishAll_track {size : ℚ} (hl : Sized (-135) 32 size) {breaks : Nat} (hb : breaks < 2 ^ 31) {base : VPos} (hm : ∀ p, base.prop = some p → GoodP p) :
    ∀ {ss : List Raw}, (∀ s ∈ ss, PosOk s) → Track (fun _ => True) (ssaFinishAll base breaks size ss) (Ieee.ssaFinishAll base breaks size ss)
  | [], _ => .ok trivial
  | s :: ss, h => (finish_track hl hb hm (h s (by simp))).bind fun _ _ =>
      (finishAll_track hl hb hm fun t ht => h t (by simp [ht])).bind fun _ _ => .ok trivial

/-- Sizes of a font size. -/
def FontOk (s : Raw) : Prop := ∀ p, s.fontSize.prop = some p → Sized (-83) 31 p

theorem prepare_track {ctx : SsaContext} (hc : CtxOk ctx) {base : Raw} (hf : FontOk base) :
    Track (fun s => PosOk s ∧ ∃ p, s.fontSize.prop = some p ∧ Sized (-83) 31 p) (ssaPrepare ctx base) (Ieee.ssaPrepare ctx base) := by
  unfold ssaPrepare Ieee.ssaPrepare
  dsimp only
  refine (updateH_track hc _).bind fun cur hcur => ?_
  have hpos : PosOk cur := by
    intro p hp
    rw [hcur.1] at hp
    cases hp
    exact .zero _ _
  cases e : cur.fontSize.prop with
  | some p =>
    dsimp only
    refine .ok ⟨hpos, p, e, hf p ?_⟩
    rw [hcur.2] at e
    exact e
  | none =>
    dsimp only
    rw [ieee64_int hc.2.1]
    simp only [ok_bind]
    by_cases h0 : (ctx.resY : ℚ) = 0
    · rw [h0, fdiv_zero]; exact .error _
    · rw [fdiv_ne h0]
      simp only [ok_bind]
      have f72 : Sized 0 7 (72 : ℚ) := ⟨by simpa using Grid.int 72, by norm_num⟩
      obtain ⟨x, y⟩ := div64 f72 f72.low (Sized.int hc.2.1) h0
      rw [x]
      simp only [ok_bind]
      rw [ieee32_fits y]
      exact .ok ⟨hpos, _, rfl, y.f32.mono⟩

theorem breaks_le : ∀ s : Str, ssaLineBreaks s ≤ s.length
  | [] => by simp [ssaLineBreaks]
  | [_] => by simp [ssaLineBreaks]
  | a :: b :: rest => by
    have := breaks_le (b :: rest)
    rw [ssaLineBreaks, List.length_cons]
    split <;> omega

theorem line_track {ctx : SsaContext} (hc : CtxOk ctx) {base : Raw} (hf : FontOk base) (hp : PosOk base) {line : Str} (hn : line.length < 2 ^ 31) :
    Track (fun _ => True) (ssaParseLine ctx base line) (Ieee.ssaParseLine ctx base line) := by
  unfold ssaParseLine Ieee.ssaParseLine
  dsimp only
  refine (prepare_track hc hf).bind fun cur hcur => ?_
  obtain ⟨h1, p, e, h2⟩ := hcur
  have : cur.fontSize.proportionalAt ctx.resY = .ok p := by rw [FontSize.proportionalAt, e]
  rw [this]
  simp only [ok_bind]
  have e65 : Ieee.ieee64 (6 / 5) = .ok (f64 (6 / 5)) := by decide +kernel
  have f65 : Sized (-52) 1 (f64 (6 / 5)) := by
    refine ⟨⟨5404319552844595 + 0, ?_⟩, ?_⟩
    · have : f64 (6 / 5) = 5404319552844595 / 2 ^ 52 := by decide +kernel
      rw [this]; norm_num
    · have : f64 (6 / 5) = 5404319552844595 / 2 ^ 52 := by decide +kernel
      rw [this]; norm_num
  have m := h2.mul f65
  rw [e65]
  simp only [ok_bind]
  rw [ieee64_fits m]
  simp only [ok_bind]
  have hl : Sized (-135) 32 (f64 (p * f64 (6 / 5))) := m.f64.mono
  refine (run_track hc hl line (l := { current := cur }) ⟨h1, fun s hs => by cases hs⟩).bind fun l h => ?_
  exact finishAll_track hl (lt_of_le_of_lt (breaks_le line) hn) hp (flush_ok h).2

end LibSub
