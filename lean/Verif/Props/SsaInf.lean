/-
Property C137: SSA files with infinities, NaN and numbers of any size.
-/
import Verif.Model.SsaInf
import Verif.Props.SsaFails
import Verif.Props.Ieee
import Verif.Props.NumberText

namespace LibSub

/-! ### Specification -/

/-- A subtitle all of whose numbers are finite. -/
def Raw.finite (r : Raw) : XRaw :=
  { raw := { r with hpos := { r.hpos with prop := 0 }, vpos := { r.vpos with prop := none }, fontSize := { r.fontSize with prop := none } }
    hprop := .fin r.hpos.prop, vprop := r.vpos.prop.map .fin, fprop := r.fontSize.prop.map .fin }

/-- Lines that are the same, or tell a width (not so big that twice it is no `int`) or a height of the screen, perhaps different ones. -/
inductive SameButSize : Str → Str → Prop
  | same (l : Str) : SameButSize l l
  | width (l l' b b' : Str) (n n' : Int) : OnLine l (some (.field b!"PlayResX" b)) → OnLine l' (some (.field b!"PlayResX" b')) → IntAtStart b n → IntAtStart b' n' → InInt (2 * n) → InInt (2 * n') → SameButSize l l'
  | height (l l' b b' : Str) (n n' : Int) : OnLine l (some (.field b!"PlayResY" b)) → OnLine l' (some (.field b!"PlayResY" b')) → IntAtStart b n → IntAtStart b' n' → SameButSize l l'

/-- `cs` begins with `v`, in any case. -/
def Begins (cs v : Str) : Prop := ∃ u r, cs = u ++ r ∧ InAnyCase u v

/-- The `float` at the start of a text: an infinity, "not a number" or a number rounded as IEEE 754 has it.  What begins as `infinity` does, beyond `inf`, but is not this, is 0. -/
inductive FloatOrInf (s : Str) : XF → Prop
  | inf (neg : Bool) (cs : Str) : SignedAfterBlanks s neg cs → Begins cs b!"inf" → (Begins cs b!"infi" → Begins cs b!"infinity") → FloatOrInf s (.inf neg)
  | half (neg : Bool) (cs : Str) : SignedAfterBlanks s neg cs → Begins cs b!"infi" → ¬ Begins cs b!"infinity" → FloatOrInf s (.fin 0)
  | nan (neg : Bool) (cs : Str) : SignedAfterBlanks s neg cs → Begins cs b!"nan" → FloatOrInf s .nan
  | number (neg : Bool) (cs : Str) (v r : ℚ) : SignedAfterBlanks s neg cs → ¬ Begins cs b!"inf" → ¬ Begins cs b!"nan" → Unsigned cs v →
      IeeeRounded 24 (-149) 128 (if neg then -v else v) r → FloatOrInf s (.fin r)

/-- A number at the start of a text is too large for a `float`. -/
def TooLarge (s : Str) : Prop :=
  ∃ neg cs v, SignedAfterBlanks s neg cs ∧ ¬ Begins cs b!"inf" ∧ ¬ Begins cs b!"nan" ∧ Unsigned cs v ∧ ∀ r, ¬ IeeeRounded 24 (-149) 128 (if neg then -v else v) r

/-! ### Agreement with finite numbers -/

/-- `y` is what `x` is, unless `x` stops at an infinity or at a number that its model does not have. -/
def Agree {α β : Type} (x : R α) (y : R β) (f : α → β) : Prop := x = .error .nonFinite ∨ x = .error .unmodelled ∨ y = x.map f

theorem agree_ok {α β : Type} {a : α} {b : β} {f : α → β} (h : f a = b) : Agree (.ok a : R α) (.ok b : R β) f := .inr (.inr (by rw [← h]; rfl))

theorem agree_error {α β : Type} {e : Err} {f : α → β} : Agree (.error e : R α) (.error e : R β) f := .inr (.inr rfl)

theorem agree_bind {α β γ δ : Type} {x : R α} {y : R β} {f : α → β} {g : α → R γ} {h : β → R δ} {k : γ → δ} (h1 : Agree x y f) (h2 : ∀ a, Agree (g a) (h (f a)) k) :
    Agree (x >>= g) (y >>= h) k := by
  rcases h1 with rfl | rfl | rfl
  · exact .inl rfl
  · exact .inr (.inl rfl)
  · cases x with
    | error e => exact .inr (.inr rfl)
    | ok a => exact h2 a

theorem agree_same {α γ δ : Type} (x : R α) {g : α → R γ} {h : α → R δ} {k : γ → δ} (h2 : ∀ a, Agree (g a) (h a) k) : Agree (x >>= g) (x >>= h) k := by
  cases x with
  | error e => exact .inr (.inr rfl)
  | ok a => exact h2 a

private theorem agree_fdiv {γ δ : Type} {a b : ℚ} {g : ℚ → R γ} {y : R δ} {k : γ → δ} (h : (XF.fin a).div (.fin b) = .fin (a / b) → Agree (g (a / b)) y k) : Agree (fdiv a b >>= g) y k := by
  unfold fdiv
  by_cases h0 : b = 0
  · rw [if_pos h0]; exact .inl rfl
  · rw [if_neg h0]
    refine h ?_
    unfold XF.div
    simp only
    rw [if_neg h0]

private theorem ieee_error {p : Nat} {a b : Int} {x : ℚ} {e : Err} (h : Ieee.ieee p a b x = .error e) : e = .nonFinite := by
  unfold Ieee.ieee at h
  simp only at h
  split at h
  · cases h
  split at h
  · cases h
  · cases h; rfl

private theorem agree_f32 {γ δ : Type} {x : ℚ} {g : ℚ → R γ} {y : R δ} {k : γ → δ} (h : ∀ r, (XF.fin x).f32 = .fin r → Agree (g r) y k) : Agree (Ieee.ieee32 x >>= g) y k := by
  cases hx : Ieee.ieee32 x with
  | error e => rw [ieee_error hx]; exact .inl rfl
  | ok r => exact h r (by simp only [XF.f32, hx])

private theorem agree_f64 {γ δ : Type} {x : ℚ} {g : ℚ → R γ} {y : R δ} {k : γ → δ} (h : ∀ r, (XF.fin x).f64 = .fin r → Agree (g r) y k) : Agree (Ieee.ieee64 x >>= g) y k := by
  cases hx : Ieee.ieee64 x with
  | error e => rw [ieee_error hx]; exact .inl rfl
  | ok r => exact h r (by simp only [XF.f64, hx])

private theorem agree_last32 (x : ℚ) : Agree (Ieee.ieee32 x) (.ok (XF.fin x).f32) XF.fin := by
  cases hx : Ieee.ieee32 x with
  | error e => rw [ieee_error hx]; exact .inl rfl
  | ok r => exact agree_ok (by simp only [XF.f32, hx])

private theorem ratio_agree (a b : Int) : Agree (Ieee.intRatio a b) (.ok (intRatioX a b)) XF.fin := by
  unfold Ieee.intRatio intRatioX XF.ofInt
  refine agree_f32 fun x hx => agree_f32 fun y hy => ?_
  rw [hx, hy]
  refine agree_fdiv fun h => ?_
  rw [h]
  exact agree_last32 _

private theorem number_agree (v : Str) : Agree (Ieee.rawConvertFloat v) (rawConvertFloatX v) XF.fin := by
  unfold Ieee.rawConvertFloat rawConvertFloatX Ieee.scanFloat scanFloatX
  simp only
  generalize takeSign ((makeLocal Locale.c v).dropWhile isSpace) = p
  obtain ⟨neg, cs⟩ := p
  simp only
  by_cases h1 : startsWithNoCase cs b!"inf" = true
  · rw [h1, Bool.true_or, if_pos rfl]; exact .inr (.inl rfl)
  by_cases h2 : startsWithNoCase cs b!"nan" = true
  · rw [h2, Bool.or_true, if_pos rfl]; exact .inr (.inl rfl)
  rw [if_neg (by simp [h1, h2]), if_neg h1, if_neg h2]
  cases hx : Ieee.ieee32 (if neg = true then -(if startsWithNoCase cs b!"0x" = true then scanHexadecimal b!"." (cs.drop 2) else scanDecimal b!"." cs)
      else (if startsWithNoCase cs b!"0x" = true then scanHexadecimal b!"." (cs.drop 2) else scanDecimal b!"." cs)) with
  | error e => rw [ieee_error hx]; exact .inl rfl
  | ok r => exact agree_ok rfl

private theorem textRatio_agree (v : Str) (n : Int) : Agree (Ieee.textRatio v n) (textRatioX v n) XF.fin := by
  unfold Ieee.textRatio textRatioX XF.ofInt
  refine agree_bind (number_agree v) fun f => agree_f32 fun y hy => agree_fdiv fun h => ?_
  rw [hy, h]
  exact agree_last32 _

private theorem updateH_agree (ctx : SsaContext) (sub : Raw) : Agree (Ieee.updateH ctx sub) (ctx.updateHX sub.finite) Raw.finite := by
  unfold Ieee.updateH SsaContext.updateHX
  simp only
  have e : sub.finite.raw.hpos.ref = sub.hpos.ref := rfl
  rw [e]
  cases hr : sub.hpos.ref with
  | left => exact agree_bind (ratio_agree _ _) fun a => agree_ok (by simp [Raw.finite, hr])
  | centre => exact agree_same _ fun d => agree_same _ fun w => agree_bind (ratio_agree _ _) fun a => agree_ok (by simp [Raw.finite, hr])
  | right => exact agree_bind (ratio_agree _ _) fun a => agree_ok (by simp [Raw.finite, hr])

private theorem align_agree (ctx : SsaContext) (sub : Raw) (h : HRef) (v : VRef) : Agree (Ieee.ssaAlign ctx sub h v) (ssaAlignX ctx sub.finite h v) Raw.finite := by
  unfold Ieee.ssaAlign ssaAlignX
  exact updateH_agree ctx { sub with hpos := { sub.hpos with ref := h }, vpos := { sub.vpos with ref := some v } }

theorem agree_ite {α β : Type} {c : Prop} [Decidable c] {x x' : R α} {y y' : R β} {f : α → β} (h : c → Agree x y f) (h' : ¬ c → Agree x' y' f) :
    Agree (if c then x else x') (if c then y else y') f := by
  by_cases hc : c
  · rw [if_pos hc, if_pos hc]; exact h hc
  · rw [if_neg hc, if_neg hc]; exact h' hc

/-- The tags in the order of the source. -/
private theorem ieee_tag (ctx : SsaContext) (sub : Raw) (tag : Str) : Ieee.ssaParseTag ctx sub tag =
    if tag = b!"\\i1" then .ok { sub with italic := true }
    else if tag = b!"\\i0" ∨ tag = b!"\\i" then .ok { sub with italic := false }
    else if tag = b!"\\b1" then .ok { sub with bold := true }
    else if tag = b!"\\b0" then .ok { sub with bold := false }
    else if tag = b!"\\u1" then .ok { sub with underline := true }
    else if tag = b!"\\u0" then .ok { sub with underline := false }
    else if tag = b!"\\an1" then Ieee.ssaAlign ctx sub .left .bottomOfScreen
    else if tag = b!"\\an2" then Ieee.ssaAlign ctx sub .centre .bottomOfScreen
    else if tag = b!"\\an3" then Ieee.ssaAlign ctx sub .right .bottomOfScreen
    else if tag = b!"\\an4" then Ieee.ssaAlign ctx sub .left .centreOfScreen
    else if tag = b!"\\an5" then Ieee.ssaAlign ctx sub .centre .centreOfScreen
    else if tag = b!"\\an6" then Ieee.ssaAlign ctx sub .right .centreOfScreen
    else if tag = b!"\\an7" then Ieee.ssaAlign ctx sub .left .topOfScreen
    else if tag = b!"\\an8" then Ieee.ssaAlign ctx sub .centre .topOfScreen
    else if tag = b!"\\an9" then Ieee.ssaAlign ctx sub .right .topOfScreen
    else if startsWith tag b!"\\pos" then
      match splitAny (fun c => c == 40 || c == 44) tag with
      | [_, x, y] => do
        let hp ← Ieee.textRatio x ctx.resX
        let vp ← Ieee.textRatio y ctx.resY
        pure { sub with hpos := ⟨.left, hp⟩, vpos := { sub.vpos with ref := some .topOfScreen, prop := some vp } }
      | _ => .error .programming
    else if startsWith tag b!"\\fs" then do
      subAssert (decide (tag.length > 3))
      let q ← Ieee.textRatio (tag.drop 3) ctx.resY
      pure { sub with fontSize := { sub.fontSize with prop := some q } }
    else if startsWith tag b!"\\c" then
      if tag.length > 2 then do
        let c ← hColour ((tag.drop 2).take (tag.length - 3))
        pure { sub with colour := c }
      else .ok { sub with colour := ctx.primaryColour }
    else .ok sub := by
  by_cases h1 : tag = b!"\\i1"
  · subst h1; simp [Ieee.ssaParseTag, ssaParseTag, startsWith, List.isPrefixOf]
  by_cases h2 : tag = b!"\\i0" ∨ tag = b!"\\i"
  · rcases h2 with rfl | rfl <;> simp [Ieee.ssaParseTag, ssaParseTag, startsWith, List.isPrefixOf]
  by_cases h3 : tag = b!"\\b1"
  · subst h3; simp [Ieee.ssaParseTag, ssaParseTag, startsWith, List.isPrefixOf]
  by_cases h4 : tag = b!"\\b0"
  · subst h4; simp [Ieee.ssaParseTag, ssaParseTag, startsWith, List.isPrefixOf]
  by_cases h5 : tag = b!"\\u1"
  · subst h5; simp [Ieee.ssaParseTag, ssaParseTag, startsWith, List.isPrefixOf]
  by_cases h6 : tag = b!"\\u0"
  · subst h6; simp [Ieee.ssaParseTag, ssaParseTag, startsWith, List.isPrefixOf]
  rw [if_neg h1, if_neg h2, if_neg h3, if_neg h4, if_neg h5, if_neg h6]
  unfold Ieee.ssaParseTag
  rw [hColour_track]
  by_cases n1 : tag = b!"\\an1"
  · rw [if_pos n1, if_pos n1]
  rw [if_neg n1, if_neg n1]
  by_cases n2 : tag = b!"\\an2"
  · rw [if_pos n2, if_pos n2]
  rw [if_neg n2, if_neg n2]
  by_cases n3 : tag = b!"\\an3"
  · rw [if_pos n3, if_pos n3]
  rw [if_neg n3, if_neg n3]
  by_cases n4 : tag = b!"\\an4"
  · rw [if_pos n4, if_pos n4]
  rw [if_neg n4, if_neg n4]
  by_cases n5 : tag = b!"\\an5"
  · rw [if_pos n5, if_pos n5]
  rw [if_neg n5, if_neg n5]
  by_cases n6 : tag = b!"\\an6"
  · rw [if_pos n6, if_pos n6]
  rw [if_neg n6, if_neg n6]
  by_cases n7 : tag = b!"\\an7"
  · rw [if_pos n7, if_pos n7]
  rw [if_neg n7, if_neg n7]
  by_cases n8 : tag = b!"\\an8"
  · rw [if_pos n8, if_pos n8]
  rw [if_neg n8, if_neg n8]
  by_cases n9 : tag = b!"\\an9"
  · rw [if_pos n9, if_pos n9]
  rw [if_neg n9, if_neg n9]
  by_cases m1 : startsWith tag b!"\\pos" = true
  · rw [if_pos m1, if_pos m1]; rfl
  rw [if_neg m1, if_neg m1]
  by_cases m2 : startsWith tag b!"\\fs" = true
  · rw [if_pos m2, if_pos m2]
  rw [if_neg m2, if_neg m2]
  by_cases m3 : startsWith tag b!"\\c" = true
  · rw [if_pos m3, if_pos m3]
  rw [if_neg m3, if_neg m3]
  unfold ssaParseTag
  rw [if_neg h1, if_neg h2, if_neg h3, if_neg h4, if_neg h5, if_neg h6, if_neg n1, if_neg n2, if_neg n3, if_neg n4, if_neg n5, if_neg n6, if_neg n7, if_neg n8, if_neg n9, if_neg m1, if_neg m2, if_neg m3]

theorem tag_agree (ctx : SsaContext) (sub : Raw) (tag : Str) : Agree (Ieee.ssaParseTag ctx sub tag) (ssaParseTagX ctx sub.finite tag) Raw.finite := by
  rw [ieee_tag]
  unfold ssaParseTagX
  refine agree_ite (fun _ => agree_ok rfl) fun _ => ?_
  refine agree_ite (fun _ => agree_ok rfl) fun _ => ?_
  refine agree_ite (fun _ => agree_ok rfl) fun _ => ?_
  refine agree_ite (fun _ => agree_ok rfl) fun _ => ?_
  refine agree_ite (fun _ => agree_ok rfl) fun _ => ?_
  refine agree_ite (fun _ => agree_ok rfl) fun _ => ?_
  refine agree_ite (fun _ => align_agree _ _ _ _) fun _ => ?_
  refine agree_ite (fun _ => align_agree _ _ _ _) fun _ => ?_
  refine agree_ite (fun _ => align_agree _ _ _ _) fun _ => ?_
  refine agree_ite (fun _ => align_agree _ _ _ _) fun _ => ?_
  refine agree_ite (fun _ => align_agree _ _ _ _) fun _ => ?_
  refine agree_ite (fun _ => align_agree _ _ _ _) fun _ => ?_
  refine agree_ite (fun _ => align_agree _ _ _ _) fun _ => ?_
  refine agree_ite (fun _ => align_agree _ _ _ _) fun _ => ?_
  refine agree_ite (fun _ => align_agree _ _ _ _) fun _ => ?_
  refine agree_ite (fun _ => ?_) fun _ => ?_
  · rcases splitAny (fun c => c == 40 || c == 44) tag with _ | ⟨a, _ | ⟨x, _ | ⟨y, _ | ⟨z, zs⟩⟩⟩⟩
    · exact agree_error
    · exact agree_error
    · exact agree_error
    · exact agree_bind (textRatio_agree x _) fun hp => agree_bind (textRatio_agree y _) fun vp => agree_ok rfl
    · exact agree_error
  refine agree_ite (fun _ => agree_same _ fun _ => agree_bind (textRatio_agree _ _) fun q => agree_ok rfl) fun _ => ?_
  refine agree_ite (fun _ => ?_) fun _ => agree_ok rfl
  exact agree_ite (fun _ => agree_same _ fun c => agree_ok rfl) fun _ => agree_ok rfl

/-- The state of the loop. -/
private def SsaLoop.finite (l : SsaLoop) : SsaLoopX := { state := l.state, subs := l.subs.map Raw.finite, current := l.current.finite, tag := l.tag }

private theorem flush_finite (l : SsaLoop) : l.finite.flush = l.flush.finite := by
  unfold SsaLoop.flush SsaLoopX.flush
  show (if l.current.text.isEmpty then _ else _) = _
  by_cases h : l.current.text.isEmpty
  · rw [if_pos h, if_pos h]
  · rw [if_neg h, if_neg h]
    simp [SsaLoop.finite, Raw.finite]

private theorem moveDown_agree (q : ℚ) (s : Raw) : Agree (Ieee.ssaMoveDown q s.vpos) (ssaMoveDownX (.fin q) s.finite) (fun v => Raw.finite { s with vpos := v }) := by
  unfold Ieee.ssaMoveDown ssaMoveDownX
  show Agree _ (optGet s.vpos.ref >>= _) _
  refine agree_same _ fun ref => ?_
  refine agree_bind (f := XF.fin) ?_ fun p => ?_
  · show Agree (optGet s.vpos.prop) (optGet (s.vpos.prop.map XF.fin)) _
    cases s.vpos.prop with
    | none => exact agree_error
    | some p => exact agree_ok rfl
  · by_cases h : ref = .bottomOfScreen
    · rw [if_pos h, if_pos h]
      refine agree_f64 fun a ha => agree_f32 fun b hb => agree_ok ?_
      rw [show (XF.fin p).sub (.fin q) = .fin (p - q) from by simp [XF.sub, XF.neg, XF.add, sub_eq_add_neg], ha, hb]
      rfl
    · rw [if_neg h, if_neg h]
      refine agree_f64 fun a ha => agree_f32 fun b hb => agree_ok ?_
      rw [show (XF.fin p).add (.fin q) = .fin (p + q) from rfl, ha, hb]
      rfl

private theorem step_agree (ctx : SsaContext) (q : ℚ) (l : SsaLoop) (c : Byte) : Agree (Ieee.ssaStep ctx q l c) (ssaStepX ctx (.fin q) l.finite c) SsaLoop.finite := by
  obtain ⟨state, subs, cur, tag⟩ := l
  unfold Ieee.ssaStep ssaStepX
  show Agree _ (match state with | .text => _ | .tag => _ | .backslash => _) _
  cases state with
  | text =>
    exact agree_ite (fun _ => agree_ok rfl) fun _ => agree_ite (fun _ => agree_ok rfl) fun _ => agree_ite (fun _ => agree_ok rfl) fun _ => agree_ok rfl
  | tag =>
    refine agree_ite (fun _ => ?_) fun _ => agree_ite (fun _ => ?_) fun _ => agree_ok rfl
    · simp only [flush_finite]
      exact agree_bind (tag_agree ctx _ _) fun a => agree_ok rfl
    · simp only [flush_finite]
      exact agree_bind (tag_agree ctx _ _) fun a => agree_ok rfl
  | backslash =>
    refine agree_ite (fun _ => ?_) fun _ => agree_ok rfl
    simp only [flush_finite]
    exact agree_bind (moveDown_agree q _) fun a => agree_ok rfl

private theorem run_agree (ctx : SsaContext) (q : ℚ) : ∀ (cs : Str) (l : SsaLoop), Agree (Ieee.ssaRun ctx q l cs) (ssaRunX ctx (.fin q) l.finite cs) SsaLoop.finite := by
  intro cs
  induction cs with
  | nil => intro l; exact agree_ok rfl
  | cons c cs ih => intro l; rw [Ieee.ssaRun, ssaRunX]; exact agree_bind (step_agree ctx q l c) fun l' => ih l'

private theorem finishPos_agree (b : VPos) (n : Nat) (q : ℚ) (s : Raw) : Agree (Ieee.ssaFinishPos b n q s) (ssaFinishPosX (.fin (b.prop.getD 0)) n (.fin q) s.finite) Raw.finite := by
  unfold Ieee.ssaFinishPos ssaFinishPosX
  show Agree _ (optGet s.vpos.ref >>= _) _
  refine agree_same _ fun ref => ?_
  refine agree_bind (f := XF.fin) ?_ fun p => ?_
  · show Agree (optGet s.vpos.prop) (optGet (s.vpos.prop.map XF.fin)) _
    cases s.vpos.prop with
    | none => exact agree_error
    | some p => exact agree_ok rfl
  · cases ref
    · refine agree_f32 fun a ha => agree_ok ?_
      simp only
      rw [show (XF.fin p).add (.fin (b.prop.getD 0)) = .fin (p + b.prop.getD 0) from rfl, ha]
      rfl
    · refine agree_f64 fun x1 h1 => agree_f64 fun x2 h2 => agree_f64 fun x3 h3 => agree_f32 fun x4 h4 => agree_ok ?_
      simp only
      rw [show (XF.fin ((n + 1 : Nat) : ℚ)).mul (.fin q) = .fin ((n + 1 : Nat) * q) from rfl, h1, show (XF.fin x1).div (.fin 2) = .fin (x1 / 2) from by simp [XF.div], h2,
        show (XF.fin p).sub (.fin x2) = .fin (p - x2) from by simp [XF.sub, XF.neg, XF.add, sub_eq_add_neg], h3, h4]
      rfl
    · refine agree_f32 fun x1 h1 => agree_f64 fun x2 h2 => agree_f64 fun x3 h3 => agree_f32 fun x4 h4 => agree_ok ?_
      simp only
      rw [show (XF.fin p).add (.fin (b.prop.getD 0)) = .fin (p + b.prop.getD 0) from rfl, h1, show (XF.fin (n : ℚ)).mul (.fin q) = .fin (n * q) from rfl, h2,
        show (XF.fin x1).add (.fin x2) = .fin (x1 + x2) from rfl, h3, h4]
      rfl
    · refine agree_f32 fun a ha => agree_ok ?_
      simp only
      rw [show (XF.fin p).add (.fin (b.prop.getD 0)) = .fin (p + b.prop.getD 0) from rfl, ha]
      rfl

private theorem finishAll_agree (b : VPos) (n : Nat) (q : ℚ) : ∀ ss : List Raw, Agree (Ieee.ssaFinishAll b n q ss) (ssaFinishAllX (.fin (b.prop.getD 0)) n (.fin q) (ss.map Raw.finite)) (List.map Raw.finite) := by
  intro ss
  induction ss with
  | nil => exact agree_ok rfl
  | cons s ss ih =>
    rw [Ieee.ssaFinishAll, List.map_cons, ssaFinishAllX]
    exact agree_bind (finishPos_agree b n q s) fun a => agree_bind ih fun as => agree_ok rfl

private theorem prepare_agree (ctx : SsaContext) (base : Raw) : Agree (Ieee.ssaPrepare ctx base) (ssaPrepareX ctx base.finite) Raw.finite := by
  unfold Ieee.ssaPrepare ssaPrepareX
  refine agree_bind (updateH_agree ctx { base with vpos := { base.vpos with ref := some (base.vpos.ref.getD .bottomOfScreen), prop := some 0 } }) fun cur => ?_
  show Agree _ (match cur.fontSize.prop.map XF.fin with | some _ => _ | none => _) _
  cases h : cur.fontSize.prop with
  | some p => exact agree_ok rfl
  | none =>
    refine agree_f64 fun y hy => agree_fdiv fun hd => ?_
    rw [hy, hd]
    refine agree_f64 fun x1 h1 => agree_f32 fun x2 h2 => ?_
    rw [h1, h2]
    exact agree_ok rfl

private theorem prepare_size {ctx : SsaContext} {base cur : Raw} (h : Ieee.ssaPrepare ctx base = .ok cur) : ∃ p, cur.fontSize.prop = some p := by
  unfold Ieee.ssaPrepare at h
  obtain ⟨a, _, h⟩ := bind_eq_ok.1 h
  cases hp : a.fontSize.prop with
  | some p =>
    rw [hp] at h
    cases h
    exact ⟨p, hp⟩
  | none =>
    rw [hp] at h
    obtain ⟨_, _, h⟩ := bind_eq_ok.1 h
    obtain ⟨_, _, h⟩ := bind_eq_ok.1 h
    obtain ⟨_, _, h⟩ := bind_eq_ok.1 h
    obtain ⟨_, _, h⟩ := bind_eq_ok.1 h
    cases h
    exact ⟨_, rfl⟩

private theorem line_agree (ctx : SsaContext) (base : Raw) (line : Str) : Agree (Ieee.ssaParseLine ctx base line) (ssaParseLineX ctx base.finite line) (List.map Raw.finite) := by
  unfold Ieee.ssaParseLine ssaParseLineX
  rcases prepare_agree ctx base with h | h | h
  · rw [h]; exact .inl rfl
  · rw [h]; exact .inr (.inl rfl)
  rw [h]
  cases hc : Ieee.ssaPrepare ctx base with
  | error e => exact .inr (.inr rfl)
  | ok cur =>
    obtain ⟨p, hp⟩ := prepare_size hc
    have e1 : cur.fontSize.proportionalAt ctx.resY = .ok p := by unfold FontSize.proportionalAt; rw [hp]
    have e2 : cur.finite.proportionalAt ctx.resY = .ok (.fin p) := by
      unfold XRaw.proportionalAt
      rw [show cur.finite.fprop = cur.fontSize.prop.map XF.fin from rfl, hp]
      rfl
    rw [ok_bind]
    show Agree _ (cur.finite.proportionalAt ctx.resY >>= _) _
    rw [e1, e2, ok_bind, ok_bind]
    refine agree_f64 fun k hk => agree_f64 fun q hq => ?_
    rw [hk, show (XF.fin p).mul (.fin k) = .fin (p * k) from rfl, hq]
    refine agree_bind (run_agree ctx _ line { current := cur }) fun l => ?_
    rw [flush_finite]
    have : base.finite.vprop.getD (.fin 0) = .fin (base.vpos.prop.getD 0) := by
      show (base.vpos.prop.map XF.fin).getD (.fin 0) = _
      cases base.vpos.prop <;> rfl
    rw [this]
    exact finishAll_agree _ _ _ _

/-- The state of the loop over columns. -/
private def SsaEvent.finite (ev : SsaEvent) : SsaEventX := { sub := ev.sub.finite, style := ev.style, lmargin := ev.lmargin, rmargin := ev.rmargin, subs := ev.subs.map Raw.finite }

private theorem style_agree (h : Int) (ev : SsaEvent) (st : SsaStyle) : Agree (Ieee.ssaApplyStyle h ev st) (.ok (ssaApplyStyleX h ev.finite st)) SsaEvent.finite := by
  rcases ratio_agree st.fontSize h with h1 | h1 | h1
  · unfold Ieee.ssaApplyStyle; rw [h1]; exact .inl rfl
  · unfold Ieee.ssaApplyStyle; rw [h1]; exact .inr (.inl rfl)
  cases h2 : Ieee.intRatio st.fontSize h with
  | error e => rw [h2] at h1; cases h1
  | ok a =>
    rw [h2] at h1
    have h1 := Except.ok.inj h1
    unfold Ieee.ssaApplyStyle ssaApplyStyleX
    rw [h2, ok_bind, h1]
    simp only
    by_cases hc : (st.vref != .centreOfScreen) = true
    · rw [if_pos hc, if_pos hc]
      rcases ratio_agree st.vmargin h with h3 | h3 | h3
      · rw [h3]; exact .inl rfl
      · rw [h3]; exact .inr (.inl rfl)
      cases h4 : Ieee.intRatio st.vmargin h with
      | error e => rw [h4] at h3; cases h3
      | ok b =>
        rw [h4] at h3
        have h3 := Except.ok.inj h3
        rw [h3]
        exact agree_ok rfl
    · rw [if_neg hc, if_neg hc]
      exact agree_ok rfl

private theorem column_agree (r : SsaRead) (ev : SsaEvent) (k v : Str) : Agree (Ieee.ssaEventField r ev k v) (ssaEventFieldX r ev.finite k v) SsaEvent.finite := by
  unfold Ieee.ssaEventField ssaEventFieldX
  simp only
  by_cases h1 : k = b!"Style"
  · subst h1
    rw [if_pos rfl, if_neg (show ¬ b!"Style" = b!"Start" by decide +kernel), if_neg (show ¬ b!"Style" = b!"End" by decide +kernel), if_pos rfl]
    cases ssaFindStyle r.styles (trimLeftIf (· == 42) (trim v)) with
    | none => exact agree_ok rfl
    | some st => exact style_agree _ _ _
  by_cases h2 : k = b!"MarginV"
  · subst h2
    rw [if_neg h1, if_pos rfl, if_neg (show ¬ b!"MarginV" = b!"Start" by decide +kernel), if_neg (show ¬ b!"MarginV" = b!"End" by decide +kernel), if_neg h1, if_pos rfl]
    exact agree_ite (fun _ => agree_bind (textRatio_agree _ _) fun q => agree_ok rfl) fun _ => agree_ok rfl
  by_cases h3 : k = b!"Text"
  · subst h3
    rw [if_neg h1, if_neg h2, if_pos rfl, if_neg (show ¬ b!"Text" = b!"Start" by decide +kernel), if_neg (show ¬ b!"Text" = b!"End" by decide +kernel), if_neg h1, if_neg h2,
      if_neg (show ¬ b!"Text" = b!"MarginL" by decide +kernel), if_neg (show ¬ b!"Text" = b!"MarginR" by decide +kernel), if_pos rfl]
    refine agree_bind (line_agree _ _ _) fun subs => agree_ok ?_
    simp [SsaEvent.finite]
  rw [if_neg h1, if_neg h2, if_neg h3, if_neg h1, if_neg h2, if_neg h3]
  unfold ssaEventField
  simp only
  rw [if_neg h1, if_neg h2, if_neg h3]
  refine agree_ite (fun _ => agree_same _ fun _ => agree_ok rfl) fun _ => ?_
  refine agree_ite (fun _ => agree_same _ fun _ => agree_ok rfl) fun _ => ?_
  refine agree_ite (fun _ => agree_ite (fun _ => agree_same _ fun _ => agree_ok rfl) fun _ => agree_ok rfl) fun _ => ?_
  exact agree_ite (fun _ => agree_ite (fun _ => agree_same _ fun _ => agree_ok rfl) fun _ => agree_ok rfl) fun _ => agree_ok rfl

private theorem columns_agree (r : SsaRead) : ∀ (cs : List (Str × Str)) (ev : SsaEvent), Agree (Ieee.ssaEventFields r ev cs) (ssaEventFieldsX r ev.finite cs) SsaEvent.finite := by
  intro cs
  induction cs with
  | nil => intro ev; exact agree_ok rfl
  | cons c cs ih => obtain ⟨k, v⟩ := c; intro ev; rw [Ieee.ssaEventFields, ssaEventFieldsX]; exact agree_bind (column_agree r ev k v) fun ev' => ih ev'

/-- The state of the reader. -/
private def SsaRead.finite (r : SsaRead) : SsaReadX := { read := { r with subs := [] }, subs := r.subs.map Raw.finite }

private theorem columns_subs (r : SsaRead) (s : List Raw) : ∀ (cs : List (Str × Str)) (ev : SsaEventX), ssaEventFieldsX { r with subs := s } ev cs = ssaEventFieldsX r ev cs := by
  intro cs
  induction cs with
  | nil => intro ev; rfl
  | cons c cs ih => obtain ⟨k, v⟩ := c; intro ev; rw [ssaEventFieldsX, ssaEventFieldsX]; simp only [ih]; rfl

private theorem dialogue_agree (r : SsaRead) (b : Str) : Agree (Ieee.ssaDialogue r b) (ssaDialogueX r.finite b) SsaRead.finite := by
  unfold Ieee.ssaDialogue ssaDialogueX
  refine agree_same _ fun _ => agree_same _ fun _ => agree_same _ fun _ => ?_
  have : ssaEventFieldsX r.finite.read {} = ssaEventFieldsX r {} := funext fun cs => columns_subs r [] cs {}
  rw [this]
  refine agree_bind (columns_agree r _ {}) fun ev => agree_ok ?_
  simp [SsaRead.finite, SsaEvent.finite]

private theorem styleMake_eq (a b : Str) : Ieee.styleMake a b = SsaStyle.make a b := by
  rcases styleMake_track a b with h | ⟨h, _⟩
  · exfalso
    cases (C134_style a b _).1 h with
    | column _ _ _ _ _ _ _ _ _ _ _ h6 =>
      cases h6 with
      | number _ _ _ _ h7 => cases h7.2
      | decimal _ _ _ _ _ h7 => cases h7.2
  · exact h

private theorem fileLine_agree (r : SsaRead) (l : Str) : Agree (Ieee.ssaLine r l) (ssaLineX r.finite l) SsaRead.finite := by
  obtain ⟨part, resX, resY, styles, sf, ef, subs⟩ := r
  unfold Ieee.ssaLine ssaLineX
  simp only [styleMake_eq]
  refine agree_ite (fun _ => agree_ok rfl) fun _ => ?_
  refine agree_ite (fun _ => agree_ite (fun _ => agree_ok rfl) fun _ => agree_ite (fun _ => agree_ok rfl) fun _ => agree_ite (fun _ => agree_ok rfl) fun _ => agree_ok rfl) fun _ => ?_
  cases (removeBom (trim l)).findIdx? (· == 58) with
  | none => exact agree_error
  | some n =>
    simp only
    show Agree _ (match part with | .info => _ | .styles => _ | .events => _) _
    cases part with
    | info =>
      exact agree_ite (fun _ => agree_same _ fun _ => agree_ok rfl) fun _ => agree_ite (fun _ => agree_same _ fun _ => agree_ok rfl) fun _ => agree_ok rfl
    | styles =>
      exact agree_ite (fun _ => agree_ok rfl) fun _ => agree_ite (fun _ => agree_same _ fun _ => agree_same _ fun _ => agree_ok rfl) fun _ => agree_ok rfl
    | events =>
      exact agree_ite (fun _ => agree_ok rfl) fun _ => agree_ite (fun _ => dialogue_agree _ _) fun _ => agree_ok rfl

private theorem lines_agree : ∀ (ls : List Str) (r : SsaRead), Agree (Ieee.ssaLines r ls) (ssaLinesX r.finite ls) SsaRead.finite := by
  intro ls
  induction ls with
  | nil => intro r; exact agree_ok rfl
  | cons l ls ih => intro r; rw [Ieee.ssaLines, ssaLinesX]; exact agree_bind (fileLine_agree r l) fun r' => ih r'

private theorem ieee_lines (lines : List Str) : (Ieee.ssaLines {} lines = .error .nonFinite ∨ Ieee.ssaLines {} lines = .error .unmodelled) ∨
    (ssaLinesX {} lines).map (fun r => r.subs) = (Ieee.ssaLines {} lines).map (fun r => r.subs.map Raw.finite) := by
  have e0 : SsaRead.finite {} = {} := rfl
  rcases lines_agree lines {} with h | h | h
  · exact .inl (.inl h)
  · exact .inl (.inr h)
  · rw [e0] at h
    rw [h]
    right
    cases Ieee.ssaLines {} lines with
    | error e => rfl
    | ok r => rfl

/-- C137: where the first model gives subtitles or an error, so does this one. -/
theorem C137_agree (lines : List Str) (hl : ∀ l ∈ lines, l.length < 2 ^ 31) (h : ssaReadLines lines ≠ .error .nonFinite ∧ ssaReadLines lines ≠ .error .unmodelled) :
    (ssaLinesX {} lines).map (fun r => r.subs) = (ssaReadLines lines).map (List.map Raw.finite) := by
  have hr : ssaReadLines lines = (ssaLines {} lines).map (·.subs) := rfl
  rw [hr] at h ⊢
  rcases (ssaLines_track lines hl ssaRead_start).eq with h1 | h1
  · rw [h1] at h
    exact absurd rfl h.2
  · rcases ieee_lines lines with (h2 | h2) | h2
    · rw [← h1, h2] at h
      exact absurd rfl h.1
    · rw [← h1, h2] at h
      exact absurd rfl h.2
    · rw [h2, h1]
      cases ssaLines {} lines with
      | error e => rfl
      | ok r => rfl

example : ∃ lines : List Str, (∀ l ∈ lines, l.length < 2 ^ 31) ∧ (ssaReadLines lines ≠ .error .nonFinite ∧ ssaReadLines lines ≠ .error .unmodelled) ∧
    (ssaLinesX {} lines).toOption.map (fun r => r.subs.map XRaw.vprop) = some [some (.fin (1 / 4)), some (.fin (1 / 2))] :=
  ⟨[b!"[Script Info]", b!"PlayResY: 4", b!"[Events]", b!"Format: Text", b!"Dialogue: {\\an8\\pos(1,1)}a{\\pos(1,2)}b"], by decide +kernel, by decide +kernel, by decide +kernel⟩

/-! ### Numbers in the file -/

private theorem begins_prefix {cs v w : Str} (h : Begins cs (v ++ w)) : Begins cs v := by
  unfold Begins at *
  rw [← noCase_iff] at *
  unfold startsWithNoCase at *
  rw [startsWith_iff] at *
  obtain ⟨t, ht⟩ := h
  exact ⟨w ++ t, by rw [← ht, List.append_assoc]⟩

private theorem begins_inf_nan {cs : Str} (h : Begins cs b!"inf") (h' : Begins cs b!"nan") : False := by
  obtain ⟨u, r, rfl, hu⟩ := h
  obtain ⟨u', r', he, hu'⟩ := h'
  rw [inAnyCase_iff] at hu hu'
  have l1 : u.length = 3 := by rw [← List.length_map (as := u) lowerByte]; exact congrArg List.length hu
  have l2 : u'.length = 3 := by rw [← List.length_map (as := u') lowerByte]; exact congrArg List.length hu'
  have := (List.append_inj he (by omega)).1
  subst this
  rw [hu] at hu'
  exact absurd hu' (by decide)

/-- C137: the number that the reader takes from a text; only one too large for `float` gives none, and scanning such is undefined behaviour. -/
theorem C137_text (s : Str) (y : XF) (e : Err) :
    (rawConvertFloatX s = .ok y ↔ FloatOrInf s y) ∧ (rawConvertFloatX s = .error e ↔ TooLarge s ∧ e = .ub .scanfRange) := by
  obtain ⟨neg, cs, hp⟩ : ∃ neg cs, takeSign (s.dropWhile isSpace) = (neg, cs) := ⟨_, _, rfl⟩
  have hs := (signedAfterBlanks_iff s neg cs).2 hp
  have uniq : ∀ {n' c'}, SignedAfterBlanks s n' c' → n' = neg ∧ c' = cs := by
    intro n' c' h'
    rw [signedAfterBlanks_iff, hp] at h'
    cases h'
    exact ⟨rfl, rfl⟩
  obtain ⟨v, hv⟩ : ∃ v, v = if startsWithNoCase cs b!"0x" then scanHexadecimal b!"." (cs.drop 2) else scanDecimal b!"." cs := ⟨_, rfl⟩
  have hu := (unsigned_iff cs v).2 hv
  have uv : ∀ {w}, Unsigned cs w → w = v := fun h' => ((unsigned_iff cs _).1 h').trans hv.symm
  unfold rawConvertFloatX
  rw [makeLocal_classic]
  unfold scanFloatX
  rw [hp]
  have nb : ∀ {v : Str}, Begins cs v → startsWithNoCase cs v = true := fun h => (noCase_iff cs _).2 h
  have nn : ∀ {v : Str}, ¬ Begins cs v → ¬ startsWithNoCase cs v = true := fun h h' => h ((noCase_iff cs _).1 h')
  simp only [← hv]
  by_cases h1 : Begins cs b!"inf"
  · have hn : ¬ Begins cs b!"nan" := fun h => begins_inf_nan h1 h
    rw [if_pos (nb h1)]
    have no : ¬ TooLarge s := by
      rintro ⟨n', c', w, a, b, -⟩
      obtain ⟨rfl, rfl⟩ := uniq a
      exact b h1
    by_cases h2 : Begins cs b!"infi" ∧ ¬ Begins cs b!"infinity"
    · rw [if_pos (by rw [nb h2.1, Bool.eq_false_of_not_eq_true (nn h2.2)]; rfl)]
      refine ⟨⟨fun h => ?_, fun h => ?_⟩, ⟨nofun, fun h => absurd h.1 no⟩⟩
      · cases h; exact .half neg cs hs h2.1 h2.2
      · cases h with
        | inf n' c' a b c => obtain ⟨rfl, rfl⟩ := uniq a; exact absurd (c h2.1) h2.2
        | half n' c' a b c => rfl
        | nan n' c' a b => obtain ⟨rfl, rfl⟩ := uniq a; exact absurd b hn
        | number n' c' v r a b c => obtain ⟨rfl, rfl⟩ := uniq a; exact absurd h1 b
    · rw [if_neg (fun h => h2 (by rw [Bool.and_eq_true, Bool.not_eq_true', ← Bool.not_eq_true] at h; exact ⟨(noCase_iff cs _).1 h.1, fun h' => h.2 (nb h')⟩))]
      refine ⟨⟨fun h => ?_, fun h => ?_⟩, ⟨nofun, fun h => absurd h.1 no⟩⟩
      · cases h; exact .inf neg cs hs h1 fun h3 => by_contra fun h4 => h2 ⟨h3, h4⟩
      · cases h with
        | inf n' c' a b c => obtain ⟨rfl, rfl⟩ := uniq a; rfl
        | half n' c' a b c => obtain ⟨rfl, rfl⟩ := uniq a; exact absurd ⟨b, c⟩ h2
        | nan n' c' a b => obtain ⟨rfl, rfl⟩ := uniq a; exact absurd b hn
        | number n' c' v r a b c => obtain ⟨rfl, rfl⟩ := uniq a; exact absurd h1 b
  rw [if_neg (nn h1)]
  have h1' : ¬ Begins cs b!"infi" := fun h => h1 (begins_prefix (v := b!"inf") (w := b!"i") h)
  by_cases h2 : Begins cs b!"nan"
  · rw [if_pos (nb h2)]
    refine ⟨⟨fun h => ?_, fun h => ?_⟩, ⟨nofun, ?_⟩⟩
    · cases h; exact .nan neg cs hs h2
    · cases h with
      | inf n' c' a b c => obtain ⟨rfl, rfl⟩ := uniq a; exact absurd b h1
      | half n' c' a b c => obtain ⟨rfl, rfl⟩ := uniq a; exact absurd b h1'
      | nan n' c' a b => rfl
      | number n' c' v r a b c => obtain ⟨rfl, rfl⟩ := uniq a; exact absurd h2 c
    · rintro ⟨⟨n', c', w, a, _, b, _⟩, _⟩
      obtain ⟨rfl, rfl⟩ := uniq a
      exact absurd h2 b
  rw [if_neg (nn h2)]
  cases hr : Ieee.ieee32 (if neg = true then -v else v) with
  | ok r =>
    have hr' := (C126_rounding _ _).1.1 hr
    refine ⟨⟨fun h => ?_, fun h => ?_⟩, ⟨nofun, ?_⟩⟩
    · cases h; exact .number neg cs v r hs h1 h2 hu hr'
    · cases h with
      | inf n' c' a b c => obtain ⟨rfl, rfl⟩ := uniq a; exact absurd b h1
      | half n' c' a b c => obtain ⟨rfl, rfl⟩ := uniq a; exact absurd b h1'
      | nan n' c' a b => obtain ⟨rfl, rfl⟩ := uniq a; exact absurd b h2
      | number n' c' w r' a _ _ b c =>
        obtain ⟨rfl, rfl⟩ := uniq a
        rw [uv b] at c
        rw [(C126_rounding _ _).1.2 c] at hr
        cases hr; rfl
    · rintro ⟨⟨n', c', w, a, _, _, b, c⟩, _⟩
      obtain ⟨rfl, rfl⟩ := uniq a
      rw [uv b] at c
      exact absurd hr' (c r)
  | error e' =>
    have hr' : ∀ r, ¬ IeeeRounded 24 (-149) 128 (if neg = true then -v else v) r := by
      intro r h
      rw [(C126_rounding _ _).1.2 h] at hr
      cases hr
    refine ⟨⟨nofun, fun h => ?_⟩, ⟨fun h => ?_, fun h => ?_⟩⟩
    · cases h with
      | inf n' c' a b c => obtain ⟨rfl, rfl⟩ := uniq a; exact absurd b h1
      | half n' c' a b c => obtain ⟨rfl, rfl⟩ := uniq a; exact absurd b h1'
      | nan n' c' a b => obtain ⟨rfl, rfl⟩ := uniq a; exact absurd b h2
      | number n' c' w r' a _ _ b c =>
        obtain ⟨rfl, rfl⟩ := uniq a
        rw [uv b] at c
        exact absurd c (hr' _)
    · cases h; exact ⟨⟨neg, cs, v, hs, h1, h2, hu, hr'⟩, rfl⟩
    · rw [h.2]

example : FloatOrInf b!" -Infinity" (.inf true) ∧ FloatOrInf b!"infix" (.fin 0) ∧ FloatOrInf b!"inf)" (.inf false) ∧ FloatOrInf b!"NaN" .nan ∧ FloatOrInf b!"1e-50" (.fin 0) ∧
    FloatOrInf b!"1e30" (.fin (f32 (10 ^ 30))) ∧ TooLarge b!"-1e39" :=
  ⟨(C137_text _ _ .programming).1.1 (by decide +kernel), (C137_text _ _ .programming).1.1 (by decide +kernel), (C137_text _ _ .programming).1.1 (by decide +kernel), (C137_text _ _ .programming).1.1 (by decide +kernel),
    (C137_text _ _ .programming).1.1 (by decide +kernel), (C137_text _ _ .programming).1.1 (by decide +kernel), ((C137_text _ .nan (.ub .scanfRange)).2.1 (by decide +kernel)).1⟩

/-! ### Only places and sizes depend on the size of the screen -/

/-- Both give something, and these are related; or both give the same error. -/
private def Rel {α β : Type} (P : α → β → Prop) (x : R α) (y : R β) : Prop :=
  (∃ a b, x = .ok a ∧ y = .ok b ∧ P a b) ∨ ∃ e, x = .error e ∧ y = .error e

private theorem rel_ok {α β : Type} {P : α → β → Prop} {a : α} {b : β} (h : P a b) : Rel P (.ok a) (.ok b) := .inl ⟨a, b, rfl, rfl, h⟩

private theorem rel_error {α β : Type} {P : α → β → Prop} {e : Err} : Rel P (.error e : R α) (.error e : R β) := .inr ⟨e, rfl, rfl⟩

private theorem rel_bind {α β γ δ : Type} {P : α → β → Prop} {Q : γ → δ → Prop} {x : R α} {y : R β} {g : α → R γ} {h : β → R δ} (h1 : Rel P x y) (h2 : ∀ a b, P a b → Rel Q (g a) (h b)) :
    Rel Q (x >>= g) (y >>= h) := by
  rcases h1 with ⟨a, b, rfl, rfl, hp⟩ | ⟨e, rfl, rfl⟩
  · exact h2 a b hp
  · exact .inr ⟨e, rfl, rfl⟩

private theorem rel_same {α γ δ : Type} {Q : γ → δ → Prop} (x : R α) {g : α → R γ} {h : α → R δ} (h2 : ∀ a, Rel Q (g a) (h a)) : Rel Q (x >>= g) (x >>= h) := by
  cases x with
  | error e => exact .inr ⟨e, rfl, rfl⟩
  | ok a => exact h2 a

private theorem rel_ite {α β : Type} {P : α → β → Prop} {c : Prop} [Decidable c] {x x' : R α} {y y' : R β} (h : c → Rel P x y) (h' : ¬ c → Rel P x' y') :
    Rel P (if c then x else x') (if c then y else y') := by
  by_cases hc : c
  · rw [if_pos hc, if_pos hc]; exact h hc
  · rw [if_neg hc, if_neg hc]; exact h' hc

/-- The same except for the three numbers. -/
private def Like (x y : XRaw) : Prop := x.raw = y.raw ∧ x.vprop.isSome = y.vprop.isSome ∧ x.fprop.isSome = y.fprop.isSome

/-- Widths for which nothing overflows, or the same. -/
private def LikeWidth (a b : Int) : Prop := a = b ∨ (InInt (2 * a) ∧ InInt (2 * b))

private def LikeCtx (c d : SsaContext) : Prop := LikeWidth c.resX d.resX ∧ c.primaryColour = d.primaryColour ∧ c.lmargin = d.lmargin ∧ c.rmargin = d.rmargin

private theorem rel_updateH {c d : SsaContext} (hc : LikeCtx c d) {x y : XRaw} (h : Like x y) : Rel Like (c.updateHX x) (d.updateHX y) := by
  obtain ⟨hw, _, hl, hr⟩ := hc
  unfold SsaContext.updateHX
  rw [h.1, hl, hr]
  simp only
  cases y.raw.hpos.ref with
  | left => exact rel_ok ⟨rfl, h.2⟩
  | right => exact rel_ok ⟨rfl, h.2⟩
  | centre =>
    refine rel_same _ fun _ => ?_
    rcases hw with hw | ⟨h1, h2⟩
    · rw [hw]
      exact rel_same _ fun _ => rel_ok ⟨rfl, h.2⟩
    · rw [ck_ok h1, ck_ok h2]
      exact rel_ok ⟨rfl, h.2⟩

private theorem rel_align {c d : SsaContext} (hc : LikeCtx c d) {x y : XRaw} (h : Like x y) (hr : HRef) (v : VRef) : Rel Like (ssaAlignX c x hr v) (ssaAlignX d y hr v) := by
  unfold ssaAlignX
  refine rel_updateH hc ⟨?_, h.2⟩
  simp only [h.1]

private theorem rel_ratio (v : Str) (n m : Int) : Rel (fun _ _ => True) (textRatioX v n) (textRatioX v m) := by
  unfold textRatioX
  exact rel_same _ fun _ => rel_ok trivial

private theorem rel_tag {c d : SsaContext} (hc : LikeCtx c d) {x y : XRaw} (h : Like x y) (tag : Str) : Rel Like (ssaParseTagX c x tag) (ssaParseTagX d y tag) := by
  have hn := h
  obtain ⟨raw, hp, vp, fp⟩ := x
  obtain ⟨raw', hp', vp', fp'⟩ := y
  obtain ⟨h1, h2, h3⟩ := hn
  simp only at h1 h2 h3
  subst h1
  unfold ssaParseTagX
  refine rel_ite (fun _ => rel_ok ⟨rfl, h2, h3⟩) fun _ => ?_
  refine rel_ite (fun _ => rel_ok ⟨rfl, h2, h3⟩) fun _ => ?_
  refine rel_ite (fun _ => rel_ok ⟨rfl, h2, h3⟩) fun _ => ?_
  refine rel_ite (fun _ => rel_ok ⟨rfl, h2, h3⟩) fun _ => ?_
  refine rel_ite (fun _ => rel_ok ⟨rfl, h2, h3⟩) fun _ => ?_
  refine rel_ite (fun _ => rel_ok ⟨rfl, h2, h3⟩) fun _ => ?_
  refine rel_ite (fun _ => rel_align hc h _ _) fun _ => ?_
  refine rel_ite (fun _ => rel_align hc h _ _) fun _ => ?_
  refine rel_ite (fun _ => rel_align hc h _ _) fun _ => ?_
  refine rel_ite (fun _ => rel_align hc h _ _) fun _ => ?_
  refine rel_ite (fun _ => rel_align hc h _ _) fun _ => ?_
  refine rel_ite (fun _ => rel_align hc h _ _) fun _ => ?_
  refine rel_ite (fun _ => rel_align hc h _ _) fun _ => ?_
  refine rel_ite (fun _ => rel_align hc h _ _) fun _ => ?_
  refine rel_ite (fun _ => rel_align hc h _ _) fun _ => ?_
  refine rel_ite (fun _ => ?_) fun _ => ?_
  · rcases splitAny (fun c => c == 40 || c == 44) tag with _ | ⟨a, _ | ⟨x, _ | ⟨y, _ | ⟨z, zs⟩⟩⟩⟩
    · exact rel_error
    · exact rel_error
    · exact rel_error
    · exact rel_bind (rel_ratio x _ _) fun _ _ _ => rel_bind (rel_ratio y _ _) fun _ _ _ => rel_ok ⟨rfl, rfl, h3⟩
    · exact rel_error
  refine rel_ite (fun _ => rel_same _ fun _ => rel_bind (rel_ratio _ _ _) fun _ _ _ => rel_ok ⟨rfl, h2, rfl⟩) fun _ => ?_
  refine rel_ite (fun _ => ?_) fun _ => rel_ok h
  refine rel_ite (fun _ => rel_same _ fun _ => rel_ok ⟨rfl, h2, h3⟩) fun _ => rel_ok ⟨?_, h2, h3⟩
  simp only [hc.2.1]

private def LikeLoop (l m : SsaLoopX) : Prop := l.state = m.state ∧ List.Forall₂ Like l.subs m.subs ∧ Like l.current m.current ∧ l.tag = m.tag

private theorem rel_append {α β : Type} {P : α → β → Prop} {a : List α} {b : List β} {c : List α} {d : List β} (h : List.Forall₂ P a b) (h' : List.Forall₂ P c d) : List.Forall₂ P (a ++ c) (b ++ d) := by
  induction h with
  | nil => exact h'
  | cons h _ ih => exact .cons h ih

private theorem like_flush {l m : SsaLoopX} (h : LikeLoop l m) : LikeLoop l.flush m.flush := by
  unfold SsaLoopX.flush
  rw [h.2.2.1.1]
  by_cases hc : m.current.raw.text.isEmpty = true
  · rw [if_pos hc, if_pos hc]; exact h
  · rw [if_neg hc, if_neg hc]
    exact ⟨h.1, rel_append h.2.1 (.cons h.2.2.1 .nil), ⟨rfl, h.2.2.1.2⟩, h.2.2.2⟩

private theorem rel_opt {α : Type} {o p : Option α} (h : o.isSome = p.isSome) : Rel (fun _ _ => True) (optGet o) (optGet p) := by
  cases o with
  | none =>
    cases p with
    | none => exact rel_error
    | some _ => cases h
  | some a =>
    cases p with
    | none => cases h
    | some b => exact rel_ok trivial

private theorem rel_down (q q' : XF) {x y : XRaw} (h : Like x y) : Rel Like (ssaMoveDownX q x) (ssaMoveDownX q' y) := by
  unfold ssaMoveDownX
  rw [h.1]
  refine rel_same _ fun ref => rel_bind (rel_opt h.2.1) fun p p' _ => ?_
  exact rel_ite (fun _ => rel_ok ⟨rfl, rfl, h.2.2⟩) fun _ => rel_ok ⟨rfl, rfl, h.2.2⟩

private theorem rel_step {c d : SsaContext} (hc : LikeCtx c d) (q q' : XF) {l m : SsaLoopX} (h : LikeLoop l m) (b : Byte) : Rel LikeLoop (ssaStepX c q l b) (ssaStepX d q' m b) := by
  have hf := like_flush h
  have hn := h
  obtain ⟨h1, h2, h3, h4⟩ := hn
  unfold ssaStepX
  simp only
  rw [h1]
  cases hs : m.state with
  | text =>
    refine rel_ite (fun _ => rel_ok ⟨rfl, h2, h3, h4⟩) fun _ => rel_ite (fun _ => rel_ok ⟨rfl, h2, h3, h4⟩) fun _ => rel_ite (fun _ => rel_ok ⟨?_, h2, ⟨?_, h3.2⟩, h4⟩) fun _ => rel_ok h
    · rfl
    · simp only [h3.1]
  | tag =>
    simp only
    rw [hf.2.2.2]
    refine rel_ite (fun _ => rel_bind (rel_tag hc hf.2.2.1 _) fun a a' ha => rel_ok ⟨rfl, hf.2.1, ha, rfl⟩) fun _ =>
      rel_ite (fun _ => rel_bind (rel_tag hc hf.2.2.1 _) fun a a' ha => rel_ok ⟨hf.1, hf.2.1, ha, rfl⟩) fun _ => rel_ok ⟨?_, h2, h3, ?_⟩
    · rfl
    · simp only [h4]
  | backslash =>
    exact rel_ite (fun _ => rel_bind (rel_down _ _ hf.2.2.1) fun a a' ha => rel_ok ⟨rfl, hf.2.1, ha, hf.2.2.2⟩) fun _ => rel_ok ⟨rfl, h2, h3, h4⟩

private theorem rel_run {c d : SsaContext} (hc : LikeCtx c d) (q q' : XF) : ∀ (cs : Str) {l m : SsaLoopX}, LikeLoop l m → Rel LikeLoop (ssaRunX c q l cs) (ssaRunX d q' m cs) := by
  intro cs
  induction cs with
  | nil => intro l m h; exact rel_ok h
  | cons b cs ih => intro l m h; rw [ssaRunX, ssaRunX]; exact rel_bind (rel_step hc q q' h b) fun _ _ h' => ih h'

private theorem rel_finish (g g' : XF) (n : Nat) (q q' : XF) {xs ys : List XRaw} (h : List.Forall₂ Like xs ys) : Rel (List.Forall₂ Like) (ssaFinishAllX g n q xs) (ssaFinishAllX g' n q' ys) := by
  induction h with
  | nil => exact rel_ok .nil
  | cons h _ ih =>
    rw [ssaFinishAllX, ssaFinishAllX]
    refine rel_bind (P := Like) ?_ fun a b hab => rel_bind ih fun as bs hs => rel_ok (.cons hab hs)
    unfold ssaFinishPosX
    rw [h.1]
    exact rel_same _ fun ref => rel_bind (rel_opt h.2.1) fun p p' _ => rel_ok ⟨rfl, rfl, h.2.2⟩

private theorem rel_prepare {c d : SsaContext} (hc : LikeCtx c d) {x y : XRaw} (h : Like x y) : Rel Like (ssaPrepareX c x) (ssaPrepareX d y) := by
  unfold ssaPrepareX
  simp only
  refine rel_bind (P := Like) (rel_updateH hc ⟨?_, rfl, h.2.2⟩) fun a b hab => ?_
  · simp only [h.1]
  · have h3 := hab.2.2
    cases ha : a.fprop with
    | none =>
      rw [ha] at h3
      cases hb : b.fprop with
      | none => exact rel_ok ⟨hab.1, hab.2.1, rfl⟩
      | some _ => rw [hb] at h3; cases h3
    | some _ =>
      rw [ha] at h3
      cases hb : b.fprop with
      | none => rw [hb] at h3; cases h3
      | some _ => exact rel_ok hab

private theorem rel_text {c d : SsaContext} (hc : LikeCtx c d) {x y : XRaw} (h : Like x y) (line : Str) : Rel (List.Forall₂ Like) (ssaParseLineX c x line) (ssaParseLineX d y line) := by
  unfold ssaParseLineX
  refine rel_bind (rel_prepare hc h) fun a b hab => ?_
  refine rel_bind (P := fun _ _ => True) ?_ fun q q' _ => ?_
  · unfold XRaw.proportionalAt
    have h3 := hab.2.2
    rw [hab.1]
    cases ha : a.fprop with
    | none =>
      rw [ha] at h3
      cases hb : b.fprop with
      | none => exact rel_same _ fun _ => rel_ok trivial
      | some _ => rw [hb] at h3; cases h3
    | some _ =>
      rw [ha] at h3
      cases hb : b.fprop with
      | none => rw [hb] at h3; cases h3
      | some _ => exact rel_ok trivial
  · exact rel_bind (rel_run hc _ _ line ⟨rfl, .nil, hab, rfl⟩) fun l m hl => rel_finish _ _ _ _ _ (like_flush hl).2.1

private def LikeEvent (a b : SsaEventX) : Prop := Like a.sub b.sub ∧ a.style = b.style ∧ a.lmargin = b.lmargin ∧ a.rmargin = b.rmargin ∧ List.Forall₂ Like a.subs b.subs

private def LikeRead (r s : SsaRead) : Prop := LikeWidth r.resX s.resX ∧ r.part = s.part ∧ r.styles = s.styles ∧ r.styleFormat = s.styleFormat ∧ r.eventFormat = s.eventFormat

private theorem like_style (y y' : Int) {a b : SsaEventX} (h : LikeEvent a b) (st : SsaStyle) : LikeEvent (ssaApplyStyleX y a st) (ssaApplyStyleX y' b st) := by
  obtain ⟨⟨h1, h2, h3⟩, h4, h5, h6, h7⟩ := h
  unfold ssaApplyStyleX
  refine ⟨⟨?_, ?_, rfl⟩, rfl, rfl, rfl, h7⟩
  · simp only [h1]
  · simp only
    split
    · rfl
    · exact h2

private theorem rel_column {r s : SsaRead} (hr : LikeRead r s) {a b : SsaEventX} (h : LikeEvent a b) (k v : Str) : Rel LikeEvent (ssaEventFieldX r a k v) (ssaEventFieldX s b k v) := by
  have hn := h
  obtain ⟨⟨h1, h2, h3⟩, h4, h5, h6, h7⟩ := hn
  unfold ssaEventFieldX
  simp only
  rw [hr.2.2.1, h1]
  refine rel_ite (fun _ => rel_same _ fun _ => rel_ok ⟨⟨rfl, h2, h3⟩, h4, h5, h6, h7⟩) fun _ => ?_
  refine rel_ite (fun _ => rel_same _ fun _ => rel_ok ⟨⟨rfl, h2, h3⟩, h4, h5, h6, h7⟩) fun _ => ?_
  refine rel_ite (fun _ => ?_) fun _ => ?_
  · cases ssaFindStyle s.styles (trimLeftIf (· == 42) (trim v)) with
    | none => exact rel_ok h
    | some st => exact rel_ok (like_style _ _ h st)
  refine rel_ite (fun _ => rel_ite (fun _ => rel_bind (rel_ratio _ _ _) fun _ _ _ => rel_ok ⟨⟨rfl, rfl, h3⟩, h4, h5, h6, h7⟩) fun _ => rel_ok h) fun _ => ?_
  refine rel_ite (fun _ => rel_ite (fun _ => rel_same _ fun _ => rel_ok ⟨⟨h1, h2, h3⟩, h4, rfl, h6, h7⟩) fun _ => rel_ok h) fun _ => ?_
  refine rel_ite (fun _ => rel_ite (fun _ => rel_same _ fun _ => rel_ok ⟨⟨h1, h2, h3⟩, h4, h5, rfl, h7⟩) fun _ => rel_ok h) fun _ => ?_
  refine rel_ite (fun _ => ?_) fun _ => rel_ok h
  refine rel_bind (rel_text ⟨hr.1, ?_, h5, h6⟩ ⟨h1, h2, h3⟩ _) fun xs ys hxy => rel_ok ⟨⟨h1, h2, h3⟩, h4, h5, h6, rel_append h7 hxy⟩
  simp only [h4]

private theorem rel_columns {r s : SsaRead} (hr : LikeRead r s) : ∀ (cs : List (Str × Str)) {a b : SsaEventX}, LikeEvent a b → Rel LikeEvent (ssaEventFieldsX r a cs) (ssaEventFieldsX s b cs) := by
  intro cs
  induction cs with
  | nil => intro a b h; exact rel_ok h
  | cons c cs ih => obtain ⟨k, v⟩ := c; intro a b h; rw [ssaEventFieldsX, ssaEventFieldsX]; exact rel_bind (rel_column hr h k v) fun _ _ h' => ih h'

private def LikeReadX (r s : SsaReadX) : Prop := LikeRead r.read s.read ∧ List.Forall₂ Like r.subs s.subs

private theorem rel_dialogue {r s : SsaReadX} (h : LikeReadX r s) (body : Str) : Rel LikeReadX (ssaDialogueX r body) (ssaDialogueX s body) := by
  unfold ssaDialogueX
  simp only
  rw [h.1.2.2.2.2]
  refine rel_same _ fun _ => rel_same _ fun _ => rel_same _ fun _ => ?_
  exact rel_bind (rel_columns h.1 _ ⟨⟨rfl, rfl, rfl⟩, rfl, rfl, rfl, .nil⟩) fun a b hab => rel_ok ⟨h.1, rel_append h.2 hab.2.2.2.2⟩

private theorem rel_line {r s : SsaReadX} (h : LikeReadX r s) (l : Str) : Rel LikeReadX (ssaLineX r l) (ssaLineX s l) := by
  have hn := h
  obtain ⟨⟨h1, h2, h3, h4, h5⟩, h6⟩ := hn
  unfold ssaLineX
  simp only
  rw [h2, h4, h3]
  refine rel_ite (fun _ => rel_ok h) fun _ => ?_
  refine rel_ite (fun _ => rel_ite (fun _ => rel_ok ⟨⟨h1, rfl, rfl, rfl, h5⟩, h6⟩) fun _ => rel_ite (fun _ => rel_ok ⟨⟨h1, rfl, rfl, rfl, h5⟩, h6⟩) fun _ => rel_ite (fun _ => rel_ok ⟨⟨h1, rfl, rfl, rfl, h5⟩, h6⟩) fun _ => rel_ok h) fun _ => ?_
  cases (removeBom (trim l)).findIdx? (· == 58) with
  | none => exact rel_error
  | some n =>
    simp only
    cases hp : s.read.part with
    | info =>
      exact rel_ite (fun _ => rel_same _ fun _ => rel_ok ⟨⟨.inl rfl, rfl, rfl, rfl, h5⟩, h6⟩) fun _ => rel_ite (fun _ => rel_same _ fun _ => rel_ok ⟨⟨h1, rfl, rfl, rfl, h5⟩, h6⟩) fun _ => rel_ok h
    | styles =>
      exact rel_ite (fun _ => rel_ok ⟨⟨h1, rfl, rfl, rfl, h5⟩, h6⟩) fun _ => rel_ite (fun _ => rel_same _ fun _ => rel_same _ fun _ => rel_ok ⟨⟨h1, rfl, rfl, rfl, h5⟩, h6⟩) fun _ => rel_ok h
    | events =>
      exact rel_ite (fun _ => rel_ok ⟨⟨h1, rfl, rfl, rfl, rfl⟩, h6⟩) fun _ => rel_ite (fun _ => rel_dialogue h _) fun _ => rel_ok h

/-- A line other than one of dialogue does the same in both models. -/
private theorem lineX_eq (r : SsaReadX) {l type body : Str} (h : OnLine l (some (.field type body))) (ht : type ≠ b!"Dialogue") :
    ssaLineX r l = (ssaLine r.read l).map fun q => { r with read := q } := by
  have key : ∀ n, (removeBom (trim l)).findIdx? (· == 58) = some n → (removeBom (trim l)).take n = type := by
    cases h with
    | field type rest h hc h1 h2 =>
      intro n hn
      unfold ssaClean at h
      rw [h] at hn ⊢
      have e3 : (type ++ 58 :: rest).findIdx? (· == 58) = some type.length := by
        rw [List.findIdx?_append]
        have : type.findIdx? (· == 58) = none := by
          rw [List.findIdx?_eq_none_iff]
          intro x hx
          exact beq_eq_false_iff_ne.2 fun e => hc (e ▸ hx)
        rw [this, List.findIdx?_cons]
        simp
      rw [e3] at hn
      rw [← Option.some.inj hn]
      simp
  unfold ssaLine ssaLineX
  simp only
  split
  · rfl
  split
  · split
    · rfl
    split
    · rfl
    split
    · rfl
    · rfl
  cases hi : (removeBom (trim l)).findIdx? (· == 58) with
  | none => rfl
  | some n =>
    simp only
    rw [key n hi]
    cases r.read.part with
    | info =>
      simp only
      split
      · cases rawConvertInt (trim ((removeBom (trim l)).drop (n + 1))) <;> rfl
      split
      · cases rawConvertInt (trim ((removeBom (trim l)).drop (n + 1))) <;> rfl
      · rfl
    | styles =>
      simp only
      split
      · rfl
      split
      · cases subAssert (!r.read.styleFormat.isEmpty) with
        | error e => rfl
        | ok _ => cases SsaStyle.make r.read.styleFormat (trim ((removeBom (trim l)).drop (n + 1))) <;> rfl
      · rfl
    | events =>
      simp only
      rw [if_neg ht, if_neg ht]
      split <;> rfl

/-- What a line that tells a width does. -/
private theorem widthLine {l b : Str} {n : Int} (h1 : OnLine l (some (.field b!"PlayResX" b))) (h2 : IntAtStart b n) (r : SsaReadX) :
    ssaLineX r l = .ok (if r.read.part = .info then { r with read := { r.read with resX := n } } else r) := by
  obtain ⟨⟨part, resX, resY, styles, sf, ef, ss⟩, subs⟩ := r
  rw [lineX_eq _ h1 (by decide +kernel), line_entry h1]
  cases part with
  | info => simp [(C117_int b n).2 h2, Except.map]
  | styles => simp [Except.map]
  | events => simp [Except.map]

/-- What a line that tells a height does. -/
private theorem heightLine {l b : Str} {n : Int} (h1 : OnLine l (some (.field b!"PlayResY" b))) (h2 : IntAtStart b n) (r : SsaReadX) :
    ssaLineX r l = .ok (if r.read.part = .info then { r with read := { r.read with resY := n } } else r) := by
  obtain ⟨⟨part, resX, resY, styles, sf, ef, ss⟩, subs⟩ := r
  rw [lineX_eq _ h1 (by decide +kernel), line_entry h1]
  cases part with
  | info => simp [(C117_int b n).2 h2, Except.map]
  | styles => simp [Except.map]
  | events => simp [Except.map]

private theorem rel_lines {ls ls' : List Str} (hl : List.Forall₂ SameButSize ls ls') : ∀ {r s : SsaReadX}, LikeReadX r s → Rel LikeReadX (ssaLinesX r ls) (ssaLinesX s ls') := by
  induction hl with
  | nil => intro r s h; exact rel_ok h
  | cons h0 _ ih =>
    intro r s h
    rw [ssaLinesX, ssaLinesX]
    refine rel_bind (P := LikeReadX) ?_ fun _ _ h' => ih h'
    cases h0 with
    | same => exact rel_line h _
    | width l b b' n n' h1 h2 h3 h4 h5 h6 =>
      rw [widthLine h1 h3, widthLine h2 h4, h.1.2.1]
      by_cases hp : s.read.part = .info
      · rw [if_pos hp, if_pos hp]
        exact rel_ok ⟨⟨.inr ⟨h5, h6⟩, h.1.2⟩, h.2⟩
      · rw [if_neg hp, if_neg hp]
        exact rel_ok h
    | height l b b' n n' h1 h2 h3 h4 =>
      rw [heightLine h1 h3, heightLine h2 h4, h.1.2.1]
      by_cases hp : s.read.part = .info
      · rw [if_pos hp, if_pos hp]
        exact rel_ok ⟨⟨h.1.1, h.1.2⟩, h.2⟩
      · rw [if_neg hp, if_neg hp]
        exact rel_ok h

/-- C137: files that differ in the size of the screen give the same subtitles (or the same error) except for places and sizes. -/
theorem C137_sizes (lines lines' : List Str) (h : List.Forall₂ SameButSize lines lines') :
    (ssaLinesX {} lines).map (fun r => r.subs.map XRaw.raw) = (ssaLinesX {} lines').map (fun r => r.subs.map XRaw.raw) := by
  rcases rel_lines h (r := {}) (s := {}) ⟨⟨.inl rfl, rfl, rfl, rfl, rfl⟩, .nil⟩ with ⟨a, b, e1, e2, hab⟩ | ⟨e, e1, e2⟩
  · rw [e1, e2]
    have hm : ∀ {xs ys : List XRaw}, List.Forall₂ Like xs ys → xs.map XRaw.raw = ys.map XRaw.raw := by
      intro xs ys hs
      induction hs with
      | nil => rfl
      | cons h _ ih => rw [List.map_cons, List.map_cons, h.1, ih]
    show Except.ok (a.subs.map XRaw.raw) = Except.ok (b.subs.map XRaw.raw)
    rw [hm hab.2]
  · rw [e1, e2]

/-- C137: so a file for a screen of no width or height is read as it would be for another screen, except for places and sizes. -/
theorem C137_no_size (lines lines' : List Str) (h : List.Forall₂ SameButSize lines lines') (hl : ∀ l ∈ lines', l.length < 2 ^ 31)
    (hf : ssaReadLines lines' ≠ .error .nonFinite ∧ ssaReadLines lines' ≠ .error .unmodelled) :
    (ssaLinesX {} lines).map (fun r => r.subs.map XRaw.raw) = (ssaReadLines lines').map (List.map fun s => s.finite.raw) := by
  rw [C137_sizes lines lines' h]
  have h1 := congrArg (Except.map (List.map XRaw.raw)) (C137_agree lines' hl hf)
  cases h2 : ssaLinesX {} lines' with
  | error e =>
    rw [h2] at h1
    cases h3 : ssaReadLines lines' with
    | error e' => rw [h3] at h1; cases h1; rfl
    | ok a => rw [h3] at h1; cases h1
  | ok r =>
    rw [h2] at h1
    cases h3 : ssaReadLines lines' with
    | error e' => rw [h3] at h1; cases h1
    | ok a =>
      rw [h3] at h1
      have h1 := Except.ok.inj h1
      show Except.ok (r.subs.map XRaw.raw) = Except.ok _
      rw [h1, List.map_map]
      rfl

example : ∃ lines lines' : List Str, List.Forall₂ SameButSize lines lines' ∧ ssaReadLines lines = .error .nonFinite ∧
    (ssaReadLines lines' ≠ .error .nonFinite ∧ ssaReadLines lines' ≠ .error .unmodelled) ∧
    (ssaReadLines lines').toOption.map (List.map Raw.text) = some [b!"a"] := by
  refine ⟨[b!"[Script Info]", b!"PlayResY: 0", b!"[Events]", b!"Format: Text", b!"Dialogue: a"], [b!"[Script Info]", b!"PlayResY: 20", b!"[Events]", b!"Format: Text", b!"Dialogue: a"],
    .cons (.same _) (.cons (.height _ _ b!"0" b!"20" 0 20 (.field _ b!" 0" (by decide +kernel) (by decide +kernel) (by decide +kernel) (by decide +kernel))
      (.field _ b!" 20" (by decide +kernel) (by decide +kernel) (by decide +kernel) (by decide +kernel)) ((C117_int _ _).1 (by decide +kernel)) ((C117_int _ _).1 (by decide +kernel)))
      (.cons (.same _) (.cons (.same _) (.cons (.same _) .nil)))), by decide +kernel, by decide +kernel, by decide +kernel⟩

/-! ### Nothing stops at an infinity -/

/-- `x` is not one of the outcomes by which the first models leave the numbers they cover. -/
def NeverInf {α : Type} (x : R α) : Prop := x ≠ .error .nonFinite ∧ x ≠ .error .unmodelled

theorem n_bind {α β : Type} {x : R α} {g : α → R β} (h : NeverInf x) (h' : ∀ a, NeverInf (g a)) : NeverInf (x >>= g) := by
  cases x with
  | error e => exact ⟨fun h0 => h.1 (by rw [Except.error.inj h0]), fun h0 => h.2 (by rw [Except.error.inj h0])⟩
  | ok a => exact h' a

theorem n_ok {α : Type} {a : α} : NeverInf (.ok a : R α) := ⟨nofun, nofun⟩

theorem n_ite {α : Type} {c : Prop} [Decidable c] {x y : R α} (h : NeverInf x) (h' : NeverInf y) : NeverInf (if c then x else y) := by split <;> assumption

theorem n_assert (b : Bool) : NeverInf (subAssert b) := by cases b <;> exact ⟨nofun, nofun⟩

theorem n_opt {α : Type} (o : Option α) : NeverInf (optGet o) := by cases o <;> exact ⟨nofun, nofun⟩

theorem n_ck (x : Int) : NeverInf (ck x) := by
  unfold ck
  split <;> exact ⟨nofun, nofun⟩

theorem n_int (s : Str) : NeverInf (rawConvertInt s) := by
  constructor <;> intro h <;> cases ((int_error s _).1 h).2

private theorem n_float (s : Str) : NeverInf (rawConvertFloatX s) := by
  unfold rawConvertFloatX scanFloatX
  simp only
  refine n_ite (n_ite n_ok n_ok) (n_ite n_ok ?_)
  split
  · exact n_ok
  · exact ⟨nofun, nofun⟩

private theorem n_ratio (s : Str) (n : Int) : NeverInf (textRatioX s n) := n_bind (n_float s) fun _ => n_ok

private theorem n_hColour (s : Str) : NeverInf (hColour s) := by
  unfold hColour
  split
  · exact n_ok
  · exact ⟨nofun, nofun⟩

private theorem n_stamp (v : Str) : NeverInf (ssaParseTime v) := by
  constructor <;> intro h
  all_goals
    cases (C134_stamp v _).1 h with
    | number a b c d x y z p e _ _ _ _ h5 => cases h5.2

private theorem n_style (f b : Str) : NeverInf (SsaStyle.make f b) := by
  constructor <;> intro h
  all_goals
    cases (C134_style f b _).1 h with
    | column _ _ _ _ _ _ _ _ _ _ _ h6 =>
      cases h6 with
      | number _ _ _ _ h7 => cases h7.2
      | decimal _ _ _ _ _ h7 => cases h7.2

private theorem n_updateH (c : SsaContext) (x : XRaw) : NeverInf (c.updateHX x) := by
  unfold SsaContext.updateHX
  simp only
  cases x.raw.hpos.ref with
  | left => exact n_ok
  | right => exact n_ok
  | centre => exact n_bind (n_ck _) fun _ => n_bind (n_ck _) fun _ => n_ok

theorem n_tag (c : SsaContext) (x : XRaw) (tag : Str) : NeverInf (ssaParseTagX c x tag) := by
  have ha : ∀ h v, NeverInf (ssaAlignX c x h v) := fun h v => n_updateH c _
  unfold ssaParseTagX
  refine n_ite n_ok (n_ite n_ok (n_ite n_ok (n_ite n_ok (n_ite n_ok (n_ite n_ok (n_ite (ha _ _) (n_ite (ha _ _) (n_ite (ha _ _) (n_ite (ha _ _) (n_ite (ha _ _) (n_ite (ha _ _)
    (n_ite (ha _ _) (n_ite (ha _ _) (n_ite (ha _ _) (n_ite ?_ (n_ite ?_ (n_ite (n_ite (n_bind (n_hColour _) fun _ => n_ok) n_ok) n_ok)))))))))))))))))
  · rcases splitAny (fun c => c == 40 || c == 44) tag with _ | ⟨a, _ | ⟨x, _ | ⟨y, _ | ⟨z, zs⟩⟩⟩⟩
    · exact ⟨nofun, nofun⟩
    · exact ⟨nofun, nofun⟩
    · exact ⟨nofun, nofun⟩
    · exact n_bind (n_ratio _ _) fun _ => n_bind (n_ratio _ _) fun _ => n_ok
    · exact ⟨nofun, nofun⟩
  · exact n_bind (n_assert _) fun _ => n_bind (n_ratio _ _) fun _ => n_ok

private theorem n_step (c : SsaContext) (q : XF) (l : SsaLoopX) (b : Byte) : NeverInf (ssaStepX c q l b) := by
  unfold ssaStepX
  simp only
  cases l.state with
  | text => exact n_ite n_ok (n_ite n_ok (n_ite n_ok n_ok))
  | tag => exact n_ite (n_bind (n_tag _ _ _) fun _ => n_ok) (n_ite (n_bind (n_tag _ _ _) fun _ => n_ok) n_ok)
  | backslash =>
    refine n_ite (n_bind ?_ fun _ => n_ok) n_ok
    unfold ssaMoveDownX
    exact n_bind (n_opt _) fun _ => n_bind (n_opt _) fun _ => n_ite n_ok n_ok

private theorem n_run (c : SsaContext) (q : XF) : ∀ (cs : Str) (l : SsaLoopX), NeverInf (ssaRunX c q l cs) := by
  intro cs
  induction cs with
  | nil => intro l; exact n_ok
  | cons b cs ih => intro l; rw [ssaRunX]; exact n_bind (n_step c q l b) fun _ => ih _

private theorem n_finish (g : XF) (n : Nat) (q : XF) (xs : List XRaw) : NeverInf (ssaFinishAllX g n q xs) := by
  induction xs with
  | nil => exact n_ok
  | cons x xs ih =>
    rw [ssaFinishAllX]
    refine n_bind ?_ fun _ => n_bind ih fun _ => n_ok
    unfold ssaFinishPosX
    exact n_bind (n_opt _) fun _ => n_bind (n_opt _) fun _ => n_ok

private theorem n_text (c : SsaContext) (x : XRaw) (line : Str) : NeverInf (ssaParseLineX c x line) := by
  unfold ssaParseLineX
  refine n_bind ?_ fun a => n_bind ?_ fun _ => n_bind (n_run _ _ _ _) fun _ => n_finish _ _ _ _
  · unfold ssaPrepareX
    refine n_bind (n_updateH _ _) fun a => ?_
    cases a.fprop with
    | none => exact n_ok
    | some _ => exact n_ok
  · unfold XRaw.proportionalAt
    cases a.fprop with
    | none => exact n_bind (n_opt _) fun _ => n_ok
    | some _ => exact n_ok

private theorem n_columns (r : SsaRead) : ∀ (cs : List (Str × Str)) (ev : SsaEventX), NeverInf (ssaEventFieldsX r ev cs) := by
  intro cs
  induction cs with
  | nil => intro ev; exact n_ok
  | cons c cs ih =>
    obtain ⟨k, v⟩ := c
    intro ev
    rw [ssaEventFieldsX]
    refine n_bind ?_ fun _ => ih _
    unfold ssaEventFieldX
    simp only
    refine n_ite (n_bind (n_stamp _) fun _ => n_ok) (n_ite (n_bind (n_stamp _) fun _ => n_ok) (n_ite ?_ (n_ite (n_ite (n_bind (n_ratio _ _) fun _ => n_ok) n_ok)
      (n_ite (n_ite (n_bind (n_int _) fun _ => n_ok) n_ok) (n_ite (n_ite (n_bind (n_int _) fun _ => n_ok) n_ok) (n_ite (n_bind (n_text _ _ _) fun _ => n_ok) n_ok))))))
    cases ssaFindStyle r.styles (trimLeftIf (· == 42) (trim v)) with
    | none => exact n_ok
    | some st => exact n_ok

private theorem n_line (r : SsaReadX) (l : Str) : NeverInf (ssaLineX r l) := by
  unfold ssaLineX
  simp only
  refine n_ite n_ok (n_ite (n_ite n_ok (n_ite n_ok (n_ite n_ok n_ok))) ?_)
  cases (removeBom (trim l)).findIdx? (· == 58) with
  | none => exact ⟨nofun, nofun⟩
  | some n =>
    simp only
    cases r.read.part with
    | info => exact n_ite (n_bind (n_int _) fun _ => n_ok) (n_ite (n_bind (n_int _) fun _ => n_ok) n_ok)
    | styles => exact n_ite n_ok (n_ite (n_bind (n_assert _) fun _ => n_bind (n_style _ _) fun _ => n_ok) n_ok)
    | events =>
      refine n_ite n_ok (n_ite ?_ n_ok)
      unfold ssaDialogueX
      exact n_bind (n_assert _) fun _ => n_bind (n_assert _) fun _ => n_bind (n_assert _) fun _ => n_bind (n_columns _ _ _) fun _ => n_ok

private theorem n_lines : ∀ (ls : List Str) (r : SsaReadX), NeverInf (ssaLinesX r ls) := by
  intro ls
  induction ls with
  | nil => intro r; exact n_ok
  | cons l ls ih => intro r; rw [ssaLinesX]; exact n_bind (n_line r l) fun _ => ih _

/-- C137: no file is outside this model, and neither a screen of no size nor an infinity is a reason for the reader to fail. -/
theorem C137_reads (s : Str) : (ssaReadStringX s ≠ .error .nonFinite ∧ ssaReadStringX s ≠ .error .unmodelled) ∧
    (ssaReadFileX s ≠ .error .nonFinite ∧ ssaReadFileX s ≠ .error .unmodelled) :=
  ⟨n_bind (n_lines _ {}) fun _ => n_ok, n_bind (n_lines _ {}) fun _ => n_ok⟩

/-! ### Where such subtitles are -/

private theorem zero_mul {q : XF} (h : ∀ x, q ≠ .fin x) : (XF.fin 0).mul q = .nan := by
  cases q with
  | fin x => exact absurd rfl (h x)
  | inf s => rfl
  | nan => rfl

private theorem add_nan (a : XF) : a.add .nan = .nan := by cases a <;> rfl

private theorem div_zero (a : XF) : ∀ x, a.div (.fin 0) ≠ .fin x := by
  intro x h
  cases a with
  | fin a =>
    rw [show (XF.fin a).div (.fin 0) = if a = 0 then .nan else .inf (decide (a < 0)) from rfl] at h
    split at h <;> cases h
  | inf s => cases h
  | nan => cases h

private theorem f32_inf {q : XF} (h : ∀ x, q ≠ .fin x) : ∀ x, q.f32 ≠ .fin x := by
  cases q with
  | fin x => exact absurd rfl (h x)
  | inf s => intro x h; cases h
  | nan => intro x h; cases h

private theorem f64_inf {q : XF} (h : ∀ x, q ≠ .fin x) : ∀ x, q.f64 ≠ .fin x := by
  cases q with
  | fin x => exact absurd rfl (h x)
  | inf s => intro x h; cases h
  | nan => intro x h; cases h

private theorem mul_inf {q : XF} (h : ∀ x, q ≠ .fin x) (b : ℚ) : ∀ x, q.mul (.fin b) ≠ .fin x := by
  intro x
  cases q with
  | fin x => exact absurd rfl (h x)
  | inf s =>
    show (if b = 0 then XF.nan else .inf (s != decide (b < 0))) ≠ _
    split <;> (intro h; cases h)
  | nan => intro h; cases h

private theorem sized_int {a : Int} (h : InInt a) : Sized 0 31 (a : ℚ) := by
  refine ⟨Grid.int a, ?_⟩
  unfold InInt at h
  have : ((2 : ℚ) ^ (31 : Int)) = 2147483648 := by norm_num
  rw [this, abs_le]
  constructor
  · exact_mod_cast (by omega : (-2147483648 : Int) ≤ a)
  · exact_mod_cast (by omega : a ≤ (2147483648 : Int))

private theorem ofInt_eq {a : Int} (h : InInt a) : XF.ofInt a = .fin (f32 a) := by
  unfold XF.ofInt XF.f32
  simp only
  rw [ieee32_fits (sized_int h)]

/-- C137: no size divided by no height is a number. -/
theorem C137_ratio (a : Int) (hi : InInt a) : intRatioX a 0 = if a = 0 then .nan else .inf (decide (a < 0)) := by
  have h0 : f32 ((0 : Int) : ℚ) = 0 := f32_eq_zero.2 rfl
  unfold intRatioX
  rw [ofInt_eq hi, ofInt_eq (by decide : InInt 0), h0,
    show (XF.fin (f32 a)).div (.fin 0) = if f32 a = 0 then .nan else .inf (decide (f32 a < 0)) from rfl]
  by_cases ha : a = 0
  · rw [if_pos (f32_eq_zero.2 ha), if_pos ha]; rfl
  · rw [if_neg (fun h => ha (f32_eq_zero.1 h)), if_neg ha]
    show XF.inf _ = _
    congr 1
    rw [decide_eq_decide]
    constructor
    · intro h
      by_contra hc
      have : f32 (0 : ℚ) ≤ f32 (a : ℚ) := f32_mono (by exact_mod_cast not_lt.1 hc)
      rw [f32_zero] at this
      exact absurd h (not_lt.2 this)
    · intro h
      have : f32 (a : ℚ) ≤ f32 (0 : ℚ) := f32_mono (by exact_mod_cast h.le)
      rw [f32_zero] at this
      exact lt_of_le_of_ne this fun h => ha (f32_eq_zero.1 h)

example : intRatioX 5 0 = .inf false ∧ intRatioX (-5) 0 = .inf true ∧ intRatioX 0 0 = .nan ∧ intRatioX 1 4 = .fin (1 / 4) := by decide +kernel

/-- C137: on a screen of no height, text without line breaks whose place is told from the bottom, as it is unless told otherwise, has a place which is not a number. -/
theorem C137_nowhere (ctx : SsaContext) (base : XRaw) (line : Str) (h : ctx.resY = 0) (hb : ∀ x, base.fprop ≠ some (.fin x)) (hl : ssaLineBreaks line = 0) (subs : List XRaw)
    (hs : ssaParseLineX ctx base line = .ok subs) : ∀ s ∈ subs, s.raw.vpos.ref = some .bottomOfScreen → s.vprop = some .nan := by
  unfold ssaParseLineX at hs
  obtain ⟨cur, h1, hs⟩ := bind_eq_ok.1 hs
  obtain ⟨q, h2, hs⟩ := bind_eq_ok.1 hs
  obtain ⟨l, h3, hs⟩ := bind_eq_ok.1 hs
  simp only [hl] at hs
  have hcur : ∃ p, cur.fprop = some p ∧ ∀ x, p ≠ .fin x := by
    unfold ssaPrepareX at h1
    simp only at h1
    obtain ⟨a, ha, h1⟩ := bind_eq_ok.1 h1
    have haf : a.fprop = base.fprop := by
      unfold SsaContext.updateHX at ha
      simp only at ha
      cases hr : base.raw.hpos.ref <;> rw [hr] at ha
      · cases ha; rfl
      · obtain ⟨_, _, ha⟩ := bind_eq_ok.1 ha
        obtain ⟨_, _, ha⟩ := bind_eq_ok.1 ha
        cases ha; rfl
      · cases ha; rfl
    rw [← haf] at hb
    cases hf : a.fprop with
    | none =>
      rw [hf] at h1
      cases h1
      refine ⟨_, rfl, f32_inf (f64_inf ?_)⟩
      rw [h]
      exact div_zero _
    | some p =>
      rw [hf] at h1
      cases h1
      exact ⟨p, hf, fun x hx => hb x (by rw [hf, hx])⟩
  have hq : ∀ x, q ≠ .fin x := by
    obtain ⟨p, hp, hp'⟩ := hcur
    unfold XRaw.proportionalAt at h2
    rw [hp] at h2
    cases h2
    exact hp'
  have hq' : ∀ x, q.mul (XF.fin (6/5)).f64 ≠ .fin x := by
    rw [show (XF.fin (6/5)).f64 = .fin (f64 (6/5)) by decide +kernel]
    exact mul_inf hq _
  have key : ∀ (xs ys : List XRaw), ssaFinishAllX (base.vprop.getD (.fin 0)) 0 (q.mul (XF.fin (6/5)).f64).f64 xs = .ok ys →
      ∀ s ∈ ys, s.raw.vpos.ref = some .bottomOfScreen → s.vprop = some .nan := by
    intro xs
    induction xs with
    | nil => intro ys hy; cases hy; simp
    | cons x xs ih =>
      intro ys hy
      rw [ssaFinishAllX] at hy
      obtain ⟨y, hy1, hy⟩ := bind_eq_ok.1 hy
      obtain ⟨ys', hy2, hy⟩ := bind_eq_ok.1 hy
      cases hy
      intro s hs hr
      rcases List.mem_cons.1 hs with rfl | hs
      · unfold ssaFinishPosX at hy1
        obtain ⟨ref, hr1, hy1⟩ := bind_eq_ok.1 hy1
        obtain ⟨p, hp1, hy1⟩ := bind_eq_ok.1 hy1
        cases hy1
        rw [show x.raw.vpos.ref = some VRef.bottomOfScreen from hr] at hr1
        cases hr1
        show some _ = _
        simp only
        rw [show (XF.fin ((0 : Nat) : ℚ)) = XF.fin 0 from by simp, zero_mul (f64_inf hq')]
        show some ((XF.add _ XF.nan).f64.f32) = _
        rw [add_nan]
        rfl
      · exact ih ys' hy2 s hs hr
  exact key _ _ hs

example : ∃ subs, ssaParseLineX ⟨288, 0, ⟨1, 1, 1⟩, 0, 0⟩ {} b!"a{\\i1}b" = .ok subs ∧ subs.map XRaw.vprop = [some .nan, some .nan] ∧ subs.map (·.raw.text) = [b!"a", b!"b"] :=
  ⟨_, rfl, by decide +kernel, by decide +kernel⟩

/-- C137: one such file. -/
theorem C137_witness : ssaReadStringX b!"[Script Info]\nPlayResY: 0\n[Events]\nFormat: Text\nDialogue: a" =
    .ok [{ raw := { text := b!"a", vpos := { ref := some .bottomOfScreen } }, hprop := .fin 0, vprop := some .nan, fprop := some (.inf false) }] := by decide +kernel

end LibSub
