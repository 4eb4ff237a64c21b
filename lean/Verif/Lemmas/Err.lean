/-
Which errors a computation can end with.
-/
import Verif.Lemmas.SubRip

namespace LibSub

/-- Every error of `x` satisfies `P`. -/
structure ErrIn {α : Type} (P : Err → Prop) (x : R α) : Prop where
  h : ∀ e, x = .error e → P e

theorem ErrIn.ok {α : Type} {P : Err → Prop} (a : α) : ErrIn P (.ok a : R α) := ⟨fun _ h => by cases h⟩

theorem ErrIn.error {α : Type} {P : Err → Prop} {e : Err} (h : P e) : ErrIn P (.error e : R α) := ⟨fun _ h' => by cases h'; exact h⟩

theorem ErrIn.bind {α β : Type} {P : Err → Prop} {x : R α} {f : α → R β} (hx : ErrIn P x) (hf : ∀ a, x = .ok a → ErrIn P (f a)) : ErrIn P (x >>= f) := by
  cases x with
  | ok a => exact hf a rfl
  | error e => exact .error (hx.h e rfl)

theorem ErrIn.mono {α : Type} {P Q : Err → Prop} {x : R α} (hx : ErrIn P x) (h : ∀ e, P e → Q e) : ErrIn Q x := ⟨fun e he => h e (hx.h e he)⟩

theorem ErrIn.ite {α : Type} {P : Err → Prop} {c : Prop} [Decidable c] {x y : R α} (hx : ErrIn P x) (hy : ErrIn P y) : ErrIn P (if c then x else y) := by
  split
  · exact hx
  · exact hy

/-- Errors that are not reports about a SubRip or WebVTT file. -/
def Err.Plain : Err → Prop
  | .subrip .. => False
  | .webvtt .. => False
  | .webvttHeader => False
  | _ => True

theorem plain_ck (x : Int) : ErrIn Err.Plain (ck x) := by
  unfold ck; split
  · exact .ok _
  · exact .error trivial

theorem plain_optGet {α : Type} (o : Option α) : ErrIn Err.Plain (optGet o) := by
  cases o
  · exact .error trivial
  · exact .ok _

theorem plain_fdiv (a b : Rat) : ErrIn Err.Plain (fdiv a b) := by
  unfold fdiv; split
  · exact .error trivial
  · exact .ok _

theorem plain_scanInt (s : Str) : ErrIn Err.Plain (scanInt s) := by
  unfold scanInt
  exact .ite (.ok _) (.error trivial)

theorem plain_rawConvertInt (s : Str) : ErrIn Err.Plain (rawConvertInt s) := plain_scanInt _

theorem plain_rawConvertFloat (s : Str) : ErrIn Err.Plain (rawConvertFloat s) := by
  unfold rawConvertFloat rawConvertFloatIn scanFloat
  exact .ite (.error trivial) (.ite (.ok _) (.error trivial))

theorem plain_hmsSeconds (h m s : Int) : ErrIn Err.Plain (hmsSeconds h m s) := by
  unfold hmsSeconds
  exact .bind (plain_ck _) fun _ _ => .bind (plain_ck _) fun _ _ => .bind (plain_ck _) fun _ _ => plain_ck _

theorem plain_convertTime (t sep : Str) : ErrIn Err.Plain (convertTime t sep) := by
  unfold convertTime
  split
  · split
    · split
      · exact .ok _
      · split
        · exact .ok _
        · split
          · exact .ok _
          · split
            · exact .ok _
            · exact .bind (.bind (plain_hmsSeconds ..) fun _ _ => .ok _) fun _ _ => .ok _
    · exact .ok _
  · exact .ok _

theorem plain_fromRgbHex (s : Str) : ErrIn Err.Plain (Colour.fromRgbHex s) := by
  unfold Colour.fromRgbHex
  repeat' split
  all_goals first | exact .error trivial | exact .ok _

theorem plain_fromRgbaHex (s : Str) : ErrIn Err.Plain (Colour.fromRgbaHex s) := by
  unfold Colour.fromRgbaHex
  repeat' split
  all_goals first | exact .error trivial | exact .ok _

theorem plain_intRatio (a b : Int) : ErrIn Err.Plain (intRatio a b) := by
  unfold intRatio
  exact .bind (plain_fdiv ..) fun _ _ => .ok _

theorem plain_updateH (ctx : SsaContext) (sub : Raw) : ErrIn Err.Plain (ctx.updateH sub) := by
  unfold SsaContext.updateH
  simp only
  split
  · exact .bind (plain_intRatio ..) fun _ _ => .ok _
  · exact .bind (plain_ck _) fun _ _ => .bind (plain_ck _) fun _ _ => .bind (plain_intRatio ..) fun _ _ => .ok _
  · exact .bind (plain_intRatio ..) fun _ _ => .ok _

theorem plain_hColour (s : Str) : ErrIn Err.Plain (hColour s) := by
  unfold hColour
  split
  · exact .ok _
  · exact .error trivial

theorem plain_subAssert (b : Bool) : ErrIn Err.Plain (subAssert b) := by
  cases b
  · exact .error trivial
  · exact .ok _

theorem plain_ssaParseTag (ctx : SsaContext) (sub : Raw) (tag : Str) : ErrIn Err.Plain (ssaParseTag ctx sub tag) := by
  unfold ssaParseTag
  iterate 6 refine .ite (.ok _) ?_
  iterate 9 refine .ite (plain_updateH ..) ?_
  refine .ite ?_ (.ite ?_ (.ite (.ite ?_ (.ok _)) (.ok _)))
  · split
    · exact .bind (plain_rawConvertFloat _) fun _ _ => .bind (plain_fdiv ..) fun _ _ => .bind (plain_rawConvertFloat _) fun _ _ => .bind (plain_fdiv ..) fun _ _ => .ok _
    · exact .error trivial
  · exact .bind (plain_subAssert _) fun _ _ => .bind (plain_rawConvertFloat _) fun _ _ => .bind (plain_fdiv ..) fun _ _ => .ok _
  · exact .bind (plain_hColour _) fun _ _ => .ok _

theorem plain_decComp (s : Str) : ErrIn Err.Plain (decComp s) := .bind (plain_rawConvertInt _) fun _ _ => .ok _

end LibSub
