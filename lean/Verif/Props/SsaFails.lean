/-
Property C134, second part: how reading an SSA file fails, exactly.
-/
import Verif.Props.SsaFileExact
import Verif.Props.TagFails

namespace LibSub

/-! ### Specification -/

/-- The override tags in what is written on a line, in order. -/
def tagsIn (toks : List SsaTok) : List Str := toks.flatMap (fun | .tags ts => ts | _ => [])

/-- How the text of a line of dialogue fails: its place, its size or the first override tag which is wrong. -/
inductive SsaTextFails (ctx : SsaContext) (base : Raw) (line : Str) : Err → Prop
  | margin (e : Err) : MarginFails ctx base.hpos.ref e → SsaTextFails ctx base line e
  | size : (∀ e, ¬ MarginFails ctx base.hpos.ref e) → base.fontSize.prop = none → ctx.resY = 0 → SsaTextFails ctx base line .nonFinite
  | tag (toks : List SsaTok) (before after : List Str) (t : Str) (e : Err) : (∀ e, ¬ MarginFails ctx base.hpos.ref e) → (base.fontSize.prop ≠ none ∨ ctx.resY ≠ 0) → SsaWritten line toks →
      tagsIn toks = before ++ t :: after → (∀ t' ∈ before, ∀ e', ¬ TagFails ctx t' e') → TagFails ctx t e → SsaTextFails ctx base line e

/-- How an integer fails: it is too large. -/
def IntFails (v : Str) (e : Err) : Prop := (∀ n, ¬ IntAtStart v n) ∧ e = .ub .scanfRange

/-- How a time fails. -/
inductive StampFails (v : Str) : Err → Prop
  /-- not three colons or full stops: an assertion -/
  | shape : v.countP (fun c => c = 58 ∨ c = 46) ≠ 3 → StampFails v .programming
  | number (a b c d : Str) (x y z : Byte) (p : Str) (e : Err) : v = a ++ x :: (b ++ y :: (c ++ z :: d)) → (∀ e ∈ [x, y, z], e = 58 ∨ e = 46) → (∀ e ∈ a ++ b ++ c ++ d, e ≠ 58 ∧ e ≠ 46) → p ∈ [a, b, c, d] →
      IntFails p e → StampFails v e
  | huge (a b c d : Str) (x y z : Byte) (h m s cs : Int) : v = a ++ x :: (b ++ y :: (c ++ z :: d)) → (∀ e ∈ [x, y, z], e = 58 ∨ e = 46) → (∀ e ∈ a ++ b ++ c ++ d, e ≠ 58 ∧ e ≠ 46) →
      IntAtStart a h → IntAtStart b m → IntAtStart c s → IntAtStart d cs → ¬ (InInt (cs * 10) ∧ SecondsFit h m s) → StampFails v (.ub .intOverflow)

/-- How a column of a line of dialogue fails, given what the columns before it have set. -/
inductive ColumnFails (resX resY : Int) (named : Str → SsaStyle → Prop) (ev : SsaEvent) : Str × Str → Err → Prop
  | time (k v : Str) (e : Err) : k ∈ [b!"Start", b!"End"] → StampFails v e → ColumnFails resX resY named ev (k, v) e
  | style (v : Str) (st : SsaStyle) : StyleFor named v st → resY = 0 → ColumnFails resX resY named ev (b!"Style", v) .nonFinite
  | marginV (v : Str) (e : Err) : v ≠ b!"0" → ev.sub.vpos.ref ≠ some .centreOfScreen → ShareFails v resY e → ColumnFails resX resY named ev (b!"MarginV", v) e
  | margin (k v : Str) (e : Err) : k ∈ [b!"MarginL", b!"MarginR"] → v ≠ b!"0" → IntFails v e → ColumnFails resX resY named ev (k, v) e
  | text (v : Str) (e : Err) : SsaTextFails { resX := resX, resY := resY, primaryColour := (ev.style.map (·.primaryColour)).getD ⟨1, 1, 1⟩, lmargin := ev.lmargin, rmargin := ev.rmargin } ev.sub v e →
      ColumnFails resX resY named ev (b!"Text", v) e

/-- How a line of dialogue fails: too few values (an assertion), or the first column which is wrong. -/
inductive DialogueFails (resX resY : Int) (named : Str → SsaStyle → Prop) (format body : Str) : Err → Prop
  | short (names : List Str) : CommaList format names → body.count 44 + 1 < names.length → DialogueFails resX resY named format body .programming
  | column (names values : List Str) (before after : List (Str × Str)) (c : Str × Str) (ev : SsaEvent) (e : Err) : CommaList format names → ValuesOf body values → names.length = values.length →
      columns names values = before ++ c :: after → ColumnsDo resX resY named {} before ev → ColumnFails resX resY named ev c e → DialogueFails resX resY named format body e

/-- How a column of a style fails. -/
inductive StyleColumnFails : Str × Str → Err → Prop
  | number (k v : Str) (e : Err) : k ∈ numberColumns → IntFails v e → StyleColumnFails (k, v) e
  | decimal (k v : Str) (e : Err) : k ∈ colourColumns → ¬ b!"&" <+: v → IntFails v e → StyleColumnFails (k, v) e
  | colour (k v : Str) : k ∈ colourColumns → b!"&" <+: v → ¬ b!"&H" <+: v → StyleColumnFails (k, v) (.ssa (b!"Badly formatted colour tag " ++ v))

/-- How a style fails: a wrong number of values (an assertion), or the first column which is wrong. -/
inductive StyleFails (format body : Str) : Err → Prop
  | count (names values : List Str) : CommaList format names → CommaList body values → names.length ≠ values.length → StyleFails format body .programming
  | column (names values : List Str) (before after : List (Str × Str)) (c : Str × Str) (e : Err) : CommaList format names → CommaList body values → names.length = values.length →
      columns names values = before ++ c :: after → (∀ c' ∈ before, ∀ e', ¬ StyleColumnFails c' e') → StyleColumnFails c e → StyleFails format body e

/-- How a line of a file fails, after some entries. -/
inductive SsaLineFails (past : List SsaEntry) (line : Str) : Err → Prop
  /-- neither blank, nor a comment, nor a heading, and no colon: an assertion -/
  | colon : (58 : Byte) ∉ ssaClean line → ssaClean line ≠ [] → ¬ b!";" <+: ssaClean line → ¬ b!"[" <+: ssaClean line → SsaLineFails past line .programming
  | side (t b : Str) (e : Err) : OnLine line (some (.field t b)) → sectionAfter past = .info → t ∈ [b!"PlayResX", b!"PlayResY"] → IntFails b e → SsaLineFails past line e
  /-- a style before its format, or with an empty one: an assertion -/
  | noStyleFormat (b : Str) : OnLine line (some (.field b!"Style" b)) → sectionAfter past = .styles → (∀ f, Setting past .styles b!"Format" f → f = []) → SsaLineFails past line .programming
  | style (b f : Str) (e : Err) : OnLine line (some (.field b!"Style" b)) → sectionAfter past = .styles → Setting past .styles b!"Format" f → f ≠ [] → StyleFails f b e → SsaLineFails past line e
  /-- a line of dialogue before the format: an assertion -/
  | noFormat (b : Str) : OnLine line (some (.field b!"Dialogue" b)) → sectionAfter past = .events → (∀ f, ¬ Setting past .events b!"Format" f) → SsaLineFails past line .programming
  | dialogue (b f : Str) (w g : Int) (e : Err) : OnLine line (some (.field b!"Dialogue" b)) → sectionAfter past = .events → Setting past .events b!"Format" f → Side past b!"PlayResX" w →
      Side past b!"PlayResY" g → DialogueFails w g (NamedStyle past) f b e → SsaLineFails past line e

/-- How a file fails: in a line, after lines which can be read. -/
def SsaFails (lines : List Str) (e : Err) : Prop :=
  ∃ (A : List Str) (l : Str) (B : List Str) (subs : List Raw) (es : List (Option SsaEntry)), lines = A ++ l :: B ∧ SsaFile [] A subs ∧ List.Forall₂ OnLine A es ∧
    SsaLineFails (es.filterMap id).reverse l e

/-! ### Errors of a sequence -/

theorem bind_error_iff {α β : Type} {m : R α} {k : α → R β} {e : Err} : (m >>= k) = .error e ↔ m = .error e ∨ ∃ a, m = .ok a ∧ k a = .error e := by
  cases m with
  | error e' => rw [error_bind]; simp
  | ok a => rw [ok_bind]; simp

theorem int_error (v : Str) (e : Err) : rawConvertInt v = .error e ↔ IntFails v e := by
  unfold IntFails
  constructor
  · intro h
    refine ⟨fun n hn => ?_, ?_⟩
    · rw [(C117_int v n).2 hn] at h; cases h
    · unfold rawConvertInt rawConvertIntIn scanInt at h
      dsimp only at h
      rcases ite_cases h with ⟨-, h⟩ | ⟨-, h⟩
      · cases h
      · cases h; rfl
  · rintro ⟨h1, rfl⟩
    cases h : rawConvertInt v with
    | ok n => exact absurd ((C117_int v n).1 h) (h1 n)
    | error e =>
      unfold rawConvertInt rawConvertIntIn scanInt at h
      dsimp only at h
      rcases ite_cases h with ⟨-, h⟩ | ⟨-, h⟩
      · cases h
      · cases h; rfl

/-! ### Text -/

theorem prepare_error (ctx : SsaContext) (base : Raw) (e : Err) : ssaPrepare ctx base = .error e ↔
    MarginFails ctx base.hpos.ref e ∨ ((∀ e, ¬ MarginFails ctx base.hpos.ref e) ∧ base.fontSize.prop = none ∧ ctx.resY = 0 ∧ e = .nonFinite) := by
  have hal : ∀ e, ctx.updateH { base with vpos := { base.vpos with ref := some (base.vpos.ref.getD .bottomOfScreen), prop := some 0 } } = .error e ↔ MarginFails ctx base.hpos.ref e :=
    fun e => align_error ctx { base with vpos := { base.vpos with prop := some 0 } } base.hpos.ref (base.vpos.ref.getD .bottomOfScreen) e
  unfold ssaPrepare
  simp only [bind_error_iff, hal]
  refine or_congr Iff.rfl ?_
  constructor
  · rintro ⟨c, hc, h⟩
    have hn : ∀ e, ¬ MarginFails ctx base.hpos.ref e := by
      intro e he
      rw [(hal e).2 he] at hc
      cases hc
    obtain ⟨x, hx, rfl⟩ := (updateH_iff _ _ _).1 hc
    simp only at h
    cases hf : base.fontSize.prop with
    | some fs => rw [hf] at h; cases h
    | none =>
      rw [hf] at h
      simp only [bind_error_iff] at h
      rcases h with h | ⟨a, -, h⟩
      · unfold fdiv at h
        rcases ite_cases h with ⟨h0, h⟩ | ⟨-, h⟩
        · cases h; exact ⟨hn, rfl, by exact_mod_cast h0, rfl⟩
        · cases h
      · cases h
  · rintro ⟨hn, hf, h0, rfl⟩
    cases hc : ctx.updateH { base with vpos := { base.vpos with ref := some (base.vpos.ref.getD .bottomOfScreen), prop := some 0 } } with
    | error e => exact absurd ((hal e).1 hc) (hn e)
    | ok c =>
      refine ⟨c, rfl, ?_⟩
      obtain ⟨x, hx, rfl⟩ := (updateH_iff _ _ _).1 hc
      simp only
      rw [hf]
      simp only
      rw [fdiv, if_pos (by rw [h0]; rfl)]
      rfl

/-- It is known where a subtitle is. -/
def HasPlace (p : Raw) : Prop := p.vpos.ref.isSome = true ∧ p.vpos.prop.isSome = true

theorem tag_placed {ctx : SsaContext} {p q : Raw} {t : Str} (h : ssaParseTag ctx p t = .ok q) (hp : HasPlace p) : HasPlace q := by
  have := (C117_tag ctx p t q).1 h
  unfold HasPlace at *
  cases this <;> simp_all

theorem tags_placed {ctx : SsaContext} {p q : Raw} {ts : List Str} (h : tagsRun ctx p ts = .ok q) (hp : HasPlace p) : HasPlace q := by
  induction ts generalizing p with
  | nil => cases h; exact hp
  | cons t ts ih =>
    obtain ⟨q', h1, h2⟩ := bind_eq_ok.1 h
    exact ih h2 (tag_placed h1 hp)

theorem moveDown_placed (h : ℚ) {p : Raw} (hp : HasPlace p) : ∃ v, ssaMoveDown h p.vpos = .ok v ∧ HasPlace { p with vpos := v } := by
  obtain ⟨h1, h2⟩ := hp
  obtain ⟨r, hr⟩ := Option.isSome_iff_exists.1 h1
  obtain ⟨y, hy⟩ := Option.isSome_iff_exists.1 h2
  unfold ssaMoveDown
  rw [hr, hy]
  simp only [optGet, ok_bind]
  split
  · exact ⟨_, rfl, by simp [HasPlace]⟩
  · exact ⟨_, rfl, by simp [HasPlace]⟩

/-- The first override tag that is wrong. -/
def FirstTagFails (ctx : SsaContext) (ts : List Str) (e : Err) : Prop :=
  ∃ before t after, ts = before ++ t :: after ∧ (∀ t' ∈ before, ∀ e', ¬ TagFails ctx t' e') ∧ TagFails ctx t e

theorem firstTag_nil (ctx : SsaContext) (e : Err) : ¬ FirstTagFails ctx [] e := by
  rintro ⟨b, t, a, h, -⟩
  simp at h

theorem firstTag_cons (ctx : SsaContext) (t : Str) (ts : List Str) (e : Err) : FirstTagFails ctx (t :: ts) e ↔ TagFails ctx t e ∨ ((∀ e', ¬ TagFails ctx t e') ∧ FirstTagFails ctx ts e) := by
  constructor
  · rintro ⟨b, u, a, h, hb, hu⟩
    cases b with
    | nil => cases h; exact .inl hu
    | cons b0 b =>
      cases h
      exact .inr ⟨hb _ (by simp), b, u, a, rfl, fun t' ht' => hb t' (by simp [ht']), hu⟩
  · rintro (h | ⟨h0, b, u, a, rfl, hb, hu⟩)
    · exact ⟨[], t, ts, rfl, by simp, h⟩
    · refine ⟨t :: b, u, a, rfl, ?_, hu⟩
      intro t' ht'
      rcases List.mem_cons.1 ht' with rfl | ht'
      · exact h0
      · exact hb t' ht'

theorem tagFree_of_ok {ctx : SsaContext} {p q : Raw} {t : Str} (h : ssaParseTag ctx p t = .ok q) : ∀ e, ¬ TagFails ctx t e := by
  intro e he
  rw [(C133_tag ctx p t e).2 he] at h
  cases h

theorem ok_of_tagFree {ctx : SsaContext} (p : Raw) {t : Str} (h : ∀ e, ¬ TagFails ctx t e) : ∃ q, ssaParseTag ctx p t = .ok q := by
  cases hq : ssaParseTag ctx p t with
  | ok q => exact ⟨q, rfl⟩
  | error e => exact absurd ((C133_tag ctx p t e).1 hq) (h e)

theorem tagsRun_error (ctx : SsaContext) (p : Raw) (ts : List Str) (e : Err) : tagsRun ctx p ts = .error e ↔ FirstTagFails ctx ts e := by
  induction ts generalizing p with
  | nil => exact ⟨(fun h => by cases h), fun h => absurd h (firstTag_nil ctx e)⟩
  | cons t ts ih =>
    rw [tagsRun, bind_error_iff, firstTag_cons, C133_tag]
    refine or_congr Iff.rfl ?_
    constructor
    · rintro ⟨q, hq, h⟩
      exact ⟨tagFree_of_ok hq, (ih q).1 h⟩
    · rintro ⟨h0, h⟩
      obtain ⟨q, hq⟩ := ok_of_tagFree p h0
      exact ⟨q, hq, (ih q).2 h⟩

theorem firstTag_append (ctx : SsaContext) (ts us : List Str) (e : Err) :
    FirstTagFails ctx (ts ++ us) e ↔ FirstTagFails ctx ts e ∨ ((∀ e', ¬ FirstTagFails ctx ts e') ∧ FirstTagFails ctx us e) := by
  induction ts with
  | nil => simp [firstTag_nil]
  | cons t ts ih =>
    rw [List.cons_append, firstTag_cons, ih]
    simp only [firstTag_cons, not_or, not_and]
    constructor
    · rintro (h | ⟨h0, h | ⟨h1, h2⟩⟩)
      · exact .inl (.inl h)
      · exact .inl (.inr ⟨h0, h⟩)
      · exact .inr ⟨fun e' => ⟨h0 e', fun _ => h1 e'⟩, h2⟩
    · rintro ((h | ⟨h0, h⟩) | ⟨h1, h2⟩)
      · exact .inl h
      · exact .inr ⟨h0, .inl h⟩
      · exact .inr ⟨fun e' => (h1 e').1, .inr ⟨fun e' => (h1 e').2 (fun e'' => (h1 e'').1), h2⟩⟩

theorem subtitleOf_placed {p : Raw} (hp : HasPlace p) (x : Str) : ∀ s ∈ subtitleOf p x, HasPlace s := by
  intro s hs
  unfold subtitleOf at hs
  split at hs
  · simp at hs
  · rw [List.mem_singleton.1 hs]; exact hp

theorem tokRun_error (ctx : SsaContext) (h : ℚ) (p : Raw) (hp : HasPlace p) (x : Str) (subs : List Raw) (toks : List SsaTok) (e : Err) :
    tokRun ctx h p x subs toks = .error e ↔ FirstTagFails ctx (tagsIn toks) e := by
  induction toks generalizing p x subs with
  | nil => exact ⟨(fun h => by cases h), fun h => absurd h (firstTag_nil ctx e)⟩
  | cons t ts ih =>
    cases t with
    | chr c => rw [tokRun, ih p hp]; rfl
    | tags tg =>
      rw [tokRun, bind_error_iff, show tagsIn (.tags tg :: ts) = tg ++ tagsIn ts by simp [tagsIn], firstTag_append, tagsRun_error]
      refine or_congr Iff.rfl ?_
      constructor
      · rintro ⟨q, hq, hr⟩
        refine ⟨fun e' he' => ?_, (ih q (tags_placed hq hp) _ _).1 hr⟩
        rw [(tagsRun_error ctx p tg e').2 he'] at hq
        cases hq
      · rintro ⟨h0, hr⟩
        cases hq : tagsRun ctx p tg with
        | error e' => exact absurd ((tagsRun_error ctx p tg e').1 hq) (h0 e')
        | ok q => exact ⟨q, rfl, (ih q (tags_placed hq hp) _ _).2 hr⟩
    | br =>
      obtain ⟨v, hv, hpv⟩ := moveDown_placed h hp
      rw [tokRun, hv, ok_bind, ih _ hpv]
      rfl

theorem tokRun_placed {ctx : SsaContext} {h : ℚ} {p : Raw} (hp : HasPlace p) {x : Str} {subs : List Raw} (hs : ∀ s ∈ subs, HasPlace s) {toks : List SsaTok} {out : List Raw}
    (hr : tokRun ctx h p x subs toks = .ok out) : ∀ s ∈ out, HasPlace s := by
  have app : ∀ {subs : List Raw} {p : Raw} {x : Str}, (∀ s ∈ subs, HasPlace s) → HasPlace p → ∀ s ∈ subs ++ subtitleOf p x, HasPlace s := by
    intro subs p x h1 h2 s hm
    rcases List.mem_append.1 hm with hm | hm
    · exact h1 s hm
    · exact subtitleOf_placed h2 x s hm
  induction toks generalizing p x subs with
  | nil => cases hr; exact app hs hp
  | cons t ts ih =>
    cases t with
    | chr c => rw [tokRun] at hr; exact ih hp hs hr
    | tags tg =>
      obtain ⟨q, hq, hr⟩ := bind_eq_ok.1 hr
      exact ih (tags_placed hq hp) (app hs hp) hr
    | br =>
      obtain ⟨v, hv, hpv⟩ := moveDown_placed h hp
      rw [tokRun, hv, ok_bind] at hr
      exact ih hpv (app hs hp) hr

theorem finishAll_placed (v : VPos) (n : Nat) (h : ℚ) (r : List Raw) (hr : ∀ s ∈ r, HasPlace s) : ∃ out, ssaFinishAll v n h r = .ok out := by
  induction r with
  | nil => exact ⟨[], rfl⟩
  | cons s r ih =>
    obtain ⟨out, ho⟩ := ih (fun s' hs' => hr s' (by simp [hs']))
    obtain ⟨h1, h2⟩ := hr s (by simp)
    obtain ⟨ref, hr⟩ := Option.isSome_iff_exists.1 h1
    obtain ⟨y, hy⟩ := Option.isSome_iff_exists.1 h2
    have : ∃ s', ssaFinishPos v n h s = .ok s' := by
      unfold ssaFinishPos
      rw [hr, hy]
      exact ⟨_, rfl⟩
    obtain ⟨s', hs'⟩ := this
    exact ⟨s' :: out, by rw [ssaFinishAll, hs', ok_bind, ho, ok_bind]; rfl⟩

/-- C134: how the text of a line of dialogue fails. -/
theorem C134_text (ctx : SsaContext) (base : Raw) (hb : base.text = []) (line : Str) (e : Err) : ssaParseLine ctx base line = .error e ↔ SsaTextFails ctx base line e := by
  have hp : ∀ {cur : Raw}, ssaPrepare ctx base = .ok cur → (∀ e, ¬ MarginFails ctx base.hpos.ref e) ∧ (base.fontSize.prop ≠ none ∨ ctx.resY ≠ 0) := by
    intro cur hc
    constructor
    · intro e he
      rw [(prepare_error ctx base e).2 (.inl he)] at hc
      cases hc
    · by_contra hn
      push Not at hn
      by_cases hm : ∃ e, MarginFails ctx base.hpos.ref e
      · obtain ⟨e, he⟩ := hm
        rw [(prepare_error ctx base e).2 (.inl he)] at hc
        cases hc
      · push Not at hm
        rw [(prepare_error ctx base .nonFinite).2 (.inr ⟨hm, hn.1, hn.2, rfl⟩)] at hc
        cases hc
  have rest : ∀ {cur : Raw}, ssaPrepare ctx base = .ok cur → ∀ toks, SsaWritten line toks → (ssaParseLine ctx base line = .error e ↔ FirstTagFails ctx (tagsIn toks) e) := by
    intro cur hc toks hw
    obtain ⟨x, fs, hx, hs, rfl⟩ := (prepare_iff ctx base cur).1 hc
    unfold ssaParseLine
    rw [hc, ok_bind]
    simp only [FontSize.proportionalAt, ok_bind]
    generalize ecur : ({ base with hpos := ⟨base.hpos.ref, x⟩, vpos := { base.vpos with ref := some (base.vpos.ref.getD .bottomOfScreen), prop := some 0 }, fontSize := { base.fontSize with prop := some fs } } : Raw) = cur
    have hpl : HasPlace cur := by rw [← ecur]; exact ⟨rfl, rfl⟩
    have hct : cur.text = [] := by rw [← ecur]; exact hb
    have el : ({ current := cur } : SsaLoop) = loopAt .text cur [] [] [] := by
      unfold loopAt; rw [show ({ cur with text := [] } : Raw) = cur by rw [← hct]]
    have hrun := run_toks ctx (f64 (fs * f64 (6 / 5))) hw cur hct [] []
    rw [← el] at hrun
    rw [← tokRun_error ctx (f64 (fs * f64 (6 / 5))) cur hpl [] [] toks e]
    cases hl : ssaRun ctx (f64 (fs * f64 (6 / 5))) { current := cur } line with
    | error e' =>
      rw [hl] at hrun
      rw [← hrun, error_bind]
      rfl
    | ok l =>
      rw [hl] at hrun
      have := tokRun_placed hpl (by simp) hrun.symm
      obtain ⟨out, ho⟩ := finishAll_placed base.vpos (ssaLineBreaks line) (f64 (fs * f64 (6 / 5))) _ this
      rw [← hrun, ok_bind, ho]
      constructor <;> (intro h; cases h)
  constructor
  · intro h
    cases hc : ssaPrepare ctx base with
    | error e' =>
      have : e' = e := by
        unfold ssaParseLine at h
        rw [hc, error_bind] at h
        exact Except.error.inj h
      subst this
      rcases (prepare_error ctx base e').1 hc with h1 | ⟨h1, h2, h3, rfl⟩
      · exact .margin _ h1
      · exact .size h1 h2 h3
    | ok cur =>
      obtain ⟨toks, hw⟩ := written_exists _ line (Nat.le_refl _)
      obtain ⟨b, t, a, h1, h2, h3⟩ := (rest hc toks hw).1 h
      exact .tag toks b a t e (hp hc).1 (hp hc).2 hw h1 h2 h3
  · intro h
    have early : ∀ e, ssaPrepare ctx base = .error e → ssaParseLine ctx base line = .error e := by
      intro e h
      unfold ssaParseLine
      rw [h]
      rfl
    cases h with
    | margin _ h => exact early _ ((prepare_error ctx base e).2 (.inl h))
    | size h1 h2 h3 => exact early _ ((prepare_error ctx base _).2 (.inr ⟨h1, h2, h3, rfl⟩))
    | tag toks b a t _ h1 h2 hw h3 h4 h5 =>
      cases hc : ssaPrepare ctx base with
      | error e' =>
        rcases (prepare_error ctx base e').1 hc with h | ⟨-, h, h', -⟩
        · exact absurd h (h1 _)
        · rcases h2 with h2 | h2
          · exact absurd h h2
          · exact absurd h' h2
      | ok cur => exact (rest hc toks hw).2 ⟨b, t, a, h3, h4, h5⟩

example : SsaTextFails ⟨288, 288, ⟨1, 1, 1⟩, 0, 0⟩ {} b!"Hello {\\i1\\cred&} world" (.ssa b!"Badly formatted colour tag red") := (C134_text _ _ rfl _ _).1 (by decide +kernel)
example : SsaTextFails ⟨288, 288, ⟨1, 1, 1⟩, 0, 0⟩ {} b!"{\\pos(1)}{\\cred&}" .programming := (C134_text _ _ rfl _ _).1 (by decide +kernel)

/-! ### Columns -/

/-- C134: how a time fails. -/
theorem C134_stamp (v : Str) (e : Err) : ssaParseTime v = .error e ↔ StampFails v e := by
  have hp : ∀ e : Byte, (e == 58 || e == 46) = true ↔ e = 58 ∨ e = 46 := by intro e; simp
  have hp' : ∀ e : Byte, (e == 58 || e == 46) = false ↔ e ≠ 58 ∧ e ≠ 46 := by intro e; simp
  have hcount : v.countP (fun c => c = 58 ∨ c = 46) = v.countP (fun c => c == 58 || c == 46) := by
    apply List.countP_congr
    intro c _
    simp
  have hlen : (splitAny (fun c => c == 58 || c == 46) v).length = v.countP (fun c => c == 58 || c == 46) + 1 := splitAny_length _ _
  have body : ∀ a b c d, splitAny (fun c => c == 58 || c == 46) v = [a, b, c, d] → (ssaParseTime v = .error e ↔ (∃ p ∈ [a, b, c, d], IntFails p e) ∨
      (∃ h m s cs, IntAtStart a h ∧ IntAtStart b m ∧ IntAtStart c s ∧ IntAtStart d cs ∧ ¬ (InInt (cs * 10) ∧ SecondsFit h m s) ∧ e = .ub .intOverflow)) := by
    intro a b c d hs
    have kind : ∀ {p n}, IntFails p e → IntAtStart p n → False := fun h h' => h.1 _ h'
    have e0 : ssaParseTime v = (do
      let h ← rawConvertInt a
      let m ← rawConvertInt b
      let s ← rawConvertInt c
      let cs ← rawConvertInt d
      let ms ← ck (cs * 10)
      Time.fromHms h m s ms) := by
      unfold ssaParseTime
      rw [hs]
    have get : ∀ p, (∃ n, rawConvertInt p = .ok n ∧ IntAtStart p n) ∨ (rawConvertInt p = .error (.ub .scanfRange) ∧ IntFails p (.ub .scanfRange) ∧ ∀ n, ¬ IntAtStart p n) := by
      intro p
      cases h : rawConvertInt p with
      | ok n => exact .inl ⟨n, rfl, (C117_int p n).1 h⟩
      | error e =>
        have := (int_error p e).1 h
        have he := this.2
        subst he
        exact .inr ⟨rfl, this, this.1⟩
    rw [e0]
    rcases get a with ⟨h, ha, ha'⟩ | ⟨ha, ha1, ha2⟩
    swap
    · rw [ha, error_bind]
      constructor
      · intro h; cases h; exact .inl ⟨a, by simp, ha1⟩
      · rintro (⟨p, -, hq⟩ | ⟨h, -, -, -, h', -⟩)
        · rw [hq.2]
        · exact absurd h' (ha2 _)
    rcases get b with ⟨m, hb, hb'⟩ | ⟨hb, hb1, hb2⟩
    swap
    · rw [ha, ok_bind, hb, error_bind]
      constructor
      · intro h; cases h; exact .inl ⟨b, by simp, hb1⟩
      · rintro (⟨p, -, hq⟩ | ⟨_, m, _, _, -, h', -⟩)
        · rw [hq.2]
        · exact absurd h' (hb2 _)
    rcases get c with ⟨s, hc, hc'⟩ | ⟨hc, hc1, hc2⟩
    swap
    · rw [ha, ok_bind, hb, ok_bind, hc, error_bind]
      constructor
      · intro h; cases h; exact .inl ⟨c, by simp, hc1⟩
      · rintro (⟨p, -, hq⟩ | ⟨_, _, s, _, -, -, h', -⟩)
        · rw [hq.2]
        · exact absurd h' (hc2 _)
    rcases get d with ⟨cs, hd, hd'⟩ | ⟨hd, hd1, hd2⟩
    swap
    · rw [ha, ok_bind, hb, ok_bind, hc, ok_bind, hd, error_bind]
      constructor
      · intro h; cases h; exact .inl ⟨d, by simp, hd1⟩
      · rintro (⟨p, -, hq⟩ | ⟨_, _, _, cs, -, -, -, h', -⟩)
        · rw [hq.2]
        · exact absurd h' (hd2 _)
    have none_ : ¬ ∃ p ∈ [a, b, c, d], IntFails p e := by
      rintro ⟨p, hp, hq⟩
      simp only [List.mem_cons, List.not_mem_nil, or_false] at hp
      rcases hp with rfl | rfl | rfl | rfl
      · exact hq.1 _ ha'
      · exact hq.1 _ hb'
      · exact hq.1 _ hc'
      · exact hq.1 _ hd'
    have uniq : ∀ {p n n'}, rawConvertInt p = .ok n → IntAtStart p n' → n' = n := by
      intro p n n' h h'
      rw [(C117_int p n').2 h'] at h
      exact Except.ok.inj h
    rw [ha, ok_bind, hb, ok_bind, hc, ok_bind, hd, ok_bind]
    have fin : (do let ms ← ck (cs * 10); Time.fromHms h m s ms : R Time) = .error e ↔ ¬ (InInt (cs * 10) ∧ SecondsFit h m s) ∧ e = .ub .intOverflow := by
      by_cases h1 : InInt (cs * 10)
      · rw [ck_ok h1, ok_bind]
        by_cases h2 : SecondsFit h m s
        · rw [hms_fits _ h2]; simp [h1, h2]
        · rw [hms_overflow _ h2]; simp [h2, eq_comm]
      · rw [show ck (cs * 10) = .error (.ub .intOverflow) from if_neg h1, error_bind]
        simp [h1, eq_comm]
    rw [fin]
    constructor
    · rintro ⟨h1, h2⟩
      exact .inr ⟨h, m, s, cs, ha', hb', hc', hd', h1, h2⟩
    · rintro (h | ⟨h', m', s', cs', h1, h2, h3, h4, h5, h6⟩)
      · exact absurd h none_
      · rw [uniq ha h1, uniq hb h2, uniq hc h3, uniq hd h4] at h5
        exact ⟨h5, h6⟩
  have parts : ∀ a b c d, (∃ x y z, v = a ++ x :: (b ++ y :: (c ++ z :: d)) ∧ (∀ e ∈ [x, y, z], e = 58 ∨ e = 46) ∧ (∀ e ∈ a ++ b ++ c ++ d, e ≠ 58 ∧ e ≠ 46)) ↔
      splitAny (fun c => c == 58 || c == 46) v = [a, b, c, d] := by
    intro a b c d
    rw [split4_iff]
    constructor
    · rintro ⟨x, y, z, h, hx, hf⟩
      exact ⟨x, y, z, (hp _).2 (hx x (by simp)), (hp _).2 (hx y (by simp)), (hp _).2 (hx z (by simp)), h, fun e he => (hp' e).2 (hf e he)⟩
    · rintro ⟨x, y, z, hx, hy, hz, h, hf⟩
      refine ⟨x, y, z, h, ?_, fun e he => (hp' e).1 (hf e he)⟩
      intro e he
      simp only [List.mem_cons, List.not_mem_nil, or_false] at he
      rcases he with rfl | rfl | rfl
      · exact (hp _).1 hx
      · exact (hp _).1 hy
      · exact (hp _).1 hz
  constructor
  · intro h
    by_cases h4 : v.countP (fun c => c = 58 ∨ c = 46) = 3
    · rw [hcount] at h4
      rw [h4] at hlen
      match hs : splitAny (fun c => c == 58 || c == 46) v, hlen with
      | [a, b, c, d], _ =>
        obtain ⟨x, y, z, h1, h2, h3⟩ := (parts a b c d).2 hs
        rcases (body a b c d hs).1 h with ⟨p, hp, hf⟩ | ⟨hh, m, s, cs, g1, g2, g3, g4, g5, rfl⟩
        · exact .number a b c d x y z p e h1 h2 h3 hp hf
        · exact .huge a b c d x y z hh m s cs h1 h2 h3 g1 g2 g3 g4 g5
    · have : e = .programming := by
        unfold ssaParseTime at h
        split at h
        · rename_i hs
          rw [hs] at hlen
          rw [hcount] at h4
          simp at hlen
          omega
        · cases h; rfl
      subst this
      exact .shape h4
  · intro h
    cases h with
    | shape h4 =>
      unfold ssaParseTime
      split
      · rename_i hs
        rw [hs] at hlen
        rw [hcount] at h4
        simp at hlen
        omega
      · rfl
    | number a b c d x y z p _ h1 h2 h3 h4 h5 => exact (body a b c d ((parts a b c d).1 ⟨x, y, z, h1, h2, h3⟩)).2 (.inl ⟨p, h4, h5⟩)
    | huge a b c d x y z h m s cs h1 h2 h3 g1 g2 g3 g4 g5 => exact (body a b c d ((parts a b c d).1 ⟨x, y, z, h1, h2, h3⟩)).2 (.inr ⟨h, m, s, cs, g1, g2, g3, g4, g5, rfl⟩)

example : StampFails b!"0:01:02" .programming := (C134_stamp _ _).1 (by decide +kernel)
example : StampFails b!"0:01:99999999999.00" (.ub .scanfRange) := (C134_stamp _ _).1 (by decide +kernel)
example : StampFails b!"999999:01:02.00" (.ub .intOverflow) := (C134_stamp _ _).1 (by decide +kernel)

theorem pure_bind_error {α β : Type} (m : R α) (k : α → β) (e : Err) : (do let x ← m; pure (k x) : R β) = .error e ↔ m = .error e := by
  cases m with
  | error e' => rw [error_bind]; simp
  | ok a => rw [ok_bind]; simp [pure_eq_ok]

theorem applyStyle_error (resY : Int) (ev : SsaEvent) (st : SsaStyle) (e : Err) : ssaApplyStyle resY ev st = .error e ↔ resY = 0 ∧ e = .nonFinite := by
  unfold ssaApplyStyle
  rw [bind_error_iff, intRatio_error]
  constructor
  · rintro (h | ⟨a, ha, h⟩)
    · exact h
    · simp only at h
      rcases ite_cases h with ⟨-, h⟩ | ⟨-, h⟩
      · rcases bind_error_iff.1 h with h | ⟨q, -, h⟩
        · exact (intRatio_error _ _ _).1 h
        · cases h
      · cases h
  · exact .inl

theorem column_error (r : SsaRead) (ev : SsaEvent) (k v : Str) (ht : ev.sub.text = []) (e : Err) :
    ssaEventField r ev k v = .error e ↔ ColumnFails r.resX r.resY r.named ev (k, trim v) e := by
  unfold ssaEventField
  simp only
  generalize trim v = w
  constructor
  · intro h
    rcases ite_cases h with ⟨rfl, g⟩ | ⟨n1, h⟩
    · rw [pure_bind_error] at g
      exact .time _ _ _ (by simp) ((C134_stamp _ _).1 g)
    rcases ite_cases h with ⟨rfl, g⟩ | ⟨n2, h⟩
    · rw [pure_bind_error] at g
      exact .time _ _ _ (by simp) ((C134_stamp _ _).1 g)
    rcases ite_cases h with ⟨rfl, g⟩ | ⟨n3, h⟩
    · cases hs : ssaFindStyle r.styles (trimLeftIf (· == 42) w) with
      | none => rw [hs] at g; cases g
      | some st =>
        rw [hs] at g
        obtain ⟨h0, rfl⟩ := (applyStyle_error _ _ _ _).1 g
        exact .style _ st ((styleFor_iff r.styles w st).1 hs) h0
    rcases ite_cases h with ⟨rfl, g⟩ | ⟨n4, h⟩
    · rcases ite_cases g with ⟨⟨c1, c2⟩, g⟩ | ⟨c, g⟩
      · rcases (share_error _ _ _ _).1 g with g | ⟨f, -, -, g⟩
        · exact .marginV _ _ c1 c2 g
        · cases g
      · cases g
    rcases ite_cases h with ⟨rfl, g⟩ | ⟨n5, h⟩
    · rcases ite_cases g with ⟨c1, g⟩ | ⟨c, g⟩
      · rw [pure_bind_error] at g
        exact .margin _ _ _ (by simp) c1 ((int_error _ _).1 g)
      · cases g
    rcases ite_cases h with ⟨rfl, g⟩ | ⟨n6, h⟩
    · rcases ite_cases g with ⟨c1, g⟩ | ⟨c, g⟩
      · rw [pure_bind_error] at g
        exact .margin _ _ _ (by simp) c1 ((int_error _ _).1 g)
      · cases g
    rcases ite_cases h with ⟨rfl, g⟩ | ⟨n7, h⟩
    · rw [pure_bind_error] at g
      have g := (C134_text _ _ ht _ _).1 g
      refine .text _ _ ?_
      cases hs : ev.style with
      | none => rw [hs] at g; exact g
      | some st => rw [hs] at g; exact g
    · cases h
  · generalize ek : (k, w) = kw
    intro h
    cases h with
    | time k' v' _ hk h =>
      cases ek
      simp only [List.mem_cons, List.not_mem_nil, or_false] at hk
      rcases hk with rfl | rfl
      · rw [if_pos rfl, pure_bind_error]; exact (C134_stamp _ _).2 h
      · rw [if_neg (by decide), if_pos rfl, pure_bind_error]; exact (C134_stamp _ _).2 h
    | style v' st h h0 =>
      cases ek
      rw [if_neg (by decide), if_neg (by decide), if_pos rfl, (styleFor_iff r.styles w st).2 h]
      exact (applyStyle_error _ _ _ _).2 ⟨h0, rfl⟩
    | marginV v' _ c1 c2 h =>
      cases ek
      rw [if_neg (by decide), if_neg (by decide), if_neg (by decide), if_pos rfl, if_pos ⟨c1, c2⟩]
      exact (share_error _ _ _ _).2 (.inl h)
    | margin k' v' _ hk c1 h =>
      cases ek
      simp only [List.mem_cons, List.not_mem_nil, or_false] at hk
      rcases hk with rfl | rfl
      · rw [if_neg (by decide), if_neg (by decide), if_neg (by decide), if_neg (by decide), if_pos rfl, if_pos c1, pure_bind_error]; exact (int_error _ _).2 h
      · rw [if_neg (by decide), if_neg (by decide), if_neg (by decide), if_neg (by decide), if_neg (by decide), if_pos rfl, if_pos c1, pure_bind_error]; exact (int_error _ _).2 h
    | text v' _ h =>
      cases ek
      rw [if_neg (by decide), if_neg (by decide), if_neg (by decide), if_neg (by decide), if_neg (by decide), if_neg (by decide), if_pos rfl, pure_bind_error]
      refine (C134_text _ _ ht _ _).2 ?_
      cases hs : ev.style with
      | none => rw [hs] at h; exact h
      | some st => rw [hs] at h; exact h

theorem columns_error (r : SsaRead) (ev : SsaEvent) (ht : ev.sub.text = []) (l : List (Str × Str)) (e : Err) :
    ssaEventFields r ev l = .error e ↔ ∃ before c after ev', l.map (fun c => (c.1, trim c.2)) = before ++ c :: after ∧ ColumnsDo r.resX r.resY r.named ev before ev' ∧
      ColumnFails r.resX r.resY r.named ev' c e := by
  induction l generalizing ev with
  | nil =>
    constructor
    · intro h; cases h
    · rintro ⟨b, c, a, ev', h, -⟩; simp at h
  | cons c l ih =>
    rw [ssaEventFields, bind_error_iff, column_error r ev c.1 c.2 ht]
    constructor
    · rintro (h | ⟨ev1, h1, h2⟩)
      · exact ⟨[], _, _, ev, rfl, .done _, h⟩
      · have hc := column_sound r ev ev1 c.1 c.2 ht h1
        obtain ⟨b, c', a, ev', h3, h4, h5⟩ := (ih ev1 (by rw [column_text hc, ht])).1 h2
        exact ⟨(c.1, trim c.2) :: b, c', a, ev', by rw [List.map_cons, h3]; rfl, .column _ _ _ _ _ hc h4, h5⟩
    · rintro ⟨b, c', a, ev', h3, h4, h5⟩
      cases b with
      | nil =>
        cases h4
        obtain ⟨h6, -⟩ := List.cons.inj h3
        rw [← h6] at h5
        exact .inl h5
      | cons b0 b =>
        cases h4 with
        | column _ ev1 _ _ _ g1 g2 =>
          obtain ⟨h6, h7⟩ := List.cons.inj h3
          rw [← h6] at g1
          exact .inr ⟨ev1, column_complete r ev ev1 c.1 c.2 ht g1, (ih ev1 (by rw [column_text g1, ht])).2 ⟨b, c', a, ev', h7, g2, h5⟩⟩

/-- C134: how a line of dialogue fails. -/
theorem C134_dialogue (r : SsaRead) (format body : Str) (hf : r.eventFormat = (splitAny isComma format).map trim) (e : Err) :
    ssaDialogue r body = .error e ↔ DialogueFails r.resX r.resY r.named format body e := by
  have hcol : ∀ values : List Str, (r.eventFormat.zip values).map (fun c => (c.1, trim c.2)) = columns (splitAny isComma format) values := by
    intro values
    rw [hf]
    unfold columns
    rw [List.zip_map_right]
    apply List.map_congr_left
    intro c _
    rfl
  have hlen : (splitAny isComma format).length = r.eventFormat.length := by rw [hf, List.length_map]
  have hpos : 0 < r.eventFormat.length := by
    rw [hf, List.length_map]
    exact List.length_pos_of_ne_nil (commas_split format).2
  have key : ∀ (fs : List Str) (rest : Str), r.eventFormat.length = fs.length + 1 → (∀ f ∈ fs, (44 : Byte) ∉ f) →
      (ssaDialogue r ((fs.map (· ++ [44])).flatten ++ rest) = .error e ↔ ∃ before c after ev', columns (splitAny isComma format) (fs ++ [rest]) = before ++ c :: after ∧
        ColumnsDo r.resX r.resY r.named {} before ev' ∧ ColumnFails r.resX r.resY r.named ev' c e) := by
    intro fs rest hn h
    rw [C43_rest r fs rest hn h, ← hcol, ← columns_error r {} rfl]
    cases ssaEventFields r {} (r.eventFormat.zip (fs ++ [rest])) with
    | error e' => simp [Except.map]
    | ok ev => simp [Except.map]
  constructor
  · intro h
    by_cases hc : body.count 44 + 1 < r.eventFormat.length
    · rw [C43_short r body hc] at h
      cases h
      exact .short _ ((commaList_iff format _).2 rfl) (by rw [hlen]; exact hc)
    · obtain ⟨fs, rest, rfl, hl, hfs⟩ := dialogue_fields (r.eventFormat.length - 1) body (by omega)
      obtain ⟨b, c, a, ev, h1, h2, h3⟩ := (key fs rest (by omega) hfs).1 h
      exact .column _ (fs ++ [rest]) b a c ev e ((commaList_iff format _).2 rfl) ⟨fs, rest, rfl, rfl, hfs⟩ (by rw [hlen]; simp; omega) h1 h2 h3
  · intro h
    cases h with
    | short names h1 h2 =>
      have e := (commaList_iff format names).1 h1
      subst e
      exact C43_short r body (by rw [← hlen]; exact h2)
    | column names values b a c ev _ h1 h2 hl h3 h4 h5 =>
      have e := (commaList_iff format names).1 h1
      subst e
      obtain ⟨fs, rest, rfl, rfl, hfs⟩ := h2
      exact (key fs rest (by rw [← hlen, hl]; simp) hfs).2 ⟨b, c, a, ev, h3, h4, h5⟩

example : DialogueFails 288 288 (SsaRead.named { eventFormat := [b!"Start", b!"End", b!"Text"] }) b!"Start, End, Text" b!"0:00:01.00,0:00:02" .programming :=
  (C134_dialogue { eventFormat := [b!"Start", b!"End", b!"Text"] } b!"Start, End, Text" _ (by decide +kernel) _).1 (by decide +kernel)

/-! ### Styles -/

theorem styleColumn_error (s : SsaStyle) (k v : Str) (e : Err) : s.field k v = .error e ↔ StyleColumnFails (k, v) e := by
  have hcol : ∀ {k : Str}, k ∈ colourColumns → (SsaStyle.colour v = .error e ↔ StyleColumnFails (k, v) e) := by
    intro k hk
    have hc := C101_colour v
    have nk : k ∉ numberColumns := by
      intro hn
      unfold colourColumns at hk
      simp only [List.mem_cons, List.not_mem_nil, or_false] at hk
      rcases hk with rfl | rfl <;> revert hn <;> decide
    constructor
    · intro h
      by_cases h1 : b!"&" <+: v
      · by_cases h2 : b!"&H" <+: v
        · obtain ⟨c, h3⟩ := hc.1 h2
          rw [h3] at h
          cases h
        · rw [hc.2.1 h1 h2] at h
          cases h
          exact .colour k v hk h1 h2
      · cases hi : rawConvertInt v with
        | ok i => rw [(hc.2.2 h1).1 i hi] at h; cases h
        | error e' =>
          rw [(hc.2.2 h1).2 e' hi] at h
          cases h
          exact .decimal k v _ hk h1 ((int_error _ _).1 hi)
    · intro h
      cases h with
      | number _ _ _ hn => exact absurd hn nk
      | decimal _ _ _ _ h1 h2 => exact (hc.2.2 h1).2 e ((int_error _ _).2 h2)
      | colour _ _ _ h1 h2 => exact hc.2.1 h1 h2
  have hnum : ∀ {k : Str}, k ∈ numberColumns → (rawConvertInt v = .error e ↔ StyleColumnFails (k, v) e) := by
    intro k hk
    have nk : k ∉ colourColumns := by
      intro hn
      unfold numberColumns at hk
      simp only [List.mem_cons, List.not_mem_nil, or_false] at hk
      rcases hk with rfl | rfl | rfl | rfl <;> revert hn <;> decide
    constructor
    · intro h; exact .number k v e hk ((int_error _ _).1 h)
    · intro h
      cases h with
      | number _ _ _ _ h => exact (int_error _ _).2 h
      | decimal _ _ _ hn => exact absurd hn nk
      | colour _ _ hn => exact absurd hn nk
  have none_ : k ∉ colourColumns → k ∉ numberColumns → ¬ StyleColumnFails (k, v) e := by
    intro h1 h2 h
    cases h with
    | number _ _ _ hn => exact h2 hn
    | decimal _ _ _ hn => exact h1 hn
    | colour _ _ hn => exact h1 hn
  unfold SsaStyle.field
  have plain : ∀ {s' : SsaStyle}, k ∉ colourColumns → k ∉ numberColumns → ((.ok s' : R SsaStyle) = .error e ↔ StyleColumnFails (k, v) e) := by
    intro s' h1 h2
    exact ⟨(fun h => by cases h), fun h => absurd h (none_ h1 h2)⟩
  by_cases n1 : k = b!"Name"
  · rw [if_pos n1]; subst n1; exact plain (by decide) (by decide)
  rw [if_neg n1]
  by_cases n2 : k = b!"Fontname"
  · rw [if_pos n2]; subst n2; exact plain (by decide) (by decide)
  rw [if_neg n2]
  by_cases n3 : k = b!"Fontsize"
  · rw [if_pos n3, pure_bind_error]; subst n3; exact hnum (by decide)
  rw [if_neg n3]
  by_cases n4 : k = b!"PrimaryColour"
  · rw [if_pos n4, pure_bind_error]; subst n4; exact hcol (by decide)
  rw [if_neg n4]
  by_cases n5 : k = b!"BackColour"
  · rw [if_pos n5, pure_bind_error]; subst n5; exact hcol (by decide)
  rw [if_neg n5]
  by_cases n6 : k = b!"Bold"
  · rw [if_pos n6]; subst n6; exact plain (by decide) (by decide)
  rw [if_neg n6]
  by_cases n7 : k = b!"Italic"
  · rw [if_pos n7]; subst n7; exact plain (by decide) (by decide)
  rw [if_neg n7]
  by_cases n8 : k = b!"Underline"
  · rw [if_pos n8]; subst n8; exact plain (by decide) (by decide)
  rw [if_neg n8]
  by_cases n9 : k = b!"BorderStyle"
  · rw [if_pos n9]; subst n9; exact plain (by decide) (by decide)
  rw [if_neg n9]
  by_cases n10 : k = b!"Alignment"
  · rw [if_pos n10]; subst n10; exact plain (by decide) (by decide)
  rw [if_neg n10]
  by_cases n11 : k = b!"MarginV"
  · rw [if_pos n11, pure_bind_error]; subst n11; exact hnum (by decide)
  rw [if_neg n11]
  by_cases n12 : k = b!"MarginL"
  · rw [if_pos n12, pure_bind_error]; subst n12; exact hnum (by decide)
  rw [if_neg n12]
  by_cases n13 : k = b!"MarginR"
  · rw [if_pos n13, pure_bind_error]; subst n13; exact hnum (by decide)
  rw [if_neg n13]
  refine plain ?_ ?_
  · unfold colourColumns; simp only [List.mem_cons, List.not_mem_nil, or_false, not_or]; exact ⟨n4, n5⟩
  · unfold numberColumns; simp only [List.mem_cons, List.not_mem_nil, or_false, not_or]; exact ⟨n3, n11, n12, n13⟩

theorem styleColumns_error (s : SsaStyle) (l : List (Str × Str)) (e : Err) :
    s.fields l = .error e ↔ ∃ before c after, l.map (fun c => (trim c.1, trim c.2)) = before ++ c :: after ∧ (∀ c' ∈ before, ∀ e', ¬ StyleColumnFails c' e') ∧ StyleColumnFails c e := by
  induction l generalizing s with
  | nil =>
    constructor
    · intro h; cases h
    · rintro ⟨b, c, a, h, -⟩; simp at h
  | cons c l ih =>
    rw [SsaStyle.fields, bind_error_iff, styleColumn_error]
    constructor
    · rintro (h | ⟨s1, h1, h2⟩)
      · exact ⟨[], _, _, rfl, by simp, h⟩
      · obtain ⟨b, c', a, h3, h4, h5⟩ := (ih s1).1 h2
        refine ⟨(trim c.1, trim c.2) :: b, c', a, by rw [List.map_cons, h3]; rfl, ?_, h5⟩
        intro c'' hc e' he
        rcases List.mem_cons.1 hc with rfl | hc
        · rw [(styleColumn_error s _ _ e').2 he] at h1
          cases h1
        · exact h4 c'' hc e' he
    · rintro ⟨b, c', a, h3, h4, h5⟩
      cases b with
      | nil =>
        obtain ⟨h6, -⟩ := List.cons.inj h3
        rw [← h6] at h5
        exact .inl h5
      | cons b0 b =>
        obtain ⟨h6, h7⟩ := List.cons.inj h3
        cases hs : s.field (trim c.1) (trim c.2) with
        | error e' => exact absurd ((styleColumn_error _ _ _ _).1 hs) (h4 _ (by rw [← h6]; simp) e')
        | ok s1 => exact .inr ⟨s1, rfl, (ih s1).2 ⟨b, c', a, h7, fun c'' hc => h4 c'' (by simp [hc]), h5⟩⟩

/-- C134: how a style fails. -/
theorem C134_style (format body : Str) (e : Err) : SsaStyle.make format body = .error e ↔ StyleFails format body e := by
  have h1 := (commaList_iff format _).2 rfl
  have h2 := (commaList_iff body _).2 rfl
  have hz : ∀ names values : List Str, (names.zip values).map (fun c => (trim c.1, trim c.2)) = columns names values := by
    intro a b; unfold columns; rw [List.zip_map]; rfl
  by_cases hl : (splitAny isComma format).length = (splitAny isComma body).length
  · have e0 : SsaStyle.make format body = SsaStyle.fields {} ((splitAny isComma format).zip (splitAny isComma body)) := by
      unfold SsaStyle.make
      have a1 : (!(splitAny isComma format).isEmpty) = true := by simpa using h1.1
      have a2 : (!(splitAny isComma body).isEmpty) = true := by simpa using h2.1
      have a3 : ((splitAny isComma format).length == (splitAny isComma body).length) = true := by simpa using hl
      simp only [a1, a2, a3]
      rfl
    rw [e0, styleColumns_error, hz]
    constructor
    · rintro ⟨b, c, a, h3, h4, h5⟩
      exact .column _ _ b a c e h1 h2 hl h3 h4 h5
    · intro h
      cases h with
      | count names values g1 g2 g3 =>
        rw [← (commaList_iff _ _).1 g1, ← (commaList_iff _ _).1 g2] at g3
        exact absurd hl g3
      | column names values b a c _ g1 g2 _ g3 g4 g5 =>
        rw [← (commaList_iff _ _).1 g1, ← (commaList_iff _ _).1 g2] at g3
        exact ⟨b, c, a, g3, g4, g5⟩
  · have e0 : SsaStyle.make format body = .error .programming := by
      have := C101_count _ _ h1.2.2 h2.2.2 h1.1 h2.1 hl
      rwa [← h1.2.1, ← h2.2.1] at this
    rw [e0]
    constructor
    · intro h; cases h; exact .count _ _ h1 h2 hl
    · intro h
      cases h with
      | count => rfl
      | column names values b a c _ g1 g2 g3 =>
        rw [← (commaList_iff _ _).1 g1, ← (commaList_iff _ _).1 g2] at g3
        exact absurd g3 hl

example : StyleFails b!"Name, PrimaryColour, Fontsize" b!"Big,&FF, 99999999999" (.ssa b!"Badly formatted colour tag &FF") := (C134_style _ _ _).1 (by decide +kernel)

/-! ### Files -/

theorem ssaLine_error {r : SsaRead} {past : List SsaEntry} (k : Knows r past) (l : Str) (e : Err) : ssaLine r l = .error e ↔ SsaLineFails past l e := by
  have hnamed : r.named = NamedStyle past := by
    funext n s
    exact propext (k.styles n s).symm
  have colon_iff : ((58 : Byte) ∉ ssaClean l ∧ ssaClean l ≠ [] ∧ ¬ b!";" <+: ssaClean l ∧ ¬ b!"[" <+: ssaClean l) ↔ ∀ e, ¬ OnLine l e := by
    constructor
    · rintro ⟨h1, h2, h3, h4⟩ e he
      cases he with
      | nothing h => rcases h with h | h; exacts [h2 h, h3 h]
      | heading h => exact h4 h
      | field t r h => exact h1 (by rw [h]; simp)
    · intro h
      refine ⟨?_, fun h' => h _ (.nothing (.inl h')), fun h' => h _ (.nothing (.inr h')), fun h' => h _ (.heading h')⟩
      rcases onLine_cases l with ⟨e, he⟩ | hc
      · exact absurd he (h e)
      · exact hc
  by_cases ho : ∃ en, OnLine l en
  swap
  · have hno : ∀ en, ¬ OnLine l en := fun en hen => ho ⟨en, hen⟩
    rw [line_none hno r]
    obtain ⟨g1, g2, g3, g4⟩ := colon_iff.2 hno
    constructor
    · intro h; cases h; exact .colon g1 g2 g3 g4
    · intro h
      cases h with
      | colon => rfl
      | side t b _ h => exact absurd h (hno _)
      | noStyleFormat b h => exact absurd h (hno _)
      | style b f _ h => exact absurd h (hno _)
      | noFormat b h => exact absurd h (hno _)
      | dialogue b f w g _ h => exact absurd h (hno _)
  obtain ⟨en, he⟩ := ho
  have nocolon : ∀ {P : Prop}, (58 : Byte) ∉ ssaClean l → ssaClean l ≠ [] → ¬ b!";" <+: ssaClean l → ¬ b!"[" <+: ssaClean l → P :=
    fun h1 h2 h3 h4 => absurd he (colon_iff.1 ⟨h1, h2, h3, h4⟩ en)
  rw [line_entry he r]
  cases en with
  | none =>
    constructor
    · intro h; cases h
    · intro h
      cases h with
      | colon h1 h2 h3 h4 => exact nocolon h1 h2 h3 h4
      | side t b _ h => exact absurd (onLine_unique he h) (by simp)
      | noStyleFormat b h => exact absurd (onLine_unique he h) (by simp)
      | style b f _ h => exact absurd (onLine_unique he h) (by simp)
      | noFormat b h => exact absurd (onLine_unique he h) (by simp)
      | dialogue b f w g _ h => exact absurd (onLine_unique he h) (by simp)
  | some en =>
    cases en with
    | heading t =>
      constructor
      · intro h; cases h
      · intro h
        cases h with
        | colon h1 h2 h3 h4 => exact nocolon h1 h2 h3 h4
        | side t b _ h => exact absurd (onLine_unique he h) (by simp)
        | noStyleFormat b h => exact absurd (onLine_unique he h) (by simp)
        | style b f _ h => exact absurd (onLine_unique he h) (by simp)
        | noFormat b h => exact absurd (onLine_unique he h) (by simp)
        | dialogue b f w g _ h => exact absurd (onLine_unique he h) (by simp)
    | field t b =>
      simp only
      have inj : ∀ {t' b' : Str}, OnLine l (some (.field t' b')) → t' = t ∧ b' = b := by
        intro t' b' h
        have := onLine_unique he h
        simp only [Option.some.injEq, SsaEntry.field.injEq] at this
        exact ⟨this.1.symm, this.2.symm⟩
      cases hp : r.part with
      | info =>
        have hs : sectionAfter past = .info := by rw [← k.part, hp]
        simp only
        constructor
        · intro h
          rcases ite_cases h with ⟨rfl, g⟩ | ⟨n1, h⟩
          · rw [pure_bind_error] at g
            exact .side _ b e he hs (by simp) ((int_error _ _).1 g)
          rcases ite_cases h with ⟨rfl, g⟩ | ⟨n2, h⟩
          · rw [pure_bind_error] at g
            exact .side _ b e he hs (by simp) ((int_error _ _).1 g)
          · cases h
        · intro h
          cases h with
          | colon h1 h2 h3 h4 => exact nocolon h1 h2 h3 h4
          | side t' b' _ h _ ht hi =>
            obtain ⟨rfl, rfl⟩ := inj h
            simp only [List.mem_cons, List.not_mem_nil, or_false] at ht
            rcases ht with rfl | rfl
            · rw [if_pos rfl, pure_bind_error]; exact (int_error _ _).2 hi
            · rw [if_neg (by decide), if_pos rfl, pure_bind_error]; exact (int_error _ _).2 hi
          | noStyleFormat b h h' => rw [hs] at h'; cases h'
          | style b f _ h h' => rw [hs] at h'; cases h'
          | noFormat b h h' => rw [hs] at h'; cases h'
          | dialogue b f w g _ h h' => rw [hs] at h'; cases h'
      | styles =>
        have hs : sectionAfter past = .styles := by rw [← k.part, hp]
        simp only
        have body : (do subAssert (!r.styleFormat.isEmpty); let s ← SsaStyle.make r.styleFormat b; pure { r with styles := (s.name, s) :: r.styles } : R SsaRead) = .error e ↔
            (r.styleFormat = [] ∧ e = .programming) ∨ (r.styleFormat ≠ [] ∧ StyleFails r.styleFormat b e) := by
          cases hf : r.styleFormat with
          | nil =>
            show (Except.error Err.programming : R SsaRead) = _ ↔ _
            simp [eq_comm]
          | cons c cs =>
            show (do let s ← SsaStyle.make (c :: cs) b; pure { r with styles := (s.name, s) :: r.styles, styleFormat := c :: cs } : R SsaRead) = .error e ↔ _
            rw [pure_bind_error, C134_style]
            simp
        constructor
        · intro h
          rcases ite_cases h with ⟨rfl, g⟩ | ⟨n1, h⟩
          · cases g
          rcases ite_cases h with ⟨rfl, g⟩ | ⟨n2, h⟩
          · rw [hp] at body
            rcases body.1 g with ⟨h0, rfl⟩ | ⟨h0, h1⟩
            · refine .noStyleFormat b he hs (fun f hf => ?_)
              by_contra hn
              exact hn (by rw [← (k.sformat f hn).1 hf]; exact h0)
            · exact .style b _ e he hs ((k.sformat _ h0).2 rfl) h0 h1
          · cases h
        · intro h
          rw [hp] at body
          cases h with
          | colon h1 h2 h3 h4 => exact nocolon h1 h2 h3 h4
          | side t' b' _ h h' => rw [hs] at h'; cases h'
          | noStyleFormat b' h _ hf =>
            obtain ⟨rfl, rfl⟩ := inj h
            rw [if_neg (by decide), if_pos rfl]
            refine body.2 (.inl ⟨?_, rfl⟩)
            by_contra hn
            exact hn (hf _ ((k.sformat _ hn).2 rfl))
          | style b' f _ h _ hf hn hx =>
            obtain ⟨rfl, rfl⟩ := inj h
            rw [if_neg (by decide), if_pos rfl]
            have := (k.sformat f hn).1 hf
            subst this
            exact body.2 (.inr ⟨hn, hx⟩)
          | noFormat b h h' => rw [hs] at h'; cases h'
          | dialogue b f w g _ h h' => rw [hs] at h'; cases h'
      | events =>
        have hs : sectionAfter past = .events := by rw [← k.part, hp]
        simp only
        have none_ : (∀ f, ¬ Setting past .events b!"Format" f) → ssaDialogue r b = .error .programming := by
          intro hf
          unfold ssaDialogue
          rw [k.noformat hf]
          rfl
        constructor
        · intro h
          rcases ite_cases h with ⟨rfl, g⟩ | ⟨n1, h⟩
          · cases g
          rcases ite_cases h with ⟨rfl, g⟩ | ⟨n2, h⟩
          · by_cases hf : ∃ f, Setting past .events b!"Format" f
            · obtain ⟨f, hf⟩ := hf
              have := (C134_dialogue r f b (k.eformat f hf) e).1 g
              rw [hnamed] at this
              exact .dialogue b f r.resX r.resY e he hs hf ((k.resX _).2 rfl) ((k.resY _).2 rfl) this
            · have hf : ∀ f, ¬ Setting past .events b!"Format" f := fun f hf' => hf ⟨f, hf'⟩
              rw [none_ hf] at g
              cases g
              exact .noFormat b he hs hf
          · cases h
        · intro h
          cases h with
          | colon h1 h2 h3 h4 => exact nocolon h1 h2 h3 h4
          | side t' b' _ h h' => rw [hs] at h'; cases h'
          | noStyleFormat b h h' => rw [hs] at h'; cases h'
          | style b f _ h h' => rw [hs] at h'; cases h'
          | noFormat b' h _ hf =>
            obtain ⟨rfl, rfl⟩ := inj h
            rw [if_neg (by decide), if_pos rfl]
            exact none_ hf
          | dialogue b' f w g _ h _ hf hw hg hd =>
            obtain ⟨rfl, rfl⟩ := inj h
            rw [if_neg (by decide), if_pos rfl]
            have ew := (k.resX w).1 hw
            have eg := (k.resY g).1 hg
            subst ew eg
            rw [← hnamed] at hd
            exact (C134_dialogue r f b' (k.eformat f hf) e).2 hd

theorem ssaLines_knows {ls : List Str} {past : List SsaEntry} {r r' : SsaRead} (k : Knows r past) (h : ssaLines r ls = .ok r') :
    ∃ es, List.Forall₂ OnLine ls es ∧ Knows r' ((es.filterMap id).reverse ++ past) := by
  induction ls generalizing r past with
  | nil => cases h; exact ⟨[], .nil, k⟩
  | cons l ls ih =>
    obtain ⟨r1, h1, h2⟩ := bind_eq_ok.1 h
    rcases line_step k h1 with ⟨ho, rfl⟩ | ⟨e, ho, hq, hk, hs⟩ | ⟨b, f, w, g, subs, ho, hse, hf, hw, hg, hd, hk, hs⟩
    · obtain ⟨es, h3, h4⟩ := ih k h2
      exact ⟨none :: es, .cons ho h3, by simpa using h4⟩
    · obtain ⟨es, h3, h4⟩ := ih hk h2
      exact ⟨some e :: es, .cons ho h3, by simpa using h4⟩
    · obtain ⟨es, h3, h4⟩ := ih hk h2
      exact ⟨some _ :: es, .cons ho h3, by simpa using h4⟩

theorem onLines_unique {ls : List Str} {es es' : List (Option SsaEntry)} (h : List.Forall₂ OnLine ls es) (h' : List.Forall₂ OnLine ls es') : es = es' := by
  induction h generalizing es' with
  | nil => cases h'; rfl
  | cons h1 _ ih =>
    cases h' with
    | cons h1' h2' => rw [onLine_unique h1 h1', ih h2']

theorem ssaLines_error (r : SsaRead) (ls : List Str) (e : Err) : ssaLines r ls = .error e ↔ ∃ A l B r', ls = A ++ l :: B ∧ ssaLines r A = .ok r' ∧ ssaLine r' l = .error e := by
  constructor
  · intro h
    induction ls generalizing r with
    | nil => cases h
    | cons l ls ih =>
      rcases bind_error_iff.1 h with h | ⟨r1, h1, h2⟩
      · exact ⟨[], l, ls, r, rfl, rfl, h⟩
      · obtain ⟨A, l', B, r', rfl, h3, h4⟩ := ih r1 h2
        exact ⟨l :: A, l', B, r', rfl, by rw [ssaLines, h1]; exact h3, h4⟩
  · rintro ⟨A, l, B, r', rfl, h1, h2⟩
    rw [ssaLines_append, h1, ok_bind, ssaLines, h2]
    rfl

/-- C134: how reading the lines of an SSA file fails. -/
theorem C134_ssa (lines : List Str) (e : Err) : ssaReadLines lines = .error e ↔ SsaFails lines e := by
  have hr : ssaReadLines lines = .error e ↔ ssaLines {} lines = .error e := by
    unfold ssaReadLines
    cases ssaLines {} lines with
    | error e' => simp [Except.map]
    | ok r => simp [Except.map]
  rw [hr, ssaLines_error]
  unfold SsaFails
  constructor
  · rintro ⟨A, l, B, r', h1, h2, h3⟩
    obtain ⟨subs, h4, -⟩ := lines_sound knows_nil h2
    obtain ⟨es, h5, h6⟩ := ssaLines_knows knows_nil h2
    rw [List.append_nil] at h6
    exact ⟨A, l, B, subs, es, h1, h4, h5, (ssaLine_error h6 l e).1 h3⟩
  · rintro ⟨A, l, B, subs, es, h1, h4, h5, h7⟩
    obtain ⟨r', h2, -⟩ := lines_complete h4 knows_nil
    obtain ⟨es', h5', h6⟩ := ssaLines_knows knows_nil h2
    rw [List.append_nil, ← onLines_unique h5 h5'] at h6
    exact ⟨A, l, B, r', h1, h2, (ssaLine_error h6 l e).2 h7⟩

example : SsaFails [b!"[Script Info]", b!"PlayResX: 640", b!"", b!"[Events]", b!"Dialogue: 0:00:01.00,0:00:02.00,Hello"] .programming := (C134_ssa _ _).1 (by decide +kernel)
example : SsaFails [b!"[V4+ Styles]", b!"Format: Name, PrimaryColour", b!"Style: Big,&FF"] (.ssa b!"Badly formatted colour tag &FF") := (C134_ssa _ _).1 (by decide +kernel)

end LibSub
