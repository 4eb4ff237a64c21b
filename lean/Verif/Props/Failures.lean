/-
Property C86: in which ways the readers can fail.
-/
import Verif.Props.Collectable
import Verif.Props.Values

namespace LibSub

/-! ### Specification -/

/-- How the STL text reader can fail: an exception of Boost, or overflow. -/
def Err.OfStlText (e : Err) : Prop := e = .badLexicalCast ∨ e = .ub .intOverflow

/-- What can be said to be expected of a time with `sep` before the milliseconds. -/
abbrev timeExpected (sep : Str) : List Str :=
  [b!"time in the format h:m:s,ms", b!"time in the format h:m:s" ++ sep ++ b!"ms", b!"integer hour value", b!"integer minute value", b!"integer second value",
    b!"integer millisecond value"]

/-- What the WebVTT reader can say that it expected. -/
abbrev vttExpected : List Str := b!"a time line" :: timeExpected b!"."

/-- What the SubRip reader can say that it expected. -/
abbrev srtExpected : List Str := b!"a time/position line" :: b!"a colour in the format #rrggbb #rrggbbaa or rgba(rr,gg,bb,aa)" :: timeExpected b!","

/-- How the WebVTT reader can fail: its own exceptions, or overflow. -/
def Err.OfWebVtt (e : Err) : Prop := e = .webvttHeader ∨ (∃ saw ex ctx, ex ∈ vttExpected ∧ e = .webvtt saw ex ctx) ∨ e = .ub .intOverflow

/-- How an SSA tag can fail, given a sensible resolution: an assertion, a bad colour, or a number that `%f` takes in a way that is not modelled. -/
def Err.OfTag (e : Err) : Prop := e = .programming ∨ (∃ m, e = .ssa m) ∨ e = .unmodelled

/-- How the SubRip reader can fail: its own exception; overflow; a component of a colour that is not an `int`; `</font>` once too often; or an SSA tag. -/
def Err.OfSubRip (e : Err) : Prop :=
  (∃ n saw ex ctx, ex ∈ srtExpected ∧ e = .subrip n saw ex ctx) ∨ e = .ub .intOverflow ∨ e = .ub .scanfRange ∨ e = .ub .emptyContainer ∨ e.OfTag

/-- How the SSA reader can fail: as a tag; overflow; a number that is not an `int`; a resolution of zero. -/
def Err.OfSsa (e : Err) : Prop := e.OfTag ∨ e = .ub .intOverflow ∨ e = .ub .scanfRange ∨ e = .nonFinite

/-! ### Building blocks -/

private theorem e_ck {P : Err → Prop} (h : P (.ub .intOverflow)) (x : Int) : ErrIn P (ck x) := by
  unfold ck; split
  · exact .ok _
  · exact .error h

private theorem e_fdiv {P : Err → Prop} (a b : Rat) (h : b ≠ 0 ∨ P .nonFinite) : ErrIn P (fdiv a b) := by
  unfold fdiv; split
  · rename_i e
    rcases h with h | h
    · exact absurd e h
    · exact .error h
  · exact .ok _

private theorem e_optGet {P : Err → Prop} {α : Type} {o : Option α} (h : o.isSome = true) : ErrIn P (optGet o) := by
  cases o
  · cases h
  · exact .ok _

private theorem e_assert {P : Err → Prop} (h : P .programming) (b : Bool) : ErrIn P (subAssert b) := by
  cases b
  · exact .error h
  · exact .ok _

private theorem e_hms {P : Err → Prop} (p : P (.ub .intOverflow)) (h m s : Int) : ErrIn P (hmsSeconds h m s) := by
  unfold hmsSeconds
  exact .bind (e_ck p _) fun _ _ => .bind (e_ck p _) fun _ _ => .bind (e_ck p _) fun _ _ => e_ck p _

private theorem e_int {P : Err → Prop} (p : P (.ub .scanfRange)) (s : Str) : ErrIn P (rawConvertInt s) := by
  unfold rawConvertInt rawConvertIntIn scanInt
  exact .ite (.ok _) (.error p)

private theorem e_float {P : Err → Prop} (p : P .unmodelled) (s : Str) : ErrIn P (rawConvertFloat s) := by
  unfold rawConvertFloat rawConvertFloatIn scanFloat
  exact .ite (.error p) (.ite (.ok _) (.error p))

private theorem e_convertTime {P : Err → Prop} (p : P (.ub .intOverflow)) (t sep : Str) : ErrIn P (convertTime t sep) := by
  unfold convertTime
  split
  · split
    · split
      · exact .ok _
      · split
        · exact .ok _
        · split
          · exact .ok _
          · split
            · exact .ok _
            · exact .bind (.bind (e_hms p ..) fun _ _ => .ok _) fun _ _ => .ok _
    · exact .ok _
  · exact .ok _

private theorem convertTime_says {t sep e : Str} (h : convertTime t sep = .ok (.error e)) : e ∈ timeExpected sep := by
  unfold convertTime at h
  split at h
  · split at h
    · split at h
      · cases h; simp
      · split at h
        · cases h; simp
        · split at h
          · cases h; simp
          · split at h
            · cases h; simp
            · obtain ⟨_, -, h⟩ := bind_eq_ok.1 h
              cases h
    · cases h; simp
  · cases h; simp

/-! ### STL text -/

private theorem e_cast {P : Err → Prop} (p : P .badLexicalCast) (s : Str) : ErrIn P (lexicalCastInt s) := by
  unfold lexicalCastInt
  exact .ite (.error p) (.ite (.ok _) (.error p))

private theorem push_line {s : StlTextSt} (h : s.sub.vpos.line.isSome = true) : s.maybePush.sub.vpos.line.isSome = true := by
  unfold StlTextSt.maybePush
  split
  · exact h
  · rfl

private theorem e_chars (cs : Str) (s : StlTextSt) (h : s.sub.vpos.line.isSome = true) :
    ErrIn Err.OfStlText (stlTextChars s cs) ∧ ∀ s', stlTextChars s cs = .ok s' → s'.sub.vpos.line.isSome = true := by
  suffices key : ∀ n, ∀ cs : Str, cs.length ≤ n → ∀ s : StlTextSt, s.sub.vpos.line.isSome = true →
      ErrIn Err.OfStlText (stlTextChars s cs) ∧ ∀ s', stlTextChars s cs = .ok s' → s'.sub.vpos.line.isSome = true from key _ cs (Nat.le_refl _) s h
  intro n
  induction n with
  | zero =>
    intro cs hn s h
    have : cs = [] := List.length_eq_zero_iff.1 (by omega)
    subst this
    exact ⟨.ok _, fun s' e => by cases e; exact h⟩
  | succ n ih =>
    intro cs hn s h
    unfold stlTextChars
    split
    · exact ⟨.ok _, fun s' e => by cases e; exact h⟩
    · rename_i cs
      have hl : ∀ l', ({ s.maybePush with sub := { s.maybePush.sub with vpos := { s.maybePush.sub.vpos with line := some l' } } } : StlTextSt).sub.vpos.line.isSome = true := fun _ => rfl
      refine ⟨.bind (e_optGet (push_line h)) fun l _ => .bind (e_ck (.inr rfl) _) fun l' _ => (ih cs (by simpa using hn) _ (hl l')).1, fun s' e => ?_⟩
      obtain ⟨l, -, e⟩ := bind_eq_ok.1 e
      obtain ⟨l', -, e⟩ := bind_eq_ok.1 e
      exact (ih cs (by simpa using hn) _ (hl l')).2 s' e
    · exact ⟨.ok _, fun s' e => by cases e; exact push_line h⟩
    · rename_i d cs
      refine ih cs (by simp at hn; omega) _ ?_
      have := push_line h
      split
      · exact this
      · split
        · exact this
        · split <;> exact this
    · rename_i c cs _ _ _
      exact ih cs (by simpa using hn) _ h

private theorem e_textTime (t : Str) : ErrIn Err.OfStlText (stlTextTime t) := by
  unfold stlTextTime
  split
  · refine .bind (e_cast (.inl rfl) _) fun _ _ => .bind (e_cast (.inl rfl) _) fun _ _ => .bind (e_cast (.inl rfl) _) fun _ _ => .bind (e_cast (.inl rfl) _) fun _ _ =>
      .bind (.bind (e_hms (.inr rfl) ..) fun _ _ => .ok _) fun _ _ => .ok _
  · exact .ok _

private theorem e_set (s : StlTextSt) (n v : Str) : ErrIn Err.OfStlText (s.set n v) ∧ ∀ s', s.set n v = .ok s' → s'.sub.vpos = s.sub.vpos := by
  unfold StlTextSt.set
  constructor
  · exact .ite (.ok _) (.ite (.ok _) (.ite (.ok _) (.ite (.ok _) (.ite (.bind (e_cast (.inl rfl) _) fun _ _ => .ok _) (.ok _)))))
  · suffices hs : OkIn (fun s' : StlTextSt => s'.sub.vpos = s.sub.vpos) _ from hs.h
    exact .ite (.ok rfl) (.ite (.ok rfl) (.ite (.ok rfl) (.ite (.ok rfl) (.ite (.bind fun _ _ => .ok rfl) (.ok rfl)))))

private theorem e_textLine (s : StlTextSt) (raw : Str) (h : s.sub.vpos.line.isSome = true) :
    ErrIn Err.OfStlText (stlTextLine s raw) ∧ ∀ s', stlTextLine s raw = .ok s' → s'.sub.vpos.line.isSome = true := by
  unfold stlTextLine
  simp only
  split
  · exact ⟨.ok _, fun s' e => by cases e; exact h⟩
  · split
    · split
      · exact ⟨(e_set ..).1, fun s' e => by rw [(e_set ..).2 s' e]; exact h⟩
      · exact ⟨.ok _, fun s' e => by cases e; exact h⟩
    · split
      · exact ⟨.ok _, fun s' e => by cases e; exact h⟩
      · split
        · exact ⟨.ok _, fun s' e => by cases e; exact h⟩
        · split
          · exact ⟨.ok _, fun s' e => by cases e; exact h⟩
          · have hq := fun f t cs => e_chars cs { s with sub := { s.sub with from_ := f, to_ := t } } h
            constructor
            · refine .bind (e_textTime _) fun f _ => .bind (e_textTime _) fun t _ => ?_
              split
              · exact .bind (hq _ _ _).1 fun _ _ => .ok _
              · exact .ok _
            · intro s' e
              obtain ⟨f, -, e⟩ := bind_eq_ok.1 e
              obtain ⟨t, -, e⟩ := bind_eq_ok.1 e
              split at e
              · obtain ⟨st, h1, e⟩ := bind_eq_ok.1 e
                cases e
                exact push_line ((hq _ _ _).2 st h1)
              · cases e; exact h

/-- C86 for STL text: the reader fails only with `boost::bad_lexical_cast` or because of a number of seconds (or lines) that is not an `int`. -/
theorem C86_stltext (file : Str) (e : Err) (h : stlTextRead file = .error e) : e.OfStlText := by
  have key : ∀ ls : List Str, ∀ s : StlTextSt, s.sub.vpos.line.isSome = true → ErrIn Err.OfStlText (stlTextLines s ls) := by
    intro ls
    induction ls with
    | nil => intro s _; exact .ok _
    | cons l ls ih =>
      intro s hs
      rw [stlTextLines]
      exact .bind (e_textLine s l hs).1 fun s' hs' => ih s' ((e_textLine s l hs).2 s' hs')
  have : ErrIn Err.OfStlText (stlTextRead file) := .bind (key _ _ rfl) fun _ _ => .ok _
  exact this.h e h

/-- Both happen. -/
example : stlTextRead b!"00:00:0x:00 , 00:00:02:00 , a\n" = .error .badLexicalCast ∧ stlTextRead b!"999999999:00:00:00 , 00:00:02:00 , a\n" = .error (.ub .intOverflow) := by
  constructor <;> decide +kernel

/-! ### WebVTT -/

private theorem e_timing (ctx : List Str) (line : Str) (rest : List Str) (rs : Raw) : ErrIn Err.OfWebVtt (vttTiming ctx line rest rs) := by
  unfold vttTiming
  refine .ite (.error (.inr (.inl ⟨_, _, _, .head _, rfl⟩))) (.bind (e_convertTime (.inr (.inr rfl)) _ _) fun a ha => ?_)
  split
  · exact .error (.inr (.inl ⟨_, _, _, .tail _ (convertTime_says ha), rfl⟩))
  · refine .bind (e_convertTime (.inr (.inr rfl)) _ _) fun b hb => ?_
    split
    · exact .error (.inr (.inl ⟨_, _, _, .tail _ (convertTime_says hb), rfl⟩))
    · exact .ok _

private theorem timing_line {ctx : List Str} {line : Str} {rest : List Str} {rs r : Raw} (h : vttTiming ctx line rest rs = .ok r) : r.vpos.line.isSome = true := by
  unfold vttTiming at h
  simp only at h
  split at h
  · cases h
  · obtain ⟨a, -, h⟩ := bind_eq_ok.1 h
    split at h
    · cases h
    · obtain ⟨b, -, h⟩ := bind_eq_ok.1 h
      split at h
      · cases h
      · cases h; rfl

private theorem e_vttSub (ts : List Str) (rs : Raw) (subs : List Raw) (h : rs.vpos.line.isSome = true) :
    ErrIn Err.OfWebVtt (vttSubLines ts rs subs) ∧ ∀ q, vttSubLines ts rs subs = .ok q → q.1.vpos.line.isSome = true := by
  induction ts generalizing rs subs with
  | nil => exact ⟨.ok _, fun q e => by cases e; exact h⟩
  | cons t ts ih =>
    rw [vttSubLines]
    refine ⟨.bind (e_optGet h) fun l _ => .bind (e_ck (.inr (.inr rfl)) _) fun l' _ => (ih _ _ rfl).1, fun q e => ?_⟩
    obtain ⟨l, -, e⟩ := bind_eq_ok.1 e
    obtain ⟨l', -, e⟩ := bind_eq_ok.1 e
    exact (ih _ _ rfl).2 q e

/-- C86 for WebVTT: the reader fails only with its own exceptions or because of a number of seconds (or lines) that is not an `int`. -/
theorem C86_webvtt (lines : List Str) (e : Err) (h : vttRead lines = .error e) : e.OfWebVtt := by
  have key : ∀ (ls : List Str) (st : VttState) (ctx : List Str) (rs : Raw) (subs : List Raw), rs.vpos.line.isSome = true → ErrIn Err.OfWebVtt (vttLines st ctx rs subs ls) := by
    intro ls
    induction ls with
    | nil => intro st ctx rs subs _; cases st <;> exact .ok _
    | cons l ls ih =>
      intro st ctx rs subs hs
      cases st <;> rw [vttLines]
      · exact .ite (ih _ _ _ _ hs) (.error (.inl rfl))
      · exact .ite (ih _ _ _ _ hs) (.ite (.bind (e_timing ..) fun r hr => ih _ _ _ _ (timing_line hr)) (ih _ _ _ _ hs))
      · exact .ite (ih _ _ _ _ hs) (.bind (e_vttSub _ _ _ hs).1 fun q hq => ih _ _ _ _ ((e_vttSub _ _ _ hs).2 q hq))
      · exact .ite (ih _ _ _ _ hs) (ih _ _ _ _ hs)
  exact (key lines .header [] _ [] rfl).h e h

/-- All three happen. -/
example : vttRead [b!"WEB"] = .error .webvttHeader ∧ vttRead [b!"WEBVTT", b!"-->"] = .error (.webvtt b!"-->" b!"a time line" [b!"WEBVTT", b!"-->"]) ∧
    vttRead [b!"WEBVTT", b!"999999999:0:0.0 --> 0:0:1.0"] = .error (.ub .intOverflow) := by
  refine ⟨?_, ?_, ?_⟩ <;> decide +kernel

/-! ### SSA tags -/

private theorem e_ratio {P : Err → Prop} (a b : Int) (h : f32 b ≠ 0 ∨ P .nonFinite) : ErrIn P (intRatio a b) := .bind (e_fdiv _ _ h) fun _ _ => .ok _

private theorem e_updateH {P : Err → Prop} (o : P (.ub .intOverflow)) (f : P .nonFinite) (ctx : SsaContext) (sub : Raw) : ErrIn P (ctx.updateH sub) := by
  unfold SsaContext.updateH
  simp only
  split
  · exact .bind (e_ratio _ _ (.inr f)) fun _ _ => .ok _
  · exact .bind (e_ck o _) fun _ _ => .bind (e_ck o _) fun _ _ => .bind (e_ratio _ _ (.inr f)) fun _ _ => .ok _
  · exact .bind (e_ratio _ _ (.inr f)) fun _ _ => .ok _

private theorem f288 : f32 (288 : Int) ≠ 0 := by decide +kernel

private theorem f576 : f32 (576 : Int) ≠ 0 := by decide +kernel

/-- With the resolution that the SubRip reader gives, aligning does not fail. -/
private theorem e_updateH_srt {P : Err → Prop} (sub : Raw) : ErrIn P (srtSsaContext.updateH sub) := by
  unfold SsaContext.updateH
  simp only
  split
  · exact .bind (e_ratio _ _ (.inl f288)) fun _ _ => .ok _
  · rw [show ck (srtSsaContext.lmargin - srtSsaContext.rmargin) = .ok 0 from rfl, ok_bind, show ck (2 * srtSsaContext.resX) = .ok 576 from rfl, ok_bind]
    exact .bind (e_ratio _ _ (.inl f576)) fun _ _ => .ok _
  · exact .bind (e_ratio _ _ (.inl f288)) fun _ _ => .ok _

private theorem e_hColour {P : Err → Prop} (h : ∀ m, P (.ssa m)) (s : Str) : ErrIn P (hColour s) := by
  unfold hColour
  split
  · exact .ok _
  · exact .error (h _)

private theorem e_tag {P : Err → Prop} (hp : P .programming) (hs : ∀ m, P (.ssa m)) (hu : P .unmodelled) (ctx : SsaContext)
    (hx : f32 ctx.resX ≠ 0 ∨ P .nonFinite) (hy : f32 ctx.resY ≠ 0 ∨ P .nonFinite) (ha : ∀ sub, ErrIn P (ctx.updateH sub)) (sub : Raw) (tag : Str) :
    ErrIn P (ssaParseTag ctx sub tag) := by
  unfold ssaParseTag
  iterate 6 refine .ite (.ok _) ?_
  iterate 9 refine .ite (ha _) ?_
  refine .ite ?_ (.ite ?_ (.ite (.ite ?_ (.ok _)) (.ok _)))
  · split
    · exact .bind (e_float hu _) fun _ _ => .bind (e_fdiv _ _ hx) fun _ _ => .bind (e_float hu _) fun _ _ => .bind (e_fdiv _ _ hy) fun _ _ => .ok _
    · exact .error hp
  · exact .bind (e_assert hp _) fun _ _ => .bind (e_float hu _) fun _ _ => .bind (e_fdiv _ _ hy) fun _ _ => .ok _
  · exact .bind (e_hColour hs _) fun _ _ => .ok _

/-! ### SubRip -/

private theorem xdigit_hexOf (c : Byte) (h : isXDigit c = true) : ∃ n, hexOf c = some n := by
  have : ∀ c : Byte, isXDigit c = true → (hexOf c).isSome = true :=
    forall_byte (p := fun c => isXDigit c = true → (hexOf c).isSome = true) (by decide +kernel)
  exact Option.isSome_iff_exists.1 (this c h)

private theorem lastMatch_mem {α : Type} {f : Str → Option α} {s : Str} {r : α} (h : lastMatch f s = some r) : ∃ t, f t = some r := by
  induction s with
  | nil => exact ⟨_, h⟩
  | cons c cs ih =>
    rw [lastMatch] at h
    split at h
    · rename_i r' h'
      cases h
      exact ih h'
    · exact ⟨_, h⟩

private theorem fontHex_digits {s g : Str} (h : fontHexAt s = some g) : ∀ c ∈ g, isXDigit c = true := by
  unfold fontHexAt at h
  split at h
  · simp only at h
    split at h
    · split at h
      · cases h
      · cases h
        intro c hc
        exact List.all_eq_true.1 List.all_takeWhile c hc
    · cases h
  · cases h

private theorem e_rgb {P : Err → Prop} (g : Str) (h : ∀ c ∈ g, isXDigit c = true) (hl : g.length = 6) : ErrIn P (Colour.fromRgbHex g) := by
  match g, hl with
  | [a, b, c, d, e, f], _ =>
    simp only [List.mem_cons, List.not_mem_nil, or_false, forall_eq_or_imp, forall_eq] at h
    obtain ⟨ha, hb, hc, hd, he, hf⟩ := h
    obtain ⟨_, ha⟩ := xdigit_hexOf a ha
    obtain ⟨_, hb⟩ := xdigit_hexOf b hb
    obtain ⟨_, hc⟩ := xdigit_hexOf c hc
    obtain ⟨_, hd⟩ := xdigit_hexOf d hd
    obtain ⟨_, he⟩ := xdigit_hexOf e he
    obtain ⟨_, hf⟩ := xdigit_hexOf f hf
    rw [C72_rgb a b c d e f _ _ _ _ _ _ [] ha hb hc hd he hf]
    exact .ok _

private theorem e_rgba {P : Err → Prop} (g : Str) (h : ∀ c ∈ g, isXDigit c = true) (hl : g.length = 8) : ErrIn P (Colour.fromRgbaHex g) := by
  match g, hl with
  | [a, b, c, d, e, f, g, i], _ =>
    simp only [List.mem_cons, List.not_mem_nil, or_false, forall_eq_or_imp, forall_eq] at h
    obtain ⟨ha, hb, hc, hd, he, hf, hg, hi⟩ := h
    obtain ⟨_, ha⟩ := xdigit_hexOf a ha
    obtain ⟨_, hb⟩ := xdigit_hexOf b hb
    obtain ⟨_, hc⟩ := xdigit_hexOf c hc
    obtain ⟨_, hd⟩ := xdigit_hexOf d hd
    obtain ⟨_, he⟩ := xdigit_hexOf e he
    obtain ⟨_, hf⟩ := xdigit_hexOf f hf
    obtain ⟨_, hg⟩ := xdigit_hexOf g hg
    obtain ⟨_, hi⟩ := xdigit_hexOf i hi
    rw [C72_rgba a b c d e f g i _ _ _ _ _ _ _ _ [] ha hb hc hd he hf hg hi]
    exact .ok _

private theorem e_fontColour {P : Err → Prop} (hs : ∀ n a b c, b ∈ srtExpected → P (.subrip n a b c)) (hr : P (.ub .scanfRange)) (n : Nat) (ctx : List Str) (tag : Str) : ErrIn P (fontColour n ctx tag) := by
  unfold fontColour
  split
  · rename_i g hg
    obtain ⟨t, ht⟩ := lastMatch_mem hg
    have hx := fontHex_digits ht
    split
    · rename_i h6; exact e_rgb g hx h6
    · split
      · rename_i h8; exact e_rgba g hx h8
      · exact .error (hs _ _ _ _ (.tail _ (.head _)))
  · split
    · have : ∀ s, ErrIn P (decComp s) := fun s => .bind (e_int hr s) fun _ _ => .ok _
      exact .bind (this _) fun _ _ => .bind (this _) fun _ _ => .bind (this _) fun _ _ => .ok _
    · exact .error (hs _ _ _ _ (.tail _ (.head _)))

private theorem content_line (s : SrtLine) : s.maybeContent.p.vpos = s.p.vpos := by
  unfold SrtLine.maybeContent
  split <;> rfl

/-- What one token of a line needs of the errors. -/
private structure SrtErrs (P : Err → Prop) (tags : Prop) : Prop where
  own : ∀ n a b c, b ∈ srtExpected → P (.subrip n a b c)
  over : P (.ub .intOverflow)
  range : P (.ub .scanfRange)
  empty : P (.ub .emptyContainer)
  tag : tags → P .programming ∧ (∀ m, P (.ssa m)) ∧ P .unmodelled

private theorem e_exec {P : Err → Prop} {tags : Prop} (E : SrtErrs P tags) (n : Nat) (ctx : List Str) (s : SrtLine) (t : Tok) (ht : ∀ x, t = .ssa x → tags) :
    ErrIn P (s.exec n ctx t) ∧ OkIn (fun s' : SrtLine => s'.p.vpos.line.isSome = s.p.vpos.line.isSome) (s.exec n ctx t) := by
  have hc : s.maybeContent.p.vpos.line.isSome = s.p.vpos.line.isSome := by rw [content_line]
  cases t with
  | bold b => exact ⟨.ok _, .ok hc⟩
  | italic b => exact ⟨.ok _, .ok hc⟩
  | underline b => exact ⟨.ok _, .ok hc⟩
  | fontOpen tag => exact ⟨.bind (e_fontColour E.own E.range ..) fun _ _ => .ok _, .bind fun _ _ => .ok hc⟩
  | fontClose =>
    rw [SrtLine.exec]
    simp only
    constructor
    · refine .ite (.ok _) ?_
      split
      · exact .ok _
      · exact .error E.empty
    · refine .ite (.ok hc) ?_
      split
      · exact .ok hc
      · exact .error
  | ssa tag =>
    obtain ⟨h1, h2, h3⟩ := E.tag (ht tag rfl)
    refine ⟨.bind (e_tag h1 h2 h3 _ (.inl f288) (.inl f288) e_updateH_srt _ _) fun _ _ => .ok _, .bind fun p hp => .ok ?_⟩
    have := (parseTag_kept _ _ _).h p hp
    simp only [Raw.kept, Prod.mk.injEq] at this
    exact this.2.2.2.2.2
  | chr c => exact ⟨.ok _, .ok rfl⟩

private theorem e_srtLoop {P : Err → Prop} {tags : Prop} (E : SrtErrs P tags) (n : Nat) (ctx : List Str) (fuel : Nat) (s : SrtLine) (t : Str) (ht : (92 : Byte) ∈ t → tags) :
    ErrIn P (srtLoop n ctx fuel s t) ∧ OkIn (fun s' : SrtLine => s'.p.vpos.line.isSome = s.p.vpos.line.isSome) (srtLoop n ctx fuel s t) := by
  induction fuel generalizing s t with
  | zero => cases t <;> exact ⟨.ok _, .ok rfl⟩
  | succ fuel ih =>
    cases t with
    | nil => exact ⟨.ok _, .ok rfl⟩
    | cons c cs =>
      rw [srtLoop]
      have h1 := e_exec E n ctx s (nextTok c cs).1 fun x hx => ht (List.mem_cons_of_mem _ (nextTok_ssa c cs x hx))
      have h2 := fun s' => ih s' (nextTok c cs).2 fun h => ht (nextTok_sub c cs _ h)
      refine ⟨.bind h1.1 fun s' _ => (h2 s').1, .bind fun s' hs' => ⟨fun s'' h => ?_⟩⟩
      rw [(h2 s').2.h s'' h, h1.2.h s' hs']

private theorem e_convertLine {P : Err → Prop} {tags : Prop} (E : SrtErrs P tags) (n : Nat) (ctx : List Str) (t : Str) (p : Raw) (subs : List Raw) (ht : (92 : Byte) ∈ t → tags) :
    ErrIn P (convertLine n ctx t p subs) ∧ OkIn (fun q : Raw × List Raw => q.1.vpos.line.isSome = p.vpos.line.isSome) (convertLine n ctx t p subs) := by
  have h := e_srtLoop E n ctx t.length { p := p, colours := [⟨1, 1, 1⟩], subs := subs } t ht
  refine ⟨.bind h.1 fun _ _ => .ok _, .bind fun s hs => .ok ?_⟩
  simp only [content_line]
  exact h.2.h s hs

private theorem e_subLines {P : Err → Prop} {tags : Prop} (E : SrtErrs P tags) (n : Nat) (ctx : List Str) (ts : List Str) (p : Raw) (subs : List Raw)
    (ht : ∀ t ∈ ts, (92 : Byte) ∈ t → tags) (hp : p.vpos.line.isSome = true) :
    ErrIn P (convertSubLines n ctx ts p subs) ∧ OkIn (fun q : Raw × List Raw => q.1.vpos.line.isSome = true) (convertSubLines n ctx ts p subs) := by
  induction ts generalizing p subs with
  | nil => exact ⟨.ok _, .ok hp⟩
  | cons t ts ih =>
    rw [convertSubLines]
    have h := e_convertLine E n ctx t p subs (ht t (List.mem_cons_self ..))
    have ih' := fun l' (q : Raw × List Raw) => ih { q.1 with vpos := { q.1.vpos with line := some l' }, text := [] } q.2 (fun t h => ht t (List.mem_cons_of_mem _ h)) rfl
    exact ⟨.bind h.1 fun q hq => .bind (e_optGet ((h.2.h q hq).trans hp)) fun l _ => .bind (e_ck E.over _) fun l' _ => (ih' l' q).1,
      .bind fun q _ => .bind fun l _ => .bind fun l' _ => (ih' l' q).2⟩

private theorem e_srtMeta {P : Err → Prop} {tags : Prop} (E : SrtErrs P tags) (n : Nat) (ctx : List Str) (line : Str) (rest : List Str) (rs : Raw) :
    ErrIn P (srtMetadata n ctx line rest rs) ∧ OkIn (fun r : Raw => r.vpos = rs.vpos) (srtMetadata n ctx line rest rs) := by
  unfold srtMetadata
  constructor
  · refine .ite (.error (E.own _ _ _ _ (.head _))) (.bind (e_convertTime E.over _ _) fun a ha => ?_)
    split
    · exact .error (E.own _ _ _ _ (.tail _ (.tail _ (convertTime_says ha))))
    · refine .bind (e_convertTime E.over _ _) fun b hb => ?_
      split
      · exact .error (E.own _ _ _ _ (.tail _ (.tail _ (convertTime_says hb))))
      · exact .ok _
  · refine .ite .error (.bind fun a _ => ?_)
    split
    · exact .error
    · refine .bind fun b _ => ?_
      split
      · exact .error
      · exact .ok rfl

private theorem e_srtLines {P : Err → Prop} {tags : Prop} (E : SrtErrs P tags) (ls : List Str) (n : Nat) (st : SrtState) (ctx : List Str) (rs : Raw) (subs : List Raw)
    (ht : ∀ l ∈ ls, (92 : Byte) ∈ l → tags) (hs : rs.vpos.line.isSome = true) : ErrIn P (srtLines n st ctx rs subs ls) := by
  induction ls generalizing n st ctx rs subs with
  | nil => cases st <;> exact .ok _
  | cons l ls ih =>
    have ih := fun n st ctx rs subs => ih n st ctx rs subs fun l h => ht l (List.mem_cons_of_mem _ h)
    cases st <;> rw [srtLines]
    · exact .ite (ih _ _ _ _ _ hs) (ih _ _ _ _ _ rfl)
    · refine .bind (e_srtMeta E ..).1 fun r hr => ih _ _ _ _ _ ?_
      rw [(e_srtMeta E ..).2.h r hr]
      exact hs
    · have hm : ∀ t ∈ splitStr lineSep (removeBom (trimRightIf isNlCr l)), (92 : Byte) ∈ t → tags := by
        intro t h1 h2
        exact ht l (List.mem_cons_self ..) (cleanLine_mem l _ (splitStrGo_mem _ _ 0 t h1 _ h2))
      have h := e_subLines E (n + 1) (pushContext ctx (removeBom (trimRightIf isNlCr l))) _ rs subs hm hs
      exact .ite (ih _ _ _ _ _ hs) (.bind h.1 fun q hq => ih _ _ _ _ _ (h.2.h q hq))

/-- C86 for SubRip: the ways in which the reader can fail. -/
theorem C86_subrip (lines : List Str) (e : Err) (h : srtRead lines = .error e) : e.OfSubRip := by
  have E : SrtErrs Err.OfSubRip True :=
    ⟨fun _ _ _ _ h => .inl ⟨_, _, _, _, h, rfl⟩, .inr (.inl rfl), .inr (.inr (.inl rfl)), .inr (.inr (.inr (.inl rfl))), fun _ =>
      ⟨.inr (.inr (.inr (.inr (.inl rfl)))), fun m => .inr (.inr (.inr (.inr (.inr (.inl ⟨m, rfl⟩))))), .inr (.inr (.inr (.inr (.inr (.inr rfl)))))⟩⟩
  exact (e_srtLines E lines 0 .counter [] srtFresh [] (fun _ _ _ => trivial) rfl).h e h

/-- All of these happen: a bad line of times; seconds and components of colours that are not an `int`; `</font>` twice; tags with no position, no colour, and an infinite size. -/
example :
    srtRead [b!"1", b!"x"] = .error (.subrip 2 b!"x" b!"a time/position line" [b!"1", b!"x"]) ∧
    srtRead [b!"1", b!"999999999:0:0,0 --> 0:0:2,0"] = .error (.ub .intOverflow) ∧
    srtRead [b!"1", b!"0:0:1,0 --> 0:0:2,0", b!"<font color=\"rgba(99999999999,0,0,0)\">a"] = .error (.ub .scanfRange) ∧
    srtRead [b!"1", b!"0:0:1,0 --> 0:0:2,0", b!"<font color=\"#102030\">a</font></font>"] = .error (.ub .emptyContainer) ∧
    srtRead [b!"1", b!"0:0:1,0 --> 0:0:2,0", b!"{\\pos(1)}a"] = .error .programming ∧
    srtRead [b!"1", b!"0:0:1,0 --> 0:0:2,0", b!"{\\cx}a"] = .error (.ssa b!"Badly formatted colour tag ") ∧
    srtRead [b!"1", b!"0:0:1,0 --> 0:0:2,0", b!"{\\fsinf}a"] = .error .unmodelled := by
  refine ⟨?_, ?_, ?_, ?_, ?_, ?_, ?_⟩ <;> decide +kernel

/-- C86 for SubRip: if there is no backslash in the file, then the reader does not fail in the ways of the SSA reader. -/
theorem C86_subrip_plain (lines : List Str) (hb : ∀ l ∈ lines, (92 : Byte) ∉ l) (e : Err) (h : srtRead lines = .error e) :
    (∃ n saw ex ctx, ex ∈ srtExpected ∧ e = .subrip n saw ex ctx) ∨ e = .ub .intOverflow ∨ e = .ub .scanfRange ∨ e = .ub .emptyContainer := by
  have E : SrtErrs (fun e => (∃ n saw ex ctx, ex ∈ srtExpected ∧ e = .subrip n saw ex ctx) ∨ e = .ub .intOverflow ∨ e = .ub .scanfRange ∨ e = .ub .emptyContainer) False :=
    ⟨fun _ _ _ _ h => .inl ⟨_, _, _, _, h, rfl⟩, .inr (.inl rfl), .inr (.inr (.inl rfl)), .inr (.inr (.inr rfl)), False.elim⟩
  exact (e_srtLines E lines 0 .counter [] srtFresh [] (fun l h => hb l h) rfl).h e h

example : (∀ l ∈ [b!"1", b!"0:0:1,0 --> 0:0:2,0", b!"<font color=\"red\">a"], (92 : Byte) ∉ l) ∧
    srtRead [b!"1", b!"0:0:1,0 --> 0:0:2,0", b!"<font color=\"red\">a"] =
      .error (.subrip 3 b!" color=\"red\"" badColourText [b!"1", b!"0:0:1,0 --> 0:0:2,0", b!"<font color=\"red\">a"]) := by
  constructor <;> decide +kernel

/-! ### SSA -/

/-- What the reading of an SSA file needs of the errors: all those of `Err.OfSsa`. -/
private theorem ssa_errs : Err.OfSsa .programming ∧ (∀ m, Err.OfSsa (.ssa m)) ∧ Err.OfSsa .unmodelled ∧ Err.OfSsa (.ub .intOverflow) ∧ Err.OfSsa (.ub .scanfRange) ∧ Err.OfSsa .nonFinite :=
  ⟨.inl (.inl rfl), fun m => .inl (.inr (.inl ⟨m, rfl⟩)), .inl (.inr (.inr rfl)), .inr (.inl rfl), .inr (.inr (.inl rfl)), .inr (.inr (.inr rfl))⟩

private def Placed (r : Raw) : Prop := r.vpos.ref.isSome = true ∧ r.vpos.prop.isSome = true

private theorem updateH_vpos (ctx : SsaContext) (sub : Raw) : OkIn (fun r : Raw => r.vpos = sub.vpos ∧ r.fontSize = sub.fontSize) (ctx.updateH sub) := by
  unfold SsaContext.updateH
  simp only
  split
  · exact .bind fun _ _ => .ok ⟨rfl, rfl⟩
  · exact .bind fun _ _ => .bind fun _ _ => .bind fun _ _ => .ok ⟨rfl, rfl⟩
  · exact .bind fun _ _ => .ok ⟨rfl, rfl⟩

private theorem tag_placed (ctx : SsaContext) (sub : Raw) (tag : Str) (h : Placed sub) : OkIn Placed (ssaParseTag ctx sub tag) := by
  have hal : ∀ {a b}, OkIn Placed (ssaAlign ctx sub a b) := by
    intro a b
    constructor
    intro r hr
    have := ((updateH_vpos _ _).h r hr).1
    unfold Placed
    rw [this]
    exact ⟨rfl, h.2⟩
  unfold ssaParseTag
  refine .ite (.ok h) (.ite (.ok h) (.ite (.ok h) (.ite (.ok h) (.ite (.ok h) (.ite (.ok h) (.ite hal (.ite hal (.ite hal (.ite hal (.ite hal
    (.ite hal (.ite hal (.ite hal (.ite hal (.ite ?_ (.ite ?_ (.ite (.ite ?_ (.ok h)) (.ok h))))))))))))))))))
  · split
    · exact .bind fun _ _ => .bind fun _ _ => .bind fun _ _ => .bind fun _ _ => .ok ⟨rfl, rfl⟩
    · exact .error
  · exact .bind fun _ _ => .bind fun _ _ => .bind fun _ _ => .ok h
  · exact .bind fun _ _ => .ok h

private def AllPlaced (l : SsaLoop) : Prop := Placed l.current ∧ ∀ r ∈ l.subs, Placed r

private theorem flush_placed {l : SsaLoop} (h : AllPlaced l) : AllPlaced l.flush := by
  unfold SsaLoop.flush
  split
  · exact h
  · refine ⟨h.1, fun r hr => ?_⟩
    rcases List.mem_append.1 hr with hr | hr
    · exact h.2 r hr
    · rw [List.mem_singleton.1 hr]
      exact h.1

private theorem e_down {v : VPos} (h : v.ref.isSome = true ∧ v.prop.isSome = true) (ls : Rat) :
    ErrIn Err.OfSsa (ssaMoveDown ls v) ∧ OkIn (fun v' : VPos => v'.ref.isSome = true ∧ v'.prop.isSome = true) (ssaMoveDown ls v) :=
  ⟨.bind (e_optGet h.1) fun _ _ => .bind (e_optGet h.2) fun _ _ => .ite (.ok _) (.ok _), .bind fun _ _ => .bind fun _ _ => .ite (.ok ⟨h.1, rfl⟩) (.ok ⟨h.1, rfl⟩)⟩

private theorem e_ssaTag (ctx : SsaContext) (sub : Raw) (tag : Str) : ErrIn Err.OfSsa (ssaParseTag ctx sub tag) := by
  obtain ⟨h1, h2, h3, h4, -, h6⟩ := ssa_errs
  exact e_tag h1 h2 h3 ctx (.inr h6) (.inr h6) (e_updateH h4 h6 ctx) sub tag

private theorem e_ssaStep (ctx : SsaContext) (ls : Rat) (l : SsaLoop) (c : Byte) (h : AllPlaced l) :
    ErrIn Err.OfSsa (ssaStep ctx ls l c) ∧ OkIn AllPlaced (ssaStep ctx ls l c) := by
  have hf := flush_placed h
  unfold ssaStep
  split
  · exact ⟨.ite (.ok _) (.ite (.ok _) (.ite (.ok _) (.ok _))), .ite (.ok h) (.ite (.ok h) (.ite (.ok h) (.ok h)))⟩
  · refine ⟨.ite (.bind (e_ssaTag ..) fun _ _ => .ok _) (.ite (.bind (e_ssaTag ..) fun _ _ => .ok _) (.ok _)), .ite (.bind fun q hq => .ok ?_) (.ite (.bind fun q hq => .ok ?_) (.ok h))⟩
    · exact ⟨(tag_placed _ _ _ hf.1).h q hq, hf.2⟩
    · exact ⟨(tag_placed _ _ _ hf.1).h q hq, hf.2⟩
  · refine ⟨.ite (.bind (e_down hf.1 ls).1 fun _ _ => .ok _) (.ok _), .ite (.bind fun v hv => .ok ?_) (.ok h)⟩
    exact ⟨(e_down hf.1 ls).2.h v hv, hf.2⟩

private theorem e_ssaRun (ctx : SsaContext) (ls : Rat) (l : SsaLoop) (cs : Str) (h : AllPlaced l) :
    ErrIn Err.OfSsa (ssaRun ctx ls l cs) ∧ OkIn AllPlaced (ssaRun ctx ls l cs) := by
  induction cs generalizing l with
  | nil => exact ⟨.ok _, .ok h⟩
  | cons c cs ih =>
    have h1 := e_ssaStep ctx ls l c h
    exact ⟨.bind h1.1 fun l' hl => (ih l' (h1.2.h l' hl)).1, .bind fun l' hl => (ih l' (h1.2.h l' hl)).2⟩

private theorem e_ssaFinish (b : VPos) (n : Nat) (ls : Rat) (rs : List Raw) (h : ∀ r ∈ rs, Placed r) : ErrIn Err.OfSsa (ssaFinishAll b n ls rs) := by
  induction rs with
  | nil => exact .ok _
  | cons r rs ih =>
    have hr := h r (List.mem_cons_self ..)
    exact .bind (.bind (e_optGet hr.1) fun _ _ => .bind (e_optGet hr.2) fun _ _ => .ok _) fun _ _ => .bind (ih fun r h' => h r (List.mem_cons_of_mem _ h')) fun _ _ => .ok _

private theorem e_ssaPrepare (ctx : SsaContext) (base : Raw) :
    ErrIn Err.OfSsa (ssaPrepare ctx base) ∧ OkIn (fun r => Placed r ∧ r.fontSize.prop.isSome = true) (ssaPrepare ctx base) := by
  obtain ⟨-, -, -, h4, -, h6⟩ := ssa_errs
  unfold ssaPrepare
  simp only
  constructor
  · refine .bind (e_updateH h4 h6 ..) fun q _ => ?_
    split
    · exact .ok _
    · exact .bind (e_fdiv _ _ (.inr h6)) fun _ _ => .ok _
  · refine .bind fun q hq => ?_
    have hv := ((updateH_vpos _ _).h q hq).1
    have hp : Placed q := by
      unfold Placed
      rw [hv]
      exact ⟨rfl, rfl⟩
    split
    · rename_i e
      exact .ok ⟨hp, by rw [e]; rfl⟩
    · exact .bind fun _ _ => .ok ⟨hp, rfl⟩

private theorem e_ssaParseLine (ctx : SsaContext) (base : Raw) (line : Str) : ErrIn Err.OfSsa (ssaParseLine ctx base line) := by
  have hp := e_ssaPrepare ctx base
  refine .bind hp.1 fun cur hc => .bind ?_ fun fs _ => ?_
  · unfold FontSize.proportionalAt
    split
    · exact .ok _
    · rename_i e
      have := (hp.2.h cur hc).2
      rw [e] at this
      cases this
  · have hr := e_ssaRun ctx (f64 (fs * f64 (6/5))) { current := cur } line ⟨(hp.2.h cur hc).1, fun r h => by cases h⟩
    exact .bind hr.1 fun l hl => e_ssaFinish _ _ _ _ (flush_placed (hr.2.h l hl)).2

private theorem e_ssaTime (t : Str) : ErrIn Err.OfSsa (ssaParseTime t) := by
  obtain ⟨h1, -, -, h4, h5, -⟩ := ssa_errs
  unfold ssaParseTime
  split
  · exact .bind (e_int h5 _) fun _ _ => .bind (e_int h5 _) fun _ _ => .bind (e_int h5 _) fun _ _ => .bind (e_int h5 _) fun _ _ => .bind (e_ck h4 _) fun _ _ =>
      .bind (e_hms h4 ..) fun _ _ => .ok _
  · exact .error h1

private theorem e_ssaColour (c : Str) : ErrIn Err.OfSsa (SsaStyle.colour c) := by
  unfold SsaStyle.colour
  split
  · exact e_hColour ssa_errs.2.1 _
  · exact .bind (e_int ssa_errs.2.2.2.2.1 _) fun _ _ => .ok _

private theorem e_styleFields (s : SsaStyle) (ks : List (Str × Str)) : ErrIn Err.OfSsa (s.fields ks) := by
  have hi : ∀ v, ErrIn Err.OfSsa (rawConvertInt v) := e_int ssa_errs.2.2.2.2.1
  induction ks generalizing s with
  | nil => exact .ok _
  | cons k ks ih =>
    refine .bind ?_ fun s' _ => ih s'
    unfold SsaStyle.field
    exact .ite (.ok _) (.ite (.ok _) (.ite (.bind (hi _) fun _ _ => .ok _) (.ite (.bind (e_ssaColour _) fun _ _ => .ok _) (.ite (.bind (e_ssaColour _) fun _ _ => .ok _)
      (.ite (.ok _) (.ite (.ok _) (.ite (.ok _) (.ite (.ok _) (.ite (.ok _) (.ite (.bind (hi _) fun _ _ => .ok _) (.ite (.bind (hi _) fun _ _ => .ok _)
      (.ite (.bind (hi _) fun _ _ => .ok _) (.ok _)))))))))))))

private theorem e_applyStyle (y : Int) (ev : SsaEvent) (st : SsaStyle) : ErrIn Err.OfSsa (ssaApplyStyle y ev st) := by
  have h6 := ssa_errs.2.2.2.2.2
  unfold ssaApplyStyle
  exact .bind (e_ratio _ _ (.inr h6)) fun _ _ => .ite (.bind (e_ratio _ _ (.inr h6)) fun _ _ => .ok _) (.ok _)

private theorem e_eventFields (r : SsaRead) (ev : SsaEvent) (ks : List (Str × Str)) : ErrIn Err.OfSsa (ssaEventFields r ev ks) := by
  obtain ⟨h1, h2, h3, h4, h5, h6⟩ := ssa_errs
  induction ks generalizing ev with
  | nil => exact .ok _
  | cons k ks ih =>
    refine .bind ?_ fun s' _ => ih s'
    unfold ssaEventField
    refine .ite (.bind (e_ssaTime _) fun _ _ => .ok _) (.ite (.bind (e_ssaTime _) fun _ _ => .ok _) (.ite ?_ (.ite
      (.ite (.bind (e_float h3 _) fun _ _ => .bind (e_fdiv _ _ (.inr h6)) fun _ _ => .ok _) (.ok _)) (.ite (.ite (.bind (e_int h5 _) fun _ _ => .ok _) (.ok _))
      (.ite (.ite (.bind (e_int h5 _) fun _ _ => .ok _) (.ok _)) (.ite (.bind (e_ssaParseLine ..) fun _ _ => .ok _) (.ok _)))))))
    split
    · exact .ok _
    · exact e_applyStyle ..

private theorem e_ssaLine (r : SsaRead) (raw : Str) : ErrIn Err.OfSsa (ssaLine r raw) := by
  obtain ⟨h1, h2, h3, h4, h5, h6⟩ := ssa_errs
  unfold ssaLine
  refine .ite (.ok _) (.ite (.ite (.ok _) (.ite (.ok _) (.ite (.ok _) (.ok _)))) ?_)
  split
  · exact .error h1
  · simp only
    split
    · exact .ite (.bind (e_int h5 _) fun _ _ => .ok _) (.ite (.bind (e_int h5 _) fun _ _ => .ok _) (.ok _))
    · exact .ite (.ok _) (.ite (.bind (e_assert h1 _) fun _ _ => .bind (.bind (e_assert h1 _) fun _ _ => .bind (e_assert h1 _) fun _ _ => .bind (e_assert h1 _) fun _ _ =>
        e_styleFields _ _) fun _ _ => .ok _) (.ok _))
    · exact .ite (.ok _) (.ite (.bind (e_assert h1 _) fun _ _ => .bind (e_assert h1 _) fun _ _ => .bind (e_assert h1 _) fun _ _ => .bind (e_eventFields ..) fun _ _ => .ok _) (.ok _))

/-- C86 for SSA: the ways in which the reader can fail.  In particular no empty `optional` is used, although positions and sizes of text are kept in `optional`s. -/
theorem C86_ssa (lines : List Str) (e : Err) (h : ssaLines {} lines = .error e) : e.OfSsa := by
  have key : ∀ ls : List Str, ∀ r : SsaRead, ErrIn Err.OfSsa (ssaLines r ls) := by
    intro ls
    induction ls with
    | nil => intro r; exact .ok _
    | cons l ls ih => intro r; exact .bind (e_ssaLine r l) fun r' _ => ih r'
  exact (key lines {}).h e h

/-- All of these happen: a line without a colon; a colour without `&H`; an infinite margin; a time of too many hours; a resolution that is not an `int`; a resolution of zero. -/
example :
    ssaLines {} [b!"[Script Info]", b!"x"] = .error .programming ∧
    ssaLines {} [b!"[Events]", b!"Format: Text", b!"Dialogue: {\\cred}a"] = .error (.ssa b!"Badly formatted colour tag re") ∧
    ssaLines {} [b!"[Events]", b!"Format: MarginV, Text", b!"Dialogue: inf,a"] = .error .unmodelled ∧
    ssaLines {} [b!"[Events]", b!"Format: Start, Text", b!"Dialogue: 999999999:0:0.0,a"] = .error (.ub .intOverflow) ∧
    ssaLines {} [b!"[Script Info]", b!"PlayResX: 99999999999"] = .error (.ub .scanfRange) ∧
    ssaLines {} [b!"[Script Info]", b!"PlayResY: 0", b!"[Events]", b!"Format: Text", b!"Dialogue: a"] = .error .nonFinite := by
  refine ⟨?_, ?_, ?_, ?_, ?_, ?_⟩ <;> decide +kernel

end LibSub
