/-
Properties C45 and C47: alignment and styles in SSA files.
-/
import Verif.Props.Ssa

namespace LibSub

/-! ### C45 alignment -/

/-- Vertical reference for a key of the numeric keypad. -/
def keypadV (k : Nat) : VRef := if k ≤ 3 then .bottomOfScreen else if k ≤ 6 then .centreOfScreen else .topOfScreen

/-- Horizontal reference for a key of the numeric keypad. -/
def keypadH (k : Nat) : HRef := if k % 3 = 1 then .left else if k % 3 = 2 then .centre else .right

/-- The offset from a horizontal reference, as a proportion of the width, given margins in pixels. -/
def hOffset (l r w : Int) : HRef → ℚ
  | .left => l / w
  | .right => r / w
  | .centre => (l - r) / (2 * w)

/-- Margins and width of reasonable size. -/
structure SsaContext.Sane (ctx : SsaContext) : Prop where
  l : 0 ≤ ctx.lmargin ∧ ctx.lmargin ≤ 2 ^ 24
  r : 0 ≤ ctx.rmargin ∧ ctx.rmargin ≤ 2 ^ 24
  x : 0 < ctx.resX ∧ ctx.resX ≤ 2 ^ 23
  y : 0 < ctx.resY ∧ ctx.resY ≤ 2 ^ 23

theorem intRatio_eq {a b : Int} (ha : |a| ≤ 2 ^ 24) (hb : |b| ≤ 2 ^ 24) (h0 : b ≠ 0) : intRatio a b = .ok (f32 ((a : ℚ) / b)) := by
  unfold intRatio fdiv
  rw [f32_int ha, f32_int hb, if_neg (by exact_mod_cast h0)]
  rfl

theorem updateH_eq {ctx : SsaContext} (h : ctx.Sane) (sub : Raw) :
    ctx.updateH sub = .ok { sub with hpos := ⟨sub.hpos.ref, f32 (hOffset ctx.lmargin ctx.rmargin ctx.resX sub.hpos.ref)⟩ } := by
  obtain ⟨hl, hr, hx, _⟩ := h
  unfold SsaContext.updateH
  simp only []
  have a1 : |ctx.resX| ≤ 2 ^ 24 := by rw [abs_le]; constructor <;> omega
  cases sub.hpos.ref with
  | left =>
    simp only []
    rw [intRatio_eq (by rw [abs_le]; constructor <;> omega) a1 (by omega)]
    rfl
  | right =>
    simp only []
    rw [intRatio_eq (by rw [abs_le]; constructor <;> omega) a1 (by omega)]
    rfl
  | centre =>
    simp only []
    rw [ck_ok (by unfold InInt; omega), ok_bind, ck_ok (by unfold InInt; omega), ok_bind, intRatio_eq (by rw [abs_le]; constructor <;> omega) (by rw [abs_le]; constructor <;> omega) (by omega)]
    simp [hOffset]

/-- C45: `\\anK` sets both references as on the numeric keypad and takes the horizontal offset from the margins. -/
theorem C45_tag (ctx : SsaContext) (hctx : ctx.Sane) (sub : Raw) (k : Nat) (h1 : 1 ≤ k) (h9 : k ≤ 9) :
    ssaParseTag ctx sub (b!"\\an" ++ decSpec k) =
      .ok { sub with hpos := ⟨keypadH k, f32 (hOffset ctx.lmargin ctx.rmargin ctx.resX (keypadH k))⟩, vpos := { sub.vpos with ref := some (keypadV k) } } := by
  have hal : ∀ a b, ssaAlign ctx sub a b = .ok { sub with hpos := ⟨a, f32 (hOffset ctx.lmargin ctx.rmargin ctx.resX a)⟩, vpos := { sub.vpos with ref := some b } } := by
    intro a b
    unfold ssaAlign
    rw [updateH_eq hctx]
  rcases (by omega : k = 1 ∨ k = 2 ∨ k = 3 ∨ k = 4 ∨ k = 5 ∨ k = 6 ∨ k = 7 ∨ k = 8 ∨ k = 9) with h | h | h | h | h | h | h | h | h <;> subst h
  · rw [show decSpec 1 = b!"1" by decide]; exact hal .left .bottomOfScreen
  · rw [show decSpec 2 = b!"2" by decide]; exact hal .centre .bottomOfScreen
  · rw [show decSpec 3 = b!"3" by decide]; exact hal .right .bottomOfScreen
  · rw [show decSpec 4 = b!"4" by decide]; exact hal .left .centreOfScreen
  · rw [show decSpec 5 = b!"5" by decide]; exact hal .centre .centreOfScreen
  · rw [show decSpec 6 = b!"6" by decide]; exact hal .right .centreOfScreen
  · rw [show decSpec 7 = b!"7" by decide]; exact hal .left .topOfScreen
  · rw [show decSpec 8 = b!"8" by decide]; exact hal .centre .topOfScreen
  · rw [show decSpec 9 = b!"9" by decide]; exact hal .right .topOfScreen

/-- C45: the `Alignment` of a style does the same. -/
theorem C45_style (s : SsaStyle) (k : Nat) (h1 : 1 ≤ k) (h9 : k ≤ 9) :
    SsaStyle.field s b!"Alignment" (decSpec k) = .ok { s with vref := keypadV k, href := keypadH k } := by
  rcases (by omega : k = 1 ∨ k = 2 ∨ k = 3 ∨ k = 4 ∨ k = 5 ∨ k = 6 ∨ k = 7 ∨ k = 8 ∨ k = 9) with h | h | h | h | h | h | h | h | h <;> subst h
  · rw [show decSpec 1 = b!"1" by decide]; rfl
  · rw [show decSpec 2 = b!"2" by decide]; rfl
  · rw [show decSpec 3 = b!"3" by decide]; rfl
  · rw [show decSpec 4 = b!"4" by decide]; rfl
  · rw [show decSpec 5 = b!"5" by decide]; rfl
  · rw [show decSpec 6 = b!"6" by decide]; rfl
  · rw [show decSpec 7 = b!"7" by decide]; rfl
  · rw [show decSpec 8 = b!"8" by decide]; rfl
  · rw [show decSpec 9 = b!"9" by decide]; rfl

example : (⟨1920, 1080, ⟨1, 1, 1⟩, 10, 20⟩ : SsaContext).Sane := ⟨by decide, by decide, by decide, by decide⟩
example : (keypadH 7, keypadV 7) = (HRef.left, VRef.topOfScreen) ∧ (keypadH 2, keypadV 2) = (HRef.centre, VRef.bottomOfScreen) ∧ (keypadH 6, keypadV 6) = (HRef.right, VRef.centreOfScreen) := by decide

/-! ### C47 styles -/

/-- The last style in `defs` with a name. -/
def lastNamed (defs : List SsaStyle) (n : Str) : Option SsaStyle := (defs.filter (fun s => s.name = n)).getLast?

theorem lookup_reverse (defs : List SsaStyle) (n : Str) : (defs.reverse.map (fun s => (s.name, s))).lookup n = lastNamed defs n := by
  unfold lastNamed
  rw [← List.head?_reverse, ← List.filter_reverse]
  induction defs.reverse with
  | nil => rfl
  | cons a l ih =>
    rw [List.map_cons, List.lookup_cons]
    by_cases h : a.name = n
    · simp [h]
    · rw [List.filter_cons_of_neg (by simpa using h), ← ih]
      have : (n == a.name) = false := by simpa using Ne.symm h
      rw [this]

/-- A line of the styles section that defines `s`: indentation, `Style:`, and the values in the order of the format line. -/
structure StyleLine (fmt : Str) (line : Str) (s : SsaStyle) : Prop where
  shape : ∃ a v b, line = a ++ (b!"Style:" ++ v) ++ b ∧ (∀ c ∈ a, isSpace c = true) ∧ (∀ c ∈ b, isSpace c = true) ∧ v ≠ [] ∧ Trimmed (b!"Style:" ++ v) ∧ SsaStyle.make fmt (trim v) = .ok s

private theorem style_line (r : SsaRead) (hp : r.part = .styles) (hf : r.styleFormat ≠ []) (line : Str) (s : SsaStyle) (h : StyleLine r.styleFormat line s) :
    ssaLine r line = .ok { r with styles := (s.name, s) :: r.styles } := by
  obtain ⟨a, v, b, e, ha, hb, _, ht, hm⟩ := h.shape
  unfold ssaLine
  rw [e, trim_around ha hb ht]
  have hbom : removeBom (b!"Style:" ++ v) = b!"Style:" ++ v := rfl
  simp only [hbom]
  have h1 : ¬ (startsWith (b!"Style:" ++ v) b!";" = true ∨ b!"Style:" ++ v = []) := by
    rintro (h | h)
    · simp [startsWith, List.isPrefixOf] at h
    · cases h
  have h2 : ¬ startsWith (b!"Style:" ++ v) b!"[" = true := by
    simp [startsWith, List.isPrefixOf]
  rw [if_neg h1, if_neg h2]
  have h3 : (b!"Style:" ++ v).findIdx? (· == 58) = some 5 := by
    simp [List.findIdx?_cons]
  rw [h3]
  simp only [hp]
  have h4 : (b!"Style:" ++ v).take 5 = b!"Style" := rfl
  have h5 : (b!"Style:" ++ v).drop (5 + 1) = v := rfl
  rw [h4, h5, if_neg (by decide), if_pos rfl]
  have h6 : (!r.styleFormat.isEmpty) = true := by
    cases hs : r.styleFormat with
    | nil => exact absurd hs hf
    | cons _ _ => rfl
  rw [h6, hm]
  rfl

private theorem style_lines (r : SsaRead) (hp : r.part = .styles) (hf : r.styleFormat ≠ []) (ls : List (Str × SsaStyle)) (h : ∀ x ∈ ls, StyleLine r.styleFormat x.1 x.2) :
    ssaLines r (ls.map Prod.fst) = .ok { r with styles := (ls.map Prod.snd).reverse.map (fun s => (s.name, s)) ++ r.styles } := by
  induction ls generalizing r with
  | nil => rfl
  | cons x ls ih =>
    rw [List.map_cons, ssaLines, style_line r hp hf x.1 x.2 (h x (by simp)), ok_bind, ih]
    · simp
    · exact hp
    · exact hf
    · exact fun y hy => h y (by simp [hy])

/-- C47: after a styles section with the definitions `ls`, a dialogue that names a style, maybe after some asterisks, gets the last style defined with that name, or else the last one
called `Default`, or else none. -/
theorem C47_lookup (r : SsaRead) (hp : r.part = .styles) (hf : r.styleFormat ≠ []) (h0 : r.styles = []) (ls : List (Str × SsaStyle)) (h : ∀ x ∈ ls, StyleLine r.styleFormat x.1 x.2) :
    ∃ r', ssaLines r (ls.map Prod.fst) = .ok r' ∧ ∀ (ev : SsaEvent) (a b name : Str) (stars : Nat), (∀ c ∈ a, isSpace c = true) → (∀ c ∈ b, isSpace c = true) →
      (42 : Byte) ∉ name → (∀ c ∈ name, isSpace c = false) →
      ssaEventField r' ev b!"Style" (a ++ (List.replicate stars 42 ++ name) ++ b) =
        match (lastNamed (ls.map Prod.snd) name).or (lastNamed (ls.map Prod.snd) b!"Default") with
        | none => .ok ev
        | some st => ssaApplyStyle r.resY ev st := by
  refine ⟨_, style_lines r hp hf ls h, ?_⟩
  intro ev a b name stars ha hb hn hs
  have hsp : ∀ c ∈ List.replicate stars (42 : Byte) ++ name, isSpace c = false := by
    intro c hc
    rcases List.mem_append.1 hc with hc | hc
    · rw [List.eq_of_mem_replicate hc]; decide
    · exact hs c hc
  unfold ssaEventField
  simp only []
  rw [trim_around ha hb ⟨fun c hc => hsp c (List.mem_of_mem_head? hc), fun c hc => hsp c (List.mem_of_getLast? hc)⟩]
  rw [if_neg (by decide), if_neg (by decide), if_pos trivial]
  have ht : trimLeftIf (· == 42) (List.replicate stars 42 ++ name) = name := by
    unfold trimLeftIf
    rw [List.dropWhile_append_of_pos (by intro c hc; rw [List.eq_of_mem_replicate hc]; rfl)]
    cases name with
    | nil => rfl
    | cons x n =>
      rw [List.dropWhile_cons_of_neg]
      simp only [List.mem_cons, not_or] at hn
      simpa using Ne.symm hn.1
  rw [ht, h0, List.append_nil]
  unfold ssaFindStyle
  rw [lookup_reverse, lookup_reverse]
  cases lastNamed (ls.map Prod.snd) name <;> rfl

example : ∃ s, StyleLine b!"Name, Bold" b!"Style: Big,-1" s ∧ s = { name := b!"Big", bold := true } :=
  ⟨_, ⟨[], b!" Big,-1", [], rfl, by simp, by simp, by simp, ⟨by decide, by decide⟩, by decide +kernel⟩, rfl⟩

/-- C47: what a dialogue takes from its style. -/
theorem C47_apply (resY : Int) (hy : 0 < resY ∧ resY ≤ 2 ^ 24) (ev : SsaEvent) (st : SsaStyle) (hf : |st.fontSize| ≤ 2 ^ 24) (hv : |st.vmargin| ≤ 2 ^ 24) :
    ∃ ev', ssaApplyStyle resY ev st = .ok ev' ∧ ev'.lmargin = st.lmargin ∧ ev'.rmargin = st.rmargin ∧ ev'.subs = ev.subs ∧
      ev'.sub.font = st.fontName ∧ ev'.sub.fontSize = ⟨some (f32 ((st.fontSize : ℚ) / resY)), none⟩ ∧ ev'.sub.colour = st.primaryColour ∧ ev'.sub.effect = st.effect ∧
      ev'.sub.effectColour = st.backColour ∧ ev'.sub.bold = st.bold ∧ ev'.sub.italic = st.italic ∧ ev'.sub.underline = st.underline ∧
      ev'.sub.hpos.ref = st.href ∧ ev'.sub.vpos.ref = some st.vref ∧ (st.vref ≠ .centreOfScreen → ev'.sub.vpos.prop = some (f32 ((st.vmargin : ℚ) / resY))) ∧
      ev'.sub.from_ = ev.sub.from_ ∧ ev'.sub.to_ = ev.sub.to_ := by
  unfold ssaApplyStyle
  have a1 : |resY| ≤ 2 ^ 24 := by rw [abs_le]; constructor <;> omega
  rw [intRatio_eq hf a1 (by omega), intRatio_eq hv a1 (by omega)]
  by_cases h : st.vref = .centreOfScreen
  · have hb : (st.vref != .centreOfScreen) = false := by simp [h]
    refine ⟨_, by simp only [ok_bind, hb, Bool.false_eq_true, if_false]; rfl, ?_⟩
    exact ⟨rfl, rfl, rfl, rfl, rfl, rfl, rfl, rfl, rfl, rfl, rfl, rfl, rfl, fun h' => absurd h h', rfl, rfl⟩
  · have hb : (st.vref != .centreOfScreen) = true := by simpa using h
    refine ⟨_, by simp only [ok_bind, hb, if_true]; rfl, ?_⟩
    exact ⟨rfl, rfl, rfl, rfl, rfl, rfl, rfl, rfl, rfl, rfl, rfl, rfl, rfl, fun _ => rfl, rfl, rfl⟩

example : ∃ st : SsaStyle, |st.fontSize| ≤ 2 ^ 24 ∧ |st.vmargin| ≤ 2 ^ 24 ∧ st.vref ≠ .centreOfScreen := ⟨{}, by decide, by decide, by decide⟩

end LibSub
