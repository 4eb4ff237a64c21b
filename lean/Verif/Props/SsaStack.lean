/-
Property C46: the lines of an SSA dialogue are stacked one line height apart.
-/
import Verif.Props.SsaStyle

namespace LibSub

/-! ### Specification -/

/-- The text of a dialogue: a first line, and more lines each after `\N` (or `\n`). -/
def stackText (first : Str) (more : List (Bool × Str)) : Str :=
  first ++ (more.map (fun x => (if x.1 then b!"\\N" else b!"\\n") ++ x.2)).flatten

/-- A line of plain text: without override blocks, escapes and line breaks. -/
def StackLine (s : Str) : Prop := ∀ c ∈ s, c ∉ b!"{\\\r\n"

/-- The ideal position of line `k` of `n`, from the vertical reference: bottom, top, or centre of the screen; `m` is the margin and `h` the height of a line. -/
def stackPos (ref : VRef) (m h : ℚ) (n k : Nat) : ℚ :=
  match ref with
  | .bottomOfScreen => m + ((n : ℚ) - 1 - k) * h
  | .centreOfScreen => k * h - n * h / 2
  | _ => m + k * h

/-- The subtitle for one line. -/
def stackRaw (ctx : SsaContext) (base : Raw) (fs : ℚ) (text : Str) (pos : ℚ) : Raw :=
  { base with
    text := text
    hpos := ⟨base.hpos.ref, f32 (hOffset ctx.lmargin ctx.rmargin ctx.resX base.hpos.ref)⟩
    fontSize := { base.fontSize with prop := some fs }
    vpos := { base.vpos with ref := some (base.vpos.ref.getD .bottomOfScreen), prop := some pos } }

/-! ### Proofs -/

/-- One step down. -/
private def down (ref : VRef) (h p : ℚ) : ℚ := if ref = .bottomOfScreen then f32 (f64 (p - h)) else f32 (f64 (p + h))

/-- Position before the last step. -/
private def downs (ref : VRef) (h : ℚ) : Nat → ℚ
  | 0 => 0
  | k + 1 => down ref h (downs ref h k)

private def finish (ref : VRef) (m h : ℚ) (n : Nat) (p : ℚ) : ℚ :=
  match ref with
  | .topOfScreen => f32 (p + m)
  | .topOfSubtitle => f32 (p + m)
  | .centreOfScreen => f32 (f64 (p - f64 (f64 ((n : ℚ) * h) / 2)))
  | .bottomOfScreen => f32 (f64 (f32 (p + m) + f64 (((n - 1 : Nat) : ℚ) * h)))

theorem two_rounds {x B : ℚ} (hx : |x| ≤ B) : |f32 (f64 x) - x| ≤ B / 2 ^ 24 + B / 2 ^ 52 := by
  have h1 := f64_err x
  have h2 := f32_err (f64 x)
  have hB : 0 ≤ B := le_trans (abs_nonneg x) hx
  have h3 : |f64 x| ≤ B + B / 2 ^ 53 := by
    have := abs_sub_abs_le_abs_sub (f64 x) x
    have : |x| / 2 ^ 53 ≤ B / 2 ^ 53 := by gcongr
    linarith
  have h4 : |f32 (f64 x) - x| ≤ |f32 (f64 x) - f64 x| + |f64 x - x| := by
    have := abs_add_le (f32 (f64 x) - f64 x) (f64 x - x)
    simpa using this
  have h5 : |x| / 2 ^ 53 ≤ B / 2 ^ 53 := by gcongr
  have h6 : |f64 x| / 2 ^ 24 ≤ (B + B / 2 ^ 53) / 2 ^ 24 := by gcongr
  linarith

private theorem downs_err (ref : VRef) (h B : ℚ) (n : Nat) (hh : 0 ≤ h) (hB : n * h ≤ B) (hn : n ≤ 2 ^ 22) (k : Nat) (hk : k ≤ n) :
    |downs ref h k - (if ref = .bottomOfScreen then -(k * h) else k * h)| ≤ k * (B / 2 ^ 22) := by
  have hB0 : 0 ≤ B := le_trans (by positivity) hB
  induction k with
  | zero => simp [downs]
  | succ k ih =>
    have ih := ih (by omega)
    have hkB : ((k : ℚ) + 1) * h ≤ B := by
      have : ((k : ℚ) + 1) ≤ n := by exact_mod_cast hk
      calc ((k : ℚ) + 1) * h ≤ n * h := by gcongr
        _ ≤ B := hB
    have hk22 : (k : ℚ) * (B / 2 ^ 22) ≤ B := by
      have : (k : ℚ) ≤ 2 ^ 22 := by exact_mod_cast (by omega : k ≤ 2 ^ 22)
      calc (k : ℚ) * (B / 2 ^ 22) ≤ 2 ^ 22 * (B / 2 ^ 22) := by gcongr
        _ = B := by field_simp
    have hkh : (k : ℚ) * h = (k + 1) * h - h := by ring
    have hk0 : (0 : ℚ) ≤ k * h := by positivity
    rw [abs_le] at ih ⊢
    rw [downs, down]
    by_cases hr : ref = .bottomOfScreen
    · simp only [hr, if_true] at ih ⊢
      have := two_rounds (x := downs .bottomOfScreen h k - h) (B := 2 * B) (by rw [abs_le]; constructor <;> linarith)
      rw [abs_le] at this
      push_cast
      constructor <;> linarith
    · simp only [hr, if_false] at ih ⊢
      have := two_rounds (x := downs ref h k + h) (B := 2 * B) (by rw [abs_le]; constructor <;> linarith)
      rw [abs_le] at this
      push_cast
      constructor <;> linarith

theorem height_err (fs : ℚ) (h0 : 0 ≤ fs) : |f64 (fs * f64 (6 / 5)) - 6 / 5 * fs| ≤ fs / 2 ^ 51 := by
  have h1 := f64_err (6 / 5)
  have h2 := f64_err (fs * f64 (6 / 5))
  have e : |(6 / 5 : ℚ)| = 6 / 5 := abs_of_pos (by norm_num)
  rw [e, abs_le] at h1
  have h3 : 0 ≤ fs * f64 (6 / 5) := by
    have : 0 ≤ f64 (6 / 5) := by linarith
    positivity
  rw [abs_of_nonneg h3, abs_le] at h2
  have h4 : fs * f64 (6 / 5) ≤ fs * (6 / 5 + 6 / 5 / 2 ^ 53) := by
    apply mul_le_mul_of_nonneg_left _ h0
    linarith
  have h5 : fs * (6 / 5 - 6 / 5 / 2 ^ 53) ≤ fs * f64 (6 / 5) := by
    apply mul_le_mul_of_nonneg_left _ h0
    linarith
  rw [abs_le]
  constructor <;> linarith

private theorem finish_err (ref : VRef) (m fs : ℚ) (n k : Nat) (h0 : 0 ≤ fs) (hk : k < n) (hn : n ≤ 2 ^ 22) :
    |finish ref m (f64 (fs * f64 (6 / 5))) n (downs ref (f64 (fs * f64 (6 / 5))) k) - stackPos ref m (6 / 5 * fs) n k| ≤ (n + 4) * ((2 * n * fs + |m|) / 2 ^ 22) := by
  have hh := height_err fs h0
  obtain ⟨h, he⟩ : ∃ h, h = f64 (fs * f64 (6 / 5)) := ⟨_, rfl⟩
  rw [← he] at hh ⊢
  rw [abs_le] at hh
  have hh0 : 0 ≤ h := by linarith
  have hh2 : h ≤ 2 * fs := by linarith
  have hn1 : (1 : ℚ) ≤ n := by exact_mod_cast (by omega : 1 ≤ n)
  have hkn : (k : ℚ) + 1 ≤ n := by exact_mod_cast (by omega : k + 1 ≤ n)
  have hm := abs_nonneg m
  obtain ⟨B, hB⟩ : ∃ B : ℚ, B = 2 * n * fs + |m| := ⟨_, rfl⟩
  rw [← hB]
  have hnf : 0 ≤ n * fs := by positivity
  have hnh : n * h ≤ 2 * n * fs := by
    calc n * h ≤ n * (2 * fs) := by gcongr
      _ = 2 * n * fs := by ring
  have hnB : n * h ≤ B := by linarith
  have hB0 : 0 ≤ B := by linarith
  have hmB : |m| ≤ B := by linarith
  have hfsB : n * fs ≤ B := by linarith
  have hkh : (k : ℚ) * h ≤ n * h := by gcongr
  have hkh0 : (0 : ℚ) ≤ k * h := by positivity
  have hnh0 : (0 : ℚ) ≤ n * h := by positivity
  have hd := downs_err ref h B n hh0 hnB hn k (by omega)
  obtain ⟨p, hp⟩ : ∃ p, p = downs ref h k := ⟨_, rfl⟩
  rw [← hp] at hd ⊢
  have hkc : (k : ℚ) * (B / 2 ^ 22) ≤ B := by
    have : (k : ℚ) ≤ 2 ^ 22 := by exact_mod_cast (by omega : k ≤ 2 ^ 22)
    calc (k : ℚ) * (B / 2 ^ 22) ≤ 2 ^ 22 * (B / 2 ^ 22) := by gcongr
      _ = B := by field_simp
  have hkn' : (k : ℚ) * (B / 2 ^ 22) ≤ (n - 1) * (B / 2 ^ 22) := by
    apply mul_le_mul_of_nonneg_right
    · linarith
    · positivity
  have hexp : ((n : ℚ) + 4) * (B / 2 ^ 22) = (n - 1) * (B / 2 ^ 22) + 5 * (B / 2 ^ 22) := by ring
  -- differences between `h` and the ideal height
  have hkd : |(k : ℚ) * h - k * (6 / 5 * fs)| ≤ B / 2 ^ 51 := by
    have h1 : (k : ℚ) * h - k * (6 / 5 * fs) = k * (h - 6 / 5 * fs) := by ring
    rw [h1, abs_mul, abs_of_nonneg (by positivity : (0 : ℚ) ≤ k)]
    calc (k : ℚ) * |h - 6 / 5 * fs| ≤ n * (fs / 2 ^ 51) := by
          apply mul_le_mul _ (by rw [abs_le]; exact hh) (abs_nonneg _) (by positivity)
          linarith
      _ = n * fs / 2 ^ 51 := by ring
      _ ≤ B / 2 ^ 51 := by gcongr
  have hnd : |(n : ℚ) * h - n * (6 / 5 * fs)| ≤ B / 2 ^ 51 := by
    have h1 : (n : ℚ) * h - n * (6 / 5 * fs) = n * (h - 6 / 5 * fs) := by ring
    rw [h1, abs_mul, abs_of_nonneg (by positivity : (0 : ℚ) ≤ n)]
    calc (n : ℚ) * |h - 6 / 5 * fs| ≤ n * (fs / 2 ^ 51) := by
          apply mul_le_mul _ (by rw [abs_le]; exact hh) (abs_nonneg _) (by positivity)
          linarith
      _ = n * fs / 2 ^ 51 := by ring
      _ ≤ B / 2 ^ 51 := by gcongr
  rw [abs_le] at hkd hnd hd hmB
  have hfsn : fs ≤ n * fs := by nlinarith
  have top : ref ≠ .bottomOfScreen → |f32 (p + m) - (m + k * (6 / 5 * fs))| ≤ (n + 4) * (B / 2 ^ 22) := by
    intro hr
    simp only [hr, if_false] at hd
    have h1 : |p + m| ≤ 3 * B := by rw [abs_le]; constructor <;> linarith
    have h2 := f32_err (p + m)
    have h3 : |p + m| / 2 ^ 24 ≤ 3 * B / 2 ^ 24 := by gcongr
    rw [abs_le] at h2 ⊢
    constructor <;> linarith
  cases ref with
  | topOfScreen => exact top (by decide)
  | topOfSubtitle => exact top (by decide)
  | centreOfScreen =>
    simp only [finish, stackPos]
    simp only [show VRef.centreOfScreen ≠ .bottomOfScreen by decide, if_false] at hd
    have h1 := f64_err (n * h)
    rw [abs_of_nonneg hnh0, abs_le] at h1
    have h2 := f64_err (f64 (n * h) / 2)
    have h3 : |f64 (n * h) / 2| ≤ B := by rw [abs_le]; constructor <;> linarith
    have h4 : |f64 (n * h) / 2| / 2 ^ 53 ≤ B / 2 ^ 53 := by gcongr
    rw [abs_le] at h2
    have h5 := two_rounds (x := p - f64 (f64 (n * h) / 2)) (B := 4 * B) (by rw [abs_le]; constructor <;> linarith)
    rw [abs_le] at h5 ⊢
    constructor <;> linarith
  | bottomOfScreen =>
    simp only [finish, stackPos]
    simp only [if_true] at hd
    have e1 : ((n - 1 : Nat) : ℚ) * h = n * h - h := by
      rw [Nat.cast_sub (by omega)]; push_cast; ring
    have hle : h ≤ n * h := by nlinarith
    have h1 := f64_err (((n - 1 : Nat) : ℚ) * h)
    rw [e1, abs_of_nonneg (show (0 : ℚ) ≤ n * h - h by linarith), abs_le] at h1
    have h2 : |p + m| ≤ 3 * B := by rw [abs_le]; constructor <;> linarith
    have h3 := f32_err (p + m)
    have h4 : |p + m| / 2 ^ 24 ≤ 3 * B / 2 ^ 24 := by gcongr
    rw [abs_le] at h3
    have h5 := two_rounds (x := f32 (p + m) + f64 (((n - 1 : Nat) : ℚ) * h)) (B := 5 * B) (by rw [e1, abs_le]; constructor <;> linarith)
    rw [e1] at h5 ⊢
    rw [abs_le] at h5 ⊢
    have e2 : ((n : ℚ) - 1 - k) * (6 / 5 * fs) = n * (6 / 5 * fs) - 6 / 5 * fs - k * (6 / 5 * fs) := by ring
    rw [e2]
    constructor <;> linarith

theorem breaks_plain (p s : Str) (h : (92 : Byte) ∉ p) : ssaLineBreaks (p ++ s) = ssaLineBreaks s := by
  induction p with
  | nil => rfl
  | cons c p ih =>
    simp only [List.mem_cons, not_or] at h
    have ih := ih h.2
    rw [List.cons_append]
    cases hps : p ++ s with
    | nil =>
      have : s = [] := by simp at hps; exact hps.2
      subst this
      rfl
    | cons a l =>
      rw [ssaLineBreaks, ← hps, ih]
      have : (c == 92) = false := by simpa using Ne.symm h.1
      simp [this]

private theorem breaks_stack (first : Str) (more : List (Bool × Str)) (h : StackLine first) (hm : ∀ x ∈ more, StackLine x.2) :
    ssaLineBreaks (stackText first more) = more.length := by
  have h92 : ∀ s, StackLine s → (92 : Byte) ∉ s := fun s hs hc => hs 92 hc (by simp)
  unfold stackText
  rw [breaks_plain _ _ (h92 _ h)]
  induction more with
  | nil => rfl
  | cons x more ih =>
    obtain ⟨b, p⟩ := x
    have ih := ih (fun y hy => hm y (by simp [hy]))
    have hp := h92 p (hm (b, p) (by simp))
    have key : ∀ n : Byte, (n == 92) = false → (n == 110 || n == 78) = true → ssaLineBreaks ((92 :: n :: p) ++ (more.map (fun x => (if x.1 then b!"\\N" else b!"\\n") ++ x.2)).flatten) = more.length + 1 := by
      intro n h1 h2
      rw [List.cons_append, List.cons_append, ssaLineBreaks, ← List.cons_append, breaks_plain (n :: p) _ (by simp [hp]; rintro rfl; exact absurd h1 (by decide)), ih]
      simp only [h2]
      simp
      omega
    rw [List.map_cons, List.flatten_cons]
    cases b
    · exact key 110 (by decide) (by decide)
    · exact key 78 (by decide) (by decide)

theorem run_plain (ctx : SsaContext) (ls : Rat) (p : Str) (hp : StackLine p) (s : Str) (l : SsaLoop) (hl : l.state = .text) :
    ssaRun ctx ls l (p ++ s) = ssaRun ctx ls { l with current := { l.current with text := l.current.text ++ p } } s := by
  induction p generalizing l with
  | nil => simp
  | cons c p ih =>
    rw [List.cons_append, ssaRun]
    have hc := hp c (by simp)
    simp only [List.mem_cons, List.not_mem_nil, or_false, not_or] at hc
    have : ssaStep ctx ls l c = .ok { l with current := { l.current with text := l.current.text ++ [c] } } := by
      unfold ssaStep
      rw [hl]
      simp [hc.1, hc.2.1, hc.2.2.1, hc.2.2.2]
    rw [this, ok_bind]
    have hl' : ({ l with current := { l.current with text := l.current.text ++ [c] } } : SsaLoop).state = .text := hl
    refine (ih (fun d hd => hp d (by simp [hd])) _ hl').trans ?_
    simp [List.append_assoc]

/-- A sub with text and raw position. -/
private def at_ (cur : Raw) (text : Str) (p : ℚ) : Raw := { cur with text := text, vpos := { cur.vpos with prop := some p } }

/-- The subs for the parts, numbered from `k`, leaving out empty ones. -/
private def emitted (f : Str → Nat → Raw) (k : Nat) : List Str → List Raw
  | [] => []
  | p :: ps => (if p = [] then [] else [f p k]) ++ emitted f (k + 1) ps

private theorem flush_at (cur : Raw) (subs : List Raw) (text : Str) (p : ℚ) (tag : Str) :
    (SsaLoop.mk .backslash subs (at_ cur text p) tag).flush = ⟨.backslash, subs ++ (if text = [] then [] else [at_ cur text p]), at_ cur [] p, tag⟩ := by
  unfold SsaLoop.flush
  cases text with
  | nil => simp [at_]
  | cons c t => simp [at_]

private theorem run_stack (ctx : SsaContext) (h : Rat) (cur : Raw) (ref : VRef) (href : cur.vpos.ref = some ref) (more : List (Bool × Str)) (hm : ∀ x ∈ more, StackLine x.2)
    (k : Nat) (subs : List Raw) (first : Str) (tag : Str) :
    ∃ l, ssaRun ctx h ⟨.text, subs, at_ cur first (downs ref h k), tag⟩ (more.map (fun x => (if x.1 then b!"\\N" else b!"\\n") ++ x.2)).flatten = .ok l ∧
      l.flush.subs = subs ++ emitted (fun p k => at_ cur p (downs ref h k)) k (first :: more.map Prod.snd) := by
  induction more generalizing k subs first with
  | nil =>
    refine ⟨_, rfl, ?_⟩
    unfold SsaLoop.flush
    cases first with
    | nil => simp [at_, emitted]
    | cons c t => simp [at_, emitted]
  | cons x more ih =>
    obtain ⟨b, p⟩ := x
    have hp := hm (b, p) (by simp)
    obtain ⟨l, h1, h2⟩ := ih (fun y hy => hm y (by simp [hy])) (k + 1) (subs ++ (if first = [] then [] else [at_ cur first (downs ref h k)])) p
    refine ⟨l, ?_, ?_⟩
    · rw [← h1, List.map_cons, List.flatten_cons]
      have key : ∀ n : Byte, (n == 110 || n == 78) = true → ssaRun ctx h ⟨.text, subs, at_ cur first (downs ref h k), tag⟩ ((92 :: n :: p) ++ (more.map (fun x => (if x.1 then b!"\\N" else b!"\\n") ++ x.2)).flatten) =
          ssaRun ctx h ⟨.text, subs ++ (if first = [] then [] else [at_ cur first (downs ref h k)]), at_ cur p (downs ref h (k + 1)), tag⟩ (more.map (fun x => (if x.1 then b!"\\N" else b!"\\n") ++ x.2)).flatten := by
        intro n hn
        rw [List.cons_append, ssaRun]
        have e1 : ssaStep ctx h ⟨.text, subs, at_ cur first (downs ref h k), tag⟩ 92 = .ok ⟨.backslash, subs, at_ cur first (downs ref h k), tag⟩ := rfl
        rw [e1, ok_bind, List.cons_append, ssaRun]
        have e2 : ssaStep ctx h ⟨.backslash, subs, at_ cur first (downs ref h k), tag⟩ n =
            .ok ⟨.text, subs ++ (if first = [] then [] else [at_ cur first (downs ref h k)]), at_ cur [] (downs ref h (k + 1)), tag⟩ := by
          unfold ssaStep
          simp only [hn, if_true]
          rw [flush_at]
          have e3 : ssaMoveDown h (at_ cur [] (downs ref h k)).vpos = .ok { cur.vpos with prop := some (downs ref h (k + 1)) } := by
            unfold ssaMoveDown
            simp only [at_, href, optGet]
            rw [downs, down]
            by_cases hr : ref = .bottomOfScreen
            · simp [hr]
            · simp [hr]
          rw [e3]
          rfl
        rw [e2, ok_bind, run_plain _ _ _ hp _ _ rfl]
        simp [at_]
      cases b
      · exact key 110 (by decide)
      · exact key 78 (by decide)
    · rw [h2, List.map_cons]
      conv_rhs => rw [emitted]
      simp

private theorem finishAll_emitted (bp : VPos) (n : Nat) (h : Rat) (cur : Raw) (ref : VRef) (href : cur.vpos.ref = some ref) (ps : List Str) (k : Nat) :
    ssaFinishAll bp n h (emitted (fun p k => at_ cur p (downs ref h k)) k ps) =
      .ok (emitted (fun p k => at_ cur p (finish ref (bp.prop.getD 0) h (n + 1) (downs ref h k))) k ps) := by
  induction ps generalizing k with
  | nil => rfl
  | cons p ps ih =>
    rw [emitted, emitted]
    by_cases hp : p = []
    · simp only [hp, if_true, List.nil_append]
      exact ih (k + 1)
    · simp only [hp, if_false, List.singleton_append]
      rw [ssaFinishAll]
      have : ssaFinishPos bp n h (at_ cur p (downs ref h k)) = .ok (at_ cur p (finish ref (bp.prop.getD 0) h (n + 1) (downs ref h k))) := by
        unfold ssaFinishPos
        simp only [at_, href, optGet]
        cases ref <;> rfl
      rw [this, ok_bind, ih (k + 1)]
      rfl

theorem prepare_eq (ctx : SsaContext) (hctx : ctx.Sane) (base : Raw) :
    ssaPrepare ctx base = .ok (stackRaw ctx base (base.fontSize.prop.getD (f32 (f64 (72 / ctx.resY)))) base.text 0) := by
  unfold ssaPrepare
  simp only [updateH_eq hctx, ok_bind]
  obtain ⟨_, _, _, hy⟩ := hctx
  unfold stackRaw
  cases hf : base.fontSize.prop with
  | some x =>
    have e : base.fontSize = { base.fontSize with prop := some x } := by rw [← hf]
    simp only [Option.getD]
    rw [← e]
    rfl
  | none =>
    simp only [hf]
    unfold fdiv
    rw [if_neg (by have : ctx.resY ≠ 0 := by omega
                   exact_mod_cast this)]
    rfl

/-- C46: the lines of a dialogue without override blocks come out as one subtitle for each line that is not empty, in order, with the margin, alignment and style of the dialogue, and
each of them is where it should be, up to rounding to single precision. -/
theorem C46_stack (ctx : SsaContext) (hctx : ctx.Sane) (base : Raw) (hb : base.text = []) (first : Str) (more : List (Bool × Str)) (h1 : StackLine first) (h2 : ∀ x ∈ more, StackLine x.2)
    (fs : ℚ) (hfs : fs = base.fontSize.prop.getD (f32 (f64 (72 / ctx.resY)))) (h0 : 0 ≤ fs) (n : Nat) (hn : n = more.length + 1) (hn' : n ≤ 2 ^ 22)
    (ref : VRef) (href : ref = base.vpos.ref.getD .bottomOfScreen) (m : ℚ) (hm : m = base.vpos.prop.getD 0) :
    ∃ pos : Nat → ℚ, (∀ k < n, |pos k - stackPos ref m (6 / 5 * fs) n k| ≤ (n + 4) * ((2 * n * fs + |m|) / 2 ^ 22)) ∧
      ssaParseLine ctx base (stackText first more) =
        .ok ((((first :: more.map Prod.snd).zipIdx).filter (fun x => x.1 ≠ [])).map (fun x => stackRaw ctx base fs x.1 (pos x.2))) := by
  refine ⟨fun k => finish ref m (f64 (fs * f64 (6 / 5))) n (downs ref (f64 (fs * f64 (6 / 5))) k), fun k hk => finish_err ref m fs n k h0 hk hn', ?_⟩
  unfold ssaParseLine
  rw [prepare_eq ctx hctx, ok_bind, ← hfs, hb, breaks_stack first more h1 h2]
  have e1 : (stackRaw ctx base fs [] 0).fontSize.proportionalAt ctx.resY = .ok fs := rfl
  simp only [e1]
  rw [ok_bind]
  have e2 : ssaRun ctx (f64 (fs * f64 (6 / 5))) { current := stackRaw ctx base fs [] 0 } (stackText first more) =
      ssaRun ctx (f64 (fs * f64 (6 / 5))) ⟨.text, [], at_ (stackRaw ctx base fs [] 0) first (downs ref (f64 (fs * f64 (6 / 5))) 0), []⟩ (more.map (fun x => (if x.1 then b!"\\N" else b!"\\n") ++ x.2)).flatten := by
    unfold stackText
    rw [run_plain _ _ _ h1 _ _ rfl]
    rfl
  have hr : (stackRaw ctx base fs [] 0).vpos.ref = some ref := by rw [href]; rfl
  obtain ⟨l, hl, hs⟩ := run_stack ctx (f64 (fs * f64 (6 / 5))) (stackRaw ctx base fs [] 0) ref hr more h2 0 [] first []
  rw [e2, hl, ok_bind, hs, List.nil_append, finishAll_emitted _ _ _ _ _ hr, ← hm, ← hn]
  congr 1
  generalize finish ref m (f64 (fs * f64 (6 / 5))) n = g
  generalize downs ref (f64 (fs * f64 (6 / 5))) = d
  generalize (first :: more.map Prod.snd) = ps
  generalize 0 = k
  induction ps generalizing k with
  | nil => rfl
  | cons p ps ih =>
    rw [emitted, List.zipIdx_cons, ih (k + 1)]
    by_cases hp : p = []
    · simp [hp]
    · simp [hp]; rfl

example : StackLine b!"Hello" ∧ StackLine b!"world" ∧ stackText b!"Hello" [(true, b!"world")] = b!"Hello\\Nworld" := by
  refine ⟨?_, ?_, by decide⟩ <;> unfold StackLine <;> decide

end LibSub
