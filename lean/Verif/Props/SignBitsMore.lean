/-
Property C150, continued: which sign a place has, and which sign a line has.
-/
import Verif.Props.SignBits
import Verif.Props.SsaTagExact

namespace LibSub

/-! ### Specification -/

/-- The sign bit of a place agrees with its value.  Without a place it is clear. -/
def SignOk (neg : Bool) : Option XF → Prop
  | none => neg = false
  | some (.fin q) => (q < 0 → neg = true) ∧ (0 < q → neg = false)
  | some (.inf s) => neg = s
  | some .nan => True

/-- A tag `\pos` and the text of its second number. -/
def PosTag (tag y : Str) : Prop := ∃ a s x s', tag = b!"\\pos" ++ a ++ s :: x ++ s' :: y ∧ (s = 40 ∨ s = 44) ∧ (s' = 40 ∨ s' = 44) ∧ ∀ c ∈ a ++ x ++ y, c ≠ 40 ∧ c ≠ 44

/-- The sign bit and the place after the characters and tags of a line: those of the last tag `\pos`. -/
inductive PlaceAfter : Bool × Option XF → List Tok → Bool × Option XF → Prop
  | done (s : Bool × Option XF) : PlaceAfter s [] s
  | pos (s out : Bool × Option XF) (tag y : Str) (v : XF) (ts : List Tok) : PosTag tag y → textRatioX y 288 = .ok v → PlaceAfter (floatSign y, some v) ts out → PlaceAfter s (.ssa tag :: ts) out
  | other (s out : Bool × Option XF) (t : Tok) (ts : List Tok) : (∀ tag y, t = .ssa tag → ¬ PosTag tag y) → PlaceAfter s ts out → PlaceAfter s (t :: ts) out

/-- The sign bit and the place of a raw subtitle. -/
def SRaw.place (r : SRaw) : Bool × Option XF := (r.neg, r.x.vprop)

/-- `l` is a line made of the raw subtitles `g`: the first gives it its place, with the sign. -/
def GroupLine (l : SLine) (g : List SRaw) : Prop :=
  l.x.blocks = g.map (fun r => XBlock.ofRaw r.x) ∧ ∃ a r, g = a :: r ∧ l.neg = a.neg ∧ l.x.vprop = a.x.vprop ∧ l.x.vpos = a.x.raw.vpos

/-! ### The sign and the value -/

private theorem ieee_sign {p : Nat} {a b : Int} {x r : ℚ} (h : Ieee.ieee p a b x = .ok r) : (0 ≤ x → 0 ≤ r) ∧ (x ≤ 0 → r ≤ 0) := by
  unfold Ieee.ieee at h
  split at h
  · cases h; simp
  · simp only at h
    split at h
    · cases h
      set u := pow2 (max (ilog2 x - ((p : Int) - 1)) a) with hu
      have hu0 : (0 : ℚ) < u := by rw [hu, pow2_eq]; positivity
      constructor
      · intro hx
        have : rint 0 ≤ rint (x / u) := rint_mono (by positivity)
        rw [rint_zero] at this
        have : (0 : ℚ) ≤ (rint (x / u) : ℚ) := by exact_mod_cast this
        positivity
      · intro hx
        have : rint (x / u) ≤ rint 0 := rint_mono (div_nonpos_of_nonpos_of_nonneg hx hu0.le)
        rw [rint_zero] at this
        have : (rint (x / u) : ℚ) ≤ 0 := by exact_mod_cast this
        exact mul_nonpos_of_nonpos_of_nonneg this hu0.le
    · cases h

/-- The sign agrees with a number before rounding. -/
private theorem f32_sign {neg : Bool} {x : ℚ} (h1 : x < 0 → neg = true) (h2 : 0 < x → neg = false) : SignOk neg (some (XF.fin x).f32) := by
  unfold XF.f32
  simp only
  cases h : Ieee.ieee32 x with
  | ok r =>
    have := ieee_sign h
    refine ⟨fun hr => h1 ?_, fun hr => h2 ?_⟩
    · by_contra hx
      have := this.1 (not_lt.1 hx)
      linarith
    · by_contra hx
      have := this.2 (not_lt.1 hx)
      linarith
  | error e =>
    show neg = decide (x < 0)
    have hx : x ≠ 0 := by
      rintro rfl
      simp [Ieee.ieee32, Ieee.ieee] at h
    rcases lt_or_gt_of_ne hx with hx | hx
    · rw [h1 hx]; simp [hx]
    · rw [h2 hx]; simp [hx.le]

private theorem powInt_pos {b : Nat} (hb : 0 < b) (e : Int) : 0 < powInt b e := by
  unfold powInt
  have : (0 : ℚ) < ((b ^ e.natAbs : Nat) : ℚ) := by exact_mod_cast Nat.pow_pos hb
  split
  · positivity
  · exact this

private theorem dec_nonneg (dp cs : Str) : 0 ≤ scanDecimal dp cs := by
  unfold scanDecimal
  have := powInt_pos (b := 10) (by norm_num) (scanExp 101 (scanMant isDigit dp cs).2.2)
  simp only
  positivity

private theorem hex_nonneg (dp cs : Str) : 0 ≤ scanHexadecimal dp cs := by
  unfold scanHexadecimal
  have := powInt_pos (b := 2) (by norm_num) (scanExp 112 (scanMant isXDigit dp cs).2.2)
  simp only
  positivity

private theorem dec_none {dp cs : Str} (h : (!(scanMant isDigit dp cs).1.isEmpty || !(scanMant isDigit dp cs).2.1.isEmpty) = false) : scanDecimal dp cs = 0 := by
  simp only [Bool.or_eq_false_iff, Bool.not_eq_false', List.isEmpty_iff] at h
  unfold scanDecimal
  simp only [h.1, h.2]
  simp [decVal]

private theorem hex_none {dp cs : Str} (h : (!(scanMant isXDigit dp cs).1.isEmpty || !(scanMant isXDigit dp cs).2.1.isEmpty) = false) : scanHexadecimal dp cs = 0 := by
  simp only [Bool.or_eq_false_iff, Bool.not_eq_false', List.isEmpty_iff] at h
  unfold scanHexadecimal
  simp only [h.1, h.2]
  simp [hexVal]

private theorem scan_sign {v : Str} {f : XF} (h : rawConvertFloatX v = .ok f) : SignOk (floatSign v) (some f) := by
  unfold rawConvertFloatX scanFloatX at h
  unfold floatSign
  generalize takeSign ((makeLocal Locale.c v).dropWhile isSpace) = ts at h
  obtain ⟨neg, cs⟩ := ts
  simp only at h ⊢
  by_cases h1 : startsWithNoCase cs b!"inf" = true
  · rw [if_pos h1] at h
    split at h
    · cases h; simp [SignOk]
    · rename_i h2
      cases h
      show (neg && numberHere cs) = neg
      unfold numberHere
      rw [if_pos h1]
      cases hA : startsWithNoCase cs b!"infi" <;> cases hB : startsWithNoCase cs b!"infinity" <;> simp_all
  · rw [if_neg h1] at h
    by_cases h2 : startsWithNoCase cs b!"nan" = true
    · rw [if_pos h2] at h
      cases h
      trivial
    · rw [if_neg h2] at h
      generalize hw : (if startsWithNoCase cs b!"0x" then scanHexadecimal b!"." (cs.drop 2) else scanDecimal b!"." cs) = w at h
      have hw0 : 0 ≤ w := by
        rw [← hw]
        split
        · exact hex_nonneg _ _
        · exact dec_nonneg _ _
      have hn : numberHere cs = false → w = 0 := by
        unfold numberHere
        rw [if_neg h1, if_neg h2, ← hw]
        by_cases h3 : startsWithNoCase cs b!"0x" = true
        · rw [if_pos h3, if_pos h3]; exact hex_none
        · rw [if_neg h3, if_neg h3]; exact dec_none
      have hf : f = (XF.fin (if neg then -w else w)).f32 := by
        unfold XF.f32
        cases h4 : Ieee.ieee32 (if neg then -w else w) with
        | ok r => rw [h4] at h; cases h; simp only [h4]
        | error e => rw [h4] at h; cases h
      rw [hf]
      apply f32_sign
      · intro hx
        cases neg with
        | false => simp only [Bool.false_eq_true, if_false] at hx; linarith
        | true =>
          cases hN : numberHere cs with
          | true => rfl
          | false => rw [hn hN] at hx; simp at hx
      · intro hx
        cases neg with
        | false => rfl
        | true => simp only [if_true] at hx; linarith

private theorem ofInt_288 : XF.ofInt 288 = .fin 288 := by decide +kernel

private theorem ratio_sign {y : Str} {v : XF} (h : textRatioX y 288 = .ok v) : SignOk (floatSign y) (some v) := by
  obtain ⟨f, h1, h2⟩ := bind_eq_ok.1 h
  have := scan_sign h1
  cases h2
  rw [ofInt_288]
  cases f with
  | nan => trivial
  | inf s =>
    show floatSign y = (s != decide ((288 : ℚ) < 0))
    rw [show floatSign y = s from this, decide_eq_false (by norm_num)]
    cases s <;> rfl
  | fin q =>
    have e : (XF.fin q).div (.fin 288) = .fin (q / 288) := by simp [XF.div]
    rw [e]
    apply f32_sign
    · intro hq; exact this.1 (by by_contra hc; have : 0 ≤ q / 288 := div_nonneg (not_lt.1 hc) (by norm_num); linarith)
    · intro hq; exact this.2 (by by_contra hc; have : q / 288 ≤ 0 := div_nonpos_of_nonpos_of_nonneg (not_lt.1 hc) (by norm_num); linarith)

/-! ### Tags -/

private def Keeps (v : Option XF) (x : R XRaw) : Prop := ∀ s', x = .ok s' → s'.vprop = v

private theorem k_ite {v : Option XF} {c : Prop} [Decidable c] {a b : R XRaw} (ha : Keeps v a) (hb : Keeps v b) : Keeps v (if c then a else b) := by
  split
  · exact ha
  · exact hb

private theorem k_ok {v : Option XF} {s : XRaw} (h : s.vprop = v) : Keeps v (.ok s) := by intro s' e; cases e; exact h

private theorem k_bind {α : Type} {v : Option XF} {x : R α} {f : α → R XRaw} (h : ∀ a, Keeps v (f a)) : Keeps v (x >>= f) := by
  intro s' e
  obtain ⟨a, _, e⟩ := bind_eq_ok.1 e
  exact h a s' e

private theorem k_align (ctx : SsaContext) (s : XRaw) (a : HRef) (b : VRef) : Keeps s.vprop (ssaAlignX ctx s a b) := by
  cases a
  · exact k_bind fun _ => k_ok rfl
  · exact k_bind fun _ => k_bind fun _ => k_bind fun _ => k_ok rfl
  · exact k_bind fun _ => k_ok rfl

private theorem tag_vprop {ctx : SsaContext} {s s' : XRaw} {tag : Str} (hp : startsWith tag b!"\\pos" = false) (h : ssaParseTagX ctx s tag = .ok s') : s'.vprop = s.vprop := by
  unfold ssaParseTagX at h
  rw [hp] at h
  revert h s'
  have ha := k_align ctx s
  refine k_ite (k_ok rfl) (k_ite (k_ok rfl) (k_ite (k_ok rfl) (k_ite (k_ok rfl) (k_ite (k_ok rfl) (k_ite (k_ok rfl) (k_ite (ha _ _) (k_ite (ha _ _) (k_ite (ha _ _) (k_ite (ha _ _) (k_ite (ha _ _) (k_ite (ha _ _)
    (k_ite (ha _ _) (k_ite (ha _ _) (k_ite (ha _ _) ?_))))))))))))))
  rw [if_neg (by simp)]
  exact k_ite (k_bind fun _ => k_bind fun _ => k_ok rfl) (k_ite (k_ite (k_bind fun _ => k_ok rfl) (k_ok rfl)) (k_ok rfl))

private theorem tag_pos {ctx : SsaContext} {s s' : XRaw} {tag : Str} (hp : startsWith tag b!"\\pos" = true) (h : ssaParseTagX ctx s tag = .ok s') :
    ∃ a x y v, splitAny (fun c => c == 40 || c == 44) tag = [a, x, y] ∧ textRatioX y ctx.resY = .ok v ∧ s'.vprop = some v := by
  obtain ⟨t, rfl⟩ := startsWith_iff.1 hp
  unfold ssaParseTagX at h
  rw [if_neg (by intro e; cases e), if_neg (by rintro (e | e) <;> cases e), if_neg (by intro e; cases e), if_neg (by intro e; cases e), if_neg (by intro e; cases e), if_neg (by intro e; cases e),
    if_neg (by intro e; cases e), if_neg (by intro e; cases e), if_neg (by intro e; cases e), if_neg (by intro e; cases e), if_neg (by intro e; cases e), if_neg (by intro e; cases e),
    if_neg (by intro e; cases e), if_neg (by intro e; cases e), if_neg (by intro e; cases e), if_pos hp] at h
  split at h
  · rename_i a x y e
    obtain ⟨hv, _, h⟩ := bind_eq_ok.1 h
    obtain ⟨v, h1, h⟩ := bind_eq_ok.1 h
    cases h
    exact ⟨a, x, y, v, e, h1, rfl⟩
  · cases h

private theorem sep_false (c : Byte) : (c == 40 || c == 44) = false ↔ c ≠ 40 ∧ c ≠ 44 := by simp

private theorem sep_true (c : Byte) : (c == 40 || c == 44) = true ↔ c = 40 ∨ c = 44 := by simp

private theorem posTag_iff (tag y : Str) : PosTag tag y ↔ startsWith tag b!"\\pos" = true ∧ ∃ a x, splitAny (fun c => c == 40 || c == 44) tag = [a, x, y] := by
  simp only [split3_iff, sep_false, sep_true]
  constructor
  · rintro ⟨a, s, x, s', rfl, h1, h2, h3⟩
    refine ⟨startsWith_iff.2 ⟨a ++ s :: x ++ s' :: y, by simp⟩, b!"\\pos" ++ a, x, s, s', h1, h2, by simp, ?_⟩
    intro c hc
    simp only [List.append_assoc] at hc
    rcases List.mem_append.1 hc with hc | hc
    · exact (show ∀ c ∈ b!"\\pos", c ≠ 40 ∧ c ≠ 44 by decide) c hc
    · exact h3 c (by simpa using hc)
  · rintro ⟨hp, a, x, s, s', h1, h2, rfl, h3⟩
    have hpre := startsWith_iff.1 hp
    obtain ⟨a', rfl⟩ : ∃ a', a = b!"\\pos" ++ a' := by
      have hs : ∀ c ∈ b!"\\pos", c ≠ s := by
        intro c hc e
        subst e
        have : ∀ c ∈ b!"\\pos", c ≠ 40 ∧ c ≠ 44 := by decide
        rcases h1 with h | h
        · exact (this c hc).1 h
        · exact (this c hc).2 h
      obtain ⟨w, hw⟩ := hpre
      rcases List.append_eq_append_iff.1 hw with ⟨a', h4, _⟩ | ⟨u, h4, h5⟩
      · exact ⟨a', h4⟩
      · cases u with
        | nil => exact ⟨[], by simpa using h4.symm⟩
        | cons d u =>
          injection h5 with hd _
          exact absurd hd.symm (hs d (by rw [h4]; simp))
    exact ⟨a', s, x, s', by simp, h1, h2, fun c hc => h3 c (by simp only [List.mem_append] at hc ⊢; tauto)⟩

private theorem tag_place {p q : SRaw} {tag : Str} (h : ssaParseTagS p tag = .ok q) :
    (∃ y v, PosTag tag y ∧ textRatioX y 288 = .ok v ∧ q.place = (floatSign y, some v)) ∨ ((∀ y, ¬ PosTag tag y) ∧ q.place = p.place) := by
  obtain ⟨x, h1, h⟩ := bind_eq_ok.1 h
  cases hp : startsWith tag b!"\\pos" with
  | true =>
    rw [hp] at h
    obtain ⟨a, x', y, v, h2, h3, h4⟩ := tag_pos hp h1
    rw [h2] at h
    cases h
    exact .inl ⟨y, v, (posTag_iff _ _).2 ⟨hp, a, x', h2⟩, h3, by simp [SRaw.place, h4]⟩
  | false =>
    rw [hp] at h
    cases h
    refine .inr ⟨fun y hy => ?_, by simp [SRaw.place, tag_vprop hp h1]⟩
    rw [((posTag_iff _ _).1 hy).1] at hp
    cases hp

/-! ### A line -/

private theorem content_place (s : SrtLineS) : s.maybeContent.p.place = s.p.place ∧ ∃ new, s.maybeContent.subs = s.subs ++ new ∧ ∀ r ∈ new, r.place = s.p.place := by
  unfold SrtLineS.maybeContent
  split
  · exact ⟨rfl, [], by simp, by simp⟩
  · exact ⟨rfl, [s.p], rfl, by simp⟩

private theorem exec_place {n : Nat} {ctx : List Str} {s s' : SrtLineS} {t : Tok} (h : s.exec n ctx t = .ok s') :
    PlaceAfter s.p.place [t] s'.p.place ∧ ∃ new, s'.subs = s.subs ++ new ∧ ∀ r ∈ new, r.place = s.p.place := by
  have hc := content_place s
  have other : (∀ tag, t ≠ .ssa tag) → PlaceAfter s.p.place [t] s.p.place := fun h => .other _ _ _ _ (fun tag _ e => absurd e (h tag)) (.done _)
  cases t with
  | bold b => cases h; exact ⟨hc.1 ▸ other nofun, hc.2⟩
  | italic b => cases h; exact ⟨hc.1 ▸ other nofun, hc.2⟩
  | underline b => cases h; exact ⟨hc.1 ▸ other nofun, hc.2⟩
  | chr c => cases h; exact ⟨other nofun, [], by simp, by simp⟩
  | ssa tag =>
    obtain ⟨p, h1, h2⟩ := bind_eq_ok.1 h
    cases h2
    refine ⟨?_, [], by simp, by simp⟩
    rcases tag_place h1 with ⟨y, v, h3, h4, h5⟩ | ⟨h3, h4⟩
    · simp only [h5]; exact .pos _ _ _ y v _ h3 h4 (.done _)
    · simp only [h4]
      exact .other _ _ _ _ (fun tag' y e => by cases e; exact h3 y) (.done _)
  | fontOpen tag =>
    obtain ⟨c, h1, h2⟩ := bind_eq_ok.1 h
    cases h2
    exact ⟨hc.1 ▸ other nofun, hc.2⟩
  | fontClose =>
    unfold SrtLineS.exec at h
    simp only at h
    split at h
    · cases h; exact ⟨hc.1 ▸ other nofun, hc.2⟩
    · split at h
      · cases h; exact ⟨hc.1 ▸ other nofun, hc.2⟩
      · cases h

private theorem after_append {s m o : Bool × Option XF} {a b : List Tok} (h1 : PlaceAfter s a m) (h2 : PlaceAfter m b o) : PlaceAfter s (a ++ b) o := by
  induction h1 with
  | done => exact h2
  | pos s out tag y v ts h3 h4 _ ih => exact .pos _ _ _ _ _ _ h3 h4 (ih h2)
  | other s out t ts h3 _ ih => exact .other _ _ _ _ h3 (ih h2)

private theorem loop_place {n : Nat} {ctx : List Str} : ∀ (f : Nat) (t : Str) {s s' : SrtLineS} {toks : List Tok}, t.length ≤ f → SrtWritten t toks → srtLoopS n ctx f s t = .ok s' →
    PlaceAfter s.p.place toks s'.p.place ∧ ∃ new, s'.subs = s.subs ++ new ∧ ∀ r ∈ new, ∃ pre post, toks = pre ++ post ∧ PlaceAfter s.p.place pre r.place
  | f, [], s, s', toks, _, hw, he => by
    rw [srtLoopS.eq_def] at he
    cases he
    rw [written_nil hw]
    exact ⟨.done _, [], by simp, by simp⟩
  | 0, c :: cs, s, s', toks, hf, _, he => absurd hf (by simp)
  | f + 1, c :: cs, s, s', toks, hf, hw, he => by
    rw [srtLoopS] at he
    obtain ⟨s1, h1, h2⟩ := bind_eq_ok.1 he
    obtain ⟨ts, rfl, hw'⟩ := nextTok_written hw c cs rfl
    obtain ⟨h3, new1, h4, h5⟩ := exec_place h1
    have hl : (nextTok c cs).2.length ≤ f := by have := nextTok_shorter c cs; simp only [List.length_cons] at hf; omega
    obtain ⟨h6, new2, h7, h8⟩ := loop_place f _ hl hw' h2
    refine ⟨after_append h3 h6, new1 ++ new2, by rw [h7, h4, List.append_assoc], ?_⟩
    intro r hr
    rcases List.mem_append.1 hr with hr | hr
    · exact ⟨[], _, rfl, by rw [h5 r hr]; exact .done _⟩
    · obtain ⟨pre, post, h9, h10⟩ := h8 r hr
      exact ⟨(nextTok c cs).1 :: pre, post, by rw [h9]; rfl, after_append h3 h10⟩

private theorem line_place {n : Nat} {ctx : List Str} {t : Str} {p : SRaw} {subs : List SRaw} {q : SRaw × List SRaw} {toks : List Tok} (hw : SrtWritten t toks) (he : convertLineS n ctx t p subs = .ok q) :
    PlaceAfter p.place toks q.1.place ∧ ∃ new, q.2 = subs ++ new ∧ ∀ r ∈ new, ∃ pre post, toks = pre ++ post ∧ PlaceAfter p.place pre r.place := by
  obtain ⟨s, h1, h2⟩ := bind_eq_ok.1 he
  cases h2
  obtain ⟨h3, new1, h4, h5⟩ := loop_place _ _ (le_refl _) hw h1
  obtain ⟨h6, new2, h7, h8⟩ := content_place { s with p := ⟨{ s.p.x with raw := { s.p.x.raw with text := replaceAll s.p.x.raw.text rle [] } }, s.p.neg⟩ }
  refine ⟨?_, new1 ++ new2, ?_, ?_⟩
  · rw [h6]; exact h3
  · rw [h7, h4, List.append_assoc]
  · intro r hr
    rcases List.mem_append.1 hr with hr | hr
    · exact h5 r hr
    · exact ⟨toks, [], by simp, by rw [h8 r hr]; exact h3⟩

/-! ### A file -/

private theorem after_ok {s o : Bool × Option XF} {ts : List Tok} (h : PlaceAfter s ts o) (hs : SignOk s.1 s.2) : SignOk o.1 o.2 := by
  induction h with
  | done => exact hs
  | pos s out tag y v ts _ h4 _ ih => exact ih (ratio_sign h4)
  | other s out t ts _ _ ih => exact ih hs

private theorem line_ok {n : Nat} {ctx : List Str} {t : Str} {p : SRaw} {subs : List SRaw} {q : SRaw × List SRaw} (hp : SignOk p.neg p.x.vprop) (h : ∀ r ∈ subs, SignOk r.neg r.x.vprop)
    (he : convertLineS n ctx t p subs = .ok q) : SignOk q.1.neg q.1.x.vprop ∧ ∀ r ∈ q.2, SignOk r.neg r.x.vprop := by
  obtain ⟨toks, hw⟩ := written_exist t
  obtain ⟨h1, new, h2, h3⟩ := line_place hw he
  refine ⟨after_ok h1 hp, ?_⟩
  rw [h2]
  intro r hr
  rcases List.mem_append.1 hr with hr | hr
  · exact h r hr
  · obtain ⟨_, _, _, h4⟩ := h3 r hr
    exact after_ok h4 hp

private theorem subLines_ok {n : Nat} {ctx : List Str} : ∀ (ts : List Str) {p : SRaw} {subs : List SRaw} {q : SRaw × List SRaw}, SignOk p.neg p.x.vprop → (∀ r ∈ subs, SignOk r.neg r.x.vprop) →
    convertSubLinesS n ctx ts p subs = .ok q → SignOk q.1.neg q.1.x.vprop ∧ ∀ r ∈ q.2, SignOk r.neg r.x.vprop
  | [], p, subs, q, hp, h, he => by cases he; exact ⟨hp, h⟩
  | t :: ts, p, subs, q, hp, h, he => by
    obtain ⟨q1, h1, h2⟩ := bind_eq_ok.1 he
    obtain ⟨l, _, h3⟩ := bind_eq_ok.1 h2
    obtain ⟨l', _, h4⟩ := bind_eq_ok.1 h3
    obtain ⟨h5, h6⟩ := line_ok hp h h1
    exact subLines_ok ts (p := ⟨{ q1.1.x with raw := { q1.1.x.raw with vpos := { q1.1.x.raw.vpos with line := some l' }, text := [] } }, q1.1.neg⟩) h5 h6 h4

private theorem lines_ok : ∀ (ls : List Str) {n : Nat} {st : SrtState} {ctx : List Str} {rs : SRaw} {subs out : List SRaw}, SignOk rs.neg rs.x.vprop → (∀ r ∈ subs, SignOk r.neg r.x.vprop) →
    srtLinesS n st ctx rs subs ls = .ok out → ∀ r ∈ out, SignOk r.neg r.x.vprop
  | [], n, st, ctx, rs, subs, out, _, h, he => by rw [srtLinesS] at he; cases he; exact h
  | raw :: rest, n, st, ctx, rs, subs, out, hr, h, he => by
    cases st with
    | counter =>
      rw [srtLinesS] at he
      split at he
      · exact lines_ok rest hr h he
      · exact lines_ok rest (rs := ⟨{ raw := srtFresh }, false⟩) rfl h he
    | metadata =>
      rw [srtLinesS] at he
      obtain ⟨r, _, h2⟩ := bind_eq_ok.1 he
      exact lines_ok rest (rs := ⟨{ rs.x with raw := r }, rs.neg⟩) hr h h2
    | content =>
      rw [srtLinesS] at he
      split at he
      · exact lines_ok rest hr h he
      · obtain ⟨q, h1, h2⟩ := bind_eq_ok.1 he
        obtain ⟨h3, h4⟩ := subLines_ok _ hr h h1
        exact lines_ok rest h3 h4 h2

/-! ### Collecting -/

private theorem insert_perm (le : Raw → Raw → Bool) (a : SRaw) : ∀ l : List SRaw, (insertS le a l).Perm (a :: l)
  | [] => .refl _
  | b :: l => by
    rw [insertS]
    split
    · exact .refl _
    · exact ((insert_perm le a l).cons b).trans (List.Perm.swap a b l)

private theorem sort_perm (le : Raw → Raw → Bool) : ∀ l : List SRaw, (sortS le l).Perm l
  | [] => .refl _
  | a :: l => (insert_perm le a _).trans ((sort_perm le l).cons a)

private def stLines (st : List SSubtitle × Option SSubtitle) : List SLine := st.1.flatMap SSubtitle.lines ++ (st.2.map SSubtitle.lines).getD []

private theorem fresh_line (i : SRaw) : GroupLine (SLine.ofRaw i) [i] := ⟨rfl, i, [], rfl, rfl, rfl, rfl⟩

private theorem forall₂_split {α β : Type} {R : α → β → Prop} : ∀ {a b : List α} {c : List β}, List.Forall₂ R (a ++ b) c → ∃ c1 c2, List.Forall₂ R a c1 ∧ List.Forall₂ R b c2 ∧ c = c1 ++ c2
  | [], b, c, h => ⟨[], c, .nil, h, rfl⟩
  | x :: a, b, c, h => by
    cases h with
    | cons h1 h2 =>
      obtain ⟨c1, c2, h3, h4, rfl⟩ := forall₂_split h2
      exact ⟨_ :: c1, c2, .cons h1 h3, h4, rfl⟩

private theorem step_groups {st st' : List SSubtitle × Option SSubtitle} {i : SRaw} {gs : List (List SRaw)} (h : List.Forall₂ GroupLine (stLines st) gs) (he : collectStepS st i = .ok st') :
    ∃ gs', gs'.flatten = gs.flatten ++ [i] ∧ List.Forall₂ GroupLine (stLines st') gs' := by
  have add : ∀ ls, ls = stLines st ++ [SLine.ofRaw i] → ∃ gs', gs'.flatten = gs.flatten ++ [i] ∧ List.Forall₂ GroupLine ls gs' := by
    rintro _ rfl
    exact ⟨gs ++ [[i]], by simp, List.rel_append h (.cons (fresh_line i) .nil)⟩
  obtain ⟨out, cur⟩ := st
  unfold collectStepS at he
  cases cur with
  | none => cases he; exact add _ (by simp [stLines, SSubtitle.ofRaw])
  | some cur =>
    obtain ⟨same, _, he⟩ := bind_eq_ok.1 he
    cases same with
    | false => cases he; exact add _ (by simp [stLines, SSubtitle.ofRaw])
    | true =>
      simp only [if_true] at he
      cases hl : cur.lines.getLast? with
      | none => rw [hl] at he; cases he; exact add _ (by simp [stLines])
      | some l =>
        rw [hl] at he
        simp only at he
        split at he
        · cases he
          obtain ⟨ls, hls⟩ := List.getLast?_eq_some_iff.1 hl
          have e : stLines (out, some cur) = (out.flatMap SSubtitle.lines ++ ls) ++ [l] := by simp [stLines, hls]
          rw [e] at h
          obtain ⟨gs1, gs2, h1, h2, rfl⟩ := forall₂_split h
          obtain ⟨g, rfl, hg⟩ : ∃ g, gs2 = [g] ∧ GroupLine l g := by
            cases h2 with
            | cons h3 h4 => cases h4; exact ⟨_, rfl, h3⟩
          obtain ⟨hb, a, r, rfl, h5, h6, h7⟩ := hg
          refine ⟨gs1 ++ [a :: r ++ [i]], by simp, ?_⟩
          have e' : stLines (out, some { cur with lines := cur.lines.dropLast ++ [⟨{ l.x with blocks := l.x.blocks ++ [XBlock.ofRaw i.x] }, l.neg⟩] }) =
              (out.flatMap SSubtitle.lines ++ ls) ++ [⟨{ l.x with blocks := l.x.blocks ++ [XBlock.ofRaw i.x] }, l.neg⟩] := by simp [stLines, hls]
          rw [e']
          refine List.rel_append h1 (.cons ⟨?_, a, r ++ [i], rfl, h5, h6, h7⟩ .nil)
          simp [hb]
        · cases he; exact add _ (by simp [stLines])

private theorem loop_groups : ∀ (is : List SRaw) {st st' : List SSubtitle × Option SSubtitle} {gs : List (List SRaw)}, List.Forall₂ GroupLine (stLines st) gs → collectLoopS st is = .ok st' →
    ∃ gs', gs'.flatten = gs.flatten ++ is ∧ List.Forall₂ GroupLine (stLines st') gs'
  | [], st, st', gs, h, he => by cases he; exact ⟨gs, by simp, h⟩
  | i :: is, st, st', gs, h, he => by
    obtain ⟨st1, h1, h2⟩ := bind_eq_ok.1 he
    obtain ⟨gs1, h3, h4⟩ := step_groups h h1
    obtain ⟨gs2, h5, h6⟩ := loop_groups is h4 h2
    exact ⟨gs2, by rw [h5, h3]; simp, h6⟩

private theorem finish_lines (st : List SSubtitle × Option SSubtitle) : (collectFinishS st).flatMap SSubtitle.lines = stLines st := by
  obtain ⟨out, cur⟩ := st
  cases cur <;> simp [collectFinishS, stLines]

/-! ### The property -/

/-- C150: the sign bit and the place of the raw subtitles of a line are those of the last tag `\pos` before the end of their text, or those from before the line. -/
theorem C150_last_tag (n : Nat) (ctx : List Str) (t : Str) (p p' : SRaw) (subs subs' : List SRaw) (toks : List Tok) (hw : SrtWritten t toks) (h : convertLineS n ctx t p subs = .ok (p', subs')) :
    PlaceAfter p.place toks p'.place ∧ ∃ new, subs' = subs ++ new ∧ ∀ r ∈ new, ∃ pre post, toks = pre ++ post ∧ PlaceAfter p.place pre r.place := line_place hw h

/-- A later place takes the sign of an earlier one away. -/
example : ((srtReadS [b!"1", b!"00:00:01,000 --> 00:00:02,000", b!"{\\pos(0,-0)}a<i>{\\pos(0,0)}b"]).toOption.map fun rs => rs.map SRaw.place) =
    some [(true, some (.fin 0)), (false, some (.fin 0))] := by decide +kernel

/-- C150: in what is read the sign bit agrees with the value, and is clear where there is no place. -/
theorem C150_value (lines : List Str) (raws : List SRaw) (h : srtReadS lines = .ok raws) : ∀ r ∈ raws, SignOk r.neg r.x.vprop := lines_ok lines (by rfl) (by simp) h

/-- The next subtitle does not get the sign of the one before it. -/
example : ((srtReadS [b!"1", b!"00:00:01,000 --> 00:00:02,000", b!"{\\pos(0,-72)}a", b!"", b!"2", b!"00:00:03,000 --> 00:00:04,000", b!"b"]).toOption.map fun rs => rs.map SRaw.place) =
    some [(true, some (.fin (-1/4))), (false, none)] := by decide +kernel

/-- C150: each line is made of raw subtitles, all of them in some line; the first gives the line its place and sign. -/
theorem C150_line (raws : List SRaw) (subs : List SSubtitle) (h : collectS raws = .ok subs) :
    ∃ groups : List (List SRaw), groups.flatten.Perm raws ∧ List.Forall₂ GroupLine (subs.flatMap SSubtitle.lines) groups := by
  obtain ⟨_, _, h⟩ := bind_eq_ok.1 h
  obtain ⟨st, h1, h2⟩ := bind_eq_ok.1 h
  cases h2
  obtain ⟨gs, h3, h4⟩ := loop_groups _ (st := ([], none)) (gs := []) .nil h1
  exact ⟨gs, by rw [h3]; exact sort_perm _ _, by rw [finish_lines]; exact h4⟩

example : ((srtReadS [b!"1", b!"00:00:01,000 --> 00:00:02,000", b!"{\\pos(0,-0)}a<i>{\\pos(0,0)}b"] >>= collectS).toOption.map fun ss => ss.map fun s => s.lines.map fun l => (l.neg, l.x.blocks.length)) =
    some [[(true, 2)]] := by decide +kernel

end LibSub
