/-
Property C118: what the columns of a line of dialogue and of a style mean in an SSA file.
-/
import Verif.Props.SsaLineExact
import Verif.Props.ColourRange
import Verif.Props.SubRipReject

namespace LibSub

/-! ### Specification -/

/-- A time: hours, minutes, seconds and hundredths, with colons or full stops between them. -/
def SsaStamp (v : Str) (t : Time) : Prop :=
  ∃ a x b y c z d h m s cs, v = a ++ x :: (b ++ y :: (c ++ z :: d)) ∧ (∀ e ∈ [x, y, z], e = 58 ∨ e = 46) ∧ (∀ e ∈ a ++ b ++ c ++ d, e ≠ 58 ∧ e ≠ 46) ∧
    IntAtStart a h ∧ IntAtStart b m ∧ IntAtStart c s ∧ IntAtStart d cs ∧ InInt (cs * 10) ∧ SecondsFit h m s ∧ t = ⟨h * 3600 + m * 60 + s, cs * 10, some ⟨1000, 1⟩⟩

/-- A colour in a style: `&H` and a hexadecimal number, or a decimal number; red is in the lowest byte. -/
def StyleColour (v : Str) (c : Colour) : Prop :=
  (b!"&" <+: v ∧ HColourText v c) ∨
    (¬ b!"&" <+: v ∧ ∃ i, IntAtStart v i ∧ c = ⟨component (i % 256).toNat, component (i / 256 % 256).toNat, component (i / 65536 % 256).toNat⟩)

/-- The style to use for a name, without the stars before it: the one of that name or, if there is none, the one called `Default`. -/
def StyleFor (named : Str → SsaStyle → Prop) (v : Str) (st : SsaStyle) : Prop :=
  ∃ stars name, LongestPrefix (· = 42) v stars name ∧ (named name st ∨ ((∀ s, ¬ named name s) ∧ named b!"Default" st))

/-- What a style makes of a subtitle. -/
def Styled (st : SsaStyle) (fs : ℚ) (vp : Option ℚ) (s : Raw) : Raw :=
  { s with
    font := st.fontName
    fontSize := FontSize.fromProportional fs
    colour := st.primaryColour
    effectColour := st.backColour
    bold := st.bold
    italic := st.italic
    underline := st.underline
    effect := st.effect
    hpos := { s.hpos with ref := st.href }
    vpos := { s.vpos with ref := some st.vref, prop := vp } }

/-- What a column of a line of dialogue does, given the size of the screen and the styles. -/
inductive ColumnDoes (resX resY : Int) (named : Str → SsaStyle → Prop) : SsaEvent → Str × Str → SsaEvent → Prop
  | start (ev : SsaEvent) (v : Str) (t : Time) : SsaStamp v t → ColumnDoes resX resY named ev (b!"Start", v) { ev with sub := { ev.sub with from_ := t } }
  | stop (ev : SsaEvent) (v : Str) (t : Time) : SsaStamp v t → ColumnDoes resX resY named ev (b!"End", v) { ev with sub := { ev.sub with to_ := t } }
  | noStyle (ev : SsaEvent) (v : Str) : (∀ st, ¬ StyleFor named v st) → ColumnDoes resX resY named ev (b!"Style", v) ev
  /-- A style sets everything there is in it; it has a vertical position unless it is centred vertically. -/
  | style (ev : SsaEvent) (v : Str) (st : SsaStyle) (fs : ℚ) (vp : Option ℚ) : StyleFor named v st → FloatQuotient st.fontSize resY fs →
      (if st.vref = .centreOfScreen then vp = ev.sub.vpos.prop else ∃ q, FloatQuotient st.vmargin resY q ∧ vp = some q) →
      ColumnDoes resX resY named ev (b!"Style", v) { ev with style := some st, lmargin := st.lmargin, rmargin := st.rmargin, sub := Styled st fs vp ev.sub }
  /-- A margin of exactly `0` is that of the style. -/
  | sameMargin (ev : SsaEvent) (k : Str) : k ∈ [b!"MarginV", b!"MarginL", b!"MarginR"] → ColumnDoes resX resY named ev (k, b!"0") ev
  | centred (ev : SsaEvent) (v : Str) : ev.sub.vpos.ref = some .centreOfScreen → ColumnDoes resX resY named ev (b!"MarginV", v) ev
  | marginV (ev : SsaEvent) (v : Str) (f : ℚ) : v ≠ b!"0" → ev.sub.vpos.ref ≠ some .centreOfScreen → FloatText v f → resY ≠ 0 →
      ColumnDoes resX resY named ev (b!"MarginV", v) { ev with sub := { ev.sub with vpos := { ev.sub.vpos with prop := some (f32 (f / f32 resY)) } } }
  | marginL (ev : SsaEvent) (v : Str) (n : Int) : v ≠ b!"0" → IntAtStart v n → ColumnDoes resX resY named ev (b!"MarginL", v) { ev with lmargin := n }
  | marginR (ev : SsaEvent) (v : Str) (n : Int) : v ≠ b!"0" → IntAtStart v n → ColumnDoes resX resY named ev (b!"MarginR", v) { ev with rmargin := n }
  /-- The text is read with what the columns before it have set. -/
  | text (ev : SsaEvent) (v : Str) (subs : List Raw) :
      SsaLineMeans { resX := resX, resY := resY, primaryColour := (ev.style.map (·.primaryColour)).getD ⟨1, 1, 1⟩, lmargin := ev.lmargin, rmargin := ev.rmargin } ev.sub v subs →
      ColumnDoes resX resY named ev (b!"Text", v) { ev with subs := ev.subs ++ subs }
  | other (ev : SsaEvent) (k v : Str) : k ∉ eventColumns → ColumnDoes resX resY named ev (k, v) ev

/-- What several columns do, one after the other. -/
inductive ColumnsDo (resX resY : Int) (named : Str → SsaStyle → Prop) : SsaEvent → List (Str × Str) → SsaEvent → Prop
  | done (ev : SsaEvent) : ColumnsDo resX resY named ev [] ev
  | column (ev ev' ev'' : SsaEvent) (c : Str × Str) (cs : List (Str × Str)) : ColumnDoes resX resY named ev c ev' → ColumnsDo resX resY named ev' cs ev'' →
      ColumnsDo resX resY named ev (c :: cs) ev''

/-- The values in a line of dialogue: each but the last is followed by a comma.  The last may contain commas. -/
def ValuesOf (body : Str) (vs : List Str) : Prop := ∃ fs rest, vs = fs ++ [rest] ∧ body = (fs.map (· ++ [44])).flatten ++ rest ∧ ∀ f ∈ fs, (44 : Byte) ∉ f

/-- The names or values in a line. -/
def CommaList (s : Str) (vs : List Str) : Prop := vs ≠ [] ∧ s = commas vs ∧ ∀ v ∈ vs, (44 : Byte) ∉ v

/-- The subtitles of a line of dialogue. -/
def DialogueMeans (resX resY : Int) (named : Str → SsaStyle → Prop) (format body : Str) (subs : List Raw) : Prop :=
  ∃ names values ev, CommaList format names ∧ ValuesOf body values ∧ names.length = values.length ∧
    ColumnsDo resX resY named {} (columns names values) ev ∧ subs = ev.subs

/-- The style that a line describes. -/
def StyleMeans (format body : Str) (s : SsaStyle) : Prop :=
  ∃ names values, CommaList format names ∧ CommaList body values ∧ names.length = values.length ∧ (∀ c ∈ columns names values, Readable c) ∧ StyleOf (columns names values) s

/-! ### Times and colours -/

theorem split4_iff (p : Byte → Bool) (t a b c d : Str) : splitAny p t = [a, b, c, d] ↔
    ∃ x y z, p x = true ∧ p y = true ∧ p z = true ∧ t = a ++ x :: (b ++ y :: (c ++ z :: d)) ∧ ∀ e ∈ a ++ b ++ c ++ d, p e = false := by
  constructor
  · intro h
    rcases splitAny_cases p t with ⟨h1, _⟩ | ⟨a', s, r, rfl, h1, h2, h3⟩
    · rw [h1] at h; cases h
    · rw [h3] at h
      injection h with ha h
      subst ha
      obtain ⟨y, z, hy, hz, rfl, hf⟩ := (split3_iff p r b c d).1 h
      refine ⟨s, y, z, h2, hy, hz, rfl, ?_⟩
      intro e he
      simp only [List.mem_append] at he hf
      rcases he with ((he | he) | he) | he
      · exact h1 e he
      · exact hf e (.inl (.inl he))
      · exact hf e (.inl (.inr he))
      · exact hf e (.inr he)
  · rintro ⟨x, y, z, hx, hy, hz, rfl, hf⟩
    rw [splitAny_append (fun e he => hf e (by simp [he])) hx, (split3_iff p _ b c d).2 ⟨y, z, hy, hz, rfl, fun e he => hf e (by
      simp only [List.mem_append] at he ⊢
      tauto)⟩]

/-- C118: the time that a text stands for. -/
theorem C118_time (v : Str) (t : Time) : ssaParseTime v = .ok t ↔ SsaStamp v t := by
  have hp : ∀ e : Byte, (e == 58 || e == 46) = true ↔ e = 58 ∨ e = 46 := by intro e; simp
  have hp' : ∀ e : Byte, (e == 58 || e == 46) = false ↔ e ≠ 58 ∧ e ≠ 46 := by intro e; simp
  unfold ssaParseTime SsaStamp
  constructor
  · intro h
    split at h
    · rename_i a b c d hs
      obtain ⟨x, y, z, hx, hy, hz, e, hf⟩ := (split4_iff _ _ _ _ _ _).1 hs
      simp only [bind_eq_ok, ck_eq_ok] at h
      obtain ⟨hh, h1, m, h2, s, h3, cs, h4, ms, ⟨h5, rfl⟩, h6⟩ := h
      by_cases hfit : SecondsFit hh m s
      · rw [hms_fits _ hfit] at h6
        refine ⟨a, x, b, y, c, z, d, hh, m, s, cs, e, ?_, fun e he => (hp' e).1 (hf e he), (C117_int _ _).1 h1, (C117_int _ _).1 h2, (C117_int _ _).1 h3, (C117_int _ _).1 h4, h5, hfit,
          (Except.ok.inj h6).symm⟩
        intro e he
        simp only [List.mem_cons, List.not_mem_nil, or_false] at he
        rcases he with rfl | rfl | rfl
        · exact (hp _).1 hx
        · exact (hp _).1 hy
        · exact (hp _).1 hz
      · rw [hms_overflow _ hfit] at h6; cases h6
    · cases h
  · rintro ⟨a, x, b, y, c, z, d, hh, m, s, cs, e, hx, hf, h1, h2, h3, h4, h5, hfit, rfl⟩
    rw [(split4_iff _ v a b c d).2 ⟨x, y, z, (hp _).2 (hx x (by simp)), (hp _).2 (hx y (by simp)), (hp _).2 (hx z (by simp)), e, fun e he => (hp' e).2 (hf e he)⟩]
    simp only [bind_eq_ok, ck_eq_ok]
    exact ⟨hh, (C117_int _ _).2 h1, m, (C117_int _ _).2 h2, s, (C117_int _ _).2 h3, cs, (C117_int _ _).2 h4, cs * 10, ⟨h5, rfl⟩, hms_fits _ hfit⟩

example : SsaStamp b!"0:01:02.50" ⟨62, 500, some ⟨1000, 1⟩⟩ := (C118_time _ _).1 (by decide +kernel)

/-- C118: the colour that a text in a style stands for. -/
theorem C118_colour (v : Str) (c : Colour) : SsaStyle.colour v = .ok c ↔ StyleColour v c := by
  have hb : ∀ m : Fin 256, f32 (f64 (((m.val : Int) : ℚ) / 255)) = component m.val := by decide +kernel
  have hc : ∀ (v : Int) (k : Nat), byteComp v k = component (v / 2 ^ (8 * k) % 256).toNat := by
    intro v k
    unfold byteComp
    have h1 : v.fdiv (2 ^ (8 * k)) = v / 2 ^ (8 * k) := Int.fdiv_eq_ediv_of_nonneg _ (by positivity)
    have h2 : (v / 2 ^ (8 * k)).fmod 256 = v / 2 ^ (8 * k) % 256 := Int.fmod_eq_emod_of_nonneg _ (by norm_num)
    rw [h1, h2]
    have h3 : 0 ≤ v / 2 ^ (8 * k) % 256 := Int.emod_nonneg _ (by norm_num)
    have h4 : v / 2 ^ (8 * k) % 256 < 256 := Int.emod_lt_of_pos _ (by norm_num)
    have := hb ⟨(v / 2 ^ (8 * k) % 256).toNat, by omega⟩
    simp only [Int.toNat_of_nonneg h3] at this
    exact this
  unfold StyleColour
  by_cases hv : b!"&" <+: v
  · obtain ⟨r, rfl⟩ := hv
    have e : SsaStyle.colour (b!"&" ++ r) = hColour (b!"&" ++ r) := rfl
    rw [e, hColour_iff]
    constructor
    · intro h; exact .inl ⟨⟨r, rfl⟩, h⟩
    · rintro (⟨_, h⟩ | ⟨h, _⟩)
      · exact h
      · exact absurd ⟨r, rfl⟩ h
  · have e : SsaStyle.colour v = (do let i ← rawConvertInt v; pure ⟨byteComp i 0, byteComp i 1, byteComp i 2⟩) := by
      unfold SsaStyle.colour
      split
      · rename_i r; exact absurd ⟨r, rfl⟩ hv
      · rfl
    rw [e]
    simp only [bind_eq_ok, C117_int, hc]
    constructor
    · rintro ⟨i, hi, h⟩
      refine .inr ⟨hv, i, hi, ?_⟩
      rw [← Except.ok.inj h]
      norm_num
    · rintro (⟨h, _⟩ | ⟨_, i, hi, rfl⟩)
      · exact absurd h hv
      · refine ⟨i, hi, ?_⟩
        rw [pure_eq_ok]
        norm_num

example : StyleColour b!"65535" ⟨component 255, component 255, component 0⟩ := (C118_colour _ _).1 (by decide +kernel)

/-! ### Styles -/

theorem commaList_iff (s : Str) (vs : List Str) : CommaList s vs ↔ splitAny isComma s = vs := by
  constructor
  · rintro ⟨h0, rfl, hv⟩; exact split_commas vs h0 hv
  · rintro rfl; exact ⟨(commas_split s).2, (commas_split s).1.symm, split_commas_free s⟩

/-- C118: the style that a line describes. -/
theorem C118_style (format body : Str) (s : SsaStyle) : SsaStyle.make format body = .ok s ↔ StyleMeans format body s := by
  constructor
  · intro h
    have h1 := (commaList_iff format _).2 rfl
    have h2 := (commaList_iff body _).2 rfl
    by_cases hl : (splitAny isComma format).length = (splitAny isComma body).length
    · refine ⟨_, _, h1, h2, hl, ?_⟩
      rw [← C101_style _ _ h1.2.2 h2.2.2 h1.1 hl, ← h1.2.1, ← h2.2.1]
      exact h
    · have := C101_count _ _ h1.2.2 h2.2.2 h1.1 h2.1 hl
      rw [← h1.2.1, ← h2.2.1, h] at this
      cases this
  · rintro ⟨names, values, h1, h2, hl, h3⟩
    rw [h1.2.1, h2.2.1]
    exact (C101_style _ _ h1.2.2 h2.2.2 h1.1 hl s).2 h3

example : StyleMeans b!"Name, Bold, Fontsize" b!"Big,-1, 40" { name := b!"Big", bold := true, fontSize := 40 } := (C118_style _ _ _).1 (by rfl)

/-! ### Columns -/

theorem applyStyle_iff (resY : Int) (ev ev' : SsaEvent) (st : SsaStyle) : ssaApplyStyle resY ev st = .ok ev' ↔
    ∃ fs vp, FloatQuotient st.fontSize resY fs ∧ (if st.vref = .centreOfScreen then vp = ev.sub.vpos.prop else ∃ q, FloatQuotient st.vmargin resY q ∧ vp = some q) ∧
      ev' = { ev with style := some st, lmargin := st.lmargin, rmargin := st.rmargin, sub := Styled st fs vp ev.sub } := by
  unfold ssaApplyStyle
  by_cases hc : st.vref = .centreOfScreen
  · have e : (st.vref != .centreOfScreen) = false := by simp [hc]
    simp only [e, bind_eq_ok, intRatio_iff]
    constructor
    · rintro ⟨fs, h1, h3⟩
      refine ⟨fs, _, h1, by rw [if_pos hc], (Except.ok.inj h3).symm⟩
    · rintro ⟨fs, vp, h1, h2, rfl⟩
      rw [if_pos hc] at h2
      subst h2
      exact ⟨fs, h1, rfl⟩
  · have e : (st.vref != .centreOfScreen) = true := by simp [hc]
    simp only [e, if_true, bind_eq_ok, intRatio_iff]
    constructor
    · rintro ⟨fs, h1, q, h2, vp, h4, h3⟩
      exact ⟨fs, vp, h1, by rw [if_neg hc]; exact ⟨q, h2, (Except.ok.inj h4).symm⟩, (Except.ok.inj h3).symm⟩
    · rintro ⟨fs, vp, h1, h2, rfl⟩
      rw [if_neg hc] at h2
      obtain ⟨q, h2, rfl⟩ := h2
      exact ⟨fs, h1, q, h2, some q, rfl, rfl⟩

theorem styleFor_iff (styles : List (Str × SsaStyle)) (v : Str) (st : SsaStyle) :
    ssaFindStyle styles (trimLeftIf (· == 42) v) = some st ↔ StyleFor (fun n s => styles.lookup n = some s) v st := by
  unfold ssaFindStyle StyleFor
  have hl : ∀ a b, LongestPrefix (· = (42 : Byte)) v a b ↔ a = v.takeWhile (· == 42) ∧ b = v.dropWhile (· == 42) := longestPrefix_iff (by simp) v
  simp only [hl, trimLeftIf]
  cases hs : styles.lookup (v.dropWhile (· == 42)) with
  | some s =>
    constructor
    · intro h; exact ⟨_, _, ⟨rfl, rfl⟩, .inl (by rw [hs]; exact h)⟩
    · rintro ⟨_, _, ⟨_, rfl⟩, h | ⟨h, _⟩⟩
      · rw [hs] at h; exact h
      · exact absurd hs (h s)
  | none =>
    constructor
    · intro h; exact ⟨_, _, ⟨rfl, rfl⟩, .inr ⟨fun s => by rw [hs]; simp, h⟩⟩
    · rintro ⟨_, _, ⟨_, rfl⟩, h | ⟨_, h⟩⟩
      · rw [hs] at h; cases h
      · exact h

/-- The styles that have been read. -/
def SsaRead.named (r : SsaRead) (n : Str) (s : SsaStyle) : Prop := r.styles.lookup n = some s

theorem column_sound (r : SsaRead) (ev ev' : SsaEvent) (k v : Str) (ht : ev.sub.text = []) (h : ssaEventField r ev k v = .ok ev') :
    ColumnDoes r.resX r.resY r.named ev (k, trim v) ev' := by
  unfold ssaEventField at h
  simp only at h
  rcases ite_cases h with ⟨e, g⟩ | ⟨n1, h⟩
  · subst e
    obtain ⟨t, h1, h2⟩ := bind_eq_ok.1 g
    cases h2
    exact .start _ _ _ ((C118_time _ _).1 h1)
  rcases ite_cases h with ⟨e, g⟩ | ⟨n2, h⟩
  · subst e
    obtain ⟨t, h1, h2⟩ := bind_eq_ok.1 g
    cases h2
    exact .stop _ _ _ ((C118_time _ _).1 h1)
  rcases ite_cases h with ⟨e, g⟩ | ⟨n3, h⟩
  · subst e
    cases hs : ssaFindStyle r.styles (trimLeftIf (· == 42) (trim v)) with
    | none =>
      rw [hs] at g
      cases g
      refine .noStyle _ _ (fun st hst => ?_)
      rw [(styleFor_iff r.styles (trim v) st).2 hst] at hs
      cases hs
    | some st =>
      rw [hs] at g
      obtain ⟨fs, vp, h1, h2, rfl⟩ := (applyStyle_iff _ _ _ _).1 g
      exact .style _ _ st fs vp ((styleFor_iff r.styles (trim v) st).1 hs) h1 h2
  rcases ite_cases h with ⟨e, g⟩ | ⟨n4, h⟩
  · subst e
    rcases ite_cases g with ⟨⟨c1, c2⟩, g⟩ | ⟨c, g⟩
    · obtain ⟨f, h1, h2⟩ := bind_eq_ok.1 g
      obtain ⟨q, h3, h4⟩ := bind_eq_ok.1 h2
      cases h4
      unfold fdiv at h3
      rcases ite_cases h3 with ⟨_, h3⟩ | ⟨z, h3⟩
      · cases h3
      cases h3
      exact .marginV _ _ f c1 c2 ((C117_float _ _).1 h1) (fun h0 => z (f32_eq_zero.2 h0))
    · cases g
      by_cases h0 : trim v = b!"0"
      · rw [h0]; exact .sameMargin _ _ (by simp)
      · exact .centred _ _ (by by_contra hc; exact c ⟨h0, hc⟩)
  rcases ite_cases h with ⟨e, g⟩ | ⟨n5, h⟩
  · subst e
    rcases ite_cases g with ⟨c1, g⟩ | ⟨c, g⟩
    · obtain ⟨n, h1, h2⟩ := bind_eq_ok.1 g
      cases h2
      exact .marginL _ _ n c1 ((C117_int _ _).1 h1)
    · cases g
      rw [show trim v = b!"0" by by_contra h0; exact c h0]
      exact .sameMargin _ _ (by simp)
  rcases ite_cases h with ⟨e, g⟩ | ⟨n6, h⟩
  · subst e
    rcases ite_cases g with ⟨c1, g⟩ | ⟨c, g⟩
    · obtain ⟨n, h1, h2⟩ := bind_eq_ok.1 g
      cases h2
      exact .marginR _ _ n c1 ((C117_int _ _).1 h1)
    · cases g
      rw [show trim v = b!"0" by by_contra h0; exact c h0]
      exact .sameMargin _ _ (by simp)
  rcases ite_cases h with ⟨e, g⟩ | ⟨n7, h⟩
  · subst e
    obtain ⟨subs, h1, h2⟩ := bind_eq_ok.1 g
    cases h2
    refine .text _ _ subs ?_
    have := (C117_line _ _ ht _ _).1 h1
    cases hs : ev.style with
    | none => rw [hs] at this; exact this
    | some st => rw [hs] at this; exact this
  · cases h
    refine .other _ _ _ ?_
    unfold eventColumns
    simp only [List.mem_cons, List.not_mem_nil, or_false, not_or]
    exact ⟨n1, n2, n3, n4, n5, n6, n7⟩

theorem column_complete (r : SsaRead) (ev ev' : SsaEvent) (k v : Str) (ht : ev.sub.text = []) (h : ColumnDoes r.resX r.resY r.named ev (k, trim v) ev') :
    ssaEventField r ev k v = .ok ev' := by
  unfold ssaEventField
  simp only
  generalize trim v = w at h
  generalize ek : (k, w) = kw at h
  cases h with
  | start _ t h => cases ek; rw [if_pos rfl, (C118_time _ _).2 h]; rfl
  | stop _ t h => cases ek; rw [if_neg (by decide), if_pos rfl, (C118_time _ _).2 h]; rfl
  | noStyle _ h =>
    cases ek
    rw [if_neg (by decide), if_neg (by decide), if_pos rfl]
    cases hs : ssaFindStyle r.styles (trimLeftIf (· == 42) w) with
    | none => rfl
    | some st => exact absurd ((styleFor_iff r.styles w st).1 hs) (h st)
  | style _ st fs vp h h1 h2 =>
    cases ek
    rw [if_neg (by decide), if_neg (by decide), if_pos rfl, (styleFor_iff r.styles w st).2 h]
    exact (applyStyle_iff _ _ _ _).2 ⟨fs, vp, h1, h2, rfl⟩
  | sameMargin k hk =>
    cases ek
    simp only [List.mem_cons, List.not_mem_nil, or_false] at hk
    rcases hk with rfl | rfl | rfl
    · rw [if_neg (by decide), if_neg (by decide), if_neg (by decide), if_pos rfl, if_neg (fun h => h.1 rfl)]
    · rw [if_neg (by decide), if_neg (by decide), if_neg (by decide), if_neg (by decide), if_pos rfl, if_neg (fun h => h rfl)]
    · rw [if_neg (by decide), if_neg (by decide), if_neg (by decide), if_neg (by decide), if_neg (by decide), if_pos rfl, if_neg (fun h => h rfl)]
  | centred _ h => cases ek; rw [if_neg (by decide), if_neg (by decide), if_neg (by decide), if_pos rfl, if_neg (fun h' => h'.2 h)]
  | marginV _ f h1 h2 h3 h4 =>
    cases ek
    rw [if_neg (by decide), if_neg (by decide), if_neg (by decide), if_pos rfl, if_pos ⟨h1, h2⟩, (C117_float _ _).2 h3, ok_bind, fdiv, if_neg (fun h0 => h4 (f32_eq_zero.1 h0))]
    rfl
  | marginL _ n h1 h2 =>
    cases ek
    rw [if_neg (by decide), if_neg (by decide), if_neg (by decide), if_neg (by decide), if_pos rfl, if_pos h1, (C117_int _ _).2 h2]
    rfl
  | marginR _ n h1 h2 =>
    cases ek
    rw [if_neg (by decide), if_neg (by decide), if_neg (by decide), if_neg (by decide), if_neg (by decide), if_pos rfl, if_pos h1, (C117_int _ _).2 h2]
    rfl
  | text _ subs h =>
    cases ek
    rw [if_neg (by decide), if_neg (by decide), if_neg (by decide), if_neg (by decide), if_neg (by decide), if_neg (by decide), if_pos rfl]
    refine bind_eq_ok.2 ⟨subs, (C117_line _ _ ht _ _).2 ?_, rfl⟩
    cases hs : ev.style with
    | none => rw [hs] at h; exact h
    | some st => rw [hs] at h; exact h
  | other k v h =>
    cases ek
    unfold eventColumns at h
    simp only [List.mem_cons, List.not_mem_nil, or_false, not_or] at h
    obtain ⟨n1, n2, n3, n4, n5, n6, n7⟩ := h
    rw [if_neg n1, if_neg n2, if_neg n3, if_neg n4, if_neg n5, if_neg n6, if_neg n7]

theorem column_text {resX resY : Int} {named : Str → SsaStyle → Prop} {ev ev' : SsaEvent} {c : Str × Str} (h : ColumnDoes resX resY named ev c ev') : ev'.sub.text = ev.sub.text := by
  cases h <;> rfl

theorem columns_iff (r : SsaRead) (ev ev' : SsaEvent) (ht : ev.sub.text = []) (l : List (Str × Str)) :
    ssaEventFields r ev l = .ok ev' ↔ ColumnsDo r.resX r.resY r.named ev (l.map (fun c => (c.1, trim c.2))) ev' := by
  induction l generalizing ev with
  | nil =>
    constructor
    · intro h; cases h; exact .done _
    · intro h; cases h; rfl
  | cons c l ih =>
    constructor
    · intro h
      obtain ⟨e1, h1, h2⟩ := bind_eq_ok.1 h
      have hc := column_sound r ev e1 c.1 c.2 ht h1
      exact .column _ e1 _ _ _ hc ((ih e1 (by rw [column_text hc, ht])).1 h2)
    · intro h
      cases h with
      | column _ e1 _ _ _ h1 h2 =>
        exact bind_eq_ok.2 ⟨e1, column_complete r ev e1 c.1 c.2 ht h1, (ih e1 (by rw [column_text h1, ht])).2 h2⟩

/-- C118: the subtitles of a line of dialogue. -/
theorem C118_dialogue (r r' : SsaRead) (format body : Str) (hf : r.eventFormat = (splitAny isComma format).map trim) :
    ssaDialogue r body = .ok r' ↔ ∃ subs, DialogueMeans r.resX r.resY r.named format body subs ∧ r' = { r with subs := r.subs ++ subs } := by
  have hzip : ∀ values : List Str, r.eventFormat.zip values = ((splitAny isComma format).map trim).zip values := by rw [hf]; intro; rfl
  have hcol : ∀ values : List Str, (((splitAny isComma format).map trim).zip values).map (fun c => (c.1, trim c.2)) = columns (splitAny isComma format) values := by
    intro values
    unfold columns
    rw [List.zip_map_right]
    apply List.map_congr_left
    intro c _
    rfl
  have key : ∀ (fs : List Str) (rest : Str), r.eventFormat.length = fs.length + 1 → (∀ f ∈ fs, (44 : Byte) ∉ f) →
      (ssaDialogue r ((fs.map (· ++ [44])).flatten ++ rest) = .ok r' ↔ ∃ ev, ColumnsDo r.resX r.resY r.named {} (columns (splitAny isComma format) (fs ++ [rest])) ev ∧ r' = { r with subs := r.subs ++ ev.subs }) := by
    intro fs rest hn h
    rw [C43_rest r fs rest hn h, hzip, ← hcol]
    constructor
    · intro hm
      cases he : ssaEventFields r {} (((splitAny isComma format).map trim).zip (fs ++ [rest])) with
      | error e => rw [he] at hm; cases hm
      | ok ev =>
        rw [he] at hm
        exact ⟨ev, (columns_iff r {} ev rfl _).1 he, (Except.ok.inj hm).symm⟩
    · rintro ⟨ev, he, rfl⟩
      rw [(columns_iff r {} ev rfl _).2 he]
      rfl
  have hpos : 0 < r.eventFormat.length := by
    rw [hf, List.length_map]
    exact List.length_pos_of_ne_nil (commas_split format).2
  have hlen : (splitAny isComma format).length = r.eventFormat.length := by rw [hf, List.length_map]
  constructor
  · intro h
    by_cases hc : body.count 44 + 1 < r.eventFormat.length
    · rw [C43_short r body hc] at h; cases h
    · obtain ⟨fs, rest, rfl, hl, hfs⟩ := dialogue_fields (r.eventFormat.length - 1) body (by omega)
      obtain ⟨ev, h1, h2⟩ := (key fs rest (by omega) hfs).1 h
      exact ⟨ev.subs, ⟨_, fs ++ [rest], ev, (commaList_iff format _).2 rfl, ⟨fs, rest, rfl, rfl, hfs⟩, by rw [hlen]; simp; omega, h1, rfl⟩, h2⟩
  · rintro ⟨subs, ⟨names, values, ev, h1, ⟨fs, rest, rfl, rfl, hfs⟩, hl, h2, rfl⟩, rfl⟩
    have e := (commaList_iff format names).1 h1
    subst e
    exact (key fs rest (by rw [← hlen, hl]; simp) hfs).2 ⟨ev, h2, rfl⟩

example : ∃ subs, DialogueMeans 288 288 (fun _ _ => False) b!"Start, End, Text" b!"0:00:01.00,0:00:02.00,Hello, {\\i1}world" subs ∧
    subs.map (fun s => (s.text, s.from_.secs, s.italic)) = [(b!"Hello, ", 1, false), (b!"world", 1, true)] := by
  have h := (C118_dialogue { eventFormat := [b!"Start", b!"End", b!"Text"] } ((ssaDialogue { eventFormat := [b!"Start", b!"End", b!"Text"] } b!"0:00:01.00,0:00:02.00,Hello, {\\i1}world").toOption.getD {})
    b!"Start, End, Text" b!"0:00:01.00,0:00:02.00,Hello, {\\i1}world" (by decide +kernel)).1 (by decide +kernel)
  obtain ⟨subs, h1, h2⟩ := h
  have hn : (SsaRead.named { eventFormat := [b!"Start", b!"End", b!"Text"] }) = (fun _ _ => False) := by funext n s; simp [SsaRead.named]
  rw [hn] at h1
  refine ⟨subs, h1, ?_⟩
  have e : subs = ((ssaDialogue { eventFormat := [b!"Start", b!"End", b!"Text"] } b!"0:00:01.00,0:00:02.00,Hello, {\\i1}world").toOption.getD {}).subs := by rw [h2]; simp
  rw [e]
  decide +kernel

end LibSub
