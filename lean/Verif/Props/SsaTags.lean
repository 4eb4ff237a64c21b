/-
Properties C48 and C49: colours and unknown tags in SSA files.
-/
import Verif.Props.Ssa

namespace LibSub

/-! ### C48 colours -/

theorem byteComp_eq (n k : Nat) : byteComp (n : Int) k = component (n / 2 ^ (8 * k) % 256) := by
  have hf : ∀ m : Fin 256, f32 (f64 (((m.val : Int) : ℚ) / 255)) = component m.val := by decide +kernel
  unfold byteComp
  have e : ((n : Int).fdiv (2 ^ (8 * k))).fmod 256 = ((n / 2 ^ (8 * k) % 256 : Nat) : Int) := by
    rw [Int.fdiv_eq_ediv_of_nonneg _ (by positivity), Int.fmod_eq_emod_of_nonneg _ (by norm_num)]
    push_cast
    rfl
  rw [e]
  exact hf ⟨n / 2 ^ (8 * k) % 256, Nat.mod_lt _ (by norm_num)⟩

/-- The number that some hex digits mean. -/
def hexNumber (ds : List Nat) : Nat := ds.foldl (fun n d => 16 * n + d) 0

private theorem hexOf_facts (c : Byte) : ∀ n, hexOf c = some n → isXDigit c = true ∧ digitVal c = n ∧ n < 16 ∧ isSpace c = false ∧ c ≠ 45 ∧ c ≠ 43 ∧ c ≠ 38 ∧ c ≠ 72 ∧ c ≠ 120 ∧ c ≠ 88 := by
  have : ∀ c : Byte, (match hexOf c with | some n => (isXDigit c && decide (digitVal c = n) && decide (n < 16) && !isSpace c && c != 45 && c != 43 && c != 38 && c != 72 && c != 120 && c != 88) | none => true) = true :=
    forall_byte (p := fun c => (match hexOf c with | some n => (isXDigit c && decide (digitVal c = n) && decide (n < 16) && !isSpace c && c != 45 && c != 43 && c != 38 && c != 72 && c != 120 && c != 88) | none => true) = true)
      (by decide +kernel)
  intro n h
  have := this c
  rw [h] at this
  simpa [and_assoc] using this

private theorem hexVal_eq (ds : Str) (ns : List Nat) (h : ds.map hexOf = ns.map some) (a : Nat) :
    ds.foldl (fun n c => 16 * n + digitVal c) a = ns.foldl (fun n d => 16 * n + d) a := by
  induction ds generalizing ns a with
  | nil =>
    cases ns with
    | nil => rfl
    | cons _ _ => cases h
  | cons d ds ih =>
    cases ns with
    | nil => cases h
    | cons n ns =>
      obtain ⟨h1, h2⟩ := List.cons.inj h
      rw [List.foldl_cons, List.foldl_cons, (hexOf_facts d n h1).2.1]
      exact ih ns h2 _

private theorem strtollHex_digits (ds : Str) (ns : List Nat) (h : ds.map hexOf = ns.map some) (rest : Str) (hr : ∀ c, rest.head? = some c → isXDigit c = false ∧ c ≠ 120 ∧ c ≠ 88)
    (hv : hexNumber ns < 2 ^ 63) (hne : ds ≠ []) : strtollHex (ds ++ rest) = hexNumber ns := by
  have hall : ∀ c ∈ ds, ∃ n, hexOf c = some n := by
    intro c hc
    have : hexOf c ∈ ds.map hexOf := List.mem_map_of_mem hc
    rw [h] at this
    obtain ⟨n, _, e⟩ := List.mem_map.1 this
    exact ⟨n, e.symm⟩
  have htw : (ds ++ rest).takeWhile isXDigit = ds := by
    rw [List.takeWhile_append_of_pos (fun c hc => by obtain ⟨n, hn⟩ := hall c hc; exact (hexOf_facts c n hn).1)]
    cases rest with
    | nil => simp
    | cons x r => rw [List.takeWhile_cons_of_neg (by simp [(hr x rfl).1])]; simp
  have hval : hexVal ds = hexNumber ns := hexVal_eq ds ns h 0
  cases ds with
  | nil => exact absurd rfl hne
  | cons d ds =>
    obtain ⟨n, hn⟩ := hall d (by simp)
    obtain ⟨f1, f2, f3, f4, f5, f6, f7, f8, f9, f10⟩ := hexOf_facts d n hn
    unfold strtollHex
    rw [List.cons_append, List.dropWhile_cons_of_neg (by simp [f4])]
    have e1 : takeSign (d :: (ds ++ rest)) = (false, d :: (ds ++ rest)) := by simp [takeSign, f5, f6]
    rw [e1]
    simp only []
    have e2 : stripHexPrefix (d :: (ds ++ rest)) = d :: (ds ++ rest) := by
      unfold stripHexPrefix
      split
      · rename_i x y z heq
        have hx : x ≠ 120 ∧ x ≠ 88 := by
          have hh := (List.cons.inj heq).2
          cases ds with
          | nil =>
            rw [List.nil_append] at hh
            exact (hr x (by rw [hh]; rfl)).2
          | cons d2 ds =>
            have := (List.cons.inj hh).1
            subst this
            obtain ⟨n2, hn2⟩ := hall d2 (by simp)
            have := hexOf_facts d2 n2 hn2
            exact ⟨this.2.2.2.2.2.2.2.2.1, this.2.2.2.2.2.2.2.2.2⟩
        rw [if_neg (by simp [hx.1, hx.2])]
      · rfl
    have htw' : List.takeWhile isXDigit (d :: (ds ++ rest)) = d :: ds := by rw [← List.cons_append]; exact htw
    rw [e2, htw', hval]
    have : ((hexNumber ns : Nat) : Int) < 2 ^ 63 := by exact_mod_cast hv
    simp only [Bool.false_eq_true, if_false]
    rw [if_neg (by omega), if_neg (by omega)]

/-- C48: `&H` and hex digits (of either case; possibly followed by something else) give the red, green and blue components from the lowest, second and third byte of their number. -/
theorem C48_hex (ds : Str) (ns : List Nat) (h : ds.map hexOf = ns.map some) (rest : Str) (hr : ∀ c, rest.head? = some c → isXDigit c = false ∧ c ≠ 120 ∧ c ≠ 88)
    (hv : hexNumber ns < 2 ^ 63) (hne : ds ≠ []) :
    hColour (b!"&H" ++ ds ++ rest) = .ok ⟨component (hexNumber ns % 256), component (hexNumber ns / 256 % 256), component (hexNumber ns / 65536 % 256)⟩ := by
  have e : hColour (b!"&H" ++ ds ++ rest) = .ok ⟨byteComp (strtollHex (ds ++ rest)) 0, byteComp (strtollHex (ds ++ rest)) 1, byteComp (strtollHex (ds ++ rest)) 2⟩ := by
    cases ds with
    | nil => exact absurd rfl hne
    | cons d ds =>
      cases ns with
      | nil => cases h
      | cons n ns =>
        obtain ⟨_, _, _, _, _, _, f7, f8, _⟩ := hexOf_facts d n (List.cons.inj h).1
        have : (b!"&H" ++ (d :: ds) ++ rest).dropWhile (fun c => c == 38 || c == 72) = (d :: ds) ++ rest := by
          show List.dropWhile _ (38 :: 72 :: d :: (ds ++ rest)) = _
          rw [List.dropWhile_cons_of_pos (by rfl), List.dropWhile_cons_of_pos (by rfl), List.dropWhile_cons_of_neg (by simp [f7, f8])]
          rfl
        show (Except.ok _ : R Colour) = _
        rw [← this]
  rw [e, strtollHex_digits ds ns h rest hr hv hne, byteComp_eq, byteComp_eq, byteComp_eq]
  norm_num

example : hColour b!"&H80ff10&" = .ok ⟨component 16, component 255, component 128⟩ :=
  C48_hex b!"80ff10" [8, 0, 15, 15, 1, 0] (by decide) b!"&" (by intro c hc; cases hc; decide) (by decide) (by decide)

/-- C48: `&Hbbggrr`, with or without a byte for the transparency before. -/
theorem C48_bgr (alpha : Str) (as : List Nat) (h : alpha.map hexOf = as.map some) (hl : alpha = [] ∨ alpha.length = 2) (b1 b0 g1 g0 r1 r0 : Byte) (b b' g g' r r' : Nat)
    (hb1 : hexOf b1 = some b) (hb0 : hexOf b0 = some b') (hg1 : hexOf g1 = some g) (hg0 : hexOf g0 = some g') (hr1 : hexOf r1 = some r) (hr0 : hexOf r0 = some r') :
    hColour (b!"&H" ++ alpha ++ [b1, b0, g1, g0, r1, r0]) = .ok ⟨component (16 * r + r'), component (16 * g + g'), component (16 * b + b')⟩ := by
  obtain ⟨_, _, lb1, _⟩ := hexOf_facts _ _ hb1
  obtain ⟨_, _, lb0, _⟩ := hexOf_facts _ _ hb0
  obtain ⟨_, _, lg1, _⟩ := hexOf_facts _ _ hg1
  obtain ⟨_, _, lg0, _⟩ := hexOf_facts _ _ hg0
  obtain ⟨_, _, lr1, _⟩ := hexOf_facts _ _ hr1
  obtain ⟨_, _, lr0, _⟩ := hexOf_facts _ _ hr0
  have hlen : alpha.length = as.length := by simpa using congrArg List.length h
  have hA : hexNumber as < 256 := by
    rcases hl with hl | hl
    · subst hl
      cases as with
      | nil => decide
      | cons _ _ => cases h
    · match alpha, as, hl, h with
      | [x, y], [m, n], _, h =>
        simp only [List.map_cons, List.map_nil, List.cons.injEq, and_true] at h
        have := (hexOf_facts _ _ h.1).2.2.1
        have := (hexOf_facts _ _ h.2).2.2.1
        simp [hexNumber]; omega
  have hnum : hexNumber (as ++ [b, b', g, g', r, r']) = 16777216 * hexNumber as + 65536 * (16 * b + b') + 256 * (16 * g + g') + (16 * r + r') := by
    simp [hexNumber, List.foldl_append]; omega
  have := C48_hex (alpha ++ [b1, b0, g1, g0, r1, r0]) (as ++ [b, b', g, g', r, r']) (by simp [h, hb1, hb0, hg1, hg0, hr1, hr0]) [] (by simp) (by rw [hnum]; omega) (by simp)
  rw [List.append_nil, ← List.append_assoc] at this
  rw [this, hnum]
  congr 2
  · congr 1; omega
  · congr 1; omega
  · congr 1; omega

example : hexOf 102 = some 15 ∧ hexOf 70 = some 15 ∧ hexOf 48 = some 0 ∧ b!"&H00FF8000" = b!"&H" ++ b!"00" ++ [70, 70, 56, 48, 48, 48] := by decide

/-- C48: decimal colours of styles. -/
theorem C48_decimal (pad n : Nat) (h : n < 2 ^ 31) :
    SsaStyle.colour (List.replicate pad 48 ++ decSpec n) = .ok ⟨component (n % 256), component (n / 256 % 256), component (n / 65536 % 256)⟩ := by
  have hd : ∀ c ∈ List.replicate pad (48 : Byte) ++ decSpec n, c ≠ 38 := by
    intro c hc
    rw [← natDec_eq_decSpec, List.mem_append] at hc
    have hd : isDigit c = true := by
      rcases hc with hc | hc
      · rw [List.eq_of_mem_replicate hc]; decide
      · exact natDec_digits n c hc
    rintro rfl
    revert hd; decide
  unfold SsaStyle.colour
  split
  · rename_i heq
    exact absurd rfl (hd 38 (by rw [heq]; simp))
  · rw [rawConvertInt_padded _ _ h, ok_bind, byteComp_eq, byteComp_eq, byteComp_eq]
    norm_num

example : decSpec 65535 = b!"65535" ∧ 65535 % 256 = 255 ∧ 65535 / 256 % 256 = 255 ∧ 65535 / 65536 % 256 = 0 := by decide

/-- C48: a colour in a style or tag is within [0, 1], whatever the text. -/
theorem C48_range (s : Str) (c : Colour) (h : hColour s = .ok c ∨ SsaStyle.colour s = .ok c) : ∀ x ∈ [c.r, c.g, c.b], 0 ≤ x ∧ x ≤ 1 := by
  have hf : ∀ m : Fin 256, 0 ≤ f32 (f64 (((m.val : Int) : ℚ) / 255)) ∧ f32 (f64 (((m.val : Int) : ℚ) / 255)) ≤ 1 := by decide +kernel
  have hb : ∀ (v : Int) (k : Nat), 0 ≤ byteComp v k ∧ byteComp v k ≤ 1 := by
    intro v k
    unfold byteComp
    have h1 := Int.fmod_nonneg_of_pos (v.fdiv (2 ^ (8 * k))) (show (0 : Int) < 256 by norm_num)
    have h2 := Int.fmod_lt_of_pos (v.fdiv (2 ^ (8 * k))) (show (0 : Int) < 256 by norm_num)
    obtain ⟨m, hm⟩ := Int.eq_ofNat_of_zero_le h1
    rw [hm] at h2 ⊢
    exact hf ⟨m, by omega⟩
  have hh : ∀ s c, hColour s = .ok c → ∀ x ∈ [c.r, c.g, c.b], 0 ≤ x ∧ x ≤ 1 := by
    intro s c h
    unfold hColour at h
    split at h
    · cases h
      intro x hx
      simp only [List.mem_cons, List.not_mem_nil, or_false] at hx
      rcases hx with rfl | rfl | rfl <;> exact hb _ _
    · cases h
  rcases h with h | h
  · exact hh s c h
  · unfold SsaStyle.colour at h
    split at h
    · exact hh _ c h
    · rw [bind_eq_ok] at h
      obtain ⟨i, _, h⟩ := h
      cases h
      intro x hx
      simp only [List.mem_cons, List.not_mem_nil, or_false] at hx
      rcases hx with rfl | rfl | rfl <;> exact hb _ _

/-- C48: a `\\c` tag with a colour and one more character (by convention `&`) sets the colour, and nothing else. -/
theorem C48_tag (ctx : SsaContext) (sub : Raw) (s : Str) (x : Byte) : ssaParseTag ctx sub (b!"\\c" ++ s ++ [x]) = (hColour s).map (fun c => { sub with colour := c }) := by
  have hn : ∀ t : Str, (∀ u, t ≠ 92 :: 99 :: u) → b!"\\c" ++ s ++ [x] ≠ t := fun t ht e => ht (s ++ [x]) e.symm
  have hp : ∀ p : Str, startsWith (b!"\\c" ++ s ++ [x]) (92 :: p) = startsWith (b!"c" ++ s ++ [x]) p := by
    intro p; simp [startsWith]
  unfold ssaParseTag
  rw [if_neg (hn _ (by simp)), if_neg (by rintro (h | h) <;> exact hn _ (by simp) h), if_neg (hn _ (by simp)), if_neg (hn _ (by simp)), if_neg (hn _ (by simp)), if_neg (hn _ (by simp)), if_neg (hn _ (by simp)),
    if_neg (hn _ (by simp)), if_neg (hn _ (by simp)), if_neg (hn _ (by simp)), if_neg (hn _ (by simp)), if_neg (hn _ (by simp)), if_neg (hn _ (by simp)), if_neg (hn _ (by simp)), if_neg (hn _ (by simp)),
    if_neg (by rw [hp]; simp [startsWith, List.isPrefixOf]), if_neg (by rw [hp]; simp [startsWith, List.isPrefixOf]), if_pos (by rw [hp]; simp [startsWith, List.isPrefixOf]), if_pos (by simp)]
  have : ((b!"\\c" ++ s ++ [x]).drop 2).take ((b!"\\c" ++ s ++ [x]).length - 3) = s := by
    show (s ++ [x]).take _ = s
    have : (b!"\\c" ++ s ++ [x]).length - 3 = s.length := by simp
    rw [this, List.take_left]
  rw [this]
  cases hColour s <;> rfl

/-- C48: such a tag is an `SSAError` unless the colour starts with `&H`; `\\c` on its own goes back to the colour of the style. -/
theorem C48_bad (ctx : SsaContext) (sub : Raw) (s : Str) (x : Byte) (h : ¬ b!"&H" <+: s) : ∃ m, ssaParseTag ctx sub (b!"\\c" ++ s ++ [x]) = .error (.ssa m) := by
  rw [C48_tag]
  refine ⟨b!"Badly formatted colour tag " ++ s, ?_⟩
  unfold hColour
  split
  · exact absurd (by simp) h
  · rfl

example (ctx : SsaContext) (sub : Raw) : ∃ m, ssaParseTag ctx sub b!"\\c123&" = .error (.ssa m) := C48_bad ctx sub b!"123" 38 (by decide)

@[inherit_doc C48_bad]
theorem C48_reset (ctx : SsaContext) (sub : Raw) : ssaParseTag ctx sub b!"\\c" = .ok { sub with colour := ctx.primaryColour } := rfl

example : ¬ b!"&H" <+: b!"#ff0000" := by decide

/-! ### C49 unknown tags -/

/-- The tags that are implemented and have no argument. -/
def plainTags : List Str := [b!"\\i1", b!"\\i0", b!"\\i", b!"\\b1", b!"\\b0", b!"\\u1", b!"\\u0", b!"\\an1", b!"\\an2", b!"\\an3", b!"\\an4", b!"\\an5", b!"\\an6", b!"\\an7", b!"\\an8", b!"\\an9"]

/-- What C49 claims: tags other than `\\posX`, `\\fsN`, `\\c...` and the ones without argument are ignored, where `\\fs` is followed by a digit and `\\c` by `&` or nothing, and `\\pos` by `(`. -/
def C49_statement : Prop :=
  ∀ (ctx : SsaContext) (sub : Raw) (tag : Str), tag ∉ plainTags → ¬ b!"\\pos(" <+: tag → (∀ c, isDigit c = true → ¬ (b!"\\fs" ++ [c]) <+: tag) → ¬ b!"\\c&" <+: tag → tag ≠ b!"\\c" →
    ssaParseTag ctx sub tag = .ok sub

/-- C49 is false: `\\clip(...)` is an error ... -/
theorem C49_false : ¬ C49_statement := by
  intro h
  have := h ⟨288, 288, ⟨1, 1, 1⟩, 0, 0⟩ {} b!"\\clip(1,2,3,4)" (by decide) (by decide) (fun c hc => by simp [List.prefix_cons_iff]) (by decide) (by decide)
  revert this
  decide +kernel

/-- ... and `\\fscx120` sets the font size to nothing. -/
theorem C49_fscx : ssaParseTag ⟨288, 288, ⟨1, 1, 1⟩, 0, 0⟩ { fontSize := ⟨some (1 / 4), none⟩ } b!"\\fscx120" = .ok { fontSize := ⟨some 0, none⟩ } := by decide +kernel

/-- C49, for tags that do not begin with the name of an implemented tag that takes an argument. -/
theorem C49_ignored_partial (ctx : SsaContext) (sub : Raw) (tag : Str) (h : tag ∉ plainTags) (h1 : ¬ b!"\\pos" <+: tag) (h2 : ¬ b!"\\fs" <+: tag) (h3 : ¬ b!"\\c" <+: tag) :
    ssaParseTag ctx sub tag = .ok sub := by
  have hs : ∀ p : Str, ¬ p <+: tag → ¬ startsWith tag p = true := fun p hp => by rw [startsWith_iff]; exact hp
  simp only [plainTags, List.mem_cons, List.not_mem_nil, or_false, not_or] at h
  obtain ⟨a1, a2, a3, a4, a5, a6, a7, a8, a9, a10, a11, a12, a13, a14, a15, a16⟩ := h
  unfold ssaParseTag
  rw [if_neg a1, if_neg (by rintro (h | h) <;> contradiction), if_neg a4, if_neg a5, if_neg a6, if_neg a7, if_neg a8, if_neg a9, if_neg a10, if_neg a11, if_neg a12, if_neg a13, if_neg a14, if_neg a15, if_neg a16,
    if_neg (hs _ h1), if_neg (hs _ h2), if_neg (hs _ h3)]

example : ∃ tag, tag = b!"\\k20" ∧ tag ∉ plainTags ∧ ¬ b!"\\pos" <+: tag ∧ ¬ b!"\\fs" <+: tag ∧ ¬ b!"\\c" <+: tag := ⟨_, rfl, by decide, by decide, by decide, by decide⟩

end LibSub
