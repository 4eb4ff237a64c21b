/-
Properties C55 (layout of written files) and C56 (metadata round trip) of binary STL
(src/stl_binary_writer.cc, src/stl_binary_reader.cc).
-/
import Verif.Lemmas.StlWriter
import Verif.Model.StlReader
import Verif.Props.StlTables
import Verif.Props.Print
import Verif.Props.Locale

namespace LibSub

/-! ### Specification -/

/-- Zeros on the left up to length `n`. -/
def zeroPad (n : Nat) (s : Str) : Str := List.replicate (n - s.length) 48 ++ s

/-- Spaces on the right up to length `n`. -/
def spacePad (n : Nat) (s : Str) : Str := s ++ List.replicate (n - s.length) 32

/-- A decimal number in a field of `n` bytes: if it is too long, its first `n` bytes. -/
def numberField (n : Nat) (v : Int) : Str :=
  (if v < 0 then 45 :: zeroPad (n - 1) (decSpec v.natAbs) else zeroPad n (decSpec v.natAbs)).take n

/-- The fields of the General Subtitle Information block, in order: offset, length, contents (EBU Tech 3264). -/
def gsiSpec (a : StlArgs) (tti : Nat) : List (Nat × Nat × Str) := [
  (0, 3, b!"850"),
  (3, 8, stlFrameRateToDfc a.fps),
  (11, 1, b!"0"),
  (12, 2, b!"00"),
  (14, 2, hex2 (languageNumber a.language)),
  (16, 32, spacePad 32 a.originalProgrammeTitle),
  (48, 32, spacePad 32 a.originalEpisodeTitle),
  (80, 32, spacePad 32 a.translatedProgrammeTitle),
  (112, 32, spacePad 32 a.translatedEpisodeTitle),
  (144, 32, spacePad 32 a.translatorName),
  (176, 32, spacePad 32 a.translatorContactDetails),
  (208, 16, b!"0000000000000000"),
  (224, 6, a.creationDate),
  (230, 6, a.revisionDate),
  (236, 2, numberField 2 a.revisionNumber),
  (238, 5, numberField 5 tti),
  (243, 5, numberField 5 a.subtitles.length),
  (248, 3, b!"001"),
  (251, 2, numberField 2 (stlLongest a.subtitles)),
  (253, 2, b!"23"),
  (255, 1, b!"1"),
  (256, 8, b!"00000000"),
  (264, 8, b!"00000000"),
  (272, 1, b!"1"),
  (273, 1, b!"1"),
  (274, 3, a.countryOfOrigin),
  (277, 32, spacePad 32 a.publisher),
  (309, 32, spacePad 32 a.editorName),
  (341, 32, spacePad 32 a.editorContactDetails)]

/-- What the writer requires of its arguments. -/
structure StlArgs.Valid (a : StlArgs) : Prop where
  opt : a.originalProgrammeTitle.length ≤ 32
  oet : a.originalEpisodeTitle.length ≤ 32
  tpt : a.translatedProgrammeTitle.length ≤ 32
  tet : a.translatedEpisodeTitle.length ≤ 32
  tn : a.translatorName.length ≤ 32
  tcd : a.translatorContactDetails.length ≤ 32
  cd : a.creationDate.length = 6
  rd : a.revisionDate.length = 6
  rn : a.revisionNumber ≤ 99
  co : a.countryOfOrigin.length = 3
  pub : a.publisher.length ≤ 32
  en : a.editorName.length ≤ 32
  ecd : a.editorContactDetails.length ≤ 32

/-! ### Proofs -/

theorem subAssert_ok_iff (b : Bool) : subAssert b = .ok () ↔ b = true := by
  unfold subAssert; split <;> simp_all

theorem subAssert_bind {α : Type} (b : Bool) (f : Unit → R α) : (subAssert b >>= f) = if b then f () else .error .programming := by
  unfold subAssert; split <;> rfl

theorem check_eq (a : StlArgs) : (a.Valid → a.check = .ok ()) ∧ (¬ a.Valid → a.check = .error .programming) := by
  unfold StlArgs.check
  simp only [subAssert_bind, decide_eq_true_eq]
  constructor
  · rintro ⟨⟩
    simp_all [subAssert]
  · intro h
    by_cases h1 : a.originalProgrammeTitle.length ≤ 32
    swap
    · rw [if_neg h1]
    rw [if_pos h1]
    by_cases h2 : a.originalEpisodeTitle.length ≤ 32
    swap
    · rw [if_neg h2]
    rw [if_pos h2]
    by_cases h3 : a.translatedProgrammeTitle.length ≤ 32
    swap
    · rw [if_neg h3]
    rw [if_pos h3]
    by_cases h4 : a.translatedEpisodeTitle.length ≤ 32
    swap
    · rw [if_neg h4]
    rw [if_pos h4]
    by_cases h5 : a.translatorName.length ≤ 32
    swap
    · rw [if_neg h5]
    rw [if_pos h5]
    by_cases h6 : a.translatorContactDetails.length ≤ 32
    swap
    · rw [if_neg h6]
    rw [if_pos h6]
    by_cases h7 : a.creationDate.length = 6
    swap
    · rw [if_neg h7]
    rw [if_pos h7]
    by_cases h8 : a.revisionDate.length = 6
    swap
    · rw [if_neg h8]
    rw [if_pos h8]
    by_cases h9 : a.revisionNumber ≤ 99
    swap
    · rw [if_neg h9]
    rw [if_pos h9]
    by_cases h10 : a.countryOfOrigin.length = 3
    swap
    · rw [if_neg h10]
    rw [if_pos h10]
    by_cases h11 : a.publisher.length ≤ 32
    swap
    · rw [if_neg h11]
    rw [if_pos h11]
    by_cases h12 : a.editorName.length ≤ 32
    swap
    · rw [if_neg h12]
    rw [if_pos h12]
    unfold subAssert
    rw [if_neg]
    intro h13
    exact h ⟨h1, h2, h3, h4, h5, h6, h7, h8, h9, h10, h11, h12, by simpa using h13⟩

theorem check_valid (a : StlArgs) (h : a.Valid) : a.check = .ok () := (check_eq a).1 h

private theorem numberField_eq (n : Nat) (v : Int) : (printfPad n v).take n = numberField n v := by
  unfold numberField printfPad zeroPad
  simp only [natDec_eq_decSpec]

private theorem makeRaw_printf (l : Locale) (hl : SaneLocale l) (ht : l.thousandsSep.head? ≠ some 45) (n : Nat) (v : Int) :
    makeRaw l (printfPad n v) = printfPad n v := by
  obtain ⟨d, ds, hp, hsp, hdg, h43, h45, hlt⟩ := hl.point
  have h1 : ∀ s : Str, (∀ c ∈ s, isDigit c = true ∨ c = 45) → replaceAll s l.thousandsSep [] = s := by
    intro s hs
    apply replaceAll_absent
    intro c hc hm
    rcases hs _ hm with h | h
    · rw [hl.thousands c hc] at h; cases h
    · exact ht (h ▸ hc)
  have h2 : ∀ s : Str, (∀ c ∈ s, isDigit c = true ∨ c = 45) → replaceAll s l.decimalPoint b!"." = s := by
    intro s hs
    apply replaceAll_absent
    intro c hc hm
    rw [hp] at hc
    cases hc
    rcases hs _ hm with h | h
    · rw [hdg] at h; cases h
    · exact h45 h
  unfold makeRaw
  rw [h1 _ (printfPad_chars n v), h2 _ (printfPad_chars n v)]

private theorem dfc_length (r : ℚ) : (stlFrameRateToDfc r).length = 8 := by
  unfold stlFrameRateToDfc
  repeat' (split <;> [rfl; skip])
  rfl

private theorem spacePad_length (n : Nat) (s : Str) (h : s.length ≤ n) : (spacePad n s).length = n := by
  simp [spacePad]; omega

theorem numberField_length (n : Nat) (v : Int) : (numberField n v).length = n := by
  rw [← numberField_eq, List.length_take]
  have := printfPad_length n v
  omega

/-- Consecutive fields from offset `off`, each with contents of its length. -/
def Tiled : Nat → List (Nat × Nat × Str) → Prop
  | _, [] => True
  | off, f :: fs => f.1 = off ∧ f.2.2.length = f.2.1 ∧ Tiled (off + f.2.1) fs

private theorem tiled_gsi (a : StlArgs) (tti : Nat) (h : a.Valid) : Tiled 0 (gsiSpec a tti) := by
  obtain ⟨⟩ := h
  unfold gsiSpec
  refine ⟨rfl, rfl, rfl, dfc_length _, rfl, rfl, rfl, rfl, rfl, rfl, ?_⟩
  simp only [Tiled, spacePad_length, numberField_length, and_true, *]
  decide

private theorem tiled_get : ∀ (fs : List (Nat × Nat × Str)) (off : Nat) (P Q : Str), Tiled off fs → P.length = off →
    ∀ f ∈ fs, ((P ++ ((fs.map (·.2.2)).flatten ++ Q)).drop f.1).take f.2.1 = f.2.2 := by
  intro fs
  induction fs with
  | nil => intro _ _ _ _ _ f hf; cases hf
  | cons g fs ih =>
    intro off P Q ht hP f hf
    obtain ⟨h1, h2, h3⟩ := ht
    rw [List.mem_cons] at hf
    rcases hf with rfl | hf
    · rw [h1, ← hP, List.drop_left, ← h2]
      simp
    · have := ih (off + g.2.1) (P ++ g.2.2) Q h3 (by simp [hP, h2]) f hf
      simpa using this

/-- What is written, in order: length of the field, string put at its beginning. -/
private def gsiRaw (a : StlArgs) (tti : Nat) : List (Nat × Str) := [(3, b!"850"), (8, stlFrameRateToDfc a.fps), (1, b!"0"), (2, b!"00"),
    (2, hex2 (languageNumber a.language)),
    (32, spacePad 32 a.originalProgrammeTitle), (32, spacePad 32 a.originalEpisodeTitle), (32, spacePad 32 a.translatedProgrammeTitle),
    (32, spacePad 32 a.translatedEpisodeTitle), (32, spacePad 32 a.translatorName), (32, spacePad 32 a.translatorContactDetails),
    (16, b!"0000000000000000"), (6, a.creationDate), (6, a.revisionDate), (2, printfPad 2 a.revisionNumber), (5, printfPad 5 tti),
    (5, printfPad 5 a.subtitles.length), (3, b!"001"), (2, printfPad 2 (stlLongest a.subtitles)), (2, printfPad 2 stlRows), (1, b!"1"),
    (8, b!"00000000"), (8, b!"00000000"), (1, b!"1"), (1, b!"1"), (3, a.countryOfOrigin), (32, spacePad 32 a.publisher),
    (32, spacePad 32 a.editorName), (32, spacePad 32 a.editorContactDetails)]

private theorem bind_ok_self {α : Type} (x : R α) : (x >>= fun b => Except.ok b) = x := by cases x <;> rfl

/-- `ok_bind`, not by `rfl`: otherwise `simp` compares the long programs below by unfolding. -/
private theorem ok_bind' {α β : Type} (a : α) (f : α → R β) : ((Except.ok a : R α) >>= f) = f a := Eq.trans (ok_bind a f) (Eq.refl _)

private theorem gsi_putAll (l : Locale) (hl : SaneLocale l) (ht : l.thousandsSep.head? ≠ some 45) (a : StlArgs) (tti : Nat) (h : a.Valid) :
    stlGsi l a tti = putAll (layout 0 (gsiRaw a tti)) (List.replicate 1024 0) := by
  obtain ⟨h1, h2, h3, h4, h5, h6, h7, h8, h9, h10, h11, h12, h13⟩ := h
  have hpad : ∀ (off : Nat) (s b : Str), s.length ≤ 32 → putStringPad off 32 s b = putString off (spacePad 32 s) b := by
    intro off s b hs
    unfold putStringPad subAssert spacePad
    rw [if_pos (by simpa using hs)]; rfl
  have hpad3 : ∀ (off : Nat) (s b : Str), s.length = 3 → putStringPad off 3 s b = putString off s b := by
    intro off s b hs
    unfold putStringPad subAssert
    rw [if_pos (by simp [hs]), ok_bind, hs]; simp
  have hint : ∀ (off : Nat) (v : Int) (n : Nat) (b : Str), n = 2 ∨ n = 5 → putIntAsString l off v n b = putString off (printfPad n v) b := by
    intro off v n b hn
    unfold putIntAsString subAssert
    rw [if_pos (by rcases hn with rfl | rfl <;> rfl), ok_bind, makeRaw_printf l hl ht]
  unfold stlGsi
  generalize List.replicate 1024 (0 : Byte) = b0
  simp only [hpad _ _ _ h1, hpad _ _ _ h2, hpad _ _ _ h3, hpad _ _ _ h4, hpad _ _ _ h5, hpad _ _ _ h6, hpad _ _ _ h11, hpad _ _ _ h12,
      hpad _ _ _ h13, hpad3 _ _ _ h10, hint _ _ 2 _ (.inl rfl), hint _ _ 5 _ (.inr rfl), C68_language_code, ok_bind', gsiRaw, layout, putAll,
      Nat.zero_add, Nat.reduceAdd, bind_ok_self]

private theorem gsiRaw_bounds (a : StlArgs) (tti : Nat) (h : a.Valid)
    (hrn : InInt a.revisionNumber) (htti : InInt tti) (hsub : InInt a.subtitles.length) (hlong : InInt (stlLongest a.subtitles)) :
    (∀ x ∈ layout 0 (gsiRaw a tti), x.1 + x.2.length ≤ 373) ∧ ∀ x ∈ gsiRaw a tti, x.1 ≤ x.2.length := by
  obtain ⟨h1, h2, h3, h4, h5, h6, h7, h8, h9, h10, h11, h12, h13⟩ := h
  have l1 := printfPad_length 2 a.revisionNumber
  have l2 := printfPad_length 5 tti
  have l3 := printfPad_length 5 a.subtitles.length
  have l4 := printfPad_length 2 (stlLongest a.subtitles)
  have u1 := printfPad_length_le 2 a.revisionNumber (by decide) hrn
  have u2 := printfPad_length_le 5 tti (by decide) htti
  have u3 := printfPad_length_le 5 a.subtitles.length (by decide) hsub
  have u4 := printfPad_length_le 2 (stlLongest a.subtitles) (by decide) hlong
  have l5 : (printfPad 2 stlRows).length = 2 := by decide
  have d1 := dfc_length a.fps
  have d2 : (hex2 (languageNumber a.language)).length = 2 := rfl
  constructor
  · simp only [gsiRaw, layout, List.mem_cons, List.not_mem_nil, or_false, forall_eq_or_imp, forall_eq, spacePad_length, d1, d2,
      h1, h2, h3, h4, h5, h6, h7, h8, h10, h11, h12, h13, l5, List.length_cons, List.length_nil]
    omega
  · simp only [gsiRaw, List.mem_cons, List.not_mem_nil, or_false, forall_eq_or_imp, forall_eq, spacePad_length, d1, d2,
      h1, h2, h3, h4, h5, h6, h7, h8, h10, h11, h12, h13, l5, List.length_cons, List.length_nil]
    omega

private theorem gsi_eq (l : Locale) (hl : SaneLocale l) (ht : l.thousandsSep.head? ≠ some 45) (a : StlArgs) (tti : Nat) (h : a.Valid)
    (hrn : InInt a.revisionNumber) (htti : InInt tti) (hsub : InInt a.subtitles.length) (hlong : InInt (stlLongest a.subtitles)) :
    stlGsi l a tti = .ok (((gsiSpec a tti).map (·.2.2)).flatten ++ List.replicate 651 0) := by
  rw [gsi_putAll l hl ht a tti h]
  obtain ⟨b1, b2⟩ := gsiRaw_bounds a tti h hrn htti hsub hlong
  have hs : ([] : Str).length + ((gsiRaw a tti).map (·.1)).sum = 373 := by simp [gsiRaw]
  have := putAll_layout 373 (gsiRaw a tti) [] (List.replicate 1024 0) List.take_zero hs (by rw [List.length_replicate]; decide) b1 b2
  have hl : ([] : Str).length = 0 := List.length_nil
  rw [hl] at this
  rw [this, List.drop_replicate, show 1024 - 373 = 651 from rfl]
  clear this hs hl
  obtain ⟨h1, h2, h3, h4, h5, h6, h7, h8, h9, h10, h11, h12, h13⟩ := h
  have hsp : ∀ s : Str, s.length ≤ 32 → (spacePad 32 s).take 32 = spacePad 32 s := by
    intro s hs
    rw [List.take_of_length_le]
    rw [spacePad_length _ _ hs]
  congr 2
  simp only [gsiRaw, gsiSpec, List.map_cons, List.map_nil, numberField_eq, hsp, h1, h2, h3, h4, h5, h6, h11, h12, h13, List.nil_append]
  congr 1
  have d : (stlFrameRateToDfc a.fps).take 8 = stlFrameRateToDfc a.fps := by rw [List.take_of_length_le]; rw [dfc_length]
  have d2 : a.creationDate.take 6 = a.creationDate := by rw [List.take_of_length_le]; omega
  have d3 : a.revisionDate.take 6 = a.revisionDate := by rw [List.take_of_length_le]; omega
  have d4 : a.countryOfOrigin.take 3 = a.countryOfOrigin := by rw [List.take_of_length_le]; omega
  have d5 : numberField 2 stlRows = b!"23" := by rw [← numberField_eq]; decide
  have d6 : (hex2 (languageNumber a.language)).take 2 = hex2 (languageNumber a.language) := rfl
  rw [d, d2, d3, d4, d5, d6]
  simp only [List.take_succ_cons, List.take_nil, List.take_zero]

theorem writerChunks_length : ∀ (fuel number : Nat) (text : Str), ∀ c ∈ writerChunks fuel number text, c.2.length = 112 := by
  intro fuel
  induction fuel with
  | zero => intro _ _ c hc; cases hc
  | succ fuel ih =>
    intro number text c hc
    rw [writerChunks] at hc
    split at hc
    · cases hc
    · rw [List.mem_cons] at hc
      rcases hc with rfl | hc
      · simp
      · exact ih _ _ _ hc

private theorem ttiBlocks_length (fps : ℚ) (s : Subtitle) (bs : List Str) (h : ttiBlocks fps s = .ok bs) : ∀ x ∈ bs, x.length = 128 := by
  unfold ttiBlocks at h
  simp only [bind_eq_ok] at h
  obtain ⟨_, _, _, _, _, _, _, _, _, _, _, _, _, _, h⟩ := h
  split at h
  · cases h
  · simp only [bind_eq_ok] at h
    obtain ⟨_, _, _, _, h⟩ := h
    cases h
    intro x hx
    rw [List.mem_map] at hx
    obtain ⟨c, hc, rfl⟩ := hx
    rw [List.length_append, writerChunks_length _ _ _ _ hc]
    rfl

theorem makeTtiBlocks_length (fps : ℚ) (ss : List Subtitle) (bs : List Str) (h : makeTtiBlocks fps ss = .ok bs) : ∀ x ∈ bs, x.length = 128 := by
  induction ss generalizing bs with
  | nil => cases h; intro x hx; cases hx
  | cons s ss ih =>
    rw [makeTtiBlocks] at h
    simp only [bind_eq_ok] at h
    obtain ⟨a, ha, b, hb, h⟩ := h
    cases h
    intro x hx
    rw [List.mem_append] at hx
    rcases hx with hx | hx
    · exact ttiBlocks_length _ _ _ ha _ hx
    · exact ih _ hb _ hx

/-! ### C55 -/

/-- The counts that go through an `int` fit one. -/
structure StlArgs.Counts (a : StlArgs) (blocks : List Str) : Prop where
  rn : InInt a.revisionNumber
  tti : InInt blocks.length
  subs : InInt a.subtitles.length
  long : InInt (stlLongest a.subtitles)

/-- C55: whatever the locale, a written file is the header fields one after another, zeros up to 1024 bytes, and
then the text blocks, of 128 bytes each. -/
theorem C55_layout (l : Locale) (hl : SaneLocale l) (ht : l.thousandsSep.head? ≠ some 45) (a : StlArgs) (blocks : List Str)
    (hv : a.Valid) (hb : makeTtiBlocks a.fps a.subtitles = .ok blocks) (hc : a.Counts blocks) :
    writeStlIn l a = .ok (((gsiSpec a blocks.length).map (·.2.2)).flatten ++ List.replicate 651 0 ++ blocks.flatten) ∧
    Tiled 0 (gsiSpec a blocks.length) ∧ ((gsiSpec a blocks.length).map (·.2.1)).sum = 373 ∧ ∀ b ∈ blocks, b.length = 128 := by
  refine ⟨?_, tiled_gsi _ _ hv, by simp [gsiSpec], makeTtiBlocks_length _ _ _ hb⟩
  unfold writeStlIn
  rw [(check_eq a).1 hv, ok_bind, hb, ok_bind, gsi_eq l hl ht a _ hv hc.rn hc.tti hc.subs hc.long]
  rfl

private theorem flatten_length (bs : List Str) (h : ∀ b ∈ bs, b.length = 128) : bs.flatten.length = 128 * bs.length := by
  induction bs with
  | nil => rfl
  | cons b bs ih =>
    rw [List.flatten_cons, List.length_append, ih (fun b hb => h b (by simp [hb])), h b (by simp), List.length_cons]
    omega

private theorem tiled_length : ∀ (fs : List (Nat × Nat × Str)) (off : Nat), Tiled off fs → (fs.map (·.2.2)).flatten.length = (fs.map (·.2.1)).sum := by
  intro fs
  induction fs with
  | nil => intros; rfl
  | cons f fs ih =>
    intro off h
    simp only [List.map_cons, List.flatten_cons, List.length_append, List.sum_cons, h.2.1, ih _ h.2.2]

/-- C55: the size of the file, and the bytes of each header field. -/
theorem C55_fields (l : Locale) (hl : SaneLocale l) (ht : l.thousandsSep.head? ≠ some 45) (a : StlArgs) (blocks : List Str) (out : Str)
    (hb : makeTtiBlocks a.fps a.subtitles = .ok blocks) (hc : a.Counts blocks) (ho : writeStlIn l a = .ok out) :
    out.length = 1024 + 128 * blocks.length ∧ (∀ f ∈ gsiSpec a blocks.length, (out.drop f.1).take f.2.1 = f.2.2) ∧
    (out.drop 373).take 651 = List.replicate 651 0 ∧ out.drop 1024 = blocks.flatten := by
  have hv : a.Valid := by
    by_contra hv
    unfold writeStlIn at ho
    rw [(check_eq a).2 hv] at ho
    cases ho
  obtain ⟨e, t, s, b⟩ := C55_layout l hl ht a blocks hv hb hc
  rw [e] at ho
  cases ho
  have hlen := (tiled_length _ _ t).trans s
  refine ⟨?_, ?_, ?_, ?_⟩
  · simp only [List.length_append, hlen, List.length_replicate, flatten_length _ b]
  · intro f hf
    have := tiled_get _ 0 [] (List.replicate 651 0 ++ blocks.flatten) t rfl f hf
    rw [List.nil_append, ← List.append_assoc] at this
    exact this
  · rw [List.append_assoc, List.drop_left' hlen]
    rw [List.take_left' List.length_replicate]
  · rw [List.drop_left']
    simp only [List.length_append, hlen, List.length_replicate]

/-- C55: arguments which do not fit are refused, and nothing else about them is. -/
theorem C55_refuses (l : Locale) (a : StlArgs) (h : ¬ a.Valid) : writeStlIn l a = .error .programming := by
  unfold writeStlIn
  rw [(check_eq a).2 h]
  rfl

/-- A file: two subtitles, one on two rows. -/
def stlDemo : StlArgs where
  subtitles := [
    { from_ := ⟨3, 12, some ⟨25, 1⟩⟩, to_ := ⟨5, 0, some ⟨25, 1⟩⟩,
      lines := [{ vpos := { prop := some (f32 (9 / 10)), ref := some .topOfScreen }, blocks := [{ text := b!"Hello " }, { text := b!"world", italic := true }] },
        { vpos := { prop := some (f32 (95 / 100)), ref := some .topOfScreen }, blocks := [{ text := b!"Bye" }] }] },
    { from_ := ⟨7, 3, some ⟨25, 1⟩⟩, to_ := ⟨3605, 24, some ⟨25, 1⟩⟩,
      lines := [{ vpos := { prop := some (f32 (1 / 10)), ref := some .bottomOfScreen }, blocks := [{ text := b!"caf\xc3\xa9", underline := true }] }] }]
  fps := 25
  language := .dutch
  originalProgrammeTitle := b!"Programme"
  originalEpisodeTitle := b!"Episode"
  translatedProgrammeTitle := b!"Programma"
  translatedEpisodeTitle := b!"Aflevering"
  translatorName := b!"Jan"
  translatorContactDetails := b!"jan@example.com"
  creationDate := b!"140904"
  revisionDate := b!"140905"
  revisionNumber := 7
  countryOfOrigin := b!"NLD"
  publisher := b!"Uitgever"
  editorName := b!"Piet"
  editorContactDetails := b!"piet@example.com"

theorem stlDemo_valid : stlDemo.Valid := by constructor <;> decide

theorem stlDemo_blocks : (makeTtiBlocks stlDemo.fps stlDemo.subtitles).toOption.map (·.length) = some 2 := by decide +kernel

example : ∃ blocks, makeTtiBlocks stlDemo.fps stlDemo.subtitles = .ok blocks ∧ stlDemo.Counts blocks ∧ SaneLocale ⟨b!",", b!"."⟩ := by
  have := stlDemo_blocks
  cases h : makeTtiBlocks stlDemo.fps stlDemo.subtitles with
  | error e => rw [h] at this; cases this
  | ok bs =>
    rw [h] at this
    have hl : bs.length = 2 := Option.some.inj this
    refine ⟨bs, rfl, ⟨by decide, by rw [hl]; decide, by decide, by decide⟩, ⟨⟨44, [], rfl, by decide, by decide, by decide, by decide, by decide⟩, ?_⟩⟩
    intro c hc; cases hc; decide

example : ¬ ({ stlDemo with creationDate := b!"2014-09-04" } : StlArgs).Valid := fun h => absurd h.cd (by decide)

/-! ### C56 -/

theorem atoi_digits (s : Str) (h : ∀ c ∈ s, isDigit c = true) : atoi s = decVal s := by
  unfold atoi
  have h1 : s.dropWhile isSpace = s := by
    cases s with
    | nil => rfl
    | cons c s =>
      rw [List.dropWhile_cons_of_neg]
      have := h c (by simp)
      have k := forall_byte (p := fun c => !isDigit c || !isSpace c) (by decide +kernel) c
      simp only [this] at k
      simpa using k
  rw [h1, takeSign_digits h]
  simp only []
  have h2 : takeDigits s = s := by
    unfold takeDigits
    clear h1
    induction s with
    | nil => rfl
    | cons c s ih => rw [List.takeWhile_cons_of_pos (h c (by simp)), ih (fun c hc => h c (by simp [hc]))]
  rw [h2]; rfl

/-- C56: a count that fits its field reads back. -/
theorem C56_number (n v : Nat) (hn : 0 < n) (h : v < 10 ^ n) : atoi (numberField n v) = v := by
  have hl := natDec_length_le v n hn h
  have e : numberField n v = List.replicate (n - (natDec v).length) 48 ++ natDec v := by
    unfold numberField zeroPad
    rw [if_neg (by omega), Int.natAbs_natCast, ← natDec_eq_decSpec, List.take_of_length_le]
    simp; omega
  rw [e, atoi_digits, decVal_zeros_append, decVal_natDec]
  intro c hc
  rw [List.mem_append] at hc
  rcases hc with hc | hc
  · rw [List.eq_of_mem_replicate hc]; decide
  · exact natDec_digits _ _ hc

example : atoi (numberField 5 99999) = 99999 := C56_number 5 99999 (by decide) (by decide)

/-- C56: a count that does not fit its field is corrupted: 100000 subtitles read back as 10000, a row of 123
characters as 12. -/
theorem C56_overflow_witness : atoi (numberField 5 100000) = 10000 ∧ atoi (numberField 2 123) = 12 := by decide +kernel

private theorem getString_take (out : Str) (off len : Nat) (h : off + len ≤ 1024) : getString (out.take 1024) off len = (out.drop off).take len := by
  unfold getString
  rw [List.drop_take, List.take_take, Nat.min_eq_left (by omega)]

/-- The whole frames per second of a disk format code. -/
def dfcWhole : List (Str × Int) := [(b!"STL23.01", 23), (b!"STL24.01", 24), (b!"STL25.01", 25), (b!"STL30.01", 30)]

private theorem dfc_whole (r : ℚ) : ∃ n w, stlDfcToFrameRate (stlFrameRateToDfc r) = .ok n ∧ toInt n = .ok w ∧ (stlFrameRateToDfc r, w) ∈ dfcWhole := by
  unfold stlFrameRateToDfc
  have h23 : (toInt (f32 (23976 / 1000))).toOption = some 23 := by decide +kernel
  split
  · refine ⟨_, 23, rfl, ?_, by decide⟩
    cases h : toInt (f32 (23976 / 1000)) with
    | error e => rw [h] at h23; cases h23
    | ok w => rw [h] at h23; cases h23; rfl
  · split
    · exact ⟨_, 24, rfl, by decide +kernel, by decide⟩
    · split
      · exact ⟨_, 25, rfl, by decide +kernel, by decide⟩
      · split
        · exact ⟨_, 30, rfl, by decide +kernel, by decide⟩
        · exact ⟨_, 25, rfl, by decide +kernel, by decide⟩

/-- C56: what reading the header of a written file gives: the arguments, strings padded with spaces, counts (if
they fit) and constants.  The frame rate is the whole part of the written one. -/
theorem C56_metadata (l : Locale) (hl : SaneLocale l) (ht : l.thousandsSep.head? ≠ some 45) (a : StlArgs) (blocks : List Str) (out : Str)
    (hb : makeTtiBlocks a.fps a.subtitles = .ok blocks) (hc : a.Counts blocks) (ho : writeStlIn l a = .ok out)
    (h1 : blocks.length < 100000) (h2 : a.subtitles.length < 100000) (h3 : stlLongest a.subtitles < 100) :
    ∃ w, (stlFrameRateToDfc a.fps, w) ∈ dfcWhole ∧ parseGsi (out.take 1024) = .ok {
      codePageNumber := 850
      frameRate := w
      displayStandard := .openSubtitling
      languageGroup := .latin
      language := a.language
      originalProgrammeTitle := spacePad 32 a.originalProgrammeTitle
      originalEpisodeTitle := spacePad 32 a.originalEpisodeTitle
      translatedProgrammeTitle := spacePad 32 a.translatedProgrammeTitle
      translatedEpisodeTitle := spacePad 32 a.translatedEpisodeTitle
      translatorName := spacePad 32 a.translatorName
      translatorContactDetails := spacePad 32 a.translatorContactDetails
      subtitleListReferenceCode := b!"0000000000000000"
      creationDate := a.creationDate
      revisionDate := a.revisionDate
      revisionNumber := numberField 2 a.revisionNumber
      ttiBlocks := blocks.length
      numberOfSubtitles := a.subtitles.length
      subtitleGroups := 1
      maximumCharacters := stlLongest a.subtitles
      maximumRows := 23
      timecodeStatus := .intendedForUse
      startOfProgramme := b!"00000000"
      firstInCue := b!"00000000"
      disks := 1
      diskSequenceNumber := 1
      countryOfOrigin := a.countryOfOrigin
      publisher := spacePad 32 a.publisher
      editorName := spacePad 32 a.editorName
      editorContactDetails := spacePad 32 a.editorContactDetails } := by
  obtain ⟨_, hf, _, _⟩ := C55_fields l hl ht a blocks out hb hc ho
  simp only [gsiSpec, List.mem_cons, List.not_mem_nil, or_false, forall_eq_or_imp, forall_eq] at hf
  obtain ⟨f1, f2, f3, f4, f5, f6, f7, f8, f9, f10, f11, f12, f13, f14, f15, f16, f17, f18, f19, f20, f21, f22, f23, f24, f25, f26, f27, f28, f29⟩ := hf
  obtain ⟨n, w, d1, d2, d3⟩ := dfc_whole a.fps
  refine ⟨w, d3, ?_⟩
  have hlang := C68_language a.language
  rw [C68_language_code] at hlang
  unfold parseGsi
  simp only [getString_take, Nat.reduceAdd, Nat.reduceLeDiff, f1, f2, f3, f4, f5, f6, f7, f8, f9, f10, f11, f12, f13, f14, f15, f16, f17, f18, f19, f20, f21,
    f22, f23, f24, f25, f26, f27, f28, f29, d1, d2, ok_bind]
  rw [show displayStandardFileToEnum b!"0" = .ok .openSubtitling by decide, ok_bind,
    show languageGroupFileToEnum b!"00" = .ok .latin by decide, ok_bind,
    show languageFileToEnum (hex2 (languageNumber a.language)) = .ok a.language from hlang, ok_bind,
    show timecodeStatusFileToEnum b!"1" = .ok .intendedForUse by decide, ok_bind]
  rw [C56_number 5 _ (by decide) (by omega), C56_number 5 _ (by decide) (by omega), C56_number 2 _ (by decide) (by omega)]
  rfl

example : stlLongest stlDemo.subtitles < 100 ∧ stlDemo.subtitles.length < 100000 := by decide

/-- C56: a rate of 23.976 is written as such but comes back as 23, the data member being an `int`. -/
theorem C56_rate_witness : stlFrameRateToDfc (f32 (23976 / 1000)) = b!"STL23.01" ∧ stlDfcToFrameRate b!"STL23.01" = .ok (f32 (23976 / 1000)) ∧
    toInt (f32 (23976 / 1000)) = .ok 23 := by decide +kernel

end LibSub
