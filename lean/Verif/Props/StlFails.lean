/-
Property C135: how reading a binary STL file fails, exactly.
-/
import Verif.Props.StlReader
import Verif.Props.SsaFails

namespace LibSub

/-! ### Specification -/

/-- The codes in a header, in the order in which they are looked up: where they are, how long, what they are called and which are known. -/
def headerCodes : List (Nat × Nat × Str × (Str → Prop)) :=
  [(3, 8, b!"disk format code", fun k => k ∈ [b!"STL23.01", b!"STL24.01", b!"STL25.01", b!"STL30.01"]),
   (11, 1, b!"display standard code", fun k => k ∈ [b!" ", b!"0", b!"1", b!"2"]),
   (12, 2, b!"language group code", fun k => k ∈ [b!"00", b!"01", b!"02", b!"03", b!"04", b!"U8"]),
   (14, 2, b!"language code", fun k => ∃ l, k = hex2 (languageNumber l)),
   (255, 1, b!"timecode status code", fun k => k ∈ [b!"0", b!"1"])]

/-- The message about an unknown code. -/
def unknownCode (name k : Str) : Err := .stl (b!"Unknown " ++ name ++ b!" " ++ k ++ b!" in binary STL file")

/-- The message about a file that is too short. -/
def shortFile (what : Str) : Err := .stl (b!"Could not read " ++ what ++ b!" block from binary STL file")

/-- How a header fails: with the first of its codes which is not known. -/
def HeaderFails (file : Str) (e : Err) : Prop :=
  ∃ before off len name known after, headerCodes = before ++ (off, len, name, known) :: after ∧ (∀ c ∈ before, c.2.2.2 ((file.drop c.1).take c.2.1)) ∧
    ¬ known ((file.drop off).take len) ∧ e = unknownCode name ((file.drop off).take len)

/-- How a block fails: it is not all there, has an unknown comment code, or text that sends the character decoder outside its table. -/
inductive BlockFails (file : Str) (i : Nat) : Err → Prop
  | short : file.length < 1024 + 128 * (i + 1) → BlockFails file i (shortFile b!"TTI")
  | comment (c : Byte) : 1024 + 128 * (i + 1) ≤ file.length → (ttiBlock file i).getD 15 0 = c → c ≠ 0 → c ≠ 1 → BlockFails file i (unknownCode b!"comment code" (decSpec c.toNat))
  | text : 1024 + 128 * (i + 1) ≤ file.length → BadBlock (ttiBlock file i) → BlockFails file i (.ub .nullDeref)

/-- How a file fails: it is shorter than a header, its header fails, or one of the blocks it announces, after blocks which do not. -/
inductive StlFails (file : Str) : Err → Prop
  | short : file.length < 1024 → StlFails file (shortFile b!"GSI")
  | header (e : Err) : 1024 ≤ file.length → HeaderFails file e → StlFails file e
  | block (i : Nat) (e : Err) : 1024 ≤ file.length → HeaderOk file → i < announced file → (∀ j < i, ∀ e', ¬ BlockFails file j e') → BlockFails file i e → StlFails file e

/-! ### Header -/

private theorem code_error {E : Type} (k : Str) (m : StlTable Str E) (name : Str) (known : Str → Prop) (hk : ∀ k, k ∈ m.map (·.1) ↔ known k) :
    (known k ∧ ∃ v, strToEnum k m name = .ok v) ∨ (¬ known k ∧ strToEnum k m name = .error (unknownCode name k)) := by
  unfold strToEnum
  have h := tableFind_iff k m
  rw [hk] at h
  cases hf : tableFind k m with
  | some v => exact .inl ⟨h.mp ⟨v, hf⟩, _, rfl⟩
  | none => refine .inr ⟨fun hm => ?_, rfl⟩; obtain ⟨v, hv⟩ := h.mpr hm; rw [hf] at hv; cases hv

private theorem dfc_error (k : Str) : (k ∈ [b!"STL23.01", b!"STL24.01", b!"STL25.01", b!"STL30.01"] ∧ ∃ r w, stlDfcToFrameRate k = .ok r ∧ toInt r = .ok w) ∨
    (k ∉ [b!"STL23.01", b!"STL24.01", b!"STL25.01", b!"STL30.01"] ∧ stlDfcToFrameRate k = .error (unknownCode b!"disk format code" k)) := by
  by_cases h : k ∈ [b!"STL23.01", b!"STL24.01", b!"STL25.01", b!"STL30.01"]
  · left
    refine ⟨h, ?_⟩
    simp only [List.mem_cons, List.not_mem_nil, or_false] at h
    rcases h with rfl | rfl | rfl | rfl
    · exact ⟨_, 23, ((C67_read _).1 (f32 (23976 / 1000))).mpr (by simp [dfcRates]), by decide +kernel⟩
    · exact ⟨_, 24, ((C67_read _).1 24).mpr (by simp [dfcRates]), by decide +kernel⟩
    · exact ⟨_, 25, ((C67_read _).1 25).mpr (by simp [dfcRates]), by decide +kernel⟩
    · exact ⟨_, 30, ((C67_read _).1 30).mpr (by simp [dfcRates]), by decide +kernel⟩
  · right
    refine ⟨h, (C67_read k).2 (fun r hr => h ?_)⟩
    simp only [dfcRates, List.mem_cons, Prod.mk.injEq, List.not_mem_nil, or_false] at hr ⊢
    tauto

/-- The first of some codes that is not known. -/
private def FirstUnknown (file : Str) (codes : List (Nat × Nat × Str × (Str → Prop))) (e : Err) : Prop :=
  ∃ before off len name known after, codes = before ++ (off, len, name, known) :: after ∧ (∀ c ∈ before, c.2.2.2 ((file.drop c.1).take c.2.1)) ∧
    ¬ known ((file.drop off).take len) ∧ e = unknownCode name ((file.drop off).take len)

private theorem first_hit (file : Str) (off len : Nat) (name : Str) (known : Str → Prop) (cs : List (Nat × Nat × Str × (Str → Prop))) (h : ¬ known ((file.drop off).take len)) (e : Err) :
    FirstUnknown file ((off, len, name, known) :: cs) e ↔ e = unknownCode name ((file.drop off).take len) := by
  constructor
  · rintro ⟨b, o, l, n, k, a, h1, h2, h3, h4⟩
    cases b with
    | nil => cases h1; exact h4
    | cons c b =>
      obtain ⟨rfl, -⟩ := List.cons.inj h1
      exact absurd (h2 (off, len, name, known) (by simp)) h
  · intro he; exact ⟨[], off, len, name, known, cs, rfl, by simp, h, he⟩

private theorem first_miss (file : Str) (off len : Nat) (name : Str) (known : Str → Prop) (cs : List (Nat × Nat × Str × (Str → Prop))) (h : known ((file.drop off).take len)) (e : Err) :
    FirstUnknown file ((off, len, name, known) :: cs) e ↔ FirstUnknown file cs e := by
  constructor
  · rintro ⟨b, o, l, n, k, a, h1, h2, h3, h4⟩
    cases b with
    | nil => cases h1; exact absurd h h3
    | cons c b =>
      obtain ⟨-, h1⟩ := List.cons.inj h1
      exact ⟨b, o, l, n, k, a, h1, fun c hc => h2 c (by simp [hc]), h3, h4⟩
  · rintro ⟨b, o, l, n, k, a, h1, h2, h3, h4⟩
    refine ⟨_ :: b, o, l, n, k, a, by rw [h1]; rfl, ?_, h3, h4⟩
    intro c hc
    rcases List.mem_cons.1 hc with rfl | hc
    · exact h
    · exact h2 c hc

private theorem first_none (file : Str) (e : Err) : ¬ FirstUnknown file [] e := by
  rintro ⟨b, o, l, n, k, a, h1, -⟩
  simp at h1

private theorem gsi_error (file : Str) (e : Err) : parseGsi (file.take 1024) = .error e ↔ HeaderFails file e := by
  show _ ↔ FirstUnknown file headerCodes e
  unfold parseGsi headerCodes
  rw [getString_take1024 _ 3 8 (by decide), getString_take1024 _ 11 1 (by decide), getString_take1024 _ 12 2 (by decide), getString_take1024 _ 14 2 (by decide),
    getString_take1024 _ 255 1 (by decide)]
  have inj : ∀ {α : Type} {a e : Err}, (Except.error a : R α) = .error e ↔ e = a := by
    intro α a e
    exact ⟨fun h => (Except.error.inj h).symm, fun h => by rw [h]⟩
  rcases dfc_error ((file.drop 3).take 8) with ⟨d1, r, w, d2, d3⟩ | ⟨d1, d2⟩
  swap
  · rw [d2, error_bind, first_hit file 3 8 _ _ _ d1]; exact inj
  rw [d2, ok_bind, d3, ok_bind, first_miss file 3 8 _ _ _ d1]
  unfold displayStandardFileToEnum languageGroupFileToEnum languageFileToEnum timecodeStatusFileToEnum
  rcases code_error ((file.drop 11).take 1) displayStandardTable b!"display standard code" (fun k => k ∈ [b!" ", b!"0", b!"1", b!"2"]) (fun k => Iff.rfl) with ⟨s1, v1, s2⟩ | ⟨s1, s2⟩
  swap
  · rw [s2, error_bind, first_hit file 11 1 _ _ _ s1]; exact inj
  rw [s2, ok_bind, first_miss file 11 1 _ _ _ s1]
  rcases code_error ((file.drop 12).take 2) languageGroupTable b!"language group code" (fun k => k ∈ [b!"00", b!"01", b!"02", b!"03", b!"04", b!"U8"]) (fun k => Iff.rfl) with ⟨g1, v2, g2⟩ | ⟨g1, g2⟩
  swap
  · rw [g2, error_bind, first_hit file 12 2 _ _ _ g1]; exact inj
  rw [g2, ok_bind, first_miss file 12 2 _ _ _ g1]
  rcases code_error ((file.drop 14).take 2) languageTable b!"language code" (fun k => ∃ l, k = hex2 (languageNumber l)) language_key with ⟨l1, v3, l2⟩ | ⟨l1, l2⟩
  swap
  · rw [l2, error_bind, first_hit file 14 2 _ _ _ l1]; exact inj
  rw [l2, ok_bind, first_miss file 14 2 _ _ _ l1]
  simp only []
  rcases code_error ((file.drop 255).take 1) timecodeStatusTable b!"timecode status code" (fun k => k ∈ [b!"0", b!"1"]) (fun k => Iff.rfl) with ⟨t1, v4, t2⟩ | ⟨t1, t2⟩
  swap
  · rw [t2, error_bind, first_hit file 255 1 _ _ _ t1]; exact inj
  rw [t2, ok_bind, first_miss file 255 1 _ _ _ t1]
  exact ⟨(fun h => by cases h), fun h => absurd h (first_none file e)⟩

/-! ### Blocks -/

private theorem comment_error (c : Byte) (h0 : c ≠ 0) (h1 : c ≠ 1) : commentFileToEnum (c.toNat : Int) = .error (unknownCode b!"comment code" (decSpec c.toNat)) :=
  forall_byte (p := fun c => c ≠ 0 → c ≠ 1 → commentFileToEnum (c.toNat : Int) = .error (unknownCode b!"comment code" (decSpec c.toNat))) (by decide +kernel) c h0 h1

private theorem block_error (info : StlInfo) (st : StlBlocks) (blk : Str) (e : Err) : stlBlock info st blk = .error e ↔
    (blk.getD 15 0 ≠ 0 ∧ blk.getD 15 0 ≠ 1 ∧ e = unknownCode b!"comment code" (decSpec (blk.getD 15 0).toNat)) ∨ (BadBlock blk ∧ e = .ub .nullDeref) := by
  rcases block_total info st blk with ⟨h1, h2⟩ | ⟨h1, m, h2⟩ | ⟨h1, h2, st', h3⟩
  · rw [h2]
    constructor
    · intro h; cases h; exact .inr ⟨h1, rfl⟩
    · rintro (⟨h, -⟩ | ⟨-, rfl⟩)
      · exact absurd h1.1 h
      · rfl
  · have hn : blk.getD 15 0 ≠ 0 ∧ blk.getD 15 0 ≠ 1 := not_or.1 h1
    have e0 : stlBlock info st blk = .error (unknownCode b!"comment code" (decSpec (blk.getD 15 0).toNat)) := by
      unfold stlBlock getByte
      rw [comment_error _ hn.1 hn.2]
      rfl
    rw [e0]
    constructor
    · intro h; cases h; exact .inl ⟨hn.1, hn.2, rfl⟩
    · rintro (⟨-, -, rfl⟩ | ⟨h, -⟩)
      · rfl
      · exact absurd h.1 hn.1
  · rw [h3]
    constructor
    · intro h; cases h
    · rintro (⟨h, h', -⟩ | ⟨h, -⟩)
      · rcases h1 with h1 | h1
        · exact absurd h1 h
        · exact absurd h1 h'
      · exact absurd h h2

/-- As `BlockFails`, in a file without header. -/
private inductive PartFails (file : Str) (i : Nat) : Err → Prop
  | short : file.length < 128 * (i + 1) → PartFails file i (shortFile b!"TTI")
  | comment (c : Byte) : 128 * (i + 1) ≤ file.length → ((file.drop (128 * i)).take 128).getD 15 0 = c → c ≠ 0 → c ≠ 1 → PartFails file i (unknownCode b!"comment code" (decSpec c.toNat))
  | text : 128 * (i + 1) ≤ file.length → BadBlock ((file.drop (128 * i)).take 128) → PartFails file i (.ub .nullDeref)

private theorem part_zero (info : StlInfo) (st : StlBlocks) (file : Str) (e : Err) : (do let (blk, _) ← readBlock file 128 b!"TTI"; stlBlock info st blk) = .error e ↔ PartFails file 0 e := by
  unfold readBlock
  by_cases hl : 128 ≤ file.length
  · rw [if_pos hl, ok_bind]
    simp only
    rw [block_error]
    constructor
    · rintro (⟨h1, h2, rfl⟩ | ⟨h1, rfl⟩)
      · exact .comment _ hl rfl h1 h2
      · exact .text hl h1
    · intro h
      cases h with
      | short h => omega
      | comment c h1 h2 h3 h4 => subst h2; exact .inl ⟨h3, h4, rfl⟩
      | text h1 h2 => exact .inr ⟨h2, rfl⟩
  · rw [if_neg hl, error_bind]
    constructor
    · intro h; cases h; exact .short (by omega)
    · intro h
      cases h with
      | short h => rfl
      | comment c h1 => omega
      | text h1 => omega

private theorem part_succ (file : Str) (hl : 128 ≤ file.length) (i : Nat) (e : Err) : PartFails (file.drop 128) i e ↔ PartFails file (i + 1) e := by
  have hd : ((file.drop 128).drop (128 * i)) = file.drop (128 * (i + 1)) := by rw [List.drop_drop]; congr 1; omega
  have hlen : (file.drop 128).length = file.length - 128 := List.length_drop
  constructor
  · intro h
    cases h with
    | short h => exact .short (by omega)
    | comment c h1 h2 => rw [hd] at h2; exact .comment c (by omega) h2 ‹_› ‹_›
    | text h1 h2 => rw [hd] at h2; exact .text (by omega) h2
  · intro h
    cases h with
    | short h => exact .short (by omega)
    | comment c h1 h2 => rw [← hd] at h2; exact .comment c (by omega) h2 ‹_› ‹_›
    | text h1 h2 => rw [← hd] at h2; exact .text (by omega) h2

private theorem blocks_error (info : StlInfo) (n : Nat) (e : Err) : ∀ (st : StlBlocks) (file : Str),
    stlBlocks info st file n = .error e ↔ ∃ i < n, (∀ j < i, ∀ e', ¬ PartFails file j e') ∧ PartFails file i e := by
  induction n with
  | zero =>
    intro st file
    constructor
    · intro h; cases h
    · rintro ⟨i, h, -⟩; omega
  | succ n ih =>
    intro st file
    have e0 : stlBlocks info st file (n + 1) = ((do let (blk, _) ← readBlock file 128 b!"TTI"; stlBlock info st blk) >>= fun st => stlBlocks info st (file.drop 128) n) := by
      rw [stlBlocks]
      unfold readBlock
      by_cases hl : 128 ≤ file.length
      · rw [if_pos hl]; rfl
      · rw [if_neg hl]; rfl
    rw [e0, bind_error_iff, part_zero]
    constructor
    · rintro (h | ⟨st', h1, h2⟩)
      · exact ⟨0, by omega, by omega, h⟩
      · have hl : 128 ≤ file.length := by
          by_contra hl
          unfold readBlock at h1
          rw [if_neg hl] at h1
          cases h1
        have h0 : ∀ e', ¬ PartFails file 0 e' := by
          intro e' he
          rw [(part_zero info st file e').2 he] at h1
          cases h1
        obtain ⟨i, hi, h3, h4⟩ := (ih st' (file.drop 128)).1 h2
        refine ⟨i + 1, by omega, ?_, (part_succ file hl i e).1 h4⟩
        intro j hj e' he
        cases j with
        | zero => exact h0 e' he
        | succ j => exact h3 j (by omega) e' ((part_succ file hl j e').2 he)
    · rintro ⟨i, hi, h3, h4⟩
      cases i with
      | zero => exact .inl h4
      | succ i =>
        right
        have hl : 128 ≤ file.length := by
          by_contra hl
          exact h3 0 (by omega) _ (.short (by omega))
        cases hs : (do let (blk, _) ← readBlock file 128 b!"TTI"; stlBlock info st blk) with
        | error e' => exact absurd ((part_zero info st file e').1 hs) (h3 0 (by omega) e')
        | ok st' =>
          exact ⟨st', rfl, (ih st' (file.drop 128)).2 ⟨i, by omega, fun j hj e' he => h3 (j + 1) (by omega) e' ((part_succ file hl j e').1 he), (part_succ file hl i e).2 h4⟩⟩

private theorem part_block (file : Str) (hl : 1024 ≤ file.length) (i : Nat) (e : Err) : PartFails (file.drop 1024) i e ↔ BlockFails file i e := by
  have hd : ((file.drop 1024).drop (128 * i)) = file.drop (1024 + 128 * i) := by rw [List.drop_drop]
  have hlen : (file.drop 1024).length = file.length - 1024 := List.length_drop
  constructor
  · intro h
    cases h with
    | short h => exact .short (by omega)
    | comment c h1 h2 => rw [hd] at h2; exact .comment c (by omega) h2 ‹_› ‹_›
    | text h1 h2 => rw [hd] at h2; exact .text (by omega) h2
  · intro h
    cases h with
    | short h => exact .short (by omega)
    | comment c h1 h2 => unfold ttiBlock at h2; rw [← hd] at h2; exact .comment c (by omega) h2 ‹_› ‹_›
    | text h1 h2 => unfold ttiBlock at h2; rw [← hd] at h2; exact .text (by omega) h2

/-! ### C135 -/

theorem headerOk_iff (file : Str) : HeaderOk file ↔ ∀ e, ¬ HeaderFails file e := by
  constructor
  · rintro ⟨h1, h2, h3, h4, h5⟩ e
    show ¬ FirstUnknown file headerCodes e
    unfold headerCodes
    rw [first_miss file 3 8 _ _ _ h1, first_miss file 11 1 _ _ _ h2, first_miss file 12 2 _ _ _ h3, first_miss file 14 2 _ _ _ h4, first_miss file 255 1 _ _ _ h5]
    exact first_none file e
  · intro h
    cases hp : parseGsi (file.take 1024) with
    | error e => exact absurd ((gsi_error file e).1 hp) (h e)
    | ok info =>
      have h : ∀ e, ¬ FirstUnknown file headerCodes e := h
      unfold headerCodes at h
      by_cases h1 : (file.drop 3).take 8 ∈ [b!"STL23.01", b!"STL24.01", b!"STL25.01", b!"STL30.01"]
      swap
      · exact absurd ((first_hit file 3 8 _ _ _ h1 _).2 rfl) (h _)
      simp only [first_miss file 3 8 _ _ _ h1] at h
      by_cases h2 : (file.drop 11).take 1 ∈ [b!" ", b!"0", b!"1", b!"2"]
      swap
      · exact absurd ((first_hit file 11 1 _ _ _ h2 _).2 rfl) (h _)
      simp only [first_miss file 11 1 _ _ _ h2] at h
      by_cases h3 : (file.drop 12).take 2 ∈ [b!"00", b!"01", b!"02", b!"03", b!"04", b!"U8"]
      swap
      · exact absurd ((first_hit file 12 2 _ _ _ h3 _).2 rfl) (h _)
      simp only [first_miss file 12 2 _ _ _ h3] at h
      by_cases h4 : ∃ l, (file.drop 14).take 2 = hex2 (languageNumber l)
      swap
      · exact absurd ((first_hit file 14 2 _ (fun k => ∃ l, k = hex2 (languageNumber l)) _ h4 _).2 rfl) (h _)
      simp only [first_miss file 14 2 _ (fun k => ∃ l, k = hex2 (languageNumber l)) _ h4] at h
      by_cases h5 : (file.drop 255).take 1 ∈ [b!"0", b!"1"]
      swap
      · exact absurd ((first_hit file 255 1 _ _ _ h5 _).2 rfl) (h _)
      exact ⟨h1, h2, h3, h4, h5⟩

/-- C135: how reading a binary STL file fails. -/
theorem C135_stl (file : Str) (e : Err) : stlRead file = .error e ↔ StlFails file e := by
  unfold stlRead readBlock
  by_cases hl : 1024 ≤ file.length
  swap
  · rw [if_neg hl, error_bind]
    constructor
    · intro h; cases h; exact .short (by omega)
    · intro h
      cases h with
      | short => rfl
      | header _ h => omega
      | block _ _ h => omega
  rw [if_pos hl, ok_bind]
  simp only
  cases hp : parseGsi (file.take 1024) with
  | error e' =>
    have hf := (gsi_error file e').1 hp
    rw [error_bind]
    constructor
    · intro h; cases h; exact .header _ hl hf
    · intro h
      cases h with
      | short h => omega
      | header _ _ h =>
        have := (gsi_error file e).2 h
        rw [hp] at this
        rw [Except.error.inj this]
      | block _ _ _ h => exact absurd hf ((headerOk_iff file).1 h _)
  | ok info =>
    have hn : ∀ e, ¬ HeaderFails file e := by
      intro e he
      rw [(gsi_error file e).2 he] at hp
      cases hp
    rw [ok_bind, (parseGsi_ok hp).2.1, pure_bind_error, blocks_error]
    simp only [part_block file hl]
    constructor
    · rintro ⟨i, hi, h1, h2⟩
      exact .block i e hl ((headerOk_iff file).2 hn) hi h1 h2
    · intro h
      cases h with
      | short h => omega
      | header _ _ h => exact absurd h (hn _)
      | block i _ _ _ hi h1 h2 => exact ⟨i, hi, h1, h2⟩

example : StlFails (stlFileDemo b!"00002" [stlBlockDemo 3 0 b!"world", stlBlockDemo 3 7 b!"world"]) (.stl b!"Unknown comment code 7 in binary STL file") := (C135_stl _ _).1 (by decide +kernel)
example : StlFails (stlFileDemo b!"00003" [stlBlockDemo 3 0 b!"world"]) (.stl b!"Could not read TTI block from binary STL file") := (C135_stl _ _).1 (by decide +kernel)
example : StlFails (List.replicate 1024 32) (.stl b!"Unknown disk format code          in binary STL file") := (C135_stl _ _).1 (by decide +kernel)

end LibSub
