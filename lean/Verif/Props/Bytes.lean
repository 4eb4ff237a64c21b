/-
Property C149: which bytes of a binary STL file matter.
-/
import Verif.Props.StlExact

namespace LibSub

/-! ### Specification -/

/-- Rows that show the same: they are the same up to the first byte 8F. -/
def RowAlike (r r' : Str) : Prop := r.takeWhile (· ≠ 0x8f) = r'.takeWhile (· ≠ 0x8f)

/-- Texts that show the same: as many rows (8A ends a row), and each row shows the same. -/
inductive TextAlike : Str → Str → Prop where
  | last (t t' : Str) : 0x8a ∉ t → 0x8a ∉ t' → RowAlike t t' → TextAlike t t'
  | more (t t' rest rest' : Str) : 0x8a ∉ t → 0x8a ∉ t' → RowAlike t t' → TextAlike rest rest' → TextAlike (t ++ 0x8a :: rest) (t' ++ 0x8a :: rest')

/-- Blocks that mean the same: comments, or blocks with the same times, row, comment flag, and texts that show the same.  Of the alignment it only matters whether it is 1 or 3.  The first five bytes
(group, number, extension, cumulative status) do not matter. -/
inductive BlockAlike : Str → Str → Prop where
  | comment (a a' t t' : Str) : a.length = 15 → a'.length = 15 → t.length = 112 → t'.length = 112 → BlockAlike (a ++ 1 :: t) (a' ++ 1 :: t')
  | shown (a a' times t t' : Str) (row align align' flag : Byte) : a.length = 5 → a'.length = 5 → times.length = 8 → (align = 1 ↔ align' = 1) → (align = 3 ↔ align' = 3) →
      t.length = 112 → t'.length = 112 → TextAlike t t' → BlockAlike (a ++ times ++ row :: align :: flag :: t) (a' ++ times ++ row :: align' :: flag :: t')

/-- Files that mean the same: the first 373 bytes of their headers are the same, the blocks mean the same, and what follows is the same, unless the header says that there are no more blocks. -/
inductive StlAlike : Str → Str → Prop where
  | mk (g u u' rest rest' : Str) (blocks blocks' : List Str) : g.length = 373 → u.length = 651 → u'.length = 651 → List.Forall₂ BlockAlike blocks blocks' →
      (rest = rest' ∨ ∃ n, NumberField g 238 5 n ∧ n ≤ blocks.length) → StlAlike (g ++ u ++ (blocks.flatten ++ rest)) (g ++ u' ++ (blocks'.flatten ++ rest'))

/-! ### Proofs -/

private theorem chars_shown : ∀ (r : Str) (s : StlChars), stlChars s r = stlChars s (r.takeWhile (· ≠ 0x8f)) := by
  intro r
  induction r with
  | nil => intro s; rfl
  | cons c r ih =>
    intro s
    by_cases hc : c = 0x8f
    · subst hc
      simp [stlChars]
    · rw [List.takeWhile_cons_of_pos (by simpa using hc)]
      unfold stlChars
      rw [if_neg hc, if_neg hc]
      split
      · cases s.push with
        | error e => rfl
        | ok s => exact ih _
      · exact ih _

private theorem lines_alike {info : StlInfo} {blk blk' : Str} (h5 : getTimecode blk 5 info.frameRate = getTimecode blk' 5 info.frameRate)
    (h9 : getTimecode blk 9 info.frameRate = getTimecode blk' 9 info.frameRate) (h13 : getByte blk 13 = getByte blk' 13) (h14 : stlHref (getByte blk 14) = stlHref (getByte blk' 14))
    {ls ls' : List Str} (h : List.Forall₂ RowAlike ls ls') : ∀ (i u : Bool) (st : StlBlocks) (j : Nat), stlLines info blk i u st j ls = stlLines info blk' i u st j ls' := by
  induction h with
  | nil => intro i u st j; rfl
  | @cons r r' ls ls' hr _ ih =>
    intro i u st j
    unfold stlLines
    rw [h5, h9, h13, h14]
    cases getTimecode blk' 5 info.frameRate with
    | error e => rfl
    | ok a =>
      cases getTimecode blk' 9 info.frameRate with
      | error e => rfl
      | ok b =>
        rw [ok_bind, ok_bind, ok_bind, ok_bind]
        simp only []
        rw [chars_shown r, chars_shown r', hr]
        congr 1
        funext x
        exact ih _ _ _ _

private theorem split_alike {t t' : Str} (h : TextAlike t t') : List.Forall₂ RowAlike (splitAny (· == 0x8a) t) (splitAny (· == 0x8a) t') := by
  have no : ∀ {t : Str}, 0x8a ∉ t → ∀ c ∈ t, (c == 0x8a) = false := by
    intro t h c hc
    rw [beq_eq_false_iff_ne]
    exact fun e => h (e ▸ hc)
  induction h with
  | last t t' h h' hr =>
    rw [splitAny_noSep (no h), splitAny_noSep (no h')]
    exact .cons hr .nil
  | more t t' rest rest' h h' hr _ ih =>
    rw [splitAny_append (no h) rfl, splitAny_append (no h') rfl]
    exact .cons hr ih

private theorem getByte_pre {a : Str} (b : Str) {k n : Nat} (h : a.length = n) (hk : n ≤ k) : getByte (a ++ b) k = getByte b (k - n) := by
  unfold getByte
  rw [List.getD_eq_getElem?_getD, List.getD_eq_getElem?_getD, List.getElem?_append_right (by omega), h]

private theorem block_alike {b b' : Str} (h : BlockAlike b b') (info : StlInfo) (st : StlBlocks) : stlBlock info st b = stlBlock info st b' := by
  cases h with
  | comment a a' t t' ha ha' =>
    unfold stlBlock
    rw [getByte_pre _ ha (le_refl _), getByte_pre _ ha' (le_refl _)]
    rfl
  | shown a a' times t t' row align align' flag ha ha' hi h1 h3 ht ht' hx =>
    have e : ∀ (a t : Str) (align : Byte), a.length = 5 → t.length = 112 → getByte (a ++ times ++ row :: align :: flag :: t) 15 = flag.toNat ∧
        getByte (a ++ times ++ row :: align :: flag :: t) 14 = align.toNat ∧ getByte (a ++ times ++ row :: align :: flag :: t) 13 = row.toNat ∧
        getString (a ++ times ++ row :: align :: flag :: t) 16 112 = t ∧
        (∀ k, 5 ≤ k → k < 13 → getByte (a ++ times ++ row :: align :: flag :: t) k = getByte times (k - 5)) := by
      intro a t align ha ht
      have l : (a ++ times).length = 13 := by rw [List.length_append, ha, hi]
      refine ⟨by rw [getByte_pre _ l (by omega)]; rfl, by rw [getByte_pre _ l (by omega)]; rfl, by rw [getByte_pre _ l (by omega)]; rfl, ?_, ?_⟩
      · unfold getString
        rw [List.drop_append, l, List.drop_eq_nil_of_le (by omega)]
        simp [ht]
      · intro k hk hk'
        rw [List.append_assoc, getByte_pre _ ha hk]
        unfold getByte
        rw [List.getD_eq_getElem?_getD, List.getD_eq_getElem?_getD, List.getElem?_append_left (by omega)]
    obtain ⟨a1, a2, a3, a4, a5⟩ := e a t align ha ht
    obtain ⟨b1, b2, b3, b4, b5⟩ := e a' t' align' ha' ht'
    unfold stlBlock
    rw [a1, b1, a4, b4]
    congr 1
    funext c
    split
    · rfl
    · apply lines_alike _ _ (a3.trans b3.symm) _ (split_alike hx)
      · unfold getTimecode
        rw [a5 5 (by omega) (by omega), a5 (5 + 1) (by omega) (by omega), a5 (5 + 2) (by omega) (by omega), a5 (5 + 3) (by omega) (by omega),
          b5 5 (by omega) (by omega), b5 (5 + 1) (by omega) (by omega), b5 (5 + 2) (by omega) (by omega), b5 (5 + 3) (by omega) (by omega)]
      · unfold getTimecode
        rw [a5 9 (by omega) (by omega), a5 (9 + 1) (by omega) (by omega), a5 (9 + 2) (by omega) (by omega), a5 (9 + 3) (by omega) (by omega),
          b5 9 (by omega) (by omega), b5 (9 + 1) (by omega) (by omega), b5 (9 + 2) (by omega) (by omega), b5 (9 + 3) (by omega) (by omega)]
      · rw [a2, b2]
        unfold stlHref
        have n1 : ∀ x : Byte, x.toNat = 1 ↔ x = 1 := fun x => ⟨fun h => UInt8.toNat_inj.1 h, fun h => h ▸ rfl⟩
        have n3 : ∀ x : Byte, x.toNat = 3 ↔ x = 3 := fun x => ⟨fun h => UInt8.toNat_inj.1 h, fun h => h ▸ rfl⟩
        simp only [n1, n3, h1, h3]

private theorem alike_length {b b' : Str} (h : BlockAlike b b') : b.length = 128 ∧ b'.length = 128 := by
  cases h <;> simp_all

private theorem blocks_alike {bs bs' : List Str} (h : List.Forall₂ BlockAlike bs bs') (info : StlInfo) (rest rest' : Str) : ∀ (n : Nat) (st : StlBlocks), (rest = rest' ∨ n ≤ bs.length) →
    stlBlocks info st (bs.flatten ++ rest) n = stlBlocks info st (bs'.flatten ++ rest') n := by
  induction h with
  | nil =>
    intro n st hr
    rcases hr with rfl | hr
    · rfl
    · cases Nat.le_zero.1 hr
      rfl
  | @cons b b' bs bs' hb _ ih =>
    intro n st hr
    cases n with
    | zero => rfl
    | succ n =>
      obtain ⟨l, l'⟩ := alike_length hb
      unfold stlBlocks readBlock
      rw [List.flatten_cons, List.flatten_cons, List.append_assoc b, List.append_assoc b', if_pos (by rw [List.length_append]; omega), if_pos (by rw [List.length_append]; omega), ok_bind, ok_bind]
      simp only []
      rw [List.take_left' l, List.drop_left' l, List.take_left' l', List.drop_left' l', block_alike hb]
      congr 1
      funext st
      exact ih n st (hr.imp id (fun h => by simpa using h))

private theorem getString_pre (g u : Str) (off len : Nat) (h : off + len ≤ g.length) : getString (g ++ u) off len = getString g off len := by
  unfold getString
  rw [List.drop_append_of_le_length (by omega), List.take_append_of_le_length (by rw [List.length_drop]; omega)]

private theorem gsi_alike {g : Str} (hg : g.length = 373) (u : Str) : parseGsi (g ++ u) = parseGsi g := by
  unfold parseGsi
  rw [getString_pre g u 0 3 (by omega), getString_pre g u 3 8 (by omega), getString_pre g u 11 1 (by omega), getString_pre g u 12 2 (by omega), getString_pre g u 14 2 (by omega),
    getString_pre g u 16 32 (by omega), getString_pre g u 48 32 (by omega), getString_pre g u 80 32 (by omega), getString_pre g u 112 32 (by omega), getString_pre g u 144 32 (by omega),
    getString_pre g u 176 32 (by omega), getString_pre g u 208 16 (by omega), getString_pre g u 224 6 (by omega), getString_pre g u 230 6 (by omega), getString_pre g u 236 2 (by omega),
    getString_pre g u 238 5 (by omega), getString_pre g u 243 5 (by omega), getString_pre g u 248 3 (by omega), getString_pre g u 251 2 (by omega), getString_pre g u 253 2 (by omega),
    getString_pre g u 255 1 (by omega), getString_pre g u 256 8 (by omega), getString_pre g u 264 8 (by omega), getString_pre g u 272 1 (by omega), getString_pre g u 273 1 (by omega),
    getString_pre g u 274 3 (by omega), getString_pre g u 277 32 (by omega), getString_pre g u 309 32 (by omega), getString_pre g u 341 32 (by omega)]

private theorem announced_of {g : Str} (hg : g.length = 373) {n : Int} (h : NumberField g 238 5 n) {info : StlInfo} (hp : parseGsi g = .ok info) : info.ttiBlocks = n := by
  have e : info.ttiBlocks = atoi (getString g 238 5) := by
    unfold parseGsi at hp
    obtain ⟨_, _, hp⟩ := bind_eq_ok.1 hp
    obtain ⟨_, _, hp⟩ := bind_eq_ok.1 hp
    obtain ⟨_, _, hp⟩ := bind_eq_ok.1 hp
    obtain ⟨_, _, hp⟩ := bind_eq_ok.1 hp
    obtain ⟨_, _, hp⟩ := bind_eq_ok.1 hp
    obtain ⟨_, _, hp⟩ := bind_eq_ok.1 hp
    cases hp
    rfl
  obtain ⟨f, ⟨⟨a, b, rfl, ha⟩, hl⟩, hi⟩ := h
  rw [e, (said_int_iff f (by omega) n).1 hi]
  congr 1
  unfold getString
  rw [List.append_assoc, List.drop_left' ha, List.take_left' hl]

/-! ### C149 -/

/-- C149: files that mean the same in this sense are read alike: the same information and subtitles, or the same error. -/
theorem C149_alike (file file' : Str) (h : StlAlike file file') : stlRead file = stlRead file' := by
  obtain ⟨g, u, u', rest, rest', bs, bs', hg, hu, hu', hb, hr⟩ := h
  have l : (g ++ u).length = 1024 := by rw [List.length_append, hg, hu]
  have l' : (g ++ u').length = 1024 := by rw [List.length_append, hg, hu']
  unfold stlRead readBlock
  rw [if_pos (by rw [List.length_append]; omega), if_pos (by rw [List.length_append]; omega), ok_bind, ok_bind]
  simp only []
  rw [List.take_left' l, List.drop_left' l, List.take_left' l', List.drop_left' l', gsi_alike hg, gsi_alike hg]
  cases hp : parseGsi g with
  | error e => rfl
  | ok info =>
    rw [ok_bind, ok_bind, blocks_alike hb info rest rest' _ _ (hr.imp id ?_)]
    rintro ⟨n, hn, hle⟩
    rw [announced_of hg hn hp]
    omega

/-- A header, a comment and two blocks that have spare bytes, numbers, alignment and unused space as given, and more bytes. -/
private def bytesDemo (spare : Byte) (a : Str) (align : Byte) (comment text rest : Str) : Str :=
  (stlFileDemo b!"00002" []).take 373 ++ List.replicate 651 spare ++
    ([List.replicate 15 spare ++ 1 :: comment, a ++ [0, 0, 1, 0, 0, 0, 3, 12] ++ 3 :: align :: 0 :: text].flatten ++ rest)

example : StlAlike (bytesDemo 32 [0, 1, 0, 255, 0] 2 (List.replicate 112 32) (b!"a" ++ 0x8f :: b!"bc" ++ 0x8a :: b!"d" ++ List.replicate 106 0x8f) [])
    (bytesDemo 0 [7, 7, 7, 7, 7] 0 (List.replicate 112 65) (b!"a" ++ 0x8a :: b!"d" ++ List.replicate 108 0x8f ++ b!"e") b!"more") := by
  refine .mk _ _ _ _ _ _ _ (by decide +kernel) (by decide +kernel) (by decide +kernel)
    (.cons (.comment _ _ _ _ (by decide) (by decide) (by decide +kernel) (by decide +kernel))
      (.cons (.shown _ _ _ _ _ _ _ _ _ (by decide) (by decide) (by decide) (by decide) (by decide) (by decide +kernel) (by decide +kernel) ?_) .nil))
    (.inr ⟨2, ⟨b!"00002", ⟨⟨(stlFileDemo b!"00002" []).take 238, ((stlFileDemo b!"00002" []).take 373).drop 243, by decide +kernel, by decide +kernel⟩, by decide⟩,
      (said_int_iff _ (by decide) _).2 (by decide +kernel)⟩, by decide⟩)
  exact .more (b!"a" ++ 0x8f :: b!"bc") b!"a" (b!"d" ++ List.replicate 106 0x8f) (b!"d" ++ List.replicate 108 0x8f ++ b!"e") (by decide) (by decide) (by unfold RowAlike; decide)
    (.last _ _ (by decide +kernel) (by decide +kernel) (by unfold RowAlike; decide +kernel))

/-- What is read from them, then, are the same two lines. -/
example : ((stlRead (bytesDemo 32 [0, 1, 0, 255, 0] 2 (List.replicate 112 32) (b!"a" ++ 0x8f :: b!"bc" ++ 0x8a :: b!"d" ++ List.replicate 106 0x8f) [])).map fun r => r.2.map (·.text)) = .ok [b!"a", b!"d"] := by
  decide +kernel

/-- C149: bytes that matter.  Files with the same information have the same bytes in the header from 3 to 11, 14 to 237, 255 to 271 and 274 to 372. -/
theorem C149_header (file file' : Str) (info : StlInfo) (subs subs' : List Raw) (h : stlRead file = .ok (info, subs)) (h' : stlRead file' = .ok (info, subs')) (k : Nat)
    (hk : (3 ≤ k ∧ k ≤ 11) ∨ (14 ≤ k ∧ k ≤ 237) ∨ (255 ≤ k ∧ k ≤ 271) ∨ (274 ≤ k ∧ k ≤ 372)) : file[k]? = file'[k]? := by
  obtain ⟨g, rest, bs, _, _, _, _, hg, hh, _⟩ := (C120_exact _ _ _).1 h
  obtain ⟨g', rest', bs', _, _, _, _, hg', hh', _⟩ := (C120_exact _ _ _).1 h'
  rw [List.append_assoc, List.append_assoc, List.getElem?_append_left (by omega), List.getElem?_append_left (by omega)]
  have get : ∀ {g : Str} {off : Nat} {f : Str}, Field g off f → off ≤ k → k < off + f.length → g[k]? = f[k - off]? := by
    rintro g off f ⟨a, b, rfl, rfl⟩ h1 h2
    rw [List.append_assoc, List.getElem?_append_right (by omega), List.getElem?_append_left (by omega)]
  have same : ∀ {off : Nat} {f : Str}, Field g off f → Field g' off f → off ≤ k → k < off + f.length → g[k]? = g'[k]? := by
    intro off f hf hf' h1 h2
    rw [get hf h1 h2, get hf' h1 h2]
  have text : ∀ {off len : Nat} {f : Str}, TextField g off len f → TextField g' off len f → off ≤ k → k < off + len → g[k]? = g'[k]? :=
    fun h h' h1 h2 => same h.1 h'.1 h1 (by rw [h.2]; exact h2)
  have code : ∀ {α : Type} {off len : Nat} {codes : List (Str × α)} {v : α}, CodeField g off codes v → CodeField g' off codes v →
      (∀ p ∈ codes, ∀ q ∈ codes, p.2 = q.2 → p.1 = q.1) → (∀ p ∈ codes, p.1.length = len) → off ≤ k → k < off + len → g[k]? = g'[k]? := by
    rintro α off len codes v ⟨f, hf, m⟩ ⟨f', hf', m'⟩ inj hlen h1 h2
    have e : f = f' := inj _ m _ m' rfl
    subst e
    exact same hf hf' h1 (by have := hlen _ m; simp only [] at this; omega)
  rcases (by omega : (3 ≤ k ∧ k < 11) ∨ (11 ≤ k ∧ k < 12) ∨ (14 ≤ k ∧ k < 16) ∨ (16 ≤ k ∧ k < 48) ∨ (48 ≤ k ∧ k < 80) ∨ (80 ≤ k ∧ k < 112) ∨ (112 ≤ k ∧ k < 144) ∨ (144 ≤ k ∧ k < 176) ∨
      (176 ≤ k ∧ k < 208) ∨ (208 ≤ k ∧ k < 224) ∨ (224 ≤ k ∧ k < 230) ∨ (230 ≤ k ∧ k < 236) ∨ (236 ≤ k ∧ k < 238) ∨ (255 ≤ k ∧ k < 256) ∨ (256 ≤ k ∧ k < 264) ∨ (264 ≤ k ∧ k < 272) ∨
      (274 ≤ k ∧ k < 277) ∨ (277 ≤ k ∧ k < 309) ∨ (309 ≤ k ∧ k < 341) ∨ (341 ≤ k ∧ k < 373)) with
    c | c | c | c | c | c | c | c | c | c | c | c | c | c | c | c | c | c | c | c
  · exact code (len := 8) hh.frameRate hh'.frameRate (by decide +kernel) (by decide +kernel) c.1 c.2
  · exact code (len := 1) hh.displayStandard hh'.displayStandard (by decide +kernel) (by decide +kernel) c.1 c.2
  · exact same hh.language hh'.language c.1 (by have : ∀ n, (hex2 n).length = 2 := fun _ => rfl; rw [this]; exact c.2)
  · exact text hh.originalProgrammeTitle hh'.originalProgrammeTitle c.1 c.2
  · exact text hh.originalEpisodeTitle hh'.originalEpisodeTitle c.1 c.2
  · exact text hh.translatedProgrammeTitle hh'.translatedProgrammeTitle c.1 c.2
  · exact text hh.translatedEpisodeTitle hh'.translatedEpisodeTitle c.1 c.2
  · exact text hh.translatorName hh'.translatorName c.1 c.2
  · exact text hh.translatorContactDetails hh'.translatorContactDetails c.1 c.2
  · exact text hh.subtitleListReferenceCode hh'.subtitleListReferenceCode c.1 c.2
  · exact text hh.creationDate hh'.creationDate c.1 c.2
  · exact text hh.revisionDate hh'.revisionDate c.1 c.2
  · exact text hh.revisionNumber hh'.revisionNumber c.1 c.2
  · exact code (len := 1) hh.timecodeStatus hh'.timecodeStatus (by decide +kernel) (by decide +kernel) c.1 c.2
  · exact text hh.startOfProgramme hh'.startOfProgramme c.1 c.2
  · exact text hh.firstInCue hh'.firstInCue c.1 c.2
  · exact text hh.countryOfOrigin hh'.countryOfOrigin c.1 c.2
  · exact text hh.publisher hh'.publisher c.1 c.2
  · exact text hh.editorName hh'.editorName c.1 c.2
  · exact text hh.editorContactDetails hh'.editorContactDetails c.1 c.2

example : ∃ info subs subs', stlRead (bytesDemo 32 [0, 1, 0, 255, 0] 2 (List.replicate 112 32) (b!"a" ++ List.replicate 111 0x8f) []) = .ok (info, subs) ∧
    stlRead (bytesDemo 0 [0, 1, 0, 255, 0] 1 (List.replicate 112 32) (b!"b" ++ List.replicate 111 0x8f) []) = .ok (info, subs') ∧ subs ≠ subs' := by
  have h : ((stlRead (bytesDemo 32 [0, 1, 0, 255, 0] 2 (List.replicate 112 32) (b!"a" ++ List.replicate 111 0x8f) [])).toOption.map (·.1)) =
      ((stlRead (bytesDemo 0 [0, 1, 0, 255, 0] 1 (List.replicate 112 32) (b!"b" ++ List.replicate 111 0x8f) [])).toOption.map (·.1)) ∧
    ((stlRead (bytesDemo 32 [0, 1, 0, 255, 0] 2 (List.replicate 112 32) (b!"a" ++ List.replicate 111 0x8f) [])).toOption.map (·.2.map (·.text))) = some [b!"a"] ∧
      ((stlRead (bytesDemo 0 [0, 1, 0, 255, 0] 1 (List.replicate 112 32) (b!"b" ++ List.replicate 111 0x8f) [])).toOption.map (·.2.map (·.text))) = some [b!"b"] := by decide +kernel
  obtain ⟨h1, h2, h3⟩ := h
  cases hx : stlRead (bytesDemo 32 [0, 1, 0, 255, 0] 2 (List.replicate 112 32) (b!"a" ++ List.replicate 111 0x8f) []) with
  | error e => rw [hx] at h2; cases h2
  | ok x =>
    cases hy : stlRead (bytesDemo 0 [0, 1, 0, 255, 0] 1 (List.replicate 112 32) (b!"b" ++ List.replicate 111 0x8f) []) with
    | error e => rw [hy] at h3; cases h3
    | ok y =>
      rw [hx, hy] at h1
      rw [hx] at h2
      rw [hy] at h3
      have e : x.1 = y.1 := Option.some.inj h1
      refine ⟨x.1, x.2, y.2, rfl, by rw [e], fun e => ?_⟩
      have h2 : x.2.map (·.text) = _ := Option.some.inj h2
      have h3 : y.2.map (·.text) = _ := Option.some.inj h3
      rw [e, h3] at h2
      exact absurd h2 (by decide)

/-- C149: the byte of the alignment does matter between 1 and 2, and the first byte 8A of a text after a byte 8F: it begins the next row. -/
theorem C149_matters_witness : ((stlRead (bytesDemo 0 [0, 1, 0, 255, 0] 1 (List.replicate 112 32) (b!"a" ++ List.replicate 111 0x8f) [])).map fun r => r.2.map (·.hpos.ref)) = .ok [.left] ∧
    ((stlRead (bytesDemo 0 [0, 1, 0, 255, 0] 2 (List.replicate 112 32) (b!"a" ++ List.replicate 111 0x8f) [])).map fun r => r.2.map (·.hpos.ref)) = .ok [.centre] ∧
    ((stlRead (bytesDemo 0 [0, 1, 0, 255, 0] 1 (List.replicate 112 32) (b!"a" ++ 0x8f :: 0x8a :: b!"b" ++ List.replicate 108 0x8f) [])).map fun r => r.2.map (·.vpos.line)) = .ok [some 3, some 4] := by
  decide +kernel

end LibSub
