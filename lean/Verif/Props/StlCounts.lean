/-
Property C94: the number of characters in the header of a binary STL file.
-/
import Verif.Props.StlHeader

namespace LibSub

/-! ### Specification -/

/-- `n` is the greatest of the numbers that `f` gives for the lines of the subtitles (zero if there are no lines). -/
structure Longest (f : Line → Nat) (subs : List Subtitle) (n : Nat) : Prop where
  bound : ∀ s ∈ subs, ∀ l ∈ s.lines, f l ≤ n
  reached : n = 0 ∨ ∃ s ∈ subs, ∃ l ∈ s.lines, f l = n

/-- The characters of a line. -/
def Line.characters (l : Line) : Nat := (l.blocks.flatMap (fun k => utf8Decode k.text)).length

/-- The bytes of a line. -/
def Line.bytes (l : Line) : Nat := (l.blocks.flatMap (fun k => k.text)).length

/-- Every character of the line is an ASCII one. -/
def Line.Ascii (l : Line) : Prop := ∀ k ∈ l.blocks, ∀ c ∈ k.text, c < 128

/-- C94, full claim: the field "maximum number of displayable characters in any text row" of a written file, as it is read again, is
the number of characters of the longest line. -/
def C94_statement : Prop := ∀ (a : StlArgs) (out : Str) (info : StlInfo) (subs : List Raw), writeStl a = .ok out → stlRead out = .ok (info, subs) →
  ∃ n : Nat, info.maximumCharacters = n ∧ Longest Line.characters a.subtitles n

/-! ### Proofs -/

private theorem foldl_max (ns : List Nat) : ∀ m, m ≤ ns.foldl max m ∧ (∀ n ∈ ns, n ≤ ns.foldl max m) ∧ (ns.foldl max m = m ∨ ns.foldl max m ∈ ns) := by
  induction ns with
  | nil => intro m; simp
  | cons k ns ih =>
    intro m
    obtain ⟨h1, h2, h3⟩ := ih (max m k)
    rw [List.foldl_cons]
    refine ⟨by omega, ?_, ?_⟩
    · intro n hn
      rcases List.mem_cons.1 hn with rfl | hn
      · omega
      · exact h2 n hn
    · rcases h3 with h3 | h3
      · rw [h3]
        rcases Nat.le_total m k with h | h
        · right; simp [Nat.max_eq_right h]
        · left; exact Nat.max_eq_left h
      · right; simp [h3]

/-- C94: what is written is the number of bytes (of UTF-8) of the longest line. -/
theorem C94_bytes (subs : List Subtitle) : Longest Line.bytes subs (stlLongest subs) := by
  have hl : ∀ l : Line, (l.blocks.map (fun b => b.text.length)).sum = l.bytes := by
    intro l
    unfold Line.bytes
    rw [List.length_flatMap]
  obtain ⟨_, h2, h3⟩ := foldl_max (subs.flatMap (fun s => s.lines.map (fun l => (l.blocks.map (fun b => b.text.length)).sum))) 0
  refine ⟨?_, ?_⟩
  · intro s hs l hm
    rw [← hl]
    exact h2 _ (List.mem_flatMap.2 ⟨s, hs, List.mem_map.2 ⟨l, hm, rfl⟩⟩)
  · rcases h3 with h3 | h3
    · exact .inl h3
    · obtain ⟨s, hs, h⟩ := List.mem_flatMap.1 h3
      obtain ⟨l, hm, h⟩ := List.mem_map.1 h
      exact .inr ⟨s, hs, l, hm, by rw [← hl]; exact h⟩

private theorem decode_ascii (t : Str) (h : ∀ c ∈ t, c < 128) : (utf8Decode t).length = t.length := by
  unfold utf8Decode
  induction t with
  | nil => rfl
  | cons c t ih =>
    have hc := h c (by simp)
    have h0 : trailLength c = some 0 := by
      have := forall_byte (p := fun c => c < 128 → trailLength c = some 0) (by decide +kernel) c
      exact this hc
    rw [utf8DecodeGo, h0]
    simp only [List.length_cons]
    rw [ih (fun c hc => h c (by simp [hc]))]

private theorem ascii_line (l : Line) (h : ∀ k ∈ l.blocks, ∀ c ∈ k.text, c < 128) : l.bytes = l.characters := by
  unfold Line.bytes Line.characters
  generalize l.blocks = ks at h
  induction ks with
  | nil => rfl
  | cons k ks ih =>
    rw [List.flatMap_cons, List.flatMap_cons, List.length_append, List.length_append, ih (fun k hk => h k (by simp [hk])), decode_ascii _ (h k (by simp))]

/-- C94, for texts of ASCII characters and lines of at most 99 of them: the field is the number of characters of the longest line,
in any locale. -/
theorem C94_ascii_partial (l : Locale) (hl : SaneLocale l) (ht : l.thousandsSep.head? ≠ some 45) (a : StlArgs) (blocks : List Str) (out : Str)
    (hb : makeTtiBlocks a.fps a.subtitles = .ok blocks) (hc : a.Counts blocks) (ho : writeStlIn l a = .ok out)
    (h1 : blocks.length < 100000) (h2 : a.subtitles.length < 100000) (hshort : ∀ s ∈ a.subtitles, ∀ m ∈ s.lines, m.characters < 100)
    (hascii : ∀ s ∈ a.subtitles, ∀ m ∈ s.lines, ∀ k ∈ m.blocks, ∀ c ∈ k.text, c < 128) :
    ∃ info n, parseGsi (out.take 1024) = .ok info ∧ info.maximumCharacters = (n : Nat) ∧ Longest Line.characters a.subtitles n := by
  have hbytes := C94_bytes a.subtitles
  have hlong : Longest Line.characters a.subtitles (stlLongest a.subtitles) := by
    refine ⟨?_, ?_⟩
    · intro s hs m hm
      rw [← ascii_line m (hascii s hs m hm)]
      exact hbytes.bound s hs m hm
    · rcases hbytes.reached with h | ⟨s, hs, m, hm, h⟩
      · exact .inl h
      · exact .inr ⟨s, hs, m, hm, by rw [← ascii_line m (hascii s hs m hm)]; exact h⟩
  have h3 : stlLongest a.subtitles < 100 := by
    rcases hlong.reached with h | ⟨s, hs, m, hm, h⟩
    · omega
    · have := hshort s hs m hm
      omega
  obtain ⟨w, _, h⟩ := C56_metadata l hl ht a blocks out hb hc ho h1 h2 h3
  exact ⟨_, stlLongest a.subtitles, h, rfl, hlong⟩

private theorem decode_le (t : Str) : ∀ p, (utf8DecodeGo p t).length ≤ t.length := by
  induction t with
  | nil => intro p; cases p <;> simp [utf8DecodeGo]
  | cons c t ih =>
    intro p
    cases p with
    | none =>
      rw [utf8DecodeGo]
      split
      · have := ih none; simp only [List.length_cons]; omega
      · have := ih none; simp only [List.length_cons]; omega
      · simp only [List.length_cons]; exact Nat.le_succ_of_le (ih _)
    | some p =>
      rw [utf8DecodeGo]
      split
      · simp only
        split
        · split
          · have := ih none; simp only [List.length_cons]; omega
          · have := ih none; simp only [List.length_cons]; omega
        · have := ih (some ⟨p.total, p.need - 1, p.acc * 64 + c.toNat % 64⟩); simp only [List.length_cons]; omega
      · have := ih none; simp only [List.length_cons]; omega

private theorem decode_lt (t : Str) (h : (utf8Decode t).length = t.length) : ∀ c ∈ t, c < 128 := by
  unfold utf8Decode at h
  induction t with
  | nil => simp
  | cons c t ih =>
    by_cases hc : c < 128
    · have h0 : trailLength c = some 0 := by unfold trailLength; rw [if_pos hc]
      rw [utf8DecodeGo, h0] at h
      simp only [List.length_cons] at h
      intro d hd
      rcases List.mem_cons.1 hd with rfl | hd
      · exact hc
      · exact ih (by omega) d hd
    · exfalso
      have hne : trailLength c ≠ some 0 := by
        have := forall_byte (p := fun c => ¬ c < 128 → trailLength c ≠ some 0) (by decide +kernel) c
        exact this hc
      rw [utf8DecodeGo] at h
      split at h
      · have := decode_le t none; simp only [List.length_cons] at h; omega
      · exact hne ‹_›
      · exact absurd (h ▸ decode_le t _) (by simp)

private theorem line_le (l : Line) : l.characters ≤ l.bytes ∧ (l.characters = l.bytes → l.Ascii) := by
  unfold Line.bytes Line.characters Line.Ascii
  generalize l.blocks = ks
  induction ks with
  | nil => simp
  | cons k ks ih =>
    rw [List.flatMap_cons, List.flatMap_cons, List.length_append, List.length_append]
    have hk := decode_le k.text none
    have hk' : (utf8Decode k.text).length ≤ k.text.length := hk
    refine ⟨by omega, fun h => ?_⟩
    intro j hj
    rcases List.mem_cons.1 hj with rfl | hj
    · exact decode_lt _ (by omega)
    · exact ih.2 (by omega) j hj

/-- C94, exactly when the field is right (lines of at most 99 bytes, any locale): there are no lines, or one of the lines with the
most bytes is of ASCII characters only. -/
theorem C94_exact (l : Locale) (hl : SaneLocale l) (ht : l.thousandsSep.head? ≠ some 45) (a : StlArgs) (blocks : List Str) (out : Str) (info : StlInfo)
    (hb : makeTtiBlocks a.fps a.subtitles = .ok blocks) (hc : a.Counts blocks) (ho : writeStlIn l a = .ok out)
    (h1 : blocks.length < 100000) (h2 : a.subtitles.length < 100000) (hshort : ∀ s ∈ a.subtitles, ∀ m ∈ s.lines, m.bytes < 100)
    (hinfo : parseGsi (out.take 1024) = .ok info) :
    (∃ n : Nat, info.maximumCharacters = n ∧ Longest Line.characters a.subtitles n) ↔
      (∀ s ∈ a.subtitles, s.lines = []) ∨
      ∃ s ∈ a.subtitles, ∃ m ∈ s.lines, m.Ascii ∧ ∀ s' ∈ a.subtitles, ∀ m' ∈ s'.lines, m'.bytes ≤ m.bytes := by
  have hbytes := C94_bytes a.subtitles
  have h3 : stlLongest a.subtitles < 100 := by
    rcases hbytes.reached with h | ⟨s, hs, m, hm, h⟩
    · omega
    · have := hshort s hs m hm
      omega
  obtain ⟨w, _, h⟩ := C56_metadata l hl ht a blocks out hb hc ho h1 h2 h3
  rw [h] at hinfo
  cases hinfo
  constructor
  · rintro ⟨n, hn, hlong⟩
    have hn : ((stlLongest a.subtitles : Nat) : Int) = n := hn
    have hn : stlLongest a.subtitles = n := by exact_mod_cast hn
    subst hn
    by_cases hz : ∀ s ∈ a.subtitles, s.lines = []
    · exact .inl hz
    · right
      have hreach : ∃ s ∈ a.subtitles, ∃ m ∈ s.lines, m.characters = stlLongest a.subtitles := by
        rcases hlong.reached with h0 | h0
        · push Not at hz
          obtain ⟨s, hs, hne⟩ := hz
          obtain ⟨m, hm⟩ := List.exists_mem_of_ne_nil _ hne
          exact ⟨s, hs, m, hm, by have := hlong.bound s hs m hm; omega⟩
        · exact h0
      obtain ⟨s, hs, m, hm, he⟩ := hreach
      have hle := line_le m
      have hbd := hbytes.bound s hs m hm
      refine ⟨s, hs, m, hm, hle.2 (by omega), fun s' hs' m' hm' => ?_⟩
      have := hbytes.bound s' hs' m' hm'
      omega
  · intro hr
    refine ⟨stlLongest a.subtitles, rfl, ?_⟩
    refine ⟨fun s hs m hm => le_trans (line_le m).1 (hbytes.bound s hs m hm), ?_⟩
    rcases hr with hz | ⟨s, hs, m, hm, ha, hmax⟩
    · left
      rcases hbytes.reached with h0 | ⟨s, hs, m, hm, _⟩
      · exact h0
      · rw [hz s hs] at hm; cases hm
    · right
      refine ⟨s, hs, m, hm, ?_⟩
      rw [← ascii_line m ha]
      have hbd := hbytes.bound s hs m hm
      rcases hbytes.reached with h0 | ⟨s', hs', m', hm', h0⟩
      · omega
      · have := hmax s' hs' m' hm'; omega

private def accents : StlArgs :=
  { stlDemo with subtitles := [{ from_ := ⟨3, 12, some ⟨25, 1⟩⟩, to_ := ⟨5, 0, some ⟨25, 1⟩⟩, lines := [{ vpos := { prop := some (1 / 2), ref := some .topOfScreen }, blocks := [{ text := [195, 169, 195, 169] }] }] }] }

private theorem accents_read : (((writeStl accents).bind stlRead).toOption.map (fun r => r.1.maximumCharacters)) = some 4 := by decide +kernel

/-- C94 is false: bytes are counted, so a line of two accented letters counts as four characters. -/
theorem C94_false : ¬ C94_statement := by
  intro h
  have e := accents_read
  cases hw : writeStl accents with
  | error e' => rw [hw] at e; cases e
  | ok out =>
    rw [hw] at e
    cases hr : stlRead out with
    | error e' =>
      have : (Except.bind (.ok out : R Str) stlRead) = stlRead out := rfl
      rw [this, hr] at e; cases e
    | ok r =>
      have : (Except.bind (.ok out : R Str) stlRead) = stlRead out := rfl
      rw [this, hr] at e
      obtain ⟨n, h1, h2⟩ := h accents out r.1 r.2 hw hr
      have e : r.1.maximumCharacters = 4 := Option.some.inj e
      rw [h1] at e
      have hn : n = 4 := by exact_mod_cast e
      subst hn
      have key : ∀ s ∈ accents.subtitles, ∀ l ∈ s.lines, l.characters = 2 := by decide +kernel
      rcases h2.reached with h | ⟨s, hs, l, hl, h⟩
      · cases h
      · rw [key s hs l hl] at h
        cases h

/-- A file `C94_ascii_partial` speaks about, with lines of up to eleven characters. -/
example : ∃ blocks, makeTtiBlocks 25 (stlDemo.subtitles.take 1) = .ok blocks ∧
    (∀ s ∈ stlDemo.subtitles.take 1, ∀ m ∈ s.lines, m.characters < 100) ∧ (∀ s ∈ stlDemo.subtitles.take 1, ∀ m ∈ s.lines, ∀ k ∈ m.blocks, ∀ c ∈ k.text, c < 128) := by
  have h : (makeTtiBlocks 25 (stlDemo.subtitles.take 1)).toOption.isSome = true := by decide +kernel
  obtain ⟨b, hb⟩ := Option.isSome_iff_exists.1 h
  refine ⟨b, ?_, by decide +kernel, by decide +kernel⟩
  cases hm : makeTtiBlocks 25 (stlDemo.subtitles.take 1) with
  | error e => rw [hm] at hb; cases hb
  | ok v => rw [hm] at hb; cases hb; rfl

example : Longest Line.characters (stlDemo.subtitles.take 1) 11 := by
  refine ⟨by decide +kernel, .inr ?_⟩
  decide +kernel

/-- Both sides of `C94_exact`: the ASCII line has eleven bytes, and the other, of accented letters, four; or six and eight. -/
example : (∀ k ∈ (⟨{}, {}, [{ text := b!"Hello world" }]⟩ : Line).blocks, ∀ c ∈ k.text, c < 128) ∧
    (⟨{}, {}, [{ text := [195, 169, 195, 169] }]⟩ : Line).bytes ≤ (⟨{}, {}, [{ text := b!"Hello world" }]⟩ : Line).bytes ∧
    ¬ ((⟨{}, {}, [{ text := [195, 169, 195, 169, 195, 169, 195, 169] }]⟩ : Line).bytes ≤ (⟨{}, {}, [{ text := b!"Hello!" }]⟩ : Line).bytes) := by decide +kernel

end LibSub
