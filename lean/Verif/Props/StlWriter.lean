/-
Properties C58 … C62 of the binary STL writer (src/stl_binary_writer.cc).
-/
import Verif.Spec.Stl
import Verif.Props.StlHeader
import Verif.Props.Iso6937
import Verif.Props.TimeFloat

namespace LibSub

/-! ### C58  long subtitles -/

/-- The pieces of `text`: what the blocks of a subtitle with text `text` must be. -/
structure Pieces (text : Str) (cs : List (Byte × Str)) : Prop where
  /-- nothing is lost, the rest of the last block is filled -/
  joined : (cs.map (·.2)).flatten = text ++ List.replicate (112 * cs.length - text.length) 0x8f
  /-- each is full -/
  size : ∀ c ∈ cs, c.2.length = 112
  /-- no more are used than necessary -/
  few : 112 * cs.length < text.length + 112
  /-- numbers count up -/
  number : ∀ i c, cs[i]? = some c → i + 1 < cs.length → c.1 = UInt8.ofNat i
  /-- the last is marked FF -/
  last : ∀ c, cs.getLast? = some c → c.1 = 0xff

private theorem lowByte_nat (n : Nat) : lowByte n = UInt8.ofNat n := by
  unfold lowByte
  have : (Int.emod (n : Int) 256).toNat = n % 256 := by
    have : Int.emod (n : Int) 256 = ((n % 256 : Nat) : Int) := rfl
    rw [this]; rfl
  rw [this]
  apply UInt8.toNat_inj.1
  simp

private theorem chunks_pieces : ∀ (fuel number : Nat) (text : Str), text.length ≤ fuel →
    ((writerChunks fuel number text).map (·.2)).flatten = text ++ List.replicate (112 * (writerChunks fuel number text).length - text.length) 0x8f ∧
    112 * (writerChunks fuel number text).length < text.length + 112 ∧ (text.length ≤ 112 * (writerChunks fuel number text).length) ∧
    (∀ i c, (writerChunks fuel number text)[i]? = some c → i + 1 < (writerChunks fuel number text).length → c.1 = UInt8.ofNat (number + i)) ∧
    (∀ c, (writerChunks fuel number text).getLast? = some c → c.1 = 0xff) := by
  intro fuel
  induction fuel with
  | zero =>
    intro number text h
    have : text = [] := List.length_eq_zero_iff.1 (by omega)
    subst this
    simp [writerChunks]
  | succ fuel ih =>
    intro number text h
    rw [writerChunks]
    by_cases ht : text = []
    · subst ht; simp
    · rw [if_neg (by simpa using ht)]
      simp only []
      have hpos : 0 < text.length := List.length_pos_iff.2 ht
      obtain ⟨i1, i2, i3, i4, i5⟩ := ih (number + 1) (text.drop 112) (by simp; omega)
      obtain ⟨cs, hcs⟩ : ∃ cs, cs = writerChunks fuel (number + 1) (text.drop 112) := ⟨_, rfl⟩
      rw [← hcs] at i1 i2 i3 i4 i5 ⊢
      simp only [List.length_drop] at i2 i3
      refine ⟨?_, ?_, ?_, ?_, ?_⟩
      · simp only [List.map_cons, List.flatten_cons, i1, List.length_cons]
        by_cases hl : text.length ≤ 112
        · have hcs0 : cs.length = 0 := by omega
          have hd : text.drop 112 = [] := List.drop_eq_nil_of_le hl
          rw [hd, List.take_of_length_le hl, hcs0]
          simp
        · have : (text.take 112).length = 112 := by simp; omega
          rw [this]
          simp only [Nat.sub_self, List.replicate_zero, List.append_nil, List.length_drop]
          rw [← List.append_assoc, List.take_append_drop]
          congr 2
          omega
      · simp only [List.length_cons]; omega
      · simp only [List.length_cons]; omega
      · intro i c hc hi
        cases i with
        | zero =>
          simp only [List.getElem?_cons_zero, Option.some.injEq] at hc
          subst hc
          simp only [List.length_cons] at hi
          have : (text.drop 112).isEmpty = false := by
            cases hd : text.drop 112 with
            | nil =>
              have : (text.drop 112).length = 0 := by rw [hd]; rfl
              rw [List.length_drop] at this
              omega
            | cons _ _ => rfl
          simp only [this, Bool.false_eq_true, if_false, lowByte_nat, Nat.add_zero]
        | succ i =>
          simp only [List.getElem?_cons_succ] at hc
          simp only [List.length_cons] at hi
          rw [i4 i c hc (by omega)]
          congr 1; omega
      · intro c hc
        cases hcs' : cs with
        | nil =>
          rw [hcs'] at hc i3
          simp only [List.getLast?_singleton, Option.some.injEq] at hc
          subst hc
          simp only [List.length_nil] at i3
          have : text.drop 112 = [] := List.drop_eq_nil_of_le (by omega)
          rw [this]; rfl
        | cons d ds =>
          rw [hcs'] at hc i5
          rw [List.getLast?_cons_cons] at hc
          exact i5 c hc

/-- C58: the blocks of a subtitle are its text in pieces of 112 bytes, each behind the same 15 bytes and its number. -/
theorem C58_chunks (fps : ℚ) (s : Subtitle) (bs : List Str) (h : ttiBlocks fps s = .ok bs) :
    ∃ vps text, writerVposes s.lines = .ok vps ∧ writerText (s.lines.zip vps) = .ok text ∧ bs ≠ [] ∧
      Pieces text (bs.map (fun b => (b.getD 3 0, b.drop 16))) ∧
      ∀ b ∈ bs, ∀ c ∈ bs, b.take 3 = c.take 3 ∧ (b.drop 4).take 12 = (c.drop 4).take 12 := by
  unfold ttiBlocks at h
  simp only [bind_eq_ok] at h
  obtain ⟨vps, hv, text, htext, _, _, _, _, _, _, _, _, _, _, h⟩ := h
  refine ⟨vps, text, hv, htext, ?_⟩
  split at h
  · cases h
  · simp only [bind_eq_ok] at h
    obtain ⟨_, _, _, _, h⟩ := h
    have hne : text ≠ [] := by
      unfold writerText at htext
      obtain ⟨⟨t, st⟩, _, htext⟩ := bind_eq_ok.mp htext
      cases htext
      simp
    obtain ⟨i1, i2, i3, i4, i5⟩ := chunks_pieces text.length 0 text (le_refl _)
    have hsz := fun c => writerChunks_length text.length 0 text c
    obtain ⟨cs, hcs⟩ : ∃ cs, cs = writerChunks text.length 0 text := ⟨_, rfl⟩
    rw [← hcs] at h i1 i2 i3 i4 i5 hsz
    cases h
    rw [List.map_map]
    have hm : ∀ f : Byte × Str → Byte × Str, (∀ c, f c = c) → cs.map f = cs := by
      intro f hf
      rw [show f = id from funext hf, List.map_id]
    rw [hm]
    · refine ⟨?_, ⟨i1, hsz, i2, ?_, i5⟩, ?_⟩
      · intro hnil
        have : cs = [] := List.map_eq_nil_iff.1 hnil
        rw [this] at i3
        exact hne (List.length_eq_zero_iff.1 (by simpa using i3))
      · intro i c hc hi
        rw [i4 i c hc hi, Nat.zero_add]
      · intro b hb c hc
        obtain ⟨b', _, rfl⟩ := List.mem_map.1 hb
        obtain ⟨c', _, rfl⟩ := List.mem_map.1 hc
        exact ⟨rfl, rfl⟩
    · intro c
      rfl

/-- A subtitle of one line at the top. -/
private def oneLine (text : Str) : Subtitle :=
  { from_ := ⟨1, 0, some ⟨25, 1⟩⟩, to_ := ⟨2, 0, some ⟨25, 1⟩⟩, lines := [{ vpos := { prop := some 0 }, blocks := [{ text := text }] }] }

/-- 111 bytes and the end mark fill one block, 112 need two, 230 three. -/
example : (ttiBlocks 25 (oneLine (List.replicate 111 97))).toOption.map (·.map (·.getD 3 0)) = some [0xff] ∧
    (ttiBlocks 25 (oneLine (List.replicate 112 97))).toOption.map (·.map (·.getD 3 0)) = some [0, 0xff] ∧
    (ttiBlocks 25 (oneLine (List.replicate 230 97))).toOption.map (·.map (·.getD 3 0)) = some [0, 1, 0xff] := by decide +kernel

/-! ### C59  style codes -/

/-- The ISO 6937 bytes of some UTF-8 text. -/
def encoded (t : Str) : Str := (isoEncode (utf8Decode t)).toOption.getD []

theorem isoEncode_encoded (t : Str) : isoEncode (utf8Decode t) = .ok (encoded t) := by
  obtain ⟨t', o1, _, h, _, _⟩ := C52_append .start (utf8Decode t) []
  unfold encoded isoEncode
  rw [h]; rfl

theorem encoded_plain (t : Str) : ∀ b ∈ encoded t, ¬ StlControl b := C51_fresh _ _ (isoEncode_encoded t)

/-- The rows on which lines at the given vertical positions appear, counted from the first: a line goes down from the
one before by the difference of their positions, if that is positive. -/
def rowsFrom : Nat → Int → List Int → List Nat
  | _, _, [] => []
  | row, last, v :: vs => (row + (v - last).toNat) :: rowsFrom (row + (v - last).toNat) v vs

/-- `rowsFrom` beginning at the first. -/
def rowsOf : List Int → List Nat
  | [] => []
  | v :: vs => 0 :: rowsFrom 0 v vs

/-- What a decoder must show: every byte of every block on the row of its line with the block's flags. -/
def written (lines : List (Line × Nat)) : List (Pen × Byte) :=
  lines.flatMap (fun j => j.1.blocks.flatMap (fun k => (encoded k.text).map (fun b => (({ row := j.2, italic := k.italic, underline := k.underline } : Pen), b))))

theorem play_append (s t : Str) : ∀ (p : Pen) (e : Bool), play p e (s ++ t) = play p e s ++ play (playEnd p e s).1 (playEnd p e s).2 t := by
  induction s with
  | nil => intro p e; rfl
  | cons c s ih =>
    intro p e
    rw [List.cons_append, play, play, playEnd]
    split
    · exact ih _ _
    · split
      · exact ih _ _
      · cases p.code c with
        | some p' => exact ih _ _
        | none => simp only [ih, List.cons_append]

theorem playEnd_append (s t : Str) : ∀ (p : Pen) (e : Bool), playEnd p e (s ++ t) = playEnd (playEnd p e s).1 (playEnd p e s).2 t := by
  induction s with
  | nil => intro p e; rfl
  | cons c s ih =>
    intro p e
    rw [List.cons_append, playEnd, playEnd]
    split
    · exact ih _ _
    · split
      · exact ih _ _
      · cases p.code c with
        | some p' => exact ih _ _
        | none => exact ih _ _

theorem Pen.code_plain (p : Pen) (c : Byte) (h : ¬ StlControl c) : p.code c = none ∧ c ≠ 0x8a ∧ c ≠ 0x8f := by
  unfold StlControl at h
  unfold Pen.code
  simp only [not_or, not_and] at h
  obtain ⟨h1, h2⟩ := h
  refine ⟨?_, fun e => ?_, fun e => ?_⟩
  · rw [if_neg h1, if_neg, if_neg, if_neg, if_neg] <;>
    · rintro rfl
      exact h2 (by decide) (by decide)
  · subst e; exact h2 (by decide) (by decide)
  · subst e; exact h2 (by decide) (by decide)

theorem play_plain (s : Str) (h : ∀ b ∈ s, ¬ StlControl b) (p : Pen) : play p false s = s.map (fun b => (p, b)) ∧ playEnd p false s = (p, false) := by
  induction s with
  | nil => exact ⟨rfl, rfl⟩
  | cons c s ih =>
    obtain ⟨h1, h2, h3⟩ := p.code_plain c (h c (by simp))
    obtain ⟨i1, i2⟩ := ih (fun b hb => h b (by simp [hb]))
    rw [play, playEnd, if_neg h2, if_neg h2, if_neg (by simp [h3]), if_neg (by simp [h3]), h1]
    exact ⟨by simp only [i1, List.map_cons], i2⟩

private theorem play_codes (st : StyleState) (k : Block) (p : Pen) (h1 : p.italic = st.italic) (h2 : p.underline = st.underline) :
    play p false (styleCodes st k) = [] ∧ playEnd p false (styleCodes st k) = ({ p with italic := k.italic, underline := k.underline }, false) := by
  obtain ⟨row, col, pi, pu⟩ := p
  obtain ⟨si, su⟩ := st
  simp only at h1 h2
  subst h1 h2
  unfold styleCodes
  cases pi <;> cases pu <;> cases hi : k.italic <;> cases hu : k.underline <;> exact ⟨rfl, rfl⟩

private theorem play_blocks (ks : List Block) : ∀ (st st' : StyleState) (t : Str) (p : Pen), p.italic = st.italic → p.underline = st.underline →
    writerBlocks st ks = .ok (t, st') →
    play p false t = ks.flatMap (fun k => (encoded k.text).map (fun b => (({ p with italic := k.italic, underline := k.underline } : Pen), b))) ∧
    playEnd p false t = ({ p with italic := st'.italic, underline := st'.underline }, false) := by
  induction ks with
  | nil =>
    intro st st' t p h1 h2 h
    cases h
    simp only [← h1, ← h2]
    exact ⟨rfl, rfl⟩
  | cons k ks ih =>
    intro st st' t p h1 h2 h
    rw [writerBlocks, isoEncode_encoded, ok_bind] at h
    obtain ⟨⟨rest, st2⟩, hr, h⟩ := bind_eq_ok.mp h
    cases h
    obtain ⟨c1, c2⟩ := play_codes st k p h1 h2
    obtain ⟨i1, i2⟩ := ih _ _ _ { p with italic := k.italic, underline := k.underline } rfl rfl hr
    obtain ⟨e1, e2⟩ := play_plain (encoded k.text) (encoded_plain _) { p with italic := k.italic, underline := k.underline }
    simp only [play_append, playEnd_append, c1, c2, e1, e2, i1, i2, List.flatMap_cons, List.nil_append]
    exact ⟨trivial, trivial⟩

private theorem play_newlines (n : Nat) : ∀ p : Pen, p.colour = ⟨1, 1, 1⟩ → play p false (List.replicate n 0x8a) = [] ∧
    playEnd p false (List.replicate n 0x8a) = ({ p with row := p.row + n }, false) := by
  induction n with
  | zero => intro p _; exact ⟨rfl, rfl⟩
  | succ n ih =>
    intro p hp
    rw [List.replicate_succ, play, playEnd, if_pos rfl, if_pos rfl]
    obtain ⟨i1, i2⟩ := ih { p with row := p.row + 1, colour := ⟨1, 1, 1⟩ } rfl
    refine ⟨i1, i2.trans ?_⟩
    obtain ⟨row, col, it, un⟩ := p
    simp only at hp
    subst hp
    simp only [Nat.add_assoc, Nat.add_comm 1 n]

private theorem play_lines (js : List (Line × Int)) : ∀ (st st' : StyleState) (last : Int) (t : Str) (p : Pen), p.italic = st.italic → p.underline = st.underline →
    p.colour = ⟨1, 1, 1⟩ → writerLines st (some last) js = .ok (t, st') →
    play p false t = written ((js.map (·.1)).zip (rowsFrom p.row last (js.map (·.2)))) ∧
    ∃ row, playEnd p false t = ({ p with row := row, italic := st'.italic, underline := st'.underline }, false) := by
  induction js with
  | nil =>
    intro st st' last t p h1 h2 h3 h
    cases h
    simp only [← h1, ← h2]
    exact ⟨rfl, p.row, rfl⟩
  | cons j js ih =>
    intro st st' last t p h1 h2 h3 h
    obtain ⟨j, vp⟩ := j
    rw [writerLines] at h
    simp only at h
    obtain ⟨⟨tb, stb⟩, hb, h⟩ := bind_eq_ok.mp h
    obtain ⟨⟨rest, st2⟩, hr, h⟩ := bind_eq_ok.mp h
    cases h
    obtain ⟨n1, n2⟩ := play_newlines (vp - last).toNat p h3
    obtain ⟨b1, b2⟩ := play_blocks j.blocks _ _ _ { p with row := p.row + (vp - last).toNat } h1 h2 hb
    obtain ⟨i1, row, i2⟩ := ih _ _ _ _ { p with row := p.row + (vp - last).toNat, italic := stb.italic, underline := stb.underline } rfl rfl h3 hr
    refine ⟨?_, row, ?_⟩
    · simp only [writerBreaks, play_append, playEnd_append, n1, n2, b1, b2, i1, List.nil_append]
      obtain ⟨prow, col, it, un⟩ := p
      simp only at h3
      subst h3
      simp only [written, List.map_cons, rowsFrom, List.zip_cons_cons, List.flatMap_cons]
    · simp only [writerBreaks, playEnd_append, n2, b2, i2]

/-- C59: a decoder walking through the text of a written subtitle shows every character of every block, on the row
of its line, italic and underlined exactly as the block says, and ends with both off. -/
theorem C59_shown (lines : List (Line × Int)) (text : Str) (h : writerText lines = .ok text) :
    play {} false text = written ((lines.map (·.1)).zip (rowsOf (lines.map (·.2)))) ∧
    (playEnd {} false text).1.italic = false ∧ (playEnd {} false text).1.underline = false := by
  unfold writerText at h
  obtain ⟨⟨t, st⟩, hl, h⟩ := bind_eq_ok.mp h
  cases h
  have key : play {} false t = written ((lines.map (·.1)).zip (rowsOf (lines.map (·.2)))) ∧
      ∃ row, playEnd {} false t = ({ row := row, italic := st.italic, underline := st.underline }, false) := by
    cases lines with
    | nil => cases hl; exact ⟨rfl, 0, rfl⟩
    | cons j js =>
      obtain ⟨j, vp⟩ := j
      rw [writerLines] at hl
      simp only at hl
      obtain ⟨⟨tb, stb⟩, hb, hl⟩ := bind_eq_ok.mp hl
      obtain ⟨⟨rest, st2⟩, hr, hl⟩ := bind_eq_ok.mp hl
      cases hl
      obtain ⟨b1, b2⟩ := play_blocks j.blocks _ _ _ {} rfl rfl hb
      obtain ⟨i1, row, i2⟩ := play_lines js _ _ _ _ { italic := stb.italic, underline := stb.underline } rfl rfl rfl hr
      refine ⟨?_, row, ?_⟩
      · simp only [writerBreaks, play_append, b1, b2, i1, List.nil_append, written, List.map_cons, rowsOf, List.zip_cons_cons, List.flatMap_cons]
      · simp only [writerBreaks, playEnd_append, List.nil_append, b2, i2]
  obtain ⟨k1, row, k2⟩ := key
  obtain ⟨si, su⟩ := st
  simp only [play_append, playEnd_append, k1, k2]
  cases si <;> cases su <;> simp [play, playEnd, Pen.code]

/-- The second line is two rows down; `o` is the only thing that changes within the first. -/
example : (writerText [({ blocks := [{ text := b!"N" }, { text := b!"o", italic := true }] }, 18), ({ blocks := [{ text := b!"!", underline := true }] }, 20)]).toOption =
      some [78, 0x80, 111, 0x8a, 0x8a, 0x82, 0x81, 33, 0x83, 0x8f] ∧
    play {} false [78, 0x80, 111, 0x8a, 0x8a, 0x82, 0x81, 33, 0x83, 0x8f] =
      [({}, 78), ({ italic := true }, 111), ({ row := 2, underline := true }, 33)] := by
  constructor <;> decide +kernel

private theorem switched_skip (on off : Byte) (s u : Str) (h : ∀ b ∈ s, b ≠ on ∧ b ≠ off) (st : Bool) : switched on off st (s ++ u) = switched on off st u := by
  induction s with
  | nil => rfl
  | cons c s ih =>
    rw [List.cons_append, switched, if_neg (h c (by simp)).1, if_neg (h c (by simp)).2, ih (fun b hb => h b (by simp [hb]))]

private theorem not_control {b : Byte} (h : ¬ StlControl b) : b ≠ 0x80 ∧ b ≠ 0x81 ∧ b ≠ 0x82 ∧ b ≠ 0x83 := by
  unfold StlControl at h
  refine ⟨?_, ?_, ?_, ?_⟩ <;> · rintro rfl; exact h (by decide)

private theorem switched_blocks (ks : List Block) : ∀ (st st' : StyleState) (t : Str), writerBlocks st ks = .ok (t, st') → ∀ u,
    switched 0x80 0x81 st.italic (t ++ u) = switched 0x80 0x81 st'.italic u ∧ switched 0x82 0x83 st.underline (t ++ u) = switched 0x82 0x83 st'.underline u := by
  induction ks with
  | nil => intro st st' t h u; cases h; exact ⟨rfl, rfl⟩
  | cons k ks ih =>
    intro st st' t h u
    rw [writerBlocks, isoEncode_encoded, ok_bind] at h
    obtain ⟨⟨rest, st2⟩, hr, h⟩ := bind_eq_ok.mp h
    cases h
    have hp := encoded_plain k.text
    obtain ⟨i1, i2⟩ := ih _ _ _ hr u
    have e1 := switched_skip 0x80 0x81 (encoded k.text) (rest ++ u) (fun b hb => ⟨(not_control (hp b hb)).1, (not_control (hp b hb)).2.1⟩) k.italic
    have e2 := switched_skip 0x82 0x83 (encoded k.text) (rest ++ u) (fun b hb => ⟨(not_control (hp b hb)).2.2.1, (not_control (hp b hb)).2.2.2⟩) k.underline
    rw [i1] at e1
    rw [i2] at e2
    rw [← e1, ← e2, List.append_assoc, List.append_assoc]
    obtain ⟨v, hv⟩ : ∃ v, v = encoded k.text ++ (rest ++ u) := ⟨_, rfl⟩
    rw [← hv]
    obtain ⟨si, su⟩ := st
    unfold styleCodes
    cases si <;> cases su <;> cases k.italic <;> cases k.underline <;> simp [switched]

private theorem switched_lines (js : List (Line × Int)) : ∀ (st st' : StyleState) (last : Option Int) (t : Str), writerLines st last js = .ok (t, st') → ∀ u,
    switched 0x80 0x81 st.italic (t ++ u) = switched 0x80 0x81 st'.italic u ∧ switched 0x82 0x83 st.underline (t ++ u) = switched 0x82 0x83 st'.underline u := by
  induction js with
  | nil => intro st st' last t h u; cases h; exact ⟨rfl, rfl⟩
  | cons j js ih =>
    intro st st' last t h u
    obtain ⟨j, vp⟩ := j
    rw [writerLines] at h
    simp only at h
    obtain ⟨⟨tb, stb⟩, hb, h⟩ := bind_eq_ok.mp h
    obtain ⟨⟨rest, st2⟩, hr, h⟩ := bind_eq_ok.mp h
    cases h
    obtain ⟨i1, i2⟩ := ih _ _ _ _ hr u
    obtain ⟨b1, b2⟩ := switched_blocks _ _ _ _ hb (rest ++ u)
    have hn : ∀ b ∈ writerBreaks last vp, b = 0x8a := by
      intro b hb
      unfold writerBreaks at hb
      split at hb
      · exact List.eq_of_mem_replicate hb
      · cases hb
    simp only [List.append_assoc] at i1 i2 ⊢
    constructor
    · exact (switched_skip _ _ (writerBreaks last vp) _ (fun b hb => by rw [hn b hb]; decide) _).trans (b1.trans i1)
    · exact (switched_skip _ _ (writerBreaks last vp) _ (fun b hb => by rw [hn b hb]; decide) _).trans (b2.trans i2)

/-- C59: in the text of a written subtitle italic on and off alternate, beginning with on and ending with off; so do
underline on and off. -/
theorem C59_switched (lines : List (Line × Int)) (text : Str) (h : writerText lines = .ok text) :
    switched 0x80 0x81 false text = true ∧ switched 0x82 0x83 false text = true := by
  unfold writerText at h
  obtain ⟨⟨t, st⟩, hl, h⟩ := bind_eq_ok.mp h
  cases h
  obtain ⟨h1, h2⟩ := switched_lines _ _ _ _ _ hl ((if st.underline then [0x83] else []) ++ ((if st.italic then [0x81] else []) ++ [0x8f]))
  simp only [List.append_assoc]
  rw [h1, h2]
  obtain ⟨si, su⟩ := st
  cases si <;> cases su <;> exact ⟨rfl, rfl⟩

example : switched 0x80 0x81 false [0x80, 65, 0x80, 0x81] = false ∧ switched 0x80 0x81 false [0x80, 65] = false ∧
    switched 0x80 0x81 false [65, 0x81] = false ∧ switched 0x80 0x81 false [0x80, 65, 0x81, 66, 0x80, 0x81] = true := by decide

/-! ### C60  lines stay apart -/

private theorem rowsFrom_ge : ∀ (vs : List Int) (row : Nat) (last : Int), ∀ r ∈ rowsFrom row last vs, row ≤ r := by
  intro vs
  induction vs with
  | nil => intro _ _ r hr; cases hr
  | cons v vs ih =>
    intro row last r hr
    rw [rowsFrom, List.mem_cons] at hr
    rcases hr with rfl | hr
    · omega
    · have := ih _ _ r hr; omega

/-- C60: if the lines of a subtitle are on rows further and further down, so are they in the written text (with
`C59_shown`: a decoder shows each on a row of its own), at the distances of their positions. -/
theorem C60_rows_partial (v : Int) (vs : List Int) (h : (v :: vs).Pairwise (· < ·)) : rowsOf (v :: vs) = (v :: vs).map (fun x => (x - v).toNat) ∧
    (rowsOf (v :: vs)).Pairwise (· < ·) := by
  have key : ∀ (vs : List Int) (last : Int), (last :: vs).Pairwise (· < ·) → v ≤ last → rowsFrom (last - v).toNat last vs = vs.map (fun x => (x - v).toNat) := by
    intro vs
    induction vs with
    | nil => intros; rfl
    | cons w vs ih =>
      intro last hp hv
      have hlt : last < w := (List.pairwise_cons.1 hp).1 w (by simp)
      have e : (last - v).toNat + (w - last).toNat = (w - v).toNat := by omega
      rw [rowsFrom, e, ih w (List.pairwise_cons.1 hp).2 (by omega)]
      rfl
  have e : rowsOf (v :: vs) = (v :: vs).map (fun x => (x - v).toNat) := by
    rw [rowsOf, List.map_cons, ← key vs v h (le_refl _)]
    simp
  refine ⟨e, ?_⟩
  rw [e, List.pairwise_map]
  have hle : ∀ x ∈ v :: vs, v ≤ x := by
    intro x hx
    rw [List.mem_cons] at hx
    rcases hx with rfl | hx
    · exact le_refl _
    · exact le_of_lt ((List.pairwise_cons.1 h).1 x hx)
  refine List.Pairwise.imp_of_mem ?_ h
  intro a b ha hb hab
  have := hle a ha
  have := hle b hb
  omega

example : ([18, 20, 21] : List Int).Pairwise (· < ·) := by decide

/-- The full claim C60: lines at different heights are written on different rows. -/
def C60_statement : Prop := ∀ (s : Subtitle) (vps : List Int) (i j : Nat) (a b : Line) (x y : ℚ), writerVposes s.lines = .ok vps → i ≠ j →
  s.lines[i]? = some a → s.lines[j]? = some b → a.vpos.fractionFromTop = .ok x → b.vpos.fractionFromTop = .ok y → x ≠ y →
  (rowsOf vps)[i]? ≠ (rowsOf vps)[j]?

/-- C60 is false: lines a thirtieth of the screen apart, or listed bottom line first, run together. -/
theorem C60_false : ¬ C60_statement := by
  intro h
  refine h { lines := [{ vpos := { prop := some (1 / 2), ref := some .topOfScreen } }, { vpos := { prop := some (1 / 4), ref := some .topOfScreen } }] }
    [12, 6] 0 1 _ _ (1 / 2) (1 / 4) (by decide +kernel) (by decide) rfl rfl (by decide +kernel) (by decide +kernel) (by decide +kernel) (by decide)

/-- The other reason: positions which round to the same row. -/
theorem C60_close_witness : writerVposes [{ vpos := { prop := some (1 / 2), ref := some .topOfScreen } }, { vpos := { prop := some (17 / 32), ref := some .topOfScreen } }] =
    .ok [12, 12] ∧ (writerText [({ blocks := [{ text := b!"a" }] }, 12), ({ blocks := [{ text := b!"b" }] }, 12)]).toOption = some [97, 98, 0x8f] := by
  constructor <;> decide +kernel

/-! ### C61  what can be written -/

/-- The writer's rate for `fps` frames per second: thousandths, as an `int`. -/
def WriterRate (fps : ℚ) (n : Int) : Prop := toInt (f32 (fps * 1000)) = .ok n

/-- A vertical position the writer can place: not too far off the screen, and a line number only with a number of
lines. -/
inductive Placeable : VPos → Prop where
  | prop (v p) : v.prop = some p → |p| ≤ 10 ^ 6 → Placeable v
  | line (v l n) : v.prop = none → v.line = some l → v.lines = some n → n ≠ 0 → |l| ≤ 10 ^ 6 → InInt n → Placeable v
  | unset (v) : v.prop = none → v.line = none → Placeable v

/-- A time the writer can write: it has a rate, and its frame number is worth at most a thousand seconds. -/
structure Writable (t : Time) : Prop where
  rate : ∃ r, t.rate = some r ∧ 0 < r.num ∧ r.num ≤ 10 ^ 6 ∧ 0 < r.den ∧ 0 ≤ t.frames ∧ t.frames * r.den ≤ 1000 * r.num

private theorem toInt_of_abs (x : ℚ) (h : |x| ≤ 2147483647) : ∃ n, toInt x = .ok n := by
  refine ⟨truncR x, ?_⟩
  unfold toInt
  rw [if_pos]
  have hx := abs_le.1 h
  unfold truncR InInt
  split
  · have h1 := floor_le x
    rename_i h0
    have h2 : (0 : Int) ≤ x.floor := Rat.le_floor_iff.2 (by exact_mod_cast h0)
    have h3 : (x.floor : ℚ) ≤ ((2147483647 : Int) : ℚ) := by push_cast; linarith
    have h4 : x.floor ≤ 2147483647 := by exact_mod_cast h3
    omega
  · rename_i h0
    have h1 := floor_le (-x)
    have h2 : (0 : Int) ≤ (-x).floor := Rat.le_floor_iff.2 (by push_cast; linarith)
    have h3 : ((-x).floor : ℚ) ≤ ((2147483647 : Int) : ℚ) := by push_cast; linarith
    have h4 : (-x).floor ≤ 2147483647 := by exact_mod_cast h3
    omega

private theorem f32_abs (x : ℚ) : |f32 x| ≤ |x| * (1 + 1 / 2 ^ 24) := by
  have := f32_err x
  have h2 := abs_sub_abs_le_abs_sub (f32 x) x
  have : |x| / 2 ^ 24 = |x| * (1 / 2 ^ 24) := by ring
  linarith

private theorem f64_abs (x : ℚ) : |f64 x| ≤ |x| * (1 + 1 / 2 ^ 53) := by
  have := f64_err x
  have h2 := abs_sub_abs_le_abs_sub (f64 x) x
  have : |x| / 2 ^ 53 = |x| * (1 / 2 ^ 53) := by ring
  linarith

private theorem rint_abs (x : ℚ) : |(rint x : ℚ)| ≤ |x| + 1 / 2 := by
  have := abs_rint_sub_le x
  have h2 := abs_sub_abs_le_abs_sub (rint x : ℚ) x
  linarith

private theorem f32_ne_zero {x : ℚ} (h : x ≠ 0) : f32 x ≠ 0 := by
  intro h0
  have := f32_err x
  rw [h0, zero_sub, abs_neg] at this
  have hp := abs_pos.2 h
  norm_num at this
  linarith

private theorem vpos_ok (l : Line) (h : Placeable l.vpos) : ∃ v, writerVpos l = .ok v := by
  unfold writerVpos
  cases h with
  | prop p hp hb =>
    rw [hp]
    simp only []
    have h1 := f32_abs (p * stlRows)
    have h2 : |p * (stlRows : ℚ)| ≤ 23 * 10 ^ 6 := by
      rw [abs_mul]
      have : |((stlRows : Int) : ℚ)| = 23 := by norm_num [stlRows]
      rw [this]; linarith
    have h3 : |f32 (p * stlRows)| ≤ 24 * 10 ^ 6 := by norm_num at h1 h2 ⊢; linarith
    cases l.vpos.ref.getD .topOfScreen with
    | topOfScreen => exact toInt_of_abs _ (by have := rint_abs (f32 (p * stlRows)); norm_num at h3 this ⊢; linarith)
    | centreOfScreen =>
      refine toInt_of_abs _ ?_
      have a := rint_abs (f64 (f32 (p * stlRows) + 23 / 2))
      have b := f64_abs (f32 (p * stlRows) + 23 / 2)
      have c := abs_add_le (f32 (p * stlRows)) (23 / 2 : ℚ)
      have d : |(23 / 2 : ℚ)| = 23 / 2 := by norm_num
      rw [d] at c
      norm_num at h3 a b c ⊢
      linarith
    | bottomOfScreen =>
      refine toInt_of_abs _ ?_
      have a := rint_abs (f32 (stlRows - f32 (p * stlRows)))
      have b := f32_abs ((stlRows : ℚ) - f32 (p * stlRows))
      have c := abs_sub (stlRows : ℚ) (f32 (p * stlRows))
      have d : |((stlRows : Int) : ℚ)| = 23 := by norm_num [stlRows]
      rw [d] at c
      norm_num at h3 a b c ⊢
      linarith
    | topOfSubtitle => exact ⟨0, rfl⟩
  | line k n hp hl hn h0 hb hi =>
    rw [hp, hl]
    simp only [hn, optGet, ok_bind]
    have hn0 : ((n : Int) : ℚ) ≠ 0 := by exact_mod_cast h0
    have hf0 := f32_ne_zero hn0
    rw [fdiv, if_neg hf0, ok_bind]
    have hn1 : (1 : ℚ) ≤ |((n : Int) : ℚ)| := by
      have : (1 : Int) ≤ |n| := Int.one_le_abs h0
      exact_mod_cast this
    have hfn : (1 / 2 : ℚ) ≤ |f32 n| := by
      have := f32_err (n : ℚ)
      have h2 := abs_sub_abs_le_abs_sub (n : ℚ) (f32 n)
      rw [abs_sub_comm] at h2
      norm_num at this ⊢
      linarith
    have hfk : |f32 k| ≤ 11 * 10 ^ 5 := by
      have := f32_abs (k : ℚ)
      have hk : |((k : Int) : ℚ)| ≤ 10 ^ 6 := by exact_mod_cast hb
      norm_num at this hk ⊢
      linarith
    have hq : |f32 k / f32 n| ≤ 22 * 10 ^ 5 := by
      rw [abs_div, div_le_iff₀ (by linarith)]
      nlinarith
    obtain ⟨q, hqe⟩ : ∃ q, q = f32 k / f32 n := ⟨_, rfl⟩
    rw [← hqe] at hq ⊢
    have hp : |f32 q| ≤ 23 * 10 ^ 5 := by have := f32_abs q; norm_num at hq this ⊢; linarith
    have d : ((stlRows : Int) : ℚ) = 23 := by norm_num [stlRows]
    have h23 : |(23 : ℚ)| = 23 := by norm_num
    cases l.vpos.ref.getD .topOfScreen with
    | topOfScreen =>
      refine toInt_of_abs _ ?_
      have a := f32_abs (f32 q * stlRows)
      rw [d, abs_mul, h23] at a
      rw [d]
      norm_num at hp a ⊢
      linarith
    | centreOfScreen =>
      refine toInt_of_abs _ ?_
      have a := f64_abs (f64 (f32 q + 1 / 2) * stlRows)
      rw [d, abs_mul, h23] at a
      have b := f64_abs (f32 q + 1 / 2)
      have c := abs_add_le (f32 q) (1 / 2 : ℚ)
      have e : |(1 / 2 : ℚ)| = 1 / 2 := by norm_num
      rw [e] at c
      rw [d]
      norm_num at hp a b c ⊢
      linarith
    | bottomOfScreen =>
      refine toInt_of_abs _ ?_
      have a := f32_abs (f32 (1 - f32 q) * stlRows)
      rw [d, abs_mul, h23] at a
      have b := f32_abs (1 - f32 q)
      have c := abs_sub (1 : ℚ) (f32 q)
      have e : |(1 : ℚ)| = 1 := by norm_num
      rw [e] at c
      rw [d]
      norm_num at hp a b c ⊢
      linarith
    | topOfSubtitle => exact ⟨0, rfl⟩
  | unset hp hl => rw [hp, hl]; exact ⟨0, rfl⟩

private theorem vposes_ok (ls : List Line) (h : ∀ l ∈ ls, Placeable l.vpos) : ∃ vs, writerVposes ls = .ok vs ∧ vs.length = ls.length := by
  induction ls with
  | nil => exact ⟨[], rfl, rfl⟩
  | cons l ls ih =>
    obtain ⟨v, hv⟩ := vpos_ok l (h l (by simp))
    obtain ⟨vs, hvs, hl⟩ := ih (fun l hl => h l (by simp [hl]))
    exact ⟨v :: vs, by rw [writerVposes, hv, ok_bind, hvs, ok_bind]; rfl, by simp [hl]⟩

private theorem blocks_ok (ks : List Block) : ∀ st, ∃ t st', writerBlocks st ks = .ok (t, st') := by
  induction ks with
  | nil => intro st; exact ⟨_, _, rfl⟩
  | cons k ks ih =>
    intro st
    obtain ⟨t, st', h⟩ := ih ⟨k.italic, k.underline⟩
    exact ⟨_, _, by rw [writerBlocks, isoEncode_encoded, ok_bind, h, ok_bind]; rfl⟩

private theorem lines_ok (js : List (Line × Int)) : ∀ st last, ∃ t st', writerLines st last js = .ok (t, st') := by
  induction js with
  | nil => intro st last; exact ⟨_, _, rfl⟩
  | cons j js ih =>
    intro st last
    obtain ⟨j, vp⟩ := j
    obtain ⟨t, st', h⟩ := blocks_ok j.blocks st
    obtain ⟨t2, st2, h2⟩ := ih st' (some vp)
    exact ⟨_, _, by rw [writerLines, h, ok_bind]; simp only []; rw [h2, ok_bind]; rfl⟩

/-- The text of a subtitle can always be made. -/
theorem writerText_ok (js : List (Line × Int)) : ∃ t, writerText js = .ok t := by
  obtain ⟨t, st, h⟩ := lines_ok js {} none
  exact ⟨_, by rw [writerText, h, ok_bind]; rfl⟩

theorem writerTop_some : ∀ (vs : List Int) (t : Int), ∃ u, writerTop (some t) vs = some u := by
  intro vs
  induction vs with
  | nil => intro t; exact ⟨t, rfl⟩
  | cons v vs ih => intro t; rw [writerTop]; exact ih _

private theorem rate_ok (fps : ℚ) (h0 : 0 ≤ fps) (h1 : fps ≤ 1000) : ∃ n, WriterRate fps n ∧ 0 ≤ n ∧ n ≤ 1000001 := by
  have ha := f32_abs (fps * 1000)
  have hb : |fps * 1000| ≤ 1000000 := by rw [abs_of_nonneg (by linarith)]; linarith
  have hnn : 0 ≤ f32 (fps * 1000) := rnd_nonneg (by linarith)
  rw [abs_of_nonneg hnn] at ha
  generalize |fps * 1000| = x at ha hb
  have hle : f32 (fps * 1000) ≤ 1000001 := by norm_num at ha ⊢; linarith
  have ht : truncR (f32 (fps * 1000)) = (f32 (fps * 1000)).floor := by unfold truncR; rw [if_pos hnn]
  have h2 : (0 : Int) ≤ (f32 (fps * 1000)).floor := Rat.le_floor_iff.2 (by exact_mod_cast hnn)
  have h3 := floor_le (f32 (fps * 1000))
  have h4 : ((f32 (fps * 1000)).floor : ℚ) ≤ ((1000001 : Int) : ℚ) := by push_cast; linarith
  have h5 : (f32 (fps * 1000)).floor ≤ 1000001 := by exact_mod_cast h4
  refine ⟨_, ?_, h2, h5⟩
  unfold WriterRate toInt
  rw [ht, if_pos (by unfold InInt; omega)]

private theorem frames_ok (t : Time) (h : Writable t) (n : Int) (h0 : 0 ≤ n) (h1 : n ≤ 1000001) : ∃ f, t.framesAt ⟨n, 1000⟩ = .ok f := by
  obtain ⟨r, hr, hn, hn', hd, hf, hfr⟩ := h.rate
  have hfn : t.frames ≤ 1000 * r.num := by nlinarith
  obtain ⟨q, e, hq⟩ := framesAt_spec t r ⟨n, 1000⟩ hr (by unfold InInt; omega) (by omega) (by simp) (by unfold InInt; constructor <;> simp <;> omega)
  rw [e]
  refine toInt_of_abs _ ?_
  have a := rint_abs q
  have hx : |exactFrames t.frames r ⟨n, 1000⟩| ≤ 1001000 := by
    unfold exactFrames
    have c1 : (0 : ℚ) < r.num := by exact_mod_cast hn
    have c2 : (0 : ℚ) < r.den := by exact_mod_cast hd
    have c3 : (0 : ℚ) ≤ t.frames := by exact_mod_cast hf
    have c4 : (0 : ℚ) ≤ n := by exact_mod_cast h0
    have c5 : (n : ℚ) ≤ 1000001 := by exact_mod_cast h1
    have c6 : (t.frames : ℚ) * r.den ≤ 1000 * r.num := by exact_mod_cast hfr
    have e2 : (t.frames : ℚ) * ((n : ℚ) / ((1000 : Int) : ℚ)) / ((r.num : ℚ) / r.den) = (t.frames * r.den / r.num) * (n / 1000) := by
      push_cast
      field_simp
    rw [e2, abs_of_nonneg (by positivity)]
    have c7 : (t.frames : ℚ) * r.den / r.num ≤ 1000 := by rw [div_le_iff₀ c1]; exact c6
    have c8 : (n : ℚ) / 1000 ≤ 1001 := by rw [div_le_iff₀ (by norm_num)]; linarith
    have c9 : 0 ≤ (n : ℚ) / 1000 := by positivity
    nlinarith
  have b := abs_sub_abs_le_abs_sub q (exactFrames t.frames r ⟨n, 1000⟩)
  have hE : |exactFrames t.frames r ⟨n, 1000⟩| * (4 * eps) ≤ 1 := by
    unfold eps
    norm_num
    linarith
  linarith

/-- C61, the part that holds: subtitles with lines, placed, with times that have rates, can be written.  (Missing: `C61_line_number`,
`C61_no_lines`, `C61_no_rate`.) -/
theorem C61_defined_partial (fps : ℚ) (h0 : 0 ≤ fps) (h1 : fps ≤ 1000) (ss : List Subtitle)
    (h : ∀ s ∈ ss, s.lines ≠ [] ∧ (∀ l ∈ s.lines, Placeable l.vpos) ∧ Writable s.from_ ∧ Writable s.to_) : ∃ bs, makeTtiBlocks fps ss = .ok bs := by
  induction ss with
  | nil => exact ⟨[], rfl⟩
  | cons s ss ih =>
    obtain ⟨b, hb⟩ := ih (fun s hs => h s (by simp [hs]))
    obtain ⟨hne, hpl, hfr, hto⟩ := h s (by simp)
    obtain ⟨vs, hvs, hvl⟩ := vposes_ok s.lines hpl
    obtain ⟨t, ht⟩ := writerText_ok (s.lines.zip vs)
    obtain ⟨n, hn, hn0, hn1⟩ := rate_ok fps h0 h1
    obtain ⟨ff, hff⟩ := frames_ok s.from_ hfr n hn0 hn1
    obtain ⟨tf, htf⟩ := frames_ok s.to_ hto n hn0 hn1
    have hcum : cumulativeStatusEnumToFile .notCumulative = .ok 0 := by decide
    have hcom : commentEnumToFile .no = .ok 0 := by decide
    have ha : ∃ a, ttiBlocks fps s = .ok a := by
      unfold ttiBlocks
      rw [hvs, ok_bind, ht, ok_bind, hcum, ok_bind, hn, ok_bind]
      simp only []
      rw [hff, ok_bind, htf, ok_bind]
      cases hl : s.lines with
      | nil => exact absurd hl hne
      | cons l ls =>
        cases vs with
        | nil => rw [hl] at hvl; cases hvl
        | cons v vs =>
          obtain ⟨u, hu⟩ := writerTop_some vs v
          rw [writerTop, hu]
          simp only [optGet, ok_bind]
          have hj : ∃ j, justificationEnumToFile (hrefJustification l.hpos.ref) = .ok j := by
            cases l.hpos.ref
            · exact ⟨1, by decide⟩
            · exact ⟨2, by decide⟩
            · exact ⟨3, by decide⟩
          obtain ⟨j, hj⟩ := hj
          rw [hj, ok_bind, hcom, ok_bind]
          exact ⟨_, rfl⟩
    obtain ⟨a, ha⟩ := ha
    exact ⟨a ++ b, by rw [makeTtiBlocks, ha, ok_bind, hb, ok_bind]; rfl⟩

example : ∀ s ∈ stlDemo.subtitles, s.lines ≠ [] ∧ (∀ l ∈ s.lines, Placeable l.vpos) ∧ Writable s.from_ ∧ Writable s.to_ := by
  intro s hs
  simp only [stlDemo, List.mem_cons, List.not_mem_nil, or_false] at hs
  rcases hs with rfl | rfl
  · refine ⟨by simp, ?_, ⟨_, rfl, by decide, by decide, by decide, by decide, by decide⟩, ⟨_, rfl, by decide, by decide, by decide, by decide, by decide⟩⟩
    intro l hl
    simp only [List.mem_cons, List.not_mem_nil, or_false] at hl
    rcases hl with rfl | rfl
    · exact .prop _ _ rfl (by rw [← absR_eq]; decide +kernel)
    · exact .prop _ _ rfl (by rw [← absR_eq]; decide +kernel)
  · refine ⟨by simp, ?_, ⟨_, rfl, by decide, by decide, by decide, by decide, by decide⟩, ⟨_, rfl, by decide, by decide, by decide, by decide, by decide⟩⟩
    intro l hl
    simp only [List.mem_cons, List.not_mem_nil, or_false] at hl
    subst hl
    exact .prop _ _ rfl (by rw [← absR_eq]; decide +kernel)

theorem write_error (l : Locale) (a : StlArgs) (s : Subtitle) (ss : List Subtitle) (hv : a.Valid) (hs : a.subtitles = s :: ss) (e : Err)
    (h : ttiBlocks a.fps s = .error e) : writeStlIn l a = .error e := by
  unfold writeStlIn
  rw [check_valid a hv, ok_bind, hs, makeTtiBlocks, h]
  rfl

private theorem vposes_bad (pre post : List Line) (l : Line) (hp : ∀ j ∈ pre, Placeable j.vpos) (h1 : l.vpos.prop = none) (h2 : l.vpos.line.isSome = true)
    (h3 : l.vpos.lines = none) : writerVposes (pre ++ l :: post) = .error (.ub .emptyOptional) := by
  induction pre with
  | nil =>
    obtain ⟨k, hk⟩ := Option.isSome_iff_exists.1 h2
    rw [List.nil_append, writerVposes, writerVpos, h1, hk, h3]
    rfl
  | cons j pre ih =>
    obtain ⟨v, hv⟩ := vpos_ok j (hp j (by simp))
    rw [List.cons_append, writerVposes, hv, ok_bind, ih (fun j hj => hp j (by simp [hj]))]
    rfl

/-- C61 is false of a line that has a line number but no number of lines, such as all those the SubRip, WebVTT and
text STL readers make: the writer reads an empty `optional`. -/
theorem C61_line_number (loc : Locale) (a : StlArgs) (hv : a.Valid) (s : Subtitle) (ss : List Subtitle) (hs : a.subtitles = s :: ss) (pre post : List Line) (l : Line)
    (hl : s.lines = pre ++ l :: post) (hp : ∀ j ∈ pre, Placeable j.vpos) (h1 : l.vpos.prop = none) (h2 : l.vpos.line.isSome = true) (h3 : l.vpos.lines = none) :
    writeStlIn loc a = .error (.ub .emptyOptional) := by
  refine write_error loc a s ss hv hs _ ?_
  unfold ttiBlocks
  rw [hl, vposes_bad pre post l hp h1 h2 h3]
  rfl

/-- A placed line, then one that has only a number. -/
example (loc : Locale) : writeStlIn loc { stlDemo with subtitles := [{ from_ := ⟨3, 12, some ⟨25, 1⟩⟩, to_ := ⟨5, 0, some ⟨25, 1⟩⟩, lines := [{ vpos := { prop := some (1 / 2), ref := some .topOfScreen } }, { vpos := { line := some 1, ref := some .topOfSubtitle }, blocks := [{ text := b!"x" }] }] }] } =
    .error (.ub .emptyOptional) :=
  C61_line_number loc _ (by constructor <;> decide) _ [] rfl [{ vpos := { prop := some (1 / 2), ref := some .topOfScreen } }] [] { vpos := { line := some 1, ref := some .topOfSubtitle }, blocks := [{ text := b!"x" }] }
    rfl (by intro j hj; rw [List.mem_singleton] at hj; subst hj; exact .prop _ _ rfl (by norm_num)) rfl rfl rfl

/-- C61 is false of a subtitle without lines. -/
theorem C61_no_lines (loc : Locale) (a : StlArgs) (hv : a.Valid) (h0 : 0 ≤ a.fps) (h1 : a.fps ≤ 1000) (s : Subtitle) (ss : List Subtitle) (hs : a.subtitles = s :: ss)
    (hl : s.lines = []) (hf : Writable s.from_) (ht : Writable s.to_) : writeStlIn loc a = .error (.ub .emptyOptional) := by
  refine write_error loc a s ss hv hs _ ?_
  obtain ⟨n, hn, hn0, hn1⟩ := rate_ok a.fps h0 h1
  obtain ⟨ff, hff⟩ := frames_ok s.from_ hf n hn0 hn1
  obtain ⟨tf, htf⟩ := frames_ok s.to_ ht n hn0 hn1
  have hcum : cumulativeStatusEnumToFile .notCumulative = .ok 0 := by decide
  obtain ⟨t, htx⟩ := writerText_ok ([] : List (Line × Int))
  unfold ttiBlocks
  rw [hl, show writerVposes [] = .ok [] from rfl, ok_bind, List.zip_nil_left, htx, ok_bind, hcum, ok_bind, hn, ok_bind]
  simp only []
  rw [hff, ok_bind, htf, ok_bind]
  rfl

example (loc : Locale) : writeStlIn loc { stlDemo with subtitles := [{ from_ := ⟨3, 12, some ⟨25, 1⟩⟩, to_ := ⟨5, 0, some ⟨25, 1⟩⟩ }] } = .error (.ub .emptyOptional) :=
  C61_no_lines loc _ (by constructor <;> decide) (by decide +kernel) (by decide +kernel) _ [] rfl rfl ⟨⟨25, 1⟩, by decide⟩ ⟨⟨25, 1⟩, by decide⟩

/-- A time without a rate makes the writer throw. -/
theorem C61_no_rate (loc : Locale) (a : StlArgs) (hv : a.Valid) (h0 : 0 ≤ a.fps) (h1 : a.fps ≤ 1000) (s : Subtitle) (ss : List Subtitle) (hs : a.subtitles = s :: ss)
    (hl : ∀ l ∈ s.lines, Placeable l.vpos) (hf : s.from_.rate = none ∨ Writable s.from_ ∧ s.to_.rate = none) : writeStlIn loc a = .error .unknownFrameRate := by
  refine write_error loc a s ss hv hs _ ?_
  obtain ⟨n, hn, hn0, hn1⟩ := rate_ok a.fps h0 h1
  obtain ⟨vs, hvs, hvl⟩ := vposes_ok s.lines hl
  have hcum : cumulativeStatusEnumToFile .notCumulative = .ok 0 := by decide
  obtain ⟨t, htx⟩ := writerText_ok (s.lines.zip vs)
  unfold ttiBlocks
  rw [hvs, ok_bind, htx, ok_bind, hcum, ok_bind, hn, ok_bind]
  simp only []
  rcases hf with hf | ⟨hf, ht⟩
  · rw [(C04_convert s.from_ hf ⟨n, 1000⟩).1]; rfl
  · obtain ⟨ff, hff⟩ := frames_ok s.from_ hf n hn0 hn1
    rw [hff, ok_bind, (C04_convert s.to_ ht ⟨n, 1000⟩).1]; rfl

example (loc : Locale) : writeStlIn loc { stlDemo with subtitles := [{ from_ := ⟨3, 12, some ⟨25, 1⟩⟩, to_ := ⟨5, 0, none⟩, lines := [{ vpos := { prop := some (1 / 2), ref := some .topOfScreen } }] }] } = .error .unknownFrameRate :=
  C61_no_rate loc _ (by constructor <;> decide) (by decide +kernel) (by decide +kernel) _ [] rfl (by intro j hj; rw [List.mem_singleton] at hj; subst hj; exact .prop _ _ rfl (by norm_num)) (.inr ⟨⟨⟨25, 1⟩, by decide⟩, rfl⟩)

/-- C61 as a user would put it: whatever `collect` returns can be written. -/
def C61_statement : Prop := ∀ a : StlArgs, a.Valid → (∃ raws, collect raws = .ok a.subtitles) → ∃ out, writeStl a = .ok out

/-- A SubRip file. -/
def srtForStl : Str := b!"1\n00:00:01,000 --> 00:00:02,000\nHello\n\n"

private theorem srtForStl_lines : ((srtReadString srtForStl).bind collect).toOption.map (fun ss => ss.map (fun s => s.lines.map (·.vpos))) =
    some [[{ line := some 0, ref := some .topOfSubtitle }]] := by decide +kernel

private theorem ok_of_map {α β : Type} {x : R α} {f : α → β} {y : β} (h : x.toOption.map f = some y) : ∃ v, x = .ok v ∧ f v = y := by
  cases x with
  | error e => cases h
  | ok v => exact ⟨v, rfl, Option.some.inj h⟩

private theorem demo_with (ss : List Subtitle) : ({ stlDemo with subtitles := ss } : StlArgs).Valid := { stlDemo_valid with }

private theorem unplaced (ss : List Subtitle) (k : ss.map (fun s => s.lines.map (·.vpos)) = [[{ line := some 0, ref := some .topOfSubtitle }]]) :
    writeStl { stlDemo with subtitles := ss } = .error (.ub .emptyOptional) := by
  cases ss with
  | nil => cases k
  | cons s ss =>
    rw [List.map_cons] at k
    obtain ⟨k, -⟩ := List.cons.inj k
    cases hl : s.lines with
    | nil => rw [hl] at k; cases k
    | cons l ls =>
      rw [hl, List.map_cons] at k
      obtain ⟨k, -⟩ := List.cons.inj k
      refine C61_line_number _ _ (demo_with _) s ss rfl [] ls l hl (by simp) ?_ ?_ ?_
      · rw [k]
      · rw [k]; rfl
      · rw [k]

/-- Subtitles read from a SubRip file cannot be written as binary STL: undefined behaviour. -/
theorem C61_subrip_witness : ∃ ss, (srtReadString srtForStl).bind collect = .ok ss ∧ writeStl { stlDemo with subtitles := ss } = .error (.ub .emptyOptional) := by
  obtain ⟨ss, h, k⟩ := ok_of_map srtForStl_lines
  exact ⟨ss, h, unplaced ss k⟩

/-- C61 is false. -/
theorem C61_false : ¬ C61_statement := by
  intro h
  obtain ⟨ss, e, w⟩ := C61_subrip_witness
  obtain ⟨raws, h1, h2⟩ := bind_eq_ok.mp e
  obtain ⟨out, ho⟩ := h { stlDemo with subtitles := ss } (demo_with _) ⟨raws, h2⟩
  rw [w] at ho
  cases ho

/-! ### C62  timecodes -/

/-- C62 as a user would put it: the frame number written is below the rate. -/
def C62_statement : Prop := ∀ (t : Time) (w f : Int), Writable t → 1 ≤ w → w ≤ 255 → t.framesAt ⟨w * 1000, 1000⟩ = .ok f → f < w

/-- C62 is false: 0.999 s at 25 frames per second. -/
theorem C62_false : ¬ C62_statement := by
  intro h
  have := h ⟨0, 999, some ⟨1000, 1⟩⟩ 25 25 ⟨_, rfl, by decide, by decide, by decide, by decide, by decide⟩ (by decide) (by decide) (by decide +kernel)
  omega

/-- The rate used by the writer for an integral number of frames per second. -/
theorem writerRate_int (w : Int) (h1 : 1 ≤ w) (h2 : w ≤ 255) : WriterRate (w : ℚ) (w * 1000) := by
  unfold WriterRate
  have e : (w : ℚ) * 1000 = ((w * 1000 : Int) : ℚ) := by push_cast; ring
  rw [e, f32_int (by rw [abs_le]; constructor <;> omega)]
  exact toInt_int (by unfold InInt; omega)

/-- C62: the eight time bytes of every block of a subtitle, for times of less than 256 hours. -/
theorem C62_bytes (fps : ℚ) (s : Subtitle) (bs : List Str) (h : ttiBlocks fps s = .ok bs) (n : Int) (hn : WriterRate fps n)
    (hf : 0 ≤ s.from_.secs ∧ s.from_.secs < 921600) (ht : 0 ≤ s.to_.secs ∧ s.to_.secs < 921600) :
    ∃ ff tf, s.from_.framesAt ⟨n, 1000⟩ = .ok ff ∧ s.to_.framesAt ⟨n, 1000⟩ = .ok tf ∧ ∀ b ∈ bs, ∃ h m sec h' m' sec' : Byte,
      (b.drop 5).take 8 = [h, m, sec, lowByte ff, h', m', sec', lowByte tf] ∧
      (h.toNat : Int) * 3600 + m.toNat * 60 + sec.toNat = s.from_.secs ∧ m.toNat < 60 ∧ sec.toNat < 60 ∧
      (h'.toNat : Int) * 3600 + m'.toNat * 60 + sec'.toNat = s.to_.secs ∧ m'.toNat < 60 ∧ sec'.toNat < 60 := by
  unfold ttiBlocks at h
  obtain ⟨vs, hvs, h⟩ := bind_eq_ok.mp h
  obtain ⟨t, ht', h⟩ := bind_eq_ok.mp h
  obtain ⟨cum, hcum, h⟩ := bind_eq_ok.mp h
  rw [hn, ok_bind] at h
  obtain ⟨ff, hff, h⟩ := bind_eq_ok.mp h
  obtain ⟨tf, htf, h⟩ := bind_eq_ok.mp h
  obtain ⟨top, htop, h⟩ := bind_eq_ok.mp h
  refine ⟨ff, tf, hff, htf, ?_⟩
  have small : ∀ t : Time, 0 ≤ t.secs → t.secs < 921600 → ((lowByte t.hours).toNat : Int) = t.secs / 3600 ∧
      ((lowByte t.minutes).toNat : Int) = t.secs % 3600 / 60 ∧ ((lowByte t.seconds).toNat : Int) = t.secs % 60 := by
    intro t h0 h1
    have e1 : t.hours = t.secs / 3600 := by unfold Time.hours; exact Int.tdiv_eq_ediv_of_nonneg h0
    have e2 : t.minutes = t.secs % 3600 / 60 := by
      unfold Time.minutes; rw [e1, Int.tdiv_eq_ediv_of_nonneg (by omega)]; omega
    have e3 : t.seconds = t.secs % 60 := by unfold Time.seconds; rw [e1, e2]; omega
    have lb : ∀ v : Int, 0 ≤ v → v < 256 → ((lowByte v).toNat : Int) = v := by
      intro v h0 h1
      unfold lowByte
      rw [UInt8.toNat_ofNat']
      have : v.emod 256 = v := Int.emod_eq_of_lt h0 h1
      rw [this]
      omega
    rw [lb _ (by omega) (by omega), lb _ (by omega) (by omega), lb _ (by omega) (by omega)]
    exact ⟨e1, e2, e3⟩
  cases hl : s.lines with
  | nil => rw [hl] at h; cases h
  | cons l ls =>
    rw [hl] at h
    obtain ⟨j, hj, h⟩ := bind_eq_ok.mp h
    obtain ⟨c, hc, h⟩ := bind_eq_ok.mp h
    cases h
    intro b hb
    obtain ⟨k, _, rfl⟩ := List.mem_map.1 hb
    obtain ⟨a1, a2, a3⟩ := small s.from_ hf.1 hf.2
    obtain ⟨b1, b2, b3⟩ := small s.to_ ht.1 ht.2
    refine ⟨_, _, _, _, _, _, rfl, ?_, ?_, ?_, ?_, ?_, ?_⟩ <;> omega

/-- C62, the part that holds: if the time within the second is more than half a frame before the next second, the frame
number is below the rate.  (Missing: the last half frame of a second, see `C62_last_half_frame`.) -/
theorem C62_below_partial (t : Time) (r : FRate) (w f : Int) (hw : 1 ≤ w) (hw' : w ≤ 255) (hr : t.rate = some r) (hn : 0 < r.num) (hn' : r.num ≤ 1000000)
    (hd : 0 < r.den) (hf : 0 ≤ t.frames) (hlt : 2 * (t.frames * r.den * w) < (2 * w - 1) * r.num) (h : t.framesAt ⟨w * 1000, 1000⟩ = .ok f) : 0 ≤ f ∧ f < w := by
  have hfn : t.frames ≤ r.num := by
    by_contra hc
    have : r.num * w ≤ t.frames * r.den * w := by
      apply mul_le_mul_of_nonneg_right _ (by omega)
      nlinarith
    nlinarith
  have k := C08_half_frame t r ⟨w * 1000, 1000⟩ f hr (by unfold InInt; omega) (by omega) (by simp) (by unfold InInt; constructor <;> simp <;> omega) h
  have c1 : (0 : ℚ) < r.num := by exact_mod_cast hn
  have c2 : (0 : ℚ) < r.den := by exact_mod_cast hd
  have c3 : (0 : ℚ) ≤ t.frames := by exact_mod_cast hf
  have c4 : (0 : ℚ) < w := by exact_mod_cast hw
  have c5 : (w : ℚ) ≤ 255 := by exact_mod_cast hw'
  have c6 : (r.num : ℚ) ≤ 1000000 := by exact_mod_cast hn'
  have e : exactFrames t.frames r ⟨w * 1000, 1000⟩ = (t.frames * r.den * w) / r.num := by
    unfold exactFrames
    push_cast
    field_simp
  rw [e] at k
  generalize hx : (t.frames : ℚ) * r.den * w / r.num = x at k
  have x0 : 0 ≤ x := by rw [← hx]; positivity
  have hle : 2 * (t.frames * r.den * w) + 1 ≤ (2 * w - 1) * r.num := by omega
  have hle : 2 * ((t.frames : ℚ) * r.den * w) + 1 ≤ (2 * w - 1) * r.num := by exact_mod_cast hle
  have hxe : (t.frames : ℚ) * r.den * w = x * r.num := by rw [← hx]; field_simp
  rw [hxe] at hle
  have hx2 : x ≤ w - 1 / 2 - 1 / 2000000 := by
    by_contra hc
    have hc : (w : ℚ) - 1 / 2 - 1 / 2000000 < x := lt_of_not_ge hc
    have := mul_lt_mul_of_pos_right hc c1
    nlinarith
  rw [abs_of_nonneg x0, abs_le] at k
  have f1 : (f : ℚ) < w := by
    rw [show (2 : ℚ) ^ 51 = 2251799813685248 by norm_num] at k
    linarith [k.2]
  have f0 : ((-1 : Int) : ℚ) < f := by
    push_cast
    rw [show (2 : ℚ) ^ 51 = 2251799813685248 by norm_num] at k
    linarith [k.1]
  exact ⟨by have : (-1 : Int) < f := by exact_mod_cast f0
            omega, by exact_mod_cast f1⟩

example : ∃ f, (⟨0, 979, some ⟨1000, 1⟩⟩ : Time).framesAt ⟨25 * 1000, 1000⟩ = .ok f ∧ 2 * ((979 : Int) * 1 * 25) < (2 * 25 - 1) * 1000 := ⟨24, by decide +kernel, by decide⟩

/-- In the last half frame of a second the frame number written is the rate itself, which is not a frame number. -/
theorem C62_last_half_frame (t : Time) (r : FRate) (w f : Int) (hw : 1 ≤ w) (hw' : w ≤ 255) (hr : t.rate = some r) (hn : 0 < r.num) (hn' : r.num ≤ 1000000)
    (hd : 0 < r.den) (hle : t.frames * r.den ≤ r.num) (hlt : (2 * w - 1) * r.num < 2 * (t.frames * r.den * w)) (h : t.framesAt ⟨w * 1000, 1000⟩ = .ok f) : f = w := by
  have hf : 0 < t.frames := by
    by_contra hc
    have h1 : t.frames * r.den ≤ 0 := by nlinarith
    have h2 : t.frames * r.den * w ≤ 0 := by nlinarith
    nlinarith
  have hfn : t.frames ≤ 1000 * r.num := by nlinarith
  have k := C08_half_frame t r ⟨w * 1000, 1000⟩ f hr (by unfold InInt; omega) (by omega) (by simp) (by unfold InInt; constructor <;> simp <;> omega) h
  have c1 : (0 : ℚ) < r.num := by exact_mod_cast hn
  have c2 : (0 : ℚ) < r.den := by exact_mod_cast hd
  have c3 : (0 : ℚ) < t.frames := by exact_mod_cast hf
  have c4 : (0 : ℚ) < w := by exact_mod_cast hw
  have c5 : (w : ℚ) ≤ 255 := by exact_mod_cast hw'
  have c6 : (r.num : ℚ) ≤ 1000000 := by exact_mod_cast hn'
  have e : exactFrames t.frames r ⟨w * 1000, 1000⟩ = (t.frames * r.den * w) / r.num := by
    unfold exactFrames
    push_cast
    field_simp
  rw [e] at k
  have hx0 : (t.frames : ℚ) * r.den * w / r.num ≤ w := by
    rw [div_le_iff₀ c1]
    have : (t.frames : ℚ) * r.den ≤ r.num := by exact_mod_cast hle
    nlinarith
  generalize hx : (t.frames : ℚ) * r.den * w / r.num = x at k hx0
  have x0 : 0 ≤ x := by rw [← hx]; positivity
  have hle : (2 * w - 1) * r.num + 1 ≤ 2 * (t.frames * r.den * w) := by omega
  have hle : (2 * w - 1) * (r.num : ℚ) + 1 ≤ 2 * ((t.frames : ℚ) * r.den * w) := by exact_mod_cast hle
  have hxe : (t.frames : ℚ) * r.den * w = x * r.num := by rw [← hx]; field_simp
  rw [hxe] at hle
  have hx2 : (w : ℚ) - 1 / 2 + 1 / 2000000 ≤ x := by
    by_contra hc
    have hc : x < (w : ℚ) - 1 / 2 + 1 / 2000000 := lt_of_not_ge hc
    have := mul_lt_mul_of_pos_right hc c1
    nlinarith
  rw [abs_of_nonneg x0, abs_le] at k
  have f1 : (f : ℚ) < ((w + 1 : Int) : ℚ) := by
    push_cast
    rw [show (2 : ℚ) ^ 51 = 2251799813685248 by norm_num] at k
    linarith [k.2]
  have f0 : ((w - 1 : Int) : ℚ) < f := by
    push_cast
    rw [show (2 : ℚ) ^ 51 = 2251799813685248 by norm_num] at k
    linarith [k.1]
  have g1 : f < w + 1 := by exact_mod_cast f1
  have g0 : w - 1 < f := by exact_mod_cast f0
  omega

example : (2 * 24 - 1) * 1000 < 2 * ((980 : Int) * 1 * 24) := by decide

/-- C62: a frame number at the rate of the file is written as it is. -/
theorem C62_own_rate_partial (t : Time) (w : Int) (hw : 1 ≤ w) (hw' : w ≤ 255) (hr : t.rate = some ⟨w, 1⟩) (hf : 0 ≤ t.frames) (hlt : t.frames < w) :
    t.framesAt ⟨w * 1000, 1000⟩ = .ok t.frames ∧ ((lowByte t.frames).toNat : Int) = t.frames := by
  refine ⟨?_, ?_⟩
  · obtain ⟨q, h1, h2⟩ := framesAt_spec t ⟨w, 1⟩ ⟨w * 1000, 1000⟩ hr (by unfold InInt; omega) (by simp; omega) (by simp) (by unfold InInt; constructor <;> simp <;> omega)
    have e : exactFrames t.frames ⟨w, 1⟩ ⟨w * 1000, 1000⟩ = t.frames := by
      unfold exactFrames
      have a : (w : ℚ) ≠ 0 := by exact_mod_cast (by omega : w ≠ 0)
      push_cast
      field_simp
    rw [e] at h2
    have hb : |(t.frames : ℚ)| ≤ 255 := by
      rw [abs_le]
      constructor
      · have : (0 : ℚ) ≤ t.frames := by exact_mod_cast hf
        linarith
      · have : t.frames ≤ 255 := by omega
        exact_mod_cast this
    have : rint q = t.frames := by
      apply rint_unique
      refine lt_of_le_of_lt h2 ?_
      unfold eps
      nlinarith
    rw [h1, this, toInt_int (by unfold InInt; omega)]
  · unfold lowByte
    rw [UInt8.toNat_ofNat']
    have : t.frames.emod 256 = t.frames := Int.emod_eq_of_lt hf (by omega)
    rw [this]
    omega

example : (⟨7, 24, some ⟨25, 1⟩⟩ : Time).framesAt ⟨25 * 1000, 1000⟩ = .ok 24 := (C62_own_rate_partial ⟨7, 24, some ⟨25, 1⟩⟩ 25 (by decide) (by decide) rfl (by decide) (by decide)).1

end LibSub
