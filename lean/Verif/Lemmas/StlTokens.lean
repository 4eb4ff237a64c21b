/-
Helper lemmas: the text of a binary STL subtitle as style codes and characters, how a row of it is cut into pieces, and how
the pieces are written again.
-/
import Verif.Props.StlRoundTrip

namespace LibSub

/-! ### Rows of codes and characters -/

/-- A style code or a character. -/
abbrev StlTok := Byte ⊕ WChar

def StlTok.bytes : StlTok → Str
  | .inl c => [c]
  | .inr w => isoBytes w

def tokBytes (ts : List StlTok) : Str := ts.flatMap StlTok.bytes

/-- The code changes the state. -/
def Toggles (st : StyleState) (c : Byte) (st' : StyleState) : Prop :=
  (c = 0x80 ∧ st.italic = false ∧ st' = { st with italic := true }) ∨ (c = 0x81 ∧ st.italic = true ∧ st' = { st with italic := false }) ∨
  (c = 0x82 ∧ st.underline = false ∧ st' = { st with underline := true }) ∨ (c = 0x83 ∧ st.underline = true ∧ st' = { st with underline := false })

/-- The state after a code. -/
def StyleState.after (st : StyleState) (c : Byte) : StyleState :=
  if c = 0x80 then { st with italic := true } else if c = 0x81 then { st with italic := false } else if c = 0x82 then { st with underline := true } else { st with underline := false }

/-- Every code changes the state, every character is of the set; the state at the end. -/
def Goes : StyleState → List StlTok → StyleState → Prop
  | st, [], st' => st = st'
  | st, .inl c :: ts, st' => Toggles st c (st.after c) ∧ Goes (st.after c) ts st'
  | st, .inr w :: ts, st' => Representable w ∧ Goes st ts st'

/-- The pieces of a row. -/
def cutToks : StyleState → List WChar → List StlTok → List (StyleState × List WChar)
  | st, acc, [] => [(st, acc)]
  | st, acc, .inl c :: ts => (st, acc) :: cutToks (st.after c) [] ts
  | st, acc, .inr w :: ts => cutToks st (acc ++ [w]) ts

/-- The pieces of a row that are read: at the end there is none without text. -/
def keptToks : StyleState → List WChar → List StlTok → List (StyleState × List WChar)
  | st, acc, [] => if acc = [] then [] else [(st, acc)]
  | st, acc, .inl c :: ts => (st, acc) :: keptToks (st.after c) [] ts
  | st, acc, .inr w :: ts => keptToks st (acc ++ [w]) ts

def StyleState.pen (st : StyleState) (row : Nat) : Pen := { row := row, italic := st.italic, underline := st.underline }

/-- The piece as it is read. -/
def pieceRun (row : Nat) (x : StyleState × List WChar) : Pen × Str := (x.1.pen row, x.2.flatMap isoBytes)

/-- The piece as a block. -/
def pieceBlock (x : StyleState × List WChar) : Block := { text := utf8Encode x.2, italic := x.1.italic, underline := x.1.underline }

theorem tokBytes_append (a b : List StlTok) : tokBytes (a ++ b) = tokBytes a ++ tokBytes b := by simp [tokBytes]

theorem isoBytes_ne {w : WChar} (h : Representable w) : isoBytes w ≠ [] := by
  rcases isoBytes_spec h with ⟨b, h, _⟩ | ⟨d, b, h, _⟩ <;> simp [h]

theorem isoBytes_plain {w : WChar} (h : Representable w) : ∀ b ∈ isoBytes w, ¬ StlControl b := by
  have := C51_fresh [w] _ (encode_isoBytes [w] (by simpa using h))
  simpa using this

theorem flatMap_isoBytes_nil {w : List WChar} (h : ∀ c ∈ w, Representable c) : w.flatMap isoBytes = [] ↔ w = [] := by
  constructor
  · intro e
    cases w with
    | nil => rfl
    | cons c w =>
      rw [List.flatMap_cons, List.append_eq_nil_iff] at e
      exact absurd e.1 (isoBytes_ne (h c (by simp)))
  · rintro rfl; rfl

theorem representable_valid {c : WChar} (h : Representable c) : validCodePoint c = true := by
  have := h.valid
  unfold validCodePoint
  simp only [Bool.and_eq_true, decide_eq_true_eq, Bool.not_eq_true', Bool.and_eq_false_imp, decide_eq_false_iff_not]
  exact ⟨by have := this.1; show c ≤ 1114111; exact le_trans this (by decide), fun h => fun h' => this.2 ⟨h, h'⟩⟩

theorem decode_pieces {w : List WChar} (h : ∀ c ∈ w, Representable c) : utf8Decode (utf8Encode w) = w :=
  utf8Decode_encode w (fun c hc => representable_valid (h c hc))

/-- Characters of the set are read back. -/
theorem isoText_isoBytes (w : List WChar) (h : ∀ c ∈ w, Representable c) : IsoText (w.flatMap isoBytes) w := by
  induction w with
  | nil => exact .nil
  | cons c w ih =>
    have i := ih (fun c hc => h c (by simp [hc]))
    rw [List.flatMap_cons]
    rcases isoBytes_spec (h c (by simp)) with ⟨b, h1, h2, h3, h4⟩ | ⟨d, b, h1, h2, h3, h4, h5⟩
    · rw [h1, ← h4]
      exact .char h2 h3 i
    · rw [h1]
      exact .accent h2 h3 h4 h5 i

theorem isoText_unique {s : Str} {v w : List WChar} (h1 : IsoText s v) (h2 : IsoText s w) : v = w := by
  have a := C53_text.2 h1
  have b := C53_text.2 h2
  rw [a] at b
  exact Except.ok.inj b

theorem Toggles.pen {st st' : StyleState} {c : Byte} (h : Toggles st c st') (row : Nat) : (st.pen row).code c = some (st'.pen row) := by
  obtain ⟨i, u⟩ := st
  rcases h with ⟨rfl, h, rfl⟩ | ⟨rfl, h, rfl⟩ | ⟨rfl, h, rfl⟩ | ⟨rfl, h, rfl⟩ <;> simp [StyleState.pen, Pen.code]

theorem Toggles.codes {st st' : StyleState} {c : Byte} (h : Toggles st c st') (k : Block) (hi : k.italic = st'.italic) (hu : k.underline = st'.underline) : styleCodes st k = [c] := by
  obtain ⟨i, u⟩ := st
  unfold styleCodes
  rw [hi, hu]
  rcases h with ⟨rfl, h, rfl⟩ | ⟨rfl, h, rfl⟩ | ⟨rfl, h, rfl⟩ | ⟨rfl, h, rfl⟩ <;> simp only at h <;> subst h <;> cases ‹Bool› <;> rfl

theorem Toggles.style {st st' : StyleState} {c : Byte} (h : Toggles st c st') : c ∈ ([0x80, 0x81, 0x82, 0x83] : Str) := by
  rcases h with ⟨rfl, _⟩ | ⟨rfl, _⟩ | ⟨rfl, _⟩ | ⟨rfl, _⟩ <;> decide

/-! ### Reading -/

theorem cutRow_plain (p : Pen) (s : Str) (h : ∀ b ∈ s, ¬ StlControl b) : ∀ acc t, cutRow p acc (s ++ t) = cutRow p (acc ++ s) t := by
  induction s with
  | nil => intro acc t; simp
  | cons c s ih =>
    intro acc t
    rw [List.cons_append, cutRow, (p.code_plain c (h c (by simp))).1]
    simp only
    rw [ih (fun b hb => h b (by simp [hb]))]
    simp

theorem cutRow_toks (row : Nat) (ts : List StlTok) : ∀ st st' acc, Goes st ts st' → (∀ c ∈ acc, Representable c) →
    cutRow (st.pen row) (acc.flatMap isoBytes) (tokBytes ts) = (keptToks st acc ts).map (pieceRun row) := by
  induction ts with
  | nil =>
    intro st st' acc _ ha
    show cutRow _ _ [] = _
    rw [cutRow, keptToks]
    by_cases e : acc = []
    · subst e; rfl
    · rw [if_neg e, if_neg (by rw [flatMap_isoBytes_nil ha]; exact e)]
      rfl
  | cons t ts ih =>
    intro st st' acc hg ha
    cases t with
    | inl c =>
      obtain ⟨h1, h2⟩ := hg
      show cutRow _ _ (c :: tokBytes ts) = _
      rw [cutRow, h1.pen row, keptToks, List.map_cons]
      simp only
      congr 1
      exact ih _ _ [] h2 (by simp)
    | inr w =>
      obtain ⟨h1, h2⟩ := hg
      show cutRow _ _ (isoBytes w ++ tokBytes ts) = _
      rw [cutRow_plain _ _ (isoBytes_plain h1), keptToks]
      have := ih st st' (acc ++ [w]) h2 (by
        intro c hc
        rcases List.mem_append.1 hc with hc | hc
        · exact ha c hc
        · rw [List.mem_singleton.1 hc]; exact h1)
      rw [← this]
      simp

theorem tokBytes_no (ts : List StlTok) : ∀ st st', Goes st ts st' → ∀ b ∈ tokBytes ts, b ≠ 0x8a ∧ b ≠ 0x8f := by
  induction ts with
  | nil => intro st st' _ b hb; cases hb
  | cons t ts ih =>
    intro st st' hg b hb
    cases t with
    | inl c =>
      obtain ⟨h1, h2⟩ := hg
      rcases List.mem_cons.1 (show b ∈ c :: tokBytes ts from hb) with rfl | hb
      · exact (by decide : ∀ c ∈ ([0x80, 0x81, 0x82, 0x83] : Str), c ≠ 0x8a ∧ c ≠ 0x8f) _ h1.style
      · exact ih _ _ h2 b hb
    | inr w =>
      obtain ⟨h1, h2⟩ := hg
      rcases List.mem_append.1 (show b ∈ isoBytes w ++ tokBytes ts from hb) with hb | hb
      · exact (Pen.code_plain {} b (isoBytes_plain h1 b hb)).2
      · exact ih _ _ h2 b hb

theorem playEnd_toks (row : Nat) (ts : List StlTok) : ∀ st st', Goes st ts st' → playEnd (st.pen row) false (tokBytes ts) = (st'.pen row, false) := by
  induction ts with
  | nil => intro st st' h; cases h; rfl
  | cons t ts ih =>
    intro st st' hg
    have hno := tokBytes_no _ _ _ hg
    cases t with
    | inl c =>
      obtain ⟨h1, h2⟩ := hg
      have := hno c (by simp [tokBytes, StlTok.bytes])
      show playEnd _ false (c :: tokBytes ts) = _
      rw [playEnd, if_neg this.1, if_neg (by simp [this.2]), h1.pen row]
      exact ih _ _ h2
    | inr w =>
      obtain ⟨h1, h2⟩ := hg
      show playEnd _ false (isoBytes w ++ tokBytes ts) = _
      rw [playEnd_append, (play_plain _ (isoBytes_plain h1) _).2]
      exact ih _ _ h2

theorem Goes.append {ts us : List StlTok} : ∀ {st st' st''}, Goes st ts st' → Goes st' us st'' → Goes st (ts ++ us) st'' := by
  induction ts with
  | nil => intro st st' st'' h h'; cases h; exact h'
  | cons t ts ih =>
    intro st st' st'' h h'
    cases t with
    | inl c => exact ⟨h.1, ih h.2 h'⟩
    | inr w => exact ⟨h.1, ih h.2 h'⟩

theorem goes_chars (w : List WChar) (h : ∀ c ∈ w, Representable c) (st : StyleState) : Goes st (w.map .inr) st := by
  induction w with
  | nil => rfl
  | cons c w ih => exact ⟨h c (by simp), ih (fun c hc => h c (by simp [hc]))⟩

theorem keptToks_rep (ts : List StlTok) : ∀ st st' acc, Goes st ts st' → (∀ c ∈ acc, Representable c) → ∀ x ∈ keptToks st acc ts, ∀ c ∈ x.2, Representable c := by
  induction ts with
  | nil =>
    intro st st' acc _ ha x hx
    rw [keptToks] at hx
    split at hx
    · cases hx
    · rw [List.mem_singleton.1 hx]; exact ha
  | cons t ts ih =>
    intro st st' acc hg ha x hx
    cases t with
    | inl c =>
      rw [keptToks] at hx
      rcases List.mem_cons.1 hx with rfl | hx
      · exact ha
      · exact ih _ _ _ hg.2 (by simp) x hx
    | inr w =>
      rw [keptToks] at hx
      refine ih _ _ _ hg.2 ?_ x hx
      intro c hc
      rcases List.mem_append.1 hc with hc | hc
      · exact ha c hc
      · rw [List.mem_singleton.1 hc]; exact hg.1

/-! ### Writing the pieces again -/

theorem keptToks_char (ts : List StlTok) : ∀ st acc w, keptToks st acc (ts ++ [.inr w]) = cutToks st acc (ts ++ [.inr w]) := by
  induction ts with
  | nil => intro st acc w; simp [keptToks, cutToks]
  | cons t ts ih =>
    intro st acc w
    cases t with
    | inl c => rw [List.cons_append, keptToks, cutToks, ih]
    | inr v => rw [List.cons_append, keptToks, cutToks, ih]

theorem keptToks_code (ts : List StlTok) : ∀ st acc c, keptToks st acc (ts ++ [.inl c]) = cutToks st acc ts := by
  induction ts with
  | nil => intro st acc w; simp [keptToks, cutToks]
  | cons t ts ih =>
    intro st acc w
    cases t with
    | inl c => rw [List.cons_append, keptToks, cutToks, ih]
    | inr v => rw [List.cons_append, keptToks, cutToks, ih]

theorem cutToks_ne (ts : List StlTok) : ∀ st acc, cutToks st acc ts ≠ [] := by
  induction ts with
  | nil => intro st acc; simp [cutToks]
  | cons t ts ih =>
    intro st acc
    cases t with
    | inl c => simp [cutToks]
    | inr v => rw [cutToks]; exact ih _ _

/-- The pieces written again are the row. -/
theorem write_cutToks (ts : List StlTok) : ∀ st₀ st st' acc, Goes st ts st' → (∀ c ∈ acc, Representable c) →
    writerBlocks st₀ ((cutToks st acc ts).map pieceBlock) = .ok (styleCodes st₀ (pieceBlock (st, [])) ++ acc.flatMap isoBytes ++ tokBytes ts, st') := by
  induction ts with
  | nil =>
    intro st₀ st st' acc hg ha
    cases hg
    rw [cutToks, List.map_cons, List.map_nil, writerBlocks]
    simp only [pieceBlock]
    rw [decode_pieces ha, encode_isoBytes _ ha, ok_bind, writerBlocks, ok_bind, pure_eq_ok]
    simp [tokBytes, styleCodes]
  | cons t ts ih =>
    intro st₀ st st' acc hg ha
    cases t with
    | inl c =>
      have hi := ih st (st.after c) st' [] hg.2 (by simp)
      rw [cutToks, List.map_cons, writerBlocks]
      have e1 : utf8Decode (pieceBlock (st, acc)).text = acc := decode_pieces ha
      have e2 : (⟨(pieceBlock (st, acc)).italic, (pieceBlock (st, acc)).underline⟩ : StyleState) = st := rfl
      rw [e1, e2, encode_isoBytes _ ha, ok_bind, hi, ok_bind, hg.1.codes _ rfl rfl]
      simp only [pure_eq_ok]
      simp [tokBytes, styleCodes, pieceBlock, StlTok.bytes]
    | inr w =>
      rw [cutToks, ih st₀ st st' (acc ++ [w]) hg.2 ?_]
      · simp [tokBytes, StlTok.bytes]
      · intro c hc
        rcases List.mem_append.1 hc with hc | hc
        · exact ha c hc
        · rw [List.mem_singleton.1 hc]; exact hg.1

/-- The characters of the pieces. -/
theorem cutToks_chars (ts : List StlTok) : ∀ st acc, (cutToks st acc ts).flatMap (·.2) = acc ++ ts.filterMap Sum.getRight? := by
  induction ts with
  | nil => intro st acc; simp [cutToks]
  | cons t ts ih =>
    intro st acc
    cases t with
    | inl c => rw [cutToks, List.flatMap_cons, ih]; simp [List.filterMap_cons]
    | inr v => rw [cutToks, ih]; simp

/-! ### Blocks as codes and characters -/

def tokBlocks : StyleState → List Block → List StlTok
  | _, [] => []
  | st, k :: ks => (styleCodes st k).map .inl ++ (utf8Decode k.text).map .inr ++ tokBlocks ⟨k.italic, k.underline⟩ ks

def stateAfter : StyleState → List Block → StyleState
  | st, [] => st
  | _, k :: ks => stateAfter ⟨k.italic, k.underline⟩ ks

def closers (st : StyleState) : List StlTok := (if st.underline then [.inl 0x83] else []) ++ (if st.italic then [.inl 0x81] else [])

theorem goes_codes (st : StyleState) (k : Block) : Goes st ((styleCodes st k).map .inl) ⟨k.italic, k.underline⟩ := by
  obtain ⟨i, u⟩ := st
  unfold styleCodes
  generalize k.italic = ki
  generalize k.underline = ku
  cases i <;> cases u <;> cases ki <;> cases ku <;> simp [Goes, StyleState.after, Toggles]

theorem goes_blocks (ks : List Block) (h : ∀ k ∈ ks, ∀ c ∈ utf8Decode k.text, Representable c) : ∀ st, Goes st (tokBlocks st ks) (stateAfter st ks) := by
  induction ks with
  | nil => intro st; rfl
  | cons k ks ih =>
    intro st
    rw [tokBlocks, stateAfter]
    exact ((goes_codes st k).append (goes_chars _ (h k (by simp)) _)).append (ih (fun k hk => h k (by simp [hk])) _)

theorem goes_closers (st : StyleState) : Goes st (closers st) {} := by
  obtain ⟨i, u⟩ := st
  cases i <;> cases u <;> simp [closers, Goes, StyleState.after, Toggles]

theorem writerBlocks_toks (ks : List Block) (h : ∀ k ∈ ks, ∀ c ∈ utf8Decode k.text, Representable c) : ∀ st, writerBlocks st ks = .ok (tokBytes (tokBlocks st ks), stateAfter st ks) := by
  induction ks with
  | nil => intro st; rfl
  | cons k ks ih =>
    intro st
    rw [writerBlocks, encode_isoBytes _ (h k (by simp)), ok_bind, ih (fun k hk => h k (by simp [hk])), ok_bind, tokBlocks, stateAfter, tokBytes_append, tokBytes_append]
    simp only [pure_eq_ok]
    have e : ∀ s : Str, tokBytes (s.map .inl) = s := fun s => by simp [tokBytes, List.flatMap_map, StlTok.bytes]
    have e' : ∀ s : List WChar, tokBytes (s.map .inr) = s.flatMap isoBytes := fun s => by simp [tokBytes, List.flatMap_map, StlTok.bytes]
    rw [e, e']

theorem tokBlocks_chars (ks : List Block) : ∀ st, (tokBlocks st ks).filterMap Sum.getRight? = ks.flatMap (fun k => utf8Decode k.text) := by
  induction ks with
  | nil => intro st; rfl
  | cons k ks ih =>
    intro st
    rw [tokBlocks, List.filterMap_append, List.filterMap_append, ih, List.flatMap_cons]
    have e : ∀ s : Str, (s.map (Sum.inl : Byte → StlTok)).filterMap Sum.getRight? = [] := fun s => by simp
    have e' : ∀ s : List WChar, (s.map (Sum.inr : WChar → StlTok)).filterMap Sum.getRight? = s := fun s => by simp [List.filterMap_map, Function.comp_def]
    rw [e, e', List.nil_append]

theorem keptToks_chars (ts : List StlTok) : ∀ st acc, (keptToks st acc ts).flatMap (·.2) = acc ++ ts.filterMap Sum.getRight? := by
  induction ts with
  | nil =>
    intro st acc
    rw [keptToks]
    split
    · rename_i h; simp [h]
    · simp
  | cons t ts ih =>
    intro st acc
    cases t with
    | inl c => rw [keptToks, List.flatMap_cons, ih]; simp [List.filterMap_cons]
    | inr v => rw [keptToks, ih]; simp

theorem closers_chars (st : StyleState) : (closers st).filterMap Sum.getRight? = [] := by
  obtain ⟨i, u⟩ := st
  cases i <;> cases u <;> rfl

/-- A line that ends in text. -/
theorem tokBlocks_last (ks : List Block) (k : Block) (h : ks.getLast? = some k) (hk : utf8Decode k.text ≠ []) : ∀ st, ∃ ts w, tokBlocks st ks = ts ++ [.inr w] := by
  induction ks with
  | nil => cases h
  | cons k' ks ih =>
    intro st
    rw [tokBlocks]
    cases hks : ks with
    | nil =>
      rw [hks] at h
      have h : k' = k := Option.some.inj h
      subst h
      refine ⟨(styleCodes st k').map .inl ++ (utf8Decode k'.text).dropLast.map .inr, (utf8Decode k'.text).getLast hk, ?_⟩
      rw [tokBlocks, List.append_nil, List.append_assoc]
      congr 1
      rw [← List.map_singleton (f := (Sum.inr : WChar → StlTok)), ← List.map_append, List.dropLast_concat_getLast]
    | cons k2 ks2 =>
      rw [hks, List.getLast?_cons_cons, ← hks] at h
      obtain ⟨ts, w, e⟩ := ih h ⟨k'.italic, k'.underline⟩
      rw [← hks, e]
      exact ⟨_, w, (List.append_assoc _ _ _).symm⟩

/-! ### Lines -/

/-- The text of lines, the first without the breaks before it, with the codes at the end. -/
def linesText : StyleState → List (Line × Int) → Str
  | _, [] => []
  | st, [(j, _)] => tokBytes (tokBlocks st j.blocks ++ closers (stateAfter st j.blocks))
  | st, (j, v) :: (j2, v2) :: js => tokBytes (tokBlocks st j.blocks) ++ List.replicate (v2 - v).toNat 0x8a ++ linesText (stateAfter st j.blocks) ((j2, v2) :: js)

/-- The pieces read of every line. -/
def backPieces : StyleState → List (Line × Int) → List (List (StyleState × List WChar))
  | _, [] => []
  | st, [(j, _)] => [keptToks st [] (tokBlocks st j.blocks ++ closers (stateAfter st j.blocks))]
  | st, (j, _) :: l :: js => keptToks st [] (tokBlocks st j.blocks) :: backPieces (stateAfter st j.blocks) (l :: js)

/-- The same with their rows. -/
def backRuns : Nat → StyleState → List (Line × Int) → List (Nat × (StyleState × List WChar))
  | _, _, [] => []
  | r, st, [(j, _)] => (keptToks st [] (tokBlocks st j.blocks ++ closers (stateAfter st j.blocks))).map (fun x => (r, x))
  | r, st, (j, v) :: (j2, v2) :: js => (keptToks st [] (tokBlocks st j.blocks)).map (fun x => (r, x)) ++ backRuns (r + (v2 - v).toNat) (stateAfter st j.blocks) ((j2, v2) :: js)

/-- The pieces of a line as a line. -/
def backLine (h : HPos) (v : Int) (ps : List (StyleState × List WChar)) : Line :=
  { hpos := h, vpos := { line := some v, lines := some 23, ref := some .topOfScreen }, blocks := ps.map pieceBlock }

/-- The characters of the lines are of the set. -/
def TextOk (js : List (Line × Int)) : Prop := ∀ j ∈ js, ∀ k ∈ j.1.blocks, ∀ c ∈ utf8Decode k.text, Representable c

theorem backPieces_length : ∀ (js : List (Line × Int)) (st : StyleState), (backPieces st js).length = js.length
  | [], _ => rfl
  | [_], _ => rfl
  | (j, _) :: l :: js, st => by
    rw [backPieces, List.length_cons, backPieces_length (l :: js)]
    rfl

theorem writerLines_toks : ∀ (js : List (Line × Int)) (j : Line) (v : Int) (st : StyleState) (last : Option Int), TextOk ((j, v) :: js) →
    ∃ X st', writerLines st last ((j, v) :: js) = .ok (writerBreaks last v ++ X, st') ∧ X ++ tokBytes (closers st') = linesText st ((j, v) :: js)
  | [], j, v, st, last, h => by
    refine ⟨tokBytes (tokBlocks st j.blocks), stateAfter st j.blocks, ?_, by rw [linesText, tokBytes_append]⟩
    rw [writerLines, writerBlocks_toks _ (h (j, v) (by simp)), ok_bind]
    simp only [writerLines, ok_bind, pure_eq_ok, List.append_nil]
  | (j2, v2) :: js, j, v, st, last, h => by
    obtain ⟨X, st', h1, h2⟩ := writerLines_toks js j2 v2 (stateAfter st j.blocks) (some v) (fun x hx => h x (by simp [hx]))
    refine ⟨tokBytes (tokBlocks st j.blocks) ++ List.replicate (v2 - v).toNat 0x8a ++ X, st', ?_, by rw [linesText, ← h2]; simp⟩
    rw [writerLines, writerBlocks_toks _ (h (j, v) (by simp)), ok_bind]
    simp only [h1, ok_bind, pure_eq_ok, writerBreaks]
    simp

theorem writerText_toks (js : List (Line × Int)) (hj : js ≠ []) (h : TextOk js) : writerText js = .ok (linesText {} js ++ [0x8f]) := by
  obtain ⟨⟨j, v⟩, js, rfl⟩ := List.exists_cons_of_ne_nil hj
  obtain ⟨X, st', h1, h2⟩ := writerLines_toks js j v {} none h
  unfold writerText
  rw [h1, ok_bind, ← h2]
  simp only [pure_eq_ok, writerBreaks, List.nil_append]
  obtain ⟨i, u⟩ := st'
  cases i <;> cases u <;> simp [closers, tokBytes, StlTok.bytes]

/-- Lines but the last end in text. -/
def Ends (js : List (Line × Int)) : Prop := ∀ j ∈ js.dropLast, ∃ k, j.1.blocks.getLast? = some k ∧ utf8Decode k.text ≠ []

/-- The last line has something to read. -/
def LastFull (js : List (Line × Int)) : Prop := ∀ j, js.getLast? = some j → ∃ k ∈ j.1.blocks, utf8Decode k.text ≠ []

theorem goes_split (ts : List StlTok) (c : Byte) : ∀ st st', Goes st (ts ++ [.inl c]) st' → ∃ st2, Goes st ts st2 ∧ Toggles st2 c st' := by
  induction ts with
  | nil =>
    intro st st' h
    obtain ⟨h1, h2⟩ := h
    cases h2
    exact ⟨st, rfl, h1⟩
  | cons t ts ih =>
    intro st st' h
    cases t with
    | inl d =>
      obtain ⟨st2, h1, h2⟩ := ih _ _ h.2
      exact ⟨st2, ⟨h.1, h1⟩, h2⟩
    | inr w =>
      obtain ⟨st2, h1, h2⟩ := ih _ _ h.2
      exact ⟨st2, ⟨h.1, h1⟩, h2⟩

/-- The last line, whose end is plain: the codes at its end are written again. -/
theorem write_last (st : StyleState) (us : List StlTok) (hus : us ≠ []) (h : Goes st us {}) :
    ∃ t st', writerBlocks st ((keptToks st [] us).map pieceBlock) = .ok (t, st') ∧ t ++ tokBytes (closers st') = tokBytes us := by
  have e : us = us.dropLast ++ [us.getLast hus] := (List.dropLast_concat_getLast hus).symm
  have hnone : ∀ st : StyleState, styleCodes st (pieceBlock (st, [])) = [] := by
    intro st
    obtain ⟨i, u⟩ := st
    cases i <;> cases u <;> rfl
  generalize us.getLast hus = t at e
  generalize us.dropLast = ts at e
  subst e
  cases t with
  | inl c =>
    obtain ⟨st2, h1, h2⟩ := goes_split _ _ _ _ h
    refine ⟨tokBytes ts, st2, ?_, ?_⟩
    · rw [keptToks_code, write_cutToks ts st st st2 [] h1 (by simp), hnone]
      rfl
    · rw [tokBytes_append]
      congr 1
      obtain ⟨i, u⟩ := st2
      rcases h2 with ⟨rfl, h, h'⟩ | ⟨rfl, h, h'⟩ | ⟨rfl, h, h'⟩ | ⟨rfl, h, h'⟩ <;> simp_all [closers, tokBytes, StlTok.bytes]
  | inr w =>
    refine ⟨tokBytes (ts ++ [.inr w]), {}, ?_, by simp [closers, tokBytes]⟩
    rw [keptToks_char, write_cutToks _ st st {} [] h (by simp), hnone]
    rfl

theorem tokBlocks_ne (ks : List Block) (h : ∃ k ∈ ks, utf8Decode k.text ≠ []) (st : StyleState) : tokBlocks st ks ≠ [] := by
  intro e
  have := tokBlocks_chars ks st
  rw [e] at this
  obtain ⟨k, hk, hd⟩ := h
  exact hd (List.flatMap_eq_nil_iff.1 this.symm k hk)

/-- The lines read are written as the lines they were read from. -/
theorem writerLines_back (hp : HPos) : ∀ (js : List (Line × Int)) (j : Line) (v : Int) (st : StyleState) (last : Option Int), TextOk ((j, v) :: js) → Ends ((j, v) :: js) → LastFull ((j, v) :: js) →
    ∃ X st', writerLines st last (((backPieces st ((j, v) :: js)).zip (v :: js.map (·.2))).map (fun x => (backLine hp x.2 x.1, x.2))) = .ok (writerBreaks last v ++ X, st') ∧
      X ++ tokBytes (closers st') = linesText st ((j, v) :: js)
  | [], j, v, st, last, h, _, hl => by
    have hg := (goes_blocks j.blocks (h (j, v) (by simp)) st).append (goes_closers _)
    have hne : tokBlocks st j.blocks ++ closers (stateAfter st j.blocks) ≠ [] := fun e => tokBlocks_ne _ (hl _ rfl) st (List.append_eq_nil_iff.1 e).1
    obtain ⟨t, st', h1, h2⟩ := write_last st _ hne hg
    refine ⟨t, st', ?_, h2⟩
    rw [backPieces]
    simp only [List.map_nil, List.zip_cons_cons, List.zip_nil_right, List.map_cons, writerLines, backLine, h1, ok_bind, pure_eq_ok, List.append_nil]
  | (j2, v2) :: js, j, v, st, last, h, he, hl => by
    obtain ⟨X, st', h1, h2⟩ := writerLines_back hp js j2 v2 (stateAfter st j.blocks) (some v) (fun x hx => h x (by simp [hx])) (fun x hx => he x (by
      rw [List.dropLast_cons_of_ne_nil (by simp)]; simp [hx])) (fun x hx => hl x (by rw [List.getLast?_cons_cons]; exact hx))
    obtain ⟨k, hk, hd⟩ := he (j, v) (by rw [List.dropLast_cons_of_ne_nil (by simp)]; simp)
    obtain ⟨ts, w, e⟩ := tokBlocks_last j.blocks k hk hd st
    have hg := goes_blocks j.blocks (h (j, v) (by simp)) st
    have hw : writerBlocks st ((keptToks st [] (tokBlocks st j.blocks)).map pieceBlock) = .ok (tokBytes (tokBlocks st j.blocks), stateAfter st j.blocks) := by
      have hnone : styleCodes st (pieceBlock (st, [])) = [] := by
        obtain ⟨i, u⟩ := st
        cases i <;> cases u <;> rfl
      have := write_cutToks _ st st _ [] hg (by simp)
      rw [hnone, e, ← keptToks_char, ← e] at this
      exact this
    refine ⟨tokBytes (tokBlocks st j.blocks) ++ List.replicate (v2 - v).toNat 0x8a ++ X, st', ?_, by rw [linesText, ← h2]; simp⟩
    rw [backPieces]
    rw [List.map_cons, List.zip_cons_cons, List.map_cons, writerLines]
    simp only [backLine] at h1 ⊢
    rw [hw, ok_bind]
    simp only [h1, ok_bind, pure_eq_ok, writerBreaks]
    simp

theorem writerText_back (hp : HPos) (js : List (Line × Int)) (hj : js ≠ []) (h : TextOk js) (he : Ends js) (hl : LastFull js) :
    writerText (((backPieces {} js).zip (js.map (·.2))).map (fun x => (backLine hp x.2 x.1, x.2))) = writerText js := by
  rw [writerText_toks js hj h]
  obtain ⟨⟨j, v⟩, js, rfl⟩ := List.exists_cons_of_ne_nil hj
  obtain ⟨X, st', h1, h2⟩ := writerLines_back hp js j v {} none h he hl
  unfold writerText
  rw [List.map_cons, h1, ok_bind, ← h2]
  simp only [pure_eq_ok, writerBreaks, List.nil_append]
  obtain ⟨i, u⟩ := st'
  cases i <;> cases u <;> simp [closers, tokBytes, StlTok.bytes]

/-! ### Rows -/

theorem cutRows_blank (n : Nat) (ls : List Str) : ∀ (st : StyleState) (r : Nat), cutRows (st.pen r) (List.replicate n [] ++ ls) = cutRows (st.pen (r + n)) ls := by
  induction n with
  | zero => intro st r; rfl
  | succ n ih =>
    intro st r
    rw [List.replicate_succ, List.cons_append, cutRows]
    show cutRow _ [] [] ++ cutRows (st.pen (r + 1)) _ = _
    rw [ih, cutRow, if_pos rfl, List.nil_append]
    congr 2
    omega

theorem splitAny_breaks (n : Nat) (a b : Str) (h : ∀ c ∈ a, c ≠ 0x8a) : splitAny (· == 0x8a) (a ++ List.replicate (n + 1) 0x8a ++ b) = a :: (List.replicate n [] ++ splitAny (· == 0x8a) b) := by
  rw [List.replicate_succ, List.append_assoc, List.cons_append, splitAny_append (by simpa using h) (by decide)]
  congr 1
  clear h
  induction n with
  | zero => rfl
  | succ n ih =>
    rw [List.replicate_succ, List.cons_append, splitAny, if_pos (by decide), ih]
    rfl

theorem cutRows_lines (m : Nat) : ∀ (js : List (Line × Int)) (j : Line) (v : Int) (st : StyleState) (r : Nat), TextOk ((j, v) :: js) → (v :: js.map (·.2)).Pairwise (· < ·) →
    cutRows (st.pen r) (splitAny (· == 0x8a) (linesText st ((j, v) :: js) ++ List.replicate m 0x8f)) = (backRuns r st ((j, v) :: js)).map (fun x => pieceRun x.1 x.2)
  | [], j, v, st, r, h, _ => by
    have hg := (goes_blocks j.blocks (h (j, v) (by simp)) st).append (goes_closers _)
    have hno := tokBytes_no _ _ _ hg
    rw [linesText, backRuns, splitAny_noSep, cutRows, cutRows, List.append_nil]
    · rw [List.takeWhile_append_of_pos (by intro b hb; simpa using (hno b hb).2)]
      have e : (List.replicate m (0x8f : Byte)).takeWhile (· != 0x8f) = [] := by cases m <;> rfl
      rw [e, List.append_nil]
      have := cutRow_toks r _ st _ [] hg (by simp)
      rw [List.flatMap_nil] at this
      rw [this, List.map_map]
      rfl
    · intro c hc
      rcases List.mem_append.1 hc with hc | hc
      · simpa using (hno c hc).1
      · rw [List.eq_of_mem_replicate hc]; decide
  | (j2, v2) :: js, j, v, st, r, h, hp => by
    have hg := goes_blocks j.blocks (h (j, v) (by simp)) st
    have hno := tokBytes_no _ _ _ hg
    have hlt : v < v2 := (List.pairwise_cons.1 hp).1 v2 (by simp)
    have htw : (tokBytes (tokBlocks st j.blocks)).takeWhile (· != 0x8f) = tokBytes (tokBlocks st j.blocks) := by
      have := List.takeWhile_append_of_pos (p := (· != (0x8f : Byte))) (l₁ := tokBytes (tokBlocks st j.blocks)) (l₂ := []) (by intro b hb; simpa using (hno b hb).2)
      simpa using this
    obtain ⟨n, hn⟩ : ∃ n, (v2 - v).toNat = n + 1 := ⟨(v2 - v).toNat - 1, by omega⟩
    rw [linesText, backRuns, hn, List.append_assoc (_ ++ _), splitAny_breaks _ _ _ (fun c hc => (hno c hc).1), cutRows, htw, playEnd_toks r _ _ _ hg]
    have ih := cutRows_lines m js j2 v2 (stateAfter st j.blocks) (r + (n + 1)) (fun x hx => h x (by simp [hx])) (List.pairwise_cons.1 hp).2
    have := cutRow_toks r _ st _ [] hg (by simp)
    rw [List.flatMap_nil] at this
    rw [this, List.map_append, ← ih, List.map_map]
    congr 1
    show cutRows ((stateAfter st j.blocks).pen (r + 1)) _ = _
    rw [cutRows_blank]
    congr 2
    omega

theorem backRuns_rep : ∀ (js : List (Line × Int)) (st : StyleState) (r : Nat), TextOk js → ∀ x ∈ backRuns r st js, ∀ c ∈ x.2.2, Representable c
  | [], _, _, _, x, hx => by cases hx
  | [(j, v)], st, r, h, x, hx => by
    obtain ⟨y, hy, rfl⟩ := List.mem_map.1 hx
    exact keptToks_rep _ _ _ _ ((goes_blocks j.blocks (h (j, v) (by simp)) st).append (goes_closers _)) (by simp) y hy
  | (j, v) :: (j2, v2) :: js, st, r, h, x, hx => by
    rcases List.mem_append.1 hx with hx | hx
    · obtain ⟨y, hy, rfl⟩ := List.mem_map.1 hx
      exact keptToks_rep _ _ _ _ (goes_blocks j.blocks (h (j, v) (by simp)) st) (by simp) y hy
    · exact backRuns_rep ((j2, v2) :: js) _ _ (fun x hx => h x (by simp [hx])) x hx

end LibSub
