/-
Property C112: an SSA file read, collected, written as a binary STL file and read again.
-/
import Verif.Props.SsaSubtitles
import Verif.Props.StlSubtitles
import Mathlib.Tactic.Linarith
import Mathlib.Tactic.Positivity

namespace LibSub

/-! ### Specification -/

/-- A line of text with its number, if it has some block. -/
def sRow (k : Nat) (bs : List Block) : List (Nat × List Block) := if bs = [] then [] else [(k, bs)]

/-- The lines of a dialogue that have text, numbered by all lines; `cur` are the blocks so far of line `k` and `text` is the text since the last block. -/
def sRows (ctx : SsaContext) (s : SState) (k : Nat) (cur : List Block) (text : Str) : List SItem → List (Nat × List Block)
  | [] => sRow k (cur ++ sBlock s text)
  | .text t :: is => sRows ctx s k cur (text ++ t) is
  | .escape _ :: is => sRows ctx s k cur text is
  | .block _ tags :: is => sRows ctx (tags.foldl (STag.apply ctx) s) k (cur ++ sBlock s text) [] is
  | .newLine _ :: is => sRow k (cur ++ sBlock s text) ++ sRows ctx s (k + 1) [] [] is

def SDoc.rows (d : SDoc) (e : SDialogue) : List (Nat × List Block) := sRows (d.context e) (startState (d.context e) (d.base e) (d.size e)) 0 [] [] e.items

/-- A distance from a part of the screen, measured from the top. -/
def fromTop (ref : VRef) (y : ℚ) : ℚ :=
  match ref with
  | .bottomOfScreen => 1 - y
  | .centreOfScreen => 1 / 2 + y
  | _ => y

/-- How far down the screen line `k` of a dialogue is (0 is the top, 1 the bottom). -/
def SDoc.height (d : SDoc) (e : SDialogue) (k : Nat) : ℚ := fromTop (d.ref e) (stackPos (d.ref e) (d.margin e) (6 / 5 * d.size e) e.count k)

/-- Bytes for a character: ASCII takes one. -/
def stlCost (c : WChar) : Nat := if c < 128 then 1 else 2

/-- Bytes for the blocks of a line, with their codes for italic and underline. -/
def blocksCost (bs : List Block) : Nat := (bs.map (fun b => 2 + ((utf8Decode b.text).map stlCost).sum)).sum

/-- A dialogue that a binary STL file can hold: all lines on the screen and more than a row apart; characters of the set; 86 bytes of text at most (a block takes 112; up to 23 are for changes
of row and 3 for the end); less than 256 hours. -/
structure SDoc.ForStl (d : SDoc) (e : SDialogue) : Prop where
  spacing : e.count = 1 ∨ 103 / 100 ≤ 23 * (6 / 5 * d.size e)
  size : d.size e ≤ 1
  margin : |d.margin e| ≤ 1
  onScreen : ∀ k < e.count, 0 ≤ d.height e k ∧ d.height e k ≤ 1
  text : ∀ x ∈ d.rows e, ∀ b ∈ x.2, ∀ c ∈ utf8Decode b.text, Representable c
  bytes : ((d.rows e).map (fun x => blocksCost x.2)).sum ≤ 86
  short : ∀ x ∈ d.rows e, (x.2.map (fun b => b.text.length)).sum < 2 ^ 31
  hours : e.from_.hundredths.secs < 921600 ∧ e.to_.hundredths.secs < 921600

/-- `f` is the frame of `ms` milliseconds, at `w` frames per second: the nearest one. -/
def NearestFrame (w ms f : Int) : Prop := |1000 * f - ms * w| ≤ 500

/-- What is to be seen of a dialogue in a file of `w` frames per second: the characters of its lines, each on the row nearest to its place (give or take a hundredth), with italic and underline as in the dialogue;
lines are one below the other; all is white, aligned like the dialogue. -/
def SDoc.ShownIn (d : SDoc) (w : Int) (e : SDialogue) (part : List Seen) : Prop :=
  ∃ (ff tf : Int) (row : Nat → Int), NearestFrame w e.from_.hundredths.frames ff ∧ NearestFrame w e.to_.hundredths.frames tf ∧
    (∀ k < e.count, |(row k : ℚ) - 23 * d.height e k| ≤ 51 / 100 ∧ 0 ≤ row k ∧ row k ≤ 23) ∧ (∀ j k : Nat, j < k → k < e.count → row j < row k) ∧
    part = (d.rows e).flatMap (fun x => x.2.flatMap (fun b => (utf8Decode b.text).map (fun c =>
      ⟨⟨e.from_.hundredths.secs, ff, some ⟨w, 1⟩⟩, ⟨e.to_.hundredths.secs, tf, some ⟨w, 1⟩⟩, some (row x.1), (d.base e).hpos.ref, ⟨1, 1, 1⟩, b.italic, b.underline, c⟩)))

/-! ### Proofs -/

private theorem sLines_rows (ctx : SsaContext) (hpos : HPos) (place : Nat → VPos) (items : List SItem) : ∀ (s : SState) (k : Nat) (cur : List Block) (text : Str),
    sLines ctx hpos place s k cur text items = (sRows ctx s k cur text items).map (fun x => { hpos := hpos, vpos := place x.1, blocks := x.2 }) := by
  have line : ∀ (k : Nat) (bs : List Block), sLine hpos (place k) bs = (sRow k bs).map (fun x => { hpos := hpos, vpos := place x.1, blocks := x.2 }) := by
    intro k bs
    unfold sLine sRow
    split <;> rfl
  induction items with
  | nil => intro s k cur text; rw [sLines, sRows, line]
  | cons i items ih =>
    intro s k cur text
    cases i with
    | text t => exact ih _ _ _ _
    | escape c => exact ih _ _ _ _
    | newLine u => rw [sLines, sRows, List.map_append, ih, line]
    | block c tags => exact ih _ _ _ _

private theorem sRows_numbers (ctx : SsaContext) (items : List SItem) : ∀ (s : SState) (k : Nat) (cur : List Block) (text : Str),
    ((sRows ctx s k cur text items).map (·.1)).Pairwise (· < ·) ∧ ∀ x ∈ sRows ctx s k cur text items, k ≤ x.1 ∧ x.1 ≤ k + items.countP SItem.isBreak := by
  have line : ∀ (k : Nat) (bs : List Block), ((sRow k bs).map (·.1)).Pairwise (· < ·) ∧ ∀ x ∈ sRow k bs, x.1 = k := by
    intro k bs
    unfold sRow
    split <;> simp
  induction items with
  | nil =>
    intro s k cur text
    obtain ⟨h1, h2⟩ := line k (cur ++ sBlock s text)
    exact ⟨h1, fun x hx => by have := h2 x hx; omega⟩
  | cons i items ih =>
    intro s k cur text
    cases i with
    | text t =>
      obtain ⟨h1, h2⟩ := ih s k cur (text ++ t)
      exact ⟨h1, fun x hx => by have := h2 x hx; rw [List.countP_cons]; omega⟩
    | escape c =>
      obtain ⟨h1, h2⟩ := ih s k cur text
      exact ⟨h1, fun x hx => by have := h2 x hx; rw [List.countP_cons]; omega⟩
    | block c tags =>
      obtain ⟨h1, h2⟩ := ih (tags.foldl (STag.apply ctx) s) k (cur ++ sBlock s text) []
      exact ⟨h1, fun x hx => by have := h2 x hx; rw [List.countP_cons]; omega⟩
    | newLine u =>
      obtain ⟨h1, h2⟩ := ih s (k + 1) [] []
      obtain ⟨h3, h4⟩ := line k (cur ++ sBlock s text)
      rw [sRows]
      have e : (SItem.newLine u :: items).countP SItem.isBreak = items.countP SItem.isBreak + 1 := by
        rw [List.countP_cons_of_pos]; rfl
      refine ⟨?_, fun x hx => ?_⟩
      · rw [List.map_append, List.pairwise_append]
        refine ⟨h3, h1, fun a ha b hb => ?_⟩
        rw [List.mem_map] at ha hb
        obtain ⟨x, hx, rfl⟩ := ha
        obtain ⟨y, hy, rfl⟩ := hb
        have := h4 x hx
        have := h2 y hy
        omega
      · rw [e]
        rcases List.mem_append.1 hx with hx | hx
        · have := h4 x hx; omega
        · have := h2 x hx; omega

private theorem rows_blocks (ctx : SsaContext) (items : List SItem) : ∀ (s : SState) (k : Nat) (cur : List Block) (text : Str), ∀ x ∈ sRows ctx s k cur text items, x.2 ≠ [] := by
  have line : ∀ (k : Nat) (bs : List Block), ∀ x ∈ sRow k bs, x.2 ≠ [] := by
    intro k bs
    unfold sRow
    split <;> simp_all
  induction items with
  | nil => intro s k cur text x hx; exact line _ _ x hx
  | cons i items ih =>
    intro s k cur text x hx
    cases i with
    | text t => exact ih _ _ _ _ x hx
    | escape c => exact ih _ _ _ _ x hx
    | block c tags => exact ih _ _ _ _ x hx
    | newLine u =>
      rcases List.mem_append.1 hx with hx | hx
      · exact line _ _ x hx
      · exact ih _ _ _ _ x hx

/-! The rows -/

private theorem toInt_small {n : Int} (h : |(n : ℚ)| ≤ 1000) : toInt (n : ℚ) = .ok n := by
  have : |n| ≤ 1000 := by exact_mod_cast h
  rw [abs_le] at this
  exact toInt_int (by unfold InInt; omega)

/-- The row the writer computes. -/
private theorem writer_row (v : VPos) (p y : ℚ) (ref : VRef) (href : v.ref = some ref) (hp : v.prop = some p)
    (hy : y = fromTop ref p) (h2 : |p| ≤ 2) (hs : ref ≠ .topOfSubtitle) :
    ∃ n : Int, |(n : ℚ) - 23 * y| ≤ 1 / 2 + 1 / 1000 ∧ ∀ l : Line, l.vpos = v → writerVpos l = .ok n := by
  have e23 : ((stlRows : Int) : ℚ) = 23 := by norm_num [stlRows]
  have f1 := f32_err (p * 23)
  rw [abs_le] at h2
  have f2 : |p * 23| ≤ 46 := by rw [abs_le]; constructor <;> linarith
  have f3 : |f32 (p * 23) - p * 23| ≤ 1 / 300000 := f1.trans (by norm_num at f2 ⊢; linarith)
  rw [abs_le] at f3
  have small : ∀ (x : ℚ) (n : Int), |x| ≤ 100 → |(n : ℚ) - x| ≤ 1 / 2 → |(n : ℚ)| ≤ 1000 := by
    intro x n h1 h2
    rw [abs_le] at *
    constructor <;> linarith
  cases ref with
  | topOfSubtitle => exact absurd rfl hs
  | topOfScreen =>
    simp only [fromTop] at hy
    have r := abs_rint_sub_le (f32 (p * 23))
    refine ⟨rint (f32 (p * 23)), ?_, fun l hl => ?_⟩
    · rw [abs_le] at *; constructor <;> linarith
    · unfold writerVpos
      rw [hl, hp, href]
      simp only [Option.getD_some, e23]
      exact toInt_small (small _ _ (by rw [abs_le]; constructor <;> linarith) r)
  | bottomOfScreen =>
    simp only [fromTop] at hy
    have g1 := f32_err (23 - f32 (p * 23))
    have g2 : |23 - f32 (p * 23)| ≤ 70 := by rw [abs_le]; constructor <;> linarith
    have g3 : |f32 (23 - f32 (p * 23)) - (23 - f32 (p * 23))| ≤ 1 / 200000 := g1.trans (by norm_num at g2 ⊢; linarith)
    have r := abs_rint_sub_le (f32 (23 - f32 (p * 23)))
    rw [abs_le] at g3
    refine ⟨rint (f32 (23 - f32 (p * 23))), ?_, fun l hl => ?_⟩
    · rw [abs_le] at *; constructor <;> linarith
    · unfold writerVpos
      rw [hl, hp, href]
      simp only [Option.getD_some, e23]
      exact toInt_small (small _ _ (by rw [abs_le]; constructor <;> linarith) r)
  | centreOfScreen =>
    simp only [fromTop] at hy
    have g1 := f64_err (f32 (p * 23) + 23 / 2)
    have g2 : |f32 (p * 23) + 23 / 2| ≤ 70 := by rw [abs_le]; constructor <;> linarith
    have g3 : |f64 (f32 (p * 23) + 23 / 2) - (f32 (p * 23) + 23 / 2)| ≤ 1 / 200000 := g1.trans (by norm_num at g2 ⊢; linarith)
    have r := abs_rint_sub_le (f64 (f32 (p * 23) + 23 / 2))
    rw [abs_le] at g3
    refine ⟨rint (f64 (f32 (p * 23) + 23 / 2)), ?_, fun l hl => ?_⟩
    · rw [abs_le] at *; constructor <;> linarith
    · unfold writerVpos
      rw [hl, hp, href]
      simp only [Option.getD_some, e23]
      exact toInt_small (small _ _ (by rw [abs_le]; constructor <;> linarith) r)

private theorem ref_screen (d : SDoc) (e : SDialogue) : d.ref e ≠ .topOfSubtitle := by
  unfold SDoc.ref SDoc.base
  split
  · simp
  · rename_i s _
    simp only [Option.getD_some]
    unfold keypadV
    split <;> (try split) <;> simp

private theorem height_step (d : SDoc) (e : SDialogue) (j k : Nat) : d.height e k - d.height e j = ((k : ℚ) - j) * (6 / 5 * d.size e) := by
  have h := ref_screen d e
  unfold SDoc.height stackPos fromTop
  cases hr : d.ref e with
  | topOfSubtitle => exact absurd hr h
  | topOfScreen => simp only; ring
  | centreOfScreen => simp only; ring
  | bottomOfScreen => simp only; ring

/-- There are at most 24 lines, and rounding is harmless. -/
private theorem few_lines (d : SDoc) (e : SDialogue) (hz : 0 < d.size e) (hf : d.ForStl e) :
    ((e.count : ℚ) + 5) * ((2 * e.count * d.size e + |d.margin e|) / 2 ^ 22) ≤ 1 / 25000 := by
  have c1 : 1 ≤ e.count := by unfold SDialogue.count; omega
  have c1' : (1 : ℚ) ≤ e.count := by exact_mod_cast c1
  have hstep := height_step d e 0 (e.count - 1)
  rw [Nat.cast_sub c1] at hstep
  simp only [Nat.cast_one, Nat.cast_zero, sub_zero] at hstep
  have a := (hf.onScreen 0 (by omega)).1
  have b := (hf.onScreen (e.count - 1) (by omega)).2
  have span : ((e.count : ℚ) - 1) * (6 / 5 * d.size e) ≤ 1 := by linarith
  have n24 : (e.count : ℚ) ≤ 24 := by
    rcases hf.spacing with h | h
    · rw [h]; norm_num
    · by_contra hc
      push Not at hc
      have : (23 : ℚ) * (103 / 2300) ≤ ((e.count : ℚ) - 1) * (6 / 5 * d.size e) := by
        apply mul_le_mul <;> linarith
      norm_num at this
      linarith
  have area : 2 * (e.count : ℚ) * d.size e ≤ 4 := by nlinarith [hf.size]
  have hm := hf.margin
  have : (2 * (e.count : ℚ) * d.size e + |d.margin e|) / 2 ^ 22 ≤ 5 / 2 ^ 22 := by
    gcongr; linarith
  have h0 : (0 : ℚ) ≤ (2 * (e.count : ℚ) * d.size e + |d.margin e|) / 2 ^ 22 := by positivity
  calc ((e.count : ℚ) + 5) * ((2 * e.count * d.size e + |d.margin e|) / 2 ^ 22) ≤ 29 * (5 / 2 ^ 22) := by
        apply mul_le_mul _ this h0 (by norm_num); linarith
    _ ≤ 1 / 25000 := by norm_num

private theorem rows_found (d : SDoc) (e : SDialogue) (hz : 0 < d.size e) (hf : d.ForStl e) (place : Nat → ℚ) (hp : d.Placed e place) :
    ∃ row : Nat → Int, (∀ k < e.count, |(row k : ℚ) - 23 * d.height e k| ≤ 51 / 100 ∧ 0 ≤ row k ∧ row k ≤ 23) ∧ (∀ j k : Nat, j < k → k < e.count → row j < row k) ∧
      ∀ k < e.count, ∀ l : Line, l.vpos = { (startState (d.context e) (d.base e) (d.size e)).raw.vpos with prop := some (place k) } → writerVpos l = .ok (row k) := by
  have hsmall := few_lines d e hz hf
  have one : ∀ k, ∃ n : Int, k < e.count → |(n : ℚ) - 23 * d.height e k| ≤ 1 / 2 + 1 / 500 ∧
      ∀ l : Line, l.vpos = { (startState (d.context e) (d.base e) (d.size e)).raw.vpos with prop := some (place k) } → writerVpos l = .ok n := by
    intro k
    by_cases hk : k < e.count
    · have h1 := (hp k hk).trans hsmall
      obtain ⟨h2, h3⟩ := hf.onScreen k hk
      have hr := ref_screen d e
      obtain ⟨n, n1, n2⟩ := writer_row { (startState (d.context e) (d.base e) (d.size e)).raw.vpos with prop := some (place k) } (place k) _ (d.ref e) rfl rfl rfl
        (by
          unfold SDoc.height fromTop at h2 h3
          rw [abs_le] at h1 ⊢
          cases hc : d.ref e with
          | topOfSubtitle => exact absurd hc hr
          | topOfScreen => rw [hc] at h1 h2 h3; simp only at h2 h3; constructor <;> linarith
          | centreOfScreen => rw [hc] at h1 h2 h3; simp only at h2 h3; constructor <;> linarith
          | bottomOfScreen => rw [hc] at h1 h2 h3; simp only at h2 h3; constructor <;> linarith) hr
      refine ⟨n, fun _ => ⟨?_, n2⟩⟩
      unfold SDoc.height
      unfold fromTop at n1 ⊢
      rw [abs_le] at n1 h1 ⊢
      cases hc : d.ref e with
      | topOfSubtitle => exact absurd hc hr
      | topOfScreen => rw [hc] at n1 h1; simp only at n1 ⊢; constructor <;> linarith
      | centreOfScreen => rw [hc] at n1 h1; simp only at n1 ⊢; constructor <;> linarith
      | bottomOfScreen => rw [hc] at n1 h1; simp only at n1 ⊢; constructor <;> linarith
    · exact ⟨0, fun h => absurd h hk⟩
  obtain ⟨row, hrow⟩ := Classical.axiomOfChoice one
  refine ⟨row, fun k hk => ?_, fun j k hjk hk => ?_, fun k hk => (hrow k hk).2⟩
  · have h := (hrow k hk).1
    obtain ⟨h2, h3⟩ := hf.onScreen k hk
    refine ⟨h.trans (by norm_num), ?_, ?_⟩
    · rw [abs_le] at h
      have : (-1 : ℚ) < row k := by linarith
      have : (-1 : Int) < row k := by exact_mod_cast this
      omega
    · rw [abs_le] at h
      have : (row k : ℚ) < 24 := by linarith
      have : row k < 24 := by exact_mod_cast this
      omega
  · have a := (hrow k hk).1
    have b := (hrow j (by omega)).1
    have c := height_step d e j k
    have hsp : 103 / 100 ≤ 23 * (6 / 5 * d.size e) := by
      rcases hf.spacing with h | h
      · omega
      · exact h
    have one : (1 : ℚ) ≤ (k : ℚ) - j := by
      have : (j : ℚ) + 1 ≤ k := by exact_mod_cast hjk
      linarith
    have : 1 * (6 / 5 * d.size e) ≤ ((k : ℚ) - j) * (6 / 5 * d.size e) := by
      apply mul_le_mul_of_nonneg_right one; linarith
    rw [abs_le] at a b
    have : (row j : ℚ) < row k := by linarith
    exact_mod_cast this

/-! The bytes -/

private theorem mem_of_lookup {α : Type} {l : List (Byte × α)} {k : Byte} {v : α} (h : l.lookup k = some v) : (k, v) ∈ l := by
  induction l with
  | nil => cases h
  | cons x l ih =>
    obtain ⟨a, w⟩ := x
    rw [List.lookup_cons] at h
    split at h
    · rename_i e
      rw [beq_iff_eq] at e
      cases h
      rw [e]
      exact List.mem_cons_self
    · exact List.mem_cons_of_mem _ (ih h)

private theorem cost_bytes {c : WChar} (h : Representable c) : (isoBytes c).length ≤ stlCost c := by
  rcases isoBytes_spec h with ⟨b, h1, -⟩ | ⟨b, b', h1, -, -, -, h2⟩
  · rw [h1]; unfold stlCost; split <;> simp
  · rw [h1]
    have : ¬ c < 128 := by
      have key : ∀ x ∈ isoDiacriticals, ∀ y ∈ x.2, ¬ y.2 < 128 := by decide +kernel
      have key2 : ∀ x ∈ isoMain, x.2 ≠ 0 := by decide +kernel
      unfold accented at h2
      rw [Option.map_eq_some_iff] at h2
      obtain ⟨l, h3, h4⟩ := h2
      have hl := mem_of_lookup h3
      cases h5 : l.lookup b' with
      | some v =>
        rw [h5] at h4
        rw [← h4]
        exact key _ hl _ (mem_of_lookup h5)
      | none =>
        rw [h5] at h4
        exfalso
        have hc : c = 0 := h4.symm
        rcases h with ⟨k, hk, -⟩ | ⟨d, l, k, hl, hk⟩
        · exact key2 _ hk hc
        · exact key _ hl _ hk (by rw [hc]; exact Nat.zero_lt_succ _)
    unfold stlCost
    rw [if_neg this]
    simp

private theorem text_cost (w : List WChar) (h : ∀ c ∈ w, Representable c) : (w.flatMap isoBytes).length ≤ (w.map stlCost).sum := by
  induction w with
  | nil => simp
  | cons c w ih =>
    rw [List.flatMap_cons, List.length_append, List.map_cons, List.sum_cons]
    have := cost_bytes (h c (by simp))
    have := ih (fun c hc => h c (by simp [hc]))
    omega

private theorem codes_cost (st : StyleState) (k : Block) : (styleCodes st k).length ≤ 2 := by
  unfold styleCodes
  rw [List.length_append]
  split_ifs <;> simp

private theorem blocks_cost (ks : List Block) (h : ∀ k ∈ ks, ∀ c ∈ utf8Decode k.text, Representable c) : ∀ (st : StyleState) (t : Str) (st' : StyleState),
    writerBlocks st ks = .ok (t, st') → t.length ≤ blocksCost ks := by
  induction ks with
  | nil => intro st t st' hw; cases hw; simp
  | cons k ks ih =>
    intro st t st' hw
    rw [writerBlocks, encode_isoBytes _ (h k (by simp)), ok_bind, bind_eq_ok] at hw
    obtain ⟨⟨r, st1⟩, h1, h2⟩ := hw
    cases h2
    have a := ih (fun k hk => h k (by simp [hk])) _ _ _ h1
    have b := text_cost _ (h k (by simp))
    have c := codes_cost st k
    unfold blocksCost at a ⊢
    rw [List.map_cons, List.sum_cons, List.length_append, List.length_append]
    omega

private theorem lines_cost (js : List (Line × Int)) (h : ∀ j ∈ js, ∀ k ∈ j.1.blocks, ∀ c ∈ utf8Decode k.text, Representable c) (hv : ∀ j ∈ js, 0 ≤ j.2 ∧ j.2 ≤ 23) (hd : (js.map (·.2)).Pairwise (· < ·)) :
    ∀ (st : StyleState) (last : Option Int) (t : Str) (st' : StyleState), (∀ l ∈ last, l ≤ 23 ∧ ∀ j ∈ js, l < j.2) → writerLines st last js = .ok (t, st') →
      (t.length : Int) ≤ ((js.map (fun j => blocksCost j.1.blocks)).sum : Nat) + (23 - last.getD 0) := by
  induction js with
  | nil =>
    intro st last t st' hl hw
    cases hw
    cases last with
    | none => simp
    | some l => have := (hl l rfl).1; simp; omega
  | cons j js ih =>
    intro st last t st' hl hw
    obtain ⟨j, v⟩ := j
    rw [writerLines, bind_eq_ok] at hw
    obtain ⟨⟨t1, st1⟩, h1, hw⟩ := hw
    simp only [bind_eq_ok] at hw
    obtain ⟨⟨t2, st2⟩, h2, h3⟩ := hw
    cases h3
    have a := blocks_cost _ (h (j, v) (by simp)) _ _ _ h1
    rw [List.map_cons, List.pairwise_cons] at hd
    have hv0 := hv (j, v) (by simp)
    have b := ih (fun j hj => h j (by simp [hj])) (fun j hj => hv j (by simp [hj])) hd.2 st1 (some v) t2 st2
      (by rintro l ⟨⟩; exact ⟨hv0.2, fun j hj => hd.1 _ (List.mem_map_of_mem hj)⟩) h2
    simp only [Option.getD_some, List.map_cons, List.sum_cons, List.length_append] at a b hv0 ⊢
    have c : ((writerBreaks last v).length : Int) ≤ v - last.getD 0 := by
      unfold writerBreaks
      cases last with
      | none => simpa using hv0.1
      | some l =>
        have := (hl l rfl).2 (j, v) (by simp)
        simp only [List.length_replicate, Option.getD_some] at this ⊢
        omega
    push_cast
    omega

/-! The frames -/

private theorem frame_found (w ms : Int) (hw : w = 24 ∨ w = 25 ∨ w = 30) (h0 : 0 ≤ ms) (h1 : ms ≤ 990) (s : Int) :
    ∃ f, (⟨s, ms, some ⟨1000, 1⟩⟩ : Time).framesAt ⟨w * 1000, 1000⟩ = .ok f ∧ NearestFrame w ms f ∧ 0 ≤ f ∧ f < 256 := by
  obtain ⟨q, h2, h3⟩ := framesAt_spec ⟨s, ms, some ⟨1000, 1⟩⟩ ⟨1000, 1⟩ ⟨w * 1000, 1000⟩ rfl (by unfold InInt; simp only; omega) (by simp) (by simp) (by unfold InInt; simp)
  have e : exactFrames ms ⟨1000, 1⟩ ⟨w * 1000, 1000⟩ = ms * w / 1000 := by
    unfold exactFrames
    push_cast
    field_simp
  simp only [e] at h3
  have b1 : 0 ≤ ms * w ∧ ms * w ≤ 29700 := by rcases hw with rfl | rfl | rfl <;> omega
  have b2 : (0 : ℚ) ≤ ms * w ∧ (ms : ℚ) * w ≤ 29700 := by exact_mod_cast b1
  have h4 : |q - ms * w / 1000| ≤ 1 / 10000 := by
    refine h3.trans ?_
    rw [abs_of_nonneg (by linarith)]
    unfold eps
    norm_num
    linarith
  have r := abs_rint_sub_le q
  rw [abs_le] at h4 r
  have n1 : |1000 * rint q - ms * w| ≤ 500 := by
    have : ((1000 * rint q - ms * w : Int) : ℚ) < 501 ∧ (-501 : ℚ) < ((1000 * rint q - ms * w : Int) : ℚ) := by
      push_cast
      constructor <;> linarith
    have : 1000 * rint q - ms * w < 501 ∧ -501 < 1000 * rint q - ms * w := by exact_mod_cast this
    rw [abs_le]
    omega
  have n2 : 0 ≤ rint q ∧ rint q < 256 := by
    rw [abs_le] at n1
    omega
  exact ⟨rint q, by rw [h2]; exact toInt_int (by unfold InInt; omega), n1, n2⟩

/-! All of it -/

/-- The subtitle of a dialogue. -/
private def SDoc.whole (d : SDoc) (e : SDialogue) (place : Nat → ℚ) : Subtitle :=
  let s := startState (d.context e) (d.base e) (d.size e)
  { from_ := e.from_.hundredths, to_ := e.to_.hundredths
    lines := (d.rows e).map (fun x => { hpos := s.raw.hpos, vpos := { s.raw.vpos with prop := some (place x.1) }, blocks := x.2 }) }

private theorem subtitle_whole (d : SDoc) (e : SDialogue) (place : Nat → ℚ) : d.subtitle e place = if d.rows e = [] then [] else [d.whole e place] := by
  unfold SDoc.subtitle SDoc.whole
  simp only [sLines_rows]
  rw [show sRows (d.context e) (startState (d.context e) (d.base e) (d.size e)) 0 [] [] e.items = d.rows e from rfl]
  by_cases h : d.rows e = []
  · rw [h]; rfl
  · rw [if_neg (by simpa using h), if_neg h]

private theorem subtitles_whole (d : SDoc) (place : SDialogue → Nat → ℚ) (es : List SDialogue) :
    es.flatMap (fun e => d.subtitle e (place e)) = (es.filter (fun e => d.rows e ≠ [])).map (fun e => d.whole e (place e)) := by
  induction es with
  | nil => rfl
  | cons e es ih =>
    rw [List.flatMap_cons, ih, subtitle_whole, List.filter_cons]
    by_cases h : d.rows e = []
    · simp [h]
    · simp [h]

private theorem perm_map_inv {α β : Type} (f : α → β) : ∀ (o : List β) (l : List α), o.Perm (l.map f) → ∃ l' : List α, l'.Perm l ∧ o = l'.map f := by
  intro o
  induction o with
  | nil =>
    intro l h
    have := h.nil_eq
    exact ⟨[], by rw [eq_comm, List.map_eq_nil_iff] at this; rw [this], rfl⟩
  | cons b o ih =>
    intro l h
    have hb : b ∈ l.map f := h.subset (by simp)
    rw [List.mem_map] at hb
    obtain ⟨a, ha, rfl⟩ := hb
    obtain ⟨l1, l2, rfl⟩ := List.append_of_mem ha
    have h2 : (l1 ++ a :: l2).Perm (a :: (l1 ++ l2)) := List.perm_middle
    have h3 := (h.trans (h2.map f))
    rw [List.map_cons, List.perm_cons] at h3
    obtain ⟨l', h4, h5⟩ := ih _ h3
    exact ⟨a :: l', (h4.cons a).trans h2.symm, by rw [h5]; rfl⟩

private theorem writerVposes_map {α : Type} (f : α → Line) (g : α → Int) (xs : List α) (h : ∀ x ∈ xs, writerVpos (f x) = .ok (g x)) : writerVposes (xs.map f) = .ok (xs.map g) := by
  induction xs with
  | nil => rfl
  | cons x xs ih =>
    rw [List.map_cons, writerVposes, h x (by simp), ok_bind, ih (fun x hx => h x (by simp [hx])), ok_bind]
    rfl

private theorem times_small (d : SDoc) (e : SDialogue) (hs : d.Simple e) : (0 ≤ e.from_.hundredths.frames ∧ e.from_.hundredths.frames ≤ 990) ∧ (0 ≤ e.to_.hundredths.frames ∧ e.to_.hundredths.frames ≤ 990) := by
  have := hs.times
  unfold Stamp.hundredths
  simp only
  omega

/-- A dialogue fits, and what is seen of it is what should be. -/
private theorem dialogue_fits (d : SDoc) (e : SDialogue) (hz : 0 < d.size e) (hs : d.Simple e) (hf : d.ForStl e) (place : Nat → ℚ) (hp : d.Placed e place) (hne : d.rows e ≠ [])
    (w : Int) (hw : w = 24 ∨ w = 25 ∨ w = 30) : ∃ p : Placed, Fits (w : ℚ) (d.whole e place) p ∧ d.ShownIn w e ((d.whole e place).seen w p) := by
  obtain ⟨row, r1, r2, r3⟩ := rows_found d e hz hf place hp
  obtain ⟨t1, t2⟩ := times_small d e hs
  obtain ⟨ff, f1, f2, f3⟩ := frame_found w _ hw t1.1 t1.2 e.from_.hundredths.secs
  obtain ⟨tf, g1, g2, g3⟩ := frame_found w _ hw t2.1 t2.2 e.to_.hundredths.secs
  obtain ⟨n1, n2⟩ := sRows_numbers (d.context e) e.items (startState (d.context e) (d.base e) (d.size e)) 0 [] []
  have n2' : ∀ x ∈ d.rows e, x.1 < e.count := fun x hx => by
    have := n2 x hx
    unfold SDialogue.count; omega
  have hdown : ((d.rows e).map (fun x => row x.1)).Pairwise (· < ·) := by
    have : (((d.rows e).map (·.1)).map row).Pairwise (· < ·) := by
      rw [List.pairwise_map]
      refine List.Pairwise.imp_of_mem ?_ n1
      intro i j hi hj hij
      rw [List.mem_map] at hj
      obtain ⟨x, hx, rfl⟩ := hj
      exact r2 _ _ hij (n2' x hx)
    rwa [List.map_map] at this
  have hscreen : ∀ v ∈ (d.rows e).map (fun x => row x.1), 0 ≤ v ∧ v ≤ 23 := by
    intro v hv
    rw [List.mem_map] at hv
    obtain ⟨x, hx, rfl⟩ := hv
    exact (r1 _ (n2' x hx)).2
  have htext : ∀ l ∈ (d.whole e place).lines, ∀ k ∈ l.blocks, ∀ c ∈ utf8Decode k.text, Representable c := by
    intro l hl
    unfold SDoc.whole at hl
    simp only [List.mem_map] at hl
    obtain ⟨x, hx, rfl⟩ := hl
    exact hf.text x hx
  refine ⟨⟨(d.rows e).map (fun x => row x.1), ff, tf⟩, ⟨?_, ?_, hdown, hscreen, htext, ?_, ?_, ?_, ?_⟩, ⟨ff, tf, row, f2, g2, r1, r2, ?_⟩⟩
  · unfold SDoc.whole
    simpa using hne
  · unfold SDoc.whole
    exact writerVposes_map _ _ _ fun x hx => r3 _ (n2' x hx) _ rfl
  · intro t ht
    unfold writerText at ht
    rw [bind_eq_ok] at ht
    obtain ⟨⟨t0, st⟩, h1, h2⟩ := ht
    cases h2
    have hlen : (d.whole e place).lines.length = ((d.rows e).map (fun x => row x.1)).length := by unfold SDoc.whole; simp
    have h3 := lines_cost _ (fun j hj => htext j.1 (List.of_mem_zip hj).1) (fun j hj => hscreen j.2 (List.of_mem_zip hj).2) (by rw [List.map_snd_zip (by omega)]; exact hdown)
      _ _ _ _ (by intro l hl; cases hl) h1
    have e1 : ((d.whole e place).lines.zip ((d.rows e).map (fun x => row x.1))).map (fun j => blocksCost j.1.blocks) = (d.rows e).map (fun x => blocksCost x.2) := by
      rw [show (fun j : Line × Int => blocksCost j.1.blocks) = (fun l : Line => blocksCost l.blocks) ∘ Prod.fst from rfl, ← List.map_map, List.map_fst_zip (by omega)]
      unfold SDoc.whole
      rw [List.map_map]
      rfl
    rw [e1] at h3
    have h4 := hf.bytes
    simp only [Option.getD_none] at h3
    have c1 : (if st.underline then [0x83] else ([] : Str)).length ≤ 1 := by split <;> simp
    have c2 : (if st.italic then [0x81] else ([] : Str)).length ≤ 1 := by split <;> simp
    simp only [List.length_append, List.length_singleton]
    omega
  · exact ⟨w * 1000, writerRate_int w (by omega) (by omega), f1, g1⟩
  · exact ⟨f3.1, f3.2, g3.1, g3.2⟩
  · have a : ∀ s : Stamp, 0 ≤ s.hundredths.secs := fun s => by unfold Stamp.hundredths; simp only; omega
    exact ⟨a _, hf.hours.1, a _, hf.hours.2⟩
  · unfold Subtitle.seen SDoc.whole
    simp only
    have hh : ((List.map (fun l : Line => l.hpos.ref) ((d.rows e).map (fun x => ({ hpos := (startState (d.context e) (d.base e) (d.size e)).raw.hpos, vpos := { (startState (d.context e) (d.base e) (d.size e)).raw.vpos with prop := some (place x.1) }, blocks := x.2 } : Line)))).headD .left) = (d.base e).hpos.ref := by
      cases hr : d.rows e with
      | nil => exact absurd hr hne
      | cons x xs => rfl
    rw [hh, List.zip_map', List.flatMap_map]

/-- C112: an SSA file of dialogues that a binary STL file can hold, no two with both times in common, can be read, collected, written at 24, 25 or 30 frames per second and read again; and what is then on the
screen are the dialogues with text in order of their start times, each with its characters, italic and underline, at the nearest frames, on the nearest rows. -/
theorem C112_conversion (d : SDoc) (hd : d.Ok) (hs : ∀ e ∈ d.dialogues, d.Simple e)
    (ht : d.dialogues.Pairwise (fun e f => e.from_.hundredths ≠ f.from_.hundredths ∨ e.to_.hundredths ≠ f.to_.hundredths)) (hf : ∀ e ∈ d.dialogues, d.ForStl e) (hn : d.dialogues.length < 100000)
    (l : Locale) (hl : SaneLocale l) (hl' : l.thousandsSep.head? ≠ some 45) (a : StlArgs) (hv : a.Valid) (hr : InInt a.revisionNumber) (w : Int) (hw : w = 24 ∨ w = 25 ∨ w = 30) (hfps : a.fps = w) :
    ∃ raws ss out info back order parts, ssaReadLines d.lines = .ok raws ∧ collect raws = .ok ss ∧ writeStlIn l { a with subtitles := ss } = .ok out ∧ stlRead out = .ok (info, back) ∧
      order.Perm (d.dialogues.filter (fun e => d.rows e ≠ [])) ∧ order.Pairwise (fun e f => Time.asMs (Stamp.hundredths (SDialogue.from_ e)) ≤ Time.asMs (Stamp.hundredths (SDialogue.from_ f))) ∧
      back.flatMap Raw.seen = List.flatten parts ∧ List.Forall₂ (d.ShownIn w) order parts := by
  obtain ⟨place, hp, raws, ss, h1, h2, h3⟩ := C92_subtitles d hd hs ht
  rw [subtitles_whole] at h3
  obtain ⟨order, o1, o2⟩ := perm_map_inv _ _ _ h3.perm
  have hmem : ∀ e ∈ order, e ∈ d.dialogues ∧ d.rows e ≠ [] := by
    intro e he
    have := o1.subset he
    rw [List.mem_filter] at this
    exact ⟨this.1, by simpa using this.2⟩
  have one : ∀ e, ∃ p : Placed, e ∈ order → Fits (w : ℚ) (d.whole e (place e)) p ∧ d.ShownIn w e ((d.whole e (place e)).seen w p) := by
    intro e
    by_cases he : e ∈ order
    · obtain ⟨m1, m2⟩ := hmem e he
      obtain ⟨p, p1⟩ := dialogue_fits d e (size_facts d hd e (hs e m1)).1 (hs e m1) (hf e m1) (place e) (hp e m1) m2 w hw
      exact ⟨p, fun _ => p1⟩
    · exact ⟨⟨[], 0, 0⟩, fun h => absurd h he⟩
  obtain ⟨pl, hpl⟩ := Classical.axiomOfChoice one
  have hfit : List.Forall₂ (Fits a.fps) ss (order.map pl) := by
    rw [o2, hfps, List.forall₂_map_left_iff, List.forall₂_map_right_iff, List.forall₂_same]
    exact fun e he => (hpl e he).1
  have hlen : ss.length < 100000 := by
    rw [o2, List.length_map, o1.length_eq]
    exact lt_of_le_of_lt (List.length_filter_le _ _) hn
  have hlong : InInt (stlLongest ss) := by
    have hmax : ∀ (ns : List Nat) (m : Nat), m < 2 ^ 31 → (∀ n ∈ ns, n < 2 ^ 31) → ns.foldl max m < 2 ^ 31 := by
      intro ns
      induction ns with
      | nil => intro m h _; exact h
      | cons n ns ih => intro m h h'; exact ih _ (Nat.max_lt.2 ⟨h, h' n (by simp)⟩) (fun n hn => h' n (by simp [hn]))
    have : stlLongest ss < 2 ^ 31 := by
      unfold stlLongest
      refine hmax _ 0 (by decide) fun n hn => ?_
      simp only [o2, List.mem_flatMap, List.mem_map] at hn
      obtain ⟨s, ⟨e, he, rfl⟩, x, hx, rfl⟩ := hn
      unfold SDoc.whole at hx
      simp only [List.mem_map] at hx
      obtain ⟨y, hy, rfl⟩ := hx
      exact (hf e (hmem e he).1).short y hy
    unfold InInt
    omega
  obtain ⟨out, info, back, c1, c2, c3, c4⟩ := C57_characters l hl hl' { a with subtitles := ss } ⟨hv.opt, hv.oet, hv.tpt, hv.tet, hv.tn, hv.tcd, hv.cd, hv.rd, hv.rn, hv.co, hv.pub, hv.en, hv.ecd⟩ hr hlong hlen _ hfit
  simp only [hfps] at c3
  have hrate := dfc_own w _ hw c3
  refine ⟨raws, ss, out, info, back, order, order.map (fun e => (d.whole e (place e)).seen w (pl e)), h1, h2, c1, c2, o1, ?_, ?_, ?_⟩
  · have := h3.ordered
    rw [o2, List.pairwise_map] at this
    exact this
  · rw [c4, hrate]
    simp only
    rw [o2, List.zip_map', List.flatMap_map, List.flatMap_def]
  · rw [List.forall₂_map_right_iff, List.forall₂_same]
    exact fun e he => (hpl e he).2

/-- The document of C92 has dialogues that a binary STL file can hold. -/
private theorem demo_forStl : ∀ e ∈ ssaDemoDoc.dialogues, ssaDemoDoc.ForStl e := by
  intro e he
  have hb : ∀ e ∈ ssaDemoDoc.dialogues, (e.count = 1 ∨ 103 / 100 ≤ 23 * (6 / 5 * ssaDemoDoc.size e)) ∧ ssaDemoDoc.size e ≤ 1 ∧ |ssaDemoDoc.margin e| ≤ 1 ∧
      (∀ k < e.count, 0 ≤ ssaDemoDoc.height e k ∧ ssaDemoDoc.height e k ≤ 1) ∧ ((ssaDemoDoc.rows e).map (fun x => blocksCost x.2)).sum ≤ 86 ∧
      (∀ x ∈ ssaDemoDoc.rows e, (x.2.map (fun b => b.text.length)).sum < 2 ^ 31) ∧ e.from_.hundredths.secs < 921600 ∧ e.to_.hundredths.secs < 921600 := by decide +kernel
  have ht : ∀ e ∈ ssaDemoDoc.dialogues, ∀ x ∈ ssaDemoDoc.rows e, ∀ b ∈ x.2, ∀ c ∈ utf8Decode b.text, (isoMain.any (fun p => p.2 == c && !decide (Diacritic p.1)) || isoDiacriticals.any (fun p => p.2.any (fun q => q.2 == c))) = true := by decide +kernel
  obtain ⟨h1, h2, h3, h4, h5, h6, h7⟩ := hb e he
  exact ⟨h1, h2, h3, h4, fun x hx b hb c hc => representable_of_table c (ht e he x hx b hb c hc), h5, h6, h7⟩

/-- A conversion C112 speaks about. -/
example : ∃ raws ss out info back order parts, ssaReadLines ssaDemoDoc.lines = .ok raws ∧ collect raws = .ok ss ∧ writeStl { stlDemo with subtitles := ss } = .ok out ∧ stlRead out = .ok (info, back) ∧
    order.Perm (ssaDemoDoc.dialogues.filter (fun e => ssaDemoDoc.rows e ≠ [])) ∧ order.Pairwise (fun e f => Time.asMs (Stamp.hundredths (SDialogue.from_ e)) ≤ Time.asMs (Stamp.hundredths (SDialogue.from_ f))) ∧
    back.flatMap Raw.seen = List.flatten parts ∧ List.Forall₂ (ssaDemoDoc.ShownIn 25) order parts :=
  C112_conversion ssaDemoDoc ssaDemoDoc_fine.1 ssaDemoDoc_fine.2.1 ssaDemoDoc_fine.2.2 demo_forStl (by decide) Locale.c sane_c (by decide) stlDemo stlDemo_valid (by decide) 25 (by decide) (by decide +kernel)

/-- What comes of it: times and rows, text and style. -/
example : ((((ssaReadLines ssaDemoDoc.lines).bind collect).bind (fun ss => writeStl { stlDemo with subtitles := ss })).bind stlRead).toOption.map
    (fun r => r.2.map (fun x => ((x.from_.secs, x.from_.frames), x.vpos.line))) = some [((2, 12), some 22), ((62, 12), some 21), ((62, 12), some 21), ((62, 12), some 22)] := by
  decide +kernel

example : ((((ssaReadLines ssaDemoDoc.lines).bind collect).bind (fun ss => writeStl { stlDemo with subtitles := ss })).bind stlRead).toOption.map
    (fun r => r.2.map (fun x => (x.text, x.italic))) = some [(b!"First", false), (b!"Hello, ", false), (b!"world", true), (b!"again", true)] := by
  decide +kernel

/-- C112 needs lines more than a row apart: two lines of text of a thirtieth of the screen (0.92 rows from each other) run together. -/
theorem C112_close_witness :
    ((((ssaReadString b!"[Script Info]\nPlayResY: 1080\n[V4+ Styles]\nFormat: Name, Fontsize, MarginV\nStyle: Default,36,26\n[Events]\nFormat: Start, End, Style, Text\nDialogue: 0:00:01.00,0:00:02.00,Default,one\\Ntwo").bind
      collect).bind (fun ss => writeStl { stlDemo with subtitles := ss })).bind stlRead).toOption.map (fun r => r.2.map (fun x => (x.text, x.vpos.line))) = some [(b!"onetwo", some 22)] := by
  decide +kernel

/-- C112 speaks of what is on the screen, not of subtitles collected again: dialogues with times that differ by less than a frame have become one subtitle. -/
theorem C112_merge_witness :
    (((((ssaReadString b!"[Script Info]\nPlayResY: 1080\n[Events]\nFormat: Start, End, MarginV, Text\nDialogue: 0:00:01.00,0:00:02.00,100,one\nDialogue: 0:00:01.01,0:00:02.00,300,two").bind collect).bind
      (fun ss => writeStl { stlDemo with subtitles := ss })).bind stlRead).bind (fun r => collect r.2)).toOption.map (fun ss => ss.map (fun s => s.lines.map (fun l => l.blocks.map (fun k => k.text)))) =
      some [[[b!"one"], [b!"two"]]] := by
  decide +kernel

end LibSub
