/-
Properties C63 – C66 of the binary STL reader (src/stl_binary_reader.cc).
-/
import Verif.Spec.Stl
import Verif.Lemmas.Split
import Verif.Props.Iso6937
import Verif.Props.StlTables
import Verif.Props.StlWriter

namespace LibSub

/-! ### Specification -/

/-- The time in the four bytes at `off` of a block. -/
def blockTime (blk : Str) (off : Nat) (rate : Int) : Time :=
  ⟨(blk.getD off 0).toNat * 3600 + (blk.getD (off + 1) 0).toNat * 60 + (blk.getD (off + 2) 0).toNat, (blk.getD (off + 3) 0).toNat, some ⟨rate, 1⟩⟩

/-- The alignment asked for by a justification code (1 left, 3 right, otherwise centre). -/
def blockAlign (c : Byte) : HRef := if c = 1 then .left else if c = 3 then .right else .centre

/-- The row of a block's first line. -/
def blockRow (blk : Str) : Int := (blk.getD 13 0).toNat

/-- The text field of a block. -/
def blockText (blk : Str) : Str := (blk.drop 16).take 112

/-- The row of a block's last line. -/
def blockLast (blk : Str) : Int := blockRow blk + (blockText blk).count 0x8a

/-- A block is flagged as a comment. -/
def isComment (blk : Str) : Bool := blk.getD 15 0 == 1

/-- A subtitle as it is to be shown: the characters `w` written with the pen `p`, all rows being `c` higher. -/
def blockRaw (rate rows : Int) (blk : Str) (c : Int) (p : Pen) (w : List WChar) : Raw :=
  { text := utf8Encode w, from_ := blockTime blk 5 rate, to_ := blockTime blk 9 rate,
    vpos := { line := some (blockRow blk + p.row - c), lines := some rows, ref := some .topOfScreen },
    hpos := { ref := blockAlign (blk.getD 14 0) }, colour := p.colour, italic := p.italic, underline := p.underline }

/-- The pieces that are decoded one by one: rows, cut at 8F, split at style codes. -/
def textRuns (t : Str) : List Str :=
  (splitAny (· == 0x8a) t).flatMap (fun l => splitAny (fun c => decide (c ≤ 7) || (decide (0x80 ≤ c) && decide (c ≤ 0x83))) (l.takeWhile (· != 0x8f)))

/-- The pieces of a row, with their pens: a piece ends at every style code, even if there is nothing in it; at the end of the row there is none without text. -/
def cutRow (p : Pen) (acc : Str) : Str → List (Pen × Str)
  | [] => if acc = [] then [] else [(p, acc)]
  | c :: cs =>
    match p.code c with
    | some p' => (p, acc) :: cutRow p' [] cs
    | none => cutRow p (acc ++ [c]) cs

/-- The pieces of rows one below the other: italic and underline go on, colours do not. -/
def cutRows (p : Pen) : List Str → List (Pen × Str)
  | [] => []
  | l :: ls => cutRow p [] (l.takeWhile (· != 0x8f)) ++ cutRows { (playEnd p false l).1 with row := p.row + 1, colour := ⟨1, 1, 1⟩ } ls

/-- Something is written on row `r` of a text: the row begins with a byte that is not the end of the row. -/
def Inked (t : Str) (r : Nat) : Prop := ∃ a c b, t = a ++ c :: b ∧ a.count 0x8a = r ∧ (a = [] ∨ a.getLast? = some 0x8a) ∧ c ≠ 0x8a ∧ c ≠ 0x8f

/-- The subtitles `new` show the text of a block: they are pieces whose bytes, with their pens, are those the walk through the text gives, and which are decoded as
wholes from one style code to the next.  They are in order of their rows, and all of them (empty ones too) are on rows on which something is written. -/
structure Shows (rate rows c : Int) (blk : Str) (new : List Raw) : Prop where
  runs : ∃ runs : List (Pen × Str), List.Forall₂ (fun q x => ∃ w, IsoText q.2 w ∧ x = blockRaw rate rows blk c q.1 w) runs new ∧
    runs.flatMap (fun q => q.2.map (fun b => (q.1, b))) = play {} false (blockText blk) ∧
    (runs.map (·.2)).filter (fun t => !t.isEmpty) = (textRuns (blockText blk)).filter (fun t => !t.isEmpty) ∧ (∀ q ∈ runs, (q.1.row : Int) ≤ (blockText blk).count 0x8a) ∧
    runs.Pairwise (fun q r => q.1.row ≤ r.1.row) ∧ (∀ q ∈ runs, Inked (blockText blk) q.1.row) ∧ runs = cutRows {} (splitAny (· == 0x8a) (blockText blk))

/-- The number of blocks a header announces. -/
def announced (file : Str) : Nat := (atoi ((file.drop 238).take 5)).toNat

/-- The blocks of a file. -/
def ttiBlock (file : Str) (i : Nat) : Str := (file.drop (1024 + 128 * i)).take 128

/-- The blocks of a file that are not comments. -/
def shownBlocks (file : Str) : List Str := ((List.range (announced file)).map (ttiBlock file)).filter (fun b => !isComment b)

/-- The lowest row that any block reaches. -/
def lastRow (file : Str) : Int := (shownBlocks file).foldl (fun h b => max h (blockLast b)) 0

/-- A header with codes the reader knows. -/
structure HeaderOk (g : Str) : Prop where
  dfc : (g.drop 3).take 8 ∈ [b!"STL23.01", b!"STL24.01", b!"STL25.01", b!"STL30.01"]
  displayStandard : (g.drop 11).take 1 ∈ [b!" ", b!"0", b!"1", b!"2"]
  languageGroup : (g.drop 12).take 2 ∈ [b!"00", b!"01", b!"02", b!"03", b!"04", b!"U8"]
  language : ∃ l, (g.drop 14).take 2 = hex2 (languageNumber l)
  timecodeStatus : (g.drop 255).take 1 ∈ [b!"0", b!"1"]

/-- A file that can be read: long enough, with known codes. -/
structure Sound (file : Str) : Prop where
  header : 1024 ≤ file.length
  codes : HeaderOk file
  long : 1024 + 128 * announced file ≤ file.length
  comments : ∀ i < announced file, (ttiBlock file i).getD 15 0 = 0 ∨ (ttiBlock file i).getD 15 0 = 1

/-- A block whose text sends the decoder outside its table (C53). -/
def BadBlock (blk : Str) : Prop := blk.getD 15 0 = 0 ∧ ∃ t ∈ textRuns (blockText blk), BadAccent t

/-! ### Proofs: characters -/

private def penned (base : Raw) (p : Pen) : Raw := { base with colour := p.colour, italic := p.italic, underline := p.underline }

private structure Penned (base : Raw) (p : Pen) (s : StlChars) : Prop where
  italic : s.italic = p.italic
  underline : s.underline = p.underline
  sub : { s.sub with text := base.text } = penned base p

private theorem stlColour_eq (c : Byte) : stlColour c = if c ≤ 7 then some ⟨(c.toNat % 2 : Nat), (c.toNat / 2 % 2 : Nat), (c.toNat / 4 : Nat)⟩ else none :=
  forall_byte (p := fun c => stlColour c = if c ≤ 7 then some ⟨(c.toNat % 2 : Nat), (c.toNat / 2 % 2 : Nat), (c.toNat / 4 : Nat)⟩ else none) (by decide +kernel) c

private theorem isStyleCode_eq (p : Pen) (c : Byte) : isStyleCode c = (p.code c).isSome := by
  have h : isStyleCode c = (decide (c ≤ 7) || c == 0x80 || c == 0x81 || c == 0x82 || c == 0x83) :=
    forall_byte (p := fun c => isStyleCode c = (decide (c ≤ 7) || c == 0x80 || c == 0x81 || c == 0x82 || c == 0x83)) (by decide +kernel) c
  rw [h]
  unfold Pen.code
  by_cases h1 : c ≤ 7
  · simp [h1]
  by_cases h2 : c = 0x80
  · simp [h2]
  by_cases h3 : c = 0x81
  · simp [h3]
  by_cases h4 : c = 0x82
  · simp [h4]
  by_cases h5 : c = 0x83
  · simp [h5]
  simp [h1, h2, h3, h4, h5]

private theorem penned_sub {base : Raw} {p : Pen} {s : StlChars} (h : Penned base p s) : s.sub = { penned base p with text := s.sub.text } := by
  rw [← h.sub]

private theorem apply_code {base : Raw} {p p' : Pen} {s : StlChars} {c : Byte} (h : Penned base p s) (hc : p.code c = some p') :
    Penned base p' (s.apply c) ∧ (s.apply c).text = s.text ∧ (s.apply c).subs = s.subs ∧ p'.row = p.row := by
  have hs := penned_sub h
  have h1 := h.italic
  have h2 := h.underline
  obtain ⟨it, ul, sub, text, subs⟩ := s
  simp only [] at hs h1 h2
  subst h1 h2
  unfold StlChars.apply
  rw [stlColour_eq]
  unfold Pen.code at hc
  split at hc
  · rename_i hle
    rw [if_pos hle]
    cases hc
    exact ⟨⟨rfl, rfl, by rw [hs]; rfl⟩, rfl, rfl, rfl⟩
  · rename_i hle
    rw [if_neg hle]
    simp only []
    split at hc
    · rename_i hq
      rw [if_pos hq]
      cases hc
      exact ⟨⟨rfl, rfl, by rw [hs]; rfl⟩, rfl, rfl, rfl⟩
    · rename_i hq
      rw [if_neg hq]
      split at hc
      · rename_i hq
        rw [if_pos hq]
        cases hc
        exact ⟨⟨rfl, rfl, by rw [hs]; rfl⟩, rfl, rfl, rfl⟩
      · rename_i hq
        rw [if_neg hq]
        split at hc
        · rename_i hq
          rw [if_pos hq]
          cases hc
          exact ⟨⟨rfl, rfl, by rw [hs]; rfl⟩, rfl, rfl, rfl⟩
        · rename_i hq
          rw [if_neg hq]
          split at hc
          · rename_i hq
            rw [if_pos hq]
            cases hc
            exact ⟨⟨rfl, rfl, by rw [hs]; rfl⟩, rfl, rfl, rfl⟩
          · cases hc

private theorem apply_none {base : Raw} {p : Pen} {s : StlChars} {c : Byte} (h : Penned base p s) (hc : p.code c = none) :
    Penned base p (s.apply c) ∧ (s.apply c).text = s.text ++ [c] ∧ (s.apply c).subs = s.subs := by
  have hs := penned_sub h
  have h1 := h.italic
  have h2 := h.underline
  obtain ⟨it, ul, sub, text, subs⟩ := s
  simp only [] at hs h1 h2
  subst h1 h2
  unfold StlChars.apply
  rw [stlColour_eq]
  unfold Pen.code at hc
  split at hc
  · cases hc
  · rename_i hle
    rw [if_neg hle]
    simp only []
    split at hc
    · cases hc
    · rename_i q1
      split at hc
      · cases hc
      · rename_i q2
        split at hc
        · cases hc
        · rename_i q3
          split at hc
          · cases hc
          · rename_i q4
            rw [if_neg q1, if_neg q2, if_neg q3, if_neg q4]
            exact ⟨⟨rfl, rfl, by rw [hs]; rfl⟩, rfl, rfl⟩

private theorem isStyleCode_split : isStyleCode = fun c => decide (c ≤ 7) || (decide (0x80 ≤ c) && decide (c ≤ 0x83)) := rfl

/-- Put bytes in front of the first piece. -/
private def pre (t : Str) : List Str → List Str
  | [] => [t]
  | x :: xs => (t ++ x) :: xs

private theorem pre_style (t : Str) (c : Byte) (cs : Str) (h : isStyleCode c = true) :
    pre t (splitAny isStyleCode (c :: cs)) = t :: pre [] (splitAny isStyleCode cs) := by
  rw [splitAny, if_pos h]
  cases hs : splitAny isStyleCode cs with
  | nil => exact absurd hs (splitAny_ne_nil _ _)
  | cons x xs => simp [pre]

private theorem pre_plain (t : Str) (c : Byte) (cs : Str) (h : isStyleCode c = false) :
    pre t (splitAny isStyleCode (c :: cs)) = pre (t ++ [c]) (splitAny isStyleCode cs) := by
  rw [splitAny, if_neg (by rw [h]; simp)]
  cases hs : splitAny isStyleCode cs with
  | nil => exact absurd hs (splitAny_ne_nil _ _)
  | cons x xs => simp [pre]

private theorem pre_nil (t : Str) : pre t (splitAny isStyleCode []) = [t] := by simp [pre, splitAny]

private theorem pre_empty (x : List Str) (hx : x ≠ []) : pre [] x = x := by
  cases x with
  | nil => exact absurd rfl hx
  | cons y ys => rfl

/-- Pieces and the subtitles made of them. -/
private def Made (base : Raw) (runs : List (Pen × Str)) (new : List Raw) : Prop :=
  List.Forall₂ (fun q x => ∃ w, isoDecode q.2 = .ok w ∧ x = { penned base q.1 with text := utf8Encode w }) runs new

private theorem push_made {base : Raw} {p : Pen} {s r : StlChars} (h : Penned base p s) (hr : s.push = .ok r) :
    ∃ x, Made base [(p, s.text)] [x] ∧ r.subs = s.subs ++ [x] ∧ Penned base p r ∧ r.text = s.text := by
  unfold StlChars.push at hr
  obtain ⟨w, hw, hr⟩ := bind_eq_ok.mp hr
  cases hr
  have hs := penned_sub h
  refine ⟨{ s.sub with text := utf8Encode w }, ?_, rfl, ⟨h.italic, h.underline, ?_⟩, rfl⟩
  · refine .cons ⟨w, hw, ?_⟩ .nil
    rw [hs]
  · exact h.sub

private theorem play_ended (p : Pen) (cs : Str) (h : ∀ c ∈ cs, c ≠ 0x8a) : play p true cs = [] ∧ playEnd p true cs = (p, true) := by
  induction cs with
  | nil => exact ⟨rfl, rfl⟩
  | cons c cs ih =>
    have hc := h c (by simp)
    obtain ⟨i1, i2⟩ := ih (fun c hc => h c (by simp [hc]))
    constructor
    · rw [play, if_neg hc, if_pos (by simp), i1]
    · rw [playEnd, if_neg hc, if_pos (by simp), i2]

private theorem chars_spec (base : Raw) (cs : Str) (h8 : ∀ c ∈ cs, c ≠ 0x8a) : ∀ (p : Pen) (s r : StlChars), Penned base p s → stlChars s cs = .ok r →
    ∃ runs new, r.subs = s.subs ++ new ∧ Made base runs new ∧ runs.flatMap (fun q => q.2.map (fun b => (q.1, b))) = s.text.map (fun b => (p, b)) ++ play p false cs ∧
      r.italic = (playEnd p false cs).1.italic ∧ r.underline = (playEnd p false cs).1.underline ∧ (∀ q ∈ runs, q.1.row = p.row) ∧ (playEnd p false cs).1.row = p.row ∧
      (runs.map (·.2)).filter (fun t => !t.isEmpty) = (pre s.text (splitAny isStyleCode (cs.takeWhile (· != 0x8f)))).filter (fun t => !t.isEmpty) ∧
      (runs ≠ [] → s.text ≠ [] ∨ cs.takeWhile (· != 0x8f) ≠ []) ∧ runs = cutRow p s.text (cs.takeWhile (· != 0x8f)) := by
  have stop : ∀ (p : Pen) (s r : StlChars), Penned base p s → (if s.text.isEmpty then .ok s else s.push) = .ok r →
      ∃ runs new, r.subs = s.subs ++ new ∧ Made base runs new ∧ runs.flatMap (fun q => q.2.map (fun b => (q.1, b))) = s.text.map (fun b => (p, b)) ∧
      r.italic = p.italic ∧ r.underline = p.underline ∧ (∀ q ∈ runs, q.1.row = p.row) ∧ (runs.map (·.2)).filter (fun t => !t.isEmpty) = [s.text].filter (fun t => !t.isEmpty) ∧ (runs ≠ [] → s.text ≠ []) ∧ runs = if s.text = [] then [] else [(p, s.text)] := by
    intro p s r hp hr
    split at hr
    · rename_i he
      cases hr
      have he : s.text = [] := by simpa using he
      exact ⟨[], [], by simp, .nil, by simp [he], hp.italic, hp.underline, by simp, by simp [he], by simp, by rw [if_pos he]⟩
    · rename_i he
      obtain ⟨x, h1, h2, h3, _⟩ := push_made hp hr
      exact ⟨_, _, h2, h1, by simp, h3.italic, h3.underline, by simp, by simp, fun _ h => he (by rw [h]; rfl), by rw [if_neg (fun h => he (by rw [h]; rfl))]⟩
  induction cs with
  | nil =>
    intro p s r hp hr
    obtain ⟨runs, new, a1, a2, a3, a4, a5, a6, a8, a9, a10⟩ := stop p s r hp hr
    exact ⟨runs, new, a1, a2, by rw [a3]; simp [play], a4, a5, a6, rfl, by rw [a8, List.takeWhile_nil, pre_nil], fun h => .inl (a9 h), a10⟩
  | cons c cs ih =>
    intro p s r hp hr
    have hc := h8 c (by simp)
    have hcs : ∀ c ∈ cs, c ≠ 0x8a := fun c hc => h8 c (by simp [hc])
    rw [stlChars] at hr
    by_cases hf : c = 0x8f
    · rw [if_pos hf] at hr
      subst hf
      obtain ⟨runs, new, a1, a2, a3, a4, a5, a6, a8, a9, a10⟩ := stop p s r hp hr
      obtain ⟨p1, p2⟩ := play_ended p cs hcs
      have e1 : play p false (0x8f :: cs) = [] := by rw [play, if_neg hc, if_pos (by simp), p1]
      have e2 : playEnd p false (0x8f :: cs) = (p, true) := by rw [playEnd, if_neg hc, if_pos (by simp), p2]
      have e3 : ((0x8f : Byte) :: cs).takeWhile (· != 0x8f) = [] := rfl
      rw [e1, e2, e3, pre_nil]
      exact ⟨runs, new, a1, a2, by rw [a3]; simp, a4, a5, a6, rfl, a8, fun h => .inl (a9 h), a10⟩
    · rw [if_neg hf] at hr
      have hne : ¬ ((false || c == 0x8f) = true) := by simpa using hf
      have hw : (c :: cs).takeWhile (· != 0x8f) = c :: cs.takeWhile (· != 0x8f) := by rw [List.takeWhile_cons, if_pos (by simpa using hf)]
      cases hcode : p.code c with
      | some p' =>
        have e1 : play p false (c :: cs) = play p' false cs := by rw [play, if_neg hc, if_neg hne, hcode]
        have e2 : playEnd p false (c :: cs) = playEnd p' false cs := by rw [playEnd, if_neg hc, if_neg hne, hcode]
        rw [if_pos (by rw [isStyleCode_eq p, hcode]; rfl)] at hr
        obtain ⟨s1, hs1, hr⟩ := bind_eq_ok.mp hr
        obtain ⟨x, h1, h2, h3, _⟩ := push_made hp hs1
        have h4 : Penned base p { s1 with text := [] } := ⟨h3.italic, h3.underline, h3.sub⟩
        obtain ⟨k1, k2, k3, k4⟩ := apply_code h4 hcode
        obtain ⟨runs, new, a1, a2, a3, a4, a5, a6, a7, a8, _, a10⟩ := ih hcs p' _ r k1 hr
        refine ⟨(p, s.text) :: runs, x :: new, ?_, ?_, ?_, ?_, ?_, ?_, ?_, ?_, fun _ => .inr (by rw [hw]; simp), by rw [hw, cutRow, hcode, a10, k2]⟩
        · rw [a1, k3]; simp [h2]
        · cases h1 with
          | cons h1 _ => exact .cons h1 a2
        · rw [List.flatMap_cons, a3, k2, e1]; simp
        · rw [e2]; exact a4
        · rw [e2]; exact a5
        · intro q hq
          rcases List.mem_cons.1 hq with rfl | hq
          · rfl
          · rw [a6 q hq, k4]
        · rw [e2, a7, k4]
        · rw [hw, pre_style _ _ _ (by rw [isStyleCode_eq p, hcode]; rfl), List.map_cons, List.filter_cons, List.filter_cons, a8, k2]
      | none =>
        have e1 : play p false (c :: cs) = (p, c) :: play p false cs := by rw [play, if_neg hc, if_neg hne, hcode]
        have e2 : playEnd p false (c :: cs) = playEnd p false cs := by rw [playEnd, if_neg hc, if_neg hne, hcode]
        rw [if_neg (by rw [isStyleCode_eq p, hcode]; simp)] at hr
        obtain ⟨k1, k2, k3⟩ := apply_none hp hcode
        obtain ⟨runs, new, a1, a2, a3, a4, a5, a6, a7, a8, _, a10⟩ := ih hcs p _ r k1 hr
        refine ⟨runs, new, by rw [a1, k3], a2, ?_, by rw [e2]; exact a4, by rw [e2]; exact a5, a6, by rw [e2]; exact a7,
          by rw [hw, pre_plain _ _ _ (by rw [isStyleCode_eq p, hcode]; rfl), a8, k2], fun _ => .inr (by rw [hw]; simp), by rw [hw, cutRow, hcode, a10, k2]⟩
        rw [a3, k2, e1]
        simp

/-! ### Proofs: lines -/

private theorem getTimecode_eq (blk : Str) (off : Nat) (rate : Int) : getTimecode blk off rate = .ok (blockTime blk off rate) := by
  unfold getTimecode Time.fromHmsf hmsSeconds getByte blockTime
  have hb : ∀ n, ((blk.getD n 0).toNat : Int) < 256 := fun n => by have := (blk.getD n 0).toNat_lt; omega
  have a := hb off
  have b := hb (off + 1)
  have c := hb (off + 2)
  generalize (blk.getD off 0).toNat = x at *
  generalize (blk.getD (off + 1) 0).toNat = y at *
  generalize (blk.getD (off + 2) 0).toNat = z at *
  rw [ck_ok (by unfold InInt; omega), ok_bind, ck_ok (by unfold InInt; omega), ok_bind, ck_ok (by unfold InInt; omega), ok_bind, ck_ok (by unfold InInt; omega), ok_bind]
  rfl

private theorem stlHref_eq (blk : Str) : stlHref (getByte blk 14) = blockAlign (blk.getD 14 0) := by
  unfold stlHref getByte blockAlign
  have h := forall_byte (p := fun c => (if c.toNat = 1 then HRef.left else if c.toNat = 3 then .right else .centre) = if c = 1 then HRef.left else if c = 3 then .right else .centre)
    (by decide +kernel) (blk.getD 14 0)
  exact h

/-- Lines joined by 8A. -/
private def joinLines : List Str → Str
  | [] => []
  | [l] => l
  | l :: ls => l ++ 0x8a :: joinLines ls

private theorem joinLines_split (s : Str) : joinLines (splitAny (· == 0x8a) s) = s := by
  induction hn : s.length using Nat.strong_induction_on generalizing s with
  | _ n ih =>
    rcases splitAny_cases (· == (0x8a : Byte)) s with ⟨h, _⟩ | ⟨a, c, b, e, _, hc, h⟩
    · rw [h]; rfl
    · rw [h]
      have hc : c = 0x8a := by simpa using hc
      subst hc
      have hb := ih b.length (by rw [← hn, e, List.length_append, List.length_cons]; omega) b rfl
      cases hs : splitAny (· == (0x8a : Byte)) b with
      | nil => exact absurd hs (splitAny_ne_nil _ _)
      | cons x xs =>
        rw [hs] at hb
        rw [joinLines, hb, e]
        simp

private theorem made_raw (info : StlInfo) (blk : Str) (j : Nat) (runs : List (Pen × Str)) (new : List Raw)
    (hm : Made { from_ := blockTime blk 5 info.frameRate, to_ := blockTime blk 9 info.frameRate, vpos := { line := some ((getByte blk 13 : Int) + j), lines := some info.maximumRows, ref := some .topOfScreen }, hpos := { ref := stlHref (getByte blk 14) } } runs new)
    (hq : ∀ q ∈ runs, q.1.row = j) :
    List.Forall₂ (fun q x => ∃ w, isoDecode q.2 = .ok w ∧ x = blockRaw info.frameRate info.maximumRows blk 0 q.1 w) runs new := by
  unfold Made at hm
  induction hm with
  | nil => exact .nil
  | cons hx _ ih =>
    rename_i q _ _ _ _
    refine .cons ?_ (ih (fun q' hq' => hq q' (by simp [hq'])))
    obtain ⟨w, hw, rfl⟩ := hx
    refine ⟨w, hw, ?_⟩
    unfold blockRaw penned
    rw [stlHref_eq, hq q (by simp), sub_zero]
    rfl

private theorem lines_spec (info : StlInfo) (blk : Str) (ls : List Str) : ∀ (it ul : Bool) (st st' : StlBlocks) (j : Nat), (∀ l ∈ ls, ∀ c ∈ l, c ≠ 0x8a) → ls ≠ [] →
    stlLines info blk it ul st j ls = .ok st' →
    ∃ (runs : List (Pen × Str)) (new : List Raw), st'.subs = st.subs ++ new ∧ List.Forall₂ (fun q x => ∃ w, isoDecode q.2 = .ok w ∧ x = blockRaw info.frameRate info.maximumRows blk 0 q.1 w) runs new ∧
      runs.flatMap (fun q => q.2.map (fun b => (q.1, b))) = play { row := j, italic := it, underline := ul } false (joinLines ls) ∧
      (∀ q ∈ runs, q.1.row + 1 ≤ j + ls.length) ∧ st'.highest = max st.highest (blockRow blk + (j + ls.length - 1 : Int)) ∧
      (runs.map (·.2)).filter (fun t => !t.isEmpty) = (ls.flatMap (fun l => splitAny isStyleCode (l.takeWhile (· != 0x8f)))).filter (fun t => !t.isEmpty) ∧
      runs.Pairwise (fun q r => q.1.row ≤ r.1.row) ∧ (∀ q ∈ runs, j ≤ q.1.row ∧ Inked (joinLines ls) (q.1.row - j)) ∧
      runs = cutRows { row := j, italic := it, underline := ul } ls := by
  induction ls with
  | nil => intro _ _ _ _ _ _ h; exact absurd rfl h
  | cons l ls ih =>
    intro it ul st st' j h8 _ h
    rw [stlLines, getTimecode_eq, ok_bind, getTimecode_eq, ok_bind] at h
    simp only [] at h
    obtain ⟨r, hr, h⟩ := bind_eq_ok.mp h
    have hp := chars_spec { from_ := blockTime blk 5 info.frameRate, to_ := blockTime blk 9 info.frameRate, vpos := { line := some ((getByte blk 13 : Int) + j), lines := some info.maximumRows, ref := some .topOfScreen }, hpos := { ref := stlHref (getByte blk 14) } }
      l (h8 l (by simp)) { row := j, italic := it, underline := ul } _ r ⟨rfl, rfl, rfl⟩ hr
    obtain ⟨runs, new, a1, a2, a3, a4, a5, a6, a7, a8, a9, a10⟩ := hp
    rw [pre_empty _ (splitAny_ne_nil _ _)] at a8
    have hmade := made_raw info blk j runs new a2 a6
    simp only [List.map_nil, List.nil_append] at a3
    have hord : runs.Pairwise (fun q r => q.1.row ≤ r.1.row) := by
      rw [List.pairwise_iff_forall_sublist]
      intro q r hqr
      rw [a6 q (hqr.subset (by simp)), a6 r (hqr.subset (by simp))]
    have hink : ∀ q ∈ runs, ∀ t : Str, j ≤ q.1.row ∧ Inked (l ++ t) (q.1.row - j) := by
      intro q hq t
      rw [a6 q hq]
      refine ⟨le_refl _, ?_⟩
      rcases a9 (List.ne_nil_of_mem hq) with h | h
      · exact absurd rfl h
      · cases l with
        | nil => exact absurd rfl h
        | cons c l =>
          have hc : c ≠ 0x8f := by
            intro hc
            rw [List.takeWhile_cons, if_neg (by simpa using hc)] at h
            exact h rfl
          exact ⟨[], c, l ++ t, rfl, by show 0 = j - j; omega, .inl rfl, h8 (c :: l) (by simp) c (by simp), hc⟩
    cases ls with
    | nil =>
      rw [stlLines] at h
      cases h
      refine ⟨runs, new, a1, hmade, a3, fun q hq => ?_, ?_, by rw [a8]; simp, hord, fun q hq => by simpa [joinLines] using hink q hq [], by rw [a10, cutRows, cutRows, List.append_nil]⟩
      · rw [a6 q hq]; simp
      · simp only [List.length_cons, List.length_nil]
        congr 1
        unfold blockRow getByte
        omega
    | cons l2 ls =>
      obtain ⟨runs2, new2, b1, b2, b3, b4, b5, b6, b7, b8, b9⟩ := ih r.italic r.underline _ st' (j + 1) (fun l hl => h8 l (by simp [hl])) (by simp) h
      refine ⟨runs ++ runs2, new ++ new2, ?_, ?_, ?_, ?_, ?_, by rw [List.flatMap_cons, List.map_append, List.filter_append, List.filter_append, a8, b6], ?_, ?_, ?_⟩
      · rw [b1, a1]; simp
      · exact List.rel_append hmade b2
      · have e : ∀ (p : Pen) (en : Bool) (t : Str), play p en (0x8a :: t) = play { p with row := p.row + 1, colour := ⟨1, 1, 1⟩ } false t := by
          intro p en t; rw [play, if_pos rfl]
        have ej : joinLines (l :: l2 :: ls) = l ++ 0x8a :: joinLines (l2 :: ls) := rfl
        rw [List.flatMap_append, a3, b3, ej, play_append, e, a7, ← a4, ← a5]
      · intro q hq
        rcases List.mem_append.1 hq with hq | hq
        · rw [a6 q hq]; simp
        · have := b4 q hq
          simp only [List.length_cons] at this ⊢
          omega
      · rw [b5]
        simp only [List.length_cons]
        unfold blockRow getByte
        push_cast
        omega
      · rw [List.pairwise_append]
        refine ⟨hord, b7, fun q hq r hr => ?_⟩
        have := (b8 r hr).1
        rw [a6 q hq]
        simp only []
        omega
      · have ej : joinLines (l :: l2 :: ls) = l ++ 0x8a :: joinLines (l2 :: ls) := rfl
        rw [ej]
        intro q hq
        rcases List.mem_append.1 hq with hq | hq
        · exact hink q hq _
        · obtain ⟨c1, a, c, b, c2, c3, c4, c5⟩ := b8 q hq
          refine ⟨by omega, l ++ 0x8a :: a, c, b, by rw [c2]; simp, ?_, .inr ?_, c5⟩
          · rw [List.count_append, List.count_cons_self, c3, List.count_eq_zero.2 (fun h => h8 l (by simp) _ h rfl)]
            omega
          · rcases c4 with rfl | c4
            · simp
            · rw [List.getLast?_append, List.getLast?_cons, c4]; rfl
      · show _ = cutRow _ [] _ ++ cutRows _ (l2 :: ls)
        rw [a10, b9, a4, a5]

/-! ### Proofs: blocks -/

private theorem comment_cases (c : Byte) : (c = 0 ∧ commentFileToEnum c.toNat = .ok .no) ∨ (c = 1 ∧ commentFileToEnum c.toNat = .ok .yes) ∨
    (c ≠ 0 ∧ c ≠ 1 ∧ ∃ m, commentFileToEnum c.toNat = .error (.stl m)) := by
  by_cases h0 : c = 0
  · subst h0; exact .inl ⟨rfl, by decide⟩
  by_cases h1 : c = 1
  · subst h1; exact .inr (.inl ⟨rfl, by decide⟩)
  refine .inr (.inr ⟨h0, h1, ?_⟩)
  have h : ∀ c : Byte, c ≠ 0 → c ≠ 1 → tableFind (c.toNat : Int) commentTable = none :=
    fun c => forall_byte (p := fun c => c ≠ 0 → c ≠ 1 → tableFind (c.toNat : Int) commentTable = none) (by decide +kernel) c
  unfold commentFileToEnum intToEnum
  rw [h c h0 h1]
  exact ⟨_, rfl⟩

private theorem Shows.ofDecode {rate rows : Int} {blk : Str} {runs : List (Pen × Str)} {new : List Raw}
    (h : List.Forall₂ (fun q x => ∃ w, isoDecode q.2 = .ok w ∧ x = blockRaw rate rows blk 0 q.1 w) runs new) :
    List.Forall₂ (fun q x => ∃ w, IsoText q.2 w ∧ x = blockRaw rate rows blk 0 q.1 w) runs new := by
  induction h with
  | nil => exact .nil
  | cons hx _ ih =>
    obtain ⟨w, hw, e⟩ := hx
    exact .cons ⟨w, C53_text.mp hw, e⟩ ih

/-- C66: a block that is not a comment adds subtitles for its text and nothing else: the bytes, in order, of the walk
through the 112 text bytes, each in the colour, italic and underline of its pen, on its row, with the times, alignment
and position of the block.  In particular rows start at 8A, 8F cuts a row off, colours end with the row, italic and
underline go on to the next row; every block begins plain. -/
theorem C66_block (info : StlInfo) (st st' : StlBlocks) (blk : Str) (hc : isComment blk = false) (h : stlBlock info st blk = .ok st') :
    ∃ new, st'.subs = st.subs ++ new ∧ Shows info.frameRate info.maximumRows 0 blk new ∧ st'.highest = max st.highest (blockLast blk) := by
  unfold stlBlock at h
  obtain ⟨c, hcc, h⟩ := bind_eq_ok.mp h
  have hno : c = .no := by
    rcases comment_cases (blk.getD 15 0) with ⟨_, h2⟩ | ⟨h1, _⟩ | ⟨_, _, m, h2⟩
    · unfold getByte at hcc; rw [h2] at hcc; cases hcc; rfl
    · unfold isComment at hc; rw [h1] at hc; simp at hc
    · unfold getByte at hcc; rw [h2] at hcc; cases hcc
  subst hno
  rw [if_neg (by decide)] at h
  have hl := splitAny_length (· == (0x8a : Byte)) (getString blk 16 112)
  obtain ⟨runs, new, a1, a2, a3, a4, a5, a6, a7, a8, a9⟩ := lines_spec info blk _ false false st st' 0
    (fun l hl c hc => by simpa using splitAny_noSep_mem _ _ l hl c hc) (splitAny_ne_nil _ _) h
  rw [joinLines_split] at a3 a8
  have ht : getString blk 16 112 = blockText blk := rfl
  rw [ht] at hl a3 a4 a5 a8 a9
  rw [← List.count_eq_countP] at hl
  refine ⟨new, a1, ⟨runs, Shows.ofDecode a2, a3, a6, fun q hq => ?_, a7, fun q hq => (a8 q hq).2, a9⟩, ?_⟩
  · have := a4 q hq
    rw [hl] at this
    omega
  · rw [a5, hl]
    unfold blockLast
    congr 2
    push_cast
    omega

private theorem stlBlock_comment (info : StlInfo) (st : StlBlocks) (blk : Str) (h : isComment blk = true) : stlBlock info st blk = .ok st := by
  unfold isComment at h
  have h : blk.getD 15 0 = 1 := by simpa using h
  have e : commentFileToEnum (getByte blk 15) = .ok .yes := by unfold getByte; rw [h]; decide
  unfold stlBlock
  rw [e, ok_bind]
  rfl

private theorem range_blocks (file : Str) (n : Nat) : (List.range (n + 1)).map (fun i => (file.drop (128 * i)).take 128) =
    file.take 128 :: (List.range n).map (fun i => ((file.drop 128).drop (128 * i)).take 128) := by
  rw [List.range_succ_eq_map, List.map_cons, List.map_map]
  congr 1
  apply List.map_congr_left
  intro i _
  simp only [Function.comp_apply, List.drop_drop]
  congr 2
  omega

private theorem stlBlocks_foldlM (info : StlInfo) (n : Nat) : ∀ (st : StlBlocks) (file : Str), 128 * n ≤ file.length →
    stlBlocks info st file n = ((List.range n).map (fun i => (file.drop (128 * i)).take 128)).foldlM (stlBlock info) st := by
  induction n with
  | zero => intro st file _; rfl
  | succ n ih =>
    intro st file h
    rw [stlBlocks, range_blocks, List.foldlM_cons]
    unfold readBlock
    rw [if_pos (by omega), ok_bind]
    simp only []
    congr 1
    funext st2
    exact ih st2 _ (by rw [List.length_drop]; omega)

private theorem foldlM_filter (info : StlInfo) (bs : List Str) : ∀ st, bs.foldlM (stlBlock info) st = (bs.filter (fun b => !isComment b)).foldlM (stlBlock info) st := by
  induction bs with
  | nil => intro st; rfl
  | cons b bs ih =>
    intro st
    rw [List.foldlM_cons, List.filter_cons]
    cases h : isComment b
    · simp only [Bool.not_false, if_true, List.foldlM_cons]
      congr 1
      funext st2
      exact ih st2
    · rw [stlBlock_comment info st b h, ok_bind]
      exact ih st

private theorem foldlM_shows (info : StlInfo) (bs : List Str) (hb : ∀ b ∈ bs, isComment b = false) : ∀ st st', bs.foldlM (stlBlock info) st = .ok st' →
    ∃ parts, List.Forall₂ (Shows info.frameRate info.maximumRows 0) bs parts ∧ st'.subs = st.subs ++ parts.flatten ∧
      st'.highest = bs.foldl (fun h b => max h (blockLast b)) st.highest := by
  induction bs with
  | nil => intro st st' h; cases h; exact ⟨[], .nil, by simp, rfl⟩
  | cons b bs ih =>
    intro st st' h
    rw [List.foldlM_cons] at h
    obtain ⟨st2, h1, h⟩ := bind_eq_ok.mp h
    obtain ⟨new, a1, a2, a3⟩ := C66_block info st st2 b (hb b (by simp)) h1
    obtain ⟨parts, b1, b2, b3⟩ := ih (fun b hb' => hb b (by simp [hb'])) st2 st' h
    exact ⟨new :: parts, .cons a2 b1, by rw [b2, a1]; simp, by rw [b3, a3]; rfl⟩

private theorem stlBlocks_long (info : StlInfo) (n : Nat) : ∀ (st st' : StlBlocks) (file : Str), stlBlocks info st file n = .ok st' → 128 * n ≤ file.length := by
  induction n with
  | zero => intros; omega
  | succ n ih =>
    intro st st' file h
    rw [stlBlocks] at h
    obtain ⟨⟨b, r⟩, h1, h⟩ := bind_eq_ok.mp h
    unfold readBlock at h1
    split at h1
    · cases h1
      obtain ⟨st2, _, h⟩ := bind_eq_ok.mp h
      have := ih st2 st' _ h
      rw [List.length_drop] at this
      omega
    · cases h1

/-! ### Proofs: files -/

theorem getString_take1024 (out : Str) (off len : Nat) (h : off + len ≤ 1024) : getString (out.take 1024) off len = (out.drop off).take len := by
  unfold getString
  rw [List.drop_take, List.take_take]
  congr 1
  omega

/-- What a header says about the public data that matters for the subtitles. -/
theorem parseGsi_ok {file : Str} {info : StlInfo} (h : parseGsi (file.take 1024) = .ok info) :
    ((file.drop 3).take 8, info.frameRate) ∈ [(b!"STL23.01", (23 : Int)), (b!"STL24.01", 24), (b!"STL25.01", 25), (b!"STL30.01", 30)] ∧
    info.ttiBlocks.toNat = announced file ∧
    info.maximumRows = (if atoi ((file.drop 253).take 2) = 99 then 12 else atoi ((file.drop 253).take 2)) := by
  unfold parseGsi at h
  obtain ⟨fr, h1, h⟩ := bind_eq_ok.mp h
  obtain ⟨frame, h2, h⟩ := bind_eq_ok.mp h
  obtain ⟨ds, _, h⟩ := bind_eq_ok.mp h
  obtain ⟨lg, _, h⟩ := bind_eq_ok.mp h
  obtain ⟨lang, _, h⟩ := bind_eq_ok.mp h
  simp only [] at h
  obtain ⟨tc, _, h⟩ := bind_eq_ok.mp h
  cases h
  rw [getString_take1024 _ _ _ (by decide)] at h1
  refine ⟨?_, ?_, ?_⟩
  · have := ((C67_read _).1 _).mp h1
    simp only [dfcRates, List.mem_cons, Prod.mk.injEq, List.not_mem_nil, or_false] at this ⊢
    rcases this with ⟨e, rfl⟩ | ⟨e, rfl⟩ | ⟨e, rfl⟩ | ⟨e, rfl⟩
    · have : toInt (f32 (23976 / 1000)) = .ok 23 := by decide +kernel
      rw [this] at h2; cases h2; exact .inl ⟨e, rfl⟩
    · have : toInt (24 : ℚ) = .ok 24 := by decide +kernel
      rw [this] at h2; cases h2; exact .inr (.inl ⟨e, rfl⟩)
    · have : toInt (25 : ℚ) = .ok 25 := by decide +kernel
      rw [this] at h2; cases h2; exact .inr (.inr (.inl ⟨e, rfl⟩))
    · have : toInt (30 : ℚ) = .ok 30 := by decide +kernel
      rw [this] at h2; cases h2; exact .inr (.inr (.inr ⟨e, rfl⟩))
  · show (atoi (getString (file.take 1024) 238 5)).toNat = _
    rw [getString_take1024 _ _ _ (by decide)]
    rfl
  · show (if atoi (getString (file.take 1024) 253 2) = 99 then 12 else atoi (getString (file.take 1024) 253 2)) = _
    rw [getString_take1024 _ _ _ (by decide)]

theorem read_steps {file : Str} {info : StlInfo} {subs : List Raw} (h : stlRead file = .ok (info, subs)) :
    1024 ≤ file.length ∧ parseGsi (file.take 1024) = .ok info ∧ 1024 + 128 * announced file ≤ file.length ∧
    ∃ st, (shownBlocks file).foldlM (stlBlock info) {} = .ok st ∧ subs = stlCorrect info st := by
  unfold stlRead at h
  obtain ⟨⟨g, rest⟩, h1, h⟩ := bind_eq_ok.mp h
  obtain ⟨info', h2, h⟩ := bind_eq_ok.mp h
  obtain ⟨st, h3, h⟩ := bind_eq_ok.mp h
  cases h
  unfold readBlock at h1
  split at h1
  · rename_i hl
    cases h1
    have hn := (parseGsi_ok h2).2.1
    rw [hn] at h3
    have hlong := stlBlocks_long info _ _ _ _ h3
    rw [List.length_drop] at hlong
    refine ⟨hl, h2, by omega, st, ?_, rfl⟩
    rw [stlBlocks_foldlM info _ _ _ (by rw [List.length_drop]; omega), foldlM_filter] at h3
    rw [← h3]
    unfold shownBlocks ttiBlock
    simp only [List.drop_drop]
  · cases h1

private theorem shows_shift {rate rows : Int} {blk : Str} {new : List Raw} (c : Int) (h : Shows rate rows 0 blk new) :
    Shows rate rows c blk (new.map (fun i => { i with vpos := { i.vpos with line := i.vpos.line.map (· - c) } })) := by
  obtain ⟨runs, h1, h2, h4, h3, h5⟩ := h.runs
  refine ⟨runs, ?_, h2, h4, h3, h5⟩
  clear h2 h3 h4 h5 h
  induction h1 with
  | nil => exact .nil
  | cons hx _ ih =>
    obtain ⟨w, hw, rfl⟩ := hx
    refine .cons ⟨w, hw, ?_⟩ ih
    unfold blockRaw
    simp

private theorem shows_shifts {rate rows : Int} {bs : List Str} {parts : List (List Raw)} (c : Int) (h : List.Forall₂ (Shows rate rows 0) bs parts) :
    List.Forall₂ (Shows rate rows c) bs (parts.map (List.map (fun i => { i with vpos := { i.vpos with line := i.vpos.line.map (· - c) } }))) := by
  induction h with
  | nil => exact .nil
  | cons hx _ ih => exact .cons (shows_shift _ hx) ih

/-- C65, C66: what is read from a file.  The subtitles are those of the blocks that are not comments, in order, and
all lines are moved up by the same number of rows: so many that the lowest one comes to the last row (none if it is
on the screen already). -/
theorem C66_file (file : Str) (info : StlInfo) (subs : List Raw) (h : stlRead file = .ok (info, subs)) :
    ∃ parts, List.Forall₂ (Shows info.frameRate info.maximumRows (max 0 (lastRow file - info.maximumRows))) (shownBlocks file) parts ∧ subs = parts.flatten := by
  obtain ⟨_, _, _, st, h1, rfl⟩ := read_steps h
  obtain ⟨parts, a1, a2, a3⟩ := foldlM_shows info _ (fun b hb => by simpa [shownBlocks] using (List.mem_filter.1 hb).2) {} st h1
  have hh : st.highest = lastRow file := a3
  unfold stlCorrect
  rw [hh, a2, List.nil_append]
  split
  · rename_i hgt
    refine ⟨parts.map (List.map (fun i => { i with vpos := { i.vpos with line := i.vpos.line.map (· - (lastRow file - info.maximumRows)) } })), ?_, ?_⟩
    · rw [max_eq_right (by omega)]
      exact shows_shifts _ a1
    · rw [List.map_flatten]
  · rename_i hgt
    rw [max_eq_left (by omega)]
    exact ⟨parts, a1, rfl⟩

/-- A small file: 23 rows, 25 frames a second. -/
def stlFileDemo (n : Str) (blocks : List Str) : Str :=
  b!"850STL25.010" ++ b!"0009" ++ List.replicate 222 32 ++ n ++ List.replicate 10 48 ++ b!"231" ++ List.replicate 768 32 ++ blocks.flatten

/-- A block from 1 s to 3 s on the row `r`. -/
def stlBlockDemo (r comment : Byte) (text : Str) : Str :=
  [0, 0, 0, 255, 0, 0, 0, 1, 0, 0, 0, 3, 12, r, 2, comment] ++ text ++ List.replicate (112 - text.length) 0x8f

example : ∃ info subs, stlRead (stlFileDemo b!"00002" [stlBlockDemo 20 0 b!"Hello", stlBlockDemo 3 0 b!"world"]) = .ok (info, subs) ∧ subs.length = 2 := by
  have h : (stlRead (stlFileDemo b!"00002" [stlBlockDemo 20 0 b!"Hello", stlBlockDemo 3 0 b!"world"])).toOption.map (·.2.length) = some 2 := by decide +kernel
  cases hr : stlRead (stlFileDemo b!"00002" [stlBlockDemo 20 0 b!"Hello", stlBlockDemo 3 0 b!"world"]) with
  | error e => rw [hr] at h; cases h
  | ok v => rw [hr] at h; exact ⟨v.1, v.2, rfl, Option.some.inj h⟩

private theorem foldl_max_ge (bs : List Str) : ∀ (h : Int), h ≤ bs.foldl (fun h b => max h (blockLast b)) h ∧ ∀ b ∈ bs, blockLast b ≤ bs.foldl (fun h b => max h (blockLast b)) h := by
  induction bs with
  | nil => intro h; exact ⟨le_refl _, by simp⟩
  | cons b bs ih =>
    intro h
    obtain ⟨i1, i2⟩ := ih (max h (blockLast b))
    refine ⟨le_trans (le_max_left _ _) i1, fun x hx => ?_⟩
    rcases List.mem_cons.1 hx with rfl | hx
    · exact le_trans (le_max_right _ _) i1
    · exact i2 x hx

/-- C65: every line number is at most the number of rows. -/
theorem C65_on_screen (file : Str) (info : StlInfo) (subs : List Raw) (h : stlRead file = .ok (info, subs)) :
    ∀ x ∈ subs, ∃ n, x.vpos.line = some n ∧ n ≤ info.maximumRows ∧ x.vpos.lines = some info.maximumRows ∧ x.vpos.ref = some .topOfScreen := by
  obtain ⟨parts, h1, rfl⟩ := C66_file file info subs h
  have hm := (foldl_max_ge (shownBlocks file) 0).2
  have hlast : lastRow file = (shownBlocks file).foldl (fun h b => max h (blockLast b)) 0 := rfl
  rw [← hlast] at hm
  generalize lastRow file = H at *
  clear hlast h
  generalize shownBlocks file = bs at *
  induction h1 with
  | nil => simp
  | cons hx _ ih =>
    rename_i b new _ _ _
    intro x hx'
    rw [List.flatten_cons, List.mem_append] at hx'
    rcases hx' with hx' | hx'
    · have hb := hm b (by simp)
      obtain ⟨runs, a1, a2, a4, a3, -⟩ := hx.runs
      clear ih hx a2 a4
      induction a1 with
      | nil => simp at hx'
      | cons hq _ ih2 =>
        rcases List.mem_cons.1 hx' with rfl | hx'
        · obtain ⟨w, _, rfl⟩ := hq
          refine ⟨_, rfl, ?_, rfl, rfl⟩
          have := a3 _ (List.mem_cons_self)
          unfold blockLast at hb
          have := le_max_right 0 (H - info.maximumRows)
          omega
        · exact ih2 hx' (fun q hq => a3 q (List.mem_cons_of_mem _ hq))
    · exact ih (fun b hb => hm b (List.mem_cons_of_mem _ hb)) x hx'

/-- C65: but a line number can be negative: rows 0 and 30 on a screen of 23 become −7 and 23. -/
theorem C65_negative_witness :
    (stlRead (stlFileDemo b!"00002" [stlBlockDemo 0 0 b!"Hello", stlBlockDemo 30 0 b!"world"])).toOption.map (fun r => r.2.map (·.vpos.line)) = some [some (-7), some 23] := by
  decide +kernel

private theorem stlLines_congr {i j : StlInfo} (h1 : i.frameRate = j.frameRate) (h2 : i.maximumRows = j.maximumRows) (blk : Str) (ls : List Str) :
    ∀ it ul st n, stlLines i blk it ul st n ls = stlLines j blk it ul st n ls := by
  induction ls with
  | nil => intros; rfl
  | cons l ls ih =>
    intro it ul st n
    rw [stlLines, stlLines, h1, h2]
    simp only [ih]

/-- C64: comments are invisible: files with the same blocks apart from comments, wherever these are, and with the same
frame rate and number of rows, give the same subtitles. -/
theorem C64_invisible (f g : Str) (i j : StlInfo) (x y : List Raw) (hf : stlRead f = .ok (i, x)) (hg : stlRead g = .ok (j, y))
    (hs : shownBlocks f = shownBlocks g) (h1 : i.frameRate = j.frameRate) (h2 : i.maximumRows = j.maximumRows) : x = y := by
  obtain ⟨_, _, _, s, a1, rfl⟩ := read_steps hf
  obtain ⟨_, _, _, t, b1, rfl⟩ := read_steps hg
  have hb : stlBlock i = stlBlock j := by
    funext st blk
    unfold stlBlock
    simp only [stlLines_congr h1 h2]
  rw [hs, hb, b1] at a1
  cases a1
  unfold stlCorrect
  rw [h2]

example : shownBlocks (stlFileDemo b!"00002" [stlBlockDemo 9 1 b!"by the translator", stlBlockDemo 3 0 b!"world"]) = shownBlocks (stlFileDemo b!"00001" [stlBlockDemo 3 0 b!"world"]) ∧
    (stlRead (stlFileDemo b!"00002" [stlBlockDemo 9 1 b!"by the translator", stlBlockDemo 3 0 b!"world"])).toOption.isSome = true ∧
    (stlRead (stlFileDemo b!"00001" [stlBlockDemo 3 0 b!"world"])).toOption.isSome = true := by decide +kernel

/-! ### Which files are read -/

private theorem decode_bad (s : Str) : (BadAccent s → isoDecode s = .error (.ub .nullDeref)) ∧ (¬ BadAccent s → ∃ w, isoDecode s = .ok w) := by
  constructor
  · intro h
    obtain ⟨e, he⟩ := (C53_ub_iff (t := {}) .start).1.mpr h
    have := (C53_ub_iff (t := {}) .start).2 e he
    unfold isoDecode
    rw [he, this]
    rfl
  · intro h
    obtain ⟨w, hw⟩ := isoText_total s.length s (le_refl _) h
    exact ⟨w, C53_text.mpr hw⟩

private theorem badAccent_nil : ¬ BadAccent [] := by
  rintro ⟨a, d, u, b, h, _⟩
  cases a <;> cases h

private theorem apply_text (s : StlChars) (c : Byte) : (s.apply c).text = if isStyleCode c then s.text else s.text ++ [c] := by
  unfold StlChars.apply
  rw [stlColour_eq, isStyleCode_split]
  by_cases h : c ≤ 7
  · simp [h]
  · rw [if_neg h]
    simp only []
    by_cases h0 : c = 0x80
    · subst h0; rfl
    by_cases h1 : c = 0x81
    · subst h1; rfl
    by_cases h2 : c = 0x82
    · subst h2; rfl
    by_cases h3 : c = 0x83
    · subst h3; rfl
    rw [if_neg h0, if_neg h1, if_neg h2, if_neg h3]
    have : (decide (c ≤ 7) || (decide (0x80 ≤ c) && decide (c ≤ 0x83))) = false :=
      forall_byte (p := fun c => ¬ c ≤ 7 → c ≠ 0x80 → c ≠ 0x81 → c ≠ 0x82 → c ≠ 0x83 → (decide (c ≤ 7) || (decide (0x80 ≤ c) && decide (c ≤ 0x83))) = false)
        (by decide +kernel) c h h0 h1 h2 h3
    exact (if_neg (fun e => by rw [this] at e; cases e)).symm

private theorem push_total (s : StlChars) : (BadAccent s.text → s.push = .error (.ub .nullDeref)) ∧
    (¬ BadAccent s.text → ∃ r, s.push = .ok r) := by
  unfold StlChars.push
  constructor
  · intro h
    rw [(decode_bad _).1 h]
    rfl
  · intro h
    obtain ⟨w, hw⟩ := (decode_bad _).2 h
    rw [hw]
    exact ⟨_, rfl⟩

private theorem chars_total (cs : Str) : ∀ s : StlChars,
    ((∃ t ∈ pre s.text (splitAny isStyleCode (cs.takeWhile (· != 0x8f))), BadAccent t) → stlChars s cs = .error (.ub .nullDeref)) ∧
    ((∀ t ∈ pre s.text (splitAny isStyleCode (cs.takeWhile (· != 0x8f))), ¬ BadAccent t) → ∃ r, stlChars s cs = .ok r) := by
  have stop : ∀ s : StlChars, ((∃ t ∈ pre s.text (splitAny isStyleCode []), BadAccent t) → (if s.text.isEmpty then .ok s else s.push : R StlChars) = .error (.ub .nullDeref)) ∧
      ((∀ t ∈ pre s.text (splitAny isStyleCode []), ¬ BadAccent t) → ∃ r, (if s.text.isEmpty then .ok s else s.push : R StlChars) = .ok r) := by
    intro s
    have e : pre s.text (splitAny isStyleCode []) = [s.text] := by simp [splitAny, pre]
    rw [e]
    constructor
    · rintro ⟨t, ht, hb⟩
      have : t = s.text := by simpa using ht
      subst this
      rw [if_neg]
      · exact (push_total s).1 hb
      · intro he
        have he : s.text = [] := by simpa using he
        rw [he] at hb
        exact badAccent_nil hb
    · intro h
      split
      · exact ⟨_, rfl⟩
      · exact (push_total s).2 (h _ (by simp))
  induction cs with
  | nil => intro s; exact stop s
  | cons c cs ih =>
    intro s
    by_cases hf : c = 0x8f
    · have e : (c :: cs).takeWhile (· != 0x8f) = [] := by rw [hf]; rfl
      have e2 : stlChars s (c :: cs) = if s.text.isEmpty then .ok s else s.push := by rw [stlChars, if_pos hf]
      rw [e, e2]
      exact stop s
    · have e : (c :: cs).takeWhile (· != 0x8f) = c :: cs.takeWhile (· != 0x8f) := by rw [List.takeWhile_cons, if_pos (by simpa using hf)]
      rw [e, stlChars, if_neg hf]
      by_cases hst : isStyleCode c = true
      · rw [if_pos hst]
        rw [splitAny, if_pos hst]
        have hne := splitAny_ne_nil isStyleCode (cs.takeWhile (· != 0x8f))
        have e3 : ∀ t : Str, pre t ([] :: splitAny isStyleCode (cs.takeWhile (· != 0x8f))) = t :: pre [] (splitAny isStyleCode (cs.takeWhile (· != 0x8f))) := by
          intro t
          cases hs : splitAny isStyleCode (cs.takeWhile (· != 0x8f)) with
          | nil => exact absurd hs hne
          | cons x xs => simp [pre]
        rw [e3]
        by_cases hb : BadAccent s.text
        · refine ⟨fun _ => by rw [(push_total s).1 hb]; rfl, fun h => absurd hb (h _ (by simp))⟩
        · obtain ⟨r, hr⟩ := (push_total s).2 hb
          rw [hr, ok_bind]
          have e4 : (({ r with text := [] } : StlChars).apply c).text = [] := by rw [apply_text, if_pos hst]
          obtain ⟨i1, i2⟩ := ih (({ r with text := [] } : StlChars).apply c)
          rw [e4] at i1 i2
          refine ⟨?_, fun h => i2 (fun t ht => h t (List.mem_cons_of_mem _ ht))⟩
          rintro ⟨t, ht, hbt⟩
          rcases List.mem_cons.1 ht with rfl | ht
          · exact absurd hbt hb
          · exact i1 ⟨t, ht, hbt⟩
      · rw [if_neg hst]
        have e3 : pre s.text (splitAny isStyleCode (c :: cs.takeWhile (· != 0x8f))) = pre (s.apply c).text (splitAny isStyleCode (cs.takeWhile (· != 0x8f))) := by
          rw [apply_text, if_neg hst, splitAny, if_neg hst]
          cases splitAny isStyleCode (cs.takeWhile (· != 0x8f)) with
          | nil => rfl
          | cons x xs => simp [pre]
        rw [e3]
        exact ih (s.apply c)

private theorem lines_total (info : StlInfo) (blk : Str) (ls : List Str) : ∀ (it ul : Bool) (st : StlBlocks) (j : Nat),
    ((∃ t ∈ ls.flatMap (fun l => splitAny isStyleCode (l.takeWhile (· != 0x8f))), BadAccent t) → stlLines info blk it ul st j ls = .error (.ub .nullDeref)) ∧
    ((∀ t ∈ ls.flatMap (fun l => splitAny isStyleCode (l.takeWhile (· != 0x8f))), ¬ BadAccent t) → ∃ r, stlLines info blk it ul st j ls = .ok r) := by
  induction ls with
  | nil => intro it ul st j; exact ⟨fun ⟨t, ht, _⟩ => absurd ht (by simp), fun _ => ⟨_, rfl⟩⟩
  | cons l ls ih =>
    intro it ul st j
    rw [stlLines, getTimecode_eq, ok_bind, getTimecode_eq, ok_bind, List.flatMap_cons]
    simp only []
    have e : ∀ x : List Str, x ≠ [] → pre [] x = x := by intro x hx; cases x with | nil => exact absurd rfl hx | cons y ys => rfl
    have hc := fun s => chars_total l s
    constructor
    · rintro ⟨t, ht, hb⟩
      generalize hs0 : (StlChars.mk it ul _ _ _) = s0
      obtain ⟨c1, c2⟩ := hc s0
      have ht0 : s0.text = [] := by rw [← hs0]
      rw [ht0, e _ (splitAny_ne_nil _ _)] at c1 c2
      by_cases hbl : ∃ t ∈ splitAny isStyleCode (l.takeWhile (· != 0x8f)), BadAccent t
      · rw [c1 hbl]; rfl
      · obtain ⟨r, hr⟩ := c2 (fun t ht hb => hbl ⟨t, ht, hb⟩)
        rw [hr, ok_bind]
        rcases List.mem_append.1 ht with ht | ht
        · exact absurd ⟨t, ht, hb⟩ hbl
        · exact (ih _ _ _ _).1 ⟨t, ht, hb⟩
    · intro h
      generalize hs0 : (StlChars.mk it ul _ _ _) = s0
      obtain ⟨c1, c2⟩ := hc s0
      have ht0 : s0.text = [] := by rw [← hs0]
      rw [ht0, e _ (splitAny_ne_nil _ _)] at c1 c2
      obtain ⟨r, hr⟩ := c2 (fun t ht => h t (List.mem_append_left _ ht))
      rw [hr, ok_bind]
      exact (ih _ _ _ _).2 (fun t ht => h t (List.mem_append_right _ ht))

theorem block_total (info : StlInfo) (st : StlBlocks) (blk : Str) :
    (BadBlock blk ∧ stlBlock info st blk = .error (.ub .nullDeref)) ∨
    (¬ (blk.getD 15 0 = 0 ∨ blk.getD 15 0 = 1) ∧ ∃ m, stlBlock info st blk = .error (.stl m)) ∨
    ((blk.getD 15 0 = 0 ∨ blk.getD 15 0 = 1) ∧ ¬ BadBlock blk ∧ ∃ st', stlBlock info st blk = .ok st') := by
  rcases comment_cases (blk.getD 15 0) with ⟨h1, h2⟩ | ⟨h1, h2⟩ | ⟨h1, h2, m, h3⟩
  · have e : stlBlock info st blk = stlLines info blk false false st 0 (splitAny (· == 0x8a) (getString blk 16 112)) := by
      unfold stlBlock getByte
      rw [h2]
      rfl
    obtain ⟨l1, l2⟩ := lines_total info blk (splitAny (· == 0x8a) (getString blk 16 112)) false false st 0
    rw [← e] at l1 l2
    by_cases hb : ∃ t ∈ textRuns (blockText blk), BadAccent t
    · exact .inl ⟨⟨h1, hb⟩, l1 hb⟩
    · exact .inr (.inr ⟨.inl h1, fun h => hb h.2, l2 (fun t ht hbt => hb ⟨t, ht, hbt⟩)⟩)
  · refine .inr (.inr ⟨.inr h1, fun h => ?_, st, ?_⟩)
    · rw [h.1] at h1; cases h1
    · exact stlBlock_comment info st blk (by unfold isComment; rw [h1]; rfl)
  · refine .inr (.inl ⟨fun h => h.elim h1 h2, m, ?_⟩)
    unfold stlBlock getByte
    rw [h3]
    rfl

private theorem blocks_total (info : StlInfo) (n : Nat) : ∀ (st : StlBlocks) (file : Str),
    (∃ i < n, BadBlock ((file.drop (128 * i)).take 128) ∧ stlBlocks info st file n = .error (.ub .nullDeref)) ∨
    (¬ (128 * n ≤ file.length ∧ ∀ i < n, ((file.drop (128 * i)).take 128).getD 15 0 = 0 ∨ ((file.drop (128 * i)).take 128).getD 15 0 = 1) ∧
      ∃ m, stlBlocks info st file n = .error (.stl m)) ∨
    ((128 * n ≤ file.length ∧ ∀ i < n, ((file.drop (128 * i)).take 128).getD 15 0 = 0 ∨ ((file.drop (128 * i)).take 128).getD 15 0 = 1) ∧
      (∀ i < n, ¬ BadBlock ((file.drop (128 * i)).take 128)) ∧ ∃ st', stlBlocks info st file n = .ok st') := by
  induction n with
  | zero => intro st file; exact .inr (.inr ⟨⟨by omega, by omega⟩, by omega, _, rfl⟩)
  | succ n ih =>
    intro st file
    rw [stlBlocks]
    unfold readBlock
    by_cases hl : 128 ≤ file.length
    · rw [if_pos hl, ok_bind]
      simp only []
      have e0 : (file.drop (128 * 0)).take 128 = file.take 128 := by simp
      have es : ∀ i, ((file.drop 128).drop (128 * i)).take 128 = (file.drop (128 * (i + 1))).take 128 := by
        intro i; rw [List.drop_drop]; congr 2; omega
      rcases block_total info st (file.take 128) with ⟨h1, h2⟩ | ⟨h1, m, h2⟩ | ⟨h1, h2, st2, h3⟩
      · exact .inl ⟨0, by omega, by rw [e0]; exact h1, by rw [h2]; rfl⟩
      · refine .inr (.inl ⟨fun h => h1 ?_, m, by rw [h2]; rfl⟩)
        have := h.2 0 (by omega)
        rwa [e0] at this
      · rw [h3, ok_bind]
        have hlen : 128 * (n + 1) ≤ file.length ↔ 128 * n ≤ (file.drop 128).length := by rw [List.length_drop]; omega
        rcases ih st2 (file.drop 128) with ⟨i, hi, k1, k2⟩ | ⟨k1, k2⟩ | ⟨⟨k1, k2⟩, k3, k4⟩
        · exact .inl ⟨i + 1, by omega, by rw [← es]; exact k1, k2⟩
        · refine .inr (.inl ⟨fun h => k1 ⟨hlen.mp h.1, fun i hi => ?_⟩, k2⟩)
          rw [es]
          exact h.2 (i + 1) (by omega)
        · refine .inr (.inr ⟨⟨hlen.mpr k1, fun i hi => ?_⟩, fun i hi => ?_, k4⟩)
          · cases i with
            | zero => rw [e0]; exact h1
            | succ i => rw [← es]; exact k2 i (by omega)
          · cases i with
            | zero => rw [e0]; exact h2
            | succ i => rw [← es]; exact k3 i (by omega)
    · rw [if_neg hl]
      exact .inr (.inl ⟨fun h => hl (by omega), _, rfl⟩)

theorem tableFind_iff {K E : Type} [DecidableEq K] (k : K) (m : StlTable K E) : (∃ v, tableFind k m = some v) ↔ k ∈ m.map (·.1) := by
  induction m with
  | nil => simp [tableFind]
  | cons x m ih =>
    obtain ⟨k', v, d⟩ := x
    rw [tableFind, List.map_cons, List.mem_cons]
    by_cases h : k' = k
    · rw [if_pos h]; exact ⟨fun _ => .inl h.symm, fun _ => ⟨_, rfl⟩⟩
    · rw [if_neg h, ih]
      exact ⟨fun hm => .inr hm, fun hm => hm.resolve_left (fun e => h e.symm)⟩

private theorem strToEnum_cases {E : Type} (k : Str) (m : StlTable Str E) (name : Str) :
    (k ∈ m.map (·.1) ∧ ∃ v, strToEnum k m name = .ok v) ∨ (k ∉ m.map (·.1) ∧ ∃ x, strToEnum k m name = .error (.stl x)) := by
  unfold strToEnum
  have h := tableFind_iff k m
  cases hf : tableFind k m with
  | some v => exact .inl ⟨h.mp ⟨v, hf⟩, _, rfl⟩
  | none => refine .inr ⟨fun hm => ?_, _, rfl⟩; obtain ⟨v, hv⟩ := h.mpr hm; rw [hf] at hv; cases hv

theorem language_key (k : Str) : (k ∈ languageTable.map (·.1)) ↔ ∃ l, k = hex2 (languageNumber l) := by
  rw [← tableFind_iff]
  constructor
  · rintro ⟨l, hl⟩
    have : languageFileToEnum k = .ok l := by unfold languageFileToEnum strToEnum; rw [hl]
    have h2 := C68_language_file k l this
    rw [C68_language_code] at h2
    cases h2
    exact ⟨l, rfl⟩
  · rintro ⟨l, rfl⟩
    have h := C68_language l
    rw [C68_language_code] at h
    have h : languageFileToEnum (hex2 (languageNumber l)) = .ok l := h
    unfold languageFileToEnum strToEnum at h
    cases hf : tableFind (hex2 (languageNumber l)) languageTable with
    | some v => exact ⟨v, rfl⟩
    | none => rw [hf] at h; cases h

private theorem gsi_total (file : Str) : (HeaderOk file ∧ ∃ info, parseGsi (file.take 1024) = .ok info) ∨ (¬ HeaderOk file ∧ ∃ m, parseGsi (file.take 1024) = .error (.stl m)) := by
  unfold parseGsi
  rw [getString_take1024 _ 3 8 (by decide), getString_take1024 _ 11 1 (by decide), getString_take1024 _ 12 2 (by decide), getString_take1024 _ 14 2 (by decide),
    getString_take1024 _ 255 1 (by decide)]
  have hdfc : ((file.drop 3).take 8 ∈ [b!"STL23.01", b!"STL24.01", b!"STL25.01", b!"STL30.01"] ∧ ∃ r w, stlDfcToFrameRate ((file.drop 3).take 8) = .ok r ∧ toInt r = .ok w) ∨
      ((file.drop 3).take 8 ∉ [b!"STL23.01", b!"STL24.01", b!"STL25.01", b!"STL30.01"] ∧ ∃ m, stlDfcToFrameRate ((file.drop 3).take 8) = .error (.stl m)) := by
    generalize (file.drop 3).take 8 = k
    by_cases h : k ∈ [b!"STL23.01", b!"STL24.01", b!"STL25.01", b!"STL30.01"]
    · left
      refine ⟨h, ?_⟩
      simp only [List.mem_cons, List.not_mem_nil, or_false] at h
      rcases h with rfl | rfl | rfl | rfl
      · exact ⟨_, 23, ((C67_read _).1 (f32 (23976 / 1000))).mpr (by simp [dfcRates]), by decide +kernel⟩
      · exact ⟨_, 24, ((C67_read _).1 24).mpr (by simp [dfcRates]), by decide +kernel⟩
      · exact ⟨_, 25, ((C67_read _).1 25).mpr (by simp [dfcRates]), by decide +kernel⟩
      · exact ⟨_, 30, ((C67_read _).1 30).mpr (by simp [dfcRates]), by decide +kernel⟩
    · right
      refine ⟨h, _, (C67_read k).2 (fun r hr => h ?_)⟩
      simp only [dfcRates, List.mem_cons, Prod.mk.injEq, List.not_mem_nil, or_false] at hr ⊢
      tauto
  rcases hdfc with ⟨d1, r, w, d2, d3⟩ | ⟨d1, m, d2⟩
  · rw [d2, ok_bind, d3, ok_bind]
    unfold displayStandardFileToEnum languageGroupFileToEnum languageFileToEnum timecodeStatusFileToEnum
    rcases strToEnum_cases ((file.drop 11).take 1) displayStandardTable b!"display standard code" with ⟨s1, v1, s2⟩ | ⟨s1, m, s2⟩
    · rw [s2, ok_bind]
      rcases strToEnum_cases ((file.drop 12).take 2) languageGroupTable b!"language group code" with ⟨g1, v2, g2⟩ | ⟨g1, m, g2⟩
      · rw [g2, ok_bind]
        rcases strToEnum_cases ((file.drop 14).take 2) languageTable b!"language code" with ⟨l1, v3, l2⟩ | ⟨l1, m, l2⟩
        · rw [l2, ok_bind]
          simp only []
          rcases strToEnum_cases ((file.drop 255).take 1) timecodeStatusTable b!"timecode status code" with ⟨t1, v4, t2⟩ | ⟨t1, m, t2⟩
          · rw [t2]
            exact .inl ⟨⟨d1, s1, g1, (language_key _).mp l1, t1⟩, _, rfl⟩
          · rw [t2]
            exact .inr ⟨fun h => t1 h.timecodeStatus, m, rfl⟩
        · rw [l2]
          exact .inr ⟨fun h => l1 ((language_key _).mpr h.language), m, rfl⟩
      · rw [g2]
        exact .inr ⟨fun h => g1 h.languageGroup, m, rfl⟩
    · rw [s2]
      exact .inr ⟨fun h => s1 h.displayStandard, m, rfl⟩
  · rw [d2]
    exact .inr ⟨fun h => d1 h.dfc, m, rfl⟩

private theorem read_total (file : Str) :
    ((∃ i < announced file, BadBlock (ttiBlock file i)) ∧ stlRead file = .error (.ub .nullDeref)) ∨
    (¬ Sound file ∧ ∃ m, stlRead file = .error (.stl m)) ∨
    (Sound file ∧ (∀ i < announced file, ¬ BadBlock (ttiBlock file i)) ∧ ∃ r, stlRead file = .ok r) := by
  unfold stlRead readBlock
  by_cases hl : 1024 ≤ file.length
  · rw [if_pos hl, ok_bind]
    simp only []
    rcases gsi_total file with ⟨h1, info, h2⟩ | ⟨h1, m, h2⟩
    · rw [h2, ok_bind, (parseGsi_ok h2).2.1]
      have e : ∀ i, ((file.drop 1024).drop (128 * i)).take 128 = ttiBlock file i := by intro i; rw [List.drop_drop]; rfl
      have hb := blocks_total info (announced file) {} (file.drop 1024)
      simp only [e] at hb
      have hlen : (128 * announced file ≤ (file.drop 1024).length) ↔ 1024 + 128 * announced file ≤ file.length := by rw [List.length_drop]; omega
      rw [hlen] at hb
      rcases hb with ⟨i, hi, k1, k2⟩ | ⟨k1, m, k2⟩ | ⟨⟨k1, k2⟩, k3, st, k4⟩
      · exact .inl ⟨⟨i, hi, k1⟩, by rw [k2]; rfl⟩
      · exact .inr (.inl ⟨fun h => k1 ⟨h.long, h.comments⟩, m, by rw [k2]; rfl⟩)
      · exact .inr (.inr ⟨⟨hl, h1, k1, k2⟩, k3, _, by rw [k4]; rfl⟩)
    · exact .inr (.inl ⟨fun h => h1 h.codes, m, by rw [h2]; rfl⟩)
  · rw [if_neg hl]
    exact .inr (.inl ⟨fun h => hl h.header, _, rfl⟩)

/-- C63: a file is read exactly if it has a whole header with known codes, all the blocks this announces, known
comment codes, and no text that sends the character decoder outside its table. -/
theorem C63_reads (file : Str) : (∃ r, stlRead file = .ok r) ↔ (Sound file ∧ ∀ i < announced file, ¬ BadBlock (ttiBlock file i)) := by
  constructor
  · rintro ⟨r, hr⟩
    rcases read_total file with ⟨_, h⟩ | ⟨_, m, h⟩ | ⟨h1, h2, _⟩
    · rw [hr] at h; cases h
    · rw [hr] at h; cases h
    · exact ⟨h1, h2⟩
  · rintro ⟨h1, h2⟩
    rcases read_total file with ⟨⟨i, hi, h⟩, _⟩ | ⟨h, _⟩ | ⟨_, _, h⟩
    · exact absurd h (h2 i hi)
    · exact absurd h1 h
    · exact h

/-- C63: a damaged file is refused with an `STLError`, and nothing else goes wrong: the only other outcome is
undefined behaviour caused by a text outside the decoder's table. -/
theorem C63_rejects (file : Str) (h : ¬ Sound file) (hb : ∀ i < announced file, ¬ BadBlock (ttiBlock file i)) : ∃ m, stlRead file = .error (.stl m) := by
  rcases read_total file with ⟨⟨i, hi, h⟩, _⟩ | ⟨_, h⟩ | ⟨h1, _⟩
  · exact absurd h (hb i hi)
  · exact h
  · exact absurd h1 h

/-- C63: what can go wrong. -/
theorem C63_errors (file : Str) (e : Err) (h : stlRead file = .error e) :
    (¬ Sound file ∧ ∃ m, e = .stl m) ∨ (e = .ub .nullDeref ∧ ∃ i < announced file, BadBlock (ttiBlock file i)) := by
  rcases read_total file with ⟨h1, h2⟩ | ⟨h1, m, h2⟩ | ⟨_, _, r, h2⟩
  · rw [h] at h2; cases h2; exact .inr ⟨rfl, h1⟩
  · rw [h] at h2; cases h2; exact .inl ⟨h1, m, rfl⟩
  · rw [h] at h2; cases h2

private theorem badAccent_byte {t : Str} (h : BadAccent t) : ∃ d ∈ t, d = 0xC9 ∨ d = 0xCC := by
  obtain ⟨a, d, u, b, rfl, _, hd, _⟩ := h
  exact ⟨d, by simp, hd⟩

private theorem splitAny_mem {p : Byte → Bool} (t : Str) : ∀ x ∈ splitAny p t, ∀ c ∈ x, c ∈ t := by
  induction t with
  | nil => simp [splitAny]
  | cons c cs ih =>
    intro x hx
    rw [splitAny] at hx
    split at hx
    · rcases List.mem_cons.1 hx with rfl | hx
      · simp
      · intro d hd; exact List.mem_cons_of_mem _ (ih x hx d hd)
    · split at hx
      · rename_i he; exact absurd he (splitAny_ne_nil _ _)
      · rename_i t0 ts he
        rw [he] at ih
        rcases List.mem_cons.1 hx with rfl | hx
        · intro d hd
          rcases List.mem_cons.1 hd with rfl | hd
          · simp
          · exact List.mem_cons_of_mem _ (ih t0 (by simp) d hd)
        · intro d hd; exact List.mem_cons_of_mem _ (ih x (List.mem_cons_of_mem _ hx) d hd)

/-- C63: text without the bytes C9 and CC is no trouble. -/
theorem C63_harmless (blk : Str) (h : ∀ c ∈ blockText blk, c ≠ 0xC9 ∧ c ≠ 0xCC) : ¬ BadBlock blk := by
  rintro ⟨_, t, ht, hb⟩
  obtain ⟨d, hd, hd'⟩ := badAccent_byte hb
  obtain ⟨l, hl, ht⟩ := List.mem_flatMap.1 ht
  have h1 := splitAny_mem _ t ht d hd
  have h2 := splitAny_mem _ l hl d ((List.takeWhile_sublist _).subset h1)
  rcases hd' with rfl | rfl
  · exact (h _ h2).1 rfl
  · exact (h _ h2).2 rfl

example : ¬ BadBlock (List.replicate 16 0 ++ b!"Hello" ++ List.replicate 107 0x8f) := C63_harmless _ (by decide +kernel)

/-- C63: what follows the announced blocks is ignored. -/
theorem C63_trailing (file extra : Str) (hl : 1024 ≤ file.length) (h : 1024 + 128 * announced file ≤ file.length) : stlRead (file ++ extra) = stlRead file := by
  unfold stlRead readBlock
  rw [if_pos (by rw [List.length_append]; omega), if_pos hl, ok_bind, ok_bind]
  simp only []
  rw [List.take_append_of_le_length hl, List.drop_append_of_le_length hl]
  cases hp : parseGsi (file.take 1024) with
  | error e => rfl
  | ok info =>
    rw [ok_bind, ok_bind, (parseGsi_ok hp).2.1]
    rw [stlBlocks_foldlM _ _ _ _ (by rw [List.length_append, List.length_drop]; omega), stlBlocks_foldlM _ _ _ _ (by rw [List.length_drop]; omega)]
    have e : (List.range (announced file)).map (fun i => ((file.drop 1024 ++ extra).drop (128 * i)).take 128) =
        (List.range (announced file)).map (fun i => ((file.drop 1024).drop (128 * i)).take 128) := by
      apply List.map_congr_left
      intro i hi
      have hi := List.mem_range.1 hi
      have hd : (file.drop 1024).length = file.length - 1024 := List.length_drop
      rw [List.drop_append_of_le_length (by omega), List.take_append_of_le_length (by rw [List.length_drop, hd]; omega)]
    rw [e]

example : Sound (stlFileDemo b!"00001" [stlBlockDemo 3 0 b!"world"]) := by
  refine ⟨by decide +kernel, ⟨by decide +kernel, by decide +kernel, by decide +kernel, ⟨.english, by decide +kernel⟩, by decide +kernel⟩, by decide +kernel, by decide +kernel⟩

/-- One byte too few. -/
example : ¬ Sound ((stlFileDemo b!"00001" [stlBlockDemo 3 0 b!"world"]).take 1151) := fun h => absurd h.long (by decide +kernel)

/-- C63: two bytes of text are enough to make the reader use a null iterator. -/
theorem C63_ub_witness : stlRead (stlFileDemo b!"00001" [stlBlockDemo 3 0 [0xC9, 65]]) = .error (.ub .nullDeref) := by decide +kernel

/-- A block of three rows: 8F cuts the first off, italic goes on to the second, red does not. -/
example : (stlRead (stlFileDemo b!"00001" [stlBlockDemo 3 0 (b!"a" ++ [0x80, 1] ++ b!"b" ++ [0x8f] ++ b!"c" ++ [0x8a] ++ b!"d" ++ [0x81, 0x8a] ++ b!"e")])).toOption.map
      (fun r => r.2.map (fun x => (x.text, x.vpos.line, x.italic, x.colour.g))) =
    some [(b!"a", some 3, false, 1), (b!"", some 3, true, 1), (b!"b", some 3, true, 0), (b!"d", some 4, true, 1), (b!"e", some 5, false, 1)] := by decide +kernel

end LibSub
