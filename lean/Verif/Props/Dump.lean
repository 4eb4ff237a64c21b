/-
Properties C73 (choice of reader), C74 (dump) and C77 (white space).
-/
import Verif.Model.Dump
import Verif.Lemmas.Text
import Verif.Lemmas.Time

namespace LibSub

/-! ### C77: white space -/

/-- `empty_or_white_space` holds exactly for strings of spaces, newlines and tabs. -/
theorem C77_white_space (s : Str) : emptyOrWhiteSpace s = true ↔ ∀ c ∈ s, c = 32 ∨ c = 10 ∨ c = 9 := by
  induction s with
  | nil => simp [emptyOrWhiteSpace]
  | cons c cs ih =>
    rw [emptyOrWhiteSpace]
    by_cases h : c = 32 ∨ c = 10 ∨ c = 9
    · have : (c != 32 && c != 10 && c != 9) = false := by rcases h with rfl | rfl | rfl <;> decide
      simp [this, ih, h]
    · have : (c != 32 && c != 10 && c != 9) = true := by
        simp only [not_or] at h; simp [h]
      simp [this, h]

example : emptyOrWhiteSpace b!" \t\n" = true ∧ emptyOrWhiteSpace b!" \r" = false := by decide

/-! ### C74: dump -/

/-- What a dumped line consists of. -/
inductive DTok where
  /-- `<i>`, `</i>`: true opens -/
  | i (opening : Bool)
  /-- `<u>`, `</u>` -/
  | u (opening : Bool)
  /-- text of a block -/
  | text (s : Str)

/-- How it is written. -/
def DTok.render : DTok → Str
  | .i true => b!"<i>"
  | .i false => b!"</i>"
  | .u true => b!"<u>"
  | .u false => b!"</u>"
  | .text s => s

/-- Reading the tokens of a line: an opening tag is only allowed when the style is off, a closing tag only when it is on, and at the end both
styles are off.  Gives the texts with the styles in force. -/
def readDump : Bool → Bool → List DTok → Option (List (Str × Bool × Bool))
  | i, u, [] => if i || u then none else some []
  | i, u, .i o :: ts => if o = i then none else readDump o u ts
  | i, u, .u o :: ts => if o = u then none else readDump i o ts
  | i, u, .text s :: ts => (readDump i u ts).map ((s, i, u) :: ·)

/-- The blocks of a line are dumped as tags and texts, in which `<i>` and `</i>` alternate, as do `<u>` and `</u>`, everything opened is closed,
and between the tags are the texts of the blocks in order, each in its own style. -/
theorem C74_balanced (bs : List Block) :
    ∃ ts : List DTok, dumpBlocks false false bs = (ts.map DTok.render).flatten ∧
      readDump false false ts = some (bs.map (fun b => (b.text, b.italic, b.underline))) := by
  suffices h : ∀ i u, ∃ ts : List DTok, dumpBlocks i u bs = (ts.map DTok.render).flatten ∧
      readDump i u ts = some (bs.map (fun b => (b.text, b.italic, b.underline))) from h false false
  induction bs with
  | nil =>
    intro i u
    refine ⟨(if i then [.i false] else []) ++ (if u then [.u false] else []), ?_, ?_⟩ <;> cases i <;> cases u <;> rfl
  | cons b bs ih =>
    intro i u
    obtain ⟨ts, h1, h2⟩ := ih b.italic b.underline
    refine ⟨(if b.italic = i then [] else [.i b.italic]) ++ (if b.underline = u then [] else [.u b.underline]) ++ .text b.text :: ts, ?_, ?_⟩
    · rw [dumpBlocks, h1]
      generalize b.italic = bi
      generalize b.underline = bu
      cases bi <;> cases bu <;> cases i <;> cases u <;> simp [DTok.render]
    · have : readDump b.italic b.underline (.text b.text :: ts) = some ((b :: bs).map (fun b => (b.text, b.italic, b.underline))) := by
        rw [readDump, h2]; rfl
      revert this
      generalize DTok.text b.text :: ts = rest
      generalize b.italic = bi
      generalize b.underline = bu
      intro this
      cases bi <;> cases bu <;> cases i <;> cases u <;> simpa [readDump] using this

/-- The tags need not nest. -/
theorem C74_nesting_witness :
    dumpBlocks false false [{ text := b!"a", italic := true }, { text := b!"b", italic := true, underline := true }, { text := b!"c", underline := true }]
      = b!"<i>a<u>b</i>c</u>" := by decide +kernel

/-- A dump is the metadata, then for each subtitle, numbered from 0, a heading with its times and then one line of text for each of its lines. -/
theorem C74_lines (showF : Rat → Str) (n : Nat) (subs : List Subtitle) (hf : ∀ x, (10 : Byte) ∉ showF x)
    (ht : ∀ s ∈ subs, ∀ l ∈ s.lines, ∀ b ∈ l.blocks, (10 : Byte) ∉ b.text) :
    (dumpSubs showF n subs).count 10 = (subs.map (fun s => 1 + s.lines.length)).sum := by
  have hnat : ∀ k : Nat, (natDec k).count 10 = 0 := by
    intro k
    rw [List.count_eq_zero]
    intro hm
    exact absurd (natDec_digits k 10 hm) (by decide)
  have hint : ∀ k : Int, (intDec k).count 10 = 0 := by
    intro k
    unfold intDec
    split
    · rw [List.count_cons, hnat]; decide
    · exact hnat _
  have hset : ∀ w, ∀ k : Int, (setwPad w k).count 10 = 0 := by
    intro w k
    unfold setwPad
    simp only [List.count_append, hint]
    rw [Nat.add_zero, List.count_eq_zero]
    intro hm
    exact absurd (List.mem_replicate.1 hm).2 (by decide)
  have htime : ∀ t : Time, (timeToStr t).count 10 = 0 := by
    intro t
    unfold timeToStr
    simp only [List.count_append, hset, hint]
    cases t.rate with
    | none => rfl
    | some r => simp only [List.count_append, hint]; rfl
  have hpos : ∀ v : VPos, (dumpPos showF v).count 10 = 0 := by
    intro v
    have key : ∀ a b : Str, a.count 10 = 0 → b.count 10 = 0 → (b!"\t" ++ a ++ b ++ b!"\t" : Str).count 10 = 0 := by
      intro a b h1 h2
      rw [List.count_append, List.count_append, List.count_append, h1, h2]
      rfl
    unfold dumpPos
    apply key
    · split
      · rw [List.count_append, List.count_eq_zero.2 (hf _)]; rfl
      · split
        · simp only [List.count_append, hint]; rfl
        · rfl
    · split
      · rename_i r _; cases r <;> rfl
      · rfl
  have hblocks : ∀ bs : List Block, (∀ b ∈ bs, (10 : Byte) ∉ b.text) → ∀ i u, (dumpBlocks i u bs).count 10 = 0 := by
    intro bs
    induction bs with
    | nil => intro _ i u; cases i <;> cases u <;> rfl
    | cons b bs ih =>
      intro hb i u
      rw [dumpBlocks]
      simp only [List.count_append, ih (fun b hm => hb b (by simp [hm])), List.count_eq_zero.2 (hb b (by simp))]
      generalize b.italic = bi
      generalize b.underline = bu
      cases i <;> cases u <;> cases bi <;> cases bu <;> rfl
  have hline : ∀ ls : List Line, (∀ l ∈ ls, ∀ b ∈ l.blocks, (10 : Byte) ∉ b.text) → ((ls.map (dumpLine showF)).flatten).count 10 = ls.length := by
    intro ls
    induction ls with
    | nil => intro _; rfl
    | cons l ls ih =>
      intro hl
      rw [List.map_cons, List.flatten_cons, List.count_append, ih (fun l hm => hl l (by simp [hm])), dumpLine, List.count_append, List.count_append,
        hpos, hblocks _ (hl l (by simp)), List.length_cons]
      have : (b!"\n" : Str).count 10 = 1 := by decide
      omega
  induction subs generalizing n with
  | nil => rfl
  | cons s subs ih =>
    rw [dumpSubs]
    simp only [List.count_append, hnat, htime, hline _ (ht s (by simp)), ih (n + 1) (fun s hm => ht s (by simp [hm])), List.map_cons, List.sum_cons]
    have h1 : (b!"Subtitle " : Str).count 10 = 0 := by decide
    have h2 : (b!" at " : Str).count 10 = 0 := by decide
    have h3 : (b!" -> " : Str).count 10 = 0 := by decide
    have h4 : (b!"\n" : Str).count 10 = 1 := by decide
    omega

example : dumpSubs (fun _ => b!"0.5") 0 [{ from_ := ⟨1, 0, some ⟨25, 1⟩⟩, to_ := ⟨2, 0, some ⟨25, 1⟩⟩, lines := [{ blocks := [{ text := b!"a", italic := true }], vpos := { line := some 3, lines := some 23 } }] }]
    = b!"Subtitle 0 at 00:00:01:0 @ 25/1 -> 00:00:02:0 @ 25/1\n\t3 lines of 23\t<i>a</i>\n" := by decide +kernel

/-! ### C73: choice of reader -/

private theorem takeWhile_rev_append (p : Byte → Bool) (a b : Str) (h : ∀ c ∈ b, p c = true) :
    ((a ++ b).reverse.takeWhile p).reverse = (a.reverse.takeWhile p).reverse ++ b := by
  rw [List.reverse_append, List.takeWhile_append_of_pos (by simpa using h)]
  simp

private theorem fileName_append (a b : Str) (h : (47 : Byte) ∉ b) : fileName (a ++ b) = fileName a ++ b := by
  unfold fileName
  apply takeWhile_rev_append
  intro c hc
  have : c ≠ 47 := by rintro rfl; exact h hc
  simpa using this

private theorem extension_append (pre e : Str) (h1 : (47 : Byte) ∉ e) (h2 : (46 : Byte) ∉ e) (h3 : e ≠ []) : extension (pre ++ 46 :: e) = 46 :: e := by
  have hf : fileName (pre ++ 46 :: e) = fileName pre ++ 46 :: e := by
    apply fileName_append
    simp [h1]
  unfold extension
  simp only [hf]
  have hlast : ∀ x : Str, fileName pre ++ 46 :: e ≠ x ++ [46] := by
    intro x hx
    have := congrArg List.getLast? hx
    rw [List.getLast?_append, List.getLast?_append, List.getLast?_cons] at this
    cases hl : e.getLast? with
    | none => exact h3 (List.getLast?_eq_none_iff.1 hl)
    | some c =>
      rw [hl] at this
      simp at this
      exact h2 (this ▸ List.mem_of_getLast? hl)
  rw [if_neg]
  · rw [if_pos (by simp)]
    congr 1
    have : (fileName pre ++ 46 :: e) = (fileName pre ++ [46]) ++ e := by simp
    rw [this, takeWhile_rev_append]
    · simp
    · intro c hc
      have : c ≠ 46 := by rintro rfl; exact h2 hc
      simpa using this
  · intro h
    rcases h with h | h
    · exact hlast [] h
    · exact hlast [46] h

theorem extension_cases (path : Str) : extension path = [] ∨ ∃ pre e, path = pre ++ 46 :: e ∧ extension path = 46 :: e := by
  unfold extension
  simp only
  split
  · left; rfl
  · split
    · rename_i h
      right
      have hp : ∃ d, path = d ++ fileName path := by
        refine ⟨(path.reverse.dropWhile (· != 47)).reverse, ?_⟩
        unfold fileName
        rw [← List.reverse_append, List.takeWhile_append_dropWhile, List.reverse_reverse]
      obtain ⟨d, hd⟩ := hp
      generalize fileName path = f at *
      have hf : ∃ g, f = g ++ 46 :: (f.reverse.takeWhile (· != 46)).reverse := by
        have hm : (46 : Byte) ∈ f.reverse := by simpa using h
        have hne : f.reverse.dropWhile (· != 46) ≠ [] := by
          intro he
          have := List.takeWhile_append_dropWhile (p := (· != (46 : Byte))) (l := f.reverse)
          rw [he, List.append_nil] at this
          rw [← this] at hm
          have := List.all_eq_true.1 (List.all_takeWhile (p := (· != (46 : Byte))) (l := f.reverse)) _ hm
          simp at this
        obtain ⟨x, xs, hx⟩ := List.exists_cons_of_ne_nil hne
        have hx46 : x = 46 := by
          have h1 := List.head?_dropWhile_not (p := (· != (46 : Byte))) f.reverse
          rw [hx] at h1
          simpa using h1
        refine ⟨xs.reverse, ?_⟩
        have := List.takeWhile_append_dropWhile (p := (· != (46 : Byte))) (l := f.reverse)
        rw [hx, hx46] at this
        have := congrArg List.reverse this
        simpa using this.symm
      obtain ⟨g, hg⟩ := hf
      refine ⟨d ++ g, _, ?_, rfl⟩
      rw [List.append_assoc, ← hg]
      exact hd
    · left; rfl

private theorem lower_plain (e w : Str) (h : toLower e = w) (c : Byte) (hc : lowerByte c = c) (hw : c ∉ w) : c ∉ e := by
  intro hm
  apply hw
  rw [← h, toLower, List.mem_map]
  exact ⟨c, hm, hc⟩

theorem ext_of (pre e w : Str) (h : toLower e = w) (h1 : (47 : Byte) ∉ w) (h2 : (46 : Byte) ∉ w) (h3 : w ≠ []) :
    toLower (extension (pre ++ 46 :: e)) = 46 :: w := by
  rw [extension_append pre e (lower_plain e w h 47 (by decide) h1) (lower_plain e w h 46 (by decide) h2)]
  · rw [← h]; rfl
  · rintro rfl; exact h3 h.symm

/-- A file whose name ends in `.srt`, in any case, is read as SubRip. -/
theorem C73_srt (pre e contents : Str) (h : toLower e = b!"srt") :
    readerFactory (pre ++ 46 :: e) (some contents) = (srtReadFile contents).map FactoryResult.subrip := by
  unfold readerFactory
  simp only [ext_of pre e _ h (by decide) (by decide) (by decide)]
  rw [if_neg (by decide), if_pos (by decide)]
  cases srtReadFile contents <;> rfl

example (contents : Str) : readerFactory b!"x.stl/a.SrT" (some contents) = (srtReadFile contents).map FactoryResult.subrip := C73_srt b!"x.stl/a" b!"SrT" contents (by decide)

/-- A file whose name ends in `.stl`, in any case, is read as binary STL exactly if it has at least 11 bytes of which 3 to 5 are "STL", otherwise as
STL text (which gives no subtitles if there are fewer than 11 bytes). -/
theorem C73_stl (pre e contents : Str) (h : toLower e = b!"stl") :
    readerFactory (pre ++ 46 :: e) (some contents) =
      if 11 ≤ contents.length ∧ contents[3]? = some 83 ∧ contents[4]? = some 84 ∧ contents[5]? = some 76 then
        (stlRead contents).map (fun r => FactoryResult.stlBinary r.1 r.2)
      else if 11 ≤ contents.length then (stlTextRead contents).map FactoryResult.stlText
      else .ok (.stlText []) := by
  unfold readerFactory
  simp only [ext_of pre e _ h (by decide) (by decide) (by decide)]
  rw [if_pos (by decide)]
  by_cases hl : 11 ≤ contents.length
  · have hm : (contents.drop 3).take 3 = b!"STL" ↔ contents[3]? = some 83 ∧ contents[4]? = some 84 ∧ contents[5]? = some 76 := by
      rcases contents with _ | ⟨a0, _ | ⟨a1, _ | ⟨a2, _ | ⟨a3, _ | ⟨a4, _ | ⟨a5, r⟩⟩⟩⟩⟩⟩ <;> simp at hl ⊢
    rw [if_pos hl]
    by_cases hs : (contents.drop 3).take 3 = b!"STL"
    · rw [if_pos hs, if_pos ⟨hl, hm.1 hs⟩]
      cases stlRead contents <;> rfl
    · rw [if_neg hs, if_neg (fun h => hs (hm.2 h.2)), if_pos hl]
      cases stlTextRead contents <;> rfl
  · simp [hl]

example : readerFactory b!"a.StL" (some b!"0:0:1:0 ,0:0:2:0,b\n") = (stlTextRead b!"0:0:1:0 ,0:0:2:0,b\n").map FactoryResult.stlText :=
  C73_stl b!"a" b!"StL" b!"0:0:1:0 ,0:0:2:0,b\n" (by decide)

/-- Any other name gives no reader. -/
theorem C73_other (path : Str) (contents : Option Str) (h : ∀ pre e, path = pre ++ 46 :: e → toLower e ≠ b!"stl" ∧ toLower e ≠ b!"srt") :
    readerFactory path contents = .ok .none := by
  unfold readerFactory
  rcases extension_cases path with he | ⟨pre, e, hp, he⟩
  · simp only [he]
    rw [if_neg (by decide), if_neg (by decide)]
  · obtain ⟨h1, h2⟩ := h pre e hp
    have e1 : toLower (46 :: e) = 46 :: toLower e := rfl
    simp only [he, e1]
    rw [if_neg (by simpa using h1), if_neg (by simpa using h2)]

/-- "x/a.SRT" and "x.srt/a", the latter with no reader. -/
example : toLower b!"SRT" = b!"srt" ∧ readerFactory b!"x/a.SRT" (some []) = .ok (.subrip []) ∧ readerFactory b!"x.srt/a" none = .ok .none := by decide +kernel

end LibSub
