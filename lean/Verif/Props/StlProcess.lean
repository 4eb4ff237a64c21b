/-
Property C113: what a process has read and written before does not change what it reads and writes.
-/
import Verif.Model.StlProcess
import Verif.Props.Iso6937
import Verif.Props.StlReader
import Verif.Props.StlHeader

namespace LibSub

/-! ### Specification -/

/-- What comes of an action in a process that does nothing else (Model/StlReader.lean, Model/StlWriter.lean). -/
def StlAction.alone : StlAction → StlOutcome
  | .read file => .read (stlRead file)
  | .write l a => .wrote (writeStlIn l a)

/-- No text to be written has a NUL byte. -/
def StlAction.NoNul : StlAction → Prop
  | .read _ => True
  | .write _ a => ∀ s ∈ a.subtitles, ∀ l ∈ s.lines, ∀ b ∈ l.blocks, (0 : Byte) ∉ b.text

/-- The outcomes up to the first undefined behaviour. -/
def upToUndefined : List StlOutcome → List StlOutcome
  | [] => []
  | o :: os => o :: if o.undefined then [] else upToUndefined os

/-! ### Proofs: U+0000 -/

private theorem go_nul (s : Str) : ∀ p : Option Utf8Pending, (∀ q, p = some q → 1 ≤ q.total) → (0 : WChar) ∈ utf8DecodeGo p s → (0 : Byte) ∈ s := by
  induction s with
  | nil => intro p _ h; rw [utf8DecodeGo] at h; cases h
  | cons c cs ih =>
    intro p hp h
    have rest : ∀ q : Option Utf8Pending, (∀ r, q = some r → 1 ≤ r.total) → (0 : WChar) ∈ utf8DecodeGo q cs → (0 : Byte) ∈ c :: cs := fun q hq h => List.mem_cons_of_mem _ (ih q hq h)
    cases p with
    | none =>
      rw [utf8DecodeGo] at h
      split at h
      · exact rest none (by simp) h
      · rcases List.mem_cons.1 h with h | h
        · have : c = 0 := by
            apply UInt8.toNat_inj.1
            exact h.symm
          simp [this]
        · exact rest none (by simp) h
      · rename_i n hn _
        exact rest _ (by rintro r ⟨⟩; exact Nat.one_le_iff_ne_zero.2 (by simpa using hn)) h
    | some q =>
      rw [utf8DecodeGo] at h
      split at h
      · simp only at h
        split at h
        · split at h
          · rename_i hv
            rcases List.mem_cons.1 h with h | h
            · exfalso
              rw [← h] at hv
              have h1 := hp q rfl
              simp only [Bool.and_eq_true, beq_iff_eq] at hv
              have : utf8Width 0 = 1 := by decide
              omega
            · exact rest none (by simp) h
          · exact rest none (by simp) h
        · exact rest _ (by rintro r ⟨⟩; exact hp q rfl) h
      · exact rest none (by simp) h

theorem utf8Decode_nul {s : Str} (h : (0 : Byte) ∉ s) : (0 : WChar) ∉ utf8Decode s := fun hm => h (go_nul s none (by simp) hm)

/-! ### Proofs: programs -/

/-- The outcome if each call is as in a fresh process. -/
def IsoProg.alone {α : Type} : IsoProg α → R α
  | .done r => r
  | .decode s k => isoDecode s >>= fun w => (k w).alone
  | .encode w k => isoEncode w >>= fun o => (k o).alone

/-- The program encodes nothing with U+0000. -/
def IsoProg.NoNul {α : Type} : IsoProg α → Prop
  | .done _ => True
  | .decode _ k => ∀ w, (k w).NoNul
  | .encode w k => 0 ∉ w ∧ ∀ o, (k o).NoNul

theorem alone_bind {α β : Type} (p : IsoProg α) (f : α → IsoProg β) : (p >>= f).alone = p.alone >>= fun a => (f a).alone := by
  show (p.bind f).alone = _
  induction p with
  | done r =>
    cases r with
    | ok a => rfl
    | error e => rfl
  | decode s k ih =>
    simp only [IsoProg.bind, IsoProg.alone]
    rw [bind_assoc]
    congr 1
    funext w
    exact ih w
  | encode w k ih =>
    simp only [IsoProg.bind, IsoProg.alone]
    rw [bind_assoc]
    congr 1
    funext o
    exact ih o

theorem noNul_bind {α β : Type} (p : IsoProg α) (f : α → IsoProg β) (hp : p.NoNul) (hf : ∀ a, (f a).NoNul) : (p >>= f).NoNul := by
  show (p.bind f).NoNul
  induction p with
  | done r =>
    cases r with
    | ok a => exact hf a
    | error e => trivial
  | decode s k ih => exact fun w => ih w (hp w)
  | encode w k ih => exact ⟨hp.1, fun o => ih o (hp.2 o)⟩

theorem alone_pure {α : Type} (a : α) : (pure a : IsoProg α).alone = .ok a := rfl
theorem alone_lift {α : Type} (r : R α) : (liftM r : IsoProg α).alone = r := rfl
theorem noNul_pure {α : Type} (a : α) : (pure a : IsoProg α).NoNul := trivial
theorem noNul_lift {α : Type} (r : R α) : (liftM r : IsoProg α).NoNul := trivial

theorem alone_decode (s : Str) : (callDecode s).alone = isoDecode s := by
  show (isoDecode s >>= fun w => .ok w) = _
  cases isoDecode s <;> rfl

theorem alone_encode (w : List WChar) : (callEncode w).alone = isoEncode w := by
  show (isoEncode w >>= fun w => .ok w) = _
  cases isoEncode w <;> rfl

/-- A program gives the same on any tables that conversions leave, and leaves such tables. -/
theorem run_alone {α : Type} (p : IsoProg α) : ∀ t, IsoReach t → p.NoNul → (p.run t).2 = p.alone ∧ IsoReach (p.run t).1 := by
  induction p with
  | done r => intro t ht _; exact ⟨rfl, ht⟩
  | decode s k ih =>
    intro t ht hn
    rw [IsoProg.run, IsoProg.alone, ← C54_decode ht]
    cases h : isoDecodeSt t s with
    | error e => exact ⟨rfl, ht⟩
    | ok r =>
      obtain ⟨t', w⟩ := r
      exact ih w t' (.decode ht h) (hn w)
  | encode w k ih =>
    intro t ht hn
    rw [IsoProg.run, IsoProg.alone, ← C54_encode ht hn.1]
    cases h : isoEncodeSt t w with
    | error e => exact ⟨rfl, ht⟩
    | ok r =>
      obtain ⟨t', o⟩ := r
      exact ih o t' (.encode ht h) (hn.2 o)

/-! ### Proofs: the reader -/

theorem push_alone (s : StlChars) : s.pushP.alone = s.push := by
  unfold StlChars.pushP StlChars.push
  rw [alone_bind, alone_decode]
  rfl

theorem chars_alone (cs : Str) : ∀ s, (stlCharsP s cs).alone = stlChars s cs := by
  induction cs with
  | nil =>
    intro s
    rw [stlCharsP, stlChars]
    split
    · rfl
    · exact push_alone s
  | cons c cs ih =>
    intro s
    rw [stlCharsP, stlChars]
    split
    · split
      · rfl
      · exact push_alone s
    · split
      · rw [alone_bind, push_alone]
        congr 1
        funext s'
        exact ih _
      · exact ih _

theorem lines_alone (info : StlInfo) (blk : Str) (ls : List Str) : ∀ italic underline st j, (stlLinesP info blk italic underline st j ls).alone = stlLines info blk italic underline st j ls := by
  induction ls with
  | nil => intros; rfl
  | cons l ls ih =>
    intro italic underline st j
    rw [stlLinesP, stlLines]
    simp only [alone_bind, alone_lift, chars_alone, ih]

theorem block_alone (info : StlInfo) (st : StlBlocks) (blk : Str) : (stlBlockP info st blk).alone = stlBlock info st blk := by
  unfold stlBlockP stlBlock
  rw [alone_bind, alone_lift]
  congr 1
  funext c
  split
  · rfl
  · exact lines_alone _ _ _ _ _ _ _

theorem blocks_alone (info : StlInfo) (n : Nat) : ∀ st file, (stlBlocksP info st file n).alone = stlBlocks info st file n := by
  induction n with
  | zero => intros; rfl
  | succ n ih =>
    intro st file
    rw [stlBlocksP, stlBlocks]
    simp only [alone_bind, alone_lift, block_alone, ih]

theorem read_alone (file : Str) : (stlReadP file).alone = stlRead file := by
  unfold stlReadP stlRead
  simp only [alone_bind, alone_lift, blocks_alone]
  rfl

theorem push_noNul (s : StlChars) : s.pushP.NoNul := fun _ => trivial

theorem chars_noNul (cs : Str) : ∀ s, (stlCharsP s cs).NoNul := by
  induction cs with
  | nil =>
    intro s
    rw [stlCharsP]
    split
    · trivial
    · exact push_noNul s
  | cons c cs ih =>
    intro s
    rw [stlCharsP]
    split
    · split
      · trivial
      · exact push_noNul s
    · split
      · exact noNul_bind _ _ (push_noNul s) (fun _ => ih _)
      · exact ih _

theorem lines_noNul (info : StlInfo) (blk : Str) (ls : List Str) : ∀ italic underline st j, (stlLinesP info blk italic underline st j ls).NoNul := by
  induction ls with
  | nil => intros; trivial
  | cons l ls ih =>
    intro italic underline st j
    rw [stlLinesP]
    exact noNul_bind _ _ trivial (fun _ => noNul_bind _ _ trivial (fun _ => noNul_bind _ _ (chars_noNul _ _) (fun _ => ih _ _ _ _)))

theorem blocks_noNul (info : StlInfo) (n : Nat) : ∀ st file, (stlBlocksP info st file n).NoNul := by
  induction n with
  | zero => intros; trivial
  | succ n ih =>
    intro st file
    rw [stlBlocksP]
    refine noNul_bind _ _ trivial (fun b => noNul_bind _ _ ?_ (fun _ => ih _ _))
    unfold stlBlockP
    refine noNul_bind _ _ trivial (fun c => ?_)
    split
    · trivial
    · exact lines_noNul _ _ _ _ _ _ _

theorem read_noNul (file : Str) : (stlReadP file).NoNul := by
  unfold stlReadP
  exact noNul_bind _ _ trivial (fun _ => noNul_bind _ _ trivial (fun _ => noNul_bind _ _ (blocks_noNul _ _ _ _) (fun _ => trivial)))

/-! ### Proofs: the writer -/

theorem wblocks_alone (ks : List Block) : ∀ st, (writerBlocksP st ks).alone = writerBlocks st ks := by
  induction ks with
  | nil => intro; rfl
  | cons k ks ih =>
    intro st
    rw [writerBlocksP, writerBlocks]
    simp only [alone_bind, alone_encode, ih]
    rfl

theorem wlines_alone (js : List (Line × Int)) : ∀ st last, (writerLinesP st last js).alone = writerLines st last js := by
  induction js with
  | nil => intros; rfl
  | cons j js ih =>
    intro st last
    obtain ⟨j, vp⟩ := j
    rw [writerLinesP, writerLines]
    simp only [alone_bind, wblocks_alone, ih]
    rfl

theorem wtext_alone (js : List (Line × Int)) : (writerTextP js).alone = writerText js := by
  unfold writerTextP writerText
  rw [alone_bind, wlines_alone]
  rfl

theorem tti_alone (fps : Rat) (i : Subtitle) : (ttiBlocksP fps i).alone = ttiBlocks fps i := by
  unfold ttiBlocksP ttiBlocks
  simp only [alone_bind, alone_lift, wtext_alone]
  congr 1; funext vps
  congr 1; funext text
  congr 1; funext cum
  congr 1; funext rn
  congr 1; funext ff
  congr 1; funext tf
  congr 1; funext top
  cases i.lines with
  | nil => rfl
  | cons first tail =>
    simp only [alone_bind, alone_lift]
    rfl

theorem makeTti_alone (fps : Rat) (ss : List Subtitle) : (makeTtiBlocksP fps ss).alone = makeTtiBlocks fps ss := by
  induction ss with
  | nil => rfl
  | cons s ss ih =>
    rw [makeTtiBlocksP, makeTtiBlocks]
    simp only [alone_bind, tti_alone, ih]
    rfl

theorem write_alone (l : Locale) (a : StlArgs) : (writeStlP l a).alone = writeStlIn l a := by
  unfold writeStlP writeStlIn
  simp only [alone_bind, alone_lift, makeTti_alone]
  rfl

theorem wblocks_noNul (ks : List Block) (h : ∀ b ∈ ks, (0 : Byte) ∉ b.text) : ∀ st, (writerBlocksP st ks).NoNul := by
  induction ks with
  | nil => intro; trivial
  | cons k ks ih =>
    intro st
    rw [writerBlocksP]
    exact noNul_bind _ _ ⟨utf8Decode_nul (h k (by simp)), fun _ => trivial⟩ (fun _ => noNul_bind _ _ (ih (fun b hb => h b (by simp [hb])) _) (fun _ => trivial))

theorem wlines_noNul (js : List (Line × Int)) (h : ∀ j ∈ js, ∀ b ∈ j.1.blocks, (0 : Byte) ∉ b.text) : ∀ st last, (writerLinesP st last js).NoNul := by
  induction js with
  | nil => intros; trivial
  | cons j js ih =>
    intro st last
    have hj := h j (by simp)
    obtain ⟨j, vp⟩ := j
    rw [writerLinesP]
    exact noNul_bind _ _ (wblocks_noNul _ hj _) (fun _ => noNul_bind _ _ (ih (fun j hj => h j (by simp [hj])) _ _) (fun _ => trivial))

theorem tti_noNul (fps : Rat) (i : Subtitle) (h : ∀ l ∈ i.lines, ∀ b ∈ l.blocks, (0 : Byte) ∉ b.text) : (ttiBlocksP fps i).NoNul := by
  unfold ttiBlocksP
  refine noNul_bind _ _ trivial (fun vps => noNul_bind _ _ ?_ (fun text => ?_))
  · unfold writerTextP
    refine noNul_bind _ _ (wlines_noNul _ ?_ _ _) (fun _ => trivial)
    intro j hj
    exact h j.1 (List.of_mem_zip (a := j.1) (b := j.2) hj).1
  · refine noNul_bind _ _ trivial (fun _ => noNul_bind _ _ trivial (fun _ => noNul_bind _ _ trivial (fun _ => noNul_bind _ _ trivial (fun _ => noNul_bind _ _ trivial (fun _ => ?_)))))
    split
    · trivial
    · exact noNul_bind _ _ trivial (fun _ => noNul_bind _ _ trivial (fun _ => trivial))

theorem write_noNul (l : Locale) (a : StlArgs) (h : (StlAction.write l a).NoNul) : (writeStlP l a).NoNul := by
  unfold writeStlP
  generalize a.check = c
  refine noNul_bind _ _ (noNul_lift _) (fun _ => noNul_bind _ _ ?_ (fun tti => ?_))
  case refine_2 =>
    generalize stlGsi l a tti.length = g
    exact noNul_bind _ _ (noNul_lift _) (fun _ => noNul_pure _)
  have h : ∀ s ∈ a.subtitles, ∀ l ∈ s.lines, ∀ b ∈ l.blocks, (0 : Byte) ∉ b.text := h
  generalize a.subtitles = ss at h
  induction ss with
  | nil => trivial
  | cons s ss ih =>
    rw [makeTtiBlocksP]
    exact noNul_bind _ _ (tti_noNul _ s (h s (by simp))) (fun _ => noNul_bind _ _ (ih (fun s hs => h s (by simp [hs]))) (fun _ => trivial))

/-! ### C113 -/

/-- C113: reading or writing a binary STL file gives the same on any tables that conversions leave behind as in a fresh process, if no text to be written has a NUL byte. -/
theorem C113_action (t : IsoTables) (ht : IsoReach t) (a : StlAction) (hn : a.NoNul) : (a.run t).2 = a.alone ∧ IsoReach (a.run t).1 := by
  cases a with
  | read file =>
    obtain ⟨h1, h2⟩ := run_alone _ t ht (read_noNul file)
    rw [read_alone] at h1
    exact ⟨congrArg StlOutcome.read h1, h2⟩
  | write l a =>
    obtain ⟨h1, h2⟩ := run_alone _ t ht (write_noNul l a hn)
    rw [write_alone] at h1
    exact ⟨congrArg StlOutcome.wrote h1, h2⟩

/-- C113: so in a process that reads and writes any number of binary STL files, in any order, each comes out as if it were the only one (up to undefined behaviour, if there is any). -/
theorem C113_process (as : List StlAction) (hn : ∀ a ∈ as, a.NoNul) : stlProcess {} as = upToUndefined (as.map StlAction.alone) := by
  have key : ∀ as : List StlAction, (∀ a ∈ as, a.NoNul) → ∀ t, IsoReach t → stlProcess t as = upToUndefined (as.map StlAction.alone) := by
    intro as
    induction as with
    | nil => intros; rfl
    | cons a as ih =>
      intro hn t ht
      obtain ⟨h1, h2⟩ := C113_action t ht a (hn a (by simp))
      rw [stlProcess, List.map_cons, upToUndefined, ← h1]
      rw [ih (fun a ha => hn a (by simp [ha])) _ h2]
  exact key as hn {} .start

private def clean : Str := stlFileDemo b!"00001" [stlBlockDemo 3 0 b!"world"]

/-- A file with a no-break space. -/
private def odd : Str := stlFileDemo b!"00001" [stlBlockDemo 3 0 [65, 0xA0, 66]]

private def withText (s : Str) : StlArgs := { stlDemo with subtitles := [{ from_ := ⟨3, 12, some ⟨25, 1⟩⟩, to_ := ⟨5, 0, some ⟨25, 1⟩⟩, lines := [{ vpos := { prop := some (f32 (9 / 10)), ref := some .topOfScreen }, blocks := [{ text := s }] }] }] }

example : StlAction.NoNul (.read odd) ∧ StlAction.NoNul (.write Locale.c stlDemo) ∧ StlAction.NoNul (.write Locale.c (withText b!"caf\u00e9 \u266a")) := by
  refine ⟨trivial, ?_, ?_⟩ <;> (show ∀ s ∈ _, _) <;> decide +kernel

example : IsoReach (StlAction.run {} (.read odd)).1 := (C113_action {} .start (.read odd) trivial).2

/-- The text of what was written. -/
private def StlOutcome.writtenText : StlOutcome → Option Str
  | .wrote (.ok s) => some ((s.drop 1040).takeWhile (· != 0x8f))
  | _ => none

/-- Three actions, the middle one reading a file that makes the reader use a null iterator: the third does not happen. -/
example : (stlProcess {} [.write Locale.c (withText b!"caf\u00e9"), .read (stlFileDemo b!"00001" [stlBlockDemo 3 0 [0xC9, 65]]), .read clean]).map StlOutcome.undefined = [false, true] := by decide +kernel

/-- C113: with a NUL byte it is otherwise: `A\\0B` is written as `AB` by a fresh process, but with a no-break space between the two by one that has read a file with such a byte. -/
theorem C113_nul_witness : (stlProcess {} [.write Locale.c (withText [65, 0, 66])]).map StlOutcome.writtenText = [some [65, 66]] ∧
    (stlProcess {} [.read odd, .write Locale.c (withText [65, 0, 66])]).map StlOutcome.writtenText = [none, some [65, 0xA0, 66]] := by decide +kernel

end LibSub
