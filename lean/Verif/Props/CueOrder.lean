/-
Property C141: the order of the subtitles in a file does not matter.
-/
import Verif.Props.Collect
import Verif.Props.Collectable
import Verif.Props.Incremental
import Verif.Props.SsaFile
import Verif.Props.StlExact
import Mathlib.Data.List.Perm.Basic

namespace LibSub

/-! ### Specification -/

/-- No subtitle of one part starts when one of another part starts. -/
def Apart (parts : List (List Raw)) : Prop := parts.Pairwise fun A B => ∀ a ∈ A, ∀ b ∈ B, a.from_.eq b.from_ = .ok false

/-- Two TTI blocks of a file with `rate` frames per second: one is a comment, or they start at different times. -/
def BlocksApart (rate : Int) (a b : Str) : Prop :=
  a[15]? = some 1 ∨ b[15]? = some 1 ∨ ∀ s t, TimeBytes rate ((a.drop 5).take 4) s → TimeBytes rate ((b.drop 5).take 4) t → s.eq t = .ok false

/-! ### Proofs -/

private theorem insert_swap (a b : Raw) (h : a.from_.keyLt b.from_) (l : List Raw) :
    insertRaw rawLe' a (insertRaw rawLe' b l) = insertRaw rawLe' b (insertRaw rawLe' a l) := by
  have hba : rawLe' b a = false := by simp [rawLe', h]
  have hab : rawLe' a b = true := by simp [rawLe', Time.keyLt_asymm h]
  induction l with
  | nil => simp [insertRaw, hab, hba]
  | cons c l ih =>
    by_cases h1 : rawLe' b c = true
    · have h2 : rawLe' a c = true := rawLe'_trans _ _ _ hab h1
      simp [insertRaw, h1, h2, hab, hba]
    · by_cases h2 : rawLe' a c = true
      · simp [insertRaw, h1, h2, hba]
      · simp [insertRaw, h1, h2, ih]

private theorem insert_comm {a b : Raw} (h : a.from_.keyLt b.from_ ∨ b.from_.keyLt a.from_) (l : List Raw) :
    insertRaw rawLe' a (insertRaw rawLe' b l) = insertRaw rawLe' b (insertRaw rawLe' a l) := by
  rcases h with h | h
  · exact insert_swap a b h l
  · exact (insert_swap b a h l).symm

private theorem sort_append (A B : List Raw) : sortRaws rawLe' (A ++ B) = A.foldr (insertRaw rawLe') (sortRaws rawLe' B) := by
  induction A with
  | nil => rfl
  | cons a A ih => rw [List.cons_append, sortRaws, ih]; rfl

private theorem insert_foldr {a : Raw} (B l : List Raw) (h : ∀ b ∈ B, a.from_.keyLt b.from_ ∨ b.from_.keyLt a.from_) :
    insertRaw rawLe' a (B.foldr (insertRaw rawLe') l) = B.foldr (insertRaw rawLe') (insertRaw rawLe' a l) := by
  induction B with
  | nil => rfl
  | cons b B ih =>
    rw [List.foldr_cons, insert_comm (h b List.mem_cons_self), ih fun c hc => h c (List.mem_cons_of_mem _ hc)]
    rfl

private theorem foldr_swap (A B l : List Raw) (h : ∀ a ∈ A, ∀ b ∈ B, a.from_.keyLt b.from_ ∨ b.from_.keyLt a.from_) :
    A.foldr (insertRaw rawLe') (B.foldr (insertRaw rawLe') l) = B.foldr (insertRaw rawLe') (A.foldr (insertRaw rawLe') l) := by
  induction A with
  | nil => rfl
  | cons a A ih =>
    rw [List.foldr_cons, ih fun c hc => h c (List.mem_cons_of_mem _ hc), insert_foldr _ _ (h a List.mem_cons_self)]
    rfl

/-- Start times that differ. -/
private def KeysApart (A B : List Raw) : Prop := ∀ a ∈ A, ∀ b ∈ B, a.from_.keyLt b.from_ ∨ b.from_.keyLt a.from_

private theorem KeysApart.symm {A B : List Raw} (h : KeysApart A B) : KeysApart B A := fun b hb a ha => (h a ha b hb).symm

private theorem sort_parts {parts parts' : List (List Raw)} (hp : parts.Perm parts') (h : parts.Pairwise KeysApart) :
    sortRaws rawLe' parts.flatten = sortRaws rawLe' parts'.flatten := by
  induction hp with
  | nil => rfl
  | cons A _ ih => rw [List.flatten_cons, List.flatten_cons, sort_append, sort_append, ih (List.pairwise_cons.1 h).2]
  | swap A B l =>
    rw [List.flatten_cons, List.flatten_cons, List.flatten_cons, List.flatten_cons, sort_append, sort_append, sort_append, sort_append]
    exact foldr_swap _ _ _ ((List.pairwise_cons.1 h).1 A List.mem_cons_self)
  | trans p1 _ ih1 ih2 => rw [ih1 h, ih2 (h.perm p1 KeysApart.symm)]

/-! ### C141 -/

/-- C141: parts of a list of raw subtitles that start at different times can be put in any order, after whatever else. -/
theorem C141_collect (pre : List Raw) (parts parts' : List (List Raw)) (out : List Subtitle) (hk : ∀ a ∈ pre ++ parts.flatten, ∀ b ∈ pre ++ parts.flatten, a.from_.SameKind b.from_)
    (hd : Apart parts) (hp : parts'.Perm parts) (h : collect (pre ++ parts.flatten) = .ok out) : collect (pre ++ parts'.flatten) = .ok out := by
  have hp' : (pre ++ parts'.flatten).Perm (pre ++ parts.flatten) := hp.flatten.append_left pre
  unfold collect collectWith at h ⊢
  simp only [bind_eq_ok] at h
  obtain ⟨sorted, hs, h⟩ := h
  obtain ⟨hc, rfl⟩ := stableSort_ok hs
  have hk' : ∀ a ∈ pre ++ parts'.flatten, ∀ b ∈ pre ++ parts'.flatten, a.from_.SameKind b.from_ :=
    fun a ha b hb => hk a (hp'.mem_iff.1 ha) b (hp'.mem_iff.1 hb)
  have hc' : PairsComparable (pre ++ parts'.flatten) := hc.perm hp'.symm
  have e : sortRaws rawLe (pre ++ parts'.flatten) = sortRaws rawLe (pre ++ parts.flatten) := by
    rw [sortRaws_rawLe hk hc, sortRaws_rawLe hk' hc', sort_append, sort_append, sort_parts hp.symm]
    refine List.Pairwise.imp_of_mem (fun {A B} hA hB hAB a ha b hb => ?_) hd
    have := eq_iff_key (hk a (List.mem_append_right _ (List.mem_flatten.2 ⟨A, hA, ha⟩)) b (List.mem_append_right _ (List.mem_flatten.2 ⟨B, hB, hb⟩))) (hAB a ha b hb)
    simp only [false_eq_decide_iff] at this
    by_contra hn
    exact this ⟨fun h => hn (.inl h), fun h => hn (.inr h)⟩
  rw [stableSort_of_comparable hc', ok_bind, e]
  simp only [bind_eq_ok]
  exact h

example : Apart [[exRaw b!"c" 5 0, exRaw b!"d" 5 1], [], [exRaw b!"a" 2 0, exRaw b!"b" 2 0]] := by unfold Apart; decide +kernel

private theorem ms_same {raws : List Raw} (h : ∀ r ∈ raws, r.InMs) : ∀ a ∈ raws, ∀ b ∈ raws, a.from_.SameKind b.from_ := by
  intro a ha b hb
  exact .inl ⟨⟨_, (h a ha).1, by decide⟩, ⟨_, (h b hb).1, by decide⟩⟩

private theorem collect_iff {pre : List Raw} {parts parts' : List (List Raw)} (hk : ∀ a ∈ pre ++ parts.flatten, ∀ b ∈ pre ++ parts.flatten, a.from_.SameKind b.from_)
    (hd : Apart parts) (hs : ∀ a ∈ parts.flatten, ∀ b ∈ parts.flatten, a.from_.eq b.from_ = b.from_.eq a.from_) (hp : parts'.Perm parts) (out : List Subtitle) :
    collect (pre ++ parts.flatten) = .ok out ↔ collect (pre ++ parts'.flatten) = .ok out := by
  refine ⟨C141_collect pre parts parts' out hk hd hp, fun h => ?_⟩
  have hp' : (pre ++ parts'.flatten).Perm (pre ++ parts.flatten) := hp.flatten.append_left pre
  refine C141_collect pre parts' parts out (fun a ha b hb => hk a (hp'.mem_iff.1 ha) b (hp'.mem_iff.1 hb)) ?_ hp.symm h
  have h2 : parts.Pairwise fun A B => (∀ a ∈ A, ∀ b ∈ B, a.from_.eq b.from_ = .ok false) ∧ ∀ b ∈ B, ∀ a ∈ A, b.from_.eq a.from_ = .ok false :=
    List.Pairwise.imp_of_mem (fun {A B} hA hB hAB => ⟨hAB, fun b hb a ha => by
      rw [← hs a (List.mem_flatten.2 ⟨A, hA, ha⟩) b (List.mem_flatten.2 ⟨B, hB, hb⟩)]; exact hAB a ha b hb⟩) hd
  exact (h2.perm hp.symm fun h => ⟨h.2, h.1⟩).imp fun h => h.1

private theorem same_symm {raws : List Raw} (hk : ∀ a ∈ raws, ∀ b ∈ raws, a.from_.SameKind b.from_) : ∀ a ∈ raws, ∀ b ∈ raws, a.from_.eq b.from_ = b.from_.eq a.from_ :=
  fun a ha b hb => (C02_gt_is_flipped_lt _ _ (hk a ha b hb)).2

/-- C141 for SubRip files: parts that end with a blank line can be put in any order, if subtitles of different parts start at different times. -/
theorem C141_subrip (fs fs' : List (Str × List Raw)) (h : ∀ f ∈ fs, srtReadString (f.1 ++ b!"\n\n") = .ok f.2) (hd : Apart (fs.map (·.2))) (hp : fs'.Perm fs) :
    ∃ x x', srtReadString (fs.map (fun f => f.1 ++ b!"\n\n")).flatten = .ok x ∧ srtReadString (fs'.map (fun f => f.1 ++ b!"\n\n")).flatten = .ok x' ∧
      ∀ out, collect x = .ok out ↔ collect x' = .ok out := by
  have h1 := C100_subrip_all fs h
  refine ⟨_, _, h1, C100_subrip_all fs' fun f hf => h f (hp.mem_iff.1 hf), fun out => ?_⟩
  have hk := ms_same (srt_inMs (show srtRead _ = _ from h1))
  exact collect_iff (pre := []) hk hd (same_symm hk) (hp.map _) out

private def cue1 : Str := b!"1\n00:00:05,000 --> 00:00:06,000\nfirst\n<i>second</i>"
private def cue2 : Str := b!"2\n00:00:01,500 --> 00:00:02,000\nearlier"

private theorem read_get {s : Str} {x : List Raw} (h : (srtReadString s).toOption = some x) : srtReadString s = .ok x := by
  cases e : srtReadString s with
  | error _ => rw [e] at h; cases h
  | ok y => rw [e] at h; cases h; rfl

-- two cues, the second of which is shown first
example : ∃ x x', srtReadString (cue1 ++ b!"\n\n" ++ cue2 ++ b!"\n\n") = .ok x ∧ srtReadString (cue2 ++ b!"\n\n" ++ cue1 ++ b!"\n\n") = .ok x' ∧ ∀ out, collect x = .ok out ↔ collect x' = .ok out := by
  have h1 : (srtReadString (cue1 ++ b!"\n\n")).toOption.isSome = true := by decide +kernel
  have h2 : (srtReadString (cue2 ++ b!"\n\n")).toOption.isSome = true := by decide +kernel
  have hd : Apart [((srtReadString (cue1 ++ b!"\n\n")).toOption.getD []), ((srtReadString (cue2 ++ b!"\n\n")).toOption.getD [])] := by unfold Apart; decide +kernel
  obtain ⟨p1, e1⟩ := Option.isSome_iff_exists.1 h1
  obtain ⟨p2, e2⟩ := Option.isSome_iff_exists.1 h2
  rw [e1, e2] at hd
  have := C141_subrip [(cue1, p1), (cue2, p2)] [(cue2, p2), (cue1, p1)] (by simp [read_get e1, read_get e2]) hd (.swap ..)
  simpa only [List.map_cons, List.map_nil, List.flatten_cons, List.flatten_nil, List.append_assoc, List.append_nil] using this

/-- Subtitles that start together are shown in the order of the file. -/
theorem C141_together_witness :
    ((srtReadString b!"1\n00:00:01,000 --> 00:00:02,000\na\n\n2\n00:00:01,000 --> 00:00:03,000\nb\n\n" >>= collect).toOption.map (·.map fun s => s.lines.map fun l => l.blocks.map (·.text))) =
      some [[[b!"a"]], [[b!"b"]]] ∧
    ((srtReadString b!"2\n00:00:01,000 --> 00:00:03,000\nb\n\n1\n00:00:01,000 --> 00:00:02,000\na\n\n" >>= collect).toOption.map (·.map fun s => s.lines.map fun l => l.blocks.map (·.text))) =
      some [[[b!"b"]], [[b!"a"]]] := by decide +kernel

/-- C141 for WebVTT files. -/
theorem C141_vtt (fs fs' : List (Str × List Raw)) (h : ∀ f ∈ fs, vttReadString (b!"WEBVTT\n" ++ f.1 ++ b!"\n\n") = .ok f.2) (hd : Apart (fs.map (·.2))) (hp : fs'.Perm fs) :
    ∃ x x', vttReadString (b!"WEBVTT\n" ++ (fs.map (fun f => f.1 ++ b!"\n\n")).flatten) = .ok x ∧ vttReadString (b!"WEBVTT\n" ++ (fs'.map (fun f => f.1 ++ b!"\n\n")).flatten) = .ok x' ∧
      ∀ out, collect x = .ok out ↔ collect x' = .ok out := by
  have all : ∀ fs : List (Str × List Raw), (∀ f ∈ fs, vttReadString (b!"WEBVTT\n" ++ f.1 ++ b!"\n\n") = .ok f.2) →
      vttReadString (b!"WEBVTT\n" ++ (fs.map (fun f => f.1 ++ b!"\n\n")).flatten) = .ok (fs.map (·.2)).flatten := by
    intro fs h
    induction fs with
    | nil => rfl
    | cons f fs ih =>
      have := ((C100_vtt (b!"WEBVTT\n" ++ f.1) (fs.map (fun f => f.1 ++ b!"\n\n")).flatten f.2 (f.2 ++ (fs.map (·.2)).flatten)).1 (h f List.mem_cons_self)).2
        ⟨_, ih fun g hg => h g (List.mem_cons_of_mem _ hg), rfl⟩
      rw [List.map_cons, List.map_cons, List.flatten_cons, List.flatten_cons, ← this]
      simp only [List.append_assoc]
  have h1 := all fs h
  refine ⟨_, _, h1, all fs' fun f hf => h f (hp.mem_iff.1 hf), fun out => ?_⟩
  have hk := ms_same (vtt_inMs (show vttRead _ = _ from h1))
  exact collect_iff (pre := []) hk hd (same_symm hk) (hp.map _) out

example : (vttReadString (b!"WEBVTT\n" ++ b!"\nx\n00:00:05.000 --> 00:00:06.000\nfirst\nsecond" ++ b!"\n\n")).toOption.map (·.map fun r => (r.from_.secs, r.text)) = some [(5, b!"first"), (5, b!"second")] ∧
    (vttReadString (b!"WEBVTT\n" ++ b!"00:00:01.000 --> 00:00:02.000\nearlier" ++ b!"\n\n")).toOption.map (·.map fun r => (r.from_.secs, r.text)) = some [(1, b!"earlier")] := by decide +kernel

private theorem pairwise_forall₂ {α β : Type} {R : α → α → Prop} {S : α → β → Prop} {T : β → β → Prop} (hT : ∀ a a' b b', R a a' → S a b → S a' b' → T b b') {as : List α} {bs : List β}
    (h : List.Forall₂ S as bs) (hp : as.Pairwise R) : bs.Pairwise T := by
  induction h with
  | nil => exact .nil
  | @cons a b as bs hab htl ih =>
    rw [List.pairwise_cons] at hp ⊢
    refine ⟨fun b' hb' => ?_, ih hp.2⟩
    obtain ⟨a', ha', hs⟩ : ∃ a' ∈ as, S a' b' := by
      clear ih hp
      induction htl with
      | nil => simp at hb'
      | cons h0 _ ih =>
        rcases List.mem_cons.1 hb' with rfl | hb'
        · exact ⟨_, List.mem_cons_self, h0⟩
        · obtain ⟨a', h1, h2⟩ := ih hb'
          exact ⟨a', List.mem_cons_of_mem _ h1, h2⟩
    exact hT _ _ _ _ (hp.1 a' ha') hab hs

/-- C141 for SSA files: the dialogue lines at the end of a file can be put in any order, if what different lines give starts at different times. -/
theorem C141_ssa (hs ds ds' : List Str) (hd : ∀ d ∈ ds, IsDialogue d) (subs : List Raw) (out : List Subtitle) (h : ssaReadLines (hs ++ ds) = .ok subs) (hc : collect subs = .ok out)
    (ha : ds.Pairwise fun d d' => ∀ old p p', ssaReadLines hs = .ok old → ssaReadLines (hs ++ [d]) = .ok (old ++ p) → ssaReadLines (hs ++ [d']) = .ok (old ++ p') →
      ∀ a ∈ p, ∀ b ∈ p', a.from_.eq b.from_ = .ok false) (hp : ds'.Perm ds) : ∃ subs', ssaReadLines (hs ++ ds') = .ok subs' ∧ collect subs' = .ok out := by
  obtain ⟨old, parts, h1, h2, rfl⟩ := (C87_dialogues hs ds hd subs).1 h
  obtain ⟨parts', h3, h4⟩ := List.perm_comp_forall₂ hp h2
  have hsub := (C87_dialogues hs ds' (fun d hm => hd d (hp.mem_iff.1 hm)) (old ++ parts'.flatten)).2 ⟨old, parts', h1, h3, rfl⟩
  refine ⟨_, hsub, C141_collect old parts parts' out ?_ ?_ h4 hc⟩
  · intro a hma b hmb
    have hms : ∀ r ∈ old ++ parts.flatten, SsaTimes r := by
      unfold ssaReadLines at h
      cases hr : ssaLines {} (hs ++ ds) with
      | error e => rw [hr] at h; cases h
      | ok r =>
        rw [hr] at h
        rw [← Except.ok.inj h]
        exact ssaLines_ok _ {} _ (by simp) hr
    have mixed : ∀ a ∈ old ++ parts.flatten, ∀ b ∈ old ++ parts.flatten, a.from_.rate = none → b.from_.rate = none := by
      intro a ha b hb hn
      by_contra hne
      obtain ⟨e, he⟩ := C16_mixed stableSort (fun l s h => by obtain ⟨_, rfl⟩ := stableSort_ok h; exact sortRaws_perm _ _) _ a b ha hb hn hne
      rw [collect] at hc
      rw [hc] at he
      cases he
    rcases (hms a hma).1 with e1 | e1 <;> rcases (hms b hmb).1 with e2 | e2
    · exact .inl ⟨⟨_, e1, by decide⟩, ⟨_, e2, by decide⟩⟩
    · have := mixed b hmb a hma (by rw [e2])
      rw [e1] at this; cases this
    · have := mixed a hma b hmb (by rw [e1])
      rw [e2] at this; cases this
    · exact .inr ⟨by rw [e1], by rw [e2]⟩
  · exact pairwise_forall₂ (fun d d' p p' hr h5 h6 => hr old p p' h1 h5 h6) h2 ha

-- three lines, each with a time of its own
example : let hs := [b!"[Events]", b!"Format: Start, End, Text"]
    let ds := [b!"Dialogue: 0:00:03.00,0:00:04.00,c\\Nd", b!"Dialogue: 0:00:01.00,0:00:02.00,a", b!"Dialogue: 0:00:02.00,0:00:03.00,b"]
    (∀ d ∈ ds, b!"Dialogue:" <+: ssaClean d) ∧ ((ssaReadLines (hs ++ ds) >>= collect).toOption.map (·.map fun s => s.lines.map fun l => l.blocks.map (·.text))) = some [[[b!"a"]], [[b!"b"]], [[b!"c"], [b!"d"]]] ∧
    Apart (ds.map fun d => (ssaReadLines (hs ++ [d])).toOption.getD []) := by
  refine ⟨by decide +kernel, by decide +kernel, ?_⟩
  unfold Apart
  decide +kernel

private theorem says_length {rate rows up : Int} {b : Str} {p : List Raw} (h : BlockSays rate rows up b p) : b.length = 128 := by
  cases h with
  | comment a t h1 h2 => simp [h1, h2]
  | shown a i o t row align f t' href ps subs h1 h2 h3 h4 _ _ _ => cases h3; cases h4; simp [h1, h2]

private theorem says_start {rate rows up : Int} {b : Str} {p : List Raw} (h : BlockSays rate rows up b p) (x : Raw) (hx : x ∈ p) :
    b[15]? = some 0 ∧ TimeBytes rate ((b.drop 5).take 4) x.from_ := by
  cases h with
  | comment a t h1 h2 => simp at hx
  | shown a i o t row align f t' href ps subs h1 h2 h3 h4 h5 h6 h7 =>
    have hf : x.from_ = f := by
      clear h1 h2 h3 h4 h5 h6
      induction h7 with
      | nil => simp at hx
      | cons h0 _ ih =>
        rcases List.mem_cons.1 hx with rfl | hx
        · obtain ⟨w, text, -, -, rfl⟩ := h0
          rfl
        · exact ih hx
    rw [hf]
    cases h4
    cases h3
    constructor
    · simp only [List.append_assoc]
      rw [List.getElem?_append_right (by omega), h1]
      rfl
    · simp only [List.append_assoc]
      rw [List.drop_append_of_le_length (by omega), List.drop_eq_nil_of_le (by omega)]
      exact .mk _ _ _ _

private theorem blocks_same : ∀ {bs bs' : List Str} {r r' : Str}, bs.length = bs'.length → (∀ b ∈ bs, b.length = 128) → (∀ b ∈ bs', b.length = 128) →
    bs.flatten ++ r = bs'.flatten ++ r' → bs = bs' ∧ r = r'
  | [], [], _, _, _, _, _, h => ⟨rfl, h⟩
  | b :: bs, b' :: bs', r, r', hl, h1, h2, h => by
    rw [List.flatten_cons, List.flatten_cons, List.append_assoc, List.append_assoc] at h
    obtain ⟨rfl, h'⟩ := List.append_inj h (by rw [h1 b List.mem_cons_self, h2 b' List.mem_cons_self])
    obtain ⟨rfl, rfl⟩ := blocks_same (by simpa using hl) (fun c hc => h1 c (List.mem_cons_of_mem _ hc)) (fun c hc => h2 c (List.mem_cons_of_mem _ hc)) h'
    exact ⟨rfl, rfl⟩
  | [], _ :: _, _, _, hl, _, _, _ => by simp at hl
  | _ :: _, [], _, _, hl, _, _, _ => by simp at hl

/-- C141 for binary STL files: the TTI blocks can be put in any order, if those that are no comments start at different times. -/
theorem C141_stl (g rest : Str) (blocks blocks' : List Str) (info : StlInfo) (subs : List Raw) (hg : g.length = 1024) (hb : ∀ b ∈ blocks, b.length = 128)
    (hn : blocks.length = info.ttiBlocks.toNat) (ha : blocks.Pairwise (BlocksApart info.frameRate)) (hp : blocks'.Perm blocks) (h : stlRead (g ++ blocks.flatten ++ rest) = .ok (info, subs)) :
    ∃ subs' out, stlRead (g ++ blocks'.flatten ++ rest) = .ok (info, subs') ∧ collect subs = .ok out ∧ collect subs' = .ok out := by
  obtain ⟨out, hc⟩ := C84_stl _ _ _ h
  have hf := (C120_exact _ _ _).1 h
  generalize hfile : g ++ blocks.flatten ++ rest = file at hf
  cases hf with
  | mk g0 rest0 bs info lowest up parts h1 h2 h3 h4 h5 h6 =>
    rw [List.append_assoc, List.append_assoc] at hfile
    obtain ⟨rfl, hfile'⟩ := List.append_inj hfile (by rw [hg, h1])
    have hlen : ∀ b ∈ bs, b.length = 128 := by
      clear h3 h4 hfile hfile' h hc
      induction h6 with
      | nil => simp
      | cons h0 _ ih => 
        intro b hm
        rcases List.mem_cons.1 hm with rfl | hm
        · exact says_length h0
        · exact ih b hm
    obtain ⟨rfl, rfl⟩ := blocks_same (hn.trans h3.symm) hb hlen hfile'
    obtain ⟨parts', h7, h8⟩ := List.perm_comp_forall₂ hp h6
    have hf' : StlFile (g ++ blocks'.flatten ++ rest) info parts'.flatten := .mk g rest blocks' info lowest up parts' h1 h2 (by rw [hp.length_eq, h3])
      (by simpa only [hp.mem_iff] using h4) h5 h7
    refine ⟨_, out, (C120_exact _ _ _).2 hf', hc, C141_collect [] parts parts' out ?_ ?_ h8 hc⟩
    · intro a hma b hmb
      obtain ⟨⟨_, _, _, e1⟩, _⟩ := stl_raws h a hma
      obtain ⟨⟨_, _, _, e2⟩, _⟩ := stl_raws h b hmb
      exact .inl ⟨⟨_, by rw [e1], by simp⟩, ⟨_, by rw [e2], by simp⟩⟩
    · refine pairwise_forall₂ (fun b b' p p' hr h9 h10 x hx y hy => ?_) h6 ha
      obtain ⟨c1, t1⟩ := says_start h9 x hx
      obtain ⟨c2, t2⟩ := says_start h10 y hy
      rcases hr with hr | hr | hr
      · rw [c1] at hr; cases hr
      · rw [c2] at hr; cases hr
      · exact hr _ _ t1 t2

-- a block that starts at 1 s, one that starts at 7 s, and a comment
example : let blocks := [stlBlockDemo 3 0 b!"a", stlBlockDemo 3 1 b!"note", [0, 0, 0, 255, 0, 0, 0, 7, 0, 0, 0, 9, 12, 4, 2, 0] ++ b!"b" ++ List.replicate 111 0x8f]
    blocks.Pairwise (BlocksApart 25) ∧ (∀ b ∈ blocks, b.length = 128) ∧ (stlRead (stlFileDemo b!"00003" blocks)).toOption.map (fun r => (r.1.ttiBlocks, r.1.frameRate, r.2.map (·.text))) = some (3, 25, [b!"a", b!"b"]) := by
  refine ⟨?_, by decide +kernel, by decide +kernel⟩
  simp only [List.pairwise_cons, List.mem_cons, List.not_mem_nil, or_false, forall_eq_or_imp, forall_eq, IsEmpty.forall_iff, implies_true, List.Pairwise.nil, and_true]
  refine ⟨⟨.inr (.inl (by decide)), .inr (.inr fun s t h1 h2 => ?_)⟩, .inl (by decide)⟩
  rw [show ((stlBlockDemo 3 0 b!"a").drop 5).take 4 = [0, 0, 1, 0] from by decide] at h1
  cases h1
  generalize hb : List.take 4 _ = bs at h2
  rw [← hb] at h2
  cases h2
  decide +kernel

end LibSub
