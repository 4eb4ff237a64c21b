/-
Property C142: choosing subtitles by when they start, before or after `collect`.
-/
import Verif.Props.CollectExact
import Verif.Props.Collectable
import Verif.Props.Incremental

namespace LibSub

/-! ### Specification -/

/-- The answers of `p` for the start times of the raw subtitles depend on the times alone: equal times have the same answer. -/
def OfTime (p : Time → Bool) (raws : List Raw) : Prop := ∀ a ∈ raws, ∀ b ∈ raws, a.from_.eq b.from_ = .ok true → p a.from_ = p b.from_

/-- Every raw subtitle of `A` starts before every one of `B`. -/
def AllBefore (A B : List Raw) : Prop := ∀ a ∈ A, ∀ b ∈ B, a.from_.lt b.from_ = .ok true

/-! ### Proofs -/

private theorem eq_key {a b : Time} (hk : a.SameKind b) (h : a.eq b = .ok true) : ¬ a.keyLt b ∧ ¬ b.keyLt a := by
  have := eq_iff_key hk h
  simpa using this

private theorem subs_filter {p : Time → Bool} {rs : List Raw} {ss : List Subtitle} (hs : SubtitlesFor rs ss) : (∀ a ∈ rs, ∀ b ∈ rs, a.from_.SameKind b.from_) →
    (∀ a ∈ rs, ∀ b ∈ rs, ∃ x, a.from_.eq b.from_ = .ok x) → OfTime p rs → rs.Pairwise (fun a b => b.from_.lt a.from_ = .ok false) →
    SubtitlesFor (rs.filter fun r => p r.from_) (ss.filter fun s => p s.from_) := by
  induction hs with
  | none => intro _ _ _ _; exact .none
  | subtitle r more rest ls ss h1 h2 h3 h4 ih =>
    intro hk hc hp ho
    have mr : ∀ x ∈ rest, x ∈ r :: more ++ rest := fun x hx => List.mem_append_right _ hx
    have ih' := ih (fun a ha b hb => hk a (mr a ha) b (mr b hb)) (fun a ha b hb => hc a (mr a ha) b (mr b hb)) (fun a ha b hb => hp a (mr a ha) b (mr b hb))
      (List.pairwise_append.1 ho).2.1
    have hr : r ∈ r :: more ++ rest := by simp
    have hm : ∀ x ∈ more, p x.from_ = p r.from_ := fun x hx => (hp r hr x (by simp [hx]) (h1 x hx).1).symm
    rw [List.filter_append, List.filter_cons]
    cases hpr : p r.from_ with
    | true =>
      rw [List.filter_cons_of_pos (by simpa using hpr), List.filter_eq_self.2 fun x hx => by rw [hm x hx, hpr]]
      refine .subtitle r more _ ls _ h1 ?_ h3 ih'
      intro y hy hst
      cases hrest : rest with
      | nil => rw [hrest] at hy; cases hy
      | cons z zs =>
        have hz : z ∈ rest := by rw [hrest]; simp
        have hyr : y ∈ rest := (List.mem_filter.1 (List.mem_of_mem_head? hy)).1
        have hnz := h2 z (by rw [hrest]; rfl)
        by_cases hpz : p z.from_ = true
        · rw [hrest, List.filter_cons_of_pos (by simpa using hpz)] at hy
          rw [show z = y from Option.some.inj hy] at hnz
          exact hnz hst
        · have k1 := eq_key (hk r hr y (mr y hyr)) hst.1
          have o1 := lt_eq_key (hk z (mr z hz) r hr) ((List.pairwise_append.1 ho).2.2 r (by simp) z hz)
          simp only [false_eq_decide_iff] at o1
          have o2 : ¬ y.from_.keyLt z.from_ := by
            have hrp := (List.pairwise_append.1 ho).2.1
            rw [hrest] at hrp hyr
            rcases List.mem_cons.1 hyr with rfl | hyz
            · exact Time.keyLt_irrefl _
            · have := lt_eq_key (hk y (mr y (by rw [hrest]; simp [hyz])) z (mr z hz)) ((List.pairwise_cons.1 hrp).1 y hyz)
              simpa only [false_eq_decide_iff] using this
          obtain ⟨x, hx⟩ := hc r hr z (mr z hz)
          have k2 := eq_iff_key (hk r hr z (mr z hz)) hx
          have k3 : ¬ r.from_.keyLt z.from_ := Time.not_keyLt_trans o2 k1.1
          rw [k2, decide_eq_true ⟨k3, o1⟩] at hx
          have := hp r hr z (mr z hz) hx
          rw [hpr] at this
          exact hpz this.symm
    | false =>
      rw [List.filter_cons_of_neg (by simpa using hpr), List.filter_eq_nil_iff.2 fun x hx => by rw [hm x hx, hpr]; simp]
      simpa using ih'

/-! ### C142 -/

/-- C142: `collect` of the raw subtitles chosen by when they start gives the subtitles chosen by when they start. -/
theorem C142_select (p : Time → Bool) (raws : List Raw) (out : List Subtitle) (hk : ∀ a ∈ raws, ∀ b ∈ raws, a.from_.SameKind b.from_) (hc : TimesCompare raws) (hp : OfTime p raws)
    (h : collect raws = .ok out) : collect (raws.filter fun r => p r.from_) = .ok (out.filter fun s => p s.from_) := by
  obtain ⟨sorted, h1, h2⟩ := C121_sound raws out hk h
  have hm : ∀ a ∈ raws.filter (fun r => p r.from_), a ∈ raws := fun a ha => (List.mem_filter.1 ha).1
  refine (C121_exact _ _ (fun a ha b hb => hk a (hm a ha) b (hm b hb)) (fun a ha b hb => hc a (hm a ha) b (hm b hb))).2 ⟨sorted.filter fun r => p r.from_, ⟨h1.perm.filter _, h1.ordered.filter _, ?_⟩, ?_⟩
  · intro x hx
    rw [List.filter_filter, List.filter_filter, List.filter_congr (fun _ _ => Bool.and_comm _ _), ← List.filter_filter, h1.stable x (hm x hx), List.filter_filter]
    exact List.filter_congr fun _ _ => Bool.and_comm _ _
  · have hms : ∀ a ∈ sorted, a ∈ raws := fun a ha => h1.perm.mem_iff.1 ha
    exact subs_filter h2 (fun a ha b hb => hk a (hms a ha) b (hms b hb)) (fun a ha b hb => hc a (hms a ha) b (hms b hb) _ (by simp [Raw.times]) _ (by simp [Raw.times]))
      (fun a ha b hb => hp a (hms a ha) b (hms b hb)) h1.ordered

private def ex3 : List Raw := [exRaw b!"c" 5 0, exRaw b!"a" 2 0, exRaw b!"b" 2 0, exRaw b!"d" 2 1]

private theorem ex3_kind : ∀ a ∈ ex3, ∀ b ∈ ex3, a.from_.SameKind b.from_ := by
  have h : ∀ a ∈ ex3, a.from_.rate = some ⟨25, 1⟩ := by decide
  exact fun a ha b hb => .inl ⟨⟨_, h a ha, by decide⟩, ⟨_, h b hb, by decide⟩⟩

private theorem ex3_compare : TimesCompare ex3 := by
  have h : ∀ a ∈ ex3, ∀ b ∈ ex3, ∀ t ∈ a.times, ∀ u ∈ b.times, (t.eq u).toOption.isSome = true := by decide +kernel
  intro a ha b hb t ht u hu
  have := h a ha b hb t ht u hu
  cases he : t.eq u with
  | ok x => exact ⟨x, rfl⟩
  | error e => rw [he] at this; cases this

/-- Those before second 4 of the four raw subtitles. -/
example : (∀ a ∈ ex3, ∀ b ∈ ex3, a.from_.SameKind b.from_) ∧ TimesCompare ex3 ∧ OfTime (fun t => decide (t.secs < 4)) ex3 ∧ (∃ out, collect ex3 = .ok out) ∧
    (ex3.filter fun r => decide (r.from_.secs < 4)).map (·.text) = [b!"a", b!"b", b!"d"] := by
  refine ⟨ex3_kind, ex3_compare, ?_, C121_succeeds _ ex3_compare, by decide⟩
  unfold OfTime; decide +kernel

private theorem subs_append {A B : List Raw} {x y : List Subtitle} (hx : SubtitlesFor A x) (hy : SubtitlesFor B y) : (∀ a ∈ A, ∀ b ∈ B, ¬ SameTimes a b) → SubtitlesFor (A ++ B) (x ++ y) := by
  induction hx with
  | none => intro _; exact hy
  | subtitle r more rest ls ss h1 h2 h3 h4 ih =>
    intro hn
    rw [List.append_assoc]
    refine .subtitle r more (rest ++ B) ls (ss ++ y) h1 ?_ h3 (ih fun a ha b hb => hn a (List.mem_append_right _ ha) b hb)
    intro z hz
    cases rest with
    | nil => exact hn r (by simp) z (List.mem_of_mem_head? hz)
    | cons w ws => exact h2 z hz

private theorem lt_flip {a b : Time} (hk : a.SameKind b) (h : a.lt b = .ok true) : b.lt a = .ok false ∧ a.eq b = .ok false := by
  have k : a.keyLt b := by have := lt_eq_key hk h; simpa using this
  rcases C02_trichotomy a b hk with ⟨l, e, g, hl, he, hg, _⟩ | ⟨hl, _, _⟩
  · have h1 := eq_iff_key hk he
    refine ⟨?_, by rw [he, h1, decide_eq_false fun hh => hh.1 k]⟩
    have hg' : b.lt a = .ok g := by rw [← (C02_gt_is_flipped_lt a b hk).1]; exact hg
    have := lt_eq_key (hk.imp (fun h => ⟨h.2, h.1⟩) fun h => ⟨h.2, h.1⟩) hg'
    rw [hg', this, decide_eq_false (Time.keyLt_asymm k)]
  · rw [h] at hl; cases hl

/-- C142: where a programme is cut in two so that all of the first part starts before all of the second, `collect` gives what it gives for the parts, one after the other. -/
theorem C142_cut (q : Raw → Bool) (raws : List Raw) (oa ob : List Subtitle) (hk : ∀ a ∈ raws, ∀ b ∈ raws, a.from_.SameKind b.from_) (hc : TimesCompare raws)
    (hb : AllBefore (raws.filter q) (raws.filter fun r => !q r)) (ha : collect (raws.filter q) = .ok oa) (h : collect (raws.filter fun r => !q r) = .ok ob) :
    collect raws = .ok (oa ++ ob) := by
  have m1 : ∀ a ∈ raws.filter q, a ∈ raws := fun a ha => (List.mem_filter.1 ha).1
  have m2 : ∀ a ∈ raws.filter (fun r => !q r), a ∈ raws := fun a ha => (List.mem_filter.1 ha).1
  obtain ⟨sa, a1, a2⟩ := C121_sound _ oa (fun a ha b hb => hk a (m1 a ha) b (m1 b hb)) ha
  obtain ⟨sb, b1, b2⟩ := C121_sound _ ob (fun a ha b hb => hk a (m2 a ha) b (m2 b hb)) h
  have hf : ∀ a ∈ raws.filter q, ∀ b ∈ raws.filter (fun r => !q r), b.from_.lt a.from_ = .ok false ∧ a.from_.eq b.from_ = .ok false :=
    fun a ha b hb' => lt_flip (hk a (m1 a ha) b (m2 b hb')) (hb a ha b hb')
  refine (C121_exact raws _ hk hc).2 ⟨sa ++ sb, ⟨?_, ?_, ?_⟩, subs_append a2 b2 ?_⟩
  · exact (a1.perm.append b1.perm).trans (List.filter_append_perm q raws)
  · exact List.pairwise_append.2 ⟨a1.ordered, b1.ordered, fun a ha b hb' => (hf a (a1.perm.mem_iff.1 ha) b (b1.perm.mem_iff.1 hb')).1⟩
  · intro x hx
    have split : ∀ f : Raw → Bool, (∀ r ∈ raws, f r = true → q r = true) → raws.filter f = (raws.filter q).filter f := by
      intro f hfq
      rw [List.filter_filter]
      refine List.filter_congr fun r hr => ?_
      cases hfr : f r with
      | true => simp [hfq r hr hfr]
      | false => simp
    have split' : ∀ f : Raw → Bool, (∀ r ∈ raws, f r = true → q r = false) → raws.filter f = (raws.filter fun r => !q r).filter f := by
      intro f hfq
      rw [List.filter_filter]
      refine List.filter_congr fun r hr => ?_
      cases hfr : f r with
      | true => simp [hfq r hr hfr]
      | false => simp
    rw [List.filter_append]
    cases hq : q x with
    | true =>
      have hxm : x ∈ raws.filter q := List.mem_filter.2 ⟨hx, hq⟩
      rw [a1.stable x hxm, (List.filter_eq_nil_iff (l := sb)).2, List.append_nil, ← split]
      · intro r hr hfr
        by_contra hn
        have := (hf x hxm r (List.mem_filter.2 ⟨hr, by simpa using hn⟩)).2
        rw [of_decide_eq_true hfr] at this
        cases this
      · intro r hr hfr
        have := (hf x hxm r (b1.perm.mem_iff.1 hr)).2
        rw [of_decide_eq_true hfr] at this
        cases this
    | false =>
      have hxm : x ∈ raws.filter (fun r => !q r) := List.mem_filter.2 ⟨hx, by simp [hq]⟩
      have hs : ∀ r ∈ raws, r.from_.eq x.from_ = x.from_.eq r.from_ := fun r hr => (C02_gt_is_flipped_lt _ _ (hk r hr x hx)).2
      rw [b1.stable x hxm, (List.filter_eq_nil_iff (l := sa)).2, List.nil_append, ← split']
      · intro r hr hfr
        by_contra hn
        have := (hf r (List.mem_filter.2 ⟨hr, by simpa using hn⟩) x hxm).2
        rw [hs r hr, of_decide_eq_true hfr] at this
        cases this
      · intro r hr hfr
        have hr' := a1.perm.mem_iff.1 hr
        have := (hf r hr' x hxm).2
        rw [hs r (m1 r hr'), of_decide_eq_true hfr] at this
        cases this
  · intro a ha b hb' hst
    have := (hf a (a1.perm.mem_iff.1 ha) b (b1.perm.mem_iff.1 hb')).2
    rw [hst.1] at this
    cases this

example : (∀ a ∈ ex3, ∀ b ∈ ex3, a.from_.SameKind b.from_) ∧ TimesCompare ex3 ∧
    AllBefore (ex3.filter fun r => decide (r.from_.secs < 4)) (ex3.filter fun r => !decide (r.from_.secs < 4)) ∧
    (collect (ex3.filter fun r => decide (r.from_.secs < 4))).toOption.isSome = true ∧ (collect (ex3.filter fun r => !decide (r.from_.secs < 4))).toOption.isSome = true := by
  refine ⟨ex3_kind, ex3_compare, ?_, by decide +kernel, by decide +kernel⟩
  unfold AllBefore; decide +kernel

/-- C142: a programme in two reels, the second starting after the last subtitle of the first has started: the subtitles of the one and then those of the other, in whichever order they are given. -/
theorem C142_reels (A B : List Raw) (oa ob : List Subtitle) (hk : ∀ a ∈ A ++ B, ∀ b ∈ A ++ B, a.from_.SameKind b.from_) (hc : TimesCompare (A ++ B)) (hb : AllBefore A B)
    (ha : collect A = .ok oa) (h : collect B = .ok ob) : collect (A ++ B) = .ok (oa ++ ob) ∧ collect (B ++ A) = .ok (oa ++ ob) := by
  classical
  have hn : ∀ b ∈ B, b ∉ A := fun b hB hA => by
    have := (lt_flip (hk b (by simp [hA]) b (by simp [hA])) (hb b hA b hB)).1
    rw [hb b hA b hB] at this
    cases this
  have fA : A.filter (fun r => decide (r ∈ A)) = A := List.filter_eq_self.2 fun a ha => by simpa using ha
  have fB : B.filter (fun r => decide (r ∈ A)) = [] := List.filter_eq_nil_iff.2 fun b hb => by simpa using hn b hb
  have fA' : A.filter (fun r => !decide (r ∈ A)) = [] := List.filter_eq_nil_iff.2 fun b hb => by simpa using hb
  have fB' : B.filter (fun r => !decide (r ∈ A)) = B := List.filter_eq_self.2 fun b hb => by simpa using hn b hb
  have sw : ∀ a, a ∈ B ++ A → a ∈ A ++ B := fun a ha => List.mem_append.2 (List.mem_append.1 ha).symm
  refine ⟨C142_cut (fun r => decide (r ∈ A)) _ _ _ hk hc ?_ ?_ ?_, C142_cut (fun r => decide (r ∈ A)) _ _ _ (fun a ha b hb => hk a (sw a ha) b (sw b hb)) (fun a ha b hb => hc a (sw a ha) b (sw b hb)) ?_ ?_ ?_⟩ <;>
    simpa only [List.filter_append, fA, fB, fA', fB', List.append_nil, List.nil_append]

/-- The first reel has the three subtitles before second 4. -/
example : AllBefore (ex3.drop 1) (ex3.take 1) ∧ (collect (ex3.drop 1)).toOption.isSome = true ∧ (collect (ex3.take 1)).toOption.isSome = true := by
  refine ⟨?_, by decide +kernel, by decide +kernel⟩
  unfold AllBefore; decide +kernel

/-- C142 for SubRip files: the file of a second reel put after that of the first, with a blank line between them, gives the subtitles of the first and then those of the second. -/
theorem C142_subrip (a b : Str) (A B : List Raw) (oa ob : List Subtitle) (h1 : srtReadString (a ++ b!"\n\n") = .ok A) (h2 : srtReadString (b ++ b!"\n\n") = .ok B) (hc : TimesCompare (A ++ B))
    (hb : AllBefore A B) (ha : collect A = .ok oa) (h : collect B = .ok ob) : ∃ raws, srtReadString (a ++ b!"\n\n" ++ (b ++ b!"\n\n")) = .ok raws ∧ collect raws = .ok (oa ++ ob) := by
  have hr := C100_subrip_all [(a, A), (b, B)] (by intro f hf; rcases List.mem_pair.1 hf with rfl | rfl <;> assumption)
  simp only [List.map_cons, List.map_nil, List.flatten_cons, List.flatten_nil, List.append_nil] at hr
  refine ⟨_, hr, (C142_reels A B oa ob ?_ hc hb ha h).1⟩
  have hm := srt_inMs (show srtRead _ = _ from hr)
  exact fun a ha b hb => .inl ⟨⟨_, (hm a ha).1, by decide⟩, ⟨_, (hm b hb).1, by decide⟩⟩

private def reel1 : Str := b!"1\n00:00:05,000 --> 00:00:06,000\nfirst\n<i>second</i>\n\n2\n00:00:01,500 --> 00:00:02,000\nearlier"
private def reel2 : Str := b!"1\n00:20:01,500 --> 00:20:02,000\nlater"

private theorem reel_get {s : Str} {x : List Raw} (h : (srtReadString s).toOption.getD [] = x) (hs : (srtReadString s).toOption.isSome = true) : srtReadString s = .ok x := by
  cases e : srtReadString s with
  | error _ => rw [e] at hs; cases hs
  | ok y => rw [e] at h; rw [← h]; rfl

example : ∃ A B, srtReadString (reel1 ++ b!"\n\n") = .ok A ∧ srtReadString (reel2 ++ b!"\n\n") = .ok B ∧ TimesCompare (A ++ B) ∧ AllBefore A B ∧
    (collect A).toOption.map (·.map fun s => (s.from_.secs, s.lines.length)) = some [(1, 1), (5, 2)] ∧ (collect B).toOption.map (·.map fun s => (s.from_.secs, s.lines.length)) = some [(1201, 1)] := by
  refine ⟨_, _, reel_get rfl (by decide +kernel), reel_get rfl (by decide +kernel), ?_, ?_, by decide +kernel, by decide +kernel⟩
  · have h : ∀ a ∈ (srtReadString (reel1 ++ b!"\n\n")).toOption.getD [] ++ (srtReadString (reel2 ++ b!"\n\n")).toOption.getD [],
        ∀ b ∈ (srtReadString (reel1 ++ b!"\n\n")).toOption.getD [] ++ (srtReadString (reel2 ++ b!"\n\n")).toOption.getD [],
        ∀ t ∈ a.times, ∀ u ∈ b.times, (t.eq u).toOption.isSome = true := by decide +kernel
    intro a ha b hb t ht u hu
    have := h a ha b hb t ht u hu
    cases he : t.eq u with
    | ok x => exact ⟨x, rfl⟩
    | error e => rw [he] at this; cases this
  · unfold AllBefore; decide +kernel

private def ends : List Raw := [exRaw b!"a" 2 0, { exRaw b!"b" 2 0 with to_ := { (exRaw b!"b" 2 0).to_ with secs := 9 } }, exRaw b!"c" 2 0]

/-- C142 is about when subtitles start: the two that end early of three that start together are one subtitle if the third is left out before `collect`, and two if it is left out afterwards. -/
theorem C142_end_witness :
    (collect ends).toOption.map (fun out => (out.filter fun s => decide (s.to_.secs < 9)).map fun s => s.lines.map fun l => l.blocks.map (·.text)) = some [[[b!"a"]], [[b!"c"]]] ∧
    (collect (ends.filter fun r => decide (r.to_.secs < 9))).toOption.map (·.map fun s => s.lines.map fun l => l.blocks.map (·.text)) = some [[[b!"a", b!"c"]]] := by decide +kernel

end LibSub
