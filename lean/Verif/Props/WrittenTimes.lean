/-
Property C130: the times of subtitles are those written in the file, and ordinary files can be collected.
-/
import Verif.Props.SubRipExact
import Verif.Props.SsaFileExact
import Verif.Props.Collectable

namespace LibSub

/-! ### Specification -/

/-- The times of a subtitle are written on the line `l` (without its line end), as first and third word. -/
def TimesOn (sep : Byte) (l : Str) (r : Raw) : Prop :=
  ((wordsOf l).length = 3 ∨ (wordsOf l).length = 7) ∧ StampTime sep ((wordsOf l).getD 0 []) r.from_ ∧ StampTime sep ((wordsOf l).getD 2 []) r.to_

/-- Nowhere on the line are there more than `n` digits in a row. -/
def DigitsAtMost (n : Nat) (l : Str) : Prop := ∀ ds, ds <:+: l → (∀ c ∈ ds, c ∈ b!"0123456789") → ds.length ≤ n

/-- In a list of column names, both times come before the text. -/
def TimesFirst (format : Str) : Prop :=
  ∀ names a b, CommaList format names → names.map trim = a ++ b!"Text" :: b → b!"Start" ∈ a ∧ b!"End" ∈ a

/-- The times of a subtitle are among the values on the line `l`, which is a line of dialogue. -/
def TimesAmong (l : Str) (r : Raw) : Prop :=
  ∃ body values, OnLine l (some (.field b!"Dialogue" body)) ∧ ValuesOf body values ∧ (∃ v ∈ values, SsaStamp (trim v) r.from_) ∧ ∃ v ∈ values, SsaStamp (trim v) r.to_

/-! ### Deciding these -/

theorem digitsAtMost_iff (n : Nat) (l : Str) : DigitsAtMost n l ↔ ∀ t ∈ l.tails, n < t.length → ∃ c ∈ t.take (n + 1), c ∉ b!"0123456789" := by
  constructor
  · intro h t ht hn
    by_contra hc
    push Not at hc
    have := h (t.take (n + 1)) ((List.take_prefix _ _).isInfix.trans ((List.mem_tails _ _).1 ht).isInfix) hc
    rw [List.length_take] at this
    omega
  · rintro h ds ⟨a, b, rfl⟩ hd
    by_contra hc
    obtain ⟨c, h1, h2⟩ := h (ds ++ b) ((List.mem_tails _ _).2 ⟨a, by simp⟩) (by simp; omega)
    rw [List.take_append_of_le_length (by omega)] at h1
    exact h2 (hd c (List.mem_of_mem_take h1))

instance (n : Nat) (l : Str) : Decidable (DigitsAtMost n l) := decidable_of_iff _ (digitsAtMost_iff n l).symm

theorem timesFirst_iff (f : Str) : TimesFirst f ↔ ∀ i < ((splitAny isComma f).map trim).length, ((splitAny isComma f).map trim)[i]? = some b!"Text" →
    b!"Start" ∈ ((splitAny isComma f).map trim).take i ∧ b!"End" ∈ ((splitAny isComma f).map trim).take i := by
  unfold TimesFirst
  simp only [commaList_iff]
  constructor
  · intro h i hi ht
    refine h _ _ (((splitAny isComma f).map trim).drop (i + 1)) rfl ?_
    rw [List.getElem?_eq_getElem hi] at ht
    injection ht with ht
    rw [← ht, List.getElem_cons_drop, List.take_append_drop]
  · rintro h _ a b rfl e
    have := h a.length (by rw [e]; simp) (by rw [e]; simp)
    rw [e, List.take_left'] at this
    · exact this
    · rfl

instance (f : Str) : Decidable (TimesFirst f) := decidable_of_iff _ (timesFirst_iff f).symm

theorem formats_iff (l : Str) : (∀ f, OnLine l (some (.field b!"Format" f)) → TimesFirst f) ↔ (b!"Format:" <+: ssaClean l → TimesFirst (trim ((ssaClean l).drop 7))) := by
  constructor
  · rintro h ⟨r, e⟩
    rw [← e]
    exact h _ (.field b!"Format" r e.symm (by decide) (by decide) (by decide))
  · rintro h f (_ | _ | ⟨_, rest, e, _⟩)
    rw [e] at h
    exact h ⟨rest, rfl⟩

instance (l : Str) : Decidable (∀ f, OnLine l (some (.field b!"Format" f)) → TimesFirst f) := decidable_of_iff _ (formats_iff l).symm

/-! ### Words -/

private theorem splitOnP_infix (p : Byte → Bool) (s : Str) : (∃ h t, s.splitOnP p = h :: t ∧ h <+: s) ∧ ∀ w ∈ s.splitOnP p, w <:+: s := by
  induction s with
  | nil => simp
  | cons c s ih =>
    obtain ⟨⟨h, t, e, hp⟩, hi⟩ := ih
    rw [List.splitOnP_cons_eq_if_modifyHead]
    by_cases hc : p c = true
    · rw [if_pos hc]
      refine ⟨⟨[], _, rfl, List.nil_prefix⟩, ?_⟩
      intro w hw
      rcases List.mem_cons.1 hw with rfl | hw
      · exact List.nil_infix
      · exact List.infix_cons (hi w hw)
    · rw [if_neg hc, e]
      have h1 : c :: h <+: c :: s := (List.prefix_cons_inj c).2 hp
      refine ⟨⟨c :: h, t, rfl, h1⟩, ?_⟩
      intro w hw
      rcases List.mem_cons.1 hw with rfl | hw
      · exact h1.isInfix
      · exact List.infix_cons (hi w (by rw [e]; exact List.mem_cons_of_mem _ hw))

private theorem word_infix {s w : Str} (h : w ∈ wordsOf s) : w <:+: s := by
  unfold wordsOf at h
  rcases List.mem_append.1 h with h | h
  · split at h
    · rw [List.mem_singleton] at h
      rw [h]
      exact List.nil_infix
    · cases h
  · exact (splitOnP_infix _ s).2 w (List.mem_filter.1 h).1

private theorem getD_word_infix (s : Str) (i : Nat) : (wordsOf s).getD i [] <:+: s := by
  rw [List.getD_eq_getElem?_getD]
  cases h : (wordsOf s)[i]? with
  | none => exact List.nil_infix
  | some w => exact word_infix (List.mem_of_getElem? h)

private theorem clean_infix (l : Str) : cleanLine l <:+: l := by
  unfold cleanLine
  have h1 : ∀ s : Str, removeBom s <:+: s := by
    intro s
    unfold removeBom
    split
    · exact List.infix_cons (List.infix_cons (List.infix_cons List.infix_rfl))
    · exact List.infix_rfl
  refine (h1 _).trans ?_
  unfold trimRightIf
  refine List.IsPrefix.isInfix ?_
  rw [← List.reverse_suffix, List.reverse_reverse]
  exact List.dropWhile_suffix _

/-! ### Small numbers -/

private theorem textVal_lt (ds : Str) (h : ∀ c ∈ ds, c ∈ b!"0123456789") : textVal ds < 10 ^ ds.length := by
  unfold textVal
  have := Nat.ofDigits_lt_base_pow_length (b := 10) (l := ds.reverse.map (fun c => c.toNat - 48)) (by omega) (by
    intro x hx
    rw [List.mem_map] at hx
    obtain ⟨c, hc, rfl⟩ := hx
    exact forall_byte (p := fun c => c ∈ b!"0123456789" → c.toNat - 48 < 10) (by decide +kernel) c (h c (List.mem_reverse.1 hc)))
  simpa using this

private theorem stamp_small {sep : Byte} {w : Str} {t : Time} (h : StampTime sep w t) (hd : DigitsAtMost 6 w) : t.SmallMs := by
  obtain ⟨hh, mm, ss, ms, ⟨a, b, c, d, rfl, -, -, -, hv⟩, -, rfl⟩ := h
  obtain ⟨-, ds, hne, hds, hv⟩ := hv
  have h1 : ds <:+: d := by
    rcases hv with ⟨rfl | rfl, -⟩ | ⟨rfl, -⟩
    · exact List.infix_rfl
    · exact List.infix_cons List.infix_rfl
    · exact List.infix_cons List.infix_rfl
  have h2 : d <:+: a ++ 58 :: (b ++ 58 :: (c ++ sep :: d)) := ⟨a ++ 58 :: (b ++ 58 :: (c ++ [sep])), [], by simp⟩
  have h3 := hd ds (h1.trans h2) hds
  have h4 := textVal_lt ds hds
  have h5 : 10 ^ ds.length ≤ 10 ^ 6 := Nat.pow_le_pow_right (by omega) h3
  unfold Time.SmallMs
  simp only
  rcases hv with ⟨-, rfl⟩ | ⟨-, rfl⟩ <;> omega

private theorem timesOn_small {sep : Byte} {l : Str} {r : Raw} (h : TimesOn sep l r) (hd : DigitsAtMost 6 l) : r.SmallMs := by
  have key : ∀ i, DigitsAtMost 6 ((wordsOf l).getD i []) := fun i ds h1 h2 => hd ds (h1.trans (getD_word_infix l i)) h2
  exact ⟨stamp_small h.2.1 (key 0), stamp_small h.2.2 (key 2)⟩

/-! ### Times in a SubRip file -/

private theorem tag_times {ctx : SsaContext} {p p' : Raw} {t : Str} (h : TagMeans ctx p t p') : p'.from_ = p.from_ ∧ p'.to_ = p.to_ := by
  cases h <;> exact ⟨rfl, rfl⟩

private theorem overrides_times {ctx : SsaContext} {p p' : Raw} {ts : List Str} (h : Overrides ctx p ts p') : p'.from_ = p.from_ ∧ p'.to_ = p.to_ := by
  induction h with
  | done p => exact ⟨rfl, rfl⟩
  | tag p p' p'' t ts h1 _ ih => exact ⟨ih.1.trans (tag_times h1).1, ih.2.trans (tag_times h1).2⟩

private theorem subtitleOf_times {p : Raw} {t : Str} {r : Raw} (h : r ∈ subtitleOf p t) : r.from_ = p.from_ ∧ r.to_ = p.to_ := by
  unfold subtitleOf at h
  split at h
  · cases h
  · rw [List.mem_singleton] at h
    rw [h]
    exact ⟨rfl, rfl⟩

private theorem does_times {s s' : Raw × List Colour} {t : Tok} (h : TagDoes s t s') : s'.1.from_ = s.1.from_ ∧ s'.1.to_ = s.1.to_ := by
  cases h <;> exact ⟨rfl, rfl⟩

private theorem line_times {s : Raw × List Colour} {ts : List Tok} {rs : List Raw} {q : Raw} (h : LineMeans s ts rs q) :
    (q.from_ = s.1.from_ ∧ q.to_ = s.1.to_) ∧ ∀ r ∈ rs, r.from_ = s.1.from_ ∧ r.to_ = s.1.to_ := by
  induction h with
  | last p p' cs piece text h1 h2 h3 =>
    have h4 := overrides_times h2
    refine ⟨h4, fun r hr => ?_⟩
    have h5 := subtitleOf_times hr
    exact ⟨h5.1.trans h4.1, h5.2.trans h4.2⟩
  | more p p' q cs s piece t rest r h1 h2 h3 h4 ih =>
    have h5 := overrides_times h2
    have h6 := does_times h3
    obtain ⟨⟨i1, i2⟩, i3⟩ := ih
    refine ⟨⟨i1.trans (h6.1.trans h5.1), i2.trans (h6.2.trans h5.2)⟩, fun x hx => ?_⟩
    rcases List.mem_append.1 hx with hx | hx
    · have h7 := subtitleOf_times hx
      exact ⟨h7.1.trans h5.1, h7.2.trans h5.2⟩
    · obtain ⟨j1, j2⟩ := i3 x hx
      exact ⟨j1.trans (h6.1.trans h5.1), j2.trans (h6.2.trans h5.2)⟩

private theorem cue_times {p : Raw} {ts : List Str} {rs : List Raw} (h : CueMeans p ts rs) : ∀ r ∈ rs, r.from_ = p.from_ ∧ r.to_ = p.to_ := by
  induction h with
  | done p => simp
  | line p q k t ts toks r r' h1 h2 h3 h4 h5 ih =>
    obtain ⟨hq, hr⟩ := line_times h2
    intro x hx
    rcases List.mem_append.1 hx with hx | hx
    · exact hr x hx
    · obtain ⟨i1, i2⟩ := ih x hx
      exact ⟨i1.trans hq.1, i2.trans hq.2⟩

private theorem srt_times {ls : List Str} {rs : List Raw} (h : SrtFile ls rs) : ∀ r ∈ rs, ∃ l ∈ ls, TimesOn 44 l r := by
  induction h with
  | done => simp
  | blank ls r _ ih => exact fun x hx => (ih x hx).imp fun l h => ⟨List.mem_cons_of_mem _ h.1, h.2⟩
  | number l _ => simp
  | cue l m f t text ls r r' h1 h2 h3 h4 h5 h6 h7 h8 ih =>
    intro x hx
    rcases List.mem_append.1 hx with hx | hx
    · obtain ⟨e1, e2⟩ := cue_times h6 x hx
      exact ⟨m, by simp, h2, by rw [e1]; exact h3, by rw [e2]; exact h4⟩
    · exact (ih x hx).imp fun l h => ⟨by simp [h.1], h.2⟩

private theorem vtt_times {ls : List Str} {rs : List Raw} (h : VttBody ls rs) : ∀ r ∈ rs, ∃ l ∈ ls, TimesOn 46 l r := by
  induction h with
  | done => simp
  | other l ls r _ _ _ ih => exact fun x hx => (ih x hx).imp fun l h => ⟨List.mem_cons_of_mem _ h.1, h.2⟩
  | note l ns ls r _ _ _ _ ih => exact fun x hx => (ih x hx).imp fun l h => ⟨by simp [h.1], h.2⟩
  | cue l f t text ls r h1 h2 h3 h4 h5 h6 h7 h8 h9 ih =>
    intro x hx
    rcases List.mem_append.1 hx with hx | hx
    · unfold cueSubtitles at hx
      obtain ⟨i, hi, rfl⟩ := List.mem_mapIdx.1 hx
      exact ⟨l, by simp, h3, h4, h5⟩
    · exact (ih x hx).imp fun l h => ⟨by simp [h.1], h.2⟩

/-! ### Times in an SSA file -/

private theorem pieces_times {ctx : SsaContext} {h : ℚ} {p : Raw} {ts : List SsaTok} {rs : List Raw} (hp : SsaPieces ctx h p ts rs) :
    ∀ r ∈ rs, r.from_ = p.from_ ∧ r.to_ = p.to_ := by
  induction hp with
  | last p text => exact fun r hr => subtitleOf_times hr
  | tags p p' text tags ts r h1 _ ih =>
    intro x hx
    rcases List.mem_append.1 hx with hx | hx
    · exact subtitleOf_times hx
    · obtain ⟨i1, i2⟩ := ih x hx
      obtain ⟨j1, j2⟩ := overrides_times h1
      exact ⟨i1.trans j1, i2.trans j2⟩
  | br p v text ts r _ _ ih =>
    intro x hx
    rcases List.mem_append.1 hx with hx | hx
    · exact subtitleOf_times hx
    · exact ih x hx

private theorem ssaLine_times {ctx : SsaContext} {p : Raw} {v : Str} {rs : List Raw} (h : SsaLineMeans ctx p v rs) : ∀ r ∈ rs, r.from_ = p.from_ ∧ r.to_ = p.to_ := by
  obtain ⟨x, fs, toks, qs, -, -, -, hp, hq⟩ := h
  intro r hr
  obtain ⟨i, hi, rfl⟩ := List.getElem_of_mem hr
  have hl := hq.length_eq
  have := (List.forall₂_iff_get.1 hq).2 i (by omega) hi
  obtain ⟨ref, y, -, -, e⟩ := this
  rw [List.get_eq_getElem] at e
  rw [e]
  exact pieces_times hp (qs.get ⟨i, by omega⟩) (List.get_mem _ _)

/-- The columns met so far have set the times. -/
private structure Told (stamp : Time → Prop) (seen : List Str) (ev : SsaEvent) : Prop where
  start : b!"Start" ∈ seen → stamp ev.sub.from_
  stop : b!"End" ∈ seen → stamp ev.sub.to_
  subs : ∀ r ∈ ev.subs, stamp r.from_ ∧ stamp r.to_

private theorem column_told {resX resY : Int} {named : Str → SsaStyle → Prop} {stamp : Time → Prop} {seen : List Str} {ev ev' : SsaEvent} {c : Str × Str}
    (h : ColumnDoes resX resY named ev c ev') (ht : Told stamp seen ev) (hv : ∀ t, SsaStamp c.2 t → stamp t) (hk : c.1 = b!"Text" → b!"Start" ∈ seen ∧ b!"End" ∈ seen) :
    Told stamp (seen ++ [c.1]) ev' := by
  have hn : ∀ {k : Str} {v : Str}, k ≠ v → (v ∈ seen ++ [k] → v ∈ seen) := by
    intro k v hne hm
    rcases List.mem_append.1 hm with hm | hm
    · exact hm
    · exact absurd (List.mem_singleton.1 hm).symm hne
  cases h with
  | start v t hs => exact ⟨fun _ => hv t hs, fun hm => ht.stop (hn (by simp) hm), ht.subs⟩
  | stop v t hs => exact ⟨fun hm => ht.start (hn (by simp) hm), fun _ => hv t hs, ht.subs⟩
  | noStyle v _ => exact ⟨fun hm => ht.start (hn (by simp) hm), fun hm => ht.stop (hn (by simp) hm), ht.subs⟩
  | style v st fs vp _ _ _ => exact ⟨fun hm => ht.start (hn (by simp) hm), fun hm => ht.stop (hn (by simp) hm), ht.subs⟩
  | sameMargin k hm' =>
    have h1 : k ≠ b!"Start" := by rintro rfl; clear hk; revert hm'; decide
    have h2 : k ≠ b!"End" := by rintro rfl; clear hk; revert hm'; decide
    exact ⟨fun hm => ht.start (hn h1 hm), fun hm => ht.stop (hn h2 hm), ht.subs⟩
  | centred v _ => exact ⟨fun hm => ht.start (hn (by simp) hm), fun hm => ht.stop (hn (by simp) hm), ht.subs⟩
  | marginV v f _ _ _ _ => exact ⟨fun hm => ht.start (hn (by simp) hm), fun hm => ht.stop (hn (by simp) hm), ht.subs⟩
  | marginL v n _ _ => exact ⟨fun hm => ht.start (hn (by simp) hm), fun hm => ht.stop (hn (by simp) hm), ht.subs⟩
  | marginR v n _ _ => exact ⟨fun hm => ht.start (hn (by simp) hm), fun hm => ht.stop (hn (by simp) hm), ht.subs⟩
  | text v subs hl =>
    obtain ⟨k1, k2⟩ := hk rfl
    refine ⟨fun hm => ht.start (hn (by simp) hm), fun hm => ht.stop (hn (by simp) hm), fun r hr => ?_⟩
    rcases List.mem_append.1 hr with hr | hr
    · exact ht.subs r hr
    · obtain ⟨e1, e2⟩ := ssaLine_times hl r hr
      rw [e1, e2]
      exact ⟨ht.start k1, ht.stop k2⟩
  | other k v hm' =>
    have h1 : k ≠ b!"Start" := by rintro rfl; clear hk; revert hm'; decide
    have h2 : k ≠ b!"End" := by rintro rfl; clear hk; revert hm'; decide
    exact ⟨fun hm => ht.start (hn h1 hm), fun hm => ht.stop (hn h2 hm), ht.subs⟩

private theorem columns_told {resX resY : Int} {named : Str → SsaStyle → Prop} {stamp : Time → Prop} {ev ev' : SsaEvent} {cs : List (Str × Str)}
    (h : ColumnsDo resX resY named ev cs ev') : ∀ seen, Told stamp seen ev → (∀ c ∈ cs, ∀ t, SsaStamp c.2 t → stamp t) →
      (∀ a b, seen ++ cs.map (·.1) = a ++ b!"Text" :: b → b!"Start" ∈ a ∧ b!"End" ∈ a) → ∀ r ∈ ev'.subs, stamp r.from_ ∧ stamp r.to_ := by
  induction h with
  | done ev => exact fun seen ht _ _ => ht.subs
  | column ev ev' ev'' c cs h1 _ ih =>
    intro seen ht hv hk
    refine ih (seen ++ [c.1]) (column_told h1 ht (hv c (by simp)) ?_) (fun c' hc' => hv c' (by simp [hc'])) ?_
    · intro e
      exact hk seen (cs.map (·.1)) (by rw [List.map_cons, e])
    · intro a b e
      exact hk a b (by rw [← e]; simp)

private theorem dialogue_told {resX resY : Int} {named : Str → SsaStyle → Prop} {format body : Str} {subs : List Raw} (h : DialogueMeans resX resY named format body subs)
    (hf : TimesFirst format) : ∃ values, ValuesOf body values ∧ ∀ r ∈ subs, (∃ v ∈ values, SsaStamp (trim v) r.from_) ∧ ∃ v ∈ values, SsaStamp (trim v) r.to_ := by
  obtain ⟨names, values, ev, h1, h2, h3, h4, rfl⟩ := h
  refine ⟨values, h2, ?_⟩
  refine columns_told (stamp := fun t => ∃ v ∈ values, SsaStamp (trim v) t) h4 [] ⟨by simp, by simp, by simp⟩ ?_ ?_
  · intro c hc t ht
    have := (List.of_mem_zip (show (c.1, c.2) ∈ _ from hc)).2
    obtain ⟨v, hv, e⟩ := List.mem_map.1 this
    exact ⟨v, hv, by rw [e]; exact ht⟩
  · intro a b e
    refine hf names a b h1 ?_
    rw [← e]
    unfold columns
    rw [List.nil_append, List.map_fst_zip (by simp [h3])]

private theorem ssa_told {past : List SsaEntry} {ls : List Str} {rs : List Raw} (h : SsaFile past ls rs) (hp : ∀ f, .field b!"Format" f ∈ past → TimesFirst f)
    (hl : ∀ l ∈ ls, ∀ f, OnLine l (some (.field b!"Format" f)) → TimesFirst f) : ∀ r ∈ rs, ∃ l ∈ ls, TimesAmong l r := by
  induction h with
  | done past => simp
  | nothing past l ls r _ _ ih => exact fun x hx => (ih hp (fun l hm => hl l (by simp [hm])) x hx).imp fun l h => ⟨List.mem_cons_of_mem _ h.1, h.2⟩
  | quiet past l e ls r h1 _ _ ih =>
    intro x hx
    refine (ih ?_ (fun l hm => hl l (by simp [hm])) x hx).imp fun l h => ⟨List.mem_cons_of_mem _ h.1, h.2⟩
    intro f hf
    rcases List.mem_cons.1 hf with rfl | hf
    · exact hl l (by simp) f h1
    · exact hp f hf
  | dialogue past l b f w h ls r r' h1 h2 h3 h4 h5 h6 _ ih =>
    intro x hx
    rcases List.mem_append.1 hx with hx | hx
    · have hf : TimesFirst f := by
        obtain ⟨newer, e, older, rfl, ⟨rfl, _⟩, _⟩ := h3
        exact hp f (by simp)
      obtain ⟨values, hv, ht⟩ := dialogue_told h6 hf
      exact ⟨l, by simp, b, values, h1, hv, ht x hx⟩
    · refine (ih ?_ (fun l hm => hl l (by simp [hm])) x hx).imp fun l h => ⟨List.mem_cons_of_mem _ h.1, h.2⟩
      intro f' hf'
      rcases List.mem_cons.1 hf' with hf' | hf'
      · injection hf' with e1 e2
        exact absurd e1 (by decide)
      · exact hp f' hf'

private theorem trim_infix (s : Str) : trim s <:+: s := by
  unfold trim trimLeftIf trimRightIf
  refine (List.dropWhile_suffix _).isInfix.trans ?_
  refine List.IsPrefix.isInfix ?_
  rw [← List.reverse_suffix, List.reverse_reverse]
  exact List.dropWhile_suffix _

private theorem bom_infix (s : Str) : removeBom s <:+: s := by
  unfold removeBom
  split
  · exact List.infix_cons (List.infix_cons (List.infix_cons List.infix_rfl))
  · exact List.infix_rfl

private theorem body_infix {l type body : Str} (h : OnLine l (some (.field type body))) : body <:+: l := by
  cases h with
  | field _ rest h1 _ _ _ =>
    refine (trim_infix rest).trans ?_
    have : rest <:+: ssaClean l := by
      rw [h1]
      exact ⟨type ++ [58], [], by simp⟩
    exact this.trans ((bom_infix _).trans (trim_infix _))

private theorem value_infix {body v : Str} {values : List Str} (h : ValuesOf body values) (hv : v ∈ values) : v <:+: body := by
  obtain ⟨fs, rest, rfl, rfl, -⟩ := h
  rcases List.mem_append.1 hv with hv | hv
  · have h1 : v <:+: v ++ [44] := ⟨[], [44], by simp⟩
    have h2 : v ++ [44] <:+: (fs.map (· ++ [44])).flatten := List.infix_of_mem_flatten (List.mem_map.2 ⟨v, hv, rfl⟩)
    exact (h1.trans h2).trans ⟨[], rest, by simp⟩
  · rw [List.mem_singleton] at hv
    rw [hv]
    exact ⟨(fs.map (· ++ [44])).flatten, [], by simp⟩

private theorem ssaStamp_small {v : Str} {t : Time} (h : SsaStamp v t) (hd : DigitsAtMost 5 v) : t.SmallMs := by
  obtain ⟨a, x, b, y, c, z, d, hh, mm, ss, cs, rfl, -, -, -, -, -, hi, -, -, rfl⟩ := h
  obtain ⟨neg, es, ds, rest, ⟨w, u, ⟨e1, -, -⟩, e2⟩, ⟨rfl, hds, -⟩, hv, -, -⟩ := hi
  have h1 : ds <:+: d := by
    have h2 : ds ++ rest <:+: u := by
      rcases e2 with ⟨rfl, -⟩ | ⟨rfl, -⟩ | ⟨rfl, -⟩
      · exact List.infix_cons List.infix_rfl
      · exact List.infix_cons List.infix_rfl
      · exact List.infix_rfl
    have h3 : u <:+: d := by rw [e1]; exact ⟨w, [], by simp⟩
    exact List.IsInfix.trans ⟨[], rest, by simp⟩ (h2.trans h3)
  have h2 : d <:+: a ++ x :: (b ++ y :: (c ++ z :: d)) := ⟨a ++ x :: (b ++ y :: (c ++ [z])), [], by simp⟩
  have h3 := hd ds (h1.trans h2) hds
  have h4 := textVal_lt ds hds
  have h5 : 10 ^ ds.length ≤ 10 ^ 5 := Nat.pow_le_pow_right (by omega) h3
  unfold Time.SmallMs
  simp only
  rw [hv]
  cases neg <;> simp only [Bool.false_eq_true, if_false, if_true] <;> omega

/-! ### The property -/

/-- C130 for SubRip: the times of every subtitle are written on a line of the file. -/
theorem C130_subrip_times (lines : List Str) (subs : List Raw) (h : srtRead lines = .ok subs) : ∀ r ∈ subs, ∃ l ∈ lines, TimesOn 44 (cleanLine l) r := by
  intro r hr
  obtain ⟨l, hl, ht⟩ := srt_times ((C116_exact lines subs).1 h) r hr
  obtain ⟨l', hl', rfl⟩ := List.mem_map.1 hl
  exact ⟨l', hl', ht⟩

example : (srtRead [b!"1", b!"0:0:1,5 --> 0:0:2,0", b!"a<i>b", b!"", b!"2", b!"-1:0:0,+7 --> 0:61:3,999", b!"c"]).toOption.map (·.map fun r => (r.from_.secs, r.from_.frames, r.to_.secs, r.to_.frames)) =
    some [(1, 5, 2, 0), (1, 5, 2, 0), (-3600, 7, 3663, 999)] := by decide +kernel

/-- C130 for WebVTT: likewise. -/
theorem C130_webvtt_times (lines : List Str) (subs : List Raw) (h : vttRead lines = .ok subs) : ∀ r ∈ subs, ∃ l ∈ lines, TimesOn 46 (cleanLine l) r := by
  intro r hr
  have hf := (C115_exact lines subs).1 h
  generalize hc : lines.map cleanLine = cs at hf
  cases hf with
  | empty => cases hr
  | lines hd ls _ _ hb =>
    obtain ⟨l, hl, ht⟩ := vtt_times hb r hr
    have : l ∈ lines.map cleanLine := by
      rw [hc]
      exact List.mem_cons_of_mem _ hl
    obtain ⟨l', hl', rfl⟩ := List.mem_map.1 this
    exact ⟨l', hl', ht⟩

example : (vttRead [b!"WEBVTT", b!"", b!"0:0:1.5 --> 0:0:2.0", b!"a", b!"b", b!"", b!"1:0:0.7 --> 1:1:3.999", b!"c"]).toOption.map (·.map fun r => (r.from_.secs, r.from_.frames, r.to_.secs, r.to_.frames)) =
    some [(1, 5, 2, 0), (1, 5, 2, 0), (3600, 7, 3663, 999)] := by decide +kernel

/-- C130 for SubRip: a file without more than six digits in a row that is read can be collected. -/
theorem C130_subrip_digits (lines : List Str) (subs : List Raw) (h : srtRead lines = .ok subs) (hd : ∀ l ∈ lines, DigitsAtMost 6 l) : ∃ out, collect subs = .ok out := by
  refine C84_subrip_partial lines subs h fun r hr => ?_
  obtain ⟨l, hl, ht⟩ := C130_subrip_times lines subs h r hr
  exact timesOn_small ht fun ds h1 h2 => hd l hl ds (h1.trans (clean_infix l)) h2

example : (srtRead [b!"1", b!"00:00:01,000 --> 00:00:02,500  X1:1 X2:2 Y1:3 Y2:4", b!"a<b>b</b>", b!"{\\an8}c", b!"", b!"123456", b!"00:00:01,000000 --> 0:0:2,-7", b!"d"]).toOption.map (·.length) = some 4 ∧
    ∀ l ∈ [b!"1", b!"00:00:01,000 --> 00:00:02,500  X1:1 X2:2 Y1:3 Y2:4", b!"a<b>b</b>", b!"{\\an8}c", b!"", b!"123456", b!"00:00:01,000000 --> 0:0:2,-7", b!"d"], DigitsAtMost 6 l := by decide +kernel

/-- Seven digits are too many. -/
example : ((srtRead [b!"1", b!"0:0:1,2147484 --> 0:0:2,0", b!"a", b!"", b!"2", b!"0:0:1,2147485 --> 0:0:2,0", b!"b"]).bind collect).toOption = none := by decide +kernel

/-- C130 for WebVTT: likewise. -/
theorem C130_webvtt_digits (lines : List Str) (subs : List Raw) (h : vttRead lines = .ok subs) (hd : ∀ l ∈ lines, DigitsAtMost 6 l) : ∃ out, collect subs = .ok out := by
  refine C84_webvtt_partial lines subs h fun r hr => ?_
  obtain ⟨l, hl, ht⟩ := C130_webvtt_times lines subs h r hr
  exact timesOn_small ht fun ds h1 h2 => hd l hl ds (h1.trans (clean_infix l)) h2

example : (vttRead [b!"WEBVTT", b!"", b!"1", b!"00:00:01.000 --> 00:00:02.500", b!"a", b!"b", b!"", b!"0:0:0.500000 --> 0:0:2.7", b!"d"]).toOption.map (·.length) = some 3 ∧
    ∀ l ∈ [b!"WEBVTT", b!"", b!"1", b!"00:00:01.000 --> 00:00:02.500", b!"a", b!"b", b!"", b!"0:0:0.500000 --> 0:0:2.7", b!"d"], DigitsAtMost 6 l := by decide +kernel

/-- C130 for SSA: where the times come before the text, the times of every subtitle are written on a line of dialogue. -/
theorem C130_ssa_times (lines : List Str) (subs : List Raw) (h : ssaReadLines lines = .ok subs)
    (hf : ∀ l ∈ lines, ∀ f, OnLine l (some (.field b!"Format" f)) → TimesFirst f) : ∀ r ∈ subs, ∃ l ∈ lines, TimesAmong l r :=
  ssa_told ((C118_exact lines subs).1 h) (by simp) hf

private def usualSsa : Str := b!"[V4+ Styles]\nFormat: Name, Fontsize\nStyle: Default, 12\n[Events]\nFormat: Marked, Start, End, Style, Text\nDialogue: 0,0:00:01.00,0:00:02.50,Default,a, b{\\i1}c\\Nd\nDialogue: 0,0:00:00.99999,0:00:02.50,Default,e"

example : (ssaReadLines (linesOfString usualSsa)).toOption.map (·.length) = some 4 ∧ ∀ l ∈ linesOfString usualSsa, ∀ f, OnLine l (some (.field b!"Format" f)) → TimesFirst f := by decide +kernel

/-- The condition is needed: with the text first, a subtitle gets no times. -/
example : (ssaReadLines [b!"[Events]", b!"Format: Text, Start, End", b!"Dialogue: a,0:00:01.00,0:00:02.00"]).toOption.map (·.map fun r => (r.from_.rate, r.to_.rate)) = some [(none, none)] := by decide +kernel

/-- C130 for SSA: such a file without more than five digits in a row can be collected. -/
theorem C130_ssa_digits (s : Str) (lines : List Str) (subs : List Raw) (h : (lines = linesOfString s ∧ ssaReadString s = .ok subs) ∨ (lines = linesOfFile s ∧ ssaReadFile s = .ok subs))
    (hf : ∀ l ∈ lines, ∀ f, OnLine l (some (.field b!"Format" f)) → TimesFirst f) (hd : ∀ l ∈ lines, DigitsAtMost 5 l) : ∃ out, collect subs = .ok out := by
  have hr : ssaReadLines lines = .ok subs := by
    rw [C118_exact]
    rcases h with ⟨rfl, h⟩ | ⟨rfl, h⟩
    · exact (C118_string _ _).1 h
    · exact (C118_file _ _).1 h
  have key : ∀ r ∈ subs, (r.from_.rate ≠ none ∧ r.to_.rate ≠ none) ∧ r.SmallMs := by
    intro r hm
    obtain ⟨l, hl, body, values, ho, hv, ⟨v, hv1, hs1⟩, v', hv2, hs2⟩ := C130_ssa_times lines subs hr hf r hm
    have hb : ∀ v ∈ values, DigitsAtMost 5 (trim v) := fun v hv' ds h1 h2 =>
      hd l hl ds (h1.trans ((trim_infix v).trans ((value_infix hv hv').trans (body_infix ho)))) h2
    have hrate : ∀ {v : Str} {t : Time}, SsaStamp v t → t.rate ≠ none := by
      rintro v t ⟨_, _, _, _, _, _, _, _, _, _, _, _, _, _, _, _, _, _, _, _, rfl⟩ e
      cases e
    exact ⟨⟨hrate hs1, hrate hs2⟩, ssaStamp_small hs1 (hb v hv1), ssaStamp_small hs2 (hb v' hv2)⟩
  exact C84_ssa_partial s subs (h.imp And.right And.right) (fun r hm => (key r hm).1) (fun r hm => (key r hm).2)

example : (ssaReadString usualSsa).toOption.map (·.length) = some 4 ∧ ∀ l ∈ linesOfString usualSsa, (∀ f, OnLine l (some (.field b!"Format" f)) → TimesFirst f) ∧ DigitsAtMost 5 l := by
  decide +kernel

/-- Six digits are too many: they are hundredths. -/
example : ((ssaReadString b!"[Events]\nFormat: Start, End, Text\nDialogue: 0:00:01.214749,0:00:02.00,a\nDialogue: 0:00:01.214748,0:00:02.00,b").bind collect).toOption = none := by decide +kernel

end LibSub
