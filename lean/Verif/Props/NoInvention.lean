/-
C127: readers invent no text.
-/
import Verif.Props.Subsequence
import Verif.Props.SsaEvent
import Verif.Props.Ssa
import Verif.Props.SubRipRead
import Verif.Props.StlText
import Verif.Props.Iso6937
import Verif.Props.StlReader

namespace LibSub

open scoped List

/-! ### SubRip -/

/-- What a token adds to the text. -/
private def tokText : Tok → Str
  | .chr c => [c]
  | _ => []

private theorem nextTok_sub (c : Byte) (cs : Str) : tokText (nextTok c cs).1 ++ (nextTok c cs).2 <+ c :: cs := by
  unfold nextTok
  simp only
  repeat' split
  all_goals first
    | exact List.Sublist.refl _
    | exact List.drop_sublist _ _
    | (simp only [tokText, List.nil_append]; exact (List.drop_sublist _ _).trans (List.drop_sublist _ _))

/-- The text reported so far and that under construction. -/
private def SrtLine.now (s : SrtLine) : Str := allText s.subs ++ s.p.text

private theorem now_maybe (s : SrtLine) : s.maybeContent.now = s.now := by
  unfold SrtLine.maybeContent
  split
  · rfl
  · simp [SrtLine.now, allText_append, allText_single]

private theorem exec_now {n : Nat} {ctx : List Str} {s r : SrtLine} {t : Tok} (h : s.exec n ctx t = .ok r) : r.now = s.now ++ tokText t := by
  cases t with
  | bold b => cases h; exact (now_maybe s).trans (List.append_nil _).symm
  | italic b => cases h; exact (now_maybe s).trans (List.append_nil _).symm
  | underline b => cases h; exact (now_maybe s).trans (List.append_nil _).symm
  | fontOpen tag =>
    obtain ⟨c, -, h⟩ := bind_eq_ok.1 h
    cases h
    exact (now_maybe s).trans (List.append_nil _).symm
  | fontClose =>
    simp only [SrtLine.exec] at h
    split at h
    · cases h; exact (now_maybe s).trans (List.append_nil _).symm
    · split at h
      · cases h; exact (now_maybe s).trans (List.append_nil _).symm
      · cases h
  | ssa tag =>
    obtain ⟨p, hp, h⟩ := bind_eq_ok.1 h
    cases h
    simp [SrtLine.now, tokText, parseTag_text' hp]
  | chr c =>
    cases h
    simp [SrtLine.now, tokText]

private theorem loop_now (n : Nat) (ctx : List Str) : ∀ (f : Nat) (t : Str) (s r : SrtLine), srtLoop n ctx f s t = .ok r → r.now <+ s.now ++ t
  | f, [], s, r, h => by
    cases f <;> (cases h; simp)
  | 0, c :: cs, s, r, h => by
    cases h; simp
  | f + 1, c :: cs, s, r, h => by
    rw [srtLoop] at h
    obtain ⟨s', hs, h⟩ := bind_eq_ok.1 h
    have h1 := loop_now n ctx f _ _ _ h
    rw [exec_now hs, List.append_assoc] at h1
    exact h1.trans ((List.Sublist.refl _).append (nextTok_sub c cs))

private theorem line_now {n : Nat} {ctx : List Str} {t : Str} {p q : Raw} {subs out : List Raw} (h : convertLine n ctx t p subs = .ok (q, out)) :
    allText out ++ q.text <+ allText subs ++ (p.text ++ t) := by
  obtain ⟨s, hs, h⟩ := bind_eq_ok.1 h
  cases h
  have h1 := loop_now n ctx _ _ _ _ hs
  have h2 : SrtLine.now { s with p := { s.p with text := replaceAll s.p.text rle [] } } <+ s.now := (List.Sublist.refl _).append (sub_replaceAll s.p.text rle)
  have h3 := now_maybe { s with p := { s.p with text := replaceAll s.p.text rle [] } }
  rw [← h3] at h2
  have := h2.trans h1
  simpa [SrtLine.now] using this

private theorem subLines_now (n : Nat) (ctx : List Str) : ∀ (ts : List Str) (p q : Raw) (subs out : List Raw), convertSubLines n ctx ts p subs = .ok (q, out) →
    allText out ++ q.text <+ allText subs ++ (p.text ++ ts.flatten)
  | [], p, q, subs, out, h => by cases h; simp
  | t :: ts, p, q, subs, out, h => by
    rw [convertSubLines] at h
    obtain ⟨⟨p', subs'⟩, h1, h⟩ := bind_eq_ok.1 h
    obtain ⟨l, -, h⟩ := bind_eq_ok.1 h
    obtain ⟨l', -, h⟩ := bind_eq_ok.1 h
    have ih := subLines_now n ctx ts _ _ _ _ h
    have h2 : allText subs' <+ allText subs ++ (p.text ++ t) := (List.sublist_append_left _ _).trans (line_now h1)
    have := ih.trans (h2.append (List.Sublist.refl _))
    simpa using this

private theorem meta_text {n : Nat} {ctx : List Str} {line : Str} {rest : List Str} {p q : Raw} (h : srtMetadata n ctx line rest p = .ok q) : q.text = p.text := by
  unfold srtMetadata at h
  simp only at h
  split at h
  · cases h
  · obtain ⟨a, -, h⟩ := bind_eq_ok.1 h
    split at h
    · cases h
    · obtain ⟨b, -, h⟩ := bind_eq_ok.1 h
      split at h
      · cases h
      · cases h; rfl

private theorem srt_now : ∀ (ls : List Str) (n : Nat) (st : SrtState) (ctx : List Str) (p : Raw) (subs out : List Raw), srtLines n st ctx p subs ls = .ok out →
    allText out <+ allText subs ++ (p.text ++ ls.flatten)
  | [], n, st, ctx, p, subs, out, h => by
    cases h; simp
  | l :: ls, n, st, ctx, p, subs, out, h => by
    have skip : ∀ a b c : Str, a <+ b ++ (p.text ++ c) → a <+ b ++ (p.text ++ (l ++ c)) := fun a b c h =>
      h.trans ((List.Sublist.refl _).append ((List.Sublist.refl _).append (List.sublist_append_right _ _)))
    rw [List.flatten_cons]
    cases st with
    | counter =>
      rw [srtLines] at h
      split at h
      · exact skip _ _ _ (srt_now ls _ _ _ _ _ _ h)
      · have ih := srt_now ls _ _ _ _ _ _ h
        apply skip
        refine ih.trans ((List.Sublist.refl _).append ?_)
        simp [srtFresh]
    | metadata =>
      rw [srtLines] at h
      obtain ⟨q, hq, h⟩ := bind_eq_ok.1 h
      have ih := srt_now ls _ _ _ _ _ _ h
      rw [meta_text hq] at ih
      exact skip _ _ _ ih
    | content =>
      rw [srtLines] at h
      simp only at h
      split at h
      · exact skip _ _ _ (srt_now ls _ _ _ _ _ _ h)
      · obtain ⟨⟨q, subs'⟩, hq, h⟩ := bind_eq_ok.1 h
        have ih := srt_now ls _ _ _ _ _ _ h
        have h1 := subLines_now _ _ _ _ _ _ _ hq
        have h2 : (splitStr lineSep (removeBom (trimRightIf isNlCr l))).flatten <+ l := (sub_splitStrGo _ _ _).trans (sub_clean l)
        have h3 := (h1.trans ((List.Sublist.refl _).append ((List.Sublist.refl _).append h2))).append (List.Sublist.refl ls.flatten)
        simp only [List.append_assoc] at h3
        exact ih.trans h3

/-! ### WebVTT -/

private theorem vttSub_now : ∀ (ts : List Str) (p q : Raw) (subs out : List Raw), vttSubLines ts p subs = .ok (q, out) → allText out = allText subs ++ ts.flatten
  | [], p, q, subs, out, h => by cases h; simp
  | t :: ts, p, q, subs, out, h => by
    rw [vttSubLines] at h
    simp only at h
    obtain ⟨l, -, h⟩ := bind_eq_ok.1 h
    obtain ⟨l', -, h⟩ := bind_eq_ok.1 h
    have ih := vttSub_now ts _ _ _ _ h
    rw [ih, allText_append, allText_single]
    simp

private theorem vtt_now : ∀ (ls : List Str) (st : VttState) (ctx : List Str) (p : Raw) (subs out : List Raw), vttLines st ctx p subs ls = .ok out →
    allText out <+ allText subs ++ ls.flatten
  | [], st, ctx, p, subs, out, h => by
    cases h; simp
  | l :: ls, st, ctx, p, subs, out, h => by
    have skip : ∀ a b c : Str, a <+ b ++ c → a <+ b ++ (l ++ c) := fun a b c h =>
      h.trans ((List.Sublist.refl _).append (List.sublist_append_right _ _))
    rw [List.flatten_cons]
    cases st with
    | header =>
      rw [vttLines] at h
      split at h
      · exact skip _ _ _ (vtt_now ls _ _ _ _ _ h)
      · cases h
    | data =>
      rw [vttLines] at h
      split at h
      · exact skip _ _ _ (vtt_now ls _ _ _ _ _ h)
      · split at h
        · obtain ⟨q, -, h⟩ := bind_eq_ok.1 h
          exact skip _ _ _ (vtt_now ls _ _ _ _ _ h)
        · exact skip _ _ _ (vtt_now ls _ _ _ _ _ h)
    | subtitle =>
      rw [vttLines] at h
      simp only at h
      split at h
      · exact skip _ _ _ (vtt_now ls _ _ _ _ _ h)
      · obtain ⟨⟨q, subs'⟩, hq, h⟩ := bind_eq_ok.1 h
        have ih := vtt_now ls _ _ _ _ _ h
        rw [vttSub_now _ _ _ _ _ hq, List.append_assoc] at ih
        have h2 : (splitStr lineSep (removeBom (trimRightIf isNlCr l))).flatten <+ l := (sub_splitStrGo _ _ _).trans (sub_clean l)
        exact ih.trans ((List.Sublist.refl _).append (h2.append (List.Sublist.refl _)))
    | note =>
      rw [vttLines] at h
      split at h <;> exact skip _ _ _ (vtt_now ls _ _ _ _ _ h)

/-! ### SSA -/

/-- The text reported so far and that under construction. -/
private def SsaLoop.now (s : SsaLoop) : Str := allText s.subs ++ s.current.text

private theorem now_flush (s : SsaLoop) : s.flush.now = s.now := by
  unfold SsaLoop.flush
  split
  · rfl
  · simp [SsaLoop.now, allText_append, allText_single]

private theorem flush_all (s : SsaLoop) : allText s.flush.subs <+ s.now := by
  have := now_flush s
  unfold SsaLoop.now at this
  rw [← show allText s.flush.subs ++ s.flush.current.text = s.now from this]
  exact List.sublist_append_left _ _

private theorem step_now {ctx : SsaContext} {ls : Rat} {l r : SsaLoop} {c : Byte} (h : ssaStep ctx ls l c = .ok r) : r.now <+ l.now ++ [c] := by
  unfold ssaStep at h
  split at h
  · repeat' split at h
    all_goals (cases h; first | exact List.sublist_append_left _ _ | simp [SsaLoop.now])
  · split at h
    · obtain ⟨cur, hc, h⟩ := bind_eq_ok.1 h
      cases h
      rw [← now_flush l]
      simp [SsaLoop.now, parseTag_text' hc]
    · split at h
      · obtain ⟨cur, hc, h⟩ := bind_eq_ok.1 h
        cases h
        rw [← now_flush l]
        simp [SsaLoop.now, parseTag_text' hc]
      · cases h
        exact List.sublist_append_left _ _
  · split at h
    · obtain ⟨v, hv, h⟩ := bind_eq_ok.1 h
      cases h
      rw [← now_flush l]
      simp [SsaLoop.now]
    · cases h
      exact List.sublist_append_left _ _

private theorem run_now {ctx : SsaContext} {lsz : Rat} : ∀ (s : Str) (l r : SsaLoop), ssaRun ctx lsz l s = .ok r → r.now <+ l.now ++ s
  | [], l, r, h => by cases h; simp
  | c :: cs, l, r, h => by
    rw [ssaRun] at h
    obtain ⟨l', hl, h⟩ := bind_eq_ok.1 h
    have := (run_now cs _ _ h).trans ((step_now hl).append (List.Sublist.refl cs))
    simpa using this

private theorem finish_text {b : VPos} {k : Nat} {lsz : Rat} : ∀ (ss out : List Raw), ssaFinishAll b k lsz ss = .ok out → allText out = allText ss
  | [], out, h => by cases h; rfl
  | s :: ss, out, h => by
    rw [ssaFinishAll] at h
    obtain ⟨s', hs, h⟩ := bind_eq_ok.1 h
    obtain ⟨ss', hss, h⟩ := bind_eq_ok.1 h
    cases h
    have ih := finish_text ss ss' hss
    have : s'.text = s.text := by
      unfold ssaFinishPos at hs
      obtain ⟨r, -, hs⟩ := bind_eq_ok.1 hs
      obtain ⟨p, -, hs⟩ := bind_eq_ok.1 hs
      cases hs; rfl
    show allText (s' :: ss') = allText (s :: ss)
    simp only [allText, List.map_cons, List.flatten_cons] at ih ⊢
    rw [this, ih]

private theorem prepare_text {ctx : SsaContext} {base cur : Raw} (h : ssaPrepare ctx base = .ok cur) : cur.text = base.text := by
  unfold ssaPrepare at h
  obtain ⟨c, hc, h⟩ := bind_eq_ok.1 h
  have hu : c.text = base.text := by
    obtain ⟨x, -, rfl⟩ := (updateH_iff _ _ _).1 hc
    rfl
  split at h
  · cases h; exact hu
  · obtain ⟨q, -, h⟩ := bind_eq_ok.1 h
    cases h; exact hu

private theorem parseLine_text {ctx : SsaContext} {base : Raw} {line : Str} {out : List Raw} (h : ssaParseLine ctx base line = .ok out) :
    allText out <+ base.text ++ line := by
  unfold ssaParseLine at h
  obtain ⟨cur, hc, h⟩ := bind_eq_ok.1 h
  obtain ⟨fs, -, h⟩ := bind_eq_ok.1 h
  obtain ⟨l, hl, h⟩ := bind_eq_ok.1 h
  rw [finish_text _ _ h]
  have := (flush_all l).trans (run_now _ _ _ hl)
  simpa [SsaLoop.now, allText_nil, prepare_text hc] using this

private theorem field_text {r : SsaRead} {ev ev' : SsaEvent} {k v : Str} (h : ssaEventField r ev k v = .ok ev') (h0 : ev.sub.text = []) :
    ev'.sub.text = [] ∧ allText ev'.subs <+ allText ev.subs ++ v := by
  have keep : ev'.subs = ev.subs → ev'.sub.text = ev.sub.text → ev'.sub.text = [] ∧ allText ev'.subs <+ allText ev.subs ++ v := fun a b => by
    rw [a, b]; exact ⟨h0, List.sublist_append_left _ _⟩
  unfold ssaEventField at h
  simp only at h
  rcases ite_cases h with ⟨-, h⟩ | ⟨-, h⟩
  · obtain ⟨t, -, h⟩ := bind_eq_ok.1 h; cases h; exact keep rfl rfl
  rcases ite_cases h with ⟨-, h⟩ | ⟨-, h⟩
  · obtain ⟨t, -, h⟩ := bind_eq_ok.1 h; cases h; exact keep rfl rfl
  rcases ite_cases h with ⟨-, h⟩ | ⟨-, h⟩
  · split at h
    · cases h; exact keep rfl rfl
    · unfold ssaApplyStyle at h
      obtain ⟨fs, -, h⟩ := bind_eq_ok.1 h
      split at h
      · obtain ⟨q, -, h⟩ := bind_eq_ok.1 h; cases h; exact keep rfl rfl
      · cases h; exact keep rfl rfl
  rcases ite_cases h with ⟨-, h⟩ | ⟨-, h⟩
  · split at h
    · obtain ⟨f, -, h⟩ := bind_eq_ok.1 h
      obtain ⟨q, -, h⟩ := bind_eq_ok.1 h
      cases h; exact keep rfl rfl
    · cases h; exact keep rfl rfl
  rcases ite_cases h with ⟨-, h⟩ | ⟨-, h⟩
  · split at h
    · obtain ⟨q, -, h⟩ := bind_eq_ok.1 h; cases h; exact keep rfl rfl
    · cases h; exact keep rfl rfl
  rcases ite_cases h with ⟨-, h⟩ | ⟨-, h⟩
  · split at h
    · obtain ⟨q, -, h⟩ := bind_eq_ok.1 h; cases h; exact keep rfl rfl
    · cases h; exact keep rfl rfl
  rcases ite_cases h with ⟨-, h⟩ | ⟨-, h⟩
  · obtain ⟨subs, hs, h⟩ := bind_eq_ok.1 h
    cases h
    refine ⟨h0, ?_⟩
    have := parseLine_text hs
    rw [h0, List.nil_append] at this
    rw [allText_append]
    exact (List.Sublist.refl _).append (this.trans (sub_trim v))
  · cases h; exact keep rfl rfl

private theorem fields_text {r : SsaRead} : ∀ (kvs : List (Str × Str)) (ev ev' : SsaEvent), ssaEventFields r ev kvs = .ok ev' → ev.sub.text = [] →
    allText ev'.subs <+ allText ev.subs ++ (kvs.map (·.2)).flatten
  | [], ev, ev', h, _ => by cases h; simp
  | (k, v) :: kvs, ev, ev', h, h0 => by
    rw [ssaEventFields] at h
    obtain ⟨e1, h1, h⟩ := bind_eq_ok.1 h
    obtain ⟨ht, hs⟩ := field_text h1 h0
    have := (fields_text kvs _ _ h ht).trans (hs.append (List.Sublist.refl _))
    simpa using this

/-- Joining parts changes only how they are cut. -/
theorem rejoin_join (n : Nat) : ∀ (f : Nat) (ps : List Str) (s : Str), [44].intercalate ps = s → [44].intercalate (ssaRejoin n f ps) = s
  | 0, ps, s, h => h
  | f + 1, ps, s, h => by
    rw [ssaRejoin]
    split
    · split
      · rename_i ex b rest e
        apply rejoin_join
        have : ps = rest.reverse ++ [b, ex] := by
          have := congrArg List.reverse e
          simpa using this
        rw [← h, this]
        generalize rest.reverse = q
        clear h e this
        induction q with
        | nil => simp [List.intercalate, List.intersperse]
        | cons x q ih =>
          cases q with
          | nil => simp [List.intercalate, List.intersperse]
          | cons y q => 
            simp [List.intercalate, List.intersperse] at ih ⊢
            exact ih
      · exact h
    · exact h

private theorem sub_intercalate : ∀ ps : List Str, ps.flatten <+ [44].intercalate ps
  | [] => by simp
  | [a] => by simp [List.intercalate, List.intersperse]
  | a :: b :: ps => by
    have ih := sub_intercalate (b :: ps)
    have e : ([44] : Str).intercalate (a :: b :: ps) = a ++ (44 :: [44].intercalate (b :: ps)) := by simp [List.intercalate, List.intersperse]
    rw [e, List.flatten_cons]
    exact (List.Sublist.refl a).append (ih.cons 44)

theorem split_intercalate : ∀ s : Str, [44].intercalate (splitAny isComma s) = s
  | [] => by simp [splitAny, List.intercalate]
  | c :: cs => by
    have ih := split_intercalate cs
    rw [splitAny]
    split
    · rename_i hc
      have : c = 44 := by simpa [isComma] using hc
      subst this
      cases e : splitAny isComma cs with
      | nil => exact absurd e (by have := splitAny_length isComma cs; intro h; rw [h] at this; simp at this)
      | cons t ts =>
        rw [e] at ih
        simp only [List.intercalate, List.intersperse] at ih ⊢
        simpa using ih
    · cases e : splitAny isComma cs with
      | nil => exact absurd e (by have := splitAny_length isComma cs; intro h; rw [h] at this; simp at this)
      | cons t ts =>
        rw [e] at ih
        cases ts with
        | nil => simp [List.intercalate, List.intersperse] at ih ⊢; exact ih
        | cons u us => simp [List.intercalate, List.intersperse] at ih ⊢; exact ih

private theorem zip_snd : ∀ (as bs : List Str), ((as.zip bs).map (·.2)).flatten <+ bs.flatten
  | [], bs => by simp
  | a :: as, [] => by simp
  | a :: as, b :: bs => by simpa using zip_snd as bs

private theorem ssaLine_now {r r' : SsaRead} {raw : Str} (h : ssaLine r raw = .ok r') : allText r'.subs <+ allText r.subs ++ raw := by
  have keep : r'.subs = r.subs → allText r'.subs <+ allText r.subs ++ raw := fun a => by rw [a]; exact List.sublist_append_left _ _
  unfold ssaLine at h
  simp only at h
  rcases ite_cases h with ⟨-, h⟩ | ⟨-, h⟩
  · cases h; exact keep rfl
  rcases ite_cases h with ⟨-, h⟩ | ⟨-, h⟩
  · rcases ite_cases h with ⟨-, h⟩ | ⟨-, h⟩
    · cases h; exact keep rfl
    rcases ite_cases h with ⟨-, h⟩ | ⟨-, h⟩
    · cases h; exact keep rfl
    rcases ite_cases h with ⟨-, h⟩ | ⟨-, h⟩
    · cases h; exact keep rfl
    · cases h; exact keep rfl
  split at h
  · cases h
  rename_i colon _
  split at h
  · rcases ite_cases h with ⟨-, h⟩ | ⟨-, h⟩
    · obtain ⟨x, -, h⟩ := bind_eq_ok.1 h; cases h; exact keep rfl
    rcases ite_cases h with ⟨-, h⟩ | ⟨-, h⟩
    · obtain ⟨x, -, h⟩ := bind_eq_ok.1 h; cases h; exact keep rfl
    · cases h; exact keep rfl
  · rcases ite_cases h with ⟨-, h⟩ | ⟨-, h⟩
    · cases h; exact keep rfl
    rcases ite_cases h with ⟨-, h⟩ | ⟨-, h⟩
    · obtain ⟨x, -, h⟩ := bind_eq_ok.1 h
      obtain ⟨x, -, h⟩ := bind_eq_ok.1 h; cases h; exact keep rfl
    · cases h; exact keep rfl
  · rcases ite_cases h with ⟨-, h⟩ | ⟨-, h⟩
    · cases h; exact keep rfl
    rcases ite_cases h with ⟨-, h⟩ | ⟨-, h⟩
    · unfold ssaDialogue at h
      obtain ⟨_, -, h⟩ := bind_eq_ok.1 h
      obtain ⟨_, -, h⟩ := bind_eq_ok.1 h
      obtain ⟨_, -, h⟩ := bind_eq_ok.1 h
      obtain ⟨ev, he, h⟩ := bind_eq_ok.1 h
      cases h
      rw [allText_append]
      have h1 := fields_text _ _ _ he rfl
      rw [show allText ({} : SsaEvent).subs = [] from rfl, List.nil_append] at h1
      have h2 := h1.trans (zip_snd _ _)
      have h3 := sub_intercalate (ssaRejoin r.eventFormat.length
        (splitAny isComma (trim ((removeBom (trim raw)).drop (colon + 1)))).length (splitAny isComma (trim ((removeBom (trim raw)).drop (colon + 1)))))
      rw [rejoin_join _ _ _ _ (split_intercalate _)] at h3
      have h4 : trim ((removeBom (trim raw)).drop (colon + 1)) <+ raw :=
        (sub_trim _).trans ((List.drop_sublist _ _).trans ((sub_removeBom _).trans (sub_trim _)))
      exact (List.Sublist.refl _).append (h2.trans (h3.trans h4))
    · cases h; exact keep rfl

private theorem ssa_now : ∀ (ls : List Str) (r r' : SsaRead), ssaLines r ls = .ok r' → allText r'.subs <+ allText r.subs ++ ls.flatten
  | [], r, r', h => by cases h; simp
  | l :: ls, r, r', h => by
    rw [ssaLines] at h
    obtain ⟨r1, h1, h⟩ := bind_eq_ok.1 h
    have := (ssa_now ls _ _ h).trans ((ssaLine_now h1).append (List.Sublist.refl _))
    simpa using this

/-! ### STL text -/

/-- The text reported so far and that under construction. -/
private def StlTextSt.now (s : StlTextSt) : Str := allText s.subs ++ s.sub.text

private theorem now_push (s : StlTextSt) : s.maybePush.now = s.now := by
  unfold StlTextSt.maybePush
  split
  · rfl
  · simp [StlTextSt.now, allText_append, allText_single]

private theorem chars_now : ∀ (n : Nat) (t : Str), t.length ≤ n → ∀ (s r : StlTextSt), stlTextChars s t = .ok r → r.now <+ s.now ++ t := by
  intro n
  induction n with
  | zero =>
    intro t ht s r h
    have : t = [] := List.length_eq_zero_iff.1 (Nat.le_zero.1 ht)
    subst this
    cases h; simp
  | succ n ih =>
    intro t ht s r h
    unfold stlTextChars at h
    split at h
    · cases h; simp
    · rename_i cs
      obtain ⟨l, -, h⟩ := bind_eq_ok.1 h
      obtain ⟨l', -, h⟩ := bind_eq_ok.1 h
      have := ih cs (by simpa using ht) _ _ h
      refine this.trans ?_
      show s.maybePush.now ++ cs <+ _
      rw [now_push]
      exact (List.Sublist.refl _).append (List.sublist_cons_self _ _)
    · cases h
      rw [now_push]
      exact List.sublist_append_left _ _
    · rename_i d cs
      have h1 := ih cs (by simp only [List.length_cons] at ht; omega) _ _ h
      refine h1.trans ?_
      have : ∀ q : StlTextSt, q.now = s.now → q.now ++ cs <+ s.now ++ 94 :: d :: cs := fun q e => by
        rw [e]
        exact (List.Sublist.refl _).append (((List.Sublist.refl _).cons _).cons _)
      apply this
      rw [← now_push s]
      repeat' split
      all_goals rfl
    · rename_i c cs _ _ _
      have h1 := ih cs (by simpa using ht) _ _ h
      simpa [StlTextSt.now] using h1

private theorem set_now {s r : StlTextSt} {n v : Str} (h : s.set n v = .ok r) : r.now = s.now := by
  unfold StlTextSt.set at h
  rcases ite_cases h with ⟨-, h⟩ | ⟨-, h⟩
  · cases h; rfl
  rcases ite_cases h with ⟨-, h⟩ | ⟨-, h⟩
  · cases h; rfl
  rcases ite_cases h with ⟨-, h⟩ | ⟨-, h⟩
  · cases h; rfl
  rcases ite_cases h with ⟨-, h⟩ | ⟨-, h⟩
  · cases h; rfl
  rcases ite_cases h with ⟨-, h⟩ | ⟨-, h⟩
  · obtain ⟨i, -, h⟩ := bind_eq_ok.1 h
    cases h; rfl
  · cases h; rfl

private theorem stlLine_now {s r : StlTextSt} {raw : Str} (h : stlTextLine s raw = .ok r) : r.now <+ s.now ++ raw := by
  have keep : r.now = s.now → r.now <+ s.now ++ raw := fun e => by rw [e]; exact List.sublist_append_left _ _
  unfold stlTextLine at h
  simp only at h
  rcases ite_cases h with ⟨-, h⟩ | ⟨-, h⟩
  · cases h; exact keep rfl
  rcases ite_cases h with ⟨-, h⟩ | ⟨-, h⟩
  · split at h
    · exact keep (set_now h)
    · cases h; exact keep rfl
  split at h
  · cases h; exact keep rfl
  split at h
  · cases h; exact keep rfl
  rcases ite_cases h with ⟨-, h⟩ | ⟨-, h⟩
  · cases h; exact keep rfl
  obtain ⟨f, -, h⟩ := bind_eq_ok.1 h
  obtain ⟨t, -, h⟩ := bind_eq_ok.1 h
  split at h
  · obtain ⟨s', hs, h⟩ := bind_eq_ok.1 h
    cases h
    rw [now_push]
    have := chars_now _ _ le_rfl _ _ hs
    exact this.trans ((List.Sublist.refl _).append ((List.drop_sublist _ _).trans (sub_trim raw)))
  · cases h; exact keep rfl

private theorem stlLines_now : ∀ (ls : List Str) (s r : StlTextSt), stlTextLines s ls = .ok r → r.now <+ s.now ++ ls.flatten
  | [], s, r, h => by cases h; simp
  | l :: ls, s, r, h => by
    rw [stlTextLines] at h
    obtain ⟨s1, h1, h⟩ := bind_eq_ok.1 h
    have := (stlLines_now ls _ _ h).trans ((stlLine_now h1).append (List.Sublist.refl _))
    simpa using this

/-! ### Binary STL -/

/-- The text of a raw subtitle is what a piece of ISO 6937 text stands for. -/
def TextFrom (piece : Str) (x : Raw) : Prop := ∃ w, IsoText piece w ∧ x.text = utf8Encode w

/-- `new` are pieces of `t`, in order, and no more than its bytes. -/
private def CutFrom (t : Str) (new : List Raw) : Prop := ∃ ps : List Str, ps.flatten <+ t ∧ List.Forall₂ TextFrom ps new ∧ new.length ≤ t.length

private theorem CutFrom.append {t u : Str} {a b : List Raw} (ha : CutFrom t a) (hb : CutFrom u b) : CutFrom (t ++ u) (a ++ b) := by
  obtain ⟨ps, h1, h2, h3⟩ := ha
  obtain ⟨qs, k1, k2, k3⟩ := hb
  refine ⟨ps ++ qs, by rw [List.flatten_append]; exact h1.append k1, List.rel_append h2 k2, by simp only [List.length_append]; omega⟩

private theorem CutFrom.mono {t u : Str} {a : List Raw} (ha : CutFrom t a) (h : t <+ u) : CutFrom u a := by
  obtain ⟨ps, h1, h2, h3⟩ := ha
  exact ⟨ps, h1.trans h, h2, h3.trans h.length_le⟩

private theorem CutFrom.nil (t : Str) : CutFrom t [] := ⟨[], by simp, .nil, by simp⟩

private theorem push_pieces {s r : StlChars} (h : s.push = .ok r) : ∃ x, r.subs = s.subs ++ [x] ∧ TextFrom s.text x := by
  unfold StlChars.push at h
  obtain ⟨w, hw, h⟩ := bind_eq_ok.1 h
  cases h
  exact ⟨_, rfl, w, C53_text.1 hw, rfl⟩

private theorem end_pieces {s r : StlChars} (h : (if s.text.isEmpty then .ok s else s.push) = .ok r) : ∃ new, r.subs = s.subs ++ new ∧ CutFrom s.text new := by
  split at h
  · cases h
    exact ⟨[], by simp, .nil _⟩
  · rename_i hne
    obtain ⟨x, hx, ht⟩ := push_pieces h
    refine ⟨[x], hx, [s.text], by simp, .cons ht .nil, ?_⟩
    cases e : s.text with
    | nil => simp [e] at hne
    | cons c cs => simp

private theorem apply_text (s : StlChars) (c : Byte) : (s.apply c).text <+ s.text ++ [c] ∧ (s.apply c).subs = s.subs ∧ (isStyleCode c = true → (s.apply c).text = s.text) := by
  have hs : isStyleCode c = true → c ≠ 0x80 → c ≠ 0x81 → c ≠ 0x82 → c ≠ 0x83 → stlColour c ≠ none :=
    forall_byte (p := fun c => isStyleCode c = true → c ≠ 0x80 → c ≠ 0x81 → c ≠ 0x82 → c ≠ 0x83 → stlColour c ≠ none) (by decide +kernel) c
  unfold StlChars.apply
  cases e : stlColour c with
  | some col => exact ⟨List.sublist_append_left _ _, rfl, fun _ => rfl⟩
  | none =>
    simp only
    by_cases h1 : c = 0x80
    · simp only [h1, if_true]; exact ⟨List.sublist_append_left _ _, trivial, fun _ => trivial⟩
    by_cases h2 : c = 0x81
    · simp only [h2]; exact ⟨List.sublist_append_left _ _, rfl, fun _ => rfl⟩
    by_cases h3 : c = 0x82
    · simp only [h3]; exact ⟨List.sublist_append_left _ _, rfl, fun _ => rfl⟩
    by_cases h4 : c = 0x83
    · simp only [h4]; exact ⟨List.sublist_append_left _ _, rfl, fun _ => rfl⟩
    simp only [h1, h2, h3, h4, if_false]
    exact ⟨List.Sublist.refl _, trivial, fun h => absurd e (hs h h1 h2 h3 h4)⟩

private theorem chars_pieces : ∀ (cs : Str) (s r : StlChars), stlChars s cs = .ok r → ∃ new, r.subs = s.subs ++ new ∧ CutFrom (s.text ++ cs) new
  | [], s, r, h => by
    obtain ⟨new, h1, h2⟩ := end_pieces h
    exact ⟨new, h1, h2.mono (List.sublist_append_left _ _)⟩
  | c :: cs, s, r, h => by
    rw [stlChars] at h
    rcases ite_cases h with ⟨-, h⟩ | ⟨-, h⟩
    · obtain ⟨new, h1, h2⟩ := end_pieces h
      exact ⟨new, h1, h2.mono (List.sublist_append_left _ _)⟩
    rcases ite_cases h with ⟨hc, h⟩ | ⟨-, h⟩
    · obtain ⟨s1, h1, h⟩ := bind_eq_ok.1 h
      obtain ⟨x, hx, ht⟩ := push_pieces h1
      obtain ⟨new, hn, hp⟩ := chars_pieces cs _ _ h
      have ha := apply_text { s1 with text := [] } c
      rw [ha.2.1] at hn
      rw [ha.2.2 hc] at hp
      refine ⟨x :: new, by rw [hn]; show s1.subs ++ new = _; rw [hx]; simp, ?_⟩
      obtain ⟨ps, k1, k2, k3⟩ := hp
      refine ⟨s.text :: ps, ?_, .cons ht k2, ?_⟩
      · rw [List.flatten_cons]
        exact (List.Sublist.refl _).append ((show ps.flatten <+ cs from k1).cons c)
      · have : new.length ≤ cs.length := k3
        simp only [List.length_cons, List.length_append]; omega
    · obtain ⟨new, hn, hp⟩ := chars_pieces cs _ _ h
      have ha := apply_text s c
      rw [ha.2.1] at hn
      refine ⟨new, hn, hp.mono ?_⟩
      have := ha.1.append (List.Sublist.refl cs)
      simpa using this

private theorem lines_pieces {info : StlInfo} {blk : Str} : ∀ (ls : List Str) (it un : Bool) (st r : StlBlocks) (j : Nat), stlLines info blk it un st j ls = .ok r →
    ∃ new, r.subs = st.subs ++ new ∧ CutFrom ls.flatten new
  | [], it, un, st, r, j, h => by cases h; exact ⟨[], by simp, .nil _⟩
  | l :: ls, it, un, st, r, j, h => by
    rw [stlLines] at h
    obtain ⟨f, -, h⟩ := bind_eq_ok.1 h
    obtain ⟨t, -, h⟩ := bind_eq_ok.1 h
    obtain ⟨q, hq, h⟩ := bind_eq_ok.1 h
    obtain ⟨a, ha, pa⟩ := chars_pieces _ _ _ hq
    obtain ⟨b, hb, pb⟩ := lines_pieces ls _ _ _ _ _ h
    refine ⟨a ++ b, ?_, by rw [List.flatten_cons]; exact CutFrom.append pa pb⟩
    rw [hb]
    show q.subs ++ b = _
    rw [ha, List.append_assoc]

private theorem block_pieces {info : StlInfo} {st r : StlBlocks} {blk : Str} (h : stlBlock info st blk = .ok r) : ∃ new, r.subs = st.subs ++ new ∧ CutFrom blk new := by
  unfold stlBlock at h
  obtain ⟨c, -, h⟩ := bind_eq_ok.1 h
  split at h
  · cases h; exact ⟨[], by simp, .nil _⟩
  · obtain ⟨new, h1, h2⟩ := lines_pieces _ _ _ _ _ _ h
    refine ⟨new, h1, h2.mono ?_⟩
    exact (sub_splitAny _ _).trans ((List.take_sublist _ _).trans (List.drop_sublist _ _))

private theorem blocks_pieces {info : StlInfo} : ∀ (n : Nat) (file : Str) (st r : StlBlocks), stlBlocks info st file n = .ok r → ∃ new, r.subs = st.subs ++ new ∧ CutFrom file new
  | 0, file, st, r, h => by cases h; exact ⟨[], by simp, .nil _⟩
  | n + 1, file, st, r, h => by
    rw [stlBlocks] at h
    obtain ⟨⟨blk, rest⟩, h1, h0⟩ := bind_eq_ok.1 h
    unfold readBlock at h1
    split at h1
    · cases h1
      obtain ⟨s1, h2, h3⟩ := bind_eq_ok.1 h0
      obtain ⟨a, ha, pa⟩ := block_pieces h2
      obtain ⟨b, hb, pb⟩ := blocks_pieces n _ _ _ h3
      refine ⟨a ++ b, by rw [hb, ha, List.append_assoc], ?_⟩
      have := CutFrom.append pa pb
      rwa [List.take_append_drop] at this
    · cases h1

private theorem correct_pieces {info : StlInfo} {st : StlBlocks} {t : Str} (h : CutFrom t st.subs) : CutFrom t (stlCorrect info st) := by
  unfold stlCorrect
  split
  · obtain ⟨ps, h1, h2, h3⟩ := h
    refine ⟨ps, h1, ?_, by simpa using h3⟩
    rw [List.forall₂_map_right_iff]
    exact h2.imp fun _ _ h => h
  · exact h

private theorem read_pieces {file : Str} {info : StlInfo} {subs : List Raw} (h : stlRead file = .ok (info, subs)) : CutFrom (file.drop 1024) subs ∧ 1024 ≤ file.length := by
  unfold stlRead at h
  obtain ⟨⟨gsi, rest⟩, h1, h0⟩ := bind_eq_ok.1 h
  unfold readBlock at h1
  split at h1
  · rename_i hl
    cases h1
    obtain ⟨i, -, h2⟩ := bind_eq_ok.1 h0
    obtain ⟨st, hs, h3⟩ := bind_eq_ok.1 h2
    cases h3
    obtain ⟨new, hn, hp⟩ := blocks_pieces _ _ _ _ hs
    refine ⟨correct_pieces ?_, hl⟩
    rw [hn]
    exact hp
  · cases h1

private theorem enc_char (v : WChar) (h : v ≤ 0xffff) : (utf8EncodeChar v).length ≤ 3 := by
  unfold utf8EncodeChar
  split
  · simp
  · split
    · simp
    · simp

private theorem enc_length : ∀ (w : List WChar), (∀ v ∈ w, v ≤ 0xffff) → (utf8Encode w).length ≤ 3 * w.length
  | [], _ => by simp [utf8Encode]
  | v :: w, h => by
    have ih := enc_length w fun x hx => h x (List.mem_cons_of_mem _ hx)
    have := enc_char v (h v (by simp))
    rw [utf8Encode]
    split <;> simp only [List.length_append, List.length_cons, List.length_nil] <;> omega

private theorem accented_le (d u : Byte) (c : WChar) (h : accented d u = some c) : c ≤ 0xffff := by
  have key : ∀ m ∈ isoDiacriticals, ∀ kv ∈ m.2, kv.2 ≤ 0xffff := by decide +kernel
  unfold accented at h
  cases e : isoDiacriticals.lookup d with
  | none => rw [e] at h; cases h
  | some m =>
    rw [e] at h
    simp only [Option.map_some, Option.some.injEq] at h
    subst h
    cases e2 : m.lookup u with
    | none => simp
    | some v =>
      obtain ⟨l1, l2, hm, -⟩ := List.lookup_eq_some_iff.1 e
      obtain ⟨k1, k2, hk, -⟩ := List.lookup_eq_some_iff.1 e2
      exact key (d, m) (by rw [hm]; simp) (u, v) (by rw [hk]; simp)

private theorem main_le (u : Byte) : mainChar u ≤ 0xffff := forall_byte (p := fun u => mainChar u ≤ 0xffff) (by decide +kernel) u

private theorem iso_length {s : Str} {w : List WChar} (h : IsoText s w) : w.length ≤ s.length ∧ ∀ v ∈ w, v ≤ 0xffff := by
  induction h with
  | nil => simp
  | nul => simp
  | char _ _ _ ih =>
    refine ⟨by simp only [List.length_cons]; omega, ?_⟩
    intro v hv
    rcases List.mem_cons.1 hv with rfl | hv
    · exact main_le _
    · exact ih.2 v hv
  | accent _ _ _ hc _ ih =>
    refine ⟨by simp only [List.length_cons]; omega, ?_⟩
    intro v hv
    rcases List.mem_cons.1 hv with rfl | hv
    · exact accented_le _ _ _ hc
    · exact ih.2 v hv
  | again _ _ _ ih => exact ⟨by simp only [List.length_cons] at ih ⊢; omega, ih.2⟩
  | lone => simp
  | loneNul => simp

private theorem from_length {p : Str} {x : Raw} (h : TextFrom p x) : x.text.length ≤ 3 * p.length := by
  obtain ⟨w, hw, e⟩ := h
  have := iso_length hw
  rw [e]
  have := enc_length w this.2
  omega

private theorem pieces_length : ∀ {ps : List Str} {subs : List Raw}, List.Forall₂ TextFrom ps subs → (allText subs).length ≤ 3 * ps.flatten.length
  | _, _, .nil => by simp [allText]
  | _, _, .cons (a := p) (b := x) (l₁ := ps) (l₂ := xs) h t => by
    have ih := pieces_length t
    have := from_length h
    have e : allText (x :: xs) = x.text ++ allText xs := rfl
    rw [e, List.flatten_cons, List.length_append, List.length_append]
    omega

/-! ### Counting -/

private theorem count_le : ∀ {subs : List Raw}, (∀ x ∈ subs, x.text ≠ []) → subs.length ≤ (allText subs).length
  | [], _ => by simp
  | x :: xs, h => by
    have ih := count_le fun y hy => h y (List.mem_cons_of_mem _ hy)
    have := List.length_pos_iff.2 (h x (by simp))
    have e : allText (x :: xs) = x.text ++ allText xs := rfl
    rw [e, List.length_append, List.length_cons]
    omega

private theorem split_count : ∀ (s : Str) (k : Nat), (splitStrGo lineSep k s).length ≤ 1 + (s.length - k) ∧ (s ≠ [] → k = 0 → (splitStrGo lineSep k s).length ≤ s.length)
  | [], k => by cases k <;> simp [splitStrGo]
  | c :: cs, k + 1 => by
    rw [splitStrGo]
    have := (split_count cs k).1
    refine ⟨by simp only [List.length_cons]; omega, fun _ h => by omega⟩
  | c :: cs, 0 => by
    have main : (splitStrGo lineSep 0 (c :: cs)).length ≤ (c :: cs).length := by
      rw [splitStrGo]
      split
      · rename_i hs
        have hl : 3 ≤ (c :: cs).length := by
          have := (startsWith_iff.1 hs).length_le
          exact this
        have := (split_count cs 2).1
        simp only [List.length_cons] at hl ⊢
        show (splitStrGo lineSep 2 cs).length + 1 ≤ _
        omega
      · have h0 := split_count cs 0
        split
        · simp
        · rename_i t ts e
          rw [e] at h0
          by_cases hc : cs = []
          · subst hc; simp [splitStrGo] at e; obtain ⟨rfl, rfl⟩ := e; simp
          · have := h0.2 hc rfl
            simp only [List.length_cons] at this ⊢
            omega
    exact ⟨by omega, fun _ _ => main⟩

private theorem vttSub_count : ∀ (ts : List Str) (p q : Raw) (subs out : List Raw), vttSubLines ts p subs = .ok (q, out) → out.length = subs.length + ts.length
  | [], p, q, subs, out, h => by cases h; simp
  | t :: ts, p, q, subs, out, h => by
    rw [vttSubLines] at h
    simp only at h
    obtain ⟨l, -, h⟩ := bind_eq_ok.1 h
    obtain ⟨l', -, h⟩ := bind_eq_ok.1 h
    have ih := vttSub_count ts _ _ _ _ h
    rw [ih]
    simp only [List.length_append, List.length_cons, List.length_nil]
    omega

private theorem vtt_count : ∀ (ls : List Str) (st : VttState) (ctx : List Str) (p : Raw) (subs out : List Raw), vttLines st ctx p subs ls = .ok out →
    out.length ≤ subs.length + ls.flatten.length
  | [], st, ctx, p, subs, out, h => by
    cases h; simp
  | l :: ls, st, ctx, p, subs, out, h => by
    rw [List.flatten_cons, List.length_append]
    cases st with
    | header =>
      rw [vttLines] at h
      split at h
      · have := vtt_count ls _ _ _ _ _ h; omega
      · cases h
    | data =>
      rw [vttLines] at h
      split at h
      · have := vtt_count ls _ _ _ _ _ h; omega
      · split at h
        · obtain ⟨q, -, h⟩ := bind_eq_ok.1 h
          have := vtt_count ls _ _ _ _ _ h; omega
        · have := vtt_count ls _ _ _ _ _ h; omega
    | subtitle =>
      rw [vttLines] at h
      simp only at h
      split at h
      · have := vtt_count ls _ _ _ _ _ h; omega
      · rename_i hne
        obtain ⟨⟨q, subs'⟩, hq, h⟩ := bind_eq_ok.1 h
        have ih := vtt_count ls _ _ _ _ _ h
        rw [vttSub_count _ _ _ _ _ hq] at ih
        have h1 := (split_count (removeBom (trimRightIf isNlCr l)) 0).2 hne rfl
        have h2 := (sub_clean l).length_le
        unfold splitStr at ih
        omega
    | note =>
      rw [vttLines] at h
      split at h <;> (have := vtt_count ls _ _ _ _ _ h; omega)

/-! ### Fonts -/

/-- A font, if there is one, is named in `s`. -/
def FontIn (s : Str) (o : Option Str) : Prop := ∀ f, o = some f → f <:+: s

private theorem FontIn.none (s : Str) : FontIn s none := fun _ h => by cases h

private theorem field_font {s : Str} {a b : SsaStyle} {k v : Str} (h : a.field k v = .ok b) (hv : v <:+: s) (ha : FontIn s a.fontName) : FontIn s b.fontName := by
  unfold SsaStyle.field at h
  rcases ite_cases h with ⟨-, h⟩ | ⟨-, h⟩
  · cases h; exact ha
  rcases ite_cases h with ⟨-, h⟩ | ⟨-, h⟩
  · cases h; intro f hf; cases hf; exact hv
  rcases ite_cases h with ⟨-, h⟩ | ⟨-, h⟩
  · obtain ⟨x, -, h⟩ := bind_eq_ok.1 h; cases h; exact ha
  rcases ite_cases h with ⟨-, h⟩ | ⟨-, h⟩
  · obtain ⟨x, -, h⟩ := bind_eq_ok.1 h; cases h; exact ha
  rcases ite_cases h with ⟨-, h⟩ | ⟨-, h⟩
  · obtain ⟨x, -, h⟩ := bind_eq_ok.1 h; cases h; exact ha
  rcases ite_cases h with ⟨-, h⟩ | ⟨-, h⟩
  · cases h; exact ha
  rcases ite_cases h with ⟨-, h⟩ | ⟨-, h⟩
  · cases h; exact ha
  rcases ite_cases h with ⟨-, h⟩ | ⟨-, h⟩
  · cases h; exact ha
  rcases ite_cases h with ⟨-, h⟩ | ⟨-, h⟩
  · cases h; split <;> exact ha
  rcases ite_cases h with ⟨-, h⟩ | ⟨-, h⟩
  · cases h; exact ha
  rcases ite_cases h with ⟨-, h⟩ | ⟨-, h⟩
  · obtain ⟨x, -, h⟩ := bind_eq_ok.1 h; cases h; exact ha
  rcases ite_cases h with ⟨-, h⟩ | ⟨-, h⟩
  · obtain ⟨x, -, h⟩ := bind_eq_ok.1 h; cases h; exact ha
  rcases ite_cases h with ⟨-, h⟩ | ⟨-, h⟩
  · obtain ⟨x, -, h⟩ := bind_eq_ok.1 h; cases h; exact ha
  · cases h; exact ha

private theorem sfields_font {s : Str} : ∀ (kvs : List (Str × Str)) (a b : SsaStyle), a.fields kvs = .ok b → (∀ kv ∈ kvs, kv.2 <:+: s) → FontIn s a.fontName → FontIn s b.fontName
  | [], a, b, h, _, ha => by cases h; exact ha
  | (k, v) :: kvs, a, b, h, hv, ha => by
    rw [SsaStyle.fields] at h
    obtain ⟨c, hc, h⟩ := bind_eq_ok.1 h
    exact sfields_font kvs c b h (fun kv hk => hv kv (List.mem_cons_of_mem _ hk)) (field_font hc ((infix_trim v).trans (hv (k, v) (by simp))) ha)

private theorem make_font {s fmt line : Str} {b : SsaStyle} (h : SsaStyle.make fmt line = .ok b) (hl : line <:+: s) : FontIn s b.fontName := by
  unfold SsaStyle.make at h
  obtain ⟨_, -, h⟩ := bind_eq_ok.1 h
  obtain ⟨_, -, h⟩ := bind_eq_ok.1 h
  obtain ⟨_, -, h⟩ := bind_eq_ok.1 h
  refine sfields_font _ _ _ h ?_ (FontIn.none s)
  rintro ⟨k, v⟩ hk
  exact (infix_splitAny _ _ v (List.of_mem_zip hk).2).trans hl

private theorem lookup_mem {l : List (Str × SsaStyle)} {k : Str} {v : SsaStyle} (h : l.lookup k = some v) : (k, v) ∈ l := by
  obtain ⟨l1, l2, e, -⟩ := List.lookup_eq_some_iff.1 h
  rw [e]; simp

private theorem event_font {s : Str} {r : SsaRead} (hr : ∀ st ∈ r.styles, FontIn s st.2.fontName) {ev ev' : SsaEvent} {k v : Str} (h : ssaEventField r ev k v = .ok ev')
    (h1 : FontIn s ev.sub.font) (h2 : ∀ x ∈ ev.subs, FontIn s x.font) : FontIn s ev'.sub.font ∧ ∀ x ∈ ev'.subs, FontIn s x.font := by
  unfold ssaEventField at h
  simp only at h
  rcases ite_cases h with ⟨-, h⟩ | ⟨-, h⟩
  · obtain ⟨t, -, h⟩ := bind_eq_ok.1 h; cases h; exact ⟨h1, h2⟩
  rcases ite_cases h with ⟨-, h⟩ | ⟨-, h⟩
  · obtain ⟨t, -, h⟩ := bind_eq_ok.1 h; cases h; exact ⟨h1, h2⟩
  rcases ite_cases h with ⟨-, h⟩ | ⟨-, h⟩
  · split at h
    · cases h; exact ⟨h1, h2⟩
    · rename_i st hst
      have hin : FontIn s st.fontName := by
        unfold ssaFindStyle at hst
        split at hst
        · rename_i e
          cases hst
          exact hr _ (lookup_mem e)
        · exact hr _ (lookup_mem hst)
      unfold ssaApplyStyle at h
      obtain ⟨fs, -, h⟩ := bind_eq_ok.1 h
      split at h
      · obtain ⟨q, -, h⟩ := bind_eq_ok.1 h; cases h; exact ⟨hin, h2⟩
      · cases h; exact ⟨hin, h2⟩
  rcases ite_cases h with ⟨-, h⟩ | ⟨-, h⟩
  · split at h
    · obtain ⟨f, -, h⟩ := bind_eq_ok.1 h
      obtain ⟨q, -, h⟩ := bind_eq_ok.1 h
      cases h; exact ⟨h1, h2⟩
    · cases h; exact ⟨h1, h2⟩
  rcases ite_cases h with ⟨-, h⟩ | ⟨-, h⟩
  · split at h
    · obtain ⟨q, -, h⟩ := bind_eq_ok.1 h; cases h; exact ⟨h1, h2⟩
    · cases h; exact ⟨h1, h2⟩
  rcases ite_cases h with ⟨-, h⟩ | ⟨-, h⟩
  · split at h
    · obtain ⟨q, -, h⟩ := bind_eq_ok.1 h; cases h; exact ⟨h1, h2⟩
    · cases h; exact ⟨h1, h2⟩
  rcases ite_cases h with ⟨-, h⟩ | ⟨-, h⟩
  · obtain ⟨subs, hs, h⟩ := bind_eq_ok.1 h
    cases h
    refine ⟨h1, fun x hx => ?_⟩
    rcases List.mem_append.1 hx with hx | hx
    · exact h2 x hx
    · have := C79_fixed _ _ _ _ hs x hx
      simp only [Raw.fixedPart, Prod.mk.injEq] at this
      rw [this.2.2.1]
      exact h1
  · cases h; exact ⟨h1, h2⟩

private theorem events_font {s : Str} {r : SsaRead} (hr : ∀ st ∈ r.styles, FontIn s st.2.fontName) : ∀ (kvs : List (Str × Str)) (ev ev' : SsaEvent), ssaEventFields r ev kvs = .ok ev' →
    FontIn s ev.sub.font → (∀ x ∈ ev.subs, FontIn s x.font) → ∀ x ∈ ev'.subs, FontIn s x.font
  | [], ev, ev', h, _, h2 => by cases h; exact h2
  | (k, v) :: kvs, ev, ev', h, h1, h2 => by
    rw [ssaEventFields] at h
    obtain ⟨e1, he, h⟩ := bind_eq_ok.1 h
    obtain ⟨a, b⟩ := event_font hr he h1 h2
    exact events_font hr kvs _ _ h a b

private theorem ssaLine_font {s : Str} {r r' : SsaRead} {raw : Str} (h : ssaLine r raw = .ok r') (hl : raw <:+: s) (h1 : ∀ st ∈ r.styles, FontIn s st.2.fontName)
    (h2 : ∀ x ∈ r.subs, FontIn s x.font) : (∀ st ∈ r'.styles, FontIn s st.2.fontName) ∧ ∀ x ∈ r'.subs, FontIn s x.font := by
  unfold ssaLine at h
  simp only at h
  rcases ite_cases h with ⟨-, h⟩ | ⟨-, h⟩
  · cases h; exact ⟨h1, h2⟩
  rcases ite_cases h with ⟨-, h⟩ | ⟨-, h⟩
  · rcases ite_cases h with ⟨-, h⟩ | ⟨-, h⟩
    · cases h; exact ⟨h1, h2⟩
    rcases ite_cases h with ⟨-, h⟩ | ⟨-, h⟩
    · cases h; exact ⟨h1, h2⟩
    rcases ite_cases h with ⟨-, h⟩ | ⟨-, h⟩
    · cases h; exact ⟨h1, h2⟩
    · cases h; exact ⟨h1, h2⟩
  split at h
  · cases h
  rename_i colon _
  have hb : trim ((removeBom (trim raw)).drop (colon + 1)) <:+: s :=
    (infix_trim _).trans ((List.drop_suffix _ _).isInfix.trans ((infix_removeBom _).trans ((infix_trim raw).trans hl)))
  split at h
  · rcases ite_cases h with ⟨-, h⟩ | ⟨-, h⟩
    · obtain ⟨x, -, h⟩ := bind_eq_ok.1 h; cases h; exact ⟨h1, h2⟩
    rcases ite_cases h with ⟨-, h⟩ | ⟨-, h⟩
    · obtain ⟨x, -, h⟩ := bind_eq_ok.1 h; cases h; exact ⟨h1, h2⟩
    · cases h; exact ⟨h1, h2⟩
  · rcases ite_cases h with ⟨-, h⟩ | ⟨-, h⟩
    · cases h; exact ⟨h1, h2⟩
    rcases ite_cases h with ⟨-, h⟩ | ⟨-, h⟩
    · obtain ⟨_, -, h⟩ := bind_eq_ok.1 h
      obtain ⟨x, hx, h⟩ := bind_eq_ok.1 h
      cases h
      refine ⟨?_, h2⟩
      intro st hst
      rcases List.mem_cons.1 hst with rfl | hst
      · exact make_font hx hb
      · exact h1 st hst
    · cases h; exact ⟨h1, h2⟩
  · rcases ite_cases h with ⟨-, h⟩ | ⟨-, h⟩
    · cases h; exact ⟨h1, h2⟩
    rcases ite_cases h with ⟨-, h⟩ | ⟨-, h⟩
    · unfold ssaDialogue at h
      obtain ⟨_, -, h⟩ := bind_eq_ok.1 h
      obtain ⟨_, -, h⟩ := bind_eq_ok.1 h
      obtain ⟨_, -, h⟩ := bind_eq_ok.1 h
      obtain ⟨ev, he, h⟩ := bind_eq_ok.1 h
      cases h
      refine ⟨h1, fun x hx => ?_⟩
      rcases List.mem_append.1 hx with hx | hx
      · exact h2 x hx
      · exact events_font h1 _ _ _ he (FontIn.none s) (fun y hy => by cases hy) x hx
    · cases h; exact ⟨h1, h2⟩

private theorem ssa_font {s : Str} : ∀ (ls : List Str) (r r' : SsaRead), ssaLines r ls = .ok r' → (∀ l ∈ ls, l <:+: s) → (∀ st ∈ r.styles, FontIn s st.2.fontName) →
    (∀ x ∈ r.subs, FontIn s x.font) → ∀ x ∈ r'.subs, FontIn s x.font
  | [], r, r', h, _, _, h2 => by cases h; exact h2
  | l :: ls, r, r', h, hl, h1, h2 => by
    rw [ssaLines] at h
    obtain ⟨r1, hr, h⟩ := bind_eq_ok.1 h
    obtain ⟨a, b⟩ := ssaLine_font hr (hl l (by simp)) h1 h2
    exact ssa_font ls _ _ h (fun l h => hl l (List.mem_cons_of_mem _ h)) a b

/-- The fonts of the state of the STL text reader. -/
private def StlTextSt.Fonts (s : Str) (st : StlTextSt) : Prop := FontIn s st.sub.font ∧ ∀ x ∈ st.subs, FontIn s x.font

private theorem push_font {s : Str} {st : StlTextSt} (h : st.Fonts s) : st.maybePush.Fonts s := by
  unfold StlTextSt.maybePush
  split
  · exact h
  · refine ⟨h.1, fun x hx => ?_⟩
    rcases List.mem_append.1 hx with hx | hx
    · exact h.2 x hx
    · rw [List.mem_singleton.1 hx]; exact h.1

private theorem chars_font {s : Str} : ∀ (n : Nat) (t : Str), t.length ≤ n → ∀ (st r : StlTextSt), stlTextChars st t = .ok r → st.Fonts s → r.Fonts s := by
  intro n
  induction n with
  | zero =>
    intro t ht st r h hs
    have : t = [] := List.length_eq_zero_iff.1 (Nat.le_zero.1 ht)
    subst this
    cases h; exact hs
  | succ n ih =>
    intro t ht st r h hs
    unfold stlTextChars at h
    split at h
    · cases h; exact hs
    · rename_i cs
      obtain ⟨l, -, h⟩ := bind_eq_ok.1 h
      obtain ⟨l', -, h⟩ := bind_eq_ok.1 h
      exact ih cs (by simpa using ht) _ _ h (push_font hs)
    · cases h
      exact push_font hs
    · rename_i d cs
      refine ih cs (by simp only [List.length_cons] at ht; omega) _ _ h ?_
      have := push_font hs
      repeat' split
      all_goals exact this
    · rename_i c cs _ _ _
      exact ih cs (by simpa using ht) _ _ h hs

private theorem set_font {s : Str} {st r : StlTextSt} {n v : Str} (h : st.set n v = .ok r) (hv : v <:+: s) (hs : st.Fonts s) : r.Fonts s := by
  unfold StlTextSt.set at h
  rcases ite_cases h with ⟨-, h⟩ | ⟨-, h⟩
  · cases h; exact ⟨fun f hf => by cases hf; exact hv, hs.2⟩
  rcases ite_cases h with ⟨-, h⟩ | ⟨-, h⟩
  · cases h; exact hs
  rcases ite_cases h with ⟨-, h⟩ | ⟨-, h⟩
  · cases h; exact hs
  rcases ite_cases h with ⟨-, h⟩ | ⟨-, h⟩
  · cases h; exact hs
  rcases ite_cases h with ⟨-, h⟩ | ⟨-, h⟩
  · obtain ⟨i, -, h⟩ := bind_eq_ok.1 h
    cases h; exact hs
  · cases h; exact hs

private theorem stlLine_font {s : Str} {st r : StlTextSt} {raw : Str} (h : stlTextLine st raw = .ok r) (hl : raw <:+: s) (hs : st.Fonts s) : r.Fonts s := by
  unfold stlTextLine at h
  simp only at h
  rcases ite_cases h with ⟨-, h⟩ | ⟨-, h⟩
  · cases h; exact hs
  rcases ite_cases h with ⟨-, h⟩ | ⟨-, h⟩
  · split at h
    · rename_i n v e
      refine set_font h ((infix_trim v).trans ((infix_splitAny (· == 61) _ v (by rw [e]; simp)).trans ((infix_trim raw).trans hl))) hs
    · cases h; exact hs
  split at h
  · cases h; exact hs
  split at h
  · cases h; exact hs
  rcases ite_cases h with ⟨-, h⟩ | ⟨-, h⟩
  · cases h; exact hs
  obtain ⟨f, -, h⟩ := bind_eq_ok.1 h
  obtain ⟨t, -, h⟩ := bind_eq_ok.1 h
  split at h
  · obtain ⟨s', h1, h⟩ := bind_eq_ok.1 h
    cases h
    exact push_font (chars_font _ _ le_rfl _ _ h1 hs)
  · cases h; exact hs

private theorem stlLines_font {s : Str} : ∀ (ls : List Str) (st r : StlTextSt), stlTextLines st ls = .ok r → (∀ l ∈ ls, l <:+: s) → st.Fonts s → r.Fonts s
  | [], st, r, h, _, hs => by cases h; exact hs
  | l :: ls, st, r, h, hl, hs => by
    rw [stlTextLines] at h
    obtain ⟨s1, h1, h⟩ := bind_eq_ok.1 h
    exact stlLines_font ls _ _ h (fun l h => hl l (List.mem_cons_of_mem _ h)) (stlLine_font h1 (hl l (by simp)) hs)

/-! ### C127 -/

/-- C127: SubRip. -/
theorem C127_subrip (s : Str) (subs : List Raw) (h : srtReadString s = .ok subs ∨ srtReadFile s = .ok subs) : allText subs <+ s ∧ subs.length ≤ s.length := by
  have key : ∀ ls : List Str, ls.flatten <+ s → srtRead ls = .ok subs → allText subs <+ s ∧ subs.length ≤ s.length := fun ls hl h => by
    have h1 := (srt_now ls _ _ _ _ _ _ h).trans hl
    exact ⟨h1, (count_le (C27_subrip ls subs h)).trans h1.length_le⟩
  rcases h with h | h
  · exact key _ (sub_linesOfString s) h
  · exact key _ (sub_linesOfFile s) h

/-- Tags, times and numbers are left out, and the marks of U+202B. -/
example : (srtReadString b!"1\n00:00:01,000 --> 00:00:02,000\n<i>a</i> {b}b\n\u202Bc\n").toOption.map allText = some b!"a bc" := by decide +kernel

/-- C127: WebVTT. -/
theorem C127_webvtt (s : Str) (subs : List Raw) (h : vttReadString s = .ok subs ∨ vttReadFile s = .ok subs) : allText subs <+ s ∧ subs.length ≤ s.length := by
  have key : ∀ ls : List Str, ls.flatten <+ s → vttRead ls = .ok subs → allText subs <+ s ∧ subs.length ≤ s.length := fun ls hl h => by
    have h1 := (vtt_now ls _ _ _ _ _ h).trans hl
    have h2 := vtt_count ls _ _ _ _ _ h
    have h3 := hl.length_le
    simp only [List.length_nil] at h2
    exact ⟨h1, by omega⟩
  rcases h with h | h
  · exact key _ (sub_linesOfString s) h
  · exact key _ (sub_linesOfFile s) h

/-- There may be pieces without text: here three pieces from a line of seven bytes. -/
example : (vttReadString b!"WEBVTT\n\n00:00:01.000 --> 00:00:02.000\n\u2028\u2028x\n").toOption.map (fun l => (l.length, allText l)) = some (3, b!"x") := by
  decide +kernel

/-- C127: SSA. -/
theorem C127_ssa (s : Str) (subs : List Raw) (h : ssaReadString s = .ok subs ∨ ssaReadFile s = .ok subs) : allText subs <+ s ∧ subs.length ≤ s.length := by
  have h1 : allText subs <+ s := by
    rcases h with h | h
    · obtain ⟨r, hr, h⟩ := bind_eq_ok.1 h
      cases h
      exact (ssa_now _ _ _ hr).trans (sub_linesOfString s)
    · obtain ⟨r, hr, h⟩ := bind_eq_ok.1 h
      cases h
      exact (ssa_now _ _ _ hr).trans (sub_linesOfFile s)
  exact ⟨h1, (count_le (C27_ssa s subs h)).trans h1.length_le⟩

/-- A script with a font; commas in the text are kept. -/
private def inventDemo : Str := b!"[V4+ Styles]\nFormat: Name, Fontname\nStyle: Default, Gill Sans\n[Events]\nFormat: Start, End, Style, Text\nDialogue: 0:00:01.00,0:00:02.00,Default,{\\i1}a,{\\b1}b\\nc\n"

example : (ssaReadString inventDemo).toOption.map allText = some b!"a,bc" := by decide +kernel

/-- C127: STL text. -/
theorem C127_stl_text (s : Str) (subs : List Raw) (h : stlTextRead s = .ok subs) : allText subs <+ s ∧ subs.length ≤ s.length := by
  have h1 : allText subs <+ s := by
    have h0 := h
    unfold stlTextRead at h0
    obtain ⟨r, hr, h0⟩ := bind_eq_ok.1 h0
    cases h0
    have h2 := (List.sublist_append_left _ _).trans (stlLines_now _ _ _ hr)
    refine h2.trans ?_
    show (streamLines s).flatten <+ s
    unfold streamLines
    refine List.Sublist.trans ?_ (sub_splitAny (· == 10) s)
    exact (List.dropLast_sublist _).flatten
  exact ⟨h1, (count_le (C27_stltext s subs h)).trans h1.length_le⟩

example : (stlTextRead b!"$FontName = Gill Sans\n00:00:01:00 , 00:00:02:00 , a^Ib|c\n").toOption.map allText = some b!" abc" := by decide +kernel

/-- C127: binary STL. -/
theorem C127_stl_binary (file : Str) (info : StlInfo) (subs : List Raw) (h : stlRead file = .ok (info, subs)) :
    (∃ pieces : List Str, pieces.flatten <+ file.drop 1024 ∧ List.Forall₂ TextFrom pieces subs) ∧
      subs.length ≤ file.length - 1024 ∧ (allText subs).length ≤ 3 * (file.length - 1024) := by
  obtain ⟨⟨ps, h1, h2, h3⟩, h4⟩ := read_pieces h
  have h5 := h1.length_le
  rw [List.length_drop] at h3 h5
  refine ⟨⟨ps, h1, h2⟩, h3, ?_⟩
  have := pieces_length h2
  omega

/-- Three bytes of UTF-8 for one byte of ISO 6937 do occur. -/
example : TextFrom [0xa9] { text := b!"\u2018" } ∧ (allText [{ text := b!"\u2018" }]).length = 3 :=
  ⟨⟨[0x2018], C53_text.1 (by decide +kernel), by decide +kernel⟩, by decide +kernel⟩

/-- A block with an accented letter and a colour: two pieces. -/
example : (stlRead (stlFileDemo b!"00001" [stlBlockDemo 3 0 (b!"caf" ++ [0xc2, 101, 1] ++ b!"b")])).toOption.map (fun r => allText r.2) = some b!"caf\u00E9b" := by
  decide +kernel

/-- C127: the name of a font is to be found in the file, in one piece. -/
theorem C127_fonts (s : Str) (subs : List Raw) (h : ssaReadString s = .ok subs ∨ ssaReadFile s = .ok subs ∨ stlTextRead s = .ok subs) :
    ∀ x ∈ subs, ∀ f, x.font = some f → f <:+: s := by
  rcases h with h | h | h
  · obtain ⟨r, hr, h⟩ := bind_eq_ok.1 h
    cases h
    exact ssa_font _ _ _ hr (infix_linesOfString s) (fun _ h => by cases h) (fun _ h => by cases h)
  · obtain ⟨r, hr, h⟩ := bind_eq_ok.1 h
    cases h
    exact ssa_font _ _ _ hr (infix_linesOfFile s) (fun _ h => by cases h) (fun _ h => by cases h)
  · unfold stlTextRead at h
    obtain ⟨r, hr, h⟩ := bind_eq_ok.1 h
    cases h
    refine (stlLines_font (s := s) _ _ _ hr ?_ ⟨FontIn.none s, fun _ h => by cases h⟩).2
    intro l hl
    exact infix_splitAny (· == 10) s l (List.dropLast_subset _ hl)

example : (ssaReadString inventDemo).toOption.map (fun l => l.map (·.font)) = some [some b!"Gill Sans", some b!"Gill Sans", some b!"Gill Sans"] := by decide +kernel

end LibSub
