/-
Properties C26 to C32 and C34: SubRip files in general.
-/
import Verif.Props.SubRipFile
import Verif.Model.Utf8
import Verif.Lemmas.Err

namespace LibSub

/-! ### C26: style scope -/

private theorem fold_blank {s s' : SrtSt} (h : srtStep s [] = .ok s') : s'.1 = .counter ∧ s'.2.2 = s.2.2 := by
  unfold srtStep at h
  rw [show cleanLine [] = [] from rfl] at h
  split at h
  · rename_i e
    rw [if_pos rfl] at h
    cases h
    exact ⟨e, rfl⟩
  · exfalso
    obtain ⟨a, h1, _⟩ := bind_eq_ok.1 h
    have : srtMetadata 0 [] [] [] s.2.1 = .error (.subrip 0 [] b!"a time/position line" []) := rfl
    rw [this] at h1
    cases h1
  · rw [if_pos rfl] at h
    cases h
    exact ⟨rfl, rfl⟩

/-- C26: what comes before a blank line has no influence on how the rest is read. -/
theorem C26_scope (A B : List Str) (sA : List Raw) (hA : srtRead (A ++ [[]]) = .ok sA) (s : List Raw) :
    srtRead (A ++ [[]] ++ B) = .ok s ↔ ∃ sB, srtRead B = .ok sB ∧ s = sA ++ sB := by
  rw [srtRead_ok_iff] at hA
  obtain ⟨st, rs, hA⟩ := hA
  have hst : st = .counter := by
    rw [srtFold_append] at hA
    obtain ⟨s1, _, h2⟩ := bind_eq_ok.1 hA
    rw [srtFold] at h2
    obtain ⟨s2, h3, h4⟩ := bind_eq_ok.1 h2
    cases h4
    exact (fold_blank h3).1
  subst hst
  have h1 : srtRead (A ++ [[]] ++ B) = .ok s ↔ srtLines 0 .counter [] rs sA B = .ok s := by
    rw [srtRead_ok_iff, (srtLines_fold _ _ _ _ _ _).iff, srtFold_append, hA]
    show (∃ st rs', srtFold (.counter, rs, sA) B = .ok (st, rs', s)) ↔ _
    constructor
    · rintro ⟨st, rs', h⟩
      rw [h]
      rfl
    · intro h
      obtain ⟨q, h1, h2⟩ := bind_eq_ok.1 h
      cases h2
      exact ⟨q.1, q.2.1, h1⟩
  rw [h1, (srtLines_counter_okEq _ _ _ _ _).iff]
  cases srtRead B with
  | error e => simp [Except.map]
  | ok sB => simp [Except.map, eq_comm]

/-- The hypothesis holds of files with style left on. -/
example : (srtRead ([b!"1", b!"0:0:1,0 --> 0:0:2,0", b!"<b>x"] ++ [[]])).toOption.map (·.map Raw.bold) = some [true] := by decide +kernel

/-! ### C27: no empty text -/

private def NE (subs : List Raw) : Prop := ∀ r ∈ subs, r.text ≠ []

private theorem maybeContent_ne {s : SrtLine} (h : NE s.subs) : NE s.maybeContent.subs := by
  unfold SrtLine.maybeContent
  split
  · exact h
  · rename_i he
    intro r hr
    simp only [List.mem_append, List.mem_singleton] at hr
    rcases hr with hr | rfl
    · exact h r hr
    · simpa using he

private theorem exec_ne {n : Nat} {ctx : List Str} {s s' : SrtLine} {t : Tok} (h : NE s.subs) (he : s.exec n ctx t = .ok s') : NE s'.subs := by
  have hm := maybeContent_ne h
  cases t with
  | fontOpen tag =>
    obtain ⟨c, _, h2⟩ := bind_eq_ok.1 he
    cases h2
    exact hm
  | fontClose =>
    unfold SrtLine.exec at he
    simp only at he
    split at he
    · cases he; exact hm
    · split at he
      · cases he; exact hm
      · cases he
  | ssa tag =>
    obtain ⟨c, _, h2⟩ := bind_eq_ok.1 he
    cases h2
    exact h
  | chr c => cases he; exact h
  | _ => cases he; exact hm

private theorem loop_ne {n : Nat} {ctx : List Str} {f : Nat} {s s' : SrtLine} {t : Str} (h : NE s.subs) (he : srtLoop n ctx f s t = .ok s') : NE s'.subs := by
  induction f generalizing s t with
  | zero => cases t <;> (cases he; exact h)
  | succ f ih =>
    cases t with
    | nil => cases he; exact h
    | cons c cs =>
      obtain ⟨s1, h1, h2⟩ := bind_eq_ok.1 he
      exact ih (exec_ne h h1) h2

private theorem convertLine_ne {n : Nat} {ctx : List Str} {t : Str} {p : Raw} {subs : List Raw} {q : Raw × List Raw} (h : NE subs)
    (he : convertLine n ctx t p subs = .ok q) : NE q.2 := by
  obtain ⟨s, h1, h2⟩ := bind_eq_ok.1 he
  cases h2
  exact maybeContent_ne (s := ⟨_, s.colours, s.subs⟩) (loop_ne (s := ⟨p, [⟨1, 1, 1⟩], subs⟩) h h1 : NE s.subs)

private theorem convertSubLines_ne {n : Nat} {ctx : List Str} {ts : List Str} {p : Raw} {subs : List Raw} {q : Raw × List Raw} (h : NE subs)
    (he : convertSubLines n ctx ts p subs = .ok q) : NE q.2 := by
  induction ts generalizing p subs with
  | nil => cases he; exact h
  | cons t ts ih =>
    obtain ⟨q1, h1, h2⟩ := bind_eq_ok.1 he
    obtain ⟨l, _, h3⟩ := bind_eq_ok.1 h2
    obtain ⟨l', _, h4⟩ := bind_eq_ok.1 h3
    exact ih (convertLine_ne h h1) h4

private theorem fold_ne {ls : List Str} {s s' : SrtSt} (h : NE s.2.2) (he : srtFold s ls = .ok s') : NE s'.2.2 := by
  induction ls generalizing s with
  | nil => cases he; exact h
  | cons l ls ih =>
    obtain ⟨s1, h1, h2⟩ := bind_eq_ok.1 he
    apply ih _ h2
    unfold srtStep at h1
    split at h1
    · split at h1
      · cases h1; exact h
      · cases h1; exact h
    · obtain ⟨r, _, h3⟩ := bind_eq_ok.1 h1
      cases h3
      exact h
    · split at h1
      · cases h1; exact h
      · obtain ⟨r, h4, h3⟩ := bind_eq_ok.1 h1
        cases h3
        exact convertSubLines_ne h h4

/-- C27 for SubRip: every subtitle read has some text. -/
theorem C27_subrip (lines : List Str) (subs : List Raw) (h : srtRead lines = .ok subs) : ∀ r ∈ subs, r.text ≠ [] := by
  rw [srtRead_ok_iff] at h
  obtain ⟨st, rs, h⟩ := h
  exact fold_ne (s := (.counter, srtFresh, [])) (by intro r hr; cases hr) h

/-- A file with lines of tags only. -/
example : (srtReadString b!"1\n0:0:1,0 --> 0:0:2,0\n<b></b>\n\u202B\nx<i><u>y").toOption.map (·.map Raw.text) = some [b!"x", b!"y"] := by decide +kernel

/-! ### C28: error reports -/

/-- The last `k` elements. -/
def lastN {α : Type} (k : Nat) (l : List α) : List α := l.drop (l.length - k)

theorem pushContext_lastN (A : List Str) (l : Str) : pushContext (lastN 5 A) l = lastN 5 (A ++ [l]) := by
  unfold pushContext lastN
  simp only [List.length_append, List.length_drop, List.length_cons, List.length_nil]
  split
  · rw [show (A.length + (0 + 1) - 5) = 1 + (A.length - 5) by omega, List.drop_append_of_le_length (by simp; omega), List.drop_drop,
      List.drop_append_of_le_length (by omega), Nat.add_comm]
  · rw [show A.length - 5 = 0 by omega, show A.length + (0 + 1) - 5 = 0 by omega]
    rfl

/-- A report about line `n` with context `ctx`, about something seen in `line`. -/
private def Report (n : Nat) (ctx : List Str) (line : Str) : Err → Prop
  | .subrip m saw _ c => m = n ∧ c = ctx ∧ saw <:+: line
  | _ => True

private theorem report_plain {n : Nat} {ctx : List Str} {line : Str} : ∀ e, Err.Plain e → Report n ctx line e := by
  intro e he
  cases e <;> first | exact trivial | exact he.elim

private theorem report_mono {n : Nat} {ctx : List Str} {a b : Str} (h : a <:+: b) : ∀ e, Report n ctx a e → Report n ctx b e := by
  intro e he
  cases e <;> first | trivial | exact ⟨he.1, he.2.1, he.2.2.trans h⟩

private theorem fontColour_report (n : Nat) (ctx : List Str) (tag : Str) : ErrIn (Report n ctx tag) (fontColour n ctx tag) := by
  unfold fontColour
  split
  · exact .ite ((plain_fromRgbHex _).mono report_plain) (.ite ((plain_fromRgbaHex _).mono report_plain) (.error ⟨rfl, rfl, List.infix_refl _⟩))
  · split
    · exact .bind ((plain_decComp _).mono report_plain) fun _ _ => .bind ((plain_decComp _).mono report_plain) fun _ _ =>
        .bind ((plain_decComp _).mono report_plain) fun _ _ => .ok _
    · exact .error ⟨rfl, rfl, List.infix_refl _⟩

private theorem nextTok_tag (c : Byte) (cs : Str) (tag : Str) (h : (nextTok c cs).1 = .fontOpen tag) : tag <:+: c :: cs := by
  unfold nextTok at h
  simp only at h
  repeat' split at h
  all_goals first | (cases h; done) | (cases h; exact (List.takeWhile_prefix _).isInfix.trans (List.drop_suffix _ _).isInfix)

theorem nextTok_suffix (c : Byte) (cs : Str) : (nextTok c cs).2 <:+ c :: cs := by
  unfold nextTok
  simp only
  repeat' split
  all_goals first | exact List.drop_suffix _ _ | exact (List.drop_suffix _ _).trans (List.drop_suffix _ _) | exact List.suffix_cons _ _

private theorem exec_report (n : Nat) (ctx : List Str) (s : SrtLine) (t : Tok) (line : Str) (h : ∀ tag, t = .fontOpen tag → tag <:+: line) :
    ErrIn (Report n ctx line) (s.exec n ctx t) := by
  cases t with
  | fontOpen tag => exact .bind ((fontColour_report n ctx tag).mono (report_mono (h tag rfl))) fun _ _ => .ok _
  | ssa tag => exact .bind ((plain_ssaParseTag _ _ _).mono report_plain) fun _ _ => .ok _
  | fontClose =>
    unfold SrtLine.exec
    refine .ite (.ok _) ?_
    split
    · exact .ok _
    · exact .error trivial
  | _ => exact .ok _

private theorem loop_report (n : Nat) (ctx : List Str) (f : Nat) (s : SrtLine) (t line : Str) (h : t <:+: line) :
    ErrIn (Report n ctx line) (srtLoop n ctx f s t) := by
  induction f generalizing s t with
  | zero => cases t <;> exact .ok _
  | succ f ih =>
    cases t with
    | nil => exact .ok _
    | cons c cs =>
      refine .bind (exec_report _ _ _ _ _ fun tag ht => (nextTok_tag c cs tag ht).trans h) fun s' _ => ih s' _ ?_
      exact (nextTok_suffix c cs).isInfix.trans h

private theorem subLines_report (n : Nat) (ctx : List Str) (ts : List Str) (line : Str) (h : ∀ t ∈ ts, t <:+: line) (p : Raw) (subs : List Raw) :
    ErrIn (Report n ctx line) (convertSubLines n ctx ts p subs) := by
  induction ts generalizing p subs with
  | nil => exact .ok _
  | cons t ts ih =>
    refine .bind (.bind (loop_report _ _ _ _ _ _ (h t (by simp))) fun _ _ => .ok _) fun q _ => ?_
    obtain ⟨p', subs'⟩ := q
    exact .bind ((plain_optGet _).mono report_plain) fun _ _ => .bind ((plain_ck _).mono report_plain) fun _ _ => ih (fun x hx => h x (by simp [hx])) _ _

theorem splitStrGo_infix (sep : Str) (k : Nat) (s : Str) : ∀ x ∈ splitStrGo sep k s, x <:+: s := by
  have key : ∀ (s : Str) (k : Nat), (∀ x ∈ splitStrGo sep k s, x <:+: s) ∧ (k = 0 → ∃ x xs, splitStrGo sep k s = x :: xs ∧ x <+: s) := by
    intro s
    induction s with
    | nil => intro k; cases k <;> simp [splitStrGo]
    | cons c cs ih =>
      intro k
      cases k with
      | succ k =>
        rw [splitStrGo]
        exact ⟨fun x hx => ((ih k).1 x hx).trans (List.suffix_cons _ _).isInfix, fun h => by cases h⟩
      | zero =>
        rw [splitStrGo]
        split
        · refine ⟨?_, fun _ => ⟨_, _, rfl, List.nil_prefix⟩⟩
          intro x hx
          rw [List.mem_cons] at hx
          rcases hx with rfl | hx
          · exact List.nil_infix
          · exact ((ih _).1 x hx).trans (List.suffix_cons _ _).isInfix
        · obtain ⟨y, ys, e, hp⟩ := (ih 0).2 rfl
          rw [e]
          refine ⟨?_, fun _ => ⟨_, _, rfl, by simpa using hp⟩⟩
          intro x hx
          rw [List.mem_cons] at hx
          rcases hx with rfl | hx
          · exact (show c :: y <+: c :: cs by simpa using hp).isInfix
          · exact ((ih 0).1 x (by rw [e]; simp [hx])).trans (List.suffix_cons _ _).isInfix
  exact (key s k).1

private theorem splitCompressGo_infix (p : Byte → Bool) (b : Bool) (s : Str) : ∀ x ∈ splitCompressGo p b s, x <:+: s := by
  have key : ∀ (s : Str) (b : Bool), (∀ x ∈ splitCompressGo p b s, x <:+: s) ∧ (b = false → ∃ x xs, splitCompressGo p b s = x :: xs ∧ x <+: s) := by
    intro s
    induction s with
    | nil => intro b; simp [splitCompressGo]
    | cons c cs ih =>
      intro b
      rw [splitCompressGo]
      split
      · split
        · rename_i hb
          exact ⟨fun x hx => ((ih true).1 x hx).trans (List.suffix_cons _ _).isInfix, fun h => by rw [h] at hb; cases hb⟩
        · refine ⟨?_, fun _ => ⟨_, _, rfl, List.nil_prefix⟩⟩
          intro x hx
          rw [List.mem_cons] at hx
          rcases hx with rfl | hx
          · exact List.nil_infix
          · exact ((ih _).1 x hx).trans (List.suffix_cons _ _).isInfix
      · obtain ⟨y, ys, e, hp⟩ := (ih false).2 rfl
        rw [e]
        refine ⟨?_, fun _ => ⟨_, _, rfl, by simpa using hp⟩⟩
        intro x hx
        rw [List.mem_cons] at hx
        rcases hx with rfl | hx
        · exact (show c :: y <+: c :: cs by simpa using hp).isInfix
        · exact ((ih false).1 x (by rw [e]; simp [hx])).trans (List.suffix_cons _ _).isInfix
  exact (key s b).1

private theorem trimRightIf_infix (p : Byte → Bool) (s : Str) : trimRightIf p s <:+: s := by
  obtain ⟨b, e, _⟩ := trimRightIf_prefix p s
  exact List.IsPrefix.isInfix ⟨b, e.symm⟩

private theorem getD_infix {ts : List Str} {s : Str} (h : ∀ x ∈ ts, x <:+: s) (i : Nat) : ts.getD i [] <:+: s := by
  rw [List.getD_eq_getElem?_getD]
  cases hi : ts[i]? with
  | none => exact List.nil_infix
  | some x => exact h x (List.mem_of_getElem? hi)

/-- What `srtMetadata` reports. -/
private theorem metadata_report {n : Nat} {ctx : List Str} {line : Str} {rest : List Str} {rs : Raw} {m : Nat} {saw ex : Str} {c : List Str}
    (h : srtMetadata n ctx line rest rs = .error (.subrip m saw ex c)) :
    m = n ∧ saw <:+: line ∧ (c = ctx ∨ c = ctx ++ rest.take 2) ∧ ∀ rest', ∃ c', srtMetadata n ctx line rest' rs = .error (.subrip m saw ex c') := by
  unfold srtMetadata at h ⊢
  simp only at h ⊢
  have hinf : ∀ x ∈ splitCompress (fun x => x == 32) (trimRightIf (fun x => x == 32) line), x <:+: line :=
    fun x hx => (splitCompressGo_infix _ _ _ x hx).trans (trimRightIf_infix _ _)
  generalize hw : splitCompress (fun x => x == 32) (trimRightIf (fun x => x == 32) line) = w at h hinf ⊢
  by_cases hl : w.length ≠ 3 ∧ w.length ≠ 7
  · rw [if_pos hl] at h
    cases h
    exact ⟨rfl, trimRightIf_infix _ _, .inr rfl, fun rest' => ⟨_, by rw [if_pos hl]⟩⟩
  · rw [if_neg hl] at h
    have pt := plain_convertTime
    cases h0 : convertTime (w.getD 0 []) b!"," with
    | error e =>
      rw [h0] at h
      cases h
      exact ((pt _ _).h _ h0).elim
    | ok r0 =>
      rw [h0] at h
      cases r0 with
      | error e =>
        cases h
        exact ⟨rfl, getD_infix hinf 0, .inl rfl, fun rest' => ⟨ctx, by rw [if_neg hl]; rfl⟩⟩
      | ok t0 =>
        cases h2 : convertTime (w.getD 2 []) b!"," with
        | error e =>
          simp only [ok_bind, h2, error_bind] at h
          cases h
          exact ((pt _ _).h _ h2).elim
        | ok r2 =>
          simp only [ok_bind, h2] at h
          cases r2 with
          | error e =>
            cases h
            refine ⟨rfl, getD_infix hinf 2, .inl rfl, fun rest' => ⟨ctx, ?_⟩⟩
            rw [if_neg hl]
            simp only [ok_bind]
          | ok t2 => cases h

/-- The situation when line `m` is rejected. -/
private def Rejects (n : Nat) (st : SrtState) (A : List Str) (rs : Raw) (subs : List Raw) (ls : List Str) (m : Nat) (saw ex : Str) (c : List Str) : Prop :=
  ∃ A2 l B, ls = A2 ++ l :: B ∧ m = n + A2.length + 1 ∧ (∃ r, srtLines n st (lastN 5 (A.map cleanLine)) rs subs A2 = .ok r) ∧ saw <:+: cleanLine l ∧
    (c = lastN 5 ((A ++ A2 ++ [l]).map cleanLine) ∨ c = lastN 5 ((A ++ A2 ++ [l]).map cleanLine) ++ B.take 2) ∧
    ∀ B', ∃ c', srtLines n st (lastN 5 (A.map cleanLine)) rs subs (A2 ++ l :: B') = .error (.subrip m saw ex c')

private theorem rejects (n : Nat) (st : SrtState) (A : List Str) (rs : Raw) (subs : List Raw) (ls : List Str) (m : Nat) (saw ex : Str) (c : List Str)
    (h : srtLines n st (lastN 5 (A.map cleanLine)) rs subs ls = .error (.subrip m saw ex c)) : Rejects n st A rs subs ls m saw ex c := by
  induction ls generalizing n st A rs subs with
  | nil => cases h
  | cons l ls ih =>
    have hctx : pushContext (lastN 5 (A.map cleanLine)) (cleanLine l) = lastN 5 ((A ++ [l]).map cleanLine) := by
      rw [pushContext_lastN, List.map_append]; rfl
    have step : ∀ (st' : SrtState) (rs' : Raw) (subs' : List Raw),
        (∀ ls', (∃ r, srtLines (n + 1) st' (lastN 5 ((A ++ [l]).map cleanLine)) rs' subs' ls' = .ok r) →
          ∃ r, srtLines n st (lastN 5 (A.map cleanLine)) rs subs (l :: ls') = .ok r) →
        (∀ ls' e, srtLines (n + 1) st' (lastN 5 ((A ++ [l]).map cleanLine)) rs' subs' ls' = .error e →
          srtLines n st (lastN 5 (A.map cleanLine)) rs subs (l :: ls') = .error e) →
        srtLines (n + 1) st' (lastN 5 ((A ++ [l]).map cleanLine)) rs' subs' ls = .error (.subrip m saw ex c) →
        Rejects n st A rs subs (l :: ls) m saw ex c := by
      intro st' rs' subs' hok herr he
      obtain ⟨A2, l2, B, e1, e2, h3, h4, h5, h6⟩ := ih (n + 1) st' (A ++ [l]) rs' subs' he
      refine ⟨l :: A2, l2, B, by rw [e1]; rfl, by rw [e2, List.length_cons]; omega, hok A2 h3, h4, ?_, ?_⟩
      · have : A ++ l :: A2 ++ [l2] = A ++ [l] ++ A2 ++ [l2] := by simp
        rw [this]
        exact h5
      · intro B'
        obtain ⟨c', h7⟩ := h6 B'
        exact ⟨c', herr _ _ h7⟩
    have here : (∀ B', ∃ c', srtLines n st (lastN 5 (A.map cleanLine)) rs subs (l :: B') = .error (.subrip m saw ex c')) → m = n + 1 → saw <:+: cleanLine l →
        (c = lastN 5 ((A ++ [l]).map cleanLine) ∨ c = lastN 5 ((A ++ [l]).map cleanLine) ++ ls.take 2) → Rejects n st A rs subs (l :: ls) m saw ex c := by
      intro h1 h2 h3 h4
      exact ⟨[], l, ls, rfl, h2, ⟨subs, rfl⟩, h3, by simpa using h4, h1⟩
    cases st with
    | counter =>
      by_cases hl : cleanLine l = []
      · have e : ∀ ls', srtLines n .counter (lastN 5 (A.map cleanLine)) rs subs (l :: ls') = srtLines (n + 1) .counter (lastN 5 ((A ++ [l]).map cleanLine)) rs subs ls' := by
          intro ls'
          rw [← hctx, srtLines]
          exact if_pos hl
        exact step .counter rs subs (fun ls' h' => by rw [e]; exact h') (fun ls' e' h' => by rw [e]; exact h') (by rw [← e]; exact h)
      · have e : ∀ ls', srtLines n .counter (lastN 5 (A.map cleanLine)) rs subs (l :: ls') = srtLines (n + 1) .metadata (lastN 5 ((A ++ [l]).map cleanLine)) srtFresh subs ls' := by
          intro ls'
          rw [← hctx, srtLines]
          exact if_neg hl
        exact step .metadata srtFresh subs (fun ls' h' => by rw [e]; exact h') (fun ls' e' h' => by rw [e]; exact h') (by rw [← e]; exact h)
    | metadata =>
      have e : ∀ ls', srtLines n .metadata (lastN 5 (A.map cleanLine)) rs subs (l :: ls') =
          (srtMetadata (n + 1) (lastN 5 ((A ++ [l]).map cleanLine)) (cleanLine l) ls' rs).bind (fun rs => srtLines (n + 1) .content (lastN 5 ((A ++ [l]).map cleanLine)) rs subs ls') := by
        intro ls'
        rw [← hctx, srtLines]
        rfl
      rw [e] at h
      cases hm : srtMetadata (n + 1) (lastN 5 ((A ++ [l]).map cleanLine)) (cleanLine l) ls rs with
      | error er =>
        rw [hm] at h
        cases h
        obtain ⟨r1, r2, r3, r4⟩ := metadata_report hm
        refine here ?_ r1 r2 r3
        intro B'
        obtain ⟨c', h'⟩ := r4 B'
        exact ⟨c', by rw [e, h']; rfl⟩
      | ok rs' =>
        rw [hm] at h
        have hm' : ∀ ls', srtMetadata (n + 1) (lastN 5 ((A ++ [l]).map cleanLine)) (cleanLine l) ls' rs = .ok rs' :=
          fun ls' => ((srtMetadata_okEq ..).iff _).1 hm
        exact step .content rs' subs (fun ls' h' => by rw [e, hm']; exact h') (fun ls' e' h' => by rw [e, hm']; exact h') h
    | content =>
      by_cases hl : cleanLine l = []
      · have e : ∀ ls', srtLines n .content (lastN 5 (A.map cleanLine)) rs subs (l :: ls') = srtLines (n + 1) .counter (lastN 5 ((A ++ [l]).map cleanLine)) rs subs ls' := by
          intro ls'
          rw [← hctx, srtLines]
          exact if_pos hl
        exact step .counter rs subs (fun ls' h' => by rw [e]; exact h') (fun ls' e' h' => by rw [e]; exact h') (by rw [← e]; exact h)
      · have e : ∀ ls', srtLines n .content (lastN 5 (A.map cleanLine)) rs subs (l :: ls') =
            (convertSubLines (n + 1) (lastN 5 ((A ++ [l]).map cleanLine)) (splitStr lineSep (cleanLine l)) rs subs).bind
              (fun q => srtLines (n + 1) .content (lastN 5 ((A ++ [l]).map cleanLine)) q.1 q.2 ls') := by
          intro ls'
          rw [← hctx, srtLines]
          exact if_neg hl
        rw [e] at h
        cases hm : convertSubLines (n + 1) (lastN 5 ((A ++ [l]).map cleanLine)) (splitStr lineSep (cleanLine l)) rs subs with
        | error er =>
          rw [hm] at h
          cases h
          have := (subLines_report (n + 1) (lastN 5 ((A ++ [l]).map cleanLine)) _ (cleanLine l) (splitStrGo_infix _ _ _) rs subs).h _ hm
          exact here (fun B' => ⟨c, by rw [e, hm]; rfl⟩) this.1 this.2.2 (.inl this.2.1)
        | ok q =>
          rw [hm] at h
          exact step .content q.1 q.2 (fun ls' h' => by rw [e, hm]; exact h') (fun ls' e' h' => by rw [e, hm]; exact h') h

/-- C28: if a file is rejected with a report, the line number `m` given is that of a line `l` (counting from 1) such that: everything before it is
accepted; the rejection with the same line number and text happens whatever follows `l`; the text quoted is part of `l`; and the context
given ends with `l` and at most four lines before it, in order, maybe followed by the next two lines. -/
theorem C28_report (lines : List Str) (m : Nat) (saw ex : Str) (ctx : List Str) (h : srtRead lines = .error (.subrip m saw ex ctx)) :
    ∃ A l B, lines = A ++ l :: B ∧ m = A.length + 1 ∧ (∃ subs, srtRead A = .ok subs) ∧ saw <:+: cleanLine l ∧
      (ctx = lastN 5 ((A ++ [l]).map cleanLine) ∨ ctx = lastN 5 ((A ++ [l]).map cleanLine) ++ B.take 2) ∧
      ∀ B', ∃ ctx', srtRead (A ++ l :: B') = .error (.subrip m saw ex ctx') := by
  obtain ⟨A, l, B, h1, h2, h3, h4, h5, h6⟩ := rejects 0 .counter [] srtFresh [] lines m saw ex ctx h
  exact ⟨A, l, B, h1, by omega, h3, h4, by simpa using h5, h6⟩

/-- A bad line in the middle of a file. -/
example : srtReadString b!"1\n0:0:1,0 --> 0:0:2,0\nx\n\n2\n0:0:3,0 --> 0:0:z,0\ny\n\n3\n4\n" =
    .error (.subrip 6 b!"0:0:z,0" b!"integer second value" [b!"0:0:1,0 --> 0:0:2,0", b!"x", b!"", b!"2", b!"0:0:3,0 --> 0:0:z,0"]) := by decide +kernel

end LibSub
