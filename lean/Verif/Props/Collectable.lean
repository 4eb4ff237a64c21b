/-
Properties C84 and C61: what each reader returns can be collected, and whether the result can be written as binary STL.
-/
import Verif.Props.SubRipRead
import Verif.Props.WebVtt
import Verif.Props.StlText
import Verif.Props.SsaEvent
import Verif.Props.StlWriter
import Verif.Props.StlReader
import Verif.Props.Collect

namespace LibSub

/-! ### What can be collected -/

/-- `collect` succeeds if all times can be compared. -/
theorem collect_ok (raws : List Raw) (h : ∀ a ∈ raws, ∀ b ∈ raws, ∀ t ∈ a.times, ∀ u ∈ b.times, ∃ x, t.eq u = .ok x) : ∃ out, collect raws = .ok out := by
  cases hc : collect raws with
  | ok out => exact ⟨out, rfl⟩
  | error e =>
    obtain ⟨-, a, ha, b, hb, t, ht, u, hu, he⟩ := C16_errors raws e hc
    obtain ⟨x, hx⟩ := h a ha b hb t ht u hu
    rw [he] at hx
    cases hx

/-- Times at one rate `n` per second with small enough frame numbers. -/
private theorem eq_ok_of_rate (n : Int) (t u : Time) (ht : t.rate = some ⟨n, 1⟩) (hu : u.rate = some ⟨n, 1⟩) (h1 : InInt (t.frames * n)) (h2 : InInt (u.frames * n)) :
    ∃ x, t.eq u = .ok x := by
  unfold Time.eq
  rw [ht, hu]
  simp only
  by_cases h : t.secs = u.secs
  · rw [if_neg (by simpa using h)]
    unfold Time.scaled
    simp only
    rw [ck_ok h1, ok_bind, ck_ok (by simpa using h1), ok_bind, ck_ok h2, ok_bind, ck_ok (by simpa using h2), ok_bind]
    exact ⟨_, rfl⟩
  · rw [if_pos h]
    exact ⟨_, rfl⟩

private theorem eq_ok_of_none (t u : Time) (ht : t.rate = none) (hu : u.rate = none) : ∃ x, t.eq u = .ok x := by
  unfold Time.eq
  rw [ht, hu]
  exact ⟨_, rfl⟩

/-- Start and end at 1000 per second, no fades. -/
def Raw.InMs (r : Raw) : Prop := r.from_.rate = some ⟨1000, 1⟩ ∧ r.to_.rate = some ⟨1000, 1⟩ ∧ r.fadeUp = none ∧ r.fadeDown = none

/-- The milliseconds of start and end can be multiplied by 1000 in an `int`. -/
def Raw.SmallMs (r : Raw) : Prop := (-2147483 ≤ r.from_.frames ∧ r.from_.frames ≤ 2147483) ∧ (-2147483 ≤ r.to_.frames ∧ r.to_.frames ≤ 2147483)

instance (r : Raw) : Decidable r.SmallMs := by unfold Raw.SmallMs; infer_instance

private theorem collect_ms (raws : List Raw) (h : ∀ r ∈ raws, r.InMs) (hs : ∀ r ∈ raws, r.SmallMs) : ∃ out, collect raws = .ok out := by
  apply collect_ok
  have key : ∀ r ∈ raws, ∀ t ∈ r.times, t.rate = some ⟨1000, 1⟩ ∧ InInt (t.frames * 1000) := by
    intro r hr t ht
    obtain ⟨h1, h2, h3, h4⟩ := h r hr
    obtain ⟨h5, h6⟩ := hs r hr
    simp only [Raw.times, h3, h4, Option.toList_none, List.append_nil, List.mem_cons, List.not_mem_nil, or_false] at ht
    rcases ht with rfl | rfl
    · exact ⟨h1, by unfold InInt; omega⟩
    · exact ⟨h2, by unfold InInt; omega⟩
  intro a ha b hb t ht u hu
  exact eq_ok_of_rate 1000 t u (key a ha t ht).1 (key b hb u hu).1 (key a ha t ht).2 (key b hb u hu).2

/-! ### Exactly when times in milliseconds can be collected -/

/-- Both directions of comparing two raw subtitles. -/
private def Meets (a b : Raw) : Prop :=
  (∃ x, a.lt b = .ok x) ∧ (∃ x, (Subtitle.ofRaw a).sameMetadata b = .ok x) ∧ (∃ x, (Subtitle.ofRaw b).sameMetadata a = .ok x)

private theorem Meets.symm {a b : Raw} (h : Meets a b) : Meets b a := ⟨lt_ok_symm h.1, h.2.2, h.2.1⟩

private theorem loop_ok (rest : List Raw) : ∀ (done : List Raw) (st : List Subtitle × Option Subtitle), (done ++ rest).Pairwise Meets →
    (∀ cur, st.2 = some cur → ∃ r ∈ done, cur.from_ = r.from_ ∧ cur.to_ = r.to_ ∧ cur.fadeUp = r.fadeUp ∧ cur.fadeDown = r.fadeDown) →
    ∃ st', collectLoop st rest = .ok st' := by
  induction rest with
  | nil => exact fun _ st _ _ => ⟨st, rfl⟩
  | cons i is ih =>
    intro done st hp hst
    have step : ∃ st', collectStep st i = .ok st' ∧
        ∀ cur, st'.2 = some cur → ∃ r ∈ done ++ [i], cur.from_ = r.from_ ∧ cur.to_ = r.to_ ∧ cur.fadeUp = r.fadeUp ∧ cur.fadeDown = r.fadeDown := by
      unfold collectStep
      split
      · exact ⟨_, rfl, fun cur h => by cases h; exact ⟨i, by simp, rfl, rfl, rfl, rfl⟩⟩
      · rename_i cur hcur
        obtain ⟨r, hr, h1, h2, h3, h4⟩ := hst cur hcur
        have hm : Meets r i := (List.pairwise_append.1 hp).2.2 r hr i (by simp)
        obtain ⟨x, hx⟩ := hm.2.1
        have hx' : cur.sameMetadata i = .ok x := by
          rw [← hx]
          unfold Subtitle.sameMetadata
          rw [h1, h2, h3, h4]
          rfl
        have hr' : r ∈ done ++ [i] := by simp [hr]
        rw [hx', ok_bind]
        cases x <;> simp only [if_true, Bool.false_eq_true, if_false]
        · exact ⟨_, rfl, fun cur h => by cases h; exact ⟨i, by simp, rfl, rfl, rfl, rfl⟩⟩
        · split
          · split
            · exact ⟨_, rfl, fun cur h => by cases h; exact ⟨r, hr', h1, h2, h3, h4⟩⟩
            · exact ⟨_, rfl, fun cur h => by cases h; exact ⟨r, hr', h1, h2, h3, h4⟩⟩
          · exact ⟨_, rfl, fun cur h => by cases h; exact ⟨r, hr', h1, h2, h3, h4⟩⟩
    obtain ⟨st', h1, h2⟩ := step
    obtain ⟨st'', h3⟩ := ih (done ++ [i]) st' (by simpa using hp) h2
    exact ⟨st'', by rw [collectLoop, h1, ok_bind, h3]⟩

private theorem collect_meets (raws : List Raw) (h : raws.Pairwise Meets) : ∃ out, collect raws = .ok out := by
  have hp := sortRaws_perm rawLe raws
  obtain ⟨st, hst⟩ := loop_ok (sortRaws rawLe raws) [] ([], none) ((hp.symm.pairwise_iff (fun h => Meets.symm h)).1 h) (by simp)
  refine ⟨collectFinish st, ?_⟩
  unfold collect collectWith
  rw [stableSort_of_comparable (h.imp fun h => h.1), ok_bind, hst, ok_bind]
  rfl

/-- The frames of a time can be multiplied by 1000 in an `int`. -/
def Time.SmallMs (t : Time) : Prop := -2147483 ≤ t.frames ∧ t.frames ≤ 2147483

instance (t : Time) : Decidable t.SmallMs := by unfold Time.SmallMs; infer_instance

/-- Two times with many milliseconds are not in the same second. -/
abbrev Time.Clear (t u : Time) : Prop := t.secs = u.secs → t.SmallMs ∧ u.SmallMs

private theorem ms_lt {t u : Time} (ht : t.rate = some ⟨1000, 1⟩) (hu : u.rate = some ⟨1000, 1⟩) : (∃ x, t.lt u = .ok x) ↔ t.Clear u := by
  unfold Time.lt Time.Clear
  rw [ht, hu]
  by_cases hs : t.secs = u.secs
  · rw [if_neg (by simpa using hs)]
    simp only [hs, true_imp_iff, Time.scaled, mul_one, bind_eq_ok, ck_eq_ok, pure_eq_ok]
    unfold Time.SmallMs InInt
    constructor
    · rintro ⟨x, _, ⟨_, ⟨h1, rfl⟩, _, _⟩, _, ⟨_, ⟨h2, rfl⟩, _, _⟩, _⟩
      omega
    · rintro ⟨h1, h2⟩
      exact ⟨_, _, ⟨_, ⟨by omega, rfl⟩, by omega, rfl⟩, _, ⟨_, ⟨by omega, rfl⟩, by omega, rfl⟩, rfl⟩
  · rw [if_pos (by simpa using hs)]
    exact ⟨fun _ h => absurd h hs, fun _ => ⟨_, rfl⟩⟩

private theorem ms_eq {t u : Time} (ht : t.rate = some ⟨1000, 1⟩) (hu : u.rate = some ⟨1000, 1⟩) (h : t.Clear u) : ∃ x, t.eq u = .ok x := by
  by_cases hs : t.secs = u.secs
  · obtain ⟨h1, h2⟩ := h hs
    unfold Time.SmallMs at h1 h2
    exact eq_ok_of_rate 1000 t u ht hu (by unfold InInt; omega) (by unfold InInt; omega)
  · unfold Time.eq
    rw [ht, hu]
    simp only
    rw [if_pos hs]
    exact ⟨_, rfl⟩

private theorem ms_metadata {a b : Raw} (ha : a.InMs) (hb : b.InMs) (h1 : a.from_.Clear b.from_) (h2 : a.to_.Clear b.to_) :
    ∃ x, (Subtitle.ofRaw a).sameMetadata b = .ok x := by
  obtain ⟨a1, a2, a3, a4⟩ := ha
  obtain ⟨b1, b2, b3, b4⟩ := hb
  obtain ⟨x, hx⟩ := ms_eq a1 b1 h1
  obtain ⟨y, hy⟩ := ms_eq a2 b2 h2
  unfold Subtitle.sameMetadata Subtitle.ofRaw
  simp only [hx, hy, a3, a4, b3, b4, optTimeEq, andM]
  cases x <;> cases y <;> exact ⟨_, rfl⟩

private theorem clear_symm {t u : Time} (h : t.Clear u) : u.Clear t := fun e => (h e.symm).symm

private theorem collect_clear (raws : List Raw) (h : ∀ r ∈ raws, r.InMs) (hc : raws.Pairwise fun a b => a.from_.Clear b.from_ ∧ a.to_.Clear b.to_) :
    ∃ out, collect raws = .ok out :=
  collect_meets raws (hc.imp_of_mem fun {a b} ha hb k =>
    ⟨(ms_lt (h a ha).1 (h b hb).1).2 k.1, ms_metadata (h a ha) (h b hb) k.1 k.2, ms_metadata (h b hb) (h a ha) (clear_symm k.1) (clear_symm k.2)⟩)

private theorem clear_of_collect {raws : List Raw} {out : List Subtitle} (h : ∀ r ∈ raws, r.InMs) (hc : collect raws = .ok out) :
    raws.Pairwise fun a b => a.from_.Clear b.from_ := by
  obtain ⟨sorted, hs, -⟩ := collectWith_grows hc
  exact (stableSort_ok hs).1.imp_of_mem fun {a b} ha hb k => (ms_lt (h a ha).1 (h b hb).1).1 k

theorem clear_of_lt {t u : Time} (ht : t.rate = some ⟨1000, 1⟩) (hu : u.rate = some ⟨1000, 1⟩) : (∃ x, t.lt u = .ok x) ↔ t.Clear u := ms_lt ht hu

theorem eq_of_clear {t u : Time} (ht : t.rate = some ⟨1000, 1⟩) (hu : u.rate = some ⟨1000, 1⟩) (h : t.Clear u) : ∃ x, t.eq u = .ok x := ms_eq ht hu h

/-! ### Times -/

private theorem fromHms_rate {h m s ms : Int} {t : Time} (he : Time.fromHms h m s ms = .ok t) : t.rate = some ⟨1000, 1⟩ := by
  obtain ⟨x, -, h2⟩ := bind_eq_ok.1 he
  cases h2
  rfl

private theorem convertTime_rate {t sep : Str} {x : Time} (h : convertTime t sep = .ok (.ok x)) : x.rate = some ⟨1000, 1⟩ := by
  unfold convertTime at h
  split at h
  · split at h
    · split at h
      · cases h
      · split at h
        · cases h
        · split at h
          · cases h
          · split at h
            · cases h
            · obtain ⟨y, h1, h2⟩ := bind_eq_ok.1 h
              cases h2
              exact fromHms_rate h1
    · cases h
  · cases h

/-! ### SubRip -/

/-- What SSA tags cannot change. -/
def Raw.kept (r : Raw) : Time × Time × Option Time × Option Time × Option Int × Bool :=
  (r.from_, r.to_, r.fadeUp, r.fadeDown, r.vpos.lines, r.vpos.line.isSome)

theorem updateH_kept {ctx : SsaContext} {sub r : Raw} (h : ctx.updateH sub = .ok r) : r.kept = sub.kept := by
  unfold SsaContext.updateH at h
  simp only [] at h
  split at h
  · rw [bind_eq_ok] at h
    obtain ⟨_, _, h⟩ := h
    cases h; rfl
  · simp only [bind_eq_ok] at h
    obtain ⟨_, _, _, _, _, _, h⟩ := h
    cases h; rfl
  · rw [bind_eq_ok] at h
    obtain ⟨_, _, h⟩ := h
    cases h; rfl

theorem parseTag_kept (ctx : SsaContext) (sub : Raw) (tag : Str) : OkIn (fun r : Raw => r.kept = sub.kept) (ssaParseTag ctx sub tag) := by
  have hal : ∀ {a b}, OkIn (fun r : Raw => r.kept = sub.kept) (ssaAlign ctx sub a b) := by
    intro a b
    constructor
    intro r h
    have := updateH_kept h
    exact this
  unfold ssaParseTag
  refine .ite (.ok rfl) (.ite (.ok rfl) (.ite (.ok rfl) (.ite (.ok rfl) (.ite (.ok rfl) (.ite (.ok rfl) (.ite hal (.ite hal (.ite hal (.ite hal (.ite hal
    (.ite hal (.ite hal (.ite hal (.ite hal (.ite ?_ (.ite ?_ (.ite (.ite ?_ (.ok rfl)) (.ok rfl))))))))))))))))))
  · split
    · exact .bind fun _ _ => .bind fun _ _ => .bind fun _ _ => .bind fun _ _ => .ok rfl
    · exact .error
  · exact .bind fun _ _ => .bind fun _ _ => .bind fun _ _ => .ok rfl
  · exact .bind fun _ _ => .ok rfl

/-- In milliseconds and with a line number only (`tags`: or a proportion from an SSA tag). -/
private def Good (tags : Bool) (r : Raw) : Prop := r.InMs ∧ r.vpos.lines = none ∧ r.vpos.line.isSome = true ∧ (tags = false → r.vpos.prop = none)

private theorem good_of_kept {r q : Raw} (h : Good true q) (e : r.kept = q.kept) : Good true r := by
  simp only [Raw.kept, Prod.mk.injEq] at e
  obtain ⟨e1, e2, e3, e4, e5, e6⟩ := e
  unfold Good Raw.InMs
  rw [e1, e2, e3, e4, e5, e6]
  exact ⟨h.1, h.2.1, h.2.2.1, by simp⟩

private def SrtLine.All (tags : Bool) (s : SrtLine) : Prop := Good tags s.p ∧ ∀ r ∈ s.subs, Good tags r

private theorem content_all {tags} {s : SrtLine} (h : s.All tags) : s.maybeContent.All tags := by
  unfold SrtLine.maybeContent
  split
  · exact h
  · refine ⟨h.1, ?_⟩
    intro r hr
    simp only [List.mem_append, List.mem_singleton] at hr
    rcases hr with hr | rfl
    · exact h.2 r hr
    · exact h.1

private theorem exec_all {tags} {n : Nat} {ctx : List Str} {s s' : SrtLine} {t : Tok} (h : s.All tags) (ht : tags = true ∨ ∀ x, t ≠ .ssa x)
    (he : s.exec n ctx t = .ok s') : s'.All tags := by
  have hm := content_all h
  cases t with
  | fontOpen tag =>
    obtain ⟨c, _, h2⟩ := bind_eq_ok.1 he
    cases h2
    exact hm
  | fontClose =>
    unfold SrtLine.exec at he
    simp only at he
    split at he
    · cases he; exact hm
    · split at he
      · cases he; exact hm
      · cases he
  | ssa tag =>
    obtain ⟨c, h1, h2⟩ := bind_eq_ok.1 he
    cases h2
    rcases ht with rfl | ht
    · exact ⟨good_of_kept h.1 ((parseTag_kept _ _ _).h c h1), h.2⟩
    · exact absurd rfl (ht tag)
  | chr c => cases he; exact h
  | _ => cases he; exact hm

private theorem lower_backslash (c : Byte) : toLower [c] = [92] → c = 92 := forall_byte (p := fun c => toLower [c] = [92] → c = 92) (by decide +kernel) c

private theorem hasNext_tag (c : Byte) (cs : Str) (h : hasNext (c :: cs) b!"{\\" = true) : (92 : Byte) ∈ cs := by
  unfold hasNext at h
  cases cs with
  | nil => simp [toLower] at h
  | cons d ds =>
    have : toLower [d] = [92] := by
      simp [toLower] at h ⊢
      exact h.2
    simp [lower_backslash d this]

theorem nextTok_ssa (c : Byte) (cs : Str) (x : Str) (h : (nextTok c cs).1 = .ssa x) : (92 : Byte) ∈ cs := by
  by_cases hn : hasNext (c :: cs) b!"{\\" = true
  · exact hasNext_tag c cs hn
  · unfold nextTok at h
    simp only [hn] at h
    repeat' split at h
    all_goals contradiction

theorem nextTok_sub (c : Byte) (cs : Str) : ∀ x ∈ (nextTok c cs).2, x ∈ c :: cs := by
  intro x
  unfold nextTok
  simp only
  repeat' split
  all_goals intro h
  all_goals first
    | exact List.mem_of_mem_drop h
    | exact List.mem_of_mem_drop (List.mem_of_mem_drop h)
    | exact List.mem_cons_of_mem _ h

private theorem loop_all {tags} {n : Nat} {ctx : List Str} {f : Nat} {s s' : SrtLine} {t : Str} (ht : tags = true ∨ (92 : Byte) ∉ t) (h : s.All tags) (he : srtLoop n ctx f s t = .ok s') :
    s'.All tags := by
  induction f generalizing s t with
  | zero => cases t <;> (cases he; exact h)
  | succ f ih =>
    cases t with
    | nil => cases he; exact h
    | cons c cs =>
      obtain ⟨s1, h1, h2⟩ := bind_eq_ok.1 he
      refine ih ?_ (exec_all h ?_ h1) h2
      · exact ht.imp id fun hn hm => hn (nextTok_sub c cs _ hm)
      · exact ht.imp id fun hn x hx => hn (List.mem_cons_of_mem _ (nextTok_ssa c cs x hx))

private theorem convertLine_all {tags} {n : Nat} {ctx : List Str} {t : Str} {p : Raw} {subs : List Raw} {q : Raw × List Raw} (ht : tags = true ∨ (92 : Byte) ∉ t)
    (hp : Good tags p) (h : ∀ r ∈ subs, Good tags r) (he : convertLine n ctx t p subs = .ok q) : Good tags q.1 ∧ ∀ r ∈ q.2, Good tags r := by
  obtain ⟨s, h1, h2⟩ := bind_eq_ok.1 he
  cases h2
  have : s.All tags := loop_all (s := ⟨p, [⟨1, 1, 1⟩], subs⟩) ht ⟨hp, h⟩ h1
  exact content_all (s := ⟨_, s.colours, s.subs⟩) this

private theorem convertSubLines_all {tags} {n : Nat} {ctx : List Str} {ts : List Str} {p : Raw} {subs : List Raw} {q : Raw × List Raw} (ht : tags = true ∨ ∀ t ∈ ts, (92 : Byte) ∉ t)
    (hp : Good tags p) (h : ∀ r ∈ subs, Good tags r) (he : convertSubLines n ctx ts p subs = .ok q) : Good tags q.1 ∧ ∀ r ∈ q.2, Good tags r := by
  induction ts generalizing p subs with
  | nil => cases he; exact ⟨hp, h⟩
  | cons t ts ih =>
    obtain ⟨q1, h1, h2⟩ := bind_eq_ok.1 he
    obtain ⟨l, _, h3⟩ := bind_eq_ok.1 h2
    obtain ⟨l', _, h4⟩ := bind_eq_ok.1 h3
    obtain ⟨h5, h6⟩ := convertLine_all (ht.imp id fun hn => hn t (by simp)) hp h h1
    refine ih (p := { q1.1 with vpos := { q1.1.vpos with line := some l' }, text := [] }) (ht.imp id fun hn t ht => hn t (by simp [ht])) ?_ h6 h4
    exact ⟨h5.1, h5.2.1, rfl, h5.2.2.2⟩

theorem splitStrGo_mem (sep : Str) (s : Str) (k : Nat) : ∀ t ∈ splitStrGo sep k s, ∀ x ∈ t, x ∈ s := by
  induction s generalizing k with
  | nil => intro t ht; cases k <;> simp [splitStrGo] at ht <;> simp [ht]
  | cons c cs ih =>
    intro t ht x hx
    cases k with
    | succ k => exact List.mem_cons_of_mem _ (ih k t ht x hx)
    | zero =>
      rw [splitStrGo] at ht
      split at ht
      · rcases List.mem_cons.1 ht with rfl | ht
        · cases hx
        · exact List.mem_cons_of_mem _ (ih _ t ht x hx)
      · split at ht
        · simp only [List.mem_singleton] at ht
          subst ht
          simp only [List.mem_singleton] at hx
          simp [hx]
        · rename_i t0 ts he
          rcases List.mem_cons.1 ht with rfl | ht
          · rcases List.mem_cons.1 hx with rfl | hx
            · simp
            · exact List.mem_cons_of_mem _ (ih 0 t0 (by rw [he]; simp) x hx)
          · exact List.mem_cons_of_mem _ (ih 0 t (by rw [he]; simp [ht]) x hx)

theorem cleanLine_mem (l : Str) : ∀ x ∈ cleanLine l, x ∈ l := by
  intro x hx
  have h1 : ∀ s : Str, ∀ x ∈ removeBom s, x ∈ s := by
    intro s x hx
    unfold removeBom at hx
    split at hx
    · simp [hx]
    · exact hx
  have h2 := h1 _ x hx
  unfold trimRightIf at h2
  rw [List.mem_reverse] at h2
  have h3 := (List.dropWhile_sublist _).subset h2
  rwa [List.mem_reverse] at h3

private theorem metadata_good {tags} {n : Nat} {ctx rest : List Str} {line : Str} {rs r : Raw} (hrs : rs.fadeUp = none ∧ rs.fadeDown = none ∧ rs.vpos.lines = none ∧ rs.vpos.line.isSome = true ∧ rs.vpos.prop = none)
    (h : srtMetadata n ctx line rest rs = .ok r) : Good tags r := by
  unfold srtMetadata at h
  simp only at h
  split at h
  · cases h
  · obtain ⟨a, h1, h2⟩ := bind_eq_ok.1 h
    split at h2
    · cases h2
    · obtain ⟨b, h3, h4⟩ := bind_eq_ok.1 h2
      split at h4
      · cases h4
      · cases h4
        exact ⟨⟨convertTime_rate h1, convertTime_rate h3, hrs.1, hrs.2.1⟩, hrs.2.2.1, hrs.2.2.2.1, fun _ => hrs.2.2.2.2⟩

private def SrtSt.Ok (tags : Bool) (s : SrtSt) : Prop :=
  (s.1 = .metadata → s.2.1 = srtFresh) ∧ (s.1 = .content → Good tags s.2.1) ∧ ∀ r ∈ s.2.2, Good tags r

private theorem fold_ok {tags} {ls : List Str} {s s' : SrtSt} (ht : tags = true ∨ ∀ l ∈ ls, (92 : Byte) ∉ l) (h : s.Ok tags) (he : srtFold s ls = .ok s') : s'.Ok tags := by
  induction ls generalizing s with
  | nil => cases he; exact h
  | cons l ls ih =>
    obtain ⟨s1, h1, h2⟩ := bind_eq_ok.1 he
    refine ih (ht.imp id fun hn l hl => hn l (by simp [hl])) ?_ h2
    obtain ⟨ha, hb, hc⟩ := h
    unfold srtStep at h1
    split at h1
    · split at h1
      · cases h1; exact ⟨ha, hb, hc⟩
      · cases h1; exact ⟨fun _ => rfl, (by intro h; cases h), hc⟩
    · rename_i hm
      obtain ⟨r, h4, h3⟩ := bind_eq_ok.1 h1
      cases h3
      refine ⟨(by intro h; cases h), fun _ => ?_, hc⟩
      rw [ha hm] at h4
      exact metadata_good ⟨rfl, rfl, rfl, rfl, rfl⟩ h4
    · rename_i hm
      split at h1
      · cases h1; exact ⟨(by intro h; cases h), (by intro h; cases h), hc⟩
      · obtain ⟨r, h4, h3⟩ := bind_eq_ok.1 h1
        cases h3
        have := convertSubLines_all (tags := tags) (ht.imp id fun hn t ht hx => hn l (by simp) (cleanLine_mem l _ (splitStrGo_mem _ _ 0 t ht _ hx))) (hb hm) hc h4
        exact ⟨(by intro h; cases h), fun _ => this.1, this.2⟩

private theorem srt_good {tags} {lines : List Str} {subs : List Raw} (ht : tags = true ∨ ∀ l ∈ lines, (92 : Byte) ∉ l) (h : srtRead lines = .ok subs) : ∀ r ∈ subs, Good tags r := by
  rw [srtRead_ok_iff] at h
  obtain ⟨st, rs, h⟩ := h
  exact (fold_ok (s := (.counter, srtFresh, [])) ht ⟨(by intro h; cases h), (by intro h; cases h), by simp⟩ h).2.2

/-- Lines of SubRip have a number, but not of how many. -/
theorem srt_unnumbered {lines : List Str} {subs : List Raw} (h : srtRead lines = .ok subs) : ∀ r ∈ subs, r.vpos.lines = none ∧ r.vpos.line.isSome = true :=
  fun r hr => by obtain ⟨-, h1, h2, -⟩ := srt_good (tags := true) (.inl rfl) h r hr; exact ⟨h1, h2⟩

/-- Times of SubRip count milliseconds. -/
theorem srt_inMs {lines : List Str} {subs : List Raw} (h : srtRead lines = .ok subs) : ∀ r ∈ subs, r.InMs := fun r hr => (srt_good (tags := true) (.inl rfl) h r hr).1

/-! ### WebVTT -/

private theorem timing_good {ctx rest : List Str} {line : Str} {rs r : Raw} (hrs : rs.fadeUp = none ∧ rs.fadeDown = none ∧ rs.vpos.lines = none ∧ rs.vpos.prop = none)
    (h : vttTiming ctx line rest rs = .ok r) : Good false r := by
  unfold vttTiming at h
  simp only at h
  split at h
  · cases h
  · obtain ⟨a, h1, h2⟩ := bind_eq_ok.1 h
    split at h2
    · cases h2
    · obtain ⟨b, h3, h4⟩ := bind_eq_ok.1 h2
      split at h4
      · cases h4
      · cases h4
        exact ⟨⟨convertTime_rate h1, convertTime_rate h3, hrs.1, hrs.2.1⟩, hrs.2.2.1, rfl, fun _ => hrs.2.2.2⟩

private theorem vttSubLines_good {ts : List Str} {p : Raw} {subs : List Raw} {q : Raw × List Raw} (hp : Good false p) (h : ∀ r ∈ subs, Good false r) (he : vttSubLines ts p subs = .ok q) :
    Good false q.1 ∧ ∀ r ∈ q.2, Good false r := by
  induction ts generalizing p subs with
  | nil => cases he; exact ⟨hp, h⟩
  | cons t ts ih =>
    obtain ⟨l, _, h3⟩ := bind_eq_ok.1 he
    obtain ⟨l', _, h4⟩ := bind_eq_ok.1 h3
    refine ih (p := { p with text := t, vpos := { p.vpos with line := some l' } }) ⟨hp.1, hp.2.1, rfl, hp.2.2.2⟩ ?_ h4
    intro r hr
    simp only [List.mem_append, List.mem_singleton] at hr
    rcases hr with hr | rfl
    · exact h r hr
    · exact hp

private def VttSt.Ok (s : VttSt) : Prop :=
  (s.2.1.fadeUp = none ∧ s.2.1.fadeDown = none ∧ s.2.1.vpos.lines = none ∧ s.2.1.vpos.prop = none) ∧ (s.1 = .subtitle → Good false s.2.1) ∧ ∀ r ∈ s.2.2, Good false r

private theorem good_rest {r : Raw} (h : Good false r) : r.fadeUp = none ∧ r.fadeDown = none ∧ r.vpos.lines = none ∧ r.vpos.prop = none :=
  ⟨h.1.2.2.1, h.1.2.2.2, h.2.1, h.2.2.2 rfl⟩

private theorem vttFold_good {ls : List Str} {s s' : VttSt} (h : s.Ok) (he : vttFold s ls = .ok s') : s'.Ok := by
  induction ls generalizing s with
  | nil => cases he; exact h
  | cons l ls ih =>
    obtain ⟨s1, h1, h2⟩ := bind_eq_ok.1 he
    refine ih ?_ h2
    obtain ⟨ha, hb, hc⟩ := h
    unfold vttStep at h1
    split at h1
    · split at h1
      · cases h1; exact ⟨ha, (by intro h; cases h), hc⟩
      · cases h1
    · split at h1
      · cases h1; exact ⟨ha, (by intro h; cases h), hc⟩
      · split at h1
        · obtain ⟨r, h4, h3⟩ := bind_eq_ok.1 h1
          cases h3
          have := timing_good ha h4
          exact ⟨good_rest this, fun _ => this, hc⟩
        · cases h1; exact ⟨ha, (by intro h; cases h), hc⟩
    · rename_i hm
      split at h1
      · cases h1; exact ⟨ha, (by intro h; cases h), hc⟩
      · obtain ⟨r, h4, h3⟩ := bind_eq_ok.1 h1
        cases h3
        have := vttSubLines_good (hb hm) hc h4
        exact ⟨good_rest this.1, fun _ => this.1, this.2⟩
    · split at h1
      · cases h1; exact ⟨ha, (by intro h; cases h), hc⟩
      · cases h1; exact ⟨ha, (by intro h; cases h), hc⟩

private theorem vtt_good {lines : List Str} {subs : List Raw} (h : vttRead lines = .ok subs) : ∀ r ∈ subs, Good false r := by
  rw [vttRead_ok_iff] at h
  obtain ⟨st, rs, h⟩ := h
  exact (vttFold_good (s := (.header, vttFresh, [])) ⟨⟨rfl, rfl, rfl, rfl⟩, (by intro h; cases h), by simp⟩ h).2.2

theorem vtt_inMs {lines : List Str} {subs : List Raw} (h : vttRead lines = .ok subs) : ∀ r ∈ subs, r.InMs := fun r hr => (vtt_good h r hr).1

/-! ### STL text -/

/-- Times without rate, no fades, and only a line number for the position. -/
private def Bare (r : Raw) : Prop :=
  (r.from_.rate = none ∧ r.to_.rate = none ∧ r.fadeUp = none ∧ r.fadeDown = none) ∧ r.vpos.lines = none ∧ r.vpos.line.isSome = true ∧ r.vpos.prop = none

private def StlTextSt.Ok (s : StlTextSt) : Prop := Bare s.sub ∧ ∀ r ∈ s.subs, Bare r

private theorem push_bare {s : StlTextSt} (h : s.Ok) : s.maybePush.Ok := by
  unfold StlTextSt.maybePush
  split
  · exact h
  · refine ⟨⟨h.1.1, h.1.2.1, rfl, h.1.2.2.2⟩, ?_⟩
    intro r hr
    simp only [List.mem_append, List.mem_singleton] at hr
    rcases hr with hr | rfl
    · exact h.2 r hr
    · exact h.1

private theorem chars_bare (cs : Str) (s s' : StlTextSt) (h : s.Ok) (he : stlTextChars s cs = .ok s') : s'.Ok := by
  suffices key : ∀ n, ∀ cs : Str, cs.length ≤ n → ∀ s s' : StlTextSt, s.Ok → stlTextChars s cs = .ok s' → s'.Ok from key _ cs (Nat.le_refl _) s s' h he
  intro n
  induction n with
  | zero =>
    intro cs hn s s' h he
    have : cs = [] := List.length_eq_zero_iff.1 (by omega)
    subst this
    cases he
    exact h
  | succ n ih =>
    intro cs hn s s' h he
    unfold stlTextChars at he
    split at he
    · cases he; exact h
    · rename_i cs
      rw [bind_eq_ok] at he
      obtain ⟨l, -, he⟩ := he
      rw [bind_eq_ok] at he
      obtain ⟨l', -, he⟩ := he
      refine ih cs (by simpa using hn) _ _ ?_ he
      have := push_bare h
      exact ⟨⟨this.1.1, this.1.2.1, rfl, this.1.2.2.2⟩, this.2⟩
    · cases he; exact push_bare h
    · rename_i d cs
      refine ih cs (by simp at hn; omega) _ _ ?_ he
      have := push_bare h
      split
      · exact this
      · split
        · exact this
        · split <;> exact this
    · rename_i c cs _ _ _
      refine ih cs (by simpa using hn) _ _ ?_ he
      exact h

private theorem set_bare {s s' : StlTextSt} {n v : Str} (hs : s.Ok) (h : s.set n v = .ok s') : s'.Ok := by
  unfold StlTextSt.set at h
  split at h
  · cases h; exact hs
  · split at h
    · cases h; exact hs
    · split at h
      · cases h; exact hs
      · split at h
        · cases h; exact hs
        · split at h
          · rw [bind_eq_ok] at h
            obtain ⟨i, -, h⟩ := h
            cases h; exact hs
          · cases h; exact hs

private theorem textTime_rate {t : Str} {x : Time} (h : stlTextTime t = .ok (some x)) : x.rate = none := by
  unfold stlTextTime at h
  split at h
  · simp only [bind_eq_ok] at h
    obtain ⟨_, -, _, -, _, -, _, -, y, hy, h⟩ := h
    cases h
    obtain ⟨_, -, h⟩ := bind_eq_ok.1 hy
    cases h
    rfl
  · cases h

private theorem textLine_bare (l : Str) (s s' : StlTextSt) (h : s.Ok) (he : stlTextLine s l = .ok s') : s'.Ok := by
  unfold stlTextLine at he
  simp only at he
  split at he
  · cases he; exact h
  · split at he
    · split at he
      · exact set_bare h he
      · cases he; exact h
    · split at he
      · cases he; exact h
      · split at he
        · cases he; exact h
        · split at he
          · cases he; exact h
          · rw [bind_eq_ok] at he
            obtain ⟨f, hf, he⟩ := he
            rw [bind_eq_ok] at he
            obtain ⟨t, ht, he⟩ := he
            split at he
            · rw [bind_eq_ok] at he
              obtain ⟨st, hc, he⟩ := he
              cases he
              refine push_bare (chars_bare _ _ _ ?_ hc)
              exact ⟨⟨⟨textTime_rate hf, textTime_rate ht, h.1.1.2.2⟩, h.1.2⟩, h.2⟩
            · cases he; exact h

private theorem textRead_bare {file : Str} {subs : List Raw} (h : stlTextRead file = .ok subs) : ∀ r ∈ subs, Bare r := by
  unfold stlTextRead at h
  rw [bind_eq_ok] at h
  obtain ⟨st, h, he⟩ := h
  cases he
  generalize streamLines file = ls at h
  have key : ∀ ls : List Str, ∀ s s' : StlTextSt, s.Ok → stlTextLines s ls = .ok s' → s'.Ok := by
    intro ls
    induction ls with
    | nil => intro s s' h he; cases he; exact h
    | cons l ls ih =>
      intro s s' h he
      rw [stlTextLines, bind_eq_ok] at he
      obtain ⟨s1, h1, h2⟩ := he
      exact ih s1 s' (textLine_bare _ _ _ h h1) h2
  exact (key ls {} st ⟨⟨⟨rfl, rfl, rfl, rfl⟩, rfl, rfl, rfl⟩, by intro r hr; cases hr⟩ h).2

/-! ### SSA -/

/-- At 1000 per second, or never set. -/
def Time.MsOrUnset (t : Time) : Prop := t.rate = some ⟨1000, 1⟩ ∨ t = {}

def SsaTimes (r : Raw) : Prop := r.from_.MsOrUnset ∧ r.to_.MsOrUnset ∧ r.fadeUp = none ∧ r.fadeDown = none

private theorem ssaTimes_of_fixed {r q : Raw} (h : SsaTimes q) (e : r.fixedPart = q.fixedPart) : SsaTimes r := by
  simp only [Raw.fixedPart, Prod.mk.injEq] at e
  obtain ⟨e1, e2, -, -, -, e3, e4⟩ := e
  unfold SsaTimes
  rw [e1, e2, e3, e4]
  exact h

private theorem ssaParseTime_rate {t : Str} {x : Time} (h : ssaParseTime t = .ok x) : x.rate = some ⟨1000, 1⟩ := by
  unfold ssaParseTime at h
  split at h
  · simp only [bind_eq_ok] at h
    obtain ⟨_, -, _, -, _, -, _, -, _, -, h⟩ := h
    exact fromHms_rate h
  · cases h

private def SsaEvent.Ok (ev : SsaEvent) : Prop := SsaTimes ev.sub ∧ ∀ x ∈ ev.subs, SsaTimes x

private theorem eventField_ok (r : SsaRead) (ev : SsaEvent) (k v : Str) (h : ev.Ok) : OkIn SsaEvent.Ok (ssaEventField r ev k v) := by
  unfold ssaEventField
  refine .ite (.bind fun t ht => .ok ⟨⟨.inl (ssaParseTime_rate ht), h.1.2⟩, h.2⟩) (.ite (.bind fun t ht => .ok ⟨⟨h.1.1, .inl (ssaParseTime_rate ht), h.1.2.2⟩, h.2⟩) (.ite ?_ (.ite (.ite (.bind fun _ _ => .bind fun _ _ => .ok h) (.ok h))
      (.ite (.ite (.bind fun _ _ => .ok h) (.ok h)) (.ite (.ite (.bind fun _ _ => .ok h) (.ok h)) (.ite (.bind fun subs hs => .ok ?_) (.ok h)))))))
  · split
    · exact .ok h
    · unfold ssaApplyStyle
      exact .bind fun _ _ => .ite (.bind fun _ _ => .ok h) (.ok h)
  · refine ⟨h.1, ?_⟩
    intro x hx
    rcases List.mem_append.1 hx with hx | hx
    · exact h.2 x hx
    · exact ssaTimes_of_fixed h.1 (C79_fixed _ _ _ _ hs x hx)

private theorem eventFields_ok (r : SsaRead) (l : List (Str × Str)) (ev ev' : SsaEvent) (h : ev.Ok) (he : ssaEventFields r ev l = .ok ev') : ev'.Ok := by
  induction l generalizing ev with
  | nil => cases he; exact h
  | cons kv l ih =>
    obtain ⟨k, v⟩ := kv
    rw [ssaEventFields, bind_eq_ok] at he
    obtain ⟨m, hm, he⟩ := he
    exact ih m ((eventField_ok r ev k v h).h m hm) he

private theorem ssaLine_ok (r : SsaRead) (raw : Str) (hr : ∀ x ∈ r.subs, SsaTimes x) : OkIn (fun r : SsaRead => ∀ x ∈ r.subs, SsaTimes x) (ssaLine r raw) := by
  unfold ssaLine
  refine .ite (.ok hr) (.ite (.ite (.ok hr) (.ite (.ok hr) (.ite (.ok hr) (.ok hr)))) ?_)
  split
  · exact .error
  · split
    · exact .ite (.bind fun _ _ => .ok hr) (.ite (.bind fun _ _ => .ok hr) (.ok hr))
    · exact .ite (.ok hr) (.ite (.bind fun _ _ => .bind fun _ _ => .ok hr) (.ok hr))
    · refine .ite (.ok hr) (.ite ?_ (.ok hr))
      unfold ssaDialogue
      refine .bind fun _ _ => .bind fun _ _ => .bind fun _ _ => .bind fun ev hev => .ok ?_
      intro x hx
      rcases List.mem_append.1 hx with hx | hx
      · exact hr x hx
      · exact (eventFields_ok r _ {} ev ⟨⟨.inr rfl, .inr rfl, rfl, rfl⟩, by simp⟩ hev).2 x hx

theorem ssaLines_ok (ls : List Str) (r r' : SsaRead) (hr : ∀ x ∈ r.subs, SsaTimes x) (h : ssaLines r ls = .ok r') : ∀ x ∈ r'.subs, SsaTimes x := by
  induction ls generalizing r with
  | nil => cases h; exact hr
  | cons l ls ih =>
    rw [ssaLines, bind_eq_ok] at h
    obtain ⟨m, hm, h⟩ := h
    exact ih m ((ssaLine_ok r l hr).h m hm) h

theorem ssa_times {s : Str} {subs : List Raw} (h : ssaReadString s = .ok subs ∨ ssaReadFile s = .ok subs) : ∀ r ∈ subs, SsaTimes r := by
  unfold ssaReadString ssaReadFile at h
  rcases h with h | h <;>
  · rw [bind_eq_ok] at h
    obtain ⟨r, hr, h⟩ := h
    cases h
    exact ssaLines_ok _ {} _ (by simp) hr

/-! ### Binary STL -/

/-- What is the same for all subtitles read from a binary STL file. -/
def StlRaw (info : StlInfo) (r : Raw) : Prop :=
  (∃ s f : Nat, f < 256 ∧ r.from_ = ⟨s, f, some ⟨info.frameRate, 1⟩⟩) ∧ (∃ s f : Nat, f < 256 ∧ r.to_ = ⟨s, f, some ⟨info.frameRate, 1⟩⟩) ∧ r.fadeUp = none ∧ r.fadeDown = none ∧
  r.vpos.prop = none ∧ r.vpos.lines = some info.maximumRows ∧ r.vpos.ref = some .topOfScreen ∧ ∃ l : Int, r.vpos.line = some l ∧ |l| ≤ 10000

private theorem decVal_lt (s : Str) (h : ∀ c ∈ s, isDigit c = true) : decVal s < 10 ^ s.length := by
  induction s using List.reverseRecOn with
  | nil => decide
  | append_singleton s c ih =>
    rw [decVal_append, List.length_append]
    have h1 := ih (fun c hc => h c (by simp [hc]))
    have h2 : decVal [c] < 10 := forall_byte (p := fun c => isDigit c = true → decVal [c] < 10) (by decide +kernel) c (h c (by simp))
    simp only [List.length_cons, List.length_nil, pow_add, zero_add, pow_one]
    omega

private theorem atoi_two (s : Str) (h : s.length ≤ 2) : |atoi s| ≤ 99 := by
  unfold atoi
  have h1 : (s.dropWhile isSpace).length ≤ 2 := le_trans (List.dropWhile_sublist _).length_le h
  generalize s.dropWhile isSpace = t at *
  have h2 : (takeSign t).2.length ≤ 2 := by
    unfold takeSign
    split
    · simp at h1 ⊢; omega
    · simp at h1 ⊢; omega
    · exact h1
  generalize takeSign t = q at *
  obtain ⟨neg, cs⟩ := q
  simp only at h2 ⊢
  have h3 : decVal (takeDigits cs) < 100 := by
    have a := decVal_lt (takeDigits cs) (fun c hc => List.all_eq_true.1 List.all_takeWhile c hc)
    have b : (takeDigits cs).length ≤ 2 := le_trans (List.takeWhile_prefix _).length_le h2
    have c : 10 ^ (takeDigits cs).length ≤ 10 ^ 2 := Nat.pow_le_pow_right (by decide) b
    omega
  rw [abs_le]
  split <;> omega

private theorem rows_bound {file : Str} {info : StlInfo} {subs : List Raw} (h : stlRead file = .ok (info, subs)) : |info.maximumRows| ≤ 99 := by
  have h1 := (parseGsi_ok (read_steps h).2.1).2.2
  have h2 := atoi_two ((file.drop 253).take 2) (by simp)
  rw [h1]
  split
  · simp
  · exact h2

private theorem lastRow_bound (file : Str) : 0 ≤ lastRow file ∧ lastRow file ≤ 1000 := by
  unfold lastRow
  generalize shownBlocks file = bs
  suffices key : ∀ h : Int, 0 ≤ h → h ≤ 1000 → 0 ≤ bs.foldl (fun h b => max h (blockLast b)) h ∧ bs.foldl (fun h b => max h (blockLast b)) h ≤ 1000 from key 0 (by decide) (by decide)
  induction bs with
  | nil => intro h h1 h2; exact ⟨h1, h2⟩
  | cons b bs ih =>
    intro h h1 h2
    refine ih _ (le_trans h1 (le_max_left _ _)) (max_le h2 ?_)
    unfold blockLast blockRow
    have a := (b.getD 13 0).toNat_lt
    have c : (blockText b).count 0x8a ≤ 112 := le_trans List.count_le_length (by unfold blockText; simp)
    omega

theorem stl_raws {file : Str} {info : StlInfo} {subs : List Raw} (h : stlRead file = .ok (info, subs)) : ∀ r ∈ subs, StlRaw info r := by
  have hrows := rows_bound h
  have hlast := lastRow_bound file
  obtain ⟨parts, h1, rfl⟩ := C66_file file info subs h
  generalize lastRow file = L at *
  generalize shownBlocks file = bs at *
  intro r hr
  rw [List.mem_flatten] at hr
  obtain ⟨new, hn, hr⟩ := hr
  obtain ⟨b, -, hb⟩ : ∃ b ∈ bs, Shows info.frameRate info.maximumRows (max 0 (L - info.maximumRows)) b new := by
    clear h
    induction h1 with
    | nil => cases hn
    | cons hx _ ih =>
      rcases List.mem_cons.1 hn with rfl | hn
      · exact ⟨_, by simp, hx⟩
      · obtain ⟨b, hb, k⟩ := ih hn
        exact ⟨b, by simp [hb], k⟩
  obtain ⟨runs, a1, -, -, a3, -⟩ := hb.runs
  obtain ⟨q, hq, w, -, rfl⟩ : ∃ q ∈ runs, ∃ w, IsoText q.2 w ∧ r = blockRaw info.frameRate info.maximumRows b (max 0 (L - info.maximumRows)) q.1 w := by
    clear hb a3 hn
    induction a1 with
    | nil => cases hr
    | cons hx _ ih =>
      rcases List.mem_cons.1 hr with rfl | hr
      · exact ⟨_, by simp, hx⟩
      · obtain ⟨b, hb, k⟩ := ih hr
        exact ⟨b, by simp [hb], k⟩
  refine ⟨⟨(b.getD 5 0).toNat * 3600 + (b.getD (5 + 1) 0).toNat * 60 + (b.getD (5 + 2) 0).toNat, (b.getD (5 + 3) 0).toNat, (b.getD (5 + 3) 0).toNat_lt, ?_⟩,
    ⟨(b.getD 9 0).toNat * 3600 + (b.getD (9 + 1) 0).toNat * 60 + (b.getD (9 + 2) 0).toNat, (b.getD (9 + 3) 0).toNat, (b.getD (9 + 3) 0).toNat_lt, ?_⟩, rfl, rfl, rfl, rfl, rfl, _, rfl, ?_⟩
  · unfold blockRaw blockTime; simp
  · unfold blockRaw blockTime; simp
  · have h1 := a3 q hq
    have h2 : (blockText b).count 0x8a ≤ 112 := le_trans List.count_le_length (by unfold blockText; simp)
    have h3 : 0 ≤ blockRow b ∧ blockRow b < 256 := by
      unfold blockRow
      have a := (b.getD 13 0).toNat_lt
      omega
    rw [abs_le] at hrows ⊢
    have h4 : max 0 (L - info.maximumRows) ≤ 1099 := max_le (by omega) (by omega)
    have h5 := le_max_left 0 (L - info.maximumRows)
    omega

/-! ### C84 -/

/-- Times of STL text have no frame rate. -/
theorem stltext_rates {file : Str} {subs : List Raw} (h : stlTextRead file = .ok subs) : ∀ r ∈ subs, r.from_.rate = none ∧ r.to_.rate = none := fun r hr => ⟨(textRead_bare h r hr).1.1, (textRead_bare h r hr).1.2.1⟩

/-- Times of STL text can be compared. -/
theorem stltext_compare {file : Str} {subs : List Raw} (h : stlTextRead file = .ok subs) : ∀ a ∈ subs, ∀ b ∈ subs, ∀ t ∈ a.times, ∀ u ∈ b.times, ∃ x, t.eq u = .ok x := by
  have hb := textRead_bare h
  have key : ∀ r ∈ subs, ∀ t ∈ r.times, t.rate = none := by
    intro r hr t ht
    obtain ⟨⟨h1, h2, h3, h4⟩, -⟩ := hb r hr
    simp only [Raw.times, h3, h4, Option.toList_none, List.append_nil, List.mem_cons, List.not_mem_nil, or_false] at ht
    rcases ht with rfl | rfl
    · exact h1
    · exact h2
  intro a ha b hb t ht u hu
  exact eq_ok_of_none t u (key a ha t ht) (key b hb u hu)

/-- C84 for STL text: whatever is read can be collected. -/
theorem C84_stltext (file : Str) (subs : List Raw) (h : stlTextRead file = .ok subs) : ∃ out, collect subs = .ok out := collect_ok subs (stltext_compare h)

example : (stlTextRead b!"00:00:01:00 , 00:00:02:00 , a|b\n00:00:01:00 , 00:00:02:00 , c\n").toOption.map (·.length) = some 3 := by decide +kernel

/-- Times of a binary STL file can be compared. -/
theorem stl_compare {file : Str} {info : StlInfo} {subs : List Raw} (h : stlRead file = .ok (info, subs)) : ∀ a ∈ subs, ∀ b ∈ subs, ∀ t ∈ a.times, ∀ u ∈ b.times, ∃ x, t.eq u = .ok x := by
  have hb := stl_raws h
  have hr := (parseGsi_ok (read_steps h).2.1).1
  have hr2 : 0 ≤ info.frameRate ∧ info.frameRate ≤ 30 := by
    simp only [List.mem_cons, Prod.mk.injEq, List.not_mem_nil, or_false] at hr
    omega
  have key : ∀ r ∈ subs, ∀ t ∈ r.times, t.rate = some ⟨info.frameRate, 1⟩ ∧ InInt (t.frames * info.frameRate) := by
    intro r hr t ht
    obtain ⟨⟨s, f, hf, h1⟩, ⟨s', f', hf', h2⟩, h3, h4, -⟩ := hb r hr
    have bound : ∀ f : Nat, f < 256 → InInt ((f : Int) * info.frameRate) := by
      intro f hf
      unfold InInt
      constructor <;> nlinarith
    simp only [Raw.times, h3, h4, Option.toList_none, List.append_nil, List.mem_cons, List.not_mem_nil, or_false] at ht
    rcases ht with rfl | rfl
    · rw [h1]; exact ⟨rfl, bound f hf⟩
    · rw [h2]; exact ⟨rfl, bound f' hf'⟩
  intro a ha b hb t ht u hu
  exact eq_ok_of_rate _ t u (key a ha t ht).1 (key b hb u hu).1 (key a ha t ht).2 (key b hb u hu).2

/-- C84 for binary STL: whatever is read can be collected. -/
theorem C84_stl (file : Str) (info : StlInfo) (subs : List Raw) (h : stlRead file = .ok (info, subs)) : ∃ out, collect subs = .ok out := collect_ok subs (stl_compare h)

example : (stlRead (stlFileDemo b!"00002" [stlBlockDemo 20 0 b!"Hello", stlBlockDemo 3 0 b!"world"])).toOption.map (·.2.length) = some 2 := by decide +kernel

private theorem no_unknown {raws : List Raw} (h : ∀ r ∈ raws, r.InMs) : collect raws ≠ .error .unknownFrameRate := by
  intro he
  obtain ⟨-, a, ha, b, hb, t, ht, u, hu, he⟩ := C16_errors raws _ he
  have key : ∀ r ∈ raws, ∀ t ∈ r.times, t.rate = some ⟨1000, 1⟩ := by
    intro r hr t ht
    obtain ⟨h1, h2, h3, h4⟩ := h r hr
    simp only [Raw.times, h3, h4, Option.toList_none, List.append_nil, List.mem_cons, List.not_mem_nil, or_false] at ht
    rcases ht with rfl | rfl
    · exact h1
    · exact h2
  have ht' := key a ha t ht
  have hu' := key b hb u hu
  unfold Time.eq at he
  rw [ht', hu'] at he
  simp only at he
  split at he
  · cases he
  · have hs : ∀ f : Int, Time.scaled f ⟨1000, 1⟩ ⟨1000, 1⟩ ≠ .error .unknownFrameRate := by
      intro f hf
      unfold Time.scaled at hf
      rcases bind_eq_error.1 hf with hf | ⟨_, -, hf⟩ <;>
      · unfold ck at hf
        split at hf <;> cases hf
    rcases bind_eq_error.1 he with he | ⟨_, -, he⟩
    · exact hs _ he
    · rcases bind_eq_error.1 he with he | ⟨_, -, he⟩
      · exact hs _ he
      · cases he

/-- C84 in full for SubRip. -/
def C84_subrip_statement : Prop := ∀ (lines : List Str) (subs : List Raw), srtRead lines = .ok subs → ∃ out, collect subs = .ok out

/-- C84 for SubRip, the part that holds: milliseconds of at most 2147483.  (Missing: larger ones, `C84_subrip_false`.) -/
theorem C84_subrip_partial (lines : List Str) (subs : List Raw) (h : srtRead lines = .ok subs) (hs : ∀ r ∈ subs, r.SmallMs) : ∃ out, collect subs = .ok out :=
  collect_ms subs (fun r hr => (srt_good (tags := true) (.inl rfl) h r hr).1) hs

/-- With a time in another order and negative milliseconds. -/
example : (srtRead [b!"1", b!"0:0:3,999 --> 0:0:2,-5", b!"x", b!"", b!"2", b!"0:0:1,2147483 --> 0:0:2,0", b!"{\\an8}y"]).toOption.map (fun l => (l.length, l.all (fun r => decide r.SmallMs))) = some (2, true) := by decide +kernel

/-- C84 for SubRip, more: it is enough that two times with more milliseconds are not in the same second.  (Missing: ends in the same second with more
milliseconds are compared only if the starts are equal.) -/
theorem C84_subrip_pairs_partial (lines : List Str) (subs : List Raw) (h : srtRead lines = .ok subs)
    (hs : subs.Pairwise fun a b => a.from_.Clear b.from_ ∧ a.to_.Clear b.to_) : ∃ out, collect subs = .ok out :=
  collect_clear subs (fun r hr => (srt_good (tags := true) (.inl rfl) h r hr).1) hs

/-- C84 for SubRip: and of the starts it is necessary. -/
theorem C84_subrip_needs (lines : List Str) (subs : List Raw) (out : List Subtitle) (h : srtRead lines = .ok subs) (hc : collect subs = .ok out) :
    subs.Pairwise fun a b => a.from_.Clear b.from_ :=
  clear_of_collect (fun r hr => (srt_good (tags := true) (.inl rfl) h r hr).1) hc

/-- With starts and ends that have too many milliseconds, in different seconds. -/
example : (srtRead [b!"1", b!"0:0:1,2147484 --> 0:0:2,3147484", b!"x", b!"", b!"2", b!"0:0:2,2147485 --> 0:0:3,0", b!"y"]).toOption.map
    (fun l => (l.length, decide (l.Pairwise fun a b => a.from_.Clear b.from_ ∧ a.to_.Clear b.to_), l.all fun r => decide r.SmallMs)) = some (2, true, false) := by decide +kernel

/-- C84 for SubRip: the only thing that can go wrong is overflow; the rates of all times are known. -/
theorem C84_subrip_rates (lines : List Str) (subs : List Raw) (h : srtRead lines = .ok subs) : (∃ out, collect subs = .ok out) ∨ collect subs = .error (.ub .intOverflow) := by
  have hk := no_unknown (fun r hr => (srt_good (tags := true) (.inl rfl) h r hr).1)
  cases hc : collect subs with
  | ok out => exact .inl ⟨out, rfl⟩
  | error e =>
    rcases (C16_errors subs e hc).1 with rfl | rfl
    · exact absurd hc hk
    · exact .inr rfl

/-- Two cues that start in the same second, with too many milliseconds. -/
private def manyMs : List Str := [b!"1", b!"0:0:1,2147484 --> 0:0:2,0", b!"x", b!"", b!"2", b!"0:0:1,2147485 --> 0:0:2,0", b!"y"]

/-- C84 is false of SubRip. -/
theorem C84_subrip_false : ¬ C84_subrip_statement := by
  intro h
  have h1 : ((srtRead manyMs).bind collect).toOption = none := by decide +kernel
  have h2 : ((srtRead manyMs).toOption.map (·.length)) = some 2 := by decide +kernel
  cases hr : srtRead manyMs with
  | error e => rw [hr] at h2; cases h2
  | ok subs =>
    obtain ⟨out, ho⟩ := h _ _ hr
    rw [hr] at h1
    have : (collect subs).toOption = none := h1
    rw [ho] at this
    cases this

/-- C84 for WebVTT, the part that holds: milliseconds of at most 2147483.  (Missing: larger ones, as in `C84_subrip_false`.) -/
theorem C84_webvtt_partial (lines : List Str) (subs : List Raw) (h : vttRead lines = .ok subs) (hs : ∀ r ∈ subs, r.SmallMs) : ∃ out, collect subs = .ok out :=
  collect_ms subs (fun r hr => (vtt_good h r hr).1) hs

example : (vttRead [b!"WEBVTT", b!"0:0:3.999 --> 0:0:4.0", b!"x", b!"y", b!"", b!"0:0:1.5 --> 0:0:2.0", b!"z"]).toOption.map (fun l => (l.length, l.all (fun r => decide r.SmallMs))) = some (3, true) := by decide +kernel

/-- C84 for WebVTT, more, as for SubRip. -/
theorem C84_webvtt_pairs_partial (lines : List Str) (subs : List Raw) (h : vttRead lines = .ok subs)
    (hs : subs.Pairwise fun a b => a.from_.Clear b.from_ ∧ a.to_.Clear b.to_) : ∃ out, collect subs = .ok out :=
  collect_clear subs (fun r hr => (vtt_good h r hr).1) hs

example : (vttRead [b!"WEBVTT", b!"0:0:1.2147484 --> 0:0:2.0", b!"x", b!"", b!"0:0:2.5 --> 0:0:3.0", b!"z"]).toOption.map
    (fun l => (l.length, decide (l.Pairwise fun a b => a.from_.Clear b.from_ ∧ a.to_.Clear b.to_), l.all fun r => decide r.SmallMs)) = some (2, true, false) := by decide +kernel

/-- C84 for WebVTT: the only thing that can go wrong is overflow; the rates of all times are known. -/
theorem C84_webvtt_rates (lines : List Str) (subs : List Raw) (h : vttRead lines = .ok subs) : (∃ out, collect subs = .ok out) ∨ collect subs = .error (.ub .intOverflow) := by
  have hk := no_unknown (fun r hr => (vtt_good h r hr).1)
  cases hc : collect subs with
  | ok out => exact .inl ⟨out, rfl⟩
  | error e =>
    rcases (C16_errors subs e hc).1 with rfl | rfl
    · exact absurd hc hk
    · exact .inr rfl

/-- C84 in full for SSA. -/
def C84_ssa_statement : Prop := ∀ (s : Str) (subs : List Raw), ssaReadString s = .ok subs → ∃ out, collect subs = .ok out

theorem ssa_kinds {s : Str} {subs : List Raw} (h : ssaReadString s = .ok subs ∨ ssaReadFile s = .ok subs) : ∀ r ∈ subs,
    (r.from_.rate = some ⟨1000, 1⟩ ∨ r.from_.rate = none) ∧ (r.to_.rate = some ⟨1000, 1⟩ ∨ r.to_.rate = none) ∧ r.fadeUp = none ∧ r.fadeDown = none := by
  intro r hm
  obtain ⟨h1, h2, h3, h4⟩ := ssa_times h r hm
  refine ⟨h1.imp_right ?_, h2.imp_right ?_, h3, h4⟩
  · intro e; rw [e]
  · intro e; rw [e]

/-- C84 for SSA, the part that holds: all events have a start and an end, with small enough numbers.  (Missing: events without, `C84_ssa_false`.) -/
theorem C84_ssa_partial (s : Str) (subs : List Raw) (h : ssaReadString s = .ok subs ∨ ssaReadFile s = .ok subs) (hr : ∀ r ∈ subs, r.from_.rate ≠ none ∧ r.to_.rate ≠ none)
    (hs : ∀ r ∈ subs, r.SmallMs) : ∃ out, collect subs = .ok out := by
  refine collect_ms subs (fun r hm => ?_) hs
  obtain ⟨h1, h2, h3, h4⟩ := ssa_times h r hm
  obtain ⟨h5, h6⟩ := hr r hm
  refine ⟨h1.resolve_right ?_, h2.resolve_right ?_, h3, h4⟩
  · intro e; exact h5 (by rw [e])
  · intro e; exact h6 (by rw [e])

example : (ssaReadString b!"[Events]\nFormat: Start, End, Text\nDialogue: 0:00:01.00,0:00:02.00,a{\\i1}b\nDialogue: 0:00:00.50,0:00:02.00,c").toOption.map
    (fun l => (l.length, l.all (fun r => decide (r.from_.rate ≠ none ∧ r.to_.rate ≠ none ∧ r.SmallMs)))) = some (3, true) := by decide +kernel

/-- Also if none have. -/
theorem C84_ssa_untimed (s : Str) (subs : List Raw) (h : ssaReadString s = .ok subs ∨ ssaReadFile s = .ok subs) (hr : ∀ r ∈ subs, r.from_.rate = none ∧ r.to_.rate = none) :
    ∃ out, collect subs = .ok out := by
  apply collect_ok
  have key : ∀ r ∈ subs, ∀ t ∈ r.times, t.rate = none := by
    intro r hm t ht
    obtain ⟨-, -, h3, h4⟩ := ssa_times h r hm
    simp only [Raw.times, h3, h4, Option.toList_none, List.append_nil, List.mem_cons, List.not_mem_nil, or_false] at ht
    rcases ht with rfl | rfl
    · exact (hr r hm).1
    · exact (hr r hm).2
  intro a ha b hb t ht u hu
  exact eq_ok_of_none t u (key a ha t ht) (key b hb u hu)

example : (ssaReadString b!"[Events]\nFormat: Text\nDialogue: a{\\i1}b\nDialogue: c").toOption.map
    (fun l => (l.length, l.all (fun r => decide (r.from_.rate = none ∧ r.to_.rate = none)))) = some (3, true) := by decide +kernel

/-- The start of the second event comes after its text. -/
private def startLast : Str := b!"[Events]\nFormat: Start, End, Text\nDialogue: 0:00:00.00,0:00:02.00,a\nFormat: End, Text, Start\nDialogue: 0:00:02.00,b,0:00:01.00"

/-- C84 is false of SSA. -/
theorem C84_ssa_false : ¬ C84_ssa_statement := by
  intro h
  have h1 : ((ssaReadString startLast).bind collect).toOption = none := by decide +kernel
  have h2 : ((ssaReadString startLast).toOption.map (·.length)) = some 2 := by decide +kernel
  cases hr : ssaReadString startLast with
  | error e => rw [hr] at h2; cases h2
  | ok subs =>
    obtain ⟨out, ho⟩ := h _ _ hr
    rw [hr] at h1
    have : (collect subs).toOption = none := h1
    rw [ho] at this
    cases this

/-! ### C61: which files can be written as binary STL -/

/-- Lines and times are those of raw subtitles. -/
private theorem grows_of {rs : List Raw} {out : List Subtitle} (h : Grows rs out) :
    (rs ≠ [] → out ≠ []) ∧ ∀ s ∈ out, (∃ r ∈ rs, s.from_ = r.from_ ∧ s.to_ = r.to_) ∧ ∀ l ∈ s.lines, ∃ r ∈ rs, l.vpos = r.vpos := by
  induction h with
  | nil => simp
  | first i => simp [Subtitle.ofRaw, Line.ofRaw]
  | @newSub rs out cur i _ _ ih =>
    refine ⟨by simp, fun s hs => ?_⟩
    rcases List.mem_append.1 hs with hs | hs
    · obtain ⟨⟨r, hr, k⟩, h2⟩ := ih.2 s hs
      exact ⟨⟨r, by simp [hr], k⟩, fun l hl => (h2 l hl).imp fun r k => ⟨by simp [k.1], k.2⟩⟩
    · rw [List.mem_singleton] at hs
      subst hs
      refine ⟨⟨i, by simp, rfl, rfl⟩, fun l hl => ⟨i, by simp, ?_⟩⟩
      simp only [Subtitle.ofRaw, List.mem_singleton] at hl
      rw [hl]; rfl
  | @newLine rs out cur ls l i _ hc _ _ ih =>
    refine ⟨by simp, fun s hs => ?_⟩
    rcases List.mem_append.1 hs with hs | hs
    · obtain ⟨⟨r, hr, k⟩, h2⟩ := ih.2 s (by simp [hs])
      exact ⟨⟨r, by simp [hr], k⟩, fun l hl => (h2 l hl).imp fun r k => ⟨by simp [k.1], k.2⟩⟩
    · rw [List.mem_singleton] at hs
      subst hs
      obtain ⟨⟨r, hr, k⟩, h2⟩ := ih.2 cur (by simp)
      refine ⟨⟨r, by simp [hr], k⟩, fun l' hl => ?_⟩
      rw [hc] at h2
      rcases List.mem_append.1 hl with hl | hl
      · exact (h2 l' hl).imp fun r k => ⟨by simp [k.1], k.2⟩
      · rw [List.mem_singleton] at hl
        exact ⟨i, by simp, by rw [hl]; rfl⟩
  | @newBlock rs out cur ls l i _ hc _ _ ih =>
    refine ⟨by simp, fun s hs => ?_⟩
    rcases List.mem_append.1 hs with hs | hs
    · obtain ⟨⟨r, hr, k⟩, h2⟩ := ih.2 s (by simp [hs])
      exact ⟨⟨r, by simp [hr], k⟩, fun l hl => (h2 l hl).imp fun r k => ⟨by simp [k.1], k.2⟩⟩
    · rw [List.mem_singleton] at hs
      subst hs
      obtain ⟨⟨r, hr, k⟩, h2⟩ := ih.2 cur (by simp)
      refine ⟨⟨r, by simp [hr], k⟩, fun l' hl => ?_⟩
      rw [hc] at h2
      rcases List.mem_append.1 hl with hl | hl
      · exact (h2 l' (by simp [hl])).imp fun r k => ⟨by simp [k.1], k.2⟩
      · rw [List.mem_singleton] at hl
        obtain ⟨r, hr, e⟩ := h2 l (by simp)
        exact ⟨r, by simp [hr], by rw [hl]; exact e⟩

/-- Lines and times of collected subtitles are those of raw subtitles. -/
theorem collect_of {raws : List Raw} {out : List Subtitle} (h : collect raws = .ok out) :
    (raws ≠ [] → out ≠ []) ∧ ∀ s ∈ out, s.lines ≠ [] ∧ (∃ r ∈ raws, s.from_ = r.from_ ∧ s.to_ = r.to_) ∧ ∀ l ∈ s.lines, ∃ r ∈ raws, l.vpos = r.vpos := by
  obtain ⟨sorted, hs, hg⟩ := collectWith_grows h
  have hp : sorted.Perm raws := by
    rw [(stableSort_ok hs).2]
    exact sortRaws_perm _ _
  obtain ⟨h1, h2⟩ := grows_of hg
  refine ⟨fun hne => h1 fun e => hne ?_, fun s hs => ⟨hg.lines_ne s hs, ?_, fun l hl => ?_⟩⟩
  · rw [e] at hp; exact hp.nil_eq.symm
  · obtain ⟨r, hr, k⟩ := (h2 s hs).1
    exact ⟨r, hp.mem_iff.1 hr, k⟩
  · obtain ⟨r, hr, k⟩ := (h2 s hs).2 l hl
    exact ⟨r, hp.mem_iff.1 hr, k⟩

private theorem unwritable {raws : List Raw} {out : List Subtitle} (hne : raws ≠ []) (hg : ∀ r ∈ raws, r.vpos.lines = none ∧ r.vpos.line.isSome = true ∧ r.vpos.prop = none)
    (hc : collect raws = .ok out) (loc : Locale) (a : StlArgs) (hv : a.Valid) (ha : a.subtitles = out) : writeStlIn loc a = .error (.ub .emptyOptional) := by
  obtain ⟨h1, h2⟩ := collect_of hc
  obtain ⟨s, ss, rfl⟩ := List.exists_cons_of_ne_nil (h1 hne)
  obtain ⟨h3, -, h4⟩ := h2 s (by simp)
  obtain ⟨l, ls, hl⟩ := List.exists_cons_of_ne_nil h3
  obtain ⟨r, hr, e⟩ := h4 l (by simp [hl])
  obtain ⟨g1, g2, g3⟩ := hg r hr
  exact C61_line_number loc a hv s ss ha [] ls l hl (by simp) (by rw [e]; exact g3) (by rw [e]; exact g2) (by rw [e]; exact g1)

/-- C61 is false of every SubRip file with subtitles and no SSA tags: what is read and collected cannot be written as binary STL. -/
theorem C61_subrip (lines : List Str) (subs : List Raw) (out : List Subtitle) (h : srtRead lines = .ok subs) (hne : subs ≠ []) (ht : ∀ l ∈ lines, (92 : Byte) ∉ l)
    (hc : collect subs = .ok out) (loc : Locale) (a : StlArgs) (hv : a.Valid) (ha : a.subtitles = out) : writeStlIn loc a = .error (.ub .emptyOptional) :=
  unwritable hne (fun r hr => by obtain ⟨-, h1, h2, h3⟩ := srt_good (tags := false) (.inr ht) h r hr; exact ⟨h1, h2, h3 rfl⟩) hc loc a hv ha

example : (srtRead [b!"1", b!"0:0:1,0 --> 0:0:2,0", b!"<i>x</i>"]).toOption.map (·.length) = some 1 ∧ (∀ l ∈ [b!"1", b!"0:0:1,0 --> 0:0:2,0", b!"<i>x</i>"], (92 : Byte) ∉ l) ∧ stlDemo.Valid :=
  ⟨by decide +kernel, by decide, stlDemo_valid⟩

/-- C61 is false of every WebVTT file with subtitles. -/
theorem C61_webvtt (lines : List Str) (subs : List Raw) (out : List Subtitle) (h : vttRead lines = .ok subs) (hne : subs ≠ [])
    (hc : collect subs = .ok out) (loc : Locale) (a : StlArgs) (hv : a.Valid) (ha : a.subtitles = out) : writeStlIn loc a = .error (.ub .emptyOptional) :=
  unwritable hne (fun r hr => by obtain ⟨-, h1, h2, h3⟩ := vtt_good h r hr; exact ⟨h1, h2, h3 rfl⟩) hc loc a hv ha

example : ((vttRead [b!"WEBVTT", b!"0:0:1.0 --> 0:0:2.0", b!"x"]).bind collect).toOption.map (·.length) = some 1 := by decide +kernel

/-- C61 is false of every STL text file with subtitles. -/
theorem C61_stltext (file : Str) (subs : List Raw) (out : List Subtitle) (h : stlTextRead file = .ok subs) (hne : subs ≠ [])
    (hc : collect subs = .ok out) (loc : Locale) (a : StlArgs) (hv : a.Valid) (ha : a.subtitles = out) : writeStlIn loc a = .error (.ub .emptyOptional) :=
  unwritable hne (fun r hr => (textRead_bare h r hr).2) hc loc a hv ha

example : ((stlTextRead b!"00:00:01:00 , 00:00:02:00 , a|b\n").bind collect).toOption.map (·.length) = some 1 := by decide +kernel

/-! ### C85: binary STL can be written again -/

/-- C85: subtitles read from a binary STL file that gives a number of rows can be collected and written again. -/
theorem C85_rewrite (file : Str) (info : StlInfo) (subs : List Raw) (h : stlRead file = .ok (info, subs)) (hr : info.maximumRows ≠ 0) (fps : ℚ) (h0 : 0 ≤ fps) (h1 : fps ≤ 1000) :
    ∃ out blocks, collect subs = .ok out ∧ makeTtiBlocks fps out = .ok blocks := by
  obtain ⟨out, ho⟩ := C84_stl file info subs h
  have hraw := stl_raws h
  have hrate := (parseGsi_ok (read_steps h).2.1).1
  have hrows := rows_bound h
  obtain ⟨-, h2⟩ := collect_of ho
  obtain ⟨blocks, hb⟩ := C61_defined_partial fps h0 h1 out (fun s hs => by
    obtain ⟨h3, ⟨r, hr1, e1, e2⟩, h4⟩ := h2 s hs
    have hw : ∀ t : Time, (∃ s f : Nat, f < 256 ∧ t = ⟨s, f, some ⟨info.frameRate, 1⟩⟩) → Writable t := by
      rintro t ⟨s, f, hf, rfl⟩
      simp only [List.mem_cons, Prod.mk.injEq, List.not_mem_nil, or_false] at hrate
      refine ⟨⟨info.frameRate, 1⟩, rfl, ?_, ?_, by simp, by simp, ?_⟩
      all_goals simp only []; omega
    refine ⟨h3, fun l hl => ?_, ?_, ?_⟩
    · obtain ⟨r, hr2, e⟩ := h4 l hl
      obtain ⟨-, -, -, -, k1, k2, -, n, k3, k4⟩ := hraw r hr2
      rw [e]
      rw [abs_le] at hrows
      exact .line _ n _ k1 k3 k2 hr (le_trans k4 (by norm_num)) (by unfold InInt; omega)
    · rw [e1]; exact hw _ (hraw r hr1).1
    · rw [e2]; exact hw _ (hraw r hr1).2.1)
  exact ⟨out, blocks, ho, hb⟩

/-- A block that is too low, with more frames than there are in a second. -/
example : (stlRead (stlFileDemo b!"00002" [stlBlockDemo 200 0 [65, 0x8a, 0x8a, 66], [0, 0, 0, 255, 0, 25, 77, 99, 200, 25, 78, 0, 255, 3, 1, 0] ++ b!"C" ++ List.replicate 111 0x8f])).toOption.map
    (fun r => (r.1.maximumRows, r.2.map (·.vpos.line), r.2.map (·.to_.frames))) = some (23, [some 21, some 23, some (-176)], [12, 12, 255]) := by decide +kernel

/-- C85: but not if it says that there are no rows: the writer divides by zero. -/
theorem C85_no_rows (file : Str) (info : StlInfo) (subs : List Raw) (h : stlRead file = .ok (info, subs)) (hr : info.maximumRows = 0) (hne : subs ≠ []) :
    ∃ out, collect subs = .ok out ∧ ∀ (loc : Locale) (a : StlArgs), a.Valid → a.subtitles = out → writeStlIn loc a = .error .nonFinite := by
  obtain ⟨out, ho⟩ := C84_stl file info subs h
  refine ⟨out, ho, fun loc a hv ha => ?_⟩
  obtain ⟨h1, h2⟩ := collect_of ho
  obtain ⟨s, ss, rfl⟩ := List.exists_cons_of_ne_nil (h1 hne)
  obtain ⟨h3, -, h4⟩ := h2 s (by simp)
  obtain ⟨l, ls, hl⟩ := List.exists_cons_of_ne_nil h3
  obtain ⟨r, hr1, e⟩ := h4 l (by simp [hl])
  obtain ⟨-, -, -, -, k1, k2, -, n, k3, -⟩ := stl_raws h r hr1
  refine write_error loc a s ss hv ha _ ?_
  unfold ttiBlocks
  rw [hl, writerVposes, writerVpos, e, k1, k3, k2, hr]
  rfl

/-- A file with 00 in the field for the number of rows. -/
example : (stlRead (b!"850STL25.010" ++ b!"0009" ++ List.replicate 222 32 ++ b!"00001" ++ List.replicate 10 48 ++ b!"001" ++ List.replicate 768 32 ++ stlBlockDemo 20 0 b!"Hello")).toOption.map
    (fun r => (r.1.maximumRows, r.2.length)) = some (0, 1) := by decide +kernel

end LibSub
