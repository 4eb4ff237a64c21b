/-
Property C79: the columns of an SSA event (src/ssa_reader.cc:497-573).
-/
import Verif.Props.Ssa

namespace LibSub

/-! ### Specification -/

/-- What tags cannot change: times, font, effect, fades. -/
def Raw.fixedPart (x : Raw) : Time × Time × Option Str × Option Effect × Option Colour × Option Time × Option Time :=
  (x.from_, x.to_, x.font, x.effect, x.effectColour, x.fadeUp, x.fadeDown)

/-- The columns with a meaning. -/
def eventColumns : List Str := [b!"Start", b!"End", b!"Style", b!"MarginV", b!"MarginL", b!"MarginR", b!"Text"]

/-- Two columns whose order matters: the margins override those of the style, and everything is before the text. -/
def Ordered (a b : Str) : Prop :=
  a = b ∨ a = b!"Text" ∨ b = b!"Text" ∨ (a = b!"Style" ∧ b ∈ [b!"MarginV", b!"MarginL", b!"MarginR"]) ∨ (b = b!"Style" ∧ a ∈ [b!"MarginV", b!"MarginL", b!"MarginR"])

/-! ### Proofs -/

private theorem updateH_fixed {ctx : SsaContext} {sub r : Raw} (h : ctx.updateH sub = .ok r) : r.fixedPart = sub.fixedPart := by
  unfold SsaContext.updateH at h
  simp only [] at h
  split at h
  · rw [bind_eq_ok] at h
    obtain ⟨_, _, h⟩ := h
    cases h; rfl
  · simp only [bind_eq_ok] at h
    obtain ⟨_, _, _, _, _, _, h⟩ := h
    cases h; rfl
  · rw [bind_eq_ok] at h
    obtain ⟨_, _, h⟩ := h
    cases h; rfl

private theorem parseTag_fixed (ctx : SsaContext) (sub : Raw) (tag : Str) : OkIn (fun r : Raw => r.fixedPart = sub.fixedPart) (ssaParseTag ctx sub tag) := by
  have hal : ∀ {a b}, OkIn (fun r : Raw => r.fixedPart = sub.fixedPart) (ssaAlign ctx sub a b) := by
    intro a b
    constructor
    intro r h
    have := updateH_fixed h
    exact this
  unfold ssaParseTag
  refine .ite (.ok rfl) (.ite (.ok rfl) (.ite (.ok rfl) (.ite (.ok rfl) (.ite (.ok rfl) (.ite (.ok rfl) (.ite hal (.ite hal (.ite hal (.ite hal (.ite hal
    (.ite hal (.ite hal (.ite hal (.ite hal (.ite ?_ (.ite ?_ (.ite (.ite ?_ (.ok rfl)) (.ok rfl))))))))))))))))))
  · split
    · exact .bind fun _ _ => .bind fun _ _ => .bind fun _ _ => .bind fun _ _ => .ok rfl
    · exact .error
  · exact .bind fun _ _ => .bind fun _ _ => .bind fun _ _ => .ok rfl
  · exact .bind fun _ _ => .ok rfl

/-- Everything in the loop, done or under way, has the fixed part `k`. -/
private def AllFixed (k : Time × Time × Option Str × Option Effect × Option Colour × Option Time × Option Time) (l : SsaLoop) : Prop :=
  l.current.fixedPart = k ∧ ∀ x ∈ l.subs, x.fixedPart = k

private theorem flush_fixed {k} {l : SsaLoop} (h : AllFixed k l) : AllFixed k l.flush := by
  unfold SsaLoop.flush
  split
  · exact h
  · refine ⟨h.1, ?_⟩
    intro x hx
    rcases List.mem_append.1 hx with hx | hx
    · exact h.2 x hx
    · rw [List.mem_singleton.1 hx]; exact h.1

private theorem run_fixed (k) (ctx : SsaContext) (ls : Rat) (s : Str) (l l' : SsaLoop) (h : ssaRun ctx ls l s = .ok l') (hl : AllFixed k l) : AllFixed k l' := by
  induction s generalizing l with
  | nil => cases h; exact hl
  | cons c s ih =>
    rw [ssaRun, bind_eq_ok] at h
    obtain ⟨m, hm, h⟩ := h
    refine ih m h ?_
    have hf := flush_fixed hl
    suffices hs : OkIn (AllFixed k) (ssaStep ctx ls l c) from hs.h m hm
    unfold ssaStep
    split
    · exact .ite (.ok hl) (.ite (.ok hl) (.ite (.ok ⟨hl.1, hl.2⟩) (.ok hl)))
    · exact .ite (.bind fun cur hc => .ok ⟨((parseTag_fixed _ _ _).h _ hc).trans hf.1, hf.2⟩)
        (.ite (.bind fun cur hc => .ok ⟨((parseTag_fixed _ _ _).h _ hc).trans hf.1, hf.2⟩) (.ok hl))
    · exact .ite (.bind fun _ _ => .ok ⟨hf.1, hf.2⟩) (.ok hl)

private theorem finishAll_fixed {bp : VPos} {n : Nat} {ls : Rat} {subs r : List Raw} (h : ssaFinishAll bp n ls subs = .ok r) :
    r.map Raw.fixedPart = subs.map Raw.fixedPart := by
  induction subs generalizing r with
  | nil => cases h; rfl
  | cons s ss ih =>
    rw [ssaFinishAll] at h
    simp only [bind_eq_ok] at h
    obtain ⟨a, ha, b, hb, h⟩ := h
    cases h
    unfold ssaFinishPos at ha
    simp only [bind_eq_ok] at ha
    obtain ⟨_, _, _, _, ha⟩ := ha
    cases ha
    simp only [List.map_cons, ih hb, List.cons.injEq, and_true]
    rfl

private theorem prepare_fixed {ctx : SsaContext} {base cur : Raw} (h : ssaPrepare ctx base = .ok cur) : cur.fixedPart = base.fixedPart := by
  unfold ssaPrepare at h
  simp only [bind_eq_ok] at h
  obtain ⟨a, ha, h⟩ := h
  have := updateH_fixed ha
  split at h
  · cases h; exact this
  · rw [bind_eq_ok] at h
    obtain ⟨_, _, h⟩ := h
    cases h; exact this

/-- C79: whatever tags are in the text, the times, font, effect and fades of each piece are those of the event. -/
theorem C79_fixed (ctx : SsaContext) (base : Raw) (line : Str) (subs : List Raw) (h : ssaParseLine ctx base line = .ok subs) :
    ∀ x ∈ subs, x.fixedPart = base.fixedPart := by
  unfold ssaParseLine at h
  simp only [bind_eq_ok] at h
  obtain ⟨cur, hc, fs, _, l, hl, h⟩ := h
  have h1 := flush_fixed (run_fixed base.fixedPart _ _ _ _ _ hl ⟨prepare_fixed hc, by simp⟩)
  intro x hx
  have hm : x.fixedPart ∈ subs.map Raw.fixedPart := List.mem_map_of_mem hx
  rw [finishAll_fixed h] at hm
  obtain ⟨y, hy, e⟩ := List.mem_map.1 hm
  rw [← e]
  exact h1.2 y hy

/-- The times of the event under construction, and of what it has emitted, after one more field. -/
private theorem field_times (r : SsaRead) (ev ev' : SsaEvent) (k v : Str) (hk : k ≠ b!"Text") (h : ssaEventField r ev k v = .ok ev') :
    ev'.subs = ev.subs ∧ (if k = b!"Start" then ssaParseTime (trim v) = .ok ev'.sub.from_ else ev'.sub.from_ = ev.sub.from_) ∧
      (if k = b!"End" then ssaParseTime (trim v) = .ok ev'.sub.to_ else ev'.sub.to_ = ev.sub.to_) := by
  unfold ssaEventField at h
  by_cases h1 : k = b!"Start"
  · subst h1
    simp only [if_true] at h
    obtain ⟨t, ht, h⟩ := bind_eq_ok.mp h
    cases h
    exact ⟨rfl, by rw [if_pos rfl]; exact ht, by rw [if_neg (by decide)]⟩
  by_cases h2 : k = b!"End"
  · subst h2
    simp only [if_neg h1, if_true] at h
    obtain ⟨t, ht, h⟩ := bind_eq_ok.mp h
    cases h
    exact ⟨rfl, by rw [if_neg (by decide)], by rw [if_pos rfl]; exact ht⟩
  rw [if_neg h1, if_neg h2]
  simp only [if_neg h1, if_neg h2] at h
  suffices hs : OkIn (fun e : SsaEvent => e.subs = ev.subs ∧ e.sub.from_ = ev.sub.from_ ∧ e.sub.to_ = ev.sub.to_) _ from hs.h _ h
  rw [if_neg hk]
  have e0 : ev.subs = ev.subs ∧ ev.sub.from_ = ev.sub.from_ ∧ ev.sub.to_ = ev.sub.to_ := ⟨rfl, rfl, rfl⟩
  refine .ite ?_ (.ite (.ite (.bind fun _ _ => .bind fun _ _ => .ok e0) (.ok e0)) (.ite (.ite (.bind fun _ _ => .ok e0) (.ok e0)) (.ite (.ite (.bind fun _ _ => .ok e0) (.ok e0)) (.ok e0))))
  split
  · exact .ok e0
  · unfold ssaApplyStyle
    exact .bind fun _ _ => .ite (.bind fun _ _ => .ok e0) (.ok e0)

private theorem fields_times (r : SsaRead) (l : List (Str × Str)) (hT : b!"Text" ∉ l.map (·.1)) (hn : (l.map (·.1)).Nodup) (ev ev' : SsaEvent)
    (h : ssaEventFields r ev l = .ok ev') : ev'.subs = ev.subs ∧
      (∀ v, (b!"Start", v) ∈ l → ssaParseTime (trim v) = .ok ev'.sub.from_) ∧ (b!"Start" ∉ l.map (·.1) → ev'.sub.from_ = ev.sub.from_) ∧
      (∀ v, (b!"End", v) ∈ l → ssaParseTime (trim v) = .ok ev'.sub.to_) ∧ (b!"End" ∉ l.map (·.1) → ev'.sub.to_ = ev.sub.to_) := by
  induction l generalizing ev with
  | nil => cases h; simp
  | cons kv l ih =>
    obtain ⟨k, v⟩ := kv
    rw [ssaEventFields, bind_eq_ok] at h
    obtain ⟨m, hm, h⟩ := h
    rw [List.map_cons, List.mem_cons, not_or] at hT
    rw [List.map_cons, List.nodup_cons] at hn
    obtain ⟨f0, f1, f2⟩ := field_times r ev m k v (fun e => hT.1 e.symm) hm
    obtain ⟨i0, i1, i2, i3, i4⟩ := ih hT.2 hn.2 m h
    refine ⟨i0.trans f0, ?_, ?_, ?_, ?_⟩
    · intro w hw
      rcases List.mem_cons.1 hw with e | hw
      · cases e
        rw [if_pos rfl] at f1
        rw [i2 hn.1]
        exact f1
      · exact i1 w hw
    · intro hw
      rw [List.map_cons, List.mem_cons, not_or] at hw
      rw [if_neg (fun e => hw.1 e.symm)] at f1
      rw [i2 hw.2, f1]
    · intro w hw
      rcases List.mem_cons.1 hw with e | hw
      · cases e
        rw [if_pos rfl] at f2
        rw [i4 hn.1]
        exact f2
      · exact i3 w hw
    · intro hw
      rw [List.map_cons, List.mem_cons, not_or] at hw
      rw [if_neg (fun e => hw.1 e.symm)] at f2
      rw [i4 hw.2, f2]

/-- C79: wherever the `Start` and `End` columns are, every subtitle made from a dialogue line begins at the time in the one and ends at the
time in the other; a missing column leaves the time zero. -/
theorem C79_times (r r' : SsaRead) (ks fs : List Str) (rest : Str) (hk : r.eventFormat = ks ++ [b!"Text"]) (hn : ks.length = fs.length) (h : ∀ f ∈ fs, (44 : Byte) ∉ f)
    (hd : (ks ++ [b!"Text"]).Nodup) (ho : ssaDialogue r ((fs.map (· ++ [44])).flatten ++ rest) = .ok r') :
    ∃ new from_ to_, r'.subs = r.subs ++ new ∧ (∀ x ∈ new, x.from_ = from_ ∧ x.to_ = to_) ∧
      (∀ v, (b!"Start", v) ∈ ks.zip fs → ssaParseTime (trim v) = .ok from_) ∧ (b!"Start" ∉ ks → from_ = {}) ∧
      (∀ v, (b!"End", v) ∈ ks.zip fs → ssaParseTime (trim v) = .ok to_) ∧ (b!"End" ∉ ks → to_ = {}) := by
  have hz : (ks.zip fs).map (·.1) = ks := List.map_fst_zip (by omega)
  rw [List.nodup_append] at hd
  have hT : b!"Text" ∉ ks := fun hm => hd.2.2 _ hm _ (by simp) rfl
  cases hev : ssaEventFields r {} (ks.zip fs) with
  | error e =>
    exfalso
    rw [C43_rest r fs rest (by rw [hk]; simp [hn]) h, hk, List.zip_append hn] at ho
    have happ : ∀ (l : List (Str × Str)) (e0 : SsaEvent) (m : List (Str × Str)), ssaEventFields r e0 l = .error e → ssaEventFields r e0 (l ++ m) = .error e := by
      intro l
      induction l with
      | nil => intro e0 m h; cases h
      | cons x l ih =>
        intro e0 m h
        obtain ⟨k, v⟩ := x
        rw [ssaEventFields] at h
        rw [List.cons_append, ssaEventFields]
        cases hq : ssaEventField r e0 k v with
        | error e => rw [hq] at h; exact h
        | ok a => rw [hq] at h; exact ih a m h
    rw [happ _ _ _ hev] at ho
    cases ho
  | ok ev =>
    rw [C43_text r ks fs rest hk hn h ev hev] at ho
    obtain ⟨i0, i1, i2, i3, i4⟩ := fields_times r (ks.zip fs) (by rw [hz]; exact hT) (by rw [hz]; exact hd.1) {} ev hev
    rw [hz] at i2 i4
    generalize hp : ssaParseLine _ ev.sub (trim rest) = p at ho
    cases p with
    | error e => cases ho
    | ok subs =>
      have ho := Except.ok.inj ho
      subst ho
      refine ⟨subs, ev.sub.from_, ev.sub.to_, by simp [i0], ?_, i1, i2, i3, i4⟩
      intro x hx
      have hf := C79_fixed _ _ _ _ hp x hx
      unfold Raw.fixedPart at hf
      simp only [Prod.mk.injEq] at hf
      exact ⟨hf.1, hf.2.1⟩

example : ∃ r', ssaDialogue { eventFormat := [b!"Layer", b!"End", b!"Name", b!"Start"] ++ [b!"Text"] }
    (([b!"0", b!"0:00:02.50", b!"Bob", b!"0:00:01.00"].map (· ++ [44])).flatten ++ b!"Hello, world") = .ok r' ∧
    r'.subs.map (fun x => (x.from_, x.to_)) = [(⟨1, 0, some ⟨1000, 1⟩⟩, ⟨2, 500, some ⟨1000, 1⟩⟩)] := by
  refine ⟨(ssaDialogue { eventFormat := [b!"Layer", b!"End", b!"Name", b!"Start"] ++ [b!"Text"] }
    (([b!"0", b!"0:00:02.50", b!"Bob", b!"0:00:01.00"].map (· ++ [44])).flatten ++ b!"Hello, world")).toOption.getD {}, by decide +kernel, by decide +kernel⟩

/-- C79: columns with other names (`Layer`, `Marked`, `Name`, `Effect`, …) have no influence at all. -/
theorem C79_unknown (r : SsaRead) (ev : SsaEvent) (l : List (Str × Str)) : ssaEventFields r ev l = ssaEventFields r ev (l.filter (·.1 ∈ eventColumns)) := by
  induction l generalizing ev with
  | nil => rfl
  | cons kv l ih =>
    obtain ⟨k, v⟩ := kv
    by_cases hk : k ∈ eventColumns
    · rw [List.filter_cons_of_pos (by simpa using hk), ssaEventFields, ssaEventFields]
      cases ssaEventField r ev k v with
      | error e => rfl
      | ok a => exact ih a
    · rw [List.filter_cons_of_neg (by simpa using hk), ssaEventFields, ← ih]
      simp only [eventColumns, List.mem_cons, List.not_mem_nil, or_false, not_or] at hk
      obtain ⟨h1, h2, h3, h4, h5, h6, h7⟩ := hk
      have : ssaEventField r ev k v = .ok ev := by
        unfold ssaEventField
        simp only [if_neg h1, if_neg h2, if_neg h3, if_neg h4, if_neg h5, if_neg h6, if_neg h7]
      rw [this, ok_bind]

example : [(b!"Layer", b!"0"), (b!"Start", b!"x"), (b!"Effect", [])].filter (·.1 ∈ eventColumns) = [(b!"Start", b!"x")] := by decide

private def timeOf (v : Str) (_ : SsaEvent) : R Time := ssaParseTime (trim v)

private def setFrom (ev : SsaEvent) (t : Time) : SsaEvent := { ev with sub := { ev.sub with from_ := t } }

private def setTo (ev : SsaEvent) (t : Time) : SsaEvent := { ev with sub := { ev.sub with to_ := t } }

private def setL (ev : SsaEvent) (x : Option Int) : SsaEvent := { ev with lmargin := x.getD ev.lmargin }

private def setR (ev : SsaEvent) (x : Option Int) : SsaEvent := { ev with rmargin := x.getD ev.rmargin }

private def setV (ev : SsaEvent) (x : Option Rat) : SsaEvent :=
  { ev with sub := { ev.sub with vpos := { ev.sub.vpos with prop := match x with | some q => some q | none => ev.sub.vpos.prop } } }

private theorem field_start (r : SsaRead) (ev : SsaEvent) (v : Str) :
    ssaEventField r ev b!"Start" v = (timeOf v ev).map (setFrom ev) := by
  unfold ssaEventField timeOf
  rw [if_pos rfl]
  cases ssaParseTime (trim v) <;> rfl

private theorem field_end (r : SsaRead) (ev : SsaEvent) (v : Str) :
    ssaEventField r ev b!"End" v = (timeOf v ev).map (setTo ev) := by
  unfold ssaEventField timeOf
  rw [if_neg (by decide), if_pos rfl]
  cases ssaParseTime (trim v) <;> rfl

private def marginOf (v : Str) (_ : SsaEvent) : R (Option Int) := if trim v ≠ b!"0" then (rawConvertInt (trim v)).map some else .ok none

private theorem field_l (r : SsaRead) (ev : SsaEvent) (v : Str) :
    ssaEventField r ev b!"MarginL" v = (marginOf v ev).map (setL ev) := by
  unfold ssaEventField marginOf
  rw [if_neg (by decide), if_neg (by decide), if_neg (by decide), if_neg (by decide), if_pos rfl]
  split
  · cases rawConvertInt (trim v) <;> rfl
  · rfl

private theorem field_r (r : SsaRead) (ev : SsaEvent) (v : Str) :
    ssaEventField r ev b!"MarginR" v = (marginOf v ev).map (setR ev) := by
  unfold ssaEventField marginOf
  rw [if_neg (by decide), if_neg (by decide), if_neg (by decide), if_neg (by decide), if_neg (by decide), if_pos rfl]
  split
  · cases rawConvertInt (trim v) <;> rfl
  · rfl

private def vmarginOf (r : SsaRead) (v : Str) (ev : SsaEvent) : R (Option Rat) :=
  if trim v ≠ b!"0" ∧ ev.sub.vpos.ref ≠ some .centreOfScreen then do
    let f ← rawConvertFloat (trim v)
    let q ← fdiv f (f32 r.resY)
    pure (some (f32 q))
  else .ok none

private theorem field_v (r : SsaRead) (ev : SsaEvent) (v : Str) :
    ssaEventField r ev b!"MarginV" v = (vmarginOf r v ev).map (setV ev) := by
  unfold ssaEventField vmarginOf
  rw [if_neg (by decide), if_neg (by decide), if_neg (by decide), if_pos rfl]
  simp only []
  split
  · cases h : rawConvertFloat (trim v) with
    | error e => rfl
    | ok f =>
      simp only [ok_bind]
      cases fdiv f (f32 r.resY) <;> rfl
  · rfl

private def styleOf (r : SsaRead) (v : Str) (_ : SsaEvent) : R (Option (SsaStyle × Rat × Option Rat)) :=
  match ssaFindStyle r.styles (trimLeftIf (· == 42) (trim v)) with
  | none => .ok none
  | some st => do
    let fs ← intRatio st.fontSize r.resY
    let vp ← if st.vref != .centreOfScreen then (intRatio st.vmargin r.resY).map some else .ok none
    pure (some (st, fs, vp))

private def styled (ev : SsaEvent) : Option (SsaStyle × Rat × Option Rat) → SsaEvent
  | none => ev
  | some (st, fs, vp) => { ev with
    style := some st
    lmargin := st.lmargin
    rmargin := st.rmargin
    sub := { ev.sub with
      font := st.fontName
      fontSize := FontSize.fromProportional fs
      colour := st.primaryColour
      effectColour := st.backColour
      bold := st.bold
      italic := st.italic
      underline := st.underline
      effect := st.effect
      hpos := { ev.sub.hpos with ref := st.href }
      vpos := { ev.sub.vpos with ref := some st.vref, prop := match vp with | some q => some q | none => ev.sub.vpos.prop } } }

private theorem field_style (r : SsaRead) (ev : SsaEvent) (v : Str) : ssaEventField r ev b!"Style" v = (styleOf r v ev).map (styled ev) := by
  unfold ssaEventField styleOf
  rw [if_neg (by decide), if_neg (by decide), if_pos rfl]
  simp only []
  cases ssaFindStyle r.styles (trimLeftIf (· == 42) (trim v)) with
  | none => rfl
  | some st =>
    simp only [ssaApplyStyle]
    cases intRatio st.fontSize r.resY with
    | error e => rfl
    | ok fs =>
      simp only [ok_bind]
      split
      · cases intRatio st.vmargin r.resY <;> rfl
      · rfl

private theorem field_other (r : SsaRead) (ev : SsaEvent) (k v : Str) (hk : k ∉ eventColumns) : ssaEventField r ev k v = .ok ev := by
  simp only [eventColumns, List.mem_cons, List.not_mem_nil, or_false, not_or] at hk
  obtain ⟨h1, h2, h3, h4, h5, h6, h7⟩ := hk
  unfold ssaEventField
  simp only [if_neg h1, if_neg h2, if_neg h3, if_neg h4, if_neg h5, if_neg h6, if_neg h7]

private theorem comm {α β : Type} {A : SsaEvent → R α} {B : SsaEvent → R β} {f : SsaEvent → α → SsaEvent} {g : SsaEvent → β → SsaEvent} {ev ev' : SsaEvent}
    (hA : ∀ b, A (g ev b) = A ev) (hB : ∀ a, B (f ev a) = B ev) (hc : ∀ a b, g (f ev a) b = f (g ev b) a)
    (ho : ((A ev).map (f ev) >>= fun e => (B e).map (g e)) = .ok ev') : ((B ev).map (g ev) >>= fun e => (A e).map (f e)) = .ok ev' := by
  cases h1 : A ev with
  | error e => rw [h1] at ho; cases ho
  | ok a =>
    rw [h1] at ho
    have ho : (B (f ev a)).map (g (f ev a)) = .ok ev' := ho
    rw [hB] at ho
    cases h2 : B ev with
    | error e => rw [h2] at ho; cases ho
    | ok b =>
      rw [h2] at ho
      show (A (g ev b)).map (f (g ev b)) = .ok ev'
      rw [hA, h1]
      show Except.ok (f (g ev b) a) = _
      rw [← hc]
      exact ho

private theorem field_swap (r : SsaRead) (ev ev' : SsaEvent) (k1 v1 k2 v2 : Str) (h : ¬ Ordered k1 k2)
    (ho : (ssaEventField r ev k1 v1 >>= fun e => ssaEventField r e k2 v2) = .ok ev') : (ssaEventField r ev k2 v2 >>= fun e => ssaEventField r e k1 v1) = .ok ev' := by
  by_cases h1 : k1 ∈ eventColumns
  swap
  · rw [field_other r ev k1 v1 h1, ok_bind] at ho
    rw [ho, ok_bind, field_other _ _ _ _ h1]
  by_cases h2 : k2 ∈ eventColumns
  swap
  · obtain ⟨e, he, ho⟩ := bind_eq_ok.mp ho
    rw [field_other _ _ _ _ h2] at ho
    cases ho
    rw [field_other _ _ _ _ h2, ok_bind]
    exact he
  simp only [eventColumns, List.mem_cons, List.not_mem_nil, or_false] at h1 h2
  simp only [Ordered, List.mem_cons, List.not_mem_nil, or_false] at h
  rcases h1 with rfl | rfl | rfl | rfl | rfl | rfl | rfl <;> rcases h2 with rfl | rfl | rfl | rfl | rfl | rfl | rfl <;>
    first
    | exact absurd (by decide) h
    | simp only [field_start, field_end, field_l, field_r, field_v, field_style] at ho ⊢
      refine comm ?_ ?_ ?_ ho
      · exact fun _ => rfl
      · exact fun _ => rfl
      · intro a b
        first
        | rfl
        | cases a <;> rfl
        | cases b <;> rfl

/-- C79: the order of the columns does not matter, except that margins come after the style and the text is last: exchanging neighbouring
columns gives the same subtitles. -/
theorem C79_swap (r : SsaRead) (ev ev' : SsaEvent) (l m : List (Str × Str)) (p q : Str × Str) (h : ¬ Ordered p.1 q.1) :
    ssaEventFields r ev (l ++ p :: q :: m) = .ok ev' ↔ ssaEventFields r ev (l ++ q :: p :: m) = .ok ev' := by
  have hs : ∀ (p q : Str × Str) (ev : SsaEvent), ¬ Ordered p.1 q.1 → ssaEventFields r ev (p :: q :: m) = .ok ev' → ssaEventFields r ev (q :: p :: m) = .ok ev' := by
    intro p q ev h ho
    obtain ⟨k1, v1⟩ := p
    obtain ⟨k2, v2⟩ := q
    simp only [ssaEventFields] at ho ⊢
    obtain ⟨e1, he1, ho⟩ := bind_eq_ok.mp ho
    obtain ⟨e2, he2, ho⟩ := bind_eq_ok.mp ho
    have := field_swap r ev e2 k1 v1 k2 v2 h (by rw [he1, ok_bind, he2])
    obtain ⟨e3, he3, he4⟩ := bind_eq_ok.mp this
    rw [he3, ok_bind, he4, ok_bind]
    exact ho
  have sym : ∀ a b, ¬ Ordered a b → ¬ Ordered b a := by
    intro a b h h'
    refine h ?_
    rcases h' with h' | h' | h' | h' | h'
    · exact .inl h'.symm
    · exact .inr (.inr (.inl h'))
    · exact .inr (.inl h')
    · exact .inr (.inr (.inr (.inr h')))
    · exact .inr (.inr (.inr (.inl h')))
  induction l generalizing ev with
  | nil => exact ⟨hs p q ev h, hs q p ev (sym _ _ h)⟩
  | cons x l ih =>
    obtain ⟨k, v⟩ := x
    simp only [List.cons_append, ssaEventFields]
    cases ssaEventField r ev k v with
    | error e => exact Iff.rfl
    | ok a => exact ih a

example : ¬ Ordered b!"Start" b!"Style" ∧ ¬ Ordered b!"MarginL" b!"MarginV" ∧ ¬ Ordered b!"Style" b!"Effect" := by
  simp only [Ordered]; decide

/-- C79: a margin before the style is lost. -/
theorem C79_order_witness :
    (ssaEventFields { styles := [(b!"Default", {})] } {} [(b!"MarginL", b!"10"), (b!"Style", b!"Default")]).toOption.map (·.lmargin) = some 0 ∧
    (ssaEventFields { styles := [(b!"Default", {})] } {} [(b!"Style", b!"Default"), (b!"MarginL", b!"10")]).toOption.map (·.lmargin) = some 10 := by
  decide +kernel

end LibSub
