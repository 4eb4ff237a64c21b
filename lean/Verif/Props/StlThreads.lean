/-
Property C114: binary STL files read and written in several threads.
-/
import Verif.Model.StlThreads
import Verif.Props.StlProcess
import Verif.Props.Threads
import Verif.Props.StlRoundTrip

namespace LibSub

/-! ### Specification -/

/-- The calls of a program, one after another, if each gives what a fresh process gives. -/
def IsoProg.calls {α : Type} : IsoProg α → List IsoCall
  | .done _ => []
  | .decode s k => .decode s :: (match isoDecode s with | .ok w => (k w).calls | .error _ => [])
  | .encode w k => .encode w :: (match isoEncode w with | .ok o => (k o).calls | .error _ => [])

/-- The thread has come to its end, with this. -/
def ProgThread.Ended {α : Type} : ProgThread α → R α → Prop
  | .between (.done r), r' => r = r'
  | _, _ => False

/-- Threads before their first step. -/
def threads (acts : List (List StlAction)) : List (ProgThread (List StlOutcome)) := acts.map (fun as => .between (threadProg as))

/-- An action that is defined in a process of its own, and writes no NUL byte. -/
def StlAction.Sane : StlAction → Prop
  | .read file => ∀ u, stlRead file ≠ .error (.ub u)
  | .write l a => (∀ u, writeStlIn l a ≠ .error (.ub u)) ∧ (StlAction.write l a).NoNul

/-- An action with characters that ISO 6937 has: the file can be read, and its text has no NUL. -/
def StlAction.Known : StlAction → Prop
  | .read file => ∃ info subs, stlRead file = .ok (info, subs) ∧ ∀ s ∈ subs, (0 : Byte) ∉ s.text
  | .write _ _ => True

/-- An action that has something to convert: it reads some subtitle, or writes some text. -/
def StlAction.Converts : StlAction → Prop
  | .read file => ∃ info subs, stlRead file = .ok (info, subs) ∧ subs ≠ []
  | .write l a => ∃ out, writeStlIn l a = .ok out ∧ ∃ s ∈ a.subtitles, ∃ l ∈ s.lines, l.blocks ≠ []

/-! ### Proofs: runs -/

theorem IsoRun.trans {t ths tr t' ths' tr' t'' ths''} (h : IsoRun t ths tr t' ths') (h' : IsoRun t' ths' tr' t'' ths'') : IsoRun t ths (tr ++ tr') t'' ths'' := by
  induction h with
  | nil => exact h'
  | step hi hs _ ih => rw [List.append_assoc]; exact .step hi hs (ih h')

private theorem run_one {t ths i th t' th' a} (hi : ths[i]? = some th) (hs : ThreadStep t th t' th' a) : IsoRun t ths (a.map (fun x => (i, x))) t' (ths.set i th') := by
  have := IsoRun.step hi hs (.nil t' _)
  rwa [List.append_nil] at this

/-- The call has returned a value. -/
private def Back (j : IsoJob) : Prop := (∃ w, j = .decoded w) ∨ ∃ o, j = .encoded o

private theorem Back.step {j} (h : Back j) (t) : j.step t = none := by
  rcases h with ⟨w, rfl⟩ | ⟨o, rfl⟩ <;> rfl

private theorem pre_step {t rest t' rest' a} (pre : List IsoJob) (h : ∀ j ∈ pre, Back j) (hs : ThreadStep t rest t' rest' a) : ThreadStep t (pre ++ rest) t' (pre ++ rest') a := by
  induction pre with
  | nil => exact hs
  | cons j js ih => exact .later ((h j (by simp)).step t) (ih (fun k hk => h k (by simp [hk])))

/-- How a thread and the list of calls of its program correspond: the calls before `c` have returned, the ones after have not begun. -/
private inductive Sim {α : Type} (p0 : IsoProg α) : ProgThread α → List IsoJob → Prop where
  | between {p pre cpre} : (∀ j ∈ pre, Back j) → pre.length = cpre.length → p0.calls = cpre ++ p.calls → p.alone = p0.alone → Sim p0 (.between p) (pre ++ p.calls.map .start)
  | inDecode {s w k j pre cpre} : (∀ j ∈ pre, Back j) → pre.length = cpre.length → isoDecode s = .ok w → p0.calls = cpre ++ .decode s :: (k w).calls → (k w).alone = p0.alone →
      Sim p0 (.inDecode j k) (pre ++ j :: (k w).calls.map .start)
  | inEncode {u o k j pre cpre} : (∀ j ∈ pre, Back j) → pre.length = cpre.length → isoEncode u = .ok o → p0.calls = cpre ++ .encode u :: (k o).calls → (k o).alone = p0.alone →
      Sim p0 (.inEncode j k) (pre ++ j :: (k o).calls.map .start)

private theorem sane_decode {s} (h : (IsoCall.decode s).Sane) : ∃ w, isoDecode s = .ok w := by
  obtain ⟨w, hw⟩ := h
  exact ⟨w, C53_text.2 hw⟩

private theorem enc_reach {t} (ht : IsoReach t) (w : List WChar) : ∃ t' o, isoEncodeSt t w = .ok (t', o) := by
  obtain ⟨o, h⟩ := encodeLoop_ok ht.same w
  exact ⟨_, o, by unfold isoEncodeSt; rw [h]; rfl⟩

private theorem enc_total (w : List WChar) : ∃ o, isoEncode w = .ok o := by
  obtain ⟨t', o, h⟩ := enc_reach .start w
  exact ⟨o, by unfold isoEncode; rw [h]; rfl⟩

/-- One step of the simulation.  `hr`: what a call has returned is right. -/
private theorem sim_step {α : Type} {p0 : IsoProg α} {x th t t' x' a} (hs : Sim p0 x th) (hsane : ∀ c ∈ p0.calls, c.Sane)
    (hr : ∀ (k : Nat) j, th[k]? = some j → j.step t = none → ∃ c, p0.calls[k]? = some c ∧ Returns c j) (h : x.step t = some (t', x', a)) :
    (t' = t ∧ a = [] ∧ Sim p0 x' th) ∨ ∃ th', ThreadStep t th t' th' a ∧ Sim p0 x' th' := by
  cases hs with
  | @between p pre cpre hpre hlen hc ha =>
    cases p with
    | done r => cases h
    | decode s k =>
      right
      have hin : IsoCall.decode s ∈ p0.calls := by rw [hc, IsoProg.calls]; simp
      obtain ⟨w, hw⟩ := sane_decode (hsane _ hin)
      simp only [ProgThread.step] at h
      obtain ⟨⟨t1, j1, a1⟩, h1, h2⟩ := Option.map_eq_some_iff.1 h
      cases h2
      have e : (IsoProg.decode s k).calls = .decode s :: (k w).calls := by rw [IsoProg.calls, hw]
      refine ⟨pre ++ j1 :: (k w).calls.map .start, ?_, ?_⟩
      · rw [e]
        exact pre_step pre hpre (.here h1)
      · refine .inDecode hpre hlen hw (by rw [hc, e]) ?_
        rw [← ha, IsoProg.alone, hw]
        rfl
    | encode u k =>
      right
      obtain ⟨o, ho⟩ := enc_total u
      simp only [ProgThread.step] at h
      obtain ⟨⟨t1, j1, a1⟩, h1, h2⟩ := Option.map_eq_some_iff.1 h
      cases h2
      have e : (IsoProg.encode u k).calls = .encode u :: (k o).calls := by rw [IsoProg.calls, ho]
      refine ⟨pre ++ j1 :: (k o).calls.map .start, ?_, ?_⟩
      · rw [e]
        exact pre_step pre hpre (.here h1)
      · refine .inEncode hpre hlen ho (by rw [hc, e]) ?_
        rw [← ha, IsoProg.alone, ho]
        rfl
  | @inDecode s w k j pre cpre hpre hlen hw hc ha =>
    have hret : j.step t = none → Returns (.decode s) j := by
      intro hn
      obtain ⟨c, hc1, hc2⟩ := hr pre.length j (by simp) hn
      rw [hc, hlen] at hc1
      simp only [List.getElem?_append_right (Nat.le_refl _), Nat.sub_self, List.getElem?_cons_zero, Option.some.injEq] at hc1
      rwa [hc1]
    have go : ∀ r, j.step t = some r → x' = .inDecode r.2.1 k ∧ t' = r.1 ∧ a = r.2.2 → ∃ th', ThreadStep t (pre ++ j :: (k w).calls.map .start) t' th' a ∧ Sim p0 x' th' := by
      rintro ⟨t1, j1, a1⟩ h1 ⟨rfl, rfl, rfl⟩
      exact ⟨_, pre_step pre hpre (.here h1), .inDecode hpre hlen hw hc ha⟩
    cases j with
    | decoded w' =>
      left
      cases h
      obtain ⟨hw'⟩ : Returns (.decode s) (.decoded w') := hret rfl
      have : w' = w := by
        have := C53_text.2 hw'
        rw [hw] at this
        exact (Except.ok.inj this).symm
      subst this
      refine ⟨rfl, rfl, ?_⟩
      have := Sim.between (p0 := p0) (p := k w') (pre := pre ++ [.decoded w']) (cpre := cpre ++ [.decode s]) (by
        intro j hj
        rcases List.mem_append.1 hj with hj | hj
        · exact hpre j hj
        · simp only [List.mem_singleton] at hj; exact .inl ⟨_, hj⟩) (by simp [hlen]) (by simp [hc]) ha
      simpa using this
    | failed e => cases hret rfl
    | encoded o => cases hret rfl
    | start c => right; simp only [ProgThread.step] at h; obtain ⟨r, h1, h2⟩ := Option.map_eq_some_iff.1 h; cases h2; exact go r h1 ⟨rfl, rfl, rfl⟩
    | decoding p o s => right; simp only [ProgThread.step] at h; obtain ⟨r, h1, h2⟩ := Option.map_eq_some_iff.1 h; cases h2; exact go r h1 ⟨rfl, rfl, rfl⟩
    | encoding o s => right; simp only [ProgThread.step] at h; obtain ⟨r, h1, h2⟩ := Option.map_eq_some_iff.1 h; cases h2; exact go r h1 ⟨rfl, rfl, rfl⟩
  | @inEncode u o k j pre cpre hpre hlen hw hc ha =>
    have hret : j.step t = none → Returns (.encode u) j := by
      intro hn
      obtain ⟨c, hc1, hc2⟩ := hr pre.length j (by simp) hn
      rw [hc, hlen] at hc1
      simp only [List.getElem?_append_right (Nat.le_refl _), Nat.sub_self, List.getElem?_cons_zero, Option.some.injEq] at hc1
      rwa [hc1]
    have go : ∀ r, j.step t = some r → x' = .inEncode r.2.1 k ∧ t' = r.1 ∧ a = r.2.2 → ∃ th', ThreadStep t (pre ++ j :: (k o).calls.map .start) t' th' a ∧ Sim p0 x' th' := by
      rintro ⟨t1, j1, a1⟩ h1 ⟨rfl, rfl, rfl⟩
      exact ⟨_, pre_step pre hpre (.here h1), .inEncode hpre hlen hw hc ha⟩
    cases j with
    | encoded o' =>
      left
      cases h
      have hret' := hret rfl
      generalize hjj : IsoJob.encoded o' = jj at hret'
      cases hret' with
      | encode hw' =>
      cases hjj
      have : o' = o := by
        rw [hw] at hw'
        exact (Except.ok.inj hw').symm
      subst this
      refine ⟨rfl, rfl, ?_⟩
      have := Sim.between (p0 := p0) (p := k o') (pre := pre ++ [.encoded o']) (cpre := cpre ++ [.encode u]) (by
        intro j hj
        rcases List.mem_append.1 hj with hj | hj
        · exact hpre j hj
        · simp only [List.mem_singleton] at hj; exact .inr ⟨_, hj⟩) (by simp [hlen]) (by simp [hc]) ha
      simpa using this
    | failed e => cases hret rfl
    | decoded o => cases hret rfl
    | start c => right; simp only [ProgThread.step] at h; obtain ⟨r, h1, h2⟩ := Option.map_eq_some_iff.1 h; cases h2; exact go r h1 ⟨rfl, rfl, rfl⟩
    | decoding p o s => right; simp only [ProgThread.step] at h; obtain ⟨r, h1, h2⟩ := Option.map_eq_some_iff.1 h; cases h2; exact go r h1 ⟨rfl, rfl, rfl⟩
    | encoding o s => right; simp only [ProgThread.step] at h; obtain ⟨r, h1, h2⟩ := Option.map_eq_some_iff.1 h; cases h2; exact go r h1 ⟨rfl, rfl, rfl⟩

/-- Threads and lists of calls. -/
private def Sims {α : Type} (ps : List (IsoProg α)) (xs : List (ProgThread α)) (ths : List (List IsoJob)) : Prop :=
  ths.length = ps.length ∧ xs.length = ps.length ∧ ∀ (i : Nat) p x th, ps[i]? = some p → xs[i]? = some x → ths[i]? = some th → Sim p x th

private theorem sims_run {α : Type} {t0 : IsoTables} (ht : IsoReach t0) (h0 : t0.dia ≠ []) (ps : List (IsoProg α)) (hsane : ∀ p ∈ ps, ∀ c ∈ p.calls, c.Sane) {t xs tr t' xs'} (h : ProgRun t xs tr t' xs') :
    ∀ tr0 ths, IsoRun t0 (begins (ps.map IsoProg.calls)) tr0 t ths → Sims ps xs ths → ∃ ths', IsoRun t0 (begins (ps.map IsoProg.calls)) (tr0 ++ tr) t' ths' ∧ Sims ps xs' ths' := by
  have hsc : SaneCalls (ps.map IsoProg.calls) := by
    intro cs hcs c hc
    obtain ⟨p, hp, rfl⟩ := List.mem_map.1 hcs
    exact hsane p hp c hc
  induction h with
  | nil t xs => intro tr0 ths hr hs; exact ⟨ths, by simpa using hr, hs⟩
  | @step t xs i x t' x' a tr t'' xs'' hi hst _ ih =>
    intro tr0 ths hr hs
    obtain ⟨hl1, hl2, hs⟩ := hs
    have hlt : i < xs.length := (List.getElem?_eq_some_iff.1 hi).1
    have hp : ps[i]? = some ps[i] := List.getElem?_eq_getElem (by omega)
    have hth : ths[i]? = some ths[i] := List.getElem?_eq_getElem (by omega)
    have hsi := hs i _ _ _ hp hi hth
    obtain ⟨cs, hcs, _, hret⟩ := C111_results ht h0 _ hsc hr i _ hth
    rw [List.getElem?_map, hp] at hcs
    cases hcs
    rcases sim_step hsi (hsane _ (List.mem_of_getElem? hp)) hret hst with ⟨rfl, rfl, hsim⟩ | ⟨th', hts, hsim⟩
    · refine ih tr0 ths hr ⟨hl1, by simpa using hl2, fun k p y th e1 e2 e3 => ?_⟩
      by_cases hk : k = i
      · subst hk
        rw [List.getElem?_set_self hlt] at e2
        rw [hp] at e1; rw [hth] at e3
        cases e1; cases e2; cases e3
        exact hsim
      · rw [List.getElem?_set_ne (Ne.symm hk)] at e2
        exact hs k p y th e1 e2 e3
    · have hs2 : Sims ps (xs.set i x') (ths.set i th') := by
        refine ⟨by simpa using hl1, by simpa using hl2, fun k p y th e1 e2 e3 => ?_⟩
        by_cases hk : k = i
        · subst hk
          rw [List.getElem?_set_self hlt] at e2
          rw [List.getElem?_set_self (by omega)] at e3
          rw [hp] at e1
          cases e1; cases e2; cases e3
          exact hsim
        · rw [List.getElem?_set_ne (Ne.symm hk)] at e2 e3
          exact hs k p y th e1 e2 e3
      obtain ⟨ths', hr', hs'⟩ := ih _ _ (hr.trans (run_one hth hts)) hs2
      exact ⟨ths', by rwa [List.append_assoc] at hr', hs'⟩

/-- A run of programs is one of their calls; who has come to the end has the right result. -/
private theorem progs_run {α : Type} {t0 : IsoTables} (ht : IsoReach t0) (h0 : t0.dia ≠ []) (ps : List (IsoProg α)) (hsane : ∀ p ∈ ps, ∀ c ∈ p.calls, c.Sane) {tr t' xs'} (h : ProgRun t0 (ps.map .between) tr t' xs') :
    ∃ ths', IsoRun t0 (begins (ps.map IsoProg.calls)) tr t' ths' ∧ ((∀ x ∈ xs', ∃ r, x.Ended r) → ∀ th ∈ ths', Finished t' th) ∧
      ∀ (i : Nat) x r, xs'[i]? = some x → x.Ended r → ∃ p, ps[i]? = some p ∧ p.alone = r := by
  obtain ⟨ths', hr, hl1, hl2, hs⟩ := sims_run ht h0 ps hsane h [] _ (.nil _ _) ⟨by simp [begins], by simp, fun i p x th e1 e2 e3 => by
    unfold begins at e3
    rw [List.getElem?_map, List.getElem?_map, e1] at e3
    rw [List.getElem?_map, e1] at e2
    cases e2; cases e3
    exact .between (pre := []) (cpre := []) (by simp) rfl rfl rfl⟩
  have fin : ∀ (p : IsoProg α) x th r, Sim p x th → x.Ended r → (∀ j ∈ th, Back j) ∧ p.alone = r := by
    intro p x th r hsim he
    cases hsim with
    | @between q pre _ hpre _ _ ha =>
      cases q with
      | done r' =>
        cases he
        exact ⟨by simpa [IsoProg.calls] using hpre, ha.symm⟩
      | decode => cases he
      | encode => cases he
    | inDecode => cases he
    | inEncode => cases he
  refine ⟨ths', hr, ?_, ?_⟩
  · intro hall th hth
    obtain ⟨i, hi⟩ := List.getElem?_of_mem hth
    have hlt : i < ths'.length := (List.getElem?_eq_some_iff.1 hi).1
    have hp : ps[i]? = some ps[i] := List.getElem?_eq_getElem (by omega)
    have hx : xs'[i]? = some xs'[i] := List.getElem?_eq_getElem (by omega)
    obtain ⟨r, hr⟩ := hall _ (List.mem_of_getElem? hx)
    intro j hj
    exact ((fin _ _ _ r (hs i _ _ _ hp hx hi) hr).1 j hj).step t'
  · intro i x r hx he
    have hlt : i < xs'.length := (List.getElem?_eq_some_iff.1 hx).1
    have hp : ps[i]? = some ps[i] := List.getElem?_eq_getElem (by omega)
    have hth : ths'[i]? = some ths'[i] := List.getElem?_eq_getElem (by omega)
    exact ⟨_, hp, (fin _ _ _ r (hs i _ _ _ hp hx hth) he).2⟩

/-! ### Proofs: the programs -/

theorem alone_caught {α : Type} (p : IsoProg α) (hp : ∀ u, p.alone ≠ .error (.ub u)) : p.caught.alone = .ok p.alone := by
  induction p with
  | done r =>
    cases r with
    | ok a => rfl
    | error e =>
      cases e with
      | ub u => exact absurd rfl (hp u)
      | _ => rfl
  | decode s k ih =>
    simp only [IsoProg.caught, IsoProg.alone] at hp ⊢
    cases h : isoDecode s with
    | error e =>
      have := (C53_ub_iff (s := s) .start).2 e (by unfold isoDecode at h; rcases bind_eq_error.1 h with h | ⟨_, _, h⟩; exact h; cases h)
      rw [h, this] at hp
      exact absurd rfl (hp .nullDeref)
    | ok w =>
      rw [h] at hp
      exact ih w hp
  | encode w k ih =>
    simp only [IsoProg.caught, IsoProg.alone] at hp ⊢
    obtain ⟨o, ho⟩ := enc_total w
    rw [ho] at hp ⊢
    exact ih o hp

theorem caught_calls {α : Type} (p : IsoProg α) : p.caught.calls = p.calls := by
  induction p with
  | done r =>
    cases r with
    | ok a => rfl
    | error e => cases e <;> rfl
  | decode s k ih =>
    simp only [IsoProg.caught, IsoProg.calls]
    cases isoDecode s with
    | error e => rfl
    | ok w => simp only [ih w]
  | encode s k ih =>
    simp only [IsoProg.caught, IsoProg.calls]
    cases isoEncode s with
    | error e => rfl
    | ok w => simp only [ih w]

theorem calls_bind {α β : Type} (p : IsoProg α) (f : α → IsoProg β) : (p >>= f).calls = p.calls ++ (match p.alone with | .ok a => (f a).calls | .error _ => []) := by
  show (p.bind f).calls = _
  induction p with
  | done r => cases r <;> rfl
  | decode s k ih =>
    simp only [IsoProg.bind, IsoProg.calls, IsoProg.alone]
    cases isoDecode s with
    | error e => rfl
    | ok w => simp only [ih w, List.cons_append, ok_bind]
  | encode s k ih =>
    simp only [IsoProg.bind, IsoProg.calls, IsoProg.alone]
    cases isoEncode s with
    | error e => rfl
    | ok w => simp only [ih w, List.cons_append, ok_bind]

theorem calls_sane {α : Type} (p : IsoProg α) (hn : p.NoNul) (hp : ∀ u, p.alone ≠ .error (.ub u)) : ∀ c ∈ p.calls, c.Sane := by
  induction p with
  | done r => intro c hc; cases hc
  | decode s k ih =>
    intro c hc
    simp only [IsoProg.alone] at hp
    simp only [IsoProg.calls] at hc
    cases h : isoDecode s with
    | error e =>
      have := (C53_ub_iff (s := s) .start).2 e (by unfold isoDecode at h; rcases bind_eq_error.1 h with h | ⟨_, _, h⟩; exact h; cases h)
      rw [h, this] at hp
      exact absurd rfl (hp .nullDeref)
    | ok w =>
      rw [h] at hp hc
      rcases List.mem_cons.1 hc with rfl | hc
      · exact ⟨w, C53_text.1 h⟩
      · exact ih w (hn w) hp c hc
  | encode w k ih =>
    intro c hc
    simp only [IsoProg.alone] at hp
    simp only [IsoProg.calls] at hc
    obtain ⟨o, ho⟩ := enc_total w
    rw [ho] at hp hc
    rcases List.mem_cons.1 hc with rfl | hc
    · exact hn.1
    · exact ih o (hn.2 o) hp c hc

/-- The calls of an action. -/
def StlAction.calls : StlAction → List IsoCall
  | .read file => (stlReadP file).calls
  | .write l a => (writeStlP l a).calls

theorem StlAction.Sane.calls {a : StlAction} (h : a.Sane) : ∀ c ∈ a.calls, c.Sane := by
  cases a with
  | read file => exact calls_sane _ (read_noNul file) (by rw [read_alone]; exact h)
  | write l a => exact calls_sane _ (write_noNul l a h.2) (by rw [write_alone]; exact h.1)

theorem action_prog {a : StlAction} (h : a.Sane) : a.prog.alone = .ok a.alone ∧ a.prog.calls = a.calls := by
  cases a with
  | read file =>
    have e := alone_caught (stlReadP file) (by rw [read_alone]; exact h)
    rw [read_alone] at e
    unfold StlAction.prog
    simp only
    rw [alone_bind, calls_bind, e, caught_calls]
    exact ⟨rfl, List.append_nil _⟩
  | write l a =>
    have e := alone_caught (writeStlP l a) (by rw [write_alone]; exact h.1)
    rw [write_alone] at e
    unfold StlAction.prog
    simp only
    rw [alone_bind, calls_bind, e, caught_calls]
    exact ⟨rfl, List.append_nil _⟩

theorem thread_prog (as : List StlAction) (h : ∀ a ∈ as, a.Sane) : (threadProg as).alone = .ok (as.map StlAction.alone) ∧ (threadProg as).calls = as.flatMap StlAction.calls := by
  induction as with
  | nil => exact ⟨rfl, rfl⟩
  | cons a as ih =>
    obtain ⟨h1, h2⟩ := action_prog (h a (by simp))
    obtain ⟨h3, h4⟩ := ih (fun a ha => h a (by simp [ha]))
    rw [threadProg, alone_bind, calls_bind, h1, h2, ok_bind, alone_bind, h3]
    simp only [calls_bind, h3, h4]
    exact ⟨rfl, by simp [IsoProg.calls, pure]⟩

/-! ### Proofs: what the reader decodes is what it shows -/

/-- Between `b` and `f a` subtitles are only added, among them one for each call. -/
private def Yields {α : Type} (p : IsoProg α) (b : List Raw) (f : α → List Raw) : Prop :=
  ∀ a, p.alone = .ok a → (∀ x ∈ b, x ∈ f a) ∧ (∀ u, .decode u ∈ p.calls → ∀ w, isoDecode u = .ok w → ∃ x ∈ f a, x.text = utf8Encode w) ∧ (p.calls = [] → f a = b)

private theorem shows_bind {α β : Type} {p : IsoProg α} {g : α → IsoProg β} {b f h} (hp : Yields p b f) (hg : ∀ a, p.alone = .ok a → Yields (g a) (f a) h) : Yields (p >>= g) b h := by
  intro c hc
  rw [alone_bind] at hc
  obtain ⟨a, ha, hc⟩ := bind_eq_ok.1 hc
  obtain ⟨h1, h2, h3⟩ := hp a ha
  obtain ⟨h4, h5, h6⟩ := hg a ha c hc
  refine ⟨fun x hx => h4 x (h1 x hx), fun u hu w hw => ?_, fun he => ?_⟩
  · rw [calls_bind, ha] at hu
    rcases List.mem_append.1 hu with hu | hu
    · obtain ⟨x, hx, ht⟩ := h2 u hu w hw
      exact ⟨x, h4 x hx, ht⟩
    · exact h5 u hu w hw
  · rw [calls_bind, ha, List.append_eq_nil_iff] at he
    rw [h6 he.2, h3 he.1]

private theorem shows_pure {α : Type} {a : α} {b : List Raw} {f : α → List Raw} (h : f a = b) : Yields (pure a) b f := by
  intro c hc
  cases hc
  exact ⟨fun x hx => h ▸ hx, fun u hu => (by cases hu), fun _ => h⟩

private theorem shows_lift {α : Type} (r : R α) (b : List Raw) : Yields (liftM r : IsoProg α) b (fun _ => b) := fun _ _ => ⟨fun _ hx => hx, fun u hu => (by cases hu), fun _ => rfl⟩

private theorem apply_subs (s : StlChars) (c : Byte) : (s.apply c).subs = s.subs := by
  unfold StlChars.apply
  simp only
  split
  · rfl
  · split_ifs <;> rfl

private theorem push_shows (s : StlChars) : Yields s.pushP s.subs StlChars.subs := by
  intro a ha
  have e : s.pushP.calls = [.decode s.text] := by
    unfold StlChars.pushP
    rw [calls_bind, alone_decode]
    have e : (callDecode s.text).calls = [.decode s.text] := by
      unfold callDecode IsoProg.calls
      cases isoDecode s.text <;> rfl
    rw [e]
    cases isoDecode s.text <;> rfl
  unfold StlChars.pushP at ha
  rw [alone_bind, alone_decode] at ha
  obtain ⟨w, hw, ha⟩ := bind_eq_ok.1 ha
  cases ha
  refine ⟨fun x hx => List.mem_append_left _ hx, fun u hu v hv => ?_, fun he => ?_⟩
  · rw [e, List.mem_singleton] at hu
    cases hu
    rw [hw] at hv
    cases hv
    exact ⟨_, List.mem_append_right _ List.mem_cons_self, rfl⟩
  · rw [e] at he
    cases he

private theorem chars_shows (cs : Str) : ∀ s, Yields (stlCharsP s cs) s.subs StlChars.subs := by
  induction cs with
  | nil =>
    intro s
    rw [stlCharsP]
    split
    · exact shows_pure rfl
    · exact push_shows s
  | cons c cs ih =>
    intro s
    rw [stlCharsP]
    split
    · split
      · exact shows_pure rfl
      · exact push_shows s
    · split
      · refine shows_bind (push_shows s) (fun s' _ => ?_)
        have := ih ({ s' with text := [] }.apply c)
        rwa [apply_subs] at this
      · have := ih (s.apply c)
        rwa [apply_subs] at this

private theorem lines_shows (info : StlInfo) (blk : Str) (ls : List Str) : ∀ italic underline st j, Yields (stlLinesP info blk italic underline st j ls) st.subs StlBlocks.subs := by
  induction ls with
  | nil => intros; exact shows_pure rfl
  | cons l ls ih =>
    intro italic underline st j
    rw [stlLinesP]
    exact shows_bind (shows_lift _ _) (fun _ _ => shows_bind (shows_lift _ _) (fun _ _ => shows_bind (chars_shows _ _) (fun _ _ => ih _ _ _ _)))

private theorem blocks_shows (info : StlInfo) (n : Nat) : ∀ st file, Yields (stlBlocksP info st file n) st.subs StlBlocks.subs := by
  induction n with
  | zero => intros; exact shows_pure rfl
  | succ n ih =>
    intro st file
    rw [stlBlocksP]
    refine shows_bind (shows_lift _ _) (fun b _ => shows_bind ?_ (fun _ _ => ih _ _))
    unfold stlBlockP
    refine shows_bind (shows_lift _ _) (fun c _ => ?_)
    split
    · exact shows_pure rfl
    · exact lines_shows _ _ _ _ _ _ _

private theorem correct_texts (info : StlInfo) (st : StlBlocks) : (stlCorrect info st).map Raw.text = st.subs.map Raw.text := by
  unfold stlCorrect
  split
  · rw [List.map_map]; rfl
  · rfl

private theorem read_shows {file info subs} (h : stlRead file = .ok (info, subs)) :
    (∀ u, .decode u ∈ (stlReadP file).calls → ∀ w, isoDecode u = .ok w → ∃ x ∈ subs, x.text = utf8Encode w) ∧ (subs ≠ [] → (stlReadP file).calls ≠ []) := by
  rw [← read_alone] at h
  unfold stlReadP at h ⊢
  rw [alone_bind, alone_lift] at h
  obtain ⟨b, hb, h⟩ := bind_eq_ok.1 h
  rw [alone_bind, alone_lift] at h
  obtain ⟨i, hi, h⟩ := bind_eq_ok.1 h
  rw [alone_bind] at h
  obtain ⟨st, hst, h⟩ := bind_eq_ok.1 h
  cases h
  obtain ⟨_, h2, h3⟩ := blocks_shows info info.ttiBlocks.toNat {} b.2 st hst
  have e : ((do let b ← readBlock file 1024 b!"GSI"
                let info ← parseGsi b.1
                let st ← stlBlocksP info {} b.2 info.ttiBlocks.toNat
                pure (info, stlCorrect info st) : IsoProg (StlInfo × List Raw))).calls = (stlBlocksP info {} b.2 info.ttiBlocks.toNat).calls := by
    rw [calls_bind, alone_lift, hb]
    simp only
    rw [calls_bind, alone_lift, hi]
    simp only
    rw [calls_bind, hst]
    simp only
    exact List.append_nil _
  rw [e]
  refine ⟨fun u hu w hw => ?_, fun hne hc => ?_⟩
  · obtain ⟨x, hx, ht⟩ := h2 u hu w hw
    have : x.text ∈ (stlCorrect info st).map Raw.text := by rw [correct_texts]; exact List.mem_map_of_mem hx
    obtain ⟨y, hy, hyt⟩ := List.mem_map.1 this
    exact ⟨y, hy, hyt.trans ht⟩
  · have h3 := h3 hc
    apply hne
    have e2 := correct_texts info st
    rw [h3] at e2
    exact List.map_eq_nil_iff.1 e2

private theorem zero_encoded {w : List WChar} (h : 0 ∈ w) : (0 : Byte) ∈ utf8Encode w := by
  induction w with
  | nil => cases h
  | cons v vs ih =>
    rw [utf8Encode]
    rcases List.mem_cons.1 h with rfl | h
    · exact List.mem_append_left _ (by decide)
    · exact List.mem_append_right _ (ih h)

/-! ### Proofs: the writer only encodes -/

/-- Only calls of `utf16_to_iso6937`; some, if `P` and it does not throw. -/
private def Writes {α : Type} (p : IsoProg α) (P : Prop) : Prop := (∀ s, .decode s ∉ p.calls) ∧ ∀ a, p.alone = .ok a → P → p.calls ≠ []

private theorem writes_bind {α β : Type} {p : IsoProg α} {g : α → IsoProg β} {P Q T : Prop} (hp : Writes p P) (hg : ∀ a, p.alone = .ok a → Writes (g a) Q) (hT : T → P ∨ Q) : Writes (p >>= g) T := by
  refine ⟨fun s hs => ?_, fun c hc hor he => ?_⟩
  · rw [calls_bind] at hs
    rcases List.mem_append.1 hs with hs | hs
    · exact hp.1 s hs
    · cases ha : p.alone with
      | ok a => rw [ha] at hs; exact (hg a ha).1 s hs
      | error e => rw [ha] at hs; cases hs
  · rw [alone_bind] at hc
    obtain ⟨a, ha, hc⟩ := bind_eq_ok.1 hc
    rw [calls_bind, ha, List.append_eq_nil_iff] at he
    rcases hT hor with h | h
    · exact hp.2 a ha h he.1
    · exact (hg a ha).2 c hc h he.2

private theorem writes_done {α : Type} (r : R α) : Writes (.done r) False := ⟨fun s hs => (by cases hs), fun _ _ h => h.elim⟩

private theorem writes_encode (w : List WChar) : Writes (callEncode w) True := by
  refine ⟨fun s hs => ?_, fun a _ _ h => by unfold callEncode IsoProg.calls at h; cases h⟩
  unfold callEncode IsoProg.calls at hs
  rcases List.mem_cons.1 hs with hs | hs
  · cases hs
  · cases h : isoEncode w <;> (rw [h] at hs; cases hs)

private theorem writes_lift {α : Type} (r : R α) : Writes (liftM r : IsoProg α) False := writes_done r
private theorem writes_pure {α : Type} (a : α) : Writes (pure a : IsoProg α) False := writes_done _

private theorem wblocks_writes (ks : List Block) : ∀ st, Writes (writerBlocksP st ks) (ks ≠ []) := by
  induction ks with
  | nil => intro st; exact ⟨(writes_pure _).1, fun _ _ h => absurd rfl h⟩
  | cons k ks ih =>
    intro st
    rw [writerBlocksP]
    exact writes_bind (writes_encode _) (fun _ _ => writes_bind (ih _) (fun _ _ => writes_pure _) (T := ks ≠ []) (fun h => .inl h)) (fun _ => .inl trivial)

private theorem wlines_writes (js : List (Line × Int)) : ∀ st last, Writes (writerLinesP st last js) (∃ j ∈ js, j.1.blocks ≠ []) := by
  induction js with
  | nil => intro st last; exact ⟨(writes_pure _).1, fun _ _ h => by obtain ⟨j, hj, _⟩ := h; cases hj⟩
  | cons j js ih =>
    intro st last
    obtain ⟨j, vp⟩ := j
    rw [writerLinesP]
    refine writes_bind (wblocks_writes _ _) (fun _ _ => writes_bind (ih _ _) (fun _ _ => writes_pure _) (T := ∃ j ∈ js, j.1.blocks ≠ []) (fun h => .inl h)) ?_
    rintro ⟨i, hi, hb⟩
    rcases List.mem_cons.1 hi with rfl | hi
    · exact .inl hb
    · exact .inr ⟨i, hi, hb⟩

private theorem tti_writes (fps : Rat) (i : Subtitle) : Writes (ttiBlocksP fps i) (∃ l ∈ i.lines, l.blocks ≠ []) := by
  unfold ttiBlocksP
  refine writes_bind (writes_lift _) (fun vps hv => writes_bind (P := ∃ l ∈ i.lines, l.blocks ≠ []) (T := ∃ l ∈ i.lines, l.blocks ≠ []) (Q := False) ?_ (fun text _ => ?_) (fun h => .inl h)) (fun h => .inr h)
  · unfold writerTextP
    refine writes_bind (wlines_writes _ _ _) (fun _ _ => writes_pure _) ?_
    rintro ⟨l, hl, hb⟩
    rw [alone_lift] at hv
    have hlen := vposes_length _ _ hv
    obtain ⟨n, hn, e⟩ := List.mem_iff_getElem.1 hl
    refine .inl ⟨(l, vps[n]), List.mem_iff_getElem.2 ⟨n, by rw [List.length_zip]; omega, by rw [List.getElem_zip, e]⟩, hb⟩
  · refine writes_bind (writes_lift _) (fun _ _ => writes_bind (writes_lift _) (fun _ _ => writes_bind (writes_lift _) (fun _ _ => writes_bind (writes_lift _) (fun _ _ => writes_bind (writes_lift _) (fun _ _ => ?_) (T := False) (Q := False) False.elim) (T := False) False.elim) (T := False) False.elim) (T := False) False.elim) False.elim
    split
    · exact writes_lift _
    · exact writes_bind (writes_lift _) (fun _ _ => writes_bind (writes_lift _) (fun _ _ => writes_pure _) (T := False) False.elim) False.elim

private theorem write_writes (l : Locale) (a : StlArgs) : Writes (writeStlP l a) (∃ s ∈ a.subtitles, ∃ l ∈ s.lines, l.blocks ≠ []) := by
  unfold writeStlP
  generalize a.check = c
  refine writes_bind (writes_lift _) (fun _ _ => writes_bind (P := ∃ s ∈ a.subtitles, ∃ l ∈ s.lines, l.blocks ≠ []) (Q := False) (T := ∃ s ∈ a.subtitles, ∃ l ∈ s.lines, l.blocks ≠ []) ?_ (fun tti _ => ?_) (fun h => .inl h)) (fun h => .inr h)
  case refine_2 =>
    generalize stlGsi l a tti.length = g
    exact writes_bind (writes_lift _) (fun _ _ => writes_pure _) False.elim
  generalize a.subtitles = ss
  induction ss with
  | nil => exact ⟨(writes_pure _).1, fun _ _ h => by obtain ⟨j, hj, _⟩ := h; cases hj⟩
  | cons s ss ih =>
    rw [makeTtiBlocksP]
    refine writes_bind (tti_writes _ s) (fun _ _ => writes_bind ih (fun _ _ => writes_pure _) (fun h => .inl h)) ?_
    rintro ⟨i, hi, hb⟩
    rcases List.mem_cons.1 hi with rfl | hi
    · exact .inl hb
    · exact .inr ⟨i, hi, hb⟩

theorem known_calls {a : StlAction} (h : a.Known) (s : Str) (hs : .decode s ∈ a.calls) (w : List WChar) (hw : IsoText s w) : 0 ∉ w := by
  cases a with
  | read file =>
    obtain ⟨info, subs, hr, hk⟩ := h
    obtain ⟨x, hx, ht⟩ := (read_shows hr).1 s hs w (C53_text.2 hw)
    intro h0
    exact hk x hx (ht ▸ zero_encoded h0)
  | write l a => exact absurd hs ((write_writes l a).1 s)

theorem converts_calls {a : StlAction} (h : a.Converts) : a.calls ≠ [] := by
  cases a with
  | read file =>
    obtain ⟨info, subs, hr, hk⟩ := h
    exact (read_shows hr).2 hk
  | write l a =>
    obtain ⟨out, hr, hk⟩ := h
    rw [← write_alone] at hr
    exact (write_writes l a).2 out hr hk

/-! ### Proofs: the first conversions -/

private theorem start_reads {α : Type} {t : IsoTables} {p : IsoProg α} {t' x' a} (h : (ProgThread.between p).step t = some (t', x', a)) :
    ⟨.dia, false⟩ ∈ a ∧ (t.dia = [] → ⟨.dia, true⟩ ∈ a) := by
  have key : ∀ b : List IsoAccess, b = ⟨.dia, false⟩ :: (if t.dia.isEmpty then isoMakeWrites else []) → (⟨.dia, false⟩ : IsoAccess) ∈ b ∧ (t.dia = [] → (⟨.dia, true⟩ : IsoAccess) ∈ b) := by
    rintro b rfl
    refine ⟨by simp, fun h0 => ?_⟩
    rw [h0]
    exact List.mem_cons_of_mem _ (by simp [isoMakeWrites])
  cases p with
  | done r => cases h
  | decode s k => cases h; exact key _ rfl
  | encode s k => cases h; exact key _ rfl

private theorem must_read {α : Type} {t : IsoTables} {xs tr t' xs'} (h : ProgRun (α := α) t xs tr t' xs') (hend : ∀ x ∈ xs', ∃ r, x.Ended r) (i : Nat) (p : IsoProg α) (hp : p.calls ≠ []) (hi : xs[i]? = some (.between p)) :
    (i, ⟨.dia, false⟩) ∈ tr := by
  induction h with
  | nil t xs =>
    obtain ⟨r, hr⟩ := hend _ (List.mem_of_getElem? hi)
    cases p with
    | done r => exact absurd rfl hp
    | decode => cases hr
    | encode => cases hr
  | @step t xs k x t' x' a tr t'' xs'' hk hs _ ih =>
    by_cases hki : k = i
    · subst hki
      rw [hk] at hi
      cases hi
      exact List.mem_append_left _ (List.mem_map.2 ⟨_, (start_reads hs).1, rfl⟩)
    · exact List.mem_append_right _ (ih hend (by rw [List.getElem?_set_ne hki]; exact hi))

/-! ### Proofs: every run can come to its end -/

theorem ProgRun.trans {α : Type} {t : IsoTables} {xs tr t' xs' tr' t'' xs''} (h : ProgRun (α := α) t xs tr t' xs') (h' : ProgRun t' xs' tr' t'' xs'') : ProgRun t xs (tr ++ tr') t'' xs'' := by
  induction h with
  | nil => exact h'
  | step hi hs _ ih => rw [List.append_assoc]; exact .step hi hs (ih h')

private theorem set_same {β : Type} {l : List β} {i : Nat} {x : β} (h : l[i]? = some x) : l.set i x = l := by
  obtain ⟨hlt, rfl⟩ := List.getElem?_eq_some_iff.1 h
  exact List.set_getElem_self hlt

private theorem step_not_start {t : IsoTables} {j : IsoJob} {t' j' a} (h : j.step t = some (t', j', a)) (c : IsoCall) : j' ≠ .start c := by
  rintro rfl
  cases j with
  | start c => cases c <;> cases h
  | decoding p o s =>
    cases s with
    | nil => cases h
    | cons u us =>
      simp only [IsoJob.step] at h
      split at h
      · cases h
      · split at h
        · cases h
        · split at h
          · split at h
            · split at h <;> cases h
            · cases h
            · cases h
          · split at h <;> cases h
  | encoding o w =>
    cases w with
    | nil => cases h
    | cons c cs => simp only [IsoJob.step] at h; split at h <;> cases h
  | decoded => cases h
  | encoded => cases h
  | failed => cases h

private def asDecode {α : Type} (s : Str) (k : List WChar → IsoProg α) (j : IsoJob) : ProgThread α := if j = .start (.decode s) then .between (.decode s k) else .inDecode j k
private def asEncode {α : Type} (s : List WChar) (k : Str → IsoProg α) (j : IsoJob) : ProgThread α := if j = .start (.encode s) then .between (.encode s k) else .inEncode j k

private theorem asDecode_step {α : Type} (s : Str) (k : List WChar → IsoProg α) (t : IsoTables) (j : IsoJob) (r) (h : j.step t = some r) : (asDecode s k j).step t = some (r.1, asDecode s k r.2.1, r.2.2) := by
  obtain ⟨t', j', a⟩ := r
  have hn := step_not_start h (.decode s)
  unfold asDecode
  simp only [hn, if_false]
  split
  · rename_i e
    subst e
    simp only [ProgThread.step, h]
    rfl
  · cases j <;> first | (simp only [ProgThread.step, h]; rfl) | cases h

private theorem asEncode_step {α : Type} (s : List WChar) (k : Str → IsoProg α) (t : IsoTables) (j : IsoJob) (r) (h : j.step t = some r) : (asEncode s k j).step t = some (r.1, asEncode s k r.2.1, r.2.2) := by
  obtain ⟨t', j', a⟩ := r
  have hn := step_not_start h (.encode s)
  unfold asEncode
  simp only [hn, if_false]
  split
  · rename_i e
    subst e
    simp only [ProgThread.step, h]
    rfl
  · cases j <;> first | (simp only [ProgThread.step, h]; rfl) | cases h

private theorem job_run {α : Type} {t : IsoTables} {ths tr t' ths'} (h : IsoRun t ths tr t' ths') : ∀ j j', ths = [[j]] → ths' = [[j']] → ∀ (f : IsoJob → ProgThread α),
    (∀ t j r, j.step t = some r → (f j).step t = some (r.1, f r.2.1, r.2.2)) → ∀ (xs : List (ProgThread α)) (i : Nat), xs[i]? = some (f j) → ∃ tr', ProgRun t xs tr' t' (xs.set i (f j')) := by
  induction h with
  | nil t ths =>
    rintro j j' rfl e f hf xs i hi
    cases e
    refine ⟨[], ?_⟩
    rw [set_same hi]
    exact .nil _ _
  | @step t ths n th t1 th1 a tr t2 ths2 hn hs _ ih =>
    rintro j j' rfl rfl f hf xs i hi
    have h0 : n = 0 := by
      have := (List.getElem?_eq_some_iff.1 hn).1
      simpa using this
    subst h0
    cases hn
    cases hs with
    | later _ h => cases h
    | @here _ j1 _ _ _ h1 =>
      have hlt : i < xs.length := (List.getElem?_eq_some_iff.1 hi).1
      obtain ⟨tr', hr⟩ := ih j1 j' rfl rfl f hf (xs.set i (f j1)) i (List.getElem?_set_self hlt)
      rw [List.set_set] at hr
      exact ⟨_, .step hi (hf _ _ _ h1) hr⟩

private theorem prog_ends {α : Type} (p : IsoProg α) : (∀ c ∈ p.calls, c.Sane) → ∀ (t : IsoTables), IsoReach t → ∀ (xs : List (ProgThread α)) (i : Nat), xs[i]? = some (.between p) →
    ∃ tr t' r, IsoReach t' ∧ ProgRun t xs tr t' (xs.set i (.between (.done r))) := by
  induction p with
  | done r =>
    intro hsane t ht xs i hi
    refine ⟨[], t, r, ht, ?_⟩
    rw [set_same hi]
    exact .nil _ _
  | decode s k ih =>
    intro hsane t ht xs i hi
    have hlt : i < xs.length := (List.getElem?_eq_some_iff.1 hi).1
    have hi' : xs[i]? = some (asDecode s k (.start (.decode s))) := by rw [hi]; unfold asDecode; rw [if_pos rfl]
    obtain ⟨w, hw⟩ := hsane (.decode s) (by simp [IsoProg.calls])
    obtain ⟨t1, h⟩ := C53_value ht hw
    have hsane' : ∀ c ∈ (k w).calls, c.Sane := fun c hc => hsane c (by rw [IsoProg.calls, C53_text.2 hw]; exact List.mem_cons_of_mem _ hc)
    · obtain ⟨tr1, hr1⟩ := (C111_alone t).1 s t1 w h
      obtain ⟨tr2, hr2⟩ := job_run hr1 _ _ rfl rfl (asDecode s k) (asDecode_step s k) xs i hi'
      have e : asDecode s k (.decoded w) = .inDecode (.decoded w) k := by unfold asDecode; rw [if_neg (by simp)]
      rw [e] at hr2
      have hr3 : ProgRun t1 (xs.set i (.inDecode (.decoded w) k)) _ t1 _ := .step (List.getElem?_set_self hlt) rfl (.nil _ _)
      rw [List.set_set] at hr3
      obtain ⟨tr4, t4, r4, ht4, hr4⟩ := ih w hsane' t1 (.decode ht h) (xs.set i (.between (k w))) i (List.getElem?_set_self hlt)
      rw [List.set_set] at hr4
      exact ⟨_, t4, r4, ht4, (hr2.trans hr3).trans hr4⟩
  | encode s k ih =>
    intro hsane t ht xs i hi
    have hlt : i < xs.length := (List.getElem?_eq_some_iff.1 hi).1
    have hi' : xs[i]? = some (asEncode s k (.start (.encode s))) := by rw [hi]; unfold asEncode; rw [if_pos rfl]
    obtain ⟨t1, w, h⟩ := enc_reach ht s
    have hw : isoEncode s = .ok w := by
      rw [← C54_encode ht (hsane (.encode s) (by simp [IsoProg.calls])), h]
      rfl
    have hsane' : ∀ c ∈ (k w).calls, c.Sane := fun c hc => hsane c (by rw [IsoProg.calls, hw]; exact List.mem_cons_of_mem _ hc)
    obtain ⟨tr1, hr1⟩ := (C111_alone t).2.2 s t1 w h
    obtain ⟨tr2, hr2⟩ := job_run hr1 _ _ rfl rfl (asEncode s k) (asEncode_step s k) xs i hi'
    have e : asEncode s k (.encoded w) = .inEncode (.encoded w) k := by unfold asEncode; rw [if_neg (by simp)]
    rw [e] at hr2
    have hr3 : ProgRun t1 (xs.set i (.inEncode (.encoded w) k)) _ t1 _ := .step (List.getElem?_set_self hlt) rfl (.nil _ _)
    rw [List.set_set] at hr3
    obtain ⟨tr4, t4, r4, ht4, hr4⟩ := ih w hsane' t1 (.encode ht h) (xs.set i (.between (k w))) i (List.getElem?_set_self hlt)
    rw [List.set_set] at hr4
    exact ⟨_, t4, r4, ht4, (hr2.trans hr3).trans hr4⟩

private theorem progs_end {α : Type} (ps : List (IsoProg α)) : (∀ p ∈ ps, ∀ c ∈ p.calls, c.Sane) → ∀ (t : IsoTables), IsoReach t → ∀ pre : List (ProgThread α),
    ∃ tr t' rs, ProgRun t (pre ++ ps.map .between) tr t' (pre ++ rs) ∧ ∀ x ∈ rs, ∃ r, x.Ended r := by
  induction ps with
  | nil => intro _ t _ pre; exact ⟨[], t, [], .nil _ _, by simp⟩
  | cons p ps ih =>
    intro hs t ht pre
    obtain ⟨tr1, t1, r1, ht1, hr1⟩ := prog_ends p (hs p (by simp)) t ht (pre ++ .between p :: ps.map .between) pre.length (by simp)
    rw [List.set_append_right _ _ (Nat.le_refl _), Nat.sub_self, List.set_cons_zero] at hr1
    obtain ⟨tr2, t2, rs, hr2, he⟩ := ih (fun q hq => hs q (by simp [hq])) t1 ht1 (pre ++ [.between (.done r1)])
    simp only [List.append_assoc, List.singleton_append] at hr2
    refine ⟨_, t2, .between (.done r1) :: rs, hr1.trans hr2, ?_⟩
    intro x hx
    rcases List.mem_cons.1 hx with rfl | hx
    · exact ⟨r1, rfl⟩
    · exact he x hx

/-! ### C114 -/

private theorem threads_eq (acts : List (List StlAction)) : threads acts = (acts.map threadProg).map .between := by
  unfold threads
  rw [List.map_map]
  rfl

private theorem acts_sane {acts : List (List StlAction)} (h : ∀ as ∈ acts, ∀ a ∈ as, a.Sane) : ∀ p ∈ acts.map threadProg, ∀ c ∈ p.calls, c.Sane := by
  intro p hp c hc
  obtain ⟨as, has, rfl⟩ := List.mem_map.1 hp
  rw [(thread_prog as (h as has)).2] at hc
  obtain ⟨a, ha, hc⟩ := List.mem_flatMap.1 hc
  exact (h as has a ha).calls c hc

private theorem acts_calls {acts : List (List StlAction)} (h : ∀ as ∈ acts, ∀ a ∈ as, a.Sane) : (acts.map threadProg).map IsoProg.calls = acts.map (fun as => as.flatMap StlAction.calls) := by
  rw [List.map_map]
  exact List.map_congr_left (fun as has => (thread_prog as (h as has)).2)

/-- C114: once the tables exist, threads may read files and write subtitles at the same time as they like, if all characters
are in the tables: nothing is written to the tables, there is no race. -/
theorem C114_safe {t} (ht : IsoReach t) (h0 : t.dia ≠ []) (acts : List (List StlAction)) (hs : ∀ as ∈ acts, ∀ a ∈ as, a.Sane) (hk : ∀ as ∈ acts, ∀ a ∈ as, a.Known) {tr t' xs'}
    (h : ProgRun t (threads acts) tr t' xs') : (∀ p ∈ tr, p.2.write = false) ∧ ¬ Racy tr := by
  rw [threads_eq] at h
  obtain ⟨ths', hr, _⟩ := progs_run ht h0 _ (acts_sane hs) h
  refine C111_safe ht h0 _ ?_ ?_ hr
  · intro cs hcs c hc
    obtain ⟨p, hp, rfl⟩ := List.mem_map.1 hcs
    exact acts_sane hs p hp c hc
  · intro cs hcs s hc w hw
    rw [acts_calls hs] at hcs
    obtain ⟨as, has, rfl⟩ := List.mem_map.1 hcs
    obtain ⟨a, ha, hc⟩ := List.mem_flatMap.1 hc
    exact known_calls (hk as has a ha) s hc w hw

/-- C114: and a thread that has come to its end has read and written what a process of its own would have read and written for each action. -/
theorem C114_results {t} (ht : IsoReach t) (h0 : t.dia ≠ []) (acts : List (List StlAction)) (hs : ∀ as ∈ acts, ∀ a ∈ as, a.Sane) {tr t' xs'}
    (h : ProgRun t (threads acts) tr t' xs') (i : Nat) (x) (r) (hx : xs'[i]? = some x) (he : x.Ended r) : ∃ as, acts[i]? = some as ∧ r = .ok (as.map StlAction.alone) := by
  rw [threads_eq] at h
  obtain ⟨ths', _, _, hr⟩ := progs_run ht h0 _ (acts_sane hs) h
  obtain ⟨p, hp, hr⟩ := hr i x r hx he
  rw [List.getElem?_map] at hp
  obtain ⟨as, has, rfl⟩ := Option.map_eq_some_iff.1 hp
  exact ⟨as, has, by rw [← hr, (thread_prog as (hs as (List.mem_of_getElem? has))).1]⟩

/-- C114: with characters that are not in the tables there is a race exactly if one thread adds to a table that another one uses. -/
theorem C114_races {t} (ht : IsoReach t) (h0 : t.dia ≠ []) (acts : List (List StlAction)) (hs : ∀ as ∈ acts, ∀ a ∈ as, a.Sane) {tr t' xs'}
    (h : ProgRun t (threads acts) tr t' xs') (hend : ∀ x ∈ xs', ∃ r, x.Ended r) :
    Racy tr ↔ ∃ (i j : Nat) (as as' : List StlAction), acts[i]? = some as ∧ acts[j]? = some as' ∧ i ≠ j ∧ ∃ v, (∃ a ∈ as, ∃ c ∈ a.calls, c.Adds t v) ∧ ∃ a ∈ as', ∃ c ∈ a.calls, c.Uses v := by
  rw [threads_eq] at h
  obtain ⟨ths', hr, hf, _⟩ := progs_run ht h0 _ (acts_sane hs) h
  have hsc : SaneCalls ((acts.map threadProg).map IsoProg.calls) := by
    intro cs hcs c hc
    obtain ⟨p, hp, rfl⟩ := List.mem_map.1 hcs
    exact acts_sane hs p hp c hc
  rw [C111_races ht h0 _ hsc hr (hf hend), acts_calls hs]
  constructor
  · rintro ⟨i, j, cs, cs', hi, hj, hij, v, ⟨c, hc, hv⟩, c', hc', hv'⟩
    rw [List.getElem?_map] at hi hj
    obtain ⟨as, has, rfl⟩ := Option.map_eq_some_iff.1 hi
    obtain ⟨as', has', rfl⟩ := Option.map_eq_some_iff.1 hj
    obtain ⟨a, ha, hc⟩ := List.mem_flatMap.1 hc
    obtain ⟨a', ha', hc'⟩ := List.mem_flatMap.1 hc'
    exact ⟨i, j, as, as', has, has', hij, v, ⟨a, ha, c, hc, hv⟩, a', ha', c', hc', hv'⟩
  · rintro ⟨i, j, as, as', hi, hj, hij, v, ⟨a, ha, c, hc, hv⟩, a', ha', c', hc', hv'⟩
    exact ⟨i, j, _, _, by rw [List.getElem?_map, hi]; rfl, by rw [List.getElem?_map, hj]; rfl, hij, v, ⟨c, List.mem_flatMap.2 ⟨a, ha, hc⟩, hv⟩, c', List.mem_flatMap.2 ⟨a', ha', hc'⟩, hv'⟩

/-- C114: before the tables exist, two threads that read or write some text always race. -/
theorem C114_first {t : IsoTables} (h0 : t.dia = []) (acts : List (List StlAction)) (hs : ∀ as ∈ acts, ∀ a ∈ as, a.Sane) {tr t' xs'} (h : ProgRun t (threads acts) tr t' xs') (hend : ∀ x ∈ xs', ∃ r, x.Ended r)
    (i j : Nat) (as as' : List StlAction) (hi : acts[i]? = some as) (hj : acts[j]? = some as') (hij : i ≠ j) (hci : ∃ a ∈ as, a.Converts) (hcj : ∃ a ∈ as', a.Converts) : Racy tr := by
  have hne : ∀ (n : Nat) as, acts[n]? = some as → (∃ a ∈ as, a.Converts) → (threadProg as).calls ≠ [] ∧ (threads acts)[n]? = some (.between (threadProg as)) := by
    rintro n as hn ⟨a, ha, hc⟩
    refine ⟨?_, by unfold threads; rw [List.getElem?_map, hn]; rfl⟩
    rw [(thread_prog as (hs as (List.mem_of_getElem? hn))).2]
    intro he
    exact converts_calls hc (List.flatMap_eq_nil_iff.1 he a ha)
  obtain ⟨h1, h2⟩ := hne i as hi hci
  obtain ⟨h3, h4⟩ := hne j as' hj hcj
  have r1 := must_read h hend i _ h1 h2
  have r2 := must_read h hend j _ h3 h4
  obtain ⟨k, hk⟩ : ∃ k, (k, ⟨.dia, true⟩) ∈ tr := by
    generalize hb : threads acts = xs at h
    cases h with
    | nil => cases r1
    | @step _ _ k x _ _ a _ _ _ hk hst _ =>
      subst hb
      unfold threads at hk
      rw [List.getElem?_map] at hk
      obtain ⟨as, _, rfl⟩ := Option.map_eq_some_iff.1 hk
      exact ⟨k, List.mem_append_left _ (List.mem_map.2 ⟨_, (start_reads hst).2 h0, rfl⟩)⟩
  by_cases hki : k = i
  · subst hki
    exact ⟨k, j, _, _, hk, r2, hij, rfl, .inl rfl⟩
  · exact ⟨k, i, _, _, hk, r1, hki, rfl, .inl rfl⟩

/-- C114: the threads can always come to their ends. -/
theorem C114_ends {t} (ht : IsoReach t) (acts : List (List StlAction)) (hs : ∀ as ∈ acts, ∀ a ∈ as, a.Sane) : ∃ tr t' xs', ProgRun t (threads acts) tr t' xs' ∧ ∀ x ∈ xs', ∃ r, x.Ended r := by
  obtain ⟨tr, t', rs, hr, he⟩ := progs_end _ (acts_sane hs) t ht []
  rw [threads_eq]
  exact ⟨tr, t', rs, hr, he⟩

private def good : Str := stlFileDemo b!"00002" [stlBlockDemo 20 0 b!"Hello", stlBlockDemo 3 0 [0xC8, 65]]

/-- A file with a no-break space. -/
private def spaced : Str := stlFileDemo b!"00001" [stlBlockDemo 3 0 [65, 0xA0, 66]]

private theorem ok_of {α : Type} {r : R α} {f : α → Bool} (h : r.toOption.map f = some true) : ∃ a, r = .ok a ∧ f a = true := by
  cases r with
  | ok a => exact ⟨a, rfl, Option.some.inj h⟩
  | error e => cases h

private theorem known_of {file : Str} (h : (stlRead file).toOption.map (fun r => !r.2.isEmpty && r.2.all (fun s => !s.text.contains 0)) = some true) :
    (StlAction.read file).Sane ∧ (StlAction.read file).Known ∧ (StlAction.read file).Converts := by
  obtain ⟨⟨info, subs⟩, e, hf⟩ := ok_of h
  simp only [Bool.and_eq_true, Bool.not_eq_true', List.isEmpty_eq_false_iff, List.all_eq_true] at hf
  refine ⟨fun u hu => (by rw [e] at hu; cases hu), ⟨info, subs, e, fun s hs h0 => ?_⟩, info, subs, e, hf.1⟩
  have := hf.2 s hs
  rw [List.contains_iff_mem.2 h0] at this
  cases this

private theorem good_all : (StlAction.read good).Sane ∧ (StlAction.read good).Known ∧ (StlAction.read good).Converts := known_of (by decide +kernel)

private theorem demo_all : (StlAction.write Locale.c stlDemo).Sane ∧ (StlAction.write Locale.c stlDemo).Known ∧ (StlAction.write Locale.c stlDemo).Converts := by
  obtain ⟨out, e, _⟩ := ok_of (r := writeStlIn Locale.c stlDemo) (f := fun _ => true) (by decide +kernel)
  refine ⟨⟨fun u hu => (by rw [e] at hu; cases hu), ?_⟩, trivial, out, e, by decide⟩
  show ∀ s ∈ _, _
  decide

private theorem spaced_sane : (StlAction.read spaced).Sane := by
  obtain ⟨out, e, _⟩ := ok_of (r := stlRead spaced) (f := fun _ => true) (by decide +kernel)
  intro u hu
  rw [e] at hu
  cases hu

private theorem reach_tables : IsoReach isoMade := .encode (s := []) (o := []) .start (by decide +kernel)

/-- Two threads, one of which reads a file, the other writes one and then reads: safe once the tables exist, and there are runs to the end; but not before. -/
example : (∃ tr t' xs', ProgRun isoMade (threads [[.read good], [.write Locale.c stlDemo, .read good]]) tr t' xs' ∧ (∀ x ∈ xs', ∃ r, x.Ended r) ∧ ¬ Racy tr) ∧
    ∃ tr t' xs', ProgRun {} (threads [[.read good], [.write Locale.c stlDemo, .read good]]) tr t' xs' ∧ (∀ x ∈ xs', ∃ r, x.Ended r) ∧ Racy tr := by
  have hs : ∀ as ∈ [[.read good], [.write Locale.c stlDemo, .read good]], ∀ a ∈ as, StlAction.Sane a := by
    intro as has a ha
    simp only [List.mem_cons, List.not_mem_nil, or_false] at has
    rcases has with rfl | rfl <;> simp only [List.mem_cons, List.not_mem_nil, or_false] at ha
    · subst ha; exact good_all.1
    · rcases ha with rfl | rfl
      · exact demo_all.1
      · exact good_all.1
  have hk : ∀ as ∈ [[.read good], [.write Locale.c stlDemo, .read good]], ∀ a ∈ as, StlAction.Known a := by
    intro as has a ha
    simp only [List.mem_cons, List.not_mem_nil, or_false] at has
    rcases has with rfl | rfl <;> simp only [List.mem_cons, List.not_mem_nil, or_false] at ha
    · subst ha; exact good_all.2.1
    · rcases ha with rfl | rfl
      · exact demo_all.2.1
      · exact good_all.2.1
  obtain ⟨tr, t', xs', h, he⟩ := C114_ends reach_tables _ hs
  obtain ⟨tr2, t2, xs2, h2, he2⟩ := C114_ends .start _ hs
  exact ⟨⟨tr, t', xs', h, he, (C114_safe reach_tables (by decide +kernel) _ hs hk h).2⟩, tr2, t2, xs2, h2, he2,
    C114_first rfl _ hs h2 he2 0 1 _ _ rfl rfl (by decide) ⟨_, List.mem_cons_self, good_all.2.2⟩ ⟨_, List.mem_cons_self, demo_all.2.2⟩⟩

/-- C114: a file with a no-break space (which the tables lack) is enough: reading it while another thread reads any file with text is a race, in every run. -/
theorem C114_space_witness : ∀ tr t' xs', ProgRun isoMade (threads [[.read spaced], [.read good]]) tr t' xs' → (∀ x ∈ xs', ∃ r, x.Ended r) → Racy tr := by
  intro tr t' xs' h he
  have hs : ∀ as ∈ [[.read spaced], [.read good]], ∀ a ∈ as, StlAction.Sane a := by
    intro as has a ha
    simp only [List.mem_cons, List.not_mem_nil, or_false] at has
    rcases has with rfl | rfl <;> simp only [List.mem_cons, List.not_mem_nil, or_false] at ha <;> subst ha
    · exact spaced_sane
    · exact good_all.1
  rw [C114_races reach_tables (by decide +kernel) _ hs h he]
  refine ⟨0, 1, _, _, rfl, rfl, by decide, .main, ⟨_, List.mem_cons_self, .decode [65, 0xA0, 66], by decide +kernel, (none, 0xA0), by decide, ?_, rfl⟩,
    ⟨_, List.mem_cons_self, .decode b!"Hello", by decide +kernel, .inr ⟨(none, 72), by decide, rfl⟩⟩⟩
  show mapGet isoMade.main 0xA0 = none
  decide +kernel

end LibSub
