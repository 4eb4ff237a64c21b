/-
C111: the ISO 6937 conversions (so reading and writing binary STL) in several threads.
-/
import Verif.Model.Threads
import Verif.Props.Iso6937

namespace LibSub

/-! ### Specification -/

/-- Two threads access a variable, one of them writing: undefined behaviour, since the code has no synchronisation. -/
def Racy (tr : List (Nat × IsoAccess)) : Prop :=
  ∃ i j x y, (i, x) ∈ tr ∧ (j, y) ∈ tr ∧ i ≠ j ∧ x.var = y.var ∧ (x.write = true ∨ y.write = true)

/-- Where decoding looks up characters: the byte, and the accent before it (of several the last), up to a NUL. -/
def lookups : Option Byte → Str → List (Option Byte × Byte)
  | _, [] => []
  | p, u :: us => if u = 0 then [] else if Diacritic u then lookups (some u) us else (p, u) :: lookups none us

/-- The table for an accent, or without one the main table. -/
def place : Option Byte → IsoVar
  | none => .main
  | some d => .inner d

/-- There is a table for the accent, but without an entry for the byte. -/
def Absent (t : IsoTables) : Option Byte × Byte → Prop
  | (none, u) => mapGet t.main u = none
  | (some d, u) => ∃ m, mapGet t.dia d = some (some m) ∧ mapGet m u = none

/-- The tables that encoding a character needs: the main table; if that does not have the character, the list of accents and
the tables of the accents in turn until one has it. -/
def EncUses (c : WChar) (v : IsoVar) : Prop :=
  v = .main ∨ ((∀ k, (k, c) ∉ isoMain) ∧ (v = .dia ∨ ∃ l1 d l l2, isoDiacriticals = l1 ++ (d, l) :: l2 ∧ (∀ p ∈ l1, ∀ k, (k, c) ∉ p.2) ∧ v = .inner d))

/-- The variables that a call needs. -/
def IsoCall.Uses : IsoCall → IsoVar → Prop
  | .decode s, v => v = .dia ∨ ∃ l ∈ lookups none s, v = place l.1
  | .encode w, v => v = .dia ∨ ∃ c ∈ w, EncUses c v

/-- The tables to which a call adds, if it runs alone: those in which it looks for a byte that they do not have. -/
def IsoCall.Adds (t : IsoTables) : IsoCall → IsoVar → Prop
  | .decode s, v => ∃ l ∈ lookups none s, Absent t l ∧ v = place l.1
  | .encode _, _ => False

/-- Calls whose arguments are texts: bytes with a meaning, characters without U+0000. -/
def IsoCall.Sane : IsoCall → Prop
  | .decode s => ∃ w, IsoText s w
  | .encode w => 0 ∉ w

/-- The thread has made all its calls. -/
def Finished (t : IsoTables) (th : List IsoJob) : Prop := ∀ j ∈ th, j.step t = none

/-- Threads at the beginning of their calls. -/
def begins (calls : List (List IsoCall)) : List (List IsoJob) := calls.map (fun cs => cs.map .start)

/-! ### What a call in progress is going to do -/

private def JLook : IsoJob → Option Byte × Byte → Prop
  | .start (.decode s), l => l ∈ lookups none s
  | .decoding p _ s, l => l ∈ lookups p s
  | _, _ => False

private def JUses : IsoJob → IsoVar → Prop
  | .start c, v => c.Uses v
  | .decoding p _ s, v => ∃ l ∈ lookups p s, v = place l.1 ∨ (l.1 ≠ none ∧ v = .dia)
  | .encoding _ w, v => ∃ c ∈ w, EncUses c v
  | _, _ => False

private def Good : IsoJob → IsoJob → Prop
  | .start (.decode s), out => ∃ w, isoPure none s = .ok w ∧ out = .decoded w
  | .start (.encode w), out => 0 ∉ w ∧ ∃ b, isoEncodeLoop isoMade w = .ok b ∧ out = .encoded b
  | .decoding p o s, out => ∃ w, isoPure p s = .ok w ∧ out = .decoded (o ++ w)
  | .encoding o w, out => 0 ∉ w ∧ ∃ b, isoEncodeLoop isoMade w = .ok b ∧ out = .encoded (o ++ b)
  | .decoded o, out => out = .decoded o
  | .encoded o, out => out = .encoded o
  | .failed _, _ => False

/-! ### Encoding -/

private theorem find_none (m : List (Byte × WChar)) (c : WChar) : isoFind m c = none ↔ ∀ k, (k, c) ∉ m := by
  induction m with
  | nil => simp [isoFind]
  | cons p m ih =>
    obtain ⟨a, b⟩ := p
    simp only [isoFind]
    split
    · rename_i h; subst h
      simp only [reduceCtorEq, false_iff, not_forall, not_not]
      exact ⟨a, by simp⟩
    · rename_i h
      rw [ih]
      simp only [List.mem_cons, Prod.mk.injEq, not_or, not_and]
      exact ⟨fun hk k => ⟨fun _ e => h e.symm, hk k⟩, fun hk k => (hk k).2⟩

private theorem find_same {m m0} (h : SameMap m m0) {c : WChar} (hc : c ≠ 0) : isoFind m c = isoFind m0 c := by
  rw [isoFind_solid c hc, h.solid_eq, ← isoFind_solid c hc]

private theorem reads_same {l l0} (h : SameDia l l0) {c : WChar} (hc : c ≠ 0) : isoFindDiaReads c l = isoFindDiaReads c l0 := by
  induction h with
  | nil => rfl
  | cons hm _ ih => simp only [isoFindDiaReads, find_same hm hc, ih]

private theorem encReads_same {t} (ht : SameTables t) {c : WChar} (hc : c ≠ 0) : isoEncodeReads t c = isoEncodeReads isoMade c := by
  unfold isoEncodeReads
  rw [find_same ht.main hc, reads_same ht.dia hc]

private theorem reads_iff (c : WChar) : ∀ l : List (Byte × List (Byte × WChar)), (∀ p ∈ l, ∀ q, q ∈ mapOf p.2 ↔ q ∈ p.2) → ∀ x,
    (x ∈ isoFindDiaReads c (l.map (fun kv => (kv.1, some (mapOf kv.2)))) ↔
      ∃ l1 d m l2, l = l1 ++ (d, m) :: l2 ∧ (∀ p ∈ l1, ∀ k, (k, c) ∉ p.2) ∧ x = ⟨.inner d, false⟩) := by
  intro l
  induction l with
  | nil => intro _ x; simp [isoFindDiaReads]
  | cons p l ih =>
    intro hl x
    obtain ⟨d, m⟩ := p
    have hm := hl (d, m) (by simp)
    have ih' := ih (fun p hp => hl p (by simp [hp])) x
    simp only [List.map_cons, isoFindDiaReads, List.mem_cons]
    constructor
    · rintro (rfl | hx)
      · exact ⟨[], d, m, l, rfl, by simp, rfl⟩
      · split at hx
        · cases hx
        · rename_i hn
          rw [find_none] at hn
          obtain ⟨l1, d', m', l2, rfl, h1, rfl⟩ := ih'.1 hx
          refine ⟨(d, m) :: l1, d', m', l2, rfl, ?_, rfl⟩
          intro p hp k
          rcases List.mem_cons.1 hp with rfl | hp
          · exact fun hk => hn k ((hm _).2 hk)
          · exact h1 p hp k
    · rintro ⟨l1, d', m', l2, e, h1, rfl⟩
      cases l1 with
      | nil => simp only [List.nil_append, List.cons.injEq, Prod.mk.injEq] at e; exact .inl (by rw [e.1.1])
      | cons q l1 =>
        simp only [List.cons_append, List.cons.injEq] at e
        obtain ⟨rfl, rfl⟩ := e
        right
        have hn : isoFind (mapOf m) c = none := (find_none _ _).2 (fun k hk => h1 (d, m) (by simp) k ((hm _).1 hk))
        rw [hn]
        exact ih'.2 ⟨l1, d', m', l2, rfl, fun p hp => h1 p (by simp [hp]), rfl⟩

private theorem mem_main (q : Byte × WChar) : q ∈ mapOf isoMain ↔ q ∈ isoMain := by
  have h1 : ∀ q ∈ mapOf isoMain, q ∈ isoMain := by decide +kernel
  have h2 : ∀ q ∈ isoMain, q ∈ mapOf isoMain := by decide +kernel
  exact ⟨h1 q, h2 q⟩

private theorem mem_inner : ∀ p ∈ isoDiacriticals, ∀ q, q ∈ mapOf p.2 ↔ q ∈ p.2 := by
  have h1 : ∀ p ∈ isoDiacriticals, ∀ q ∈ mapOf p.2, q ∈ p.2 := by decide +kernel
  have h2 : ∀ p ∈ isoDiacriticals, ∀ q ∈ p.2, q ∈ mapOf p.2 := by decide +kernel
  exact fun p hp q => ⟨h1 p hp q, h2 p hp q⟩

private theorem dia_list : isoMade.dia = isoDiacriticals.map (fun kv => (kv.1, some (mapOf kv.2))) := by decide +kernel

private theorem encReads_iff {t} (ht : SameTables t) {c : WChar} (hc : c ≠ 0) (v : IsoVar) : (∃ x ∈ isoEncodeReads t c, x.var = v) ↔ EncUses c v := by
  rw [encReads_same ht hc]
  unfold isoEncodeReads EncUses
  constructor
  · rintro ⟨x, hx, rfl⟩
    rcases List.mem_cons.1 hx with rfl | hx
    · exact .inl rfl
    · split at hx
      · cases hx
      · rename_i hn
        refine .inr ⟨fun k hk => (find_none _ _).1 hn k (by rw [isoMade_main]; exact (mem_main _).2 hk), ?_⟩
        rcases List.mem_cons.1 hx with rfl | hx
        · exact .inl rfl
        · rw [dia_list] at hx
          obtain ⟨l1, d, m, l2, e, h1, rfl⟩ := (reads_iff c _ mem_inner x).1 hx
          exact .inr ⟨l1, d, m, l2, e, h1, rfl⟩
  · rintro (rfl | ⟨hn, hv⟩)
    · exact ⟨_, List.mem_cons_self, rfl⟩
    · have hn' : isoFind isoMade.main c = none := (find_none _ _).2 (fun k hk => hn k ((mem_main _).1 (by rw [isoMade_main] at hk; exact hk)))
      rw [hn']
      rcases hv with rfl | ⟨l1, d, m, l2, e, h1, rfl⟩
      · exact ⟨_, List.mem_cons_of_mem _ List.mem_cons_self, rfl⟩
      · refine ⟨⟨.inner d, false⟩, List.mem_cons_of_mem _ (List.mem_cons_of_mem _ ?_), rfl⟩
        rw [dia_list]
        exact (reads_iff c _ mem_inner _).2 ⟨l1, d, m, l2, e, h1, rfl⟩

private theorem encReads_reads (t : IsoTables) (c : WChar) : ∀ x ∈ isoEncodeReads t c, x.write = false := by
  have h : ∀ l, ∀ x ∈ isoFindDiaReads c l, x.write = false := by
    intro l
    induction l with
    | nil => intro x hx; cases hx
    | cons p l ih =>
      intro x hx
      obtain ⟨d, m⟩ := p
      cases m with
      | none => cases hx
      | some m =>
        simp only [isoFindDiaReads] at hx
        rcases List.mem_cons.1 hx with rfl | hx
        · rfl
        · split at hx
          · cases hx
          · exact ih x hx
  intro x hx
  unfold isoEncodeReads at hx
  rcases List.mem_cons.1 hx with rfl | hx
  · rfl
  · split at hx
    · cases hx
    · rcases List.mem_cons.1 hx with rfl | hx
      · rfl
      · exact h _ x hx

/-! ### One step -/

/-- What a step of a call does, in terms of what the call was going to do. -/
private structure StepOk (t : IsoTables) (look look' : Option Byte × Byte → Prop) (uses uses' : IsoVar → Prop) (t' : IsoTables) (a : List IsoAccess) : Prop where
  same : SameTables t'
  uses_of : ∀ x ∈ a, uses x.var
  adds_of : ∀ x ∈ a, x.write = true → ∃ l, look l ∧ Absent t l ∧ place l.1 = x.var
  uses_or : ∀ v, uses v → (∃ x ∈ a, x.var = v) ∨ uses' v
  uses_sub : ∀ v, uses' v → uses v
  look_sub : ∀ l, look' l → look l
  absent_sub : ∀ l, Absent t' l → Absent t l
  added : ∀ l, Absent t l → ¬ Absent t' l → ∃ x ∈ a, x.var = place l.1 ∧ x.write = true
  looked : ∀ l, look l → Absent t l → (∃ x ∈ a, x.var = place l.1 ∧ x.write = true) ∨ look' l

private theorem StepOk.idle {t} {look look' : Option Byte × Byte → Prop} {uses uses' : IsoVar → Prop} (ht : SameTables t) (h1 : ∀ l, look l ↔ look' l) (h2 : ∀ v, uses v ↔ uses' v) :
    StepOk t look look' uses uses' t [] :=
  ⟨ht, by simp, by simp, fun v h => .inr ((h2 v).1 h), fun v h => (h2 v).2 h, fun l h => (h1 l).2 h, fun _ h => h, fun _ h h' => absurd h h', fun l h _ => .inr ((h1 l).1 h)⟩

private theorem step_ok {t : IsoTables} (ht : SameTables t) {j out t' j' a} (hg : Good j out) (h : j.step t = some (t', j', a)) :
    Good j' out ∧ StepOk t (JLook j) (JLook j') (JUses j) (JUses j') t' a := by
  cases j with
  | decoded => cases h
  | encoded => cases h
  | failed => cases h
  | start c =>
    simp only [IsoJob.step, ht.not_empty, ht.ensure, Bool.false_eq_true, if_false, Option.some.injEq, Prod.mk.injEq] at h
    obtain ⟨rfl, rfl, rfl⟩ := h
    cases c with
    | decode s =>
      refine ⟨by obtain ⟨w, h1, h2⟩ := hg; exact ⟨w, h1, by simpa using h2⟩, ht, ?_, ?_, ?_, ?_, ?_, ?_, ?_, ?_⟩
      · intro x hx; simp only [List.mem_singleton] at hx; subst hx; exact .inl rfl
      · intro x hx hw; simp only [List.mem_singleton] at hx; subst hx; cases hw
      · rintro v (rfl | ⟨l, hl, rfl⟩)
        · exact .inl ⟨_, List.mem_cons_self, rfl⟩
        · exact .inr ⟨l, hl, .inl rfl⟩
      · rintro v ⟨l, hl, rfl | ⟨_, rfl⟩⟩
        · exact .inr ⟨l, hl, rfl⟩
        · exact .inl rfl
      · exact fun l h => h
      · exact fun l h => h
      · exact fun l h h' => absurd h h'
      · exact fun l h _ => .inr h
    | encode w =>
      refine ⟨by obtain ⟨h0, b, h1, h2⟩ := hg; exact ⟨h0, b, h1, by simpa using h2⟩, ht, ?_, ?_, ?_, ?_, ?_, ?_, ?_, ?_⟩
      · intro x hx; simp only [List.mem_singleton] at hx; subst hx; exact .inl rfl
      · intro x hx hw; simp only [List.mem_singleton] at hx; subst hx; cases hw
      · rintro v (rfl | h)
        · exact .inl ⟨_, List.mem_cons_self, rfl⟩
        · exact .inr h
      · exact fun v h => .inr h
      · exact fun l h => h
      · exact fun l h => h
      · exact fun l h h' => absurd h h'
      · exact fun l h _ => h.elim
  | encoding o w =>
    obtain ⟨h0, b, h1, h2⟩ := hg
    cases w with
    | nil =>
      simp only [IsoJob.step, Option.some.injEq, Prod.mk.injEq] at h
      obtain ⟨rfl, rfl, rfl⟩ := h
      simp only [isoEncodeLoop, Except.ok.injEq] at h1
      subst h1
      exact ⟨by simpa [Good] using h2, .idle ht (fun l => Iff.rfl) (fun v => by simp [JUses])⟩
    | cons c cs =>
      simp only [List.mem_cons, not_or] at h0
      have hc := Ne.symm h0.1
      obtain ⟨e1, he1⟩ := encodeChar_ok ht c
      simp only [IsoJob.step, he1, Option.some.injEq, Prod.mk.injEq] at h
      obtain ⟨rfl, rfl, rfl⟩ := h
      rw [encodeChar_same ht hc] at he1
      simp only [isoEncodeLoop, he1, ok_bind] at h1
      obtain ⟨b1, hb1, hb2⟩ := bind_eq_ok.1 h1
      rw [pure_eq_ok, Except.ok.injEq] at hb2
      subst hb2
      have hr := encReads_iff ht hc
      refine ⟨⟨h0.2, b1, hb1, by rw [h2, List.append_assoc]⟩, ht, ?_, ?_, ?_, ?_, ?_, ?_, ?_, ?_⟩
      · intro x hx; exact ⟨c, by simp, (hr _).1 ⟨x, hx, rfl⟩⟩
      · intro x hx hw; rw [encReads_reads t c x hx] at hw; cases hw
      · rintro v ⟨c', hc', hv⟩
        rcases List.mem_cons.1 hc' with rfl | hc'
        · exact .inl ((hr v).2 hv)
        · exact .inr ⟨c', hc', hv⟩
      · rintro v ⟨c', hc', hv⟩; exact ⟨c', by simp [hc'], hv⟩
      · exact fun l h => h
      · exact fun l h => h
      · exact fun l h h' => absurd h h'
      · exact fun l h _ => h.elim
  | decoding p o s =>
    obtain ⟨w, h1, h2⟩ := hg
    cases s with
    | nil =>
      simp only [IsoJob.step, Option.some.injEq, Prod.mk.injEq] at h
      obtain ⟨rfl, rfl, rfl⟩ := h
      simp only [isoPure, Except.ok.injEq] at h1
      subst h1
      exact ⟨by simpa [Good] using h2, .idle ht (fun l => by simp [JLook, lookups]) (fun v => by simp [JUses, lookups])⟩
    | cons u us =>
      rw [isoPure_cons] at h1
      by_cases hu : u = 0
      · subst hu
        simp only [IsoJob.step, if_true, Option.some.injEq, Prod.mk.injEq] at h
        obtain ⟨rfl, rfl, rfl⟩ := h
        simp only [if_true, Except.ok.injEq] at h1
        subst h1
        exact ⟨by simpa [Good] using h2, .idle ht (fun l => by simp [JLook, lookups]) (fun v => by simp [JUses, lookups])⟩
      · by_cases hd : isDiacritical u = true
        · have hd' := (isDiacritical_iff u).1 hd
          simp only [IsoJob.step, if_neg hu, hd, if_true, Option.some.injEq, Prod.mk.injEq] at h
          obtain ⟨rfl, rfl, rfl⟩ := h
          simp only [if_neg hu, hd, if_true] at h1
          exact ⟨⟨w, h1, h2⟩, .idle ht (fun l => by simp [JLook, lookups, hu, hd']) (fun v => by simp [JUses, lookups, hu, hd'])⟩
        · have hd' : ¬ Diacritic u := fun x => hd ((isDiacritical_iff u).2 x)
          have hl : lookups p (u :: us) = (p, u) :: lookups none us := by simp [lookups, hu, hd']
          simp only [IsoJob.step, if_neg hu, hd, Bool.false_eq_true, if_false] at h
          simp only [if_neg hu, hd, Bool.false_eq_true, if_false] at h1
          cases p with
          | none =>
            simp only at h h1
            obtain ⟨r, hr1, hr2⟩ := bind_eq_ok.1 h1
            rw [pure_eq_ok, Except.ok.injEq] at hr2
            subst hr2
            have hm : (mapGet t.main u).getD 0 = mainChar u := (ht.main.get_eq u).trans (mainChar_eq u)
            cases hget : mapGet t.main u with
            | some v0 =>
              simp only [hget, Option.some.injEq, Prod.mk.injEq] at h
              obtain ⟨rfl, rfl, rfl⟩ := h
              rw [hget, Option.getD_some] at hm
              subst hm
              refine ⟨⟨r, hr1, by rw [h2]; simp⟩, ht, ?_, ?_, ?_, ?_, ?_, ?_, ?_, ?_⟩
              · intro x hx; simp only [List.mem_singleton] at hx; subst hx; exact ⟨(none, u), by rw [hl]; simp, .inl rfl⟩
              · intro x hx hw; simp only [List.mem_singleton] at hx; subst hx; cases hw
              · rintro v ⟨l, hm, hv⟩
                rw [hl] at hm
                rcases List.mem_cons.1 hm with rfl | hm
                · rcases hv with rfl | ⟨h, _⟩
                  · exact .inl ⟨_, List.mem_cons_self, rfl⟩
                  · exact absurd rfl h
                · exact .inr ⟨l, hm, hv⟩
              · rintro v ⟨l, hm, hv⟩; exact ⟨l, by rw [hl]; simp [hm], hv⟩
              · intro l hm; show l ∈ lookups none (u :: us); rw [hl]; exact List.mem_cons_of_mem _ hm
              · exact fun l h => h
              · exact fun l h h' => absurd h h'
              · intro l hm ha
                change l ∈ lookups none (u :: us) at hm
                rw [hl] at hm
                rcases List.mem_cons.1 hm with rfl | hm
                · exact absurd ha (by simp [Absent, hget])
                · exact .inr hm
            | none =>
              simp only [hget, Option.some.injEq, Prod.mk.injEq] at h
              obtain ⟨rfl, rfl, rfl⟩ := h
              rw [hget, Option.getD_none] at hm
              refine ⟨⟨r, hr1, by rw [h2, ← hm]; simp⟩, ⟨ht.main.assign u hget, ht.dia⟩, ?_, ?_, ?_, ?_, ?_, ?_, ?_, ?_⟩
              · intro x hx; simp only [List.mem_singleton] at hx; subst hx; exact ⟨(none, u), by rw [hl]; simp, .inl rfl⟩
              · intro x hx _; simp only [List.mem_singleton] at hx; subst hx
                exact ⟨(none, u), by show _ ∈ lookups none (u :: us); rw [hl]; simp, hget, rfl⟩
              · rintro v ⟨l, hm, hv⟩
                rw [hl] at hm
                rcases List.mem_cons.1 hm with rfl | hm
                · rcases hv with rfl | ⟨h, _⟩
                  · exact .inl ⟨_, List.mem_cons_self, rfl⟩
                  · exact absurd rfl h
                · exact .inr ⟨l, hm, hv⟩
              · rintro v ⟨l, hm, hv⟩; exact ⟨l, by rw [hl]; simp [hm], hv⟩
              · intro l hm; show l ∈ lookups none (u :: us); rw [hl]; exact List.mem_cons_of_mem _ hm
              · rintro ⟨p, k⟩ ha
                cases p with
                | none =>
                  simp only [Absent, mapGet_assign] at ha ⊢
                  split at ha
                  · cases ha
                  · exact ha
                | some d => exact ha
              · rintro ⟨p, k⟩ ha hn
                cases p with
                | none => exact ⟨_, List.mem_cons_self, rfl, rfl⟩
                | some d => exact absurd ha hn
              · intro l hm ha
                change l ∈ lookups none (u :: us) at hm
                rw [hl] at hm
                rcases List.mem_cons.1 hm with rfl | hm
                · exact .inl ⟨_, List.mem_cons_self, rfl, rfl⟩
                · exact .inr hm
          | some d =>
            simp only at h h1
            have hacc := dia_eq d u
            rcases ht.dia.get d with ⟨g1, g2⟩ | ⟨m, m0, g1, g2, hm⟩
            · rw [g2] at hacc
              rw [← hacc] at h1
              cases h1
            · rw [g2] at hacc
              simp only [Option.join_some, Option.map_some] at hacc
              rw [← hacc, ← hm.get_eq] at h1
              simp only at h1
              obtain ⟨r, hr1, hr2⟩ := bind_eq_ok.1 h1
              rw [pure_eq_ok, Except.ok.injEq] at hr2
              subst hr2
              rw [g1] at h
              simp only at h
              cases hget : mapGet m u with
              | some v0 =>
                simp only [hget, Option.some.injEq, Prod.mk.injEq] at h
                obtain ⟨rfl, rfl, rfl⟩ := h
                refine ⟨⟨r, hr1, by rw [h2, hget]; simp⟩, ht, ?_, ?_, ?_, ?_, ?_, ?_, ?_, ?_⟩
                · intro x hx
                  simp only [List.mem_cons, List.not_mem_nil, or_false] at hx
                  rcases hx with rfl | rfl
                  · exact ⟨(some d, u), by rw [hl]; simp, .inr ⟨by simp, rfl⟩⟩
                  · exact ⟨(some d, u), by rw [hl]; simp, .inl rfl⟩
                · intro x hx hw
                  simp only [List.mem_cons, List.not_mem_nil, or_false] at hx
                  rcases hx with rfl | rfl <;> cases hw
                · rintro v ⟨l, hm, hv⟩
                  rw [hl] at hm
                  rcases List.mem_cons.1 hm with rfl | hm
                  · rcases hv with rfl | ⟨_, rfl⟩
                    · exact .inl ⟨⟨.inner d, false⟩, by simp, rfl⟩
                    · exact .inl ⟨⟨.dia, false⟩, by simp, rfl⟩
                  · exact .inr ⟨l, hm, hv⟩
                · rintro v ⟨l, hm, hv⟩; exact ⟨l, by rw [hl]; simp [hm], hv⟩
                · intro l hm; show l ∈ lookups (some d) (u :: us); rw [hl]; exact List.mem_cons_of_mem _ hm
                · exact fun l h => h
                · exact fun l h h' => absurd h h'
                · intro l hm ha
                  change l ∈ lookups (some d) (u :: us) at hm
                  rw [hl] at hm
                  rcases List.mem_cons.1 hm with rfl | hm
                  · obtain ⟨m', e1, e2⟩ := ha
                    rw [g1] at e1
                    cases e1
                    rw [hget] at e2; cases e2
                  · exact .inr hm
              | none =>
                simp only [hget, Option.some.injEq, Prod.mk.injEq] at h
                obtain ⟨rfl, rfl, rfl⟩ := h
                refine ⟨⟨r, hr1, by rw [h2, hget]; simp⟩, ⟨ht.main, ht.dia.assign isoMade_sorted g2 (hm.assign u hget)⟩, ?_, ?_, ?_, ?_, ?_, ?_, ?_, ?_⟩
                · intro x hx
                  simp only [List.mem_cons, List.not_mem_nil, or_false] at hx
                  rcases hx with rfl | rfl
                  · exact ⟨(some d, u), by rw [hl]; simp, .inr ⟨by simp, rfl⟩⟩
                  · exact ⟨(some d, u), by rw [hl]; simp, .inl rfl⟩
                · intro x hx hw
                  simp only [List.mem_cons, List.not_mem_nil, or_false] at hx
                  rcases hx with rfl | rfl
                  · cases hw
                  · exact ⟨(some d, u), by show _ ∈ lookups (some d) (u :: us); rw [hl]; simp, ⟨m, g1, hget⟩, rfl⟩
                · rintro v ⟨l, hm, hv⟩
                  rw [hl] at hm
                  rcases List.mem_cons.1 hm with rfl | hm
                  · rcases hv with rfl | ⟨_, rfl⟩
                    · exact .inl ⟨⟨.inner d, true⟩, by simp, rfl⟩
                    · exact .inl ⟨⟨.dia, false⟩, by simp, rfl⟩
                  · exact .inr ⟨l, hm, hv⟩
                · rintro v ⟨l, hm, hv⟩; exact ⟨l, by rw [hl]; simp [hm], hv⟩
                · intro l hm; show l ∈ lookups (some d) (u :: us); rw [hl]; exact List.mem_cons_of_mem _ hm
                · rintro ⟨p, k⟩ ha
                  cases p with
                  | none => exact ha
                  | some d' =>
                    obtain ⟨m', e1, e2⟩ := ha
                    rw [mapGet_assign] at e1
                    split at e1
                    · rename_i e; subst e
                      cases e1
                      rw [mapGet_assign] at e2
                      split at e2
                      · cases e2
                      · exact ⟨m, g1, e2⟩
                    · exact ⟨m', e1, e2⟩
                · rintro ⟨p, k⟩ ha hn
                  cases p with
                  | none => exact absurd ha hn
                  | some d' =>
                    by_cases e : d = d'
                    · subst e; exact ⟨⟨.inner d, true⟩, by simp, rfl, rfl⟩
                    · exfalso; apply hn
                      obtain ⟨m', e1, e2⟩ := ha
                      exact ⟨m', by rw [mapGet_assign, if_neg e]; exact e1, e2⟩
                · intro l hm ha
                  change l ∈ lookups (some d) (u :: us) at hm
                  rw [hl] at hm
                  rcases List.mem_cons.1 hm with rfl | hm
                  · exact .inl ⟨⟨.inner d, true⟩, by simp, rfl, rfl⟩
                  · exact .inr hm

/-! ### Threads -/

private def TLook (js : List IsoJob) (l : Option Byte × Byte) : Prop := ∃ j ∈ js, JLook j l

private def TUses (js : List IsoJob) (v : IsoVar) : Prop := ∃ j ∈ js, JUses j v

private theorem StepOk.frame {t L L' U U' t' a} {X : Option Byte × Byte → Prop} {Y : IsoVar → Prop} (h : StepOk t L L' U U' t' a) :
    StepOk t (fun l => L l ∨ X l) (fun l => L' l ∨ X l) (fun v => U v ∨ Y v) (fun v => U' v ∨ Y v) t' a where
  same := h.same
  uses_of x hx := .inl (h.uses_of x hx)
  adds_of x hx hw := by obtain ⟨l, h1, h2⟩ := h.adds_of x hx hw; exact ⟨l, .inl h1, h2⟩
  uses_or v hv := by
    rcases hv with hv | hv
    · rcases h.uses_or v hv with h | h
      · exact .inl h
      · exact .inr (.inl h)
    · exact .inr (.inr hv)
  uses_sub v hv := hv.imp (h.uses_sub v) id
  look_sub l hl := hl.imp (h.look_sub l) id
  absent_sub := h.absent_sub
  added := h.added
  looked l hl ha := by
    rcases hl with hl | hl
    · rcases h.looked l hl ha with h | h
      · exact .inl h
      · exact .inr (.inl h)
    · exact .inr (.inr hl)

private theorem StepOk.congr {t L L' U U' t' a} {M M' : Option Byte × Byte → Prop} {V V' : IsoVar → Prop} (h : StepOk t L L' U U' t' a)
    (h1 : L = M) (h2 : L' = M') (h3 : U = V) (h4 : U' = V') : StepOk t M M' V V' t' a := by subst h1 h2 h3 h4; exact h

private theorem thread_ok {t : IsoTables} (ht : SameTables t) {js t' js' a} (h : ThreadStep t js t' js' a) : ∀ outs, List.Forall₂ Good js outs →
    List.Forall₂ Good js' outs ∧ StepOk t (TLook js) (TLook js') (TUses js) (TUses js') t' a := by
  induction h with
  | @here j j' js t' a hs =>
    intro outs hg
    cases hg with
    | @cons _ out _ outs hg1 hg2 =>
      obtain ⟨h1, h2⟩ := step_ok ht hg1 hs
      refine ⟨.cons h1 hg2, (h2.frame (X := TLook js) (Y := TUses js)).congr ?_ ?_ ?_ ?_⟩
      all_goals funext x; simp [TLook, TUses]
  | @later j js t' js' a hs hr ih =>
    intro outs hg
    cases hg with
    | @cons _ out _ outs hg1 hg2 =>
      obtain ⟨h1, h2⟩ := ih outs hg2
      refine ⟨.cons hg1 h1, (h2.frame (X := JLook j) (Y := JUses j)).congr ?_ ?_ ?_ ?_⟩
      all_goals funext x; simp [TLook, TUses, or_comm]

private theorem step_none {t : IsoTables} {j : IsoJob} (h : j.step t = none) : (∃ o, j = .decoded o) ∨ (∃ o, j = .encoded o) ∨ ∃ e, j = .failed e := by
  cases j with
  | start c => cases h
  | decoding p o s =>
    exfalso
    cases s with
    | nil => cases h
    | cons u us =>
      simp only [IsoJob.step] at h
      split at h
      · cases h
      · split at h
        · cases h
        · split at h
          · split at h
            · split at h <;> cases h
            · cases h
            · cases h
          · split at h <;> cases h
  | encoding o w =>
    exfalso
    cases w with
    | nil => cases h
    | cons c cs => simp only [IsoJob.step] at h; split at h <;> cases h
  | decoded o => exact .inl ⟨o, rfl⟩
  | encoded o => exact .inr (.inl ⟨o, rfl⟩)
  | failed e => exact .inr (.inr ⟨e, rfl⟩)

private theorem finished_uses {t js v} (h : Finished t js) : ¬ TUses js v := by
  rintro ⟨j, hj, hu⟩
  rcases step_none (h j hj) with ⟨o, rfl⟩ | ⟨o, rfl⟩ | ⟨e, rfl⟩ <;> exact hu

private theorem look_uses {js l} (h : TLook js l) : TUses js (place l.1) := by
  obtain ⟨j, hj, hl⟩ := h
  refine ⟨j, hj, ?_⟩
  cases j with
  | start c =>
    cases c with
    | decode s => exact .inr ⟨l, hl, rfl⟩
    | encode => cases hl
  | decoding p o s => exact ⟨l, hl, .inl rfl⟩
  | encoding => cases hl
  | decoded => cases hl
  | encoded => cases hl
  | failed => cases hl

/-! ### Runs -/

private theorem set_get {α : Type} (l : List α) (i k : Nat) (y z : α) (hk : (l.set i y)[k]? = some z) : (k = i ∧ z = y) ∨ (k ≠ i ∧ l[k]? = some z) := by
  rw [List.getElem?_set] at hk
  split at hk
  · rename_i e
    split at hk
    · cases hk; exact .inl ⟨e.symm, rfl⟩
    · cases hk
  · rename_i e; exact .inr ⟨fun h => e h.symm, hk⟩

private theorem forall2_set {α β : Type} {R : α → β → Prop} {l : List α} {m : List β} (h : List.Forall₂ R l m) : ∀ (i : Nat) (x y : α), l[i]? = some x →
    (∀ z, R x z → R y z) → List.Forall₂ R (l.set i y) m := by
  induction h with
  | nil => intro i x y hi; simp at hi
  | @cons a b l m hab hlm ih =>
    intro i x y hi hxy
    cases i with
    | zero => simp at hi; subst hi; exact .cons (hxy b hab) hlm
    | succ i => exact .cons hab (ih i x y (by simpa using hi) hxy)

private theorem forall2_get {α β : Type} {R : α → β → Prop} {l : List α} {m : List β} (h : List.Forall₂ R l m) : ∀ (i : Nat) (x : α), l[i]? = some x → ∃ z, m[i]? = some z ∧ R x z := by
  induction h with
  | nil => intro i x hi; simp at hi
  | @cons a b l m hab _ ih =>
    intro i x hi
    cases i with
    | zero => simp at hi; subst hi; exact ⟨b, rfl, hab⟩
    | succ i => exact ih i x (by simpa using hi)

private structure RunOk (t : IsoTables) (ths : List (List IsoJob)) (tr : List (Nat × IsoAccess)) (t'' : IsoTables) (ths'' : List (List IsoJob)) (outs : List (List IsoJob)) : Prop where
  same : SameTables t''
  good : List.Forall₂ (List.Forall₂ Good) ths'' outs
  uses_of : ∀ (i : Nat) x, (i, x) ∈ tr → ∃ th, ths[i]? = some th ∧ TUses th x.var ∧ (x.write = true → ∃ l, TLook th l ∧ Absent t l ∧ place l.1 = x.var)
  uses_all : (∀ th ∈ ths'', Finished t'' th) → ∀ (i : Nat) th v, ths[i]? = some th → TUses th v → ∃ x, (i, x) ∈ tr ∧ x.var = v
  adds_all : (∀ th ∈ ths'', Finished t'' th) → ∀ (i : Nat) th l, ths[i]? = some th → TLook th l → Absent t l → ∃ k x, (k, x) ∈ tr ∧ x.var = place l.1 ∧ x.write = true

private theorem run_ok {t ths tr t'' ths''} (h : IsoRun t ths tr t'' ths'') : SameTables t → ∀ outs, List.Forall₂ (List.Forall₂ Good) ths outs → RunOk t ths tr t'' ths'' outs := by
  induction h with
  | nil t ths =>
    intro ht outs hg
    refine ⟨ht, hg, by simp, ?_, ?_⟩
    · intro hf i th v hi hu
      exact absurd hu (finished_uses (hf th (List.mem_of_getElem? hi)))
    · intro hf i th l hi hl _
      exact absurd (look_uses hl) (finished_uses (hf th (List.mem_of_getElem? hi)))
  | @step t ths i th t' th' a tr t'' ths'' hi hs _ ih =>
    intro ht outs hg
    obtain ⟨out, ho, hgo⟩ := forall2_get hg i th hi
    obtain ⟨_, hk⟩ := thread_ok ht hs out hgo
    have hr := ih hk.same outs (forall2_set hg i th th' hi (fun z hz => (thread_ok ht hs z hz).1))
    have hset : ∀ k z, k ≠ i → ths[k]? = some z → (ths.set i th')[k]? = some z := fun k z hk hz => by rw [List.getElem?_set_ne (Ne.symm hk)]; exact hz
    have hseti : (ths.set i th')[i]? = some th' := by
      rw [List.getElem?_set_self]
      exact (List.getElem?_eq_some_iff.1 hi).1
    refine ⟨hr.same, hr.good, ?_, ?_, ?_⟩
    · intro k x hx
      rcases List.mem_append.1 hx with hx | hx
      · obtain ⟨y, hy, e⟩ := List.mem_map.1 hx
        cases e
        exact ⟨th, hi, hk.uses_of x hy, hk.adds_of x hy⟩
      · obtain ⟨z, hz, h1, h2⟩ := hr.uses_of k x hx
        rcases set_get ths i k th' z hz with ⟨rfl, rfl⟩ | ⟨_, hz'⟩
        · refine ⟨th, hi, hk.uses_sub _ h1, fun hw => ?_⟩
          obtain ⟨l, g1, g2, g3⟩ := h2 hw
          exact ⟨l, hk.look_sub l g1, hk.absent_sub l g2, g3⟩
        · refine ⟨z, hz', h1, fun hw => ?_⟩
          obtain ⟨l, g1, g2, g3⟩ := h2 hw
          exact ⟨l, g1, hk.absent_sub l g2, g3⟩
    · intro hf k z v hz hu
      by_cases e : k = i
      · subst e
        rw [hi] at hz; cases hz
        rcases hk.uses_or v hu with ⟨x, hx, rfl⟩ | hu'
        · exact ⟨x, List.mem_append_left _ (List.mem_map.2 ⟨x, hx, rfl⟩), rfl⟩
        · obtain ⟨x, hx, e⟩ := hr.uses_all hf k th' v hseti hu'
          exact ⟨x, List.mem_append_right _ hx, e⟩
      · obtain ⟨x, hx, e⟩ := hr.uses_all hf k z v (hset k z e hz) hu
        exact ⟨x, List.mem_append_right _ hx, e⟩
    · intro hf k z l hz hl ha
      by_cases ha' : Absent t' l
      · have key : ∀ z, (ths.set i th')[k]? = some z → TLook z l → ∃ n x, (n, x) ∈ a.map (fun x => (i, x)) ++ tr ∧ x.var = place l.1 ∧ x.write = true := by
          intro z hz hl
          obtain ⟨n, x, hx, e⟩ := hr.adds_all hf k z l hz hl ha'
          exact ⟨n, x, List.mem_append_right _ hx, e⟩
        by_cases e : k = i
        · subst e
          rw [hi] at hz; cases hz
          rcases hk.looked l hl ha with ⟨x, hx, e⟩ | hl'
          · exact ⟨k, x, List.mem_append_left _ (List.mem_map.2 ⟨x, hx, rfl⟩), e⟩
          · exact key th' hseti hl'
        · exact key z (hset k z e hz) hl
      · obtain ⟨x, hx, e⟩ := hk.added l ha ha'
        exact ⟨i, x, List.mem_append_left _ (List.mem_map.2 ⟨x, hx, rfl⟩), e⟩

private theorem absent_char {t} (ht : SameTables t) : ∀ l : Option Byte × Byte, Absent t l → (match l with | (none, u) => mainChar u = 0 | (some d, u) => accented d u = some 0) := by
  rintro ⟨p, u⟩ ha
  cases p with
  | none =>
    have := (ht.main.get_eq u).trans (mainChar_eq u)
    change mapGet t.main u = none at ha
    rw [ha] at this
    exact this.symm
  | some d =>
    obtain ⟨m, h1, h2⟩ := ha
    rcases ht.dia.get d with ⟨g1, _⟩ | ⟨m', m0, g1, g2, hm⟩
    · rw [h1] at g1; cases g1
    · rw [h1] at g1; cases g1
      have := dia_eq d u
      rw [g2] at this
      simp only [Option.join_some, Option.map_some] at this
      rw [← hm.get_eq, h2] at this
      exact this.symm

private theorem lookups_text {s w} (h : IsoText s w) : (∀ p, (∀ u rest, s = u :: rest → u = 0 ∨ Diacritic u) → lookups p s = lookups none s) ∧
    ∀ l ∈ lookups none s, (match l with | (none, u) => mainChar u ∈ w | (some d, u) => ∃ c, accented d u = some c ∧ c ∈ w) := by
  have up : ∀ {x : Option Byte × Byte} {w : List WChar} {c0 : WChar}, (match x with | (none, u) => mainChar u ∈ w | (some d, u) => ∃ c, accented d u = some c ∧ c ∈ w) →
      (match x with | (none, u) => mainChar u ∈ c0 :: w | (some d, u) => ∃ c, accented d u = some c ∧ c ∈ c0 :: w) := by
    rintro ⟨p, u⟩ w c0 h
    cases p with
    | none => exact List.mem_cons_of_mem _ h
    | some d => obtain ⟨c, h1, h2⟩ := h; exact ⟨c, h1, List.mem_cons_of_mem _ h2⟩
  induction h with
  | nil => exact ⟨fun _ _ => rfl, by simp [lookups]⟩
  | nul rest => exact ⟨fun _ _ => by simp [lookups], by simp [lookups]⟩
  | @char u rest w h0 hd _ ih =>
    refine ⟨fun p hp => ?_, ?_⟩
    · rcases hp u rest rfl with h | h
      · exact absurd h h0
      · exact absurd h hd
    · intro l hl
      simp only [lookups, if_neg h0, if_neg hd, List.mem_cons] at hl
      rcases hl with rfl | hl
      · simp
      · exact up (ih.2 l hl)
  | @accent d u c rest w h1 h0 hd hacc _ ih =>
    have hd0 : d ≠ 0 := by rintro rfl; revert h1; decide
    refine ⟨fun p _ => by simp [lookups, hd0, h1], ?_⟩
    intro l hl
    simp only [lookups, if_neg hd0, if_pos h1, if_neg h0, if_neg hd, List.mem_cons] at hl
    rcases hl with rfl | hl
    · exact ⟨c, hacc, by simp⟩
    · exact up (ih.2 l hl)
  | @again d d' rest w h1 h2 _ ih =>
    have hd0 : d ≠ 0 := by rintro rfl; revert h1; decide
    refine ⟨fun p _ => by simp [lookups, hd0, h1], ?_⟩
    intro l hl
    have : lookups none (d :: d' :: rest) = lookups none (d' :: rest) := by
      rw [lookups, if_neg hd0, if_pos h1]
      exact ih.1 (some d) (by intro u r e; cases e; exact .inr h2)
    rw [this] at hl
    exact ih.2 l hl
  | @lone d h1 =>
    have hd0 : d ≠ 0 := by rintro rfl; revert h1; decide
    exact ⟨fun p _ => by simp [lookups, hd0, h1], by simp [lookups, hd0, h1]⟩
  | @loneNul d rest h1 =>
    have hd0 : d ≠ 0 := by rintro rfl; revert h1; decide
    exact ⟨fun p _ => by simp [lookups, hd0, h1], by simp [lookups, hd0, h1]⟩

private theorem absent_zero {t} (ht : SameTables t) {s w} (h : IsoText s w) (l : Option Byte × Byte) (hl : l ∈ lookups none s) (ha : Absent t l) (h0 : 0 ∉ w) : False := by
  have h1 := absent_char ht l ha
  have h2 := (lookups_text h).2 l hl
  obtain ⟨p, u⟩ := l
  cases p with
  | none => simp only at h1 h2; rw [h1] at h2; exact h0 h2
  | some d =>
    simp only at h1 h2
    obtain ⟨c, e1, e2⟩ := h2
    rw [h1] at e1; cases e1
    exact h0 e2

/-! ### C111 -/

/-- The threads' calls have sane arguments. -/
def SaneCalls (calls : List (List IsoCall)) : Prop := ∀ cs ∈ calls, ∀ c ∈ cs, c.Sane

/-- What a call returns: the characters that its bytes denote; the bytes that a process of its own would give. -/
inductive Returns : IsoCall → IsoJob → Prop where
  | decode {s w} : IsoText s w → Returns (.decode s) (.decoded w)
  | encode {w b} : isoEncode w = .ok b → Returns (.encode w) (.encoded b)

private theorem encode_loop (w : List WChar) (b : Str) : isoEncode w = .ok b ↔ isoEncodeLoop isoMade w = .ok b := by
  unfold isoEncode isoEncodeSt
  rw [isoEnsure_start]
  cases isoEncodeLoop isoMade w <;> simp [ok_bind, error_bind, pure_eq_ok]

private theorem good_start (c : IsoCall) (h : c.Sane) : ∃ out, Good (.start c) out ∧ Returns c out := by
  cases c with
  | decode s =>
    obtain ⟨w, hw⟩ := h
    exact ⟨.decoded w, ⟨w, (isoPure_text hw).2, rfl⟩, .decode hw⟩
  | encode w =>
    obtain ⟨b, hb⟩ := encodeLoop_ok sameTables_made w
    exact ⟨.encoded b, ⟨h, b, hb, rfl⟩, .encode ((encode_loop w b).2 hb)⟩

private theorem good_begins (calls : List (List IsoCall)) (h : SaneCalls calls) : ∃ outs, List.Forall₂ (List.Forall₂ Good) (begins calls) outs ∧ List.Forall₂ (List.Forall₂ Returns) calls outs := by
  have h1 : ∀ cs : List IsoCall, (∀ c ∈ cs, c.Sane) → ∃ outs, List.Forall₂ Good (cs.map .start) outs ∧ List.Forall₂ Returns cs outs := by
    intro cs
    induction cs with
    | nil => intro _; exact ⟨[], .nil, .nil⟩
    | cons c cs ih =>
      intro h
      obtain ⟨o, a1, a2⟩ := good_start c (h c (by simp))
      obtain ⟨os, b1, b2⟩ := ih (fun c hc => h c (by simp [hc]))
      exact ⟨o :: os, .cons a1 b1, .cons a2 b2⟩
  induction calls with
  | nil => exact ⟨[], .nil, .nil⟩
  | cons cs calls ih =>
    obtain ⟨o, a1, a2⟩ := h1 cs (h cs (by simp))
    obtain ⟨os, b1, b2⟩ := ih (fun cs hcs => h cs (by simp [hcs]))
    exact ⟨o :: os, .cons a1 b1, .cons a2 b2⟩

private theorem begins_get {calls : List (List IsoCall)} {i : Nat} {th} (h : (begins calls)[i]? = some th) : ∃ cs, calls[i]? = some cs ∧ th = cs.map .start := by
  unfold begins at h
  rw [List.getElem?_map] at h
  obtain ⟨cs, h1, h2⟩ := Option.map_eq_some_iff.1 h
  exact ⟨cs, h1, h2.symm⟩

private theorem tuses_start (cs : List IsoCall) (v : IsoVar) : TUses (cs.map .start) v ↔ ∃ c ∈ cs, c.Uses v := by
  simp [TUses, JUses]

private theorem tlook_start (cs : List IsoCall) (t : IsoTables) (v : IsoVar) : (∃ l, TLook (cs.map .start) l ∧ Absent t l ∧ place l.1 = v) ↔ ∃ c ∈ cs, c.Adds t v := by
  constructor
  · rintro ⟨l, ⟨j, hj, hl⟩, ha, hv⟩
    obtain ⟨c, hc, rfl⟩ := List.mem_map.1 hj
    cases c with
    | decode s => exact ⟨_, hc, l, hl, ha, hv.symm⟩
    | encode w => cases hl
  · rintro ⟨c, hc, h⟩
    cases c with
    | decode s => obtain ⟨l, hl, ha, hv⟩ := h; exact ⟨l, ⟨_, List.mem_map.2 ⟨_, hc, rfl⟩, hl⟩, ha, hv.symm⟩
    | encode w => cases h

private theorem made_same {t} (ht : IsoReach t) (h0 : t.dia ≠ []) : SameTables t := by
  have := ht.same
  unfold isoEnsure at this
  rw [if_neg (by simpa using h0)] at this
  exact this

/-- **Races.**  Once the tables exist (some call has returned before the threads were started), a run in which all threads come to their end has a data race
if and only if one thread looks for a byte in a table that does not have it, and another uses the same table. -/
theorem C111_races {t} (ht : IsoReach t) (h0 : t.dia ≠ []) (calls : List (List IsoCall)) (hs : SaneCalls calls) {tr t'' ths''}
    (h : IsoRun t (begins calls) tr t'' ths'') (hf : ∀ th ∈ ths'', Finished t'' th) :
    Racy tr ↔ ∃ (i j : Nat) (cs cs' : List IsoCall), calls[i]? = some cs ∧ calls[j]? = some cs' ∧ i ≠ j ∧ ∃ v, (∃ c ∈ cs, c.Adds t v) ∧ ∃ c ∈ cs', c.Uses v := by
  obtain ⟨outs, hg, _⟩ := good_begins calls hs
  have hr := run_ok h (made_same ht h0) outs hg
  have key : ∀ i j x y, (i, x) ∈ tr → (j, y) ∈ tr → i ≠ j → x.var = y.var → x.write = true →
      ∃ (i j : Nat) (cs cs' : List IsoCall), calls[i]? = some cs ∧ calls[j]? = some cs' ∧ i ≠ j ∧ ∃ v, (∃ c ∈ cs, c.Adds t v) ∧ ∃ c ∈ cs', c.Uses v := by
    intro i j x y hx hy hij hv hw
    obtain ⟨th, h1, _, h2⟩ := hr.uses_of i x hx
    obtain ⟨th', h3, h4, _⟩ := hr.uses_of j y hy
    obtain ⟨cs, e1, rfl⟩ := begins_get h1
    obtain ⟨cs', e2, rfl⟩ := begins_get h3
    exact ⟨i, j, cs, cs', e1, e2, hij, x.var, (tlook_start cs t _).1 (h2 hw), (tuses_start cs' _).1 (hv ▸ h4)⟩
  constructor
  · rintro ⟨i, j, x, y, hx, hy, hij, hv, hw | hw⟩
    · exact key i j x y hx hy hij hv hw
    · exact key j i y x hy hx (Ne.symm hij) hv.symm hw
  · rintro ⟨i, j, cs, cs', hi, hj, hij, v, ha, hu⟩
    have hi' : (begins calls)[i]? = some (cs.map .start) := by unfold begins; rw [List.getElem?_map, hi]; rfl
    have hj' : (begins calls)[j]? = some (cs'.map .start) := by unfold begins; rw [List.getElem?_map, hj]; rfl
    obtain ⟨l, hl, hab, rfl⟩ := (tlook_start cs t v).2 ha
    obtain ⟨k, x, hx, hxv, hxw⟩ := hr.adds_all hf i _ l hi' hl hab
    obtain ⟨y, hy, hyv⟩ := hr.uses_all hf j _ _ hj' ((tuses_start cs' _).2 hu)
    obtain ⟨z, hz, hzv⟩ := hr.uses_all hf i _ _ hi' (look_uses hl)
    by_cases hk : k = j
    · exact ⟨k, i, x, z, hx, hz, by rw [hk]; exact Ne.symm hij, by rw [hxv, hzv], .inl hxw⟩
    · exact ⟨k, j, x, y, hx, hy, hk, by rw [hxv, hyv], .inl hxw⟩

/-- **Results.**  However the steps of the threads interleave, each call that has returned has returned what it would have alone, and none has failed
(for a run with a race this says nothing about the program, whose behaviour then is undefined). -/
theorem C111_results {t} (ht : IsoReach t) (h0 : t.dia ≠ []) (calls : List (List IsoCall)) (hs : SaneCalls calls) {tr t'' ths''}
    (h : IsoRun t (begins calls) tr t'' ths'') (i : Nat) (th : List IsoJob) (hi : ths''[i]? = some th) :
    ∃ cs, calls[i]? = some cs ∧ th.length = cs.length ∧ ∀ (k : Nat) j, th[k]? = some j → j.step t'' = none → ∃ c, cs[k]? = some c ∧ Returns c j := by
  obtain ⟨outs, hg, hret⟩ := good_begins calls hs
  have hr := run_ok h (made_same ht h0) outs hg
  obtain ⟨os, ho, hgo⟩ := forall2_get hr.good i th hi
  obtain ⟨cs, hcs, hrs⟩ := forall2_get hret.flip i os ho
  refine ⟨cs, hcs, by rw [hgo.length_eq, ← List.Forall₂.length_eq hrs], ?_⟩
  intro k j hj hn
  obtain ⟨o, h1, h2⟩ := forall2_get hgo k j hj
  obtain ⟨c, h3, h4⟩ := forall2_get (List.Forall₂.flip hrs) k o h1
  have : o = j := by
    rcases step_none hn with ⟨o, rfl⟩ | ⟨o, rfl⟩ | ⟨e, rfl⟩
    · exact h2
    · exact h2
    · exact h2.elim
  subst this
  exact ⟨c, h3, h4⟩

/-- If nothing that is decoded denotes U+0000 (every byte is in the tables), the threads only read: no run has a race, however many threads and calls there are. -/
theorem C111_safe {t} (ht : IsoReach t) (h0 : t.dia ≠ []) (calls : List (List IsoCall)) (hs : SaneCalls calls)
    (hk : ∀ cs ∈ calls, ∀ s, .decode s ∈ cs → ∀ w, IsoText s w → 0 ∉ w) {tr t'' ths''} (h : IsoRun t (begins calls) tr t'' ths'') :
    (∀ p ∈ tr, p.2.write = false) ∧ ¬ Racy tr := by
  obtain ⟨outs, hg, _⟩ := good_begins calls hs
  have hsame := made_same ht h0
  have hr := run_ok h hsame outs hg
  have hw : ∀ p ∈ tr, p.2.write = false := by
    rintro ⟨i, x⟩ hx
    obtain ⟨th, h1, _, h2⟩ := hr.uses_of i x hx
    obtain ⟨cs, e1, rfl⟩ := begins_get h1
    rw [Bool.eq_false_iff]
    intro hwr
    obtain ⟨l, ⟨j, hj, hl⟩, ha, _⟩ := h2 hwr
    obtain ⟨c, hc, rfl⟩ := List.mem_map.1 hj
    cases c with
    | encode w => cases hl
    | decode s =>
      have hm : cs ∈ calls := List.mem_of_getElem? e1
      obtain ⟨w, hw⟩ := hs cs hm _ hc
      exact absent_zero hsame hw l hl ha (hk cs hm s hc w hw)
  refine ⟨hw, ?_⟩
  rintro ⟨i, j, x, y, hx, hy, _, _, h | h⟩
  · have := hw _ hx; rw [this] at h; cases h
  · have := hw _ hy; rw [this] at h; cases h

private theorem start_uses {t ths tr t'' ths''} (h : IsoRun t ths tr t'' ths'') : (∀ th ∈ ths'', Finished t'' th) → ∀ (j : Nat) c js, ths[j]? = some (.start c :: js) →
    ∃ x, (j, x) ∈ tr ∧ x.var = .dia := by
  induction h with
  | nil t ths =>
    intro hf j c js hj
    have := hf _ (List.mem_of_getElem? hj) _ List.mem_cons_self
    cases this
  | @step t ths i th t' th' a tr t'' ths'' hi hs _ ih =>
    intro hf j c js hj
    by_cases e : j = i
    · subst e
      rw [hi] at hj; cases hj
      cases hs with
      | here hs =>
        simp only [IsoJob.step, Option.some.injEq, Prod.mk.injEq] at hs
        obtain ⟨_, _, rfl⟩ := hs
        exact ⟨⟨.dia, false⟩, List.mem_append_left _ (by simp), rfl⟩
      | later hs => cases hs
    · obtain ⟨x, hx, hv⟩ := ih hf j c js (by rw [List.getElem?_set_ne (Ne.symm e)]; exact hj)
      exact ⟨x, List.mem_append_right _ hx, hv⟩

/-- **First use.**  If the tables do not exist yet and two threads make calls (any calls), then there is a data race, however the run goes. -/
theorem C111_first {t : IsoTables} (h0 : t.dia = []) (calls : List (List IsoCall)) {tr t'' ths''} (h : IsoRun t (begins calls) tr t'' ths'')
    (hf : ∀ th ∈ ths'', Finished t'' th) (i j : Nat) (c c' : IsoCall) (cs cs' : List IsoCall) (hi : calls[i]? = some (c :: cs)) (hj : calls[j]? = some (c' :: cs')) (hij : i ≠ j) : Racy tr := by
  have hi' : (begins calls)[i]? = some (.start c :: cs.map .start) := by unfold begins; rw [List.getElem?_map, hi]; rfl
  have hj' : (begins calls)[j]? = some (.start c' :: cs'.map .start) := by unfold begins; rw [List.getElem?_map, hj]; rfl
  obtain ⟨x, hx, hxv⟩ := start_uses h hf i _ _ hi'
  obtain ⟨y, hy, hyv⟩ := start_uses h hf j _ _ hj'
  obtain ⟨k, z, hz, hzv, hzw⟩ : ∃ k z, (k, z) ∈ tr ∧ z.var = .dia ∧ z.write = true := by
    generalize hb : begins calls = ths at h
    cases h with
    | nil => cases hx
    | @step _ _ k th t' th' a tr _ _ hk hs _ =>
      rw [← hb] at hk
      obtain ⟨cs0, _, rfl⟩ := begins_get hk
      cases cs0 with
      | nil => cases hs
      | cons c0 cs0 =>
        cases hs with
        | here hs =>
          simp only [IsoJob.step, h0, List.isEmpty_nil, if_true, Option.some.injEq, Prod.mk.injEq] at hs
          obtain ⟨_, _, rfl⟩ := hs
          exact ⟨k, ⟨.dia, true⟩, List.mem_append_left _ (List.mem_map.2 ⟨_, by simp [isoMakeWrites], rfl⟩), rfl, rfl⟩
        | later hs => cases hs
  by_cases hk : k = j
  · exact ⟨k, i, z, x, hz, hx, by rw [hk]; exact Ne.symm hij, by rw [hzv, hxv], .inl hzw⟩
  · exact ⟨k, j, z, y, hz, hy, hk, by rw [hzv, hyv], .inl hzw⟩

private def RunsTo (t : IsoTables) (j : IsoJob) : R (IsoTables × List WChar) → Prop
  | .ok r => ∃ tr, IsoRun t [[j]] tr r.1 [[.decoded r.2]]
  | .error e => ∃ tr t', IsoRun t [[j]] tr t' [[.failed e]]

private theorem run_one {t t' t'' : IsoTables} {j j' : IsoJob} {ths a tr} (h1 : j.step t = some (t', j', a)) (h2 : IsoRun t' [[j']] tr t'' ths) :
    IsoRun t [[j]] (a.map (fun x => (0, x)) ++ tr) t'' ths := .step (th := [j]) (th' := [j']) rfl (.here h1) h2

private theorem RunsTo.more {t t' : IsoTables} {j j' : IsoJob} {a} {r : R (IsoTables × List WChar)} (h1 : j.step t = some (t', j', a)) (h2 : RunsTo t' j' r) : RunsTo t j r := by
  cases r with
  | ok r => obtain ⟨tr, h2⟩ := h2; exact ⟨_, run_one h1 h2⟩
  | error e => obtain ⟨tr, t'', h2⟩ := h2; exact ⟨_, t'', run_one h1 h2⟩

private theorem run_decode (s : Str) : ∀ t p o, RunsTo t (.decoding p o s) (isoDecodeLoop t p o s) := by
  induction s with
  | nil =>
    intro t p o
    exact ⟨_, run_one (a := []) (by simp only [IsoJob.step]) (.nil _ _)⟩
  | cons u us ih =>
    intro t p o
    simp only [isoDecodeLoop]
    by_cases hu : u = 0
    · simp only [if_pos hu]
      exact ⟨_, run_one (a := []) (by simp only [IsoJob.step, if_pos hu]) (.nil _ _)⟩
    · simp only [if_neg hu]
      by_cases hd : isDiacritical u = true
      · simp only [if_pos hd]
        exact (ih t (some u) o).more (a := []) (by simp only [IsoJob.step, if_neg hu, if_pos hd])
      · simp only [if_neg hd]
        cases p with
        | some d =>
          simp only
          cases hg : mapGet t.dia d with
          | none => exact ⟨_, _, run_one (by simp only [IsoJob.step, if_neg hu, if_neg hd, hg]; rfl) (.nil _ _)⟩
          | some x =>
            cases x with
            | none => exact ⟨_, _, run_one (by simp only [IsoJob.step, if_neg hu, if_neg hd, hg]; rfl) (.nil _ _)⟩
            | some m =>
              simp only
              cases hm : mapGet m u with
              | some v => exact (ih _ _ _).more (by simp only [IsoJob.step, if_neg hu, if_neg hd, hg, hm]; rfl)
              | none => exact (ih _ _ _).more (by simp only [IsoJob.step, if_neg hu, if_neg hd, hg, hm]; rfl)
        | none =>
          simp only
          cases hm : mapGet t.main u with
          | some v => exact (ih _ _ _).more (by simp only [IsoJob.step, if_neg hu, if_neg hd, hm]; rfl)
          | none => exact (ih _ _ _).more (by simp only [IsoJob.step, if_neg hu, if_neg hd, hm]; rfl)

private theorem run_encode (w : List WChar) : ∀ t o b, isoEncodeLoop t w = .ok b → ∃ tr, IsoRun t [[.encoding o w]] tr t [[.encoded (o ++ b)]] := by
  induction w with
  | nil =>
    intro t o b h
    cases h
    rw [List.append_nil]
    exact ⟨_, run_one (j := .encoding o []) (j' := .encoded o) (a := []) rfl (.nil _ _)⟩
  | cons c cs ih =>
    intro t o b h
    simp only [isoEncodeLoop] at h
    obtain ⟨a, ha, h⟩ := bind_eq_ok.1 h
    obtain ⟨b', hb, h⟩ := bind_eq_ok.1 h
    cases h
    obtain ⟨tr, hr⟩ := ih t (o ++ a) b' hb
    rw [List.append_assoc] at hr
    exact ⟨_, run_one (j := .encoding o (c :: cs)) (a := isoEncodeReads t c) (by simp only [IsoJob.step, ha]) hr⟩

/-- A call alone: its steps lead to the result and the tables that the model of the conversion gives. -/
theorem C111_alone (t : IsoTables) :
    (∀ s t' o, isoDecodeSt t s = .ok (t', o) → ∃ tr, IsoRun t (begins [[.decode s]]) tr t' [[.decoded o]]) ∧
    (∀ s e, isoDecodeSt t s = .error e → ∃ tr t', IsoRun t (begins [[.decode s]]) tr t' [[.failed e]]) ∧
    (∀ w t' b, isoEncodeSt t w = .ok (t', b) → ∃ tr, IsoRun t (begins [[.encode w]]) tr t' [[.encoded b]]) := by
  have hd : ∀ s, RunsTo t (.start (.decode s)) (isoDecodeSt t s) := fun s => (run_decode s (isoEnsure t) none []).more (by simp only [IsoJob.step]; rfl)
  refine ⟨?_, ?_, ?_⟩
  · intro s t' o h
    have := hd s
    rw [h] at this
    exact this
  · intro s e h
    have := hd s
    rw [h] at this
    exact this
  · intro w t' b h
    unfold isoEncodeSt at h
    obtain ⟨o, ho, h⟩ := bind_eq_ok.1 h
    cases h
    obtain ⟨tr, hr⟩ := run_encode w (isoEnsure t) [] b ho
    exact ⟨_, run_one (by simp only [IsoJob.step]; rfl) hr⟩

/-! ### Every run can be brought to its end -/

private def jobSize : IsoJob → Nat
  | .start (.decode s) => s.length + 2
  | .start (.encode w) => w.length + 2
  | .decoding _ _ s => s.length + 1
  | .encoding _ w => w.length + 1
  | _ => 0

private theorem step_smaller {t : IsoTables} {j t' j' a} (h : j.step t = some (t', j', a)) : jobSize j' < jobSize j := by
  cases j with
  | start c => cases c <;> (simp only [IsoJob.step, Option.some.injEq, Prod.mk.injEq] at h; obtain ⟨_, rfl, _⟩ := h; simp [jobSize])
  | decoding p o s =>
    cases s with
    | nil => cases h; simp [jobSize]
    | cons u us =>
      simp only [IsoJob.step] at h
      split at h
      · cases h; simp [jobSize]
      · split at h
        · cases h; simp [jobSize]
        · split at h
          · split at h
            · split at h <;> (cases h; simp [jobSize])
            · cases h; simp [jobSize]
            · cases h; simp [jobSize]
          · split at h <;> (cases h; simp [jobSize])
  | encoding o w =>
    cases w with
    | nil => cases h; simp [jobSize]
    | cons c cs => simp only [IsoJob.step] at h; split at h <;> (cases h; simp [jobSize])
  | decoded => cases h
  | encoded => cases h
  | failed => cases h

private theorem thread_smaller {t js t' js' a} (h : ThreadStep t js t' js' a) : (js'.map jobSize).sum < (js.map jobSize).sum := by
  induction h with
  | here h => simpa using step_smaller h
  | later _ _ ih => simpa using ih

private theorem sum_set {α : Type} (f : α → Nat) (y : α) : ∀ (l : List α) (i : Nat) (x : α), l[i]? = some x → f y < f x → ((l.set i y).map f).sum < (l.map f).sum := by
  intro l
  induction l with
  | nil => intro i x h; simp at h
  | cons a l ih =>
    intro i x h hxy
    cases i with
    | zero => simp at h; subst h; simpa using hxy
    | succ i => simpa using ih i x (by simpa using h) hxy

private theorem thread_step (t : IsoTables) : ∀ js, ¬ Finished t js → ∃ t' js' a, ThreadStep t js t' js' a := by
  intro js
  induction js with
  | nil => intro h; exact absurd (fun j hj => by cases hj) h
  | cons j js ih =>
    intro h
    cases hs : j.step t with
    | some r => obtain ⟨t', j', a⟩ := r; exact ⟨t', j' :: js, a, .here hs⟩
    | none =>
      obtain ⟨t', js', a, h'⟩ := ih (fun hf => h (by intro x hx; rcases List.mem_cons.1 hx with rfl | hx; exacts [hs, hf x hx]))
      exact ⟨t', j :: js', a, .later hs h'⟩

/-- From every state some run brings all threads to their end. -/
theorem C111_ends (t : IsoTables) (ths : List (List IsoJob)) : ∃ tr t' ths', IsoRun t ths tr t' ths' ∧ ∀ th ∈ ths', Finished t' th := by
  generalize hn : (ths.map (fun js => (js.map jobSize).sum)).sum = n
  induction n using Nat.strong_induction_on generalizing t ths with
  | _ n ih =>
    by_cases hf : ∀ th ∈ ths, Finished t th
    · exact ⟨[], t, ths, .nil _ _, hf⟩
    · push Not at hf
      obtain ⟨th, hth, hnf⟩ := hf
      obtain ⟨i, hi⟩ := List.getElem?_of_mem hth
      obtain ⟨t', th', a, hs⟩ := thread_step t th hnf
      obtain ⟨tr, t'', ths'', hr, hff⟩ := ih _ (hn ▸ sum_set (fun js : List IsoJob => (js.map jobSize).sum) th' ths i th hi (thread_smaller hs)) t' _ rfl
      exact ⟨_, t'', ths'', .step hi hs hr, hff⟩

/-! ### Examples -/

private theorem reach_made : IsoReach isoMade := .encode (s := []) (o := []) .start (by decide +kernel)

private theorem made_ne : isoMade.dia ≠ [] := by decide +kernel

private theorem boxed_text : IsoText [0x0B, 65] [0, 65] := .char (by decide) (by decide) (.char (by decide) (by decide) .nil)

/-- A thread decodes `\x0bA` (0B is "start box", common in teletext files); another encodes "A". -/
private def exCalls : List (List IsoCall) := [[.decode [0x0B, 65]], [.encode [65]]]

private theorem exCalls_sane : SaneCalls exCalls := by
  intro cs hcs c hc
  simp only [exCalls, List.mem_cons, List.not_mem_nil, or_false] at hcs
  rcases hcs with rfl | rfl
  · simp only [List.mem_cons, List.not_mem_nil, or_false] at hc; subst hc; exact ⟨_, boxed_text⟩
  · simp only [List.mem_cons, List.not_mem_nil, or_false] at hc; subst hc
    show (0 : WChar) ∉ [65]
    decide

/-- **It does happen**: 0B is in no table, so decoding it writes to the main table, and every run of these threads has a race, although the tables were made before. -/
theorem C111_box_witness : IsoReach isoMade ∧ isoMade.dia ≠ [] ∧ SaneCalls exCalls ∧ ∀ tr t'' ths'', IsoRun isoMade (begins exCalls) tr t'' ths'' → (∀ th ∈ ths'', Finished t'' th) → Racy tr := by
  refine ⟨reach_made, made_ne, exCalls_sane, fun tr t'' ths'' h hf => ?_⟩
  rw [C111_races reach_made made_ne exCalls exCalls_sane h hf]
  refine ⟨0, 1, _, _, rfl, rfl, by decide, .main, ⟨_, List.mem_cons_self, (none, 0x0B), by decide, ?_, rfl⟩, ⟨_, List.mem_cons_self, .inr ⟨65, by simp, .inl rfl⟩⟩⟩
  show mapGet isoMade.main 0x0B = none
  decide +kernel

/-- Two threads with texts that the tables have: "Ä" and "A"; some run of them comes to its end. -/
example : SaneCalls [[.decode [0xC8, 65]], [.encode [65], .decode [65]]] ∧
    (∀ cs ∈ ([[.decode [0xC8, 65]], [.encode [65], .decode [65]]] : List (List IsoCall)), ∀ s, .decode s ∈ cs → ∀ w, IsoText s w → 0 ∉ w) ∧
    ∃ tr t' ths', IsoRun isoMade (begins [[.decode [0xC8, 65]], [.encode [65], .decode [65]]]) tr t' ths' ∧ ∀ th ∈ ths', Finished t' th := by
  have h1 : IsoText [0xC8, 65] [0xC4] := .accent (by decide) (by decide) (by decide) (by decide +kernel) .nil
  have h2 : IsoText [65] [65] := .char (by decide) (by decide) .nil
  refine ⟨?_, ?_, C111_ends _ _⟩
  · intro cs hcs c hc
    simp only [List.mem_cons, List.not_mem_nil, or_false] at hcs
    rcases hcs with rfl | rfl <;> simp only [List.mem_cons, List.not_mem_nil, or_false] at hc
    · subst hc; exact ⟨_, h1⟩
    · rcases hc with rfl | rfl
      · show (0 : WChar) ∉ [65]
        decide
      · exact ⟨_, h2⟩
  · intro cs hcs s hs w hw
    rw [← C53_text] at h1 h2 hw
    simp only [List.mem_cons, List.not_mem_nil, or_false] at hcs
    rcases hcs with rfl | rfl <;> simp only [List.mem_cons, List.not_mem_nil, or_false, IsoCall.decode.injEq, reduceCtorEq, false_or] at hs
    · subst hs; rw [h1] at hw; cases hw; decide
    · subst hs; rw [h2] at hw; cases hw; decide

/-- Two threads that each make one call before there are tables. -/
example : ∃ tr t' ths', IsoRun {} (begins [[.encode [65]], [.encode [66]]]) tr t' ths' ∧ (∀ th ∈ ths', Finished t' th) ∧ Racy tr := by
  obtain ⟨tr, t', ths', h, hf⟩ := C111_ends {} (begins [[.encode [65]], [.encode [66]]])
  exact ⟨tr, t', ths', h, hf, C111_first rfl _ h hf 0 1 _ _ _ _ rfl rfl (by decide)⟩

/-- "Ä" decoded alone in a fresh process. -/
example : ∃ tr, IsoRun {} (begins [[.decode [0xC8, 65]]]) tr isoMade [[.decoded [0xC4]]] := (C111_alone {}).1 _ _ _ (by decide +kernel)

end LibSub
