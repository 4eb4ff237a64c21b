/-
Property C111: the accesses recorded for a step are those that it makes, and steps whose accesses do not conflict can be exchanged.
-/
import Verif.Props.Threads

namespace LibSub

/-! ### Specification -/

/-- Two states have the same value in a variable: in `diacriticals` which accents there are, and which of them have a table. -/
def AgreeOn (s t : IsoTables) : IsoVar → Prop
  | .main => s.main = t.main
  | .dia => s.dia.map (fun kv => (kv.1, kv.2.isSome)) = t.dia.map (fun kv => (kv.1, kv.2.isSome))
  | .inner d => (mapGet s.dia d).join = (mapGet t.dia d).join

/-- `diacriticals` is in the order of a `std::map<char, …>`, without a key twice. -/
def TablesInOrder (t : IsoTables) : Prop := t.dia.Pairwise (fun a b => charRank a.1 < charRank b.1)

/-- Accesses to the same variable, one of them writing. -/
def Conflict (a b : List IsoAccess) : Prop := ∃ x ∈ a, ∃ y ∈ b, x.var = y.var ∧ (x.write = true ∨ y.write = true)

/-- A run with its schedule: which thread makes each step, and with which accesses. -/
inductive Scheduled : IsoTables → List (List IsoJob) → List (Nat × List IsoAccess) → IsoTables → List (List IsoJob) → Prop where
  | nil (t ths) : Scheduled t ths [] t ths
  | step {t ths i th t' th' a sch t'' ths''} : ths[i]? = some th → ThreadStep t th t' th' a → Scheduled t' (ths.set i th') sch t'' ths'' →
      Scheduled t ths ((i, a) :: sch) t'' ths''

/-- The accesses of a schedule. -/
def accesses (sch : List (Nat × List IsoAccess)) : List (Nat × IsoAccess) := (sch.map (fun s => s.2.map (fun x => (s.1, x)))).flatten

/-! ### Maps -/

theorem AgreeOn.refl (t : IsoTables) (v : IsoVar) : AgreeOn t t v := by cases v <;> rfl
theorem AgreeOn.symm {s t : IsoTables} {v : IsoVar} (h : AgreeOn s t v) : AgreeOn t s v := by cases v <;> exact Eq.symm h
theorem AgreeOn.trans {s t u : IsoTables} {v : IsoVar} (h : AgreeOn s t v) (h' : AgreeOn t u v) : AgreeOn s u v := by cases v <;> exact Eq.trans h h'

private theorem rank_inj {a b : Byte} (h : charRank a = charRank b) : a = b := by
  unfold charRank at h
  have h1 := a.toNat_lt
  have h2 := b.toNat_lt
  apply UInt8.toNat_inj.1
  omega

private theorem assign_present {α : Type} (k : Byte) (v w : α) (f : α → Bool) (hf : f v = f w) : ∀ m : List (Byte × α), mapGet m k = some w →
    m.Pairwise (fun a b => charRank a.1 < charRank b.1) →
    (mapAssign k v m).map (fun kv => (kv.1, f kv.2)) = m.map (fun kv => (kv.1, f kv.2)) := by
  intro m
  induction m with
  | nil => intro h; cases h
  | cons p m ih =>
    obtain ⟨k', v'⟩ := p
    intro h ho
    rw [mapGet] at h
    rw [mapAssign]
    by_cases e : k = k'
    · subst e
      rw [if_pos rfl] at h ⊢
      cases h
      simp [hf]
    · rw [if_neg (Ne.symm e)] at h
      rw [if_neg e]
      obtain ⟨ho1, ho2⟩ := List.pairwise_cons.1 ho
      have hm : ∃ w', (k, w') ∈ m := by
        clear ih ho ho1 ho2
        induction m with
        | nil => cases h
        | cons q m ih =>
          rw [mapGet] at h
          by_cases e : q.1 = k
          · exact ⟨q.2, by rw [← e]; simp⟩
          · rw [if_neg e] at h
            obtain ⟨w', hw⟩ := ih h
            exact ⟨w', by simp [hw]⟩
      obtain ⟨w', hw⟩ := hm
      have := ho1 _ hw
      simp only at this
      rw [if_neg (by omega), List.map_cons, ih h ho2, List.map_cons]

private theorem assign_order {α : Type} (k : Byte) (v : α) : ∀ m : List (Byte × α), m.Pairwise (fun a b => charRank a.1 < charRank b.1) →
    (mapAssign k v m).Pairwise (fun a b => charRank a.1 < charRank b.1) ∧ ∀ n, n < charRank k → (∀ p ∈ m, n < charRank p.1) → ∀ p ∈ mapAssign k v m, n < charRank p.1 := by
  intro m
  induction m with
  | nil => intro _; simp [mapAssign]
  | cons p m ih =>
    obtain ⟨k', v'⟩ := p
    intro ho
    obtain ⟨ho1, ho2⟩ := List.pairwise_cons.1 ho
    obtain ⟨i1, i2⟩ := ih ho2
    rw [mapAssign]
    split
    · rename_i e
      subst e
      refine ⟨List.pairwise_cons.2 ⟨ho1, ho2⟩, ?_⟩
      intro n hn h p hp
      rcases List.mem_cons.1 hp with rfl | hp
      · exact hn
      · exact h _ (by simp [hp])
    · rename_i e
      split
      · rename_i hlt
        refine ⟨List.pairwise_cons.2 ⟨?_, ho⟩, ?_⟩
        · intro p hp
          rcases List.mem_cons.1 hp with rfl | hp
          · exact hlt
          · exact Nat.lt_trans hlt (ho1 p hp)
        · intro n hn h p hp
          rcases List.mem_cons.1 hp with rfl | hp
          · exact hn
          · exact h p hp
      · rename_i hlt
        have hr : charRank k' < charRank k := by
          have : charRank k ≠ charRank k' := fun h => e (rank_inj h)
          omega
        refine ⟨List.pairwise_cons.2 ⟨i2 _ hr ho1, i1⟩, ?_⟩
        intro n hn h p hp
        rcases List.mem_cons.1 hp with rfl | hp
        · exact h _ (by simp)
        · exact i2 n hn (fun p hp => h p (by simp [hp])) p hp

private theorem get_cons_ne {α : Type} {k' k : Byte} (v : α) (m : List (Byte × α)) (h : k' ≠ k) : mapGet ((k', v) :: m) k = mapGet m k := by
  rw [mapGet, if_neg h]

private theorem get_mem {α : Type} {m : List (Byte × α)} {k : Byte} {v : α} (h : mapGet m k = some v) : (k, v) ∈ m := by
  induction m with
  | nil => cases h
  | cons p m ih =>
    rw [mapGet] at h
    by_cases e : p.1 = k
    · rw [if_pos e] at h
      cases h
      rw [← e]; simp
    · rw [if_neg e] at h
      simp [ih h]

private theorem mem_get {α : Type} {m : List (Byte × α)} {k : Byte} {v : α} (ho : m.Pairwise (fun a b => charRank a.1 < charRank b.1)) (h : (k, v) ∈ m) : mapGet m k = some v := by
  induction m with
  | nil => cases h
  | cons p m ih =>
    obtain ⟨ho1, ho2⟩ := List.pairwise_cons.1 ho
    rw [mapGet]
    rcases List.mem_cons.1 h with rfl | h
    · simp
    · have := ho1 _ h
      rw [if_neg (by rintro rfl; simp at this), ih ho2 h]

/-- Same accents with and without tables: the same look-ups. -/
private theorem get_shape {a b : List (Byte × Option (List (Byte × WChar)))} (h : a.map (fun kv => (kv.1, kv.2.isSome)) = b.map (fun kv => (kv.1, kv.2.isSome))) (d : Byte) :
    (mapGet a d).map Option.isSome = (mapGet b d).map Option.isSome := by
  induction a generalizing b with
  | nil =>
    cases b with
    | nil => rfl
    | cons q b => simp at h
  | cons p a ih =>
    cases b with
    | nil => simp at h
    | cons q b =>
      simp only [List.map_cons, List.cons.injEq, Prod.mk.injEq] at h
      obtain ⟨⟨h1, h2⟩, h3⟩ := h
      rw [mapGet, mapGet, h1]
      split
      · simp [h2]
      · exact ih h3

/-- Same variables: same state. -/
private theorem agree_eq {s t : IsoTables} (hs : TablesInOrder s) (ht : TablesInOrder t) (h : ∀ v, AgreeOn s t v) : s = t := by
  obtain ⟨m, a⟩ := s
  obtain ⟨m', b⟩ := t
  have e1 : m = m' := h .main
  subst e1
  have e2 : a.map (fun kv => (kv.1, kv.2.isSome)) = b.map (fun kv => (kv.1, kv.2.isSome)) := h .dia
  have e3 : ∀ d, (mapGet a d).join = (mapGet b d).join := fun d => h (.inner d)
  congr 1
  clear h
  simp only [TablesInOrder] at hs ht
  induction a generalizing b with
  | nil =>
    cases b with
    | nil => rfl
    | cons q b => simp at e2
  | cons p a ih =>
    cases b with
    | nil => simp at e2
    | cons q b =>
      obtain ⟨k, v⟩ := p
      obtain ⟨k', v'⟩ := q
      simp only [List.map_cons, List.cons.injEq, Prod.mk.injEq] at e2
      obtain ⟨⟨rfl, h2⟩, h3⟩ := e2
      obtain ⟨s1, s2⟩ := List.pairwise_cons.1 hs
      obtain ⟨t1, t2⟩ := List.pairwise_cons.1 ht
      have hv : v = v' := by
        have := e3 k
        simpa [mapGet] using this
      subst hv
      have absent : ∀ {c : List (Byte × Option (List (Byte × WChar)))}, (∀ p ∈ c, charRank k < charRank p.1) → mapGet c k = none := by
        intro c hc
        cases hg : mapGet c k with
        | none => rfl
        | some w =>
          have := hc _ (get_mem hg)
          simp at this
      rw [ih s2 b t2 h3]
      intro d
      by_cases e : k = d
      · subst e
        rw [absent s1, absent t1]
      · have := e3 d
        rwa [get_cons_ne _ _ e, get_cons_ne _ _ e] at this

/-- The order is seen in the accents. -/
private theorem agree_order {s t : IsoTables} (h : AgreeOn s t .dia) (ho : TablesInOrder t) : TablesInOrder s := by
  unfold TablesInOrder at ho ⊢
  have key : ∀ m : List (Byte × Option (List (Byte × WChar))), m.Pairwise (fun a b => charRank a.1 < charRank b.1) ↔
      (m.map (fun kv => (kv.1, kv.2.isSome))).Pairwise (fun a b => charRank a.1 < charRank b.1) := by
    intro m
    rw [List.pairwise_map]
  rw [key] at ho ⊢
  rw [show s.dia.map _ = t.dia.map _ from h]
  exact ho

private theorem assign_shape (d : Byte) (v : Option (List (Byte × WChar))) {x y : List (Byte × Option (List (Byte × WChar)))}
    (h : x.map (fun kv => (kv.1, kv.2.isSome)) = y.map (fun kv => (kv.1, kv.2.isSome))) :
    (mapAssign d v x).map (fun kv => (kv.1, kv.2.isSome)) = (mapAssign d v y).map (fun kv => (kv.1, kv.2.isSome)) := by
  induction x generalizing y with
  | nil =>
    cases y with
    | nil => rfl
    | cons q b => simp at h
  | cons p x ih =>
    cases y with
    | nil => simp at h
    | cons q y =>
      obtain ⟨k, w⟩ := p
      obtain ⟨k', w'⟩ := q
      simp only [List.map_cons, List.cons.injEq, Prod.mk.injEq] at h
      obtain ⟨⟨rfl, h2⟩, h3⟩ := h
      rw [mapAssign, mapAssign]
      split
      · simp [h3]
      · split
        · simp [h2, h3]
        · simp [h2, ih h3]

/-! ### Steps -/

private theorem made_key {d : Byte} {w} (h : mapGet isoMade.dia d = some w) : d ∈ isoDiacriticals.map Prod.fst := by
  have key : ∀ p ∈ isoMade.dia, p.1 ∈ isoDiacriticals.map Prod.fst := by decide +kernel
  exact key _ (get_mem h)

/-- C111: a step changes only variables for which a write is recorded. -/
theorem C111_writes (t t' : IsoTables) (j j' : IsoJob) (a : List IsoAccess) (ho : TablesInOrder t) (h : j.step t = some (t', j', a)) (v : IsoVar) (hv : ¬ AgreeOn t' t v) : ⟨v, true⟩ ∈ a := by
  cases j with
  | start c =>
    simp only [IsoJob.step, Option.some.injEq, Prod.mk.injEq] at h
    obtain ⟨rfl, -, rfl⟩ := h
    unfold isoEnsure at hv
    split at hv
    · rename_i e
      rw [if_pos e]
      have e0 : t.dia = [] := List.isEmpty_iff.1 e
      cases v with
      | main => simp [isoMakeWrites]
      | dia => simp [isoMakeWrites]
      | inner d =>
        have : ∃ w, mapGet isoMade.dia d = some w := by
          cases hg : mapGet isoMade.dia d with
          | some w => exact ⟨w, rfl⟩
          | none =>
            exfalso
            apply hv
            simp only [AgreeOn, hg, e0]
            rfl
        obtain ⟨w, hw⟩ := this
        obtain ⟨p, hp, rfl⟩ := List.mem_map.1 (made_key hw)
        simp only [isoMakeWrites, List.mem_cons, List.mem_append, List.mem_map]
        exact .inr (.inl (.inr ⟨p, hp, rfl⟩))
    · exact absurd (AgreeOn.refl _ _) hv
  | decoding p o s =>
    cases s with
    | nil => cases h; exact absurd (AgreeOn.refl _ _) hv
    | cons u us =>
      simp only [IsoJob.step] at h
      split at h
      · cases h; exact absurd (AgreeOn.refl _ _) hv
      split at h
      · cases h; exact absurd (AgreeOn.refl _ _) hv
      cases p with
      | some d =>
        simp only [] at h
        split at h
        · rename_i m hm
          split at h
          · cases h; exact absurd (AgreeOn.refl _ _) hv
          · cases h
            cases v with
            | main => exact absurd rfl hv
            | dia => exact absurd (assign_present d (some (mapAssign u 0 m)) (some m) Option.isSome rfl t.dia hm ho) hv
            | inner e =>
              by_cases e' : d = e
              · subst e'; simp
              · exfalso
                apply hv
                simp only [AgreeOn, mapGet_assign, if_neg e']
        · cases h; exact absurd (AgreeOn.refl _ _) hv
        · rename_i hm
          cases h
          cases v with
          | main => exact absurd rfl hv
          | dia => simp
          | inner e =>
            exfalso
            apply hv
            simp only [AgreeOn, mapGet_assign]
            split
            · rename_i e'
              subst e'
              rw [hm]
              rfl
            · rfl
      | none =>
        simp only [] at h
        split at h
        · cases h; exact absurd (AgreeOn.refl _ _) hv
        · cases h
          cases v with
          | main => simp
          | dia => exact absurd rfl hv
          | inner e => exact absurd rfl hv
  | encoding o w =>
    cases w with
    | nil => cases h; exact absurd (AgreeOn.refl _ _) hv
    | cons c cs =>
      simp only [IsoJob.step] at h
      split at h <;> (cases h; exact absurd (AgreeOn.refl _ _) hv)
  | decoded => cases h
  | encoded => cases h
  | failed => cases h

private theorem findDia_agree (c : WChar) (x y : List (Byte × Option (List (Byte × WChar)))) (hx : x.Pairwise (fun a b => charRank a.1 < charRank b.1))
    (h : x.map (fun kv => (kv.1, kv.2.isSome)) = y.map (fun kv => (kv.1, kv.2.isSome)))
    (hi : ∀ d, (⟨.inner d, false⟩ : IsoAccess) ∈ isoFindDiaReads c x → (mapGet y d).join = (mapGet x d).join) :
    isoFindDia c y = isoFindDia c x ∧ isoFindDiaReads c y = isoFindDiaReads c x := by
  induction x generalizing y with
  | nil =>
    cases y with
    | nil => exact ⟨rfl, rfl⟩
    | cons q b => simp at h
  | cons p x ih =>
    cases y with
    | nil => simp at h
    | cons q y =>
      obtain ⟨k, v⟩ := p
      obtain ⟨k', v'⟩ := q
      simp only [List.map_cons, List.cons.injEq, Prod.mk.injEq] at h
      obtain ⟨⟨rfl, h2⟩, h3⟩ := h
      obtain ⟨o1, o2⟩ := List.pairwise_cons.1 hx
      cases v with
      | none =>
        cases v' with
        | none => exact ⟨rfl, rfl⟩
        | some m => simp at h2
      | some m =>
        have hv : v' = some m := by
          have := hi k (by simp [isoFindDiaReads])
          simpa [mapGet] using this
        subst hv
        simp only [isoFindDia, isoFindDiaReads]
        cases hf : isoFind m c with
        | some b => exact ⟨rfl, rfl⟩
        | none =>
          simp only []
          have := ih y o2 h3 (by
            intro d hd
            by_cases e : k = d
            · subst e
              exfalso
              -- the accent does not occur again
              have mem : ∀ z : List (Byte × Option (List (Byte × WChar))), (⟨.inner k, false⟩ : IsoAccess) ∈ isoFindDiaReads c z → ∃ w, (k, w) ∈ z := by
                intro z
                induction z with
                | nil => intro h; cases h
                | cons q z ih =>
                  obtain ⟨kq, vq⟩ := q
                  intro h
                  cases vq with
                  | none => cases h
                  | some mq =>
                    simp only [isoFindDiaReads, List.mem_cons, IsoAccess.mk.injEq, IsoVar.inner.injEq, and_true] at h
                    rcases h with rfl | h
                    · exact ⟨some mq, by simp⟩
                    · cases hf : isoFind mq c with
                      | some _ => rw [hf] at h; cases h
                      | none =>
                        rw [hf] at h
                        obtain ⟨w, hw⟩ := ih h
                        exact ⟨w, by simp [hw]⟩
              obtain ⟨w, hw⟩ := mem x hd
              have := o1 _ hw
              simp at this
            · have := hi d (by simp only [isoFindDiaReads, hf]; simp [hd])
              rwa [get_cons_ne _ _ e, get_cons_ne _ _ e] at this)
          exact ⟨this.1, by rw [this.2]⟩

/-- C111: what a step does depends only on the variables recorded for it. -/
theorem C111_reads (t t' s : IsoTables) (j j' : IsoJob) (a : List IsoAccess) (ho : TablesInOrder t) (h : j.step t = some (t', j', a)) (hs : ∀ x ∈ a, AgreeOn s t x.var) :
    ∃ s', j.step s = some (s', j', a) ∧ ∀ x ∈ a, AgreeOn s' t' x.var := by
  cases j with
  | start c =>
    simp only [IsoJob.step, Option.some.injEq, Prod.mk.injEq] at h
    obtain ⟨rfl, rfl, rfl⟩ := h
    have hd : s.dia.isEmpty = t.dia.isEmpty := by
      have := congrArg List.isEmpty (hs ⟨.dia, false⟩ (by simp))
      simpa using this
    simp only [IsoJob.step, hd, Option.some.injEq, Prod.mk.injEq, and_true, exists_eq_left']
    unfold isoEnsure
    rw [hd]
    by_cases e : t.dia.isEmpty = true
    · simp only [if_pos e]
      intro x _
      exact AgreeOn.refl _ _
    · rw [if_neg e] at hs
      simp only [if_neg e]
      exact hs
  | decoding p o w =>
    cases w with
    | nil => cases h; exact ⟨s, rfl, by simp⟩
    | cons u us =>
      simp only [IsoJob.step] at h ⊢
      by_cases h0 : u = 0
      · rw [if_pos h0] at h
        cases h
        exact ⟨s, by rw [if_pos h0], by simp⟩
      rw [if_neg h0] at h ⊢
      by_cases h1 : isDiacritical u = true
      · rw [if_pos h1] at h
        cases h
        exact ⟨s, by rw [if_pos h1], by simp⟩
      rw [if_neg h1] at h ⊢
      cases p with
      | some d =>
        simp only [] at h ⊢
        split at h
        · rename_i m hm
          have shape : AgreeOn s t .dia → AgreeOn s t (.inner d) → mapGet s.dia d = some (some m) := by
            intro g1 g2
            have g := get_shape g1 d
            rw [hm] at g
            simp only [AgreeOn, hm, Option.join_some] at g2
            cases hg : mapGet s.dia d with
            | none => rw [hg] at g; cases g
            | some w => rw [hg] at g2; rw [show w = some m by simpa using g2]
          split at h
          · rename_i v hv
            cases h
            have g1 := hs ⟨.dia, false⟩ (by simp)
            have g2 := hs ⟨.inner d, false⟩ (by simp)
            exact ⟨s, by simp only [shape g1 g2, hv], hs⟩
          · rename_i hv
            cases h
            have g1 := hs ⟨.dia, false⟩ (by simp)
            have g2 := hs ⟨.inner d, true⟩ (by simp)
            have gs := shape g1 g2
            refine ⟨_, by simp only [gs, hv]; rfl, ?_⟩
            intro x hx
            simp only [List.mem_cons, List.not_mem_nil, or_false] at hx
            have hos := agree_order g1 ho
            rcases hx with rfl | rfl
            · show List.map _ _ = List.map _ _
              rw [assign_present d (some (mapAssign u 0 m)) (some m) Option.isSome rfl t.dia hm ho, assign_present d (some (mapAssign u 0 m)) (some m) Option.isSome rfl s.dia gs hos]
              exact g1
            · simp only [AgreeOn, mapGet_assign, if_true]
        · rename_i hm
          cases h
          have g1 := hs ⟨.dia, false⟩ (by simp)
          have g := get_shape g1 d
          rw [hm] at g
          have gs : mapGet s.dia d = some none := by
            cases hg : mapGet s.dia d with
            | none => rw [hg] at g; cases g
            | some w =>
              rw [hg] at g
              cases w with
              | none => rfl
              | some _ => simp at g
          exact ⟨s, by simp only [gs], hs⟩
        · rename_i hm
          cases h
          have g1 := hs ⟨.dia, true⟩ (by simp)
          have g := get_shape g1 d
          rw [hm] at g
          have gs : mapGet s.dia d = none := by
            cases hg : mapGet s.dia d with
            | none => rfl
            | some w => rw [hg] at g; cases g
          refine ⟨_, by simp only [gs]; rfl, ?_⟩
          intro x hx
          simp only [List.mem_cons, List.not_mem_nil, or_false] at hx
          subst hx
          exact assign_shape d none g1
      | none =>
        simp only [] at h ⊢
        split at h
        · rename_i v hv
          cases h
          have g : s.main = t.main := hs ⟨.main, false⟩ (by simp)
          exact ⟨s, by simp only [g, hv], hs⟩
        · rename_i hv
          cases h
          have g : s.main = t.main := hs ⟨.main, true⟩ (by simp)
          refine ⟨_, by simp only [g, hv]; rfl, ?_⟩
          intro x hx
          simp only [List.mem_cons, List.not_mem_nil, or_false] at hx
          subst hx
          exact rfl
  | encoding o w =>
    cases w with
    | nil => cases h; exact ⟨s, rfl, by simp⟩
    | cons c cs =>
      have reads : ∀ x ∈ isoEncodeReads t c, AgreeOn s t x.var := by
        simp only [IsoJob.step] at h
        split at h <;> (cases h; exact hs)
      have same : isoEncodeCharSt s c = isoEncodeCharSt t c ∧ isoEncodeReads s c = isoEncodeReads t c := by
        have g : s.main = t.main := reads ⟨.main, false⟩ (by simp [isoEncodeReads])
        unfold isoEncodeCharSt isoEncodeReads
        unfold isoEncodeReads at reads
        rw [g]
        cases hf : isoFind t.main c with
        | some k => exact ⟨rfl, rfl⟩
        | none =>
          simp only [hf] at reads ⊢
          have g1 : AgreeOn s t .dia := reads ⟨.dia, false⟩ (by simp)
          have := findDia_agree c t.dia s.dia ho (Eq.symm g1) (fun d hd => reads ⟨.inner d, false⟩ (by simp [hd]))
          exact ⟨by rw [this.1], by rw [this.2]⟩
      simp only [IsoJob.step] at h ⊢
      rw [same.1, same.2]
      split at h
      · cases h
        exact ⟨s, rfl, hs⟩
      · cases h
        exact ⟨s, rfl, hs⟩
  | decoded => cases h
  | encoded => cases h
  | failed => cases h

/-- C111: every step keeps the order of the map. -/
theorem C111_order (t t' : IsoTables) (j j' : IsoJob) (a : List IsoAccess) (ho : TablesInOrder t) (h : j.step t = some (t', j', a)) : TablesInOrder t' := by
  cases j with
  | start c =>
    simp only [IsoJob.step, Option.some.injEq, Prod.mk.injEq] at h
    obtain ⟨rfl, -, -⟩ := h
    unfold isoEnsure
    split
    · unfold TablesInOrder
      decide +kernel
    · exact ho
  | decoding p o s =>
    cases s with
    | nil => cases h; exact ho
    | cons u us =>
      simp only [IsoJob.step] at h
      split at h
      · cases h; exact ho
      split at h
      · cases h; exact ho
      cases p with
      | some d =>
        simp only [] at h
        split at h
        · split at h
          · cases h; exact ho
          · cases h
            exact (assign_order _ _ _ ho).1
        · cases h; exact ho
        · cases h
          exact (assign_order _ _ _ ho).1
      | none =>
        simp only [] at h
        split at h <;> (cases h; exact ho)
  | encoding o w =>
    cases w with
    | nil => cases h; exact ho
    | cons c cs =>
      simp only [IsoJob.step] at h
      split at h <;> (cases h; exact ho)
  | decoded => cases h
  | encoded => cases h
  | failed => cases h

/-- C111: two steps of different threads whose accesses do not conflict can be made in the other order, with the same accesses, the same results and the same tables
in the end. -/
theorem C111_exchange (t t1 t2 : IsoTables) (i i' j j' : IsoJob) (a b : List IsoAccess) (ho : TablesInOrder t) (h1 : i.step t = some (t1, i', a)) (h2 : j.step t1 = some (t2, j', b))
    (hc : ¬ Conflict a b) : ∃ s1, j.step t = some (s1, j', b) ∧ i.step s1 = some (t2, i', a) := by
  have ho1 := C111_order _ _ _ _ _ ho h1
  have ho2 := C111_order _ _ _ _ _ ho1 h2
  have w1 : ∀ v, (∀ x ∈ a, x.var = v → x.write = false) → AgreeOn t1 t v := by
    intro v hv
    by_contra hn
    have := hv _ (C111_writes _ _ _ _ _ ho h1 v hn) rfl
    cases this
  have w2 : ∀ v, (∀ x ∈ b, x.var = v → x.write = false) → AgreeOn t2 t1 v := by
    intro v hv
    by_contra hn
    have := hv _ (C111_writes _ _ _ _ _ ho1 h2 v hn) rfl
    cases this
  have quietA : ∀ y ∈ b, ∀ x ∈ a, x.var = y.var → x.write = false := by
    intro y hy x hx e
    by_contra hw
    exact hc ⟨x, hx, y, hy, e, .inl (by simpa using hw)⟩
  have quietB : ∀ x ∈ a, ∀ y ∈ b, y.var = x.var → y.write = false := by
    intro x hx y hy e
    by_contra hw
    exact hc ⟨x, hx, y, hy, e.symm, .inr (by simpa using hw)⟩
  obtain ⟨s1, e1, g1⟩ := C111_reads t1 t2 t j j' b ho1 h2 (fun y hy => (w1 _ (quietA y hy)).symm)
  have hos := C111_order _ _ _ _ _ ho e1
  have w3 : ∀ v, (∀ x ∈ b, x.var = v → x.write = false) → AgreeOn s1 t v := by
    intro v hv
    by_contra hn
    have := hv _ (C111_writes _ _ _ _ _ ho e1 v hn) rfl
    cases this
  obtain ⟨s2, e2, g2⟩ := C111_reads t t1 s1 i i' a ho h1 (fun x hx => w3 _ (quietB x hx))
  have w4 : ∀ v, (∀ x ∈ a, x.var = v → x.write = false) → AgreeOn s2 s1 v := by
    intro v hv
    by_contra hn
    have := hv _ (C111_writes _ _ _ _ _ hos e2 v hn) rfl
    cases this
  have : s2 = t2 := by
    refine agree_eq (C111_order _ _ _ _ _ hos e2) ho2 fun v => ?_
    by_cases ha : ∃ x ∈ a, x.var = v
    · obtain ⟨x, hx, rfl⟩ := ha
      exact (g2 x hx).trans (w2 _ (quietB x hx)).symm
    · simp only [not_exists, not_and] at ha
      have k1 := w1 v (fun x hx e => absurd e (ha x hx))
      have k4 := w4 v (fun x hx e => absurd e (ha x hx))
      by_cases hb : ∃ y ∈ b, y.var = v
      · obtain ⟨y, hy, rfl⟩ := hb
        exact k4.trans (g1 y hy)
      · simp only [not_exists, not_and] at hb
        exact k4.trans ((w3 v (fun x hx e => absurd e (hb x hx))).trans (k1.symm.trans (w2 v (fun x hx e => absurd e (hb x hx))).symm))
  subst this
  exact ⟨s1, e1, e2⟩

/-! ### Runs -/

private theorem step_none {t : IsoTables} (s : IsoTables) {j : IsoJob} (h : j.step t = none) : j.step s = none := by
  cases j with
  | start c => cases h
  | decoding p o w =>
    cases w with
    | nil => cases h
    | cons u us =>
      exfalso
      simp only [IsoJob.step] at h
      split at h
      · cases h
      split at h
      · cases h
      cases p with
      | some d =>
        simp only [] at h
        split at h
        · split at h <;> cases h
        · cases h
        · cases h
      | none =>
        simp only [] at h
        split at h <;> cases h
  | encoding o w =>
    cases w with
    | nil => cases h
    | cons c cs =>
      simp only [IsoJob.step] at h
      split at h <;> cases h
  | decoded => rfl
  | encoded => rfl
  | failed => rfl

/-- The step of a thread is that of one of its calls. -/
private theorem thread_job {t t' : IsoTables} {th th' : List IsoJob} {a : List IsoAccess} (h : ThreadStep t th t' th' a) :
    ∃ j j' : IsoJob, j.step t = some (t', j', a) ∧ ∀ s s', j.step s = some (s', j', a) → ThreadStep s th s' th' a := by
  induction h with
  | here h => exact ⟨_, _, h, fun s s' hs => .here hs⟩
  | later hn _ ih =>
    obtain ⟨j, j', h, hg⟩ := ih
    exact ⟨j, j', h, fun s s' hs => .later (step_none s hn) (hg s s' hs)⟩

private theorem thread_exchange {t t1 t2 : IsoTables} {th th' uh uh' : List IsoJob} {a b : List IsoAccess} (ho : TablesInOrder t) (h1 : ThreadStep t th t1 th' a)
    (h2 : ThreadStep t1 uh t2 uh' b) (hc : ¬ Conflict a b) : ∃ s1, ThreadStep t uh s1 uh' b ∧ ThreadStep s1 th t2 th' a := by
  obtain ⟨i, i', hi, gi⟩ := thread_job h1
  obtain ⟨j, j', hj, gj⟩ := thread_job h2
  obtain ⟨s1, e1, e2⟩ := C111_exchange t t1 t2 i i' j j' a b ho hi hj hc
  exact ⟨s1, gj _ _ e1, gi _ _ e2⟩

private theorem thread_order {t t' : IsoTables} {th th' : List IsoJob} {a : List IsoAccess} (ho : TablesInOrder t) (h : ThreadStep t th t' th' a) : TablesInOrder t' := by
  obtain ⟨i, i', hi, -⟩ := thread_job h
  exact C111_order _ _ _ _ _ ho hi

private theorem sched_of {t ths tr t'' ths''} (h : IsoRun t ths tr t'' ths'') : ∃ sch, Scheduled t ths sch t'' ths'' ∧ accesses sch = tr := by
  induction h with
  | nil t ths => exact ⟨[], .nil t ths, rfl⟩
  | step h1 h2 _ ih =>
    obtain ⟨sch, h, e⟩ := ih
    exact ⟨_, .step h1 h2 h, by rw [← e]; rfl⟩

private theorem run_of {t ths sch t'' ths''} (h : Scheduled t ths sch t'' ths'') : IsoRun t ths (accesses sch) t'' ths'' := by
  induction h with
  | nil t ths => exact .nil t ths
  | step h1 h2 _ ih => exact .step h1 h2 ih

/-- A step made before steps of threads with smaller numbers can be made after them. -/
private theorem insert_step {i : Nat} {a : List IsoAccess} (sch : List (Nat × List IsoAccess)) {t t1 t'' ths th th' ths''} (ho : TablesInOrder t) (hi : ths[i]? = some th) (h1 : ThreadStep t th t1 th' a)
    (h : Scheduled t1 (ths.set i th') sch t'' ths'') (hs : (sch.map Prod.fst).Pairwise (· ≤ ·)) (hc : ∀ s ∈ sch, s.1 ≠ i → ¬ Conflict a s.2) :
    ∃ sch', Scheduled t ths sch' t'' ths'' ∧ (sch'.map Prod.fst).Pairwise (· ≤ ·) ∧ (∀ k, sch'.filter (fun s => s.1 == k) = ((i, a) :: sch).filter (fun s => s.1 == k)) ∧
      ∀ k, k ∈ sch'.map Prod.fst ↔ k = i ∨ k ∈ sch.map Prod.fst := by
  induction sch generalizing t t1 ths th th' with
  | nil =>
    cases h
    exact ⟨[(i, a)], .step hi h1 (.nil _ _), by simp, fun k => rfl, by simp⟩
  | cons s sch ih =>
    obtain ⟨j, b⟩ := s
    by_cases hj : i ≤ j
    · refine ⟨(i, a) :: (j, b) :: sch, .step hi h1 h, ?_, fun k => rfl, by simp⟩
      rw [List.map_cons, List.pairwise_cons]
      refine ⟨?_, hs⟩
      intro k hk
      rw [List.map_cons, List.pairwise_cons] at hs
      rcases List.mem_cons.1 hk with rfl | hk
      · exact hj
      · exact Nat.le_trans hj (hs.1 k hk)
    · have hne : j ≠ i := by omega
      cases h with
      | @step _ _ _ uh t2 uh' _ _ _ _ hg h2 hrest =>
        rw [List.getElem?_set_ne (Ne.symm hne)] at hg
        obtain ⟨s1, e1, e2⟩ := thread_exchange ho h1 h2 (hc (j, b) (by simp) hne)
        rw [List.map_cons, List.pairwise_cons] at hs
        have hi' : (ths.set j uh')[i]? = some th := by rw [List.getElem?_set_ne hne]; exact hi
        obtain ⟨sch', k1, k2, k3, k4⟩ := ih (thread_order ho e1) hi' e2 (by rw [List.set_comm _ _ hne]; exact hrest) hs.2 (fun s hs' => hc s (List.mem_cons_of_mem _ hs'))
        refine ⟨(j, b) :: sch', .step hg e1 k1, ?_, ?_, ?_⟩
        · rw [List.map_cons, List.pairwise_cons]
          refine ⟨?_, k2⟩
          intro k hk
          rcases (k4 k).1 hk with rfl | hk
          · omega
          · exact hs.1 k hk
        · intro k
          have := k3 k
          simp only [List.filter_cons] at this ⊢
          rw [this]
          by_cases e1 : (i == k) = true
          · have e2 : (j == k) = false := by
              simp only [beq_iff_eq] at e1
              simp only [beq_eq_false_iff_ne]
              omega
            simp [e1, e2]
          · simp [e1]
        · intro k
          simp only [List.map_cons, List.mem_cons, k4 k]
          constructor
          · rintro (h | h | h)
            · exact .inr (.inl h)
            · exact .inl h
            · exact .inr (.inr h)
          · rintro (h | h | h)
            · exact .inr (.inl h)
            · exact .inl h
            · exact .inr (.inr h)

/-- C111: a run without a data race is like one in which each thread makes all its steps before the next begins: the calls return the same and the tables are the same
in the end, and each thread makes the same steps with the same accesses. -/
theorem C111_serial (t : IsoTables) (ths : List (List IsoJob)) (sch : List (Nat × List IsoAccess)) (t'' : IsoTables) (ths'' : List (List IsoJob)) (ho : TablesInOrder t)
    (h : Scheduled t ths sch t'' ths'') (hr : ¬ Racy (accesses sch)) :
    ∃ sch', Scheduled t ths sch' t'' ths'' ∧ (sch'.map Prod.fst).Pairwise (· ≤ ·) ∧ ∀ k, sch'.filter (fun s => s.1 == k) = sch.filter (fun s => s.1 == k) := by
  induction h with
  | nil t ths => exact ⟨[], .nil t ths, by simp, fun k => rfl⟩
  | @step t ths i th t1 th' a sch t'' ths'' h1 h2 _ ih =>
    have mem : ∀ {s : Nat × List IsoAccess} {x : IsoAccess}, s ∈ (i, a) :: sch → x ∈ s.2 → (s.1, x) ∈ accesses ((i, a) :: sch) := by
      intro s x hs hx
      simp only [accesses, List.mem_flatten, List.mem_map]
      exact ⟨_, ⟨s, hs, rfl⟩, List.mem_map.2 ⟨x, hx, rfl⟩⟩
    obtain ⟨sch', k1, k2, k3⟩ := ih (thread_order ho h2) (by
      rintro ⟨p, q, x, y, hx, hy, r⟩
      have sub : ∀ z ∈ accesses sch, z ∈ accesses ((i, a) :: sch) := by
        intro z hz
        simp only [accesses, List.map_cons, List.flatten_cons, List.mem_append]
        exact .inr hz
      exact hr ⟨p, q, x, y, sub _ hx, sub _ hy, r⟩)
    have back : ∀ s ∈ sch', s ∈ sch := by
      intro s hs
      have : s ∈ sch'.filter (fun z => z.1 == s.1) := by simp [hs]
      rw [k3] at this
      exact (List.mem_filter.1 this).1
    obtain ⟨sch'', m1, m2, m3, -⟩ := insert_step sch' ho h1 h2 k1 k2 (by
      rintro s hs hne ⟨x, hx, y, hy, e, w⟩
      exact hr ⟨i, s.1, x, y, mem (s := (i, a)) (by simp) hx, mem (by simp [back s hs]) hy, Ne.symm hne, e, w⟩)
    refine ⟨sch'', m1, m2, fun k => ?_⟩
    rw [m3, List.filter_cons, List.filter_cons, k3]

/-- C111: the runs are those that have a schedule. -/
theorem C111_scheduled (t : IsoTables) (ths : List (List IsoJob)) (tr : List (Nat × IsoAccess)) (t'' : IsoTables) (ths'' : List (List IsoJob)) :
    IsoRun t ths tr t'' ths'' ↔ ∃ sch, Scheduled t ths sch t'' ths'' ∧ accesses sch = tr :=
  ⟨sched_of, fun ⟨_, h, e⟩ => e ▸ run_of h⟩

private theorem decode_order (s : Str) : ∀ {t t' p o w}, TablesInOrder t → isoDecodeLoop t p o s = .ok (t', w) → TablesInOrder t' := by
  induction s with
  | nil =>
    intro t t' p o w ho h
    cases h
    exact ho
  | cons u us ih =>
    intro t t' p o w ho h
    rw [isoDecodeLoop.eq_def] at h
    simp only [] at h
    split at h
    · cases h; exact ho
    split at h
    · exact ih ho h
    rename_i g0 g1
    have g := h
    cases p with
    | some d =>
      simp only [] at g
      split at g
      · split at g
        · exact ih ho g
        · exact ih (t := ⟨_, _⟩) (assign_order _ _ _ ho).1 g
      · cases g
    | none =>
      simp only [] at g
      split at g
      · exact ih ho g
      · exact ih (t := ⟨mapAssign u 0 t.main, t.dia⟩) ho g

private theorem ensure_order {t : IsoTables} (ho : TablesInOrder t) : TablesInOrder (isoEnsure t) := by
  unfold isoEnsure
  split
  · unfold TablesInOrder
    decide +kernel
  · exact ho

/-- C111: the map is in order whatever has been converted before. -/
theorem C111_inOrder (t : IsoTables) (h : IsoReach t) : TablesInOrder t := by
  induction h with
  | start => exact List.Pairwise.nil
  | decode _ h ih => exact decode_order _ (ensure_order ih) h
  | encode _ h ih =>
    unfold isoEncodeSt at h
    obtain ⟨o, -, h⟩ := bind_eq_ok.1 h
    cases h
    exact ensure_order ih

/-! ### Examples -/

private theorem exEmpty : TablesInOrder {} := C111_inOrder _ .start

-- the first call makes the tables: a write to all of them
example : ∃ t' j' a, (IsoJob.start (.encode [65])).step {} = some (t', j', a) ∧ ¬ AgreeOn t' {} .main ∧ ⟨.main, true⟩ ∈ a := by
  have h : (IsoJob.start (.encode [65])).step {} = some (isoMade, .encoding [] [65], ⟨.dia, false⟩ :: isoMakeWrites) := by decide +kernel
  have hm : ¬ AgreeOn isoMade {} .main := by
    show ¬ isoMade.main = []
    decide +kernel
  exact ⟨_, _, _, h, hm, C111_writes {} isoMade _ _ _ exEmpty h .main hm⟩

-- an "A" is decoded alike whatever there is in the other tables
private theorem exOther (m : List (Byte × WChar)) (x : List (Byte × Option (List (Byte × WChar)))) (hm : mapGet m 65 = some 65) :
    ∃ s', (IsoJob.decoding none [] [65]).step ⟨m, x⟩ = some (s', .decoding none [65] [], [⟨.main, false⟩]) := by
  have h : (IsoJob.decoding none [] [65]).step ⟨m, []⟩ = some (⟨m, []⟩, .decoding none [65] [], [⟨.main, false⟩]) := by
    simp only [IsoJob.step, hm]
    rfl
  obtain ⟨s', h, -⟩ := C111_reads ⟨m, []⟩ ⟨m, []⟩ ⟨m, x⟩ _ _ _ List.Pairwise.nil h (by
    intro y hy
    simp only [List.mem_cons, List.not_mem_nil, or_false] at hy
    subst hy
    rfl)
  exact ⟨s', h⟩

example : ∃ s', (IsoJob.decoding none [] [65]).step isoMade = some (s', .decoding none [65] [], [⟨.main, false⟩]) := exOther _ _ (by decide +kernel)

-- byte 1 is not in the main table and is added to it; "Ä" reads the table of the diaeresis
private theorem exSteps : (IsoJob.decoding none [] [1]).step isoMade = some ({ isoMade with main := mapAssign 1 0 isoMade.main }, .decoding none [0] [], [⟨.main, true⟩]) ∧
    (IsoJob.decoding (some 0xC8) [] [65]).step { isoMade with main := mapAssign 1 0 isoMade.main } =
      some ({ isoMade with main := mapAssign 1 0 isoMade.main }, .decoding none [0xC4] [], [⟨.dia, false⟩, ⟨.inner 0xC8, false⟩]) := by
  decide +kernel

example : ∃ s1, (IsoJob.decoding (some 0xC8) [] [65]).step isoMade = some (s1, .decoding none [0xC4] [], [⟨.dia, false⟩, ⟨.inner 0xC8, false⟩]) ∧
    (IsoJob.decoding none [] [1]).step s1 = some ({ isoMade with main := mapAssign 1 0 isoMade.main }, .decoding none [0] [], [⟨.main, true⟩]) := by
  refine C111_exchange isoMade _ _ _ _ _ _ _ _ (by unfold TablesInOrder; decide +kernel) exSteps.1 exSteps.2 ?_
  rintro ⟨x, hx, y, hy, e, -⟩
  simp only [List.mem_cons, List.not_mem_nil, or_false] at hx hy
  subst hx
  rcases hy with rfl | rfl <;> cases e

-- thread 1 before thread 0, which can be reordered
private theorem exSched : Scheduled isoMade [[.decoding (some 0xC8) [] [65]], [.decoding none [] [1]]] [(1, [⟨.main, true⟩]), (0, [⟨.dia, false⟩, ⟨.inner 0xC8, false⟩])]
    { isoMade with main := mapAssign 1 0 isoMade.main } [[.decoding none [0xC4] []], [.decoding none [0] []]] :=
  .step (th := [.decoding none [] [1]]) rfl (.here exSteps.1) (.step (th := [.decoding (some 0xC8) [] [65]]) rfl (.here exSteps.2) (.nil _ _))

example : ∃ sch', Scheduled isoMade [[.decoding (some 0xC8) [] [65]], [.decoding none [] [1]]] sch' { isoMade with main := mapAssign 1 0 isoMade.main }
    [[.decoding none [0xC4] []], [.decoding none [0] []]] ∧ (sch'.map Prod.fst).Pairwise (· ≤ ·) := by
  obtain ⟨sch', h1, h2, -⟩ := C111_serial _ _ _ _ _ (by unfold TablesInOrder; decide +kernel) exSched (by
    rintro ⟨i, j, x, y, hx, hy, hne, e, hw⟩
    simp only [accesses, List.map_cons, List.map_nil, List.flatten_cons, List.flatten_nil, List.append_nil, List.mem_append, List.mem_cons, List.not_mem_nil, or_false, Prod.mk.injEq] at hx hy
    rcases hx with ⟨rfl, rfl⟩ | ⟨rfl, rfl⟩ | ⟨rfl, rfl⟩ <;> rcases hy with ⟨rfl, rfl⟩ | ⟨rfl, rfl⟩ | ⟨rfl, rfl⟩ <;> first | exact hne rfl | cases e)
  exact ⟨sch', h1, h2⟩

example : IsoRun isoMade [[.decoding (some 0xC8) [] [65]], [.decoding none [] [1]]] [(1, ⟨.main, true⟩), (0, ⟨.dia, false⟩), (0, ⟨.inner 0xC8, false⟩)]
    { isoMade with main := mapAssign 1 0 isoMade.main } [[.decoding none [0xC4] []], [.decoding none [0] []]] := (C111_scheduled _ _ _ _ _).2 ⟨_, exSched, rfl⟩

end LibSub
