/-
Lemmas about the ISO 6937 tables as mutable state.
-/
import Verif.Spec.Iso6937
import Verif.Lemmas.Time
import Verif.Lemmas.Text

namespace LibSub

/-! ### Maps -/

theorem mapGet_assign {α : Type} (k : Byte) (v : α) (k' : Byte) : ∀ m, mapGet (mapAssign k v m) k' = if k = k' then some v else mapGet m k' := by
  intro m
  induction m with
  | nil => simp [mapAssign, mapGet]
  | cons p m ih =>
    obtain ⟨a, b⟩ := p
    unfold mapAssign
    split
    · rename_i h; subst h
      simp only [mapGet]
      split <;> rfl
    · split
      · simp only [mapGet]
      · rename_i h _
        simp only [mapGet, ih]
        split
        · rename_i h2; subst h2; rw [if_neg h]
        · rfl

/-- The entries that `find` can return for a non-zero character. -/
def solid (m : List (Byte × WChar)) : List (Byte × WChar) := m.filter (fun kv => kv.2 ≠ 0)

theorem solid_assign_zero (k : Byte) : ∀ m : List (Byte × WChar), mapGet m k = none → solid (mapAssign k 0 m) = solid m := by
  intro m
  induction m with
  | nil => intro _; rfl
  | cons p m ih =>
    obtain ⟨a, b⟩ := p
    intro h
    simp only [mapGet] at h
    split at h
    · cases h
    · rename_i hk
      unfold mapAssign
      rw [if_neg (fun e => hk e.symm)]
      split
      · simp [solid]
      · have := ih h
        simp only [solid, List.filter_cons] at this ⊢
        rw [this]

theorem isoFind_solid (c : WChar) (hc : c ≠ 0) : ∀ m, isoFind m c = isoFind (solid m) c := by
  intro m
  induction m with
  | nil => rfl
  | cons p m ih =>
    obtain ⟨a, b⟩ := p
    by_cases hb : b = 0
    · subst hb
      simp only [isoFind, solid, List.filter_cons]
      rw [if_neg (fun e => hc e.symm)]
      simpa [solid] using ih
    · simp only [isoFind, solid, List.filter_cons]
      rw [if_pos (by simp [hb] : decide ((a, b).2 ≠ 0) = true)]
      simp only [isoFind]
      rw [ih]; rfl

/-- Two tables that differ only in entries of zero. -/
structure SameMap (m m0 : List (Byte × WChar)) : Prop where
  solid_eq : solid m = solid m0
  get_eq : ∀ k, (mapGet m k).getD 0 = (mapGet m0 k).getD 0

theorem SameMap.refl (m) : SameMap m m := ⟨rfl, fun _ => rfl⟩

theorem SameMap.assign {m m0} (h : SameMap m m0) (k) (hk : mapGet m k = none) : SameMap (mapAssign k 0 m) m0 := by
  refine ⟨(solid_assign_zero k m hk).trans h.solid_eq, fun k' => ?_⟩
  rw [mapGet_assign, ← h.get_eq]
  split
  · rename_i e; subst e; rw [hk]; rfl
  · rfl

/-- Two maps of tables with the same keys, no null pointers, and tables that differ only in entries of zero. -/
inductive SameDia : List (Byte × Option (List (Byte × WChar))) → List (Byte × Option (List (Byte × WChar))) → Prop where
  | nil : SameDia [] []
  | cons {k m m0 l l0} : SameMap m m0 → SameDia l l0 → SameDia ((k, some m) :: l) ((k, some m0) :: l0)

theorem SameDia.get {l l0} (h : SameDia l l0) (d : Byte) :
    (mapGet l d = none ∧ mapGet l0 d = none) ∨ ∃ m m0, mapGet l d = some (some m) ∧ mapGet l0 d = some (some m0) ∧ SameMap m m0 := by
  induction h with
  | nil => exact .inl ⟨rfl, rfl⟩
  | cons hm _ ih =>
    simp only [mapGet]
    split
    · exact .inr ⟨_, _, rfl, rfl, hm⟩
    · exact ih

/-- Keys in iteration order. -/
def keysSorted {α : Type} (l : List (Byte × α)) : Prop := (l.map (fun kv => charRank kv.1)).Pairwise (· < ·)

theorem SameDia.keys {l l0} (h : SameDia l l0) : l.map (·.1) = l0.map (·.1) := by
  induction h with
  | nil => rfl
  | cons _ _ ih => simp [ih]

theorem SameDia.assign {l l0 : List (Byte × Option (List (Byte × WChar)))} {m m0 d} (h : SameDia l l0) (hs : keysSorted l0)
    (h0 : mapGet l0 d = some (some m0)) (hm : SameMap m m0) : SameDia (mapAssign d (some m) l) l0 := by
  induction h with
  | nil => cases h0
  | @cons k m1 m2 l l0 hm1 hl ih =>
    unfold mapAssign
    simp only [mapGet] at h0
    split at h0
    · rename_i e; subst e; cases h0
      rw [if_pos rfl]
      exact .cons hm hl
    · rename_i e
      rw [if_neg (fun x => e x.symm)]
      have hs' := List.pairwise_cons.mp hs
      have hlt : charRank k < charRank d := by
        refine hs'.1 _ ?_
        have : ∀ l0 : List (Byte × Option (List (Byte × WChar))), ∀ v, mapGet l0 d = some v → charRank d ∈ l0.map (fun kv => charRank kv.1) := by
          intro l0
          induction l0 with
          | nil => intro v hv; cases hv
          | cons p l0 ih =>
            intro v hv
            simp only [mapGet] at hv
            split at hv
            · rename_i e; simp [e]
            · simp only [List.map_cons, List.mem_cons]; exact .inr (ih v hv)
        exact this _ _ h0
      rw [if_neg (by omega)]
      exact .cons hm1 (ih hs'.2 h0)

theorem isoFindDia_same (c : WChar) (hc : c ≠ 0) {l l0} (h : SameDia l l0) : isoFindDia c l = isoFindDia c l0 := by
  induction h with
  | nil => rfl
  | cons hm _ ih =>
    simp only [isoFindDia]
    rw [isoFind_solid c hc, hm.solid_eq, ← isoFind_solid c hc, ih]

/-- What every reachable state that has tables has in common with fresh tables. -/
structure SameTables (t : IsoTables) : Prop where
  main : SameMap t.main isoMade.main
  dia : SameDia t.dia isoMade.dia

theorem isoMade_main : isoMade.main = mapOf isoMain := by simp only [isoMade]

theorem isoMade_dia : isoMade.dia = mapOf (isoDiacriticals.map (fun kv => (kv.1, some (mapOf kv.2)))) := by simp only [isoMade]

theorem isoEnsure_start : isoEnsure {} = isoMade := if_pos (show ([] : List (Byte × Option (List (Byte × WChar)))).isEmpty = true from rfl)

theorem isoMade_sorted : keysSorted isoMade.dia := by unfold keysSorted; decide +kernel

theorem sameDia_refl : ∀ l : List (Byte × Option (List (Byte × WChar))), (∀ kv ∈ l, kv.2.isSome = true) → SameDia l l := by
  intro l
  induction l with
  | nil => intro _; exact .nil
  | cons p l ih =>
    intro h
    obtain ⟨k, v⟩ := p
    cases v with
    | none => exact absurd (h (k, none) (by simp)) (by simp)
    | some m => exact .cons (.refl m) (ih (fun kv hkv => h kv (by simp [hkv])))

theorem sameTables_made : SameTables isoMade := ⟨.refl _, sameDia_refl _ (by decide +kernel)⟩

theorem SameTables.not_empty {t} (h : SameTables t) : t.dia.isEmpty = false := by
  have := h.dia.keys
  cases ht : t.dia with
  | nil => rw [ht] at this; exact absurd this (by decide +kernel)
  | cons => rfl

theorem SameTables.ensure {t} (h : SameTables t) : isoEnsure t = t := by unfold isoEnsure; rw [h.not_empty]; rfl

theorem isDiacritical_iff (u : Byte) : isDiacritical u = true ↔ Diacritic u := by
  simp [isDiacritical, Diacritic]

theorem mainChar_eq (u : Byte) : (mapGet isoMade.main u).getD 0 = mainChar u :=
  forall_byte (p := fun u => (mapGet isoMade.main u).getD 0 = mainChar u) (by decide +kernel) u

/-- The tables reachable through `diacriticals` are those of the source. -/
theorem dia_eq (d : Byte) : (∀ u, (mapGet isoMade.dia d).join.map (fun m => (mapGet m u).getD 0) = accented d u) := by
  have h : isoMade.dia = isoDiacriticals.map (fun kv => (kv.1, some (mapOf kv.2))) := by decide +kernel
  have hget : ∀ l : List (Byte × List (Byte × WChar)), (∀ kv ∈ l, ∀ u, (mapGet (mapOf kv.2) u).getD 0 = (kv.2.lookup u).getD 0) →
      ∀ u, (mapGet (l.map (fun kv => (kv.1, some (mapOf kv.2)))) d).join.map (fun m => (mapGet m u).getD 0) =
        (l.lookup d).map (fun l => (l.lookup u).getD 0) := by
    intro l
    induction l with
    | nil => intro _ u; rfl
    | cons kv l ih =>
      intro hl u
      have hl0 := hl kv (by simp) u
      obtain ⟨k, tb⟩ := kv
      simp only [List.map_cons, mapGet, List.lookup_cons]
      by_cases e : k = d
      · rw [if_pos e, beq_iff_eq.mpr e.symm]
        simpa using hl0
      · rw [if_neg e, beq_eq_false_iff_ne.mpr (fun x => e x.symm)]
        exact ih (fun kv h => hl kv (by simp [h])) u
  intro u
  rw [h]
  refine hget _ ?_ u
  intro kv hkv u
  revert kv
  refine forall_byte (p := fun u => ∀ kv ∈ isoDiacriticals, (mapGet (mapOf kv.2) u).getD 0 = (kv.2.lookup u).getD 0) (by decide +kernel) u

/-- Decoding without state, in terms of the tables of the source. -/
def isoPure (p : Option Byte) : Str → R (List WChar)
  | [] => .ok []
  | u :: us =>
    if u = 0 then .ok []
    else if isDiacritical u then isoPure (some u) us
    else
      match p with
      | some d =>
        match accented d u with
        | some c => do
          let r ← isoPure none us
          pure (c :: r)
        | none => .error (.ub .nullDeref)
      | none => do
        let r ← isoPure none us
        pure (mainChar u :: r)

theorem isoPure_cons (p : Option Byte) (u : Byte) (us : Str) : isoPure p (u :: us) =
    (if u = 0 then .ok []
    else if isDiacritical u then isoPure (some u) us
    else
      match p with
      | some d =>
        match accented d u with
        | some c => do
          let r ← isoPure none us
          pure (c :: r)
        | none => .error (.ub .nullDeref)
      | none => do
        let r ← isoPure none us
        pure (mainChar u :: r)) := by
  rw [isoPure.eq_def]

/-- Decoding in any state that differs from fresh tables only in entries of zero. -/
theorem isoDecodeLoop_pure (s : Str) : ∀ t, SameTables t → ∀ p o,
    match isoPure p s with
    | .ok w => ∃ t', isoDecodeLoop t p o s = .ok (t', o ++ w) ∧ SameTables t'
    | .error e => isoDecodeLoop t p o s = .error e := by
  induction s with
  | nil => intro t ht p o; simp only [isoPure, isoDecodeLoop]; exact ⟨t, by simp, ht⟩
  | cons u us ih =>
    intro t ht p o
    simp only [isoPure, isoDecodeLoop]
    by_cases h0 : u = 0
    · simp only [if_pos h0]; exact ⟨t, by simp, ht⟩
    · simp only [if_neg h0]
      by_cases hd : isDiacritical u = true
      · simp only [if_pos hd]; exact ih t ht (some u) o
      · simp only [if_neg hd]
        cases p with
        | none =>
          simp only
          have hm : (mapGet t.main u).getD 0 = mainChar u := (ht.main.get_eq u).trans (mainChar_eq u)
          cases hg : mapGet t.main u with
          | some v =>
            rw [hg] at hm
            simp only [Option.getD_some] at hm
            have := ih t ht none (o ++ [v])
            subst hm
            cases hp : isoPure none us with
            | ok w => rw [hp] at this; simpa [hp, ok_bind, pure_eq_ok] using this
            | error e => rw [hp] at this; simpa [hp, error_bind] using this
          | none =>
            rw [hg] at hm
            simp only [Option.getD_none] at hm
            have := ih { t with main := mapAssign u 0 t.main } ⟨ht.main.assign u hg, ht.dia⟩ none (o ++ [0])
            rw [← hm]
            cases hp : isoPure none us with
            | ok w => rw [hp] at this; simpa [hp, ok_bind, pure_eq_ok] using this
            | error e => rw [hp] at this; simpa [hp, error_bind] using this
        | some d =>
          simp only
          have hacc := dia_eq d u
          rcases ht.dia.get d with ⟨g1, g2⟩ | ⟨m, m0, g1, g2, hm⟩
          · rw [g2] at hacc
            rw [← hacc, g1]
            rfl
          · rw [g2] at hacc
            simp only [Option.join_some, Option.map_some] at hacc
            rw [← hacc, ← hm.get_eq, g1]
            simp only
            cases hg : mapGet m u with
            | some v =>
              have := ih t ht none (o ++ [v])
              cases hp : isoPure none us with
              | ok w => rw [hp] at this; simpa [hp, ok_bind, pure_eq_ok] using this
              | error e => rw [hp] at this; simpa [hp, error_bind] using this
            | none =>
              have := ih { t with dia := mapAssign d (some (mapAssign u 0 m)) t.dia }
                ⟨ht.main, ht.dia.assign isoMade_sorted g2 (hm.assign u hg)⟩ none (o ++ [0])
              cases hp : isoPure none us with
              | ok w => rw [hp] at this; simpa [hp, ok_bind, pure_eq_ok] using this
              | error e => rw [hp] at this; simpa [hp, error_bind] using this

/-- A reachable state has no tables, or tables like fresh ones. -/
theorem IsoReach.same {t} (h : IsoReach t) : SameTables (isoEnsure t) := by
  induction h with
  | start => exact sameTables_made
  | @decode t t' s o _ hs ih =>
    unfold isoDecodeSt at hs
    have := isoDecodeLoop_pure s _ ih none []
    cases hp : isoPure none s with
    | error e => rw [hp] at this; simp only at this; rw [this] at hs; cases hs
    | ok w =>
      rw [hp] at this
      obtain ⟨t1, h1, h2⟩ := this
      rw [h1] at hs
      cases hs
      rw [h2.ensure]; exact h2
  | @encode t t' s o _ hs ih =>
    unfold isoEncodeSt at hs
    obtain ⟨_, _, h2⟩ := bind_eq_ok.mp hs
    cases h2
    rw [ih.ensure]; exact ih

end LibSub
