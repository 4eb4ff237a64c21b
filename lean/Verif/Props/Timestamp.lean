/-
Properties C21 and C22: time stamps of SubRip and WebVTT files.
-/
import Verif.Model.SubRip
import Verif.Lemmas.Split
import Verif.Props.Print
import Mathlib.Data.Nat.Digits.Defs

namespace LibSub

/-! ### Specification -/

/-- Value of a string of decimal digits. -/
def textVal (ds : Str) : Nat := Nat.ofDigits 10 (ds.reverse.map (fun c => c.toNat - 48))

/-- `s` is a decimal integer with optional sign, of value `v`, which an `int` can hold. -/
def IntText (s : Str) (v : Int) : Prop :=
  (-(2 ^ 31) ≤ v ∧ v < 2 ^ 31) ∧ ∃ ds : Str, ds ≠ [] ∧ (∀ c ∈ ds, c ∈ b!"0123456789") ∧
    (((s = ds ∨ s = 43 :: ds) ∧ v = textVal ds) ∨ (s = 45 :: ds ∧ v = -(textVal ds : Int)))

theorem isDigit_iff_mem (c : Byte) : isDigit c = true ↔ c ∈ b!"0123456789" :=
  forall_byte (p := fun c => isDigit c = true ↔ c ∈ b!"0123456789") (by decide +kernel) c

theorem digitVal_toNat {c : Byte} (h : isDigit c = true) : digitVal c = c.toNat - 48 :=
  forall_byte (p := fun c => isDigit c = true → digitVal c = c.toNat - 48) (by decide +kernel) c h

theorem decVal_textVal {ds : Str} (h : ∀ c ∈ ds, isDigit c = true) : decVal ds = textVal ds := by
  induction ds using List.reverseRecOn with
  | nil => rfl
  | append_singleton ds c ih =>
    rw [decVal_append, ih (fun c hc => h c (by simp [hc]))]
    unfold textVal
    rw [List.reverse_append, List.reverse_singleton, List.singleton_append, List.map_cons, Nat.ofDigits_cons]
    have := digitVal_toNat (h c (by simp))
    have e : decVal [c] = digitVal c := by show 10 * 0 + digitVal c = _; omega
    rw [e, this]
    simp
    ring

/-- What `lexical_cast<int>` accepts. -/
theorem lexicalCastInt_iff (s : Str) (v : Int) : lexicalCastInt s = .ok v ↔ IntText s v := by
  have main : ∀ (neg : Bool) (ds : Str), (ds.isEmpty || !ds.all isDigit) = false ↔ (ds ≠ [] ∧ ∀ c ∈ ds, c ∈ b!"0123456789") := by
    intro _ ds
    simp only [Bool.or_eq_false_iff, List.isEmpty_eq_false_iff, Bool.not_eq_false', List.all_eq_true, isDigit_iff_mem]
  unfold lexicalCastInt
  constructor
  · intro h
    generalize hts : takeSign s = ts at h
    obtain ⟨neg, ds⟩ := ts
    simp only at h
    split at h
    · cases h
    · rename_i hc
      have hc := (main neg ds).1 (by simpa using hc)
      have hd : ∀ c ∈ ds, isDigit c = true := fun c hc' => (isDigit_iff_mem c).2 (hc.2 c hc')
      generalize hv : (if neg = true then -(decVal ds : Int) else (decVal ds : Int)) = v' at h
      split at h
      · rename_i hin
        cases h
        refine ⟨⟨by have := hin.1; omega, by have := hin.2; omega⟩, ds, hc.1, hc.2, ?_⟩
        rw [decVal_textVal hd] at hv
        unfold takeSign at hts
        split at hts
        · cases hts; exact .inr ⟨rfl, hv.symm⟩
        · cases hts; exact .inl ⟨.inr rfl, hv.symm⟩
        · cases hts; exact .inl ⟨.inl rfl, hv.symm⟩
      · cases h
  · rintro ⟨⟨h1, h2⟩, ds, hne, hd, h⟩
    have hd' : ∀ c ∈ ds, isDigit c = true := fun c hc' => (isDigit_iff_mem c).2 (hd c hc')
    rcases h with ⟨rfl | rfl, rfl⟩ | ⟨rfl, rfl⟩
    · rw [takeSign_digits hd']
      simp only [(main false s).2 ⟨hne, hd⟩, Bool.false_eq_true, if_false, decVal_textVal hd']
      rw [if_pos ⟨by omega, by omega⟩]
    · rw [show takeSign (43 :: ds) = (false, ds) from rfl]
      simp only [(main false ds).2 ⟨hne, hd⟩, Bool.false_eq_true, if_false, decVal_textVal hd']
      rw [if_pos ⟨by omega, by omega⟩]
    · rw [show takeSign (45 :: ds) = (true, ds) from rfl]
      simp only [(main false ds).2 ⟨hne, hd⟩, Bool.false_eq_true, if_false, if_true, decVal_textVal hd']
      rw [if_pos ⟨by omega, by omega⟩]

theorem lexicalCastInt_error (s : Str) (h : ∀ v, ¬ IntText s v) : lexicalCastInt s = .error .badLexicalCast := by
  cases hs : lexicalCastInt s with
  | ok v => exact absurd ((lexicalCastInt_iff s v).1 hs) (h v)
  | error e =>
    unfold lexicalCastInt at hs
    simp only at hs
    split at hs
    · cases hs; rfl
    · generalize (if (takeSign s).1 = true then -(decVal (takeSign s).2 : Int) else (decVal (takeSign s).2 : Int)) = v' at hs
      split at hs
      · cases hs
      · cases hs; rfl

theorem IntText.unique {s : Str} {v w : Int} (h : IntText s v) (h' : IntText s w) : v = w := by
  rw [← lexicalCastInt_iff] at h h'
  rw [h] at h'
  cases h'
  rfl

/-! ### C22  grammar -/

private theorem noColon {a : Str} (h : (58 : Byte) ∉ a) : ∀ c ∈ a, (c == 58) = false := by
  intro c hc
  simp only [beq_eq_false_iff_ne]
  rintro rfl
  exact h hc

private theorem noSep {a : Str} {sep : Byte} (h : sep ∉ a) : ∀ c ∈ a, ([sep].contains c) = false := by
  intro c hc
  simp only [List.contains_eq_mem, List.mem_singleton, decide_eq_false_iff_not]
  rintro rfl
  exact h hc

private theorem split3 {a b c : Str} (ha : (58 : Byte) ∉ a) (hb : (58 : Byte) ∉ b) (hc : (58 : Byte) ∉ c) :
    splitAny (· == 58) (a ++ 58 :: (b ++ 58 :: c)) = [a, b, c] := by
  rw [splitAny_append (noColon ha) (by decide), splitAny_append (noColon hb) (by decide), splitAny_noSep (noColon hc)]

private theorem split2 {c d : Str} {sep : Byte} (hc : sep ∉ c) (hd : sep ∉ d) :
    splitAny (fun x => [sep].contains x) (c ++ sep :: d) = [c, d] := by
  rw [splitAny_append (noSep hc) (by simp), splitAny_noSep (noSep hd)]

/-- The failure of the given kind is the answer, unless `h:m:s` overflows `int`. -/
theorem C22_wrong_colons (t : Str) (sep : Byte) (h : t.count 58 ≠ 2) :
    convertTime t [sep] = .ok (.error b!"time in the format h:m:s,ms") := by
  have hl := splitAny_length (· == 58) t
  rw [← List.count] at hl
  unfold convertTime
  split
  · rename_i he
    rw [he] at hl
    simp at hl
    omega
  · rfl

example : convertTime b!"1:2" b!"," = .ok (.error b!"time in the format h:m:s,ms") := C22_wrong_colons b!"1:2" 44 (by decide)

/-- C22: two colons, but the part after the last one does not have exactly one separator. -/
theorem C22_wrong_separators (a b c : Str) (sep : Byte) (ha : (58 : Byte) ∉ a) (hb : (58 : Byte) ∉ b) (hc : (58 : Byte) ∉ c)
    (h : c.count sep ≠ 1) :
    convertTime (a ++ 58 :: (b ++ 58 :: c)) [sep] = .ok (.error (b!"time in the format h:m:s" ++ [sep] ++ b!"ms")) := by
  unfold convertTime
  rw [split3 ha hb hc]
  have hl := splitAny_length (fun x => [sep].contains x) c
  have e : c.countP (fun x => [sep].contains x) = c.count sep := by
    rw [List.count]
    congr 1
    funext x
    rw [Bool.eq_iff_iff]
    simp
  rw [e] at hl
  simp only
  split
  · rename_i he
    rw [he] at hl
    simp at hl
    omega
  · rfl

example : convertTime b!"1:2:3.4" b!"," = .ok (.error b!"time in the format h:m:s,ms") := C22_wrong_separators b!"1" b!"2" b!"3.4" 44 (by decide) (by decide) (by decide) (by decide)

/-- C22: the right shape; the first part that is not an integer is named. -/
theorem C22_wrong_field (a b c d : Str) (sep : Byte) (ha : (58 : Byte) ∉ a) (hb : (58 : Byte) ∉ b) (hc : (58 : Byte) ∉ c)
    (hd : (58 : Byte) ∉ d) (hcs : sep ∉ c) (hds : sep ∉ d) (h58 : sep ≠ 58) :
    ((∀ v, ¬ IntText a v) → convertTime (a ++ 58 :: (b ++ 58 :: (c ++ sep :: d))) [sep] = .ok (.error b!"integer hour value")) ∧
    ((∃ v, IntText a v) → (∀ v, ¬ IntText b v) →
      convertTime (a ++ 58 :: (b ++ 58 :: (c ++ sep :: d))) [sep] = .ok (.error b!"integer minute value")) ∧
    ((∃ v, IntText a v) → (∃ v, IntText b v) → (∀ v, ¬ IntText c v) →
      convertTime (a ++ 58 :: (b ++ 58 :: (c ++ sep :: d))) [sep] = .ok (.error b!"integer second value")) ∧
    ((∃ v, IntText a v) → (∃ v, IntText b v) → (∃ v, IntText c v) → (∀ v, ¬ IntText d v) →
      convertTime (a ++ 58 :: (b ++ 58 :: (c ++ sep :: d))) [sep] = .ok (.error b!"integer millisecond value")) := by
  have hcd : (58 : Byte) ∉ c ++ sep :: d := by
    simp only [List.mem_append, List.mem_cons, not_or]
    exact ⟨hc, fun e => h58 e.symm, hd⟩
  unfold convertTime
  rw [split3 ha hb hcd]
  simp only [split2 hcs hds]
  refine ⟨?_, ?_, ?_, ?_⟩
  · intro h1
    rw [lexicalCastInt_error a h1]
  · rintro ⟨v, h1⟩ h2
    rw [(lexicalCastInt_iff a v).2 h1, lexicalCastInt_error b h2]
  · rintro ⟨v, h1⟩ ⟨w, h2⟩ h3
    rw [(lexicalCastInt_iff a v).2 h1, (lexicalCastInt_iff b w).2 h2, lexicalCastInt_error c h3]
  · rintro ⟨v, h1⟩ ⟨w, h2⟩ ⟨x, h3⟩ h4
    rw [(lexicalCastInt_iff a v).2 h1, (lexicalCastInt_iff b w).2 h2, (lexicalCastInt_iff c x).2 h3, lexicalCastInt_error d h4]

/-- C21, general form: four integers in the right shape give `from_hms`. -/
theorem C21_value (a b c d : Str) (h m s ms : Int) (sep : Byte) (hsep : sep ∉ b!":+-0123456789")
    (ha : IntText a h) (hb : IntText b m) (hc : IntText c s) (hd : IntText d ms) :
    convertTime (a ++ 58 :: (b ++ 58 :: (c ++ sep :: d))) [sep] = (Time.fromHms h m s ms).map .ok := by
  have key : ∀ {x : Str} {v : Int} {e : Byte}, e ∉ b!"+-0123456789" → IntText x v → e ∉ x := by
    rintro x v e he ⟨_, ds, _, hds, hx⟩ hmem
    have : e ∉ ds := fun h => he (by have := hds e h; simp at this ⊢; tauto)
    rcases hx with ⟨rfl | rfl, _⟩ | ⟨rfl, _⟩
    · exact this hmem
    · rw [List.mem_cons] at hmem
      rcases hmem with rfl | hmem
      · simp at he
      · exact this hmem
    · rw [List.mem_cons] at hmem
      rcases hmem with rfl | hmem
      · simp at he
      · exact this hmem
  have hs' : sep ∉ b!"+-0123456789" := fun h => hsep (by simp at h ⊢; tauto)
  have h58 : sep ≠ 58 := by rintro rfl; simp at hsep
  have hcd : (58 : Byte) ∉ c ++ sep :: d := by
    simp only [List.mem_append, List.mem_cons, not_or]
    exact ⟨key (by decide) hc, fun e => h58 e.symm, key (by decide) hd⟩
  unfold convertTime
  rw [split3 (key (by decide) ha) (key (by decide) hb) hcd]
  simp only [split2 (key hs' hc) (key hs' hd)]
  rw [(lexicalCastInt_iff _ _).2 ha, (lexicalCastInt_iff _ _).2 hb, (lexicalCastInt_iff _ _).2 hc, (lexicalCastInt_iff _ _).2 hd]
  simp only
  cases Time.fromHms h m s ms <;> rfl

theorem count_one_split {c : Str} {sep : Byte} (h : c.count sep = 1) : ∃ x y, c = x ++ sep :: y ∧ sep ∉ x ∧ sep ∉ y := by
  have hm : sep ∈ c := List.count_pos_iff.1 (by omega)
  obtain ⟨x, y, e, hx⟩ := List.eq_append_cons_of_mem hm
  refine ⟨x, y, e, hx, ?_⟩
  rw [e, List.count_append, List.count_cons_self, List.count_eq_zero.2 hx] at h
  exact List.count_eq_zero.1 (by omega)

theorem count_two_split {c : Str} {sep : Byte} (h : c.count sep = 2) :
    ∃ x y z, c = x ++ sep :: (y ++ sep :: z) ∧ sep ∉ x ∧ sep ∉ y ∧ sep ∉ z := by
  have hm : sep ∈ c := List.count_pos_iff.1 (by omega)
  obtain ⟨x, r, e, hx⟩ := List.eq_append_cons_of_mem hm
  have : r.count sep = 1 := by
    rw [e, List.count_append, List.count_cons_self, List.count_eq_zero.2 hx] at h
    omega
  obtain ⟨y, z, e', hy, hz⟩ := count_one_split this
  exact ⟨x, y, z, by rw [e, e'], hx, hy, hz⟩

/-- C22: a time is returned only for strings of the right form, and then it is `from_hms` of the four integers. -/
theorem C22_accepts_only (t : Str) (sep : Byte) (time : Time) (h : convertTime t [sep] = .ok (.ok time)) :
    ∃ a b c d hh m s ms, t = a ++ 58 :: (b ++ 58 :: (c ++ sep :: d)) ∧ IntText a hh ∧ IntText b m ∧ IntText c s ∧ IntText d ms ∧
      Time.fromHms hh m s ms = .ok time := by
  by_cases h2 : t.count 58 = 2
  · obtain ⟨a, b, r, rfl, ha, hb, hr⟩ := count_two_split h2
    by_cases h1 : r.count sep = 1
    · obtain ⟨c, d, rfl, hc, hd⟩ := count_one_split h1
      simp only [List.mem_append, List.mem_cons, not_or] at hr
      have e := h
      unfold convertTime at h
      rw [split3 ha hb (by simp only [List.mem_append, List.mem_cons, not_or]; exact hr)] at h
      simp only [split2 hc hd] at h
      split at h
      · cases h
      · rename_i hh e1
        split at h
        · cases h
        · rename_i m e2
          split at h
          · cases h
          · rename_i s e3
            split at h
            · cases h
            · rename_i ms e4
              simp only [bind_eq_ok, pure_eq_ok, Except.ok.injEq] at h
              obtain ⟨t', ht, h⟩ := h
              subst h
              exact ⟨a, b, c, d, hh, m, s, ms, rfl, (lexicalCastInt_iff _ _).1 e1, (lexicalCastInt_iff _ _).1 e2, (lexicalCastInt_iff _ _).1 e3, (lexicalCastInt_iff _ _).1 e4, ht⟩
    · rw [C22_wrong_separators a b r sep ha hb hr h1] at h
      cases h
  · rw [C22_wrong_colons t sep h2] at h
    cases h

/-- C22: nothing is thrown; the only failure is overflow of `int` in hours times 3600 and so on, and then all four parts
were integers. -/
theorem C22_no_throw (t : Str) (sep : Byte) (e : Err) (h : convertTime t [sep] = .error e) :
    e = .ub .intOverflow := by
  unfold convertTime at h
  split at h
  · split at h
    · split at h
      · cases h
      · split at h
        · cases h
        · split at h
          · cases h
          · split at h
            · cases h
            · simp only [bind_eq_error, Time.fromHms, hmsSeconds, bind_eq_ok] at h
              have ce : ∀ {x : Int} {e : Err}, ck x = .error e → e = .ub .intOverflow := by
                intro x e h; unfold ck at h; split at h <;> cases h; rfl
              rcases h with ((h | ⟨_, _, h | ⟨_, _, h | ⟨_, _, h⟩⟩⟩) | ⟨_, _, h⟩) | ⟨_, _, h⟩
              all_goals first | exact ce h | cases h
    · cases h
  · cases h

/-- C22: for text in which the hour is at most 500000, minutes and seconds below a million, nothing at all is thrown.  (Without
such a bound the product overflows: see `C22_overflow_witness`.) -/
theorem C22_defined (a b c d : Str) (h m s ms : Int) (sep : Byte) (hsep : sep ∉ b!":+-0123456789")
    (ha : IntText a h) (hb : IntText b m) (hc : IntText c s) (hd : IntText d ms)
    (fit : 0 ≤ h ∧ h ≤ 500000 ∧ 0 ≤ m ∧ m < 1000000 ∧ 0 ≤ s ∧ s < 1000000) :
    convertTime (a ++ 58 :: (b ++ 58 :: (c ++ sep :: d))) [sep] = .ok (.ok ⟨3600 * h + 60 * m + s, ms, some ⟨1000, 1⟩⟩) := by
  rw [C21_value a b c d h m s ms sep hsep ha hb hc hd]
  unfold Time.fromHms hmsSeconds
  rw [ck_ok (by unfold InInt; omega)]
  simp only [ok_bind]
  rw [ck_ok (by unfold InInt; omega)]
  simp only [ok_bind]
  rw [ck_ok (by unfold InInt; omega)]
  simp only [ok_bind]
  rw [ck_ok (by unfold InInt; omega)]
  simp only [ok_bind, pure_eq_ok]
  show Except.ok (Except.ok _) = _
  congr 3
  ring

/-- C22: huge hours overflow: undefined behaviour on a syntactically valid time stamp. -/
theorem C22_overflow_witness : convertTime b!"600000:00:00,000" b!"," = .error (.ub .intOverflow) := by decide +kernel

/-! ### C21  printed times -/

/-- `n` in decimal with `k` leading zeros is an integer of value `n`. -/
theorem intText_padded (k n : Nat) (h : n < 2 ^ 31) : IntText (List.replicate k 48 ++ decSpec n) n := by
  rw [← natDec_eq_decSpec, ← lexicalCastInt_iff]
  have hd : ∀ c ∈ List.replicate k 48 ++ natDec n, isDigit c = true := by
    intro c hc
    rw [List.mem_append] at hc
    rcases hc with hc | hc
    · rw [List.eq_of_mem_replicate hc]; decide
    · exact natDec_digits _ _ hc
  unfold lexicalCastInt
  rw [takeSign_digits hd]
  have hne : (List.replicate k 48 ++ natDec n) ≠ [] := by simp [natDec_ne_nil]
  have : ((List.replicate k 48 ++ natDec n).isEmpty || !(List.replicate k 48 ++ natDec n).all isDigit) = false := by
    rw [Bool.or_eq_false_iff]
    refine ⟨by simp [natDec_ne_nil], ?_⟩
    rw [Bool.not_eq_false', List.all_eq_true]
    exact hd
  simp only [this, Bool.false_eq_true, if_false, decVal_zeros_append, decVal_natDec]
  rw [if_pos ⟨by omega, by omega⟩]

/-- C21: a time stamp written with any padding is read back as the time written. -/
theorem C21_timestamp (kh km ks kms h m s ms : Nat) (sep : Byte) (hsep : sep ∈ b!",.") (hm : m ≤ 59) (hs : s ≤ 59) (hms : ms ≤ 999)
    (fit : 3600 * h + 60 * m + s < 2 ^ 31) :
    convertTime (List.replicate kh 48 ++ decSpec h ++ b!":" ++ List.replicate km 48 ++ decSpec m ++ b!":" ++
      List.replicate ks 48 ++ decSpec s ++ [sep] ++ List.replicate kms 48 ++ decSpec ms) [sep] =
      .ok (.ok ⟨3600 * h + 60 * m + s, ms, some ⟨1000, 1⟩⟩) := by
  have := C21_value (List.replicate kh 48 ++ decSpec h) (List.replicate km 48 ++ decSpec m) (List.replicate ks 48 ++ decSpec s)
    (List.replicate kms 48 ++ decSpec ms) h m s ms sep (by simp at hsep ⊢; rcases hsep with rfl | rfl <;> decide)
    (intText_padded _ _ (by omega)) (intText_padded _ _ (by omega)) (intText_padded _ _ (by omega)) (intText_padded _ _ (by omega))
  simp only [List.append_assoc, List.cons_append, List.nil_append] at this ⊢
  rw [this]
  unfold Time.fromHms hmsSeconds
  rw [ck_ok (by unfold InInt; omega)]
  simp only [ok_bind]
  rw [ck_ok (by unfold InInt; omega)]
  simp only [ok_bind]
  rw [ck_ok (by unfold InInt; omega)]
  simp only [ok_bind]
  rw [ck_ok (by unfold InInt; omega)]
  simp only [ok_bind, pure_eq_ok]
  show Except.ok (Except.ok _) = _
  congr 3
  ring

example : convertTime b!"00:01:02,345" b!"," = .ok (.ok ⟨62, 345, some ⟨1000, 1⟩⟩) := by decide +kernel
example : IntText b!"-007" (-7) := by rw [← lexicalCastInt_iff]; decide +kernel
example : ∀ v, ¬ IntText b!"1x" v := by
  intro v h
  rw [← lexicalCastInt_iff] at h
  rw [show lexicalCastInt b!"1x" = .error .badLexicalCast by decide +kernel] at h
  cases h

end LibSub
