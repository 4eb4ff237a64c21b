/-
Properties C50 – C54: ISO 6937 conversion (src/iso6937.cc, src/iso6937_tables.cc).
-/
import Verif.Lemmas.Iso6937

namespace LibSub

attribute [local irreducible] isoMade

/-! ### C53  decoding is total, but for two bytes -/

private theorem accented_none_iff (d u : Byte) (hd : Diacritic d) : accented d u = none ↔ d = 0xC9 ∨ d = 0xCC := by
  have h : ∀ d : Byte, Diacritic d → (isoDiacriticals.lookup d = none ↔ d = 0xC9 ∨ d = 0xCC) :=
    forall_byte (p := fun d => Diacritic d → (isoDiacriticals.lookup d = none ↔ d = 0xC9 ∨ d = 0xCC)) (by decide +kernel)
  simp only [accented, Option.map_eq_none_iff]
  exact h d hd

/-- A place where decoding goes wrong: C9 or CC applied to a byte. -/
def BadAccent (s : Str) : Prop :=
  ∃ a d u b, s = a ++ d :: u :: b ∧ (0 : Byte) ∉ a ∧ (d = 0xC9 ∨ d = 0xCC) ∧ u ≠ 0 ∧ ¬ Diacritic u

theorem isoPure_text {s w} (h : IsoText s w) : (∀ p, (∀ u rest, s = u :: rest → u = 0 ∨ Diacritic u) → isoPure p s = .ok w) ∧ isoPure none s = .ok w := by
  induction h with
  | nil => exact ⟨fun _ _ => rfl, rfl⟩
  | nul rest => exact ⟨fun _ _ => by simp [isoPure], by simp [isoPure]⟩
  | @char u rest w h0 hd _ ih =>
    have hd' : isDiacritical u = false := by rw [← Bool.not_eq_true, isDiacritical_iff]; exact hd
    refine ⟨fun p hp => ?_, ?_⟩
    · rcases hp u rest rfl with h | h
      · exact absurd h h0
      · exact absurd h hd
    · rw [isoPure_cons, if_neg h0, hd']
      simp [ih.2, ok_bind, pure_eq_ok]
  | @accent d u c rest w hdd h0 hd hc _ ih =>
    have h1 : isDiacritical d = true := (isDiacritical_iff d).mpr hdd
    have h1' : d ≠ 0 := by rintro rfl; exact absurd hdd (by decide)
    have hd' : isDiacritical u = false := by rw [← Bool.not_eq_true, isDiacritical_iff]; exact hd
    have : ∀ p, isoPure p (d :: u :: rest) = .ok (c :: w) := by
      intro p
      rw [isoPure_cons, if_neg h1', if_pos h1, isoPure_cons, if_neg h0, hd']
      simp [hc, ih.2, ok_bind, pure_eq_ok]
    exact ⟨fun p _ => this p, this none⟩
  | @again d d' rest w hd hd2 _ ih =>
    have h1 : isDiacritical d = true := (isDiacritical_iff d).mpr hd
    have h1' : d ≠ 0 := by rintro rfl; exact absurd hd (by decide)
    have : ∀ p, isoPure p (d :: d' :: rest) = .ok w := by
      intro p
      rw [isoPure_cons, if_neg h1', if_pos h1]
      exact ih.1 _ (fun u r e => by cases e; exact .inr hd2)
    exact ⟨fun p _ => this p, this none⟩
  | @lone d hd =>
    have h1 : isDiacritical d = true := (isDiacritical_iff d).mpr hd
    have h1' : d ≠ 0 := by rintro rfl; exact absurd hd (by decide)
    have : ∀ p, isoPure p [d] = .ok [] := by intro p; rw [isoPure_cons, if_neg h1', if_pos h1]; rfl
    exact ⟨fun p _ => this p, this none⟩
  | @loneNul d rest hd =>
    have h1 : isDiacritical d = true := (isDiacritical_iff d).mpr hd
    have h1' : d ≠ 0 := by rintro rfl; exact absurd hd (by decide)
    have : ∀ p, isoPure p (d :: 0 :: rest) = .ok [] := by intro p; rw [isoPure_cons, if_neg h1', if_pos h1]; simp [isoPure]
    exact ⟨fun p _ => this p, this none⟩

/-- C53: a string of bytes decodes to the characters it denotes, whatever was converted before. -/
theorem C53_value {t s w} (ht : IsoReach t) (h : IsoText s w) : ∃ t', isoDecodeSt t s = .ok (t', w) := by
  have := isoDecodeLoop_pure s _ ht.same none []
  rw [(isoPure_text h).2] at this
  obtain ⟨t', h', _⟩ := this
  exact ⟨t', h'⟩

/-- `Ä`, `ñ` and a double accent; a NUL ends the text. -/
example : IsoText [0xC8, 65, 0xC2, 0xC4, 110, 0, 65] [0xC4, 0xF1] :=
  .accent (by decide) (by decide) (by decide) (by decide +kernel)
    (.again (by decide) (by decide) (.accent (by decide) (by decide) (by decide) (by decide +kernel) (.nul _)))

private theorem BadAccent.cons {u s} (hu : u ≠ 0) (h : BadAccent s) : BadAccent (u :: s) := by
  obtain ⟨a, d, v, b, rfl, ha, hd, hv, hv'⟩ := h
  exact ⟨u :: a, d, v, b, rfl, by simp [ha, Ne.symm hu], hd, hv, hv'⟩

private theorem isoPure_ub (s : Str) : ∀ p : Option Byte, (∀ d, p = some d → Diacritic d) →
    (∀ e, isoPure p s = .error e → e = .ub .nullDeref ∧
      (BadAccent s ∨ ∃ d u b, p = some d ∧ (d = 0xC9 ∨ d = 0xCC) ∧ s = u :: b ∧ u ≠ 0 ∧ ¬ Diacritic u)) ∧
    ((BadAccent s ∨ ∃ d u b, p = some d ∧ (d = 0xC9 ∨ d = 0xCC) ∧ s = u :: b ∧ u ≠ 0 ∧ ¬ Diacritic u) →
      isoPure p s = .error (.ub .nullDeref)) := by
  induction s with
  | nil =>
    intro p hp
    refine ⟨fun e h => (by cases h), ?_⟩
    rintro (⟨a, d, u, b, h, _⟩ | ⟨d, u, b, _, _, h, _⟩)
    · cases a <;> cases h
    · cases h
  | cons u us ih =>
    intro p hp
    by_cases h0 : u = 0
    · subst h0
      refine ⟨fun e h => by simp [isoPure] at h, ?_⟩
      rintro (⟨a, d, v, b, h, ha, hd, _⟩ | ⟨d, v, b, _, _, h, hv, _⟩)
      · cases a with
        | nil => cases h; rcases hd with hd | hd <;> exact absurd hd (by decide)
        | cons x a => cases h; simp at ha
      · cases h; exact absurd rfl hv
    · by_cases hd : isDiacritical u = true
      · have hdu := (isDiacritical_iff u).mp hd
        obtain ⟨i1, i2⟩ := ih (some u) (fun d h => by cases h; exact hdu)
        rw [isoPure_cons, if_neg h0, if_pos hd]
        refine ⟨fun e h => ?_, ?_⟩
        · obtain ⟨j1, j2⟩ := i1 e h
          refine ⟨j1, .inl ?_⟩
          rcases j2 with j2 | ⟨d, v, b, j3, j4, rfl, j6, j7⟩
          · exact j2.cons h0
          · cases j3
            exact ⟨[], u, v, b, rfl, by simp, j4, j6, j7⟩
        · rintro (⟨a, d, v, b, h, ha, hdd, hv, hv'⟩ | ⟨d, v, b, _, _, h, _, hv⟩)
          · refine i2 ?_
            cases a with
            | nil => cases h; exact .inr ⟨_, v, b, rfl, hdd, rfl, hv, hv'⟩
            | cons x a =>
              cases h
              exact .inl ⟨a, d, v, b, rfl, fun h => ha (by simp [h]), hdd, hv, hv'⟩
          · cases h; exact absurd hdu hv
      · have hdu : ¬ Diacritic u := fun h => hd ((isDiacritical_iff u).mpr h)
        obtain ⟨i1, i2⟩ := ih none (fun d h => by cases h)
        rw [isoPure_cons, if_neg h0, if_neg hd]
        have key : ∀ c : WChar, (∀ e, (do let r ← isoPure none us; pure (c :: r) : R (List WChar)) = .error e → e = .ub .nullDeref ∧ BadAccent us) ∧
            (BadAccent us → (do let r ← isoPure none us; pure (c :: r) : R (List WChar)) = .error (.ub .nullDeref)) := by
          intro c
          refine ⟨fun e h => ?_, fun h => ?_⟩
          · rcases bind_eq_error.mp h with h | ⟨x, _, h⟩
            · obtain ⟨j1, j2⟩ := i1 e h
              refine ⟨j1, ?_⟩
              rcases j2 with j2 | ⟨d, _, _, j3, _⟩
              · exact j2
              · cases j3
            · cases h
          · rw [i2 (.inl h)]; rfl
        have shrink : BadAccent (u :: us) → BadAccent us := by
          rintro ⟨a, d, v, b, h, ha, hdd, hv, hv'⟩
          cases a with
          | nil => cases h; exact absurd (by rcases hdd with rfl | rfl <;> decide) hdu
          | cons x a => cases h; exact ⟨a, d, v, b, rfl, fun h => ha (by simp [h]), hdd, hv, hv'⟩
        cases p with
        | none =>
          simp only
          refine ⟨fun e h => ?_, ?_⟩
          · obtain ⟨j1, j2⟩ := (key _).1 e h
            exact ⟨j1, .inl (j2.cons h0)⟩
          · rintro (h | ⟨d, _, _, h, _⟩)
            · exact (key _).2 (shrink h)
            · cases h
        | some d =>
          simp only
          have hdd := hp d rfl
          cases hacc : accented d u with
          | none =>
            simp only
            refine ⟨fun e h => ?_, fun _ => trivial⟩
            cases h
            exact ⟨rfl, .inr ⟨d, u, us, rfl, (accented_none_iff d u hdd).mp hacc, rfl, h0, hdu⟩⟩
          | some c =>
            simp only
            refine ⟨fun e h => ?_, ?_⟩
            · obtain ⟨j1, j2⟩ := (key _).1 e h
              exact ⟨j1, .inl (j2.cons h0)⟩
            · rintro (h | ⟨d', v, b, h, h1, h2, _⟩)
              · exact (key _).2 (shrink h)
              · cases h
                rw [(accented_none_iff d u hdd).mpr h1] at hacc
                cases hacc

/-- C53: decoding fails exactly when C9 or CC stands before a byte to which it would apply (and no NUL
comes first); the failure is a null pointer dereference.  This holds whatever was converted before. -/
theorem C53_ub_iff {t s} (ht : IsoReach t) :
    ((∃ e, isoDecodeSt t s = .error e) ↔ BadAccent s) ∧ (∀ e, isoDecodeSt t s = .error e → e = .ub .nullDeref) := by
  have h := isoDecodeLoop_pure s _ ht.same none []
  obtain ⟨h1, h2⟩ := isoPure_ub s none (fun d h => by cases h)
  have h3 : ∀ e, isoDecodeSt t s = .error e ↔ isoPure none s = .error e := by
    intro e
    unfold isoDecodeSt
    cases hp : isoPure none s with
    | ok w =>
      rw [hp] at h
      obtain ⟨t', h', _⟩ := h
      rw [h']
      exact ⟨fun h => (by cases h), fun h => (by cases h)⟩
    | error e' =>
      rw [hp] at h
      simp only at h
      rw [h]
      exact ⟨fun h => (by cases h; rfl), fun h => (by cases h; rfl)⟩
  refine ⟨⟨?_, ?_⟩, ?_⟩
  · rintro ⟨e, he⟩
    rcases (h1 e ((h3 e).mp he)).2 with h | ⟨d, _, _, h, _⟩
    · exact h
    · cases h
  · intro hb
    exact ⟨_, (h3 _).mpr (h2 (.inl hb))⟩
  · intro e he
    exact (h1 e ((h3 e).mp he)).1

example : BadAccent [65, 0xC9, 66] := ⟨[65], 0xC9, 66, [], rfl, by decide, .inl rfl, by decide, by decide⟩
example : ¬ BadAccent [0xC8, 65] := by
  rw [← (C53_ub_iff (t := {}) .start).1]
  obtain ⟨t', h⟩ := C53_value (t := {}) (s := [0xC8, 65]) (w := [0xC4]) .start
    (.accent (by decide) (by decide) (by decide) (by decide +kernel) .nil)
  rw [h]
  rintro ⟨e, he⟩
  cases he

/-- Every other string has a meaning. -/
theorem isoText_total (n : Nat) : ∀ s : Str, s.length ≤ n → ¬ BadAccent s → ∃ w, IsoText s w := by
  induction n with
  | zero =>
    intro s hl _
    cases s with
    | nil => exact ⟨_, .nil⟩
    | cons u s => simp at hl
  | succ n ih =>
    intro s hl hb
    cases s with
    | nil => exact ⟨_, .nil⟩
    | cons u s =>
      rw [List.length_cons] at hl
      by_cases h0 : u = 0
      · subst h0; exact ⟨_, .nul s⟩
      · have hb' : ¬ BadAccent s := fun h => hb (h.cons h0)
        by_cases hd : Diacritic u
        · cases s with
          | nil => exact ⟨_, .lone hd⟩
          | cons v s =>
            rw [List.length_cons] at hl
            by_cases hv0 : v = 0
            · subst hv0; exact ⟨_, .loneNul s hd⟩
            · by_cases hv : Diacritic v
              · obtain ⟨w, hw⟩ := ih (v :: s) (by rw [List.length_cons]; omega) hb'
                exact ⟨w, .again hd hv hw⟩
              · obtain ⟨w, hw⟩ := ih s (by omega) (fun h => hb' (h.cons hv0))
                cases hc : accented u v with
                | none =>
                  have := (accented_none_iff u v hd).1 hc
                  exact absurd ⟨[], u, v, s, rfl, by simp, this, hv0, hv⟩ hb
                | some c => exact ⟨_, .accent hd hv0 hv hc hw⟩
        · obtain ⟨w, hw⟩ := ih s (by omega) hb'
          exact ⟨_, .char h0 hd hw⟩

/-- C53: what comes out is what the bytes mean. -/
theorem C53_text {s w} : isoDecode s = .ok w ↔ IsoText s w := by
  constructor
  · intro h
    unfold isoDecode at h
    obtain ⟨⟨t', w'⟩, h1, h2⟩ := bind_eq_ok.mp h
    cases h2
    have hb : ¬ BadAccent s := by
      rw [← (C53_ub_iff (t := {}) .start).1]
      rintro ⟨e, he⟩
      rw [h1] at he
      cases he
    obtain ⟨v, hv⟩ := isoText_total _ s le_rfl hb
    obtain ⟨t'', h3⟩ := C53_value (t := {}) .start hv
    rw [h1] at h3
    cases h3
    exact hv
  · intro h
    obtain ⟨t', h'⟩ := C53_value (t := {}) .start h
    unfold isoDecode
    rw [h']
    rfl

/-! ### C54  no dependence on earlier calls -/

/-- C54: decoding gives the same result after any history of conversions as in a fresh process. -/
theorem C54_decode {t s} (ht : IsoReach t) : (isoDecodeSt t s).map (·.2) = isoDecode s := by
  have h := isoDecodeLoop_pure s _ ht.same none []
  have h0 := isoDecodeLoop_pure s _ IsoReach.start.same none []
  unfold isoDecode isoDecodeSt
  cases hp : isoPure none s with
  | ok w =>
    rw [hp] at h h0
    obtain ⟨t1, h1, _⟩ := h
    obtain ⟨t2, h2, _⟩ := h0
    rw [h1, h2]; rfl
  | error e =>
    rw [hp] at h h0
    simp only at h h0
    rw [h, h0]; rfl

theorem encodeChar_same {t} (ht : SameTables t) {c : WChar} (hc : c ≠ 0) : isoEncodeCharSt t c = isoEncodeCharSt isoMade c := by
  unfold isoEncodeCharSt
  rw [isoFind_solid c hc, ht.main.solid_eq, ← isoFind_solid c hc, isoFindDia_same c hc ht.dia]

private theorem encodeLoop_same {t} (ht : SameTables t) (s : List WChar) (hs : 0 ∉ s) : isoEncodeLoop t s = isoEncodeLoop isoMade s := by
  induction s with
  | nil => simp only [isoEncodeLoop]
  | cons c s ih =>
    simp only [List.mem_cons, not_or] at hs
    simp only [isoEncodeLoop, encodeChar_same ht (Ne.symm hs.1), ih hs.2]

/-- C54: so does encoding, unless the text contains U+0000. -/
theorem C54_encode {t s} (ht : IsoReach t) (hs : 0 ∉ s) : (isoEncodeSt t s).map (·.2) = isoEncode s := by
  unfold isoEncode isoEncodeSt
  rw [encodeLoop_same ht.same s hs, isoEnsure_start]
  cases isoEncodeLoop isoMade s <;> rfl

/-- A state of the tables as decoding `\x01` leaves them. -/
private theorem after01 : isoDecodeSt {} [1] = .ok ({ isoMade with main := mapAssign 1 0 isoMade.main }, [0]) := by
  decide +kernel

example : IsoReach { isoMade with main := mapAssign 1 0 isoMade.main } := .decode .start after01

/-- In a process that has decoded the byte 01, "Ä" is still decoded as U+00C4. -/
example : ∃ t, IsoReach t ∧ t ≠ {} ∧ (isoDecodeSt t [0xC8, 65]).map (·.2) = isoDecode [0xC8, 65] ∧ isoDecode [0xC8, 65] = .ok [0xC4] :=
  ⟨_, .decode .start after01, by decide +kernel, C54_decode (.decode .start after01), by decide +kernel⟩

/-- The exception: U+0000 is dropped in a fresh process, but becomes the byte 01 (an STL control code) once
that byte has been decoded. -/
theorem C54_nul_witness : isoEncode [0] = .ok [] ∧ ∃ t, IsoReach t ∧ (isoEncodeSt t [0]).map (·.2) = .ok [1] :=
  ⟨by decide +kernel, _, .decode .start after01, by decide +kernel⟩

/-! ### C52  unrepresentable characters -/

private theorem findDia_ok (c : WChar) {l l0} (h : SameDia l l0) : ∃ o, isoFindDia c l = .ok o := by
  induction h with
  | nil => exact ⟨[], rfl⟩
  | cons _ _ ih =>
    simp only [isoFindDia]
    split
    · exact ⟨_, rfl⟩
    · exact ih

theorem encodeChar_ok {t} (ht : SameTables t) (c : WChar) : ∃ o, isoEncodeCharSt t c = .ok o := by
  unfold isoEncodeCharSt
  split
  · exact ⟨_, rfl⟩
  · obtain ⟨o, h⟩ := findDia_ok c ht.dia
    exact ⟨o ++ isoSubst c, by rw [h]; rfl⟩

theorem encodeLoop_ok {t} (ht : SameTables t) (s : List WChar) : ∃ o, isoEncodeLoop t s = .ok o := by
  induction s with
  | nil => exact ⟨[], rfl⟩
  | cons c s ih =>
    obtain ⟨a, ha⟩ := encodeChar_ok ht c
    obtain ⟨b, hb⟩ := ih
    exact ⟨a ++ b, by simp only [isoEncodeLoop, ha, hb, ok_bind]; rfl⟩

/-- C52: encoding never fails, and the encoding of a concatenation is the concatenation of the encodings. -/
theorem C52_append {t} (ht : IsoReach t) (s1 s2 : List WChar) :
    ∃ t' o1 o2, isoEncodeSt t s1 = .ok (t', o1) ∧ isoEncodeSt t s2 = .ok (t', o2) ∧ isoEncodeSt t (s1 ++ s2) = .ok (t', o1 ++ o2) := by
  obtain ⟨o1, h1⟩ := encodeLoop_ok ht.same s1
  obtain ⟨o2, h2⟩ := encodeLoop_ok ht.same s2
  have h3 : isoEncodeLoop (isoEnsure t) (s1 ++ s2) = .ok (o1 ++ o2) := by
    clear ht
    induction s1 generalizing o1 with
    | nil => cases h1; exact h2
    | cons c s1 ih =>
      simp only [isoEncodeLoop] at h1
      obtain ⟨a, ha, h1⟩ := bind_eq_ok.mp h1
      obtain ⟨b, hb, h1⟩ := bind_eq_ok.mp h1
      cases h1
      simp only [List.cons_append, isoEncodeLoop, ha, ih _ hb, ok_bind, pure_eq_ok, List.append_assoc]
  exact ⟨isoEnsure t, o1, o2, by simp only [isoEncodeSt, h1, ok_bind]; rfl, by simp only [isoEncodeSt, h2, ok_bind]; rfl,
    by simp only [isoEncodeSt, h3, ok_bind]; rfl⟩

/-- The documented substitutes: low quote, en and em dash, three hyphens, prime. -/
def substitutes : List (WChar × Byte) :=
  [(0x201e, 170), (0x2013, 208), (0x2014, 208), (0x2010, 45), (0x2011, 45), (0x2012, 45), (0x2032, 39)]

/-- What the substitutes are. -/
example : substitutes.map (fun p => mainChar p.2) = [0x201c, 0x2015, 0x2015, 45, 45, 45, 39] := by decide +kernel

/-- C52: each of these is encoded as its substitute. -/
theorem C52_substitute {t} (ht : IsoReach t) (c : WChar) (b : Byte) (h : (c, b) ∈ substitutes) :
    ∃ t', isoEncodeSt t [c] = .ok (t', [b]) := by
  have h1 : ∀ p ∈ substitutes, p.1 ≠ 0 ∧ (isoEncodeCharSt isoMade p.1).toOption = some [p.2] := by decide +kernel
  obtain ⟨h0, h2⟩ := h1 _ h
  refine ⟨isoEnsure t, ?_⟩
  simp only [isoEncodeSt, isoEncodeLoop, encodeChar_same ht.same h0]
  cases h3 : isoEncodeCharSt isoMade c with
  | error e => rw [h3] at h2; cases h2
  | ok o => rw [h3] at h2; cases h2; rfl

example : ∃ t', isoEncodeSt {} [0x2010] = .ok (t', [45]) := C52_substitute .start _ _ (by decide +kernel)

private theorem isoFind_none (m : List (Byte × WChar)) (c : WChar) : isoFind m c = none ↔ ∀ k, (k, c) ∉ m := by
  induction m with
  | nil => simp [isoFind]
  | cons p m ih =>
    obtain ⟨k, v⟩ := p
    simp only [isoFind, List.mem_cons, Prod.mk.injEq, not_or]
    split
    · rename_i h; subst h
      exact ⟨fun h => (by cases h), fun h => absurd ⟨rfl, rfl⟩ (h k).1⟩
    · rename_i h
      rw [ih]
      exact ⟨fun h' k' => ⟨fun e => h e.2.symm, h' k'⟩, fun h' k' => (h' k').2⟩

private theorem findDia_none (c : WChar) {l l0} (h : SameDia l l0) (hn : ∀ d m k, (d, some m) ∈ l → (k, c) ∉ m) : isoFindDia c l = .ok [] := by
  induction h with
  | nil => rfl
  | @cons k m _ l _ _ _ ih =>
    simp only [isoFindDia]
    rw [(isoFind_none m c).mpr (fun k' => hn k m k' (by simp))]
    exact ih (fun d m k h => hn d m k (by simp [h]))

private theorem mem_mapAssign {α : Type} (k : Byte) (v : α) (m : List (Byte × α)) : ∀ p ∈ mapAssign k v m, p = (k, v) ∨ p ∈ m := by
  induction m with
  | nil => intro p hp; simp [mapAssign] at hp; exact .inl hp
  | cons q m ih =>
    intro p hp
    obtain ⟨a, b⟩ := q
    unfold mapAssign at hp
    split at hp
    · rcases List.mem_cons.mp hp with h | h
      · exact .inl h
      · exact .inr (by simp [h])
    · split at hp
      · rcases List.mem_cons.mp hp with h | h
        · exact .inl h
        · exact .inr h
      · rcases List.mem_cons.mp hp with h | h
        · exact .inr (by simp [h])
        · rcases ih p h with h | h
          · exact .inl h
          · exact .inr (by simp [h])

private theorem mem_mapOf {α : Type} (l : List (Byte × α)) : ∀ p ∈ mapOf l, p ∈ l := by
  have : ∀ (l m : List (Byte × α)) p, p ∈ l.foldl (fun m kv => mapAssign kv.1 kv.2 m) m → p ∈ m ∨ p ∈ l := by
    intro l
    induction l with
    | nil => intro m p hp; exact .inl hp
    | cons q l ih =>
      intro m p hp
      rcases ih _ p hp with h | h
      · rcases mem_mapAssign _ _ _ p h with h | h
        · exact .inr (by simp [h])
        · exact .inl h
      · exact .inr (by simp [h])
  intro p hp
  rcases this l [] p hp with h | h
  · cases h
  · exact h

/-- C52: any other character outside the tables is dropped; with `C52_append`, without affecting its
neighbours. -/
theorem C52_dropped {t} (ht : IsoReach t) (c : WChar) (h0 : c ≠ 0) (h1 : ∀ k, (k, c) ∉ isoMain)
    (h2 : ∀ d l k, (d, l) ∈ isoDiacriticals → (k, c) ∉ l) (h3 : ∀ b, (c, b) ∉ substitutes) :
    ∃ t', isoEncodeSt t [c] = .ok (t', []) ∧
      ∀ s1 s2, isoEncodeSt t (s1 ++ c :: s2) = isoEncodeSt t (s1 ++ s2) := by
  have hm : isoFind isoMade.main c = none := (isoFind_none _ _).mpr (fun k h => h1 k (mem_mapOf _ _ (isoMade_main ▸ h)))
  have hd : isoFindDia c isoMade.dia = .ok [] := by
    refine findDia_none c sameTables_made.dia ?_
    intro d m k hdm hk
    obtain ⟨kv, hkv, e⟩ := List.mem_map.mp (mem_mapOf _ _ (isoMade_dia ▸ hdm))
    cases e
    exact h2 kv.1 kv.2 k hkv (mem_mapOf _ _ hk)
  have hs : isoSubst c = [] := by
    unfold isoSubst
    simp only [substitutes, List.mem_cons, Prod.mk.injEq, List.not_mem_nil, or_false, not_or] at h3
    have a := h3 170; have b := h3 208; have d := h3 45; have e := h3 39
    simp at a b d e
    rw [if_neg a, if_neg (by rintro (h | h); exacts [b.1 h, b.2 h]),
      if_neg (by rintro (h | h | h); exacts [d.1 h, d.2.1 h, d.2.2 h]), if_neg e]
  have hc : isoEncodeCharSt (isoEnsure t) c = .ok [] := by
    rw [encodeChar_same ht.same h0]
    simp only [isoEncodeCharSt, hm, hd, hs, ok_bind]; rfl
  refine ⟨isoEnsure t, by simp only [isoEncodeSt, isoEncodeLoop, hc, ok_bind]; rfl, ?_⟩
  intro s1 s2
  have : isoEncodeLoop (isoEnsure t) (s1 ++ c :: s2) = isoEncodeLoop (isoEnsure t) (s1 ++ s2) := by
    induction s1 with
    | nil =>
      simp only [List.nil_append, isoEncodeLoop, hc, ok_bind]
      cases isoEncodeLoop (isoEnsure t) s2 <;> rfl
    | cons x s1 ih => simp only [List.cons_append, isoEncodeLoop, ih]
  simp only [isoEncodeSt, this]

/-- The Euro sign is dropped. -/
example : ∃ t', isoEncodeSt {} [0x20AC] = .ok (t', []) := by
  obtain ⟨t', h, _⟩ := C52_dropped .start 0x20AC (by decide) (fun k h => by
      have : ∀ p ∈ isoMain, p.2 ≠ 0x20AC := by decide +kernel
      exact this _ h rfl) (fun d l k h h' => by
      have : ∀ p ∈ isoDiacriticals, ∀ q ∈ p.2, q.2 ≠ 0x20AC := by decide +kernel
      exact this _ h _ h' rfl) (fun b h => by
      have : ∀ p ∈ substitutes, p.1 ≠ 0x20AC := by decide
      exact this _ h rfl)
  exact ⟨t', h⟩

/-! ### C51  no control codes -/

/-- The bytes that mean something to a reader of binary STL: colours 00-07, styles 80-85, line break 8A, end
of text 8F; the whole range 80-8F is reserved. -/
def StlControl (b : Byte) : Prop := b ≤ 7 ∨ (0x80 ≤ b ∧ b ≤ 0x8f)

instance (b : Byte) : Decidable (StlControl b) := inferInstanceAs (Decidable (_ ∨ _))

private theorem isoFind_key (m : List (Byte × WChar)) (c : WChar) (k : Byte) (h : isoFind m c = some k) : (k, c) ∈ m := by
  induction m with
  | nil => cases h
  | cons p m ih =>
    obtain ⟨a, b⟩ := p
    simp only [isoFind] at h
    split at h
    · rename_i e; cases h; simp [e]
    · simp [ih h]

private theorem charBytes (c : WChar) (o : Str) (h : isoEncodeCharSt isoMade c = .ok o) : ∀ b ∈ o, ¬ StlControl b := by
  have k1 : ∀ p ∈ isoMain, ¬ StlControl p.1 := by decide +kernel
  have k2 : ∀ p ∈ isoDiacriticals, ¬ StlControl p.1 ∧ ∀ q ∈ p.2, ¬ StlControl q.1 := by decide +kernel
  have k3 : ∀ b ∈ isoSubst c, ¬ StlControl b := by
    unfold isoSubst
    repeat' split
    all_goals decide
  unfold isoEncodeCharSt at h
  cases hm : isoFind isoMade.main c with
  | some k =>
    rw [hm] at h
    cases h
    intro b hb
    rcases List.mem_cons.mp hb with rfl | hb
    · exact k1 _ (mem_mapOf _ _ (isoMade_main ▸ isoFind_key _ _ _ hm))
    · exact k3 b hb
  | none =>
    rw [hm] at h
    simp only at h
    obtain ⟨o1, h1, h2⟩ := bind_eq_ok.mp h
    cases h2
    have k4 : ∀ l : List (Byte × Option (List (Byte × WChar))), (∀ p ∈ l, ¬ StlControl p.1 ∧ ∀ m, p.2 = some m → ∀ q ∈ m, ¬ StlControl q.1) →
        isoFindDia c l = .ok o1 → ∀ b ∈ o1, ¬ StlControl b := by
      intro l
      induction l with
      | nil => intro _ h; cases h; simp
      | cons p l ih =>
        intro hl h
        obtain ⟨d, m⟩ := p
        cases m with
        | none => cases h
        | some m =>
          simp only [isoFindDia] at h
          split at h
          · rename_i k hk
            cases h
            obtain ⟨l1, l2⟩ := hl (d, some m) (by simp)
            intro b hb
            simp only [List.mem_cons, List.not_mem_nil, or_false] at hb
            rcases hb with rfl | rfl
            · exact l1
            · exact l2 m rfl _ (isoFind_key _ _ _ hk)
          · exact ih (fun p hp => hl p (by simp [hp])) h
    intro b hb
    rcases List.mem_append.mp hb with hb | hb
    · refine k4 isoMade.dia ?_ h1 b hb
      intro p hp
      obtain ⟨kv, hkv, rfl⟩ := List.mem_map.mp (mem_mapOf _ _ (isoMade_dia ▸ hp))
      refine ⟨(k2 kv hkv).1, ?_⟩
      intro m hm q hq
      cases hm
      exact (k2 kv hkv).2 q (mem_mapOf _ _ hq)
    · exact k3 b hb

/-- C51: in a fresh process no byte produced from any text is a control code. -/
theorem C51_fresh (s : List WChar) (o : Str) (h : isoEncode s = .ok o) : ∀ b ∈ o, ¬ StlControl b := by
  have : ∀ s o, isoEncodeLoop isoMade s = .ok o → ∀ b ∈ o, ¬ StlControl b := by
    intro s
    induction s with
    | nil => intro o h; cases h; simp
    | cons c s ih =>
      intro o h
      simp only [isoEncodeLoop] at h
      obtain ⟨a, ha, h⟩ := bind_eq_ok.mp h
      obtain ⟨r, hr, h⟩ := bind_eq_ok.mp h
      cases h
      intro b hb
      rcases List.mem_append.mp hb with hb | hb
      · exact charBytes c a ha b hb
      · exact ih r hr b hb
  unfold isoEncode isoEncodeSt at h
  rw [isoEnsure_start] at h
  generalize isoMade = t at *
  obtain ⟨x, hx, h⟩ := bind_eq_ok.mp h
  obtain ⟨y, hy, hx⟩ := bind_eq_ok.mp hx
  cases hx
  cases h
  exact this s y hy

example : ∀ b ∈ ([65, 170, 0xC2, 101] : Str), ¬ StlControl b := C51_fresh [0x8A, 0x8F, 0x41, 0x201e, 0xE9] _ (by decide +kernel)

/-- C51: after any history the same holds of text without U+0000 (see `C54_nul_witness` for why that is
needed). -/
theorem C51_any_history {t t'} (ht : IsoReach t) (s : List WChar) (hs : 0 ∉ s) (o : Str) (h : isoEncodeSt t s = .ok (t', o)) :
    ∀ b ∈ o, ¬ StlControl b := by
  refine C51_fresh s o ?_
  rw [← C54_encode ht hs, h]
  rfl

example : isoEncode [0x8A, 0x8F, 0x41, 0x201e, 0xE9] = .ok [65, 170, 0xC2, 101] := by decide +kernel

/-! ### C50  round trip -/

/-- Every character of the set, as a list. -/
private def repList : List WChar :=
  ((isoMain.filter (fun p => ¬ Diacritic p.1)).map (·.2)) ++ isoDiacriticals.flatMap (fun p => p.2.map (·.2))

private def unitOk (c : WChar) : Bool :=
  match isoEncodeCharSt isoMade c with
  | .ok [b] => b != 0 && !decide (Diacritic b) && mainChar b == c
  | .ok [d, b] => decide (Diacritic d) && b != 0 && !decide (Diacritic b) && accented d b == some c
  | _ => false

private theorem unitOk_all : ∀ c ∈ repList, c ≠ 0 ∧ unitOk c = true := by decide +kernel

private theorem rep_mem {c} (h : Representable c) : c ∈ repList := by
  rcases h with ⟨k, h1, h2⟩ | ⟨d, l, k, h1, h2⟩
  · exact List.mem_append_left _ (List.mem_map.mpr ⟨(k, c), by simp [h1, h2], rfl⟩)
  · exact List.mem_append_right _ (List.mem_flatMap.mpr ⟨(d, l), h1, List.mem_map.mpr ⟨(k, c), h2, rfl⟩⟩)

private theorem unit_text {c : WChar} (h : Representable c) : ∃ o, isoEncodeCharSt isoMade c = .ok o ∧
    ∀ rest w, IsoText rest w → IsoText (o ++ rest) (c :: w) := by
  have := (unitOk_all c (rep_mem h)).2
  unfold unitOk at this
  split at this
  · rename_i b hb
    simp only [Bool.and_eq_true, bne_iff_ne, Bool.not_eq_true', decide_eq_false_iff_not, beq_iff_eq] at this
    obtain ⟨⟨h1, h2⟩, h3⟩ := this
    exact ⟨_, hb, fun rest w hw => by rw [← h3]; exact .char h1 h2 hw⟩
  · rename_i d b hb
    simp only [Bool.and_eq_true, bne_iff_ne, Bool.not_eq_true', decide_eq_false_iff_not, beq_iff_eq, decide_eq_true_eq] at this
    obtain ⟨⟨⟨h1, h2⟩, h3⟩, h4⟩ := this
    exact ⟨_, hb, fun rest w hw => .accent h1 h2 h3 h4 hw⟩
  · cases this

theorem Representable.ne_zero {c} (h : Representable c) : c ≠ 0 := (unitOk_all c (rep_mem h)).1

/-- The bytes of one character of the set: its own, or a diacritical byte and a letter. -/
theorem isoUnit_cases {c : WChar} (h : Representable c) : ∃ o, isoEncodeCharSt isoMade c = .ok o ∧
    ((∃ b, o = [b] ∧ b ≠ 0 ∧ ¬ Diacritic b ∧ mainChar b = c) ∨ (∃ d b, o = [d, b] ∧ Diacritic d ∧ b ≠ 0 ∧ ¬ Diacritic b ∧ accented d b = some c)) := by
  have := (unitOk_all c (rep_mem h)).2
  unfold unitOk at this
  split at this
  · rename_i b hb
    simp only [Bool.and_eq_true, bne_iff_ne, Bool.not_eq_true', decide_eq_false_iff_not, beq_iff_eq] at this
    obtain ⟨⟨h1, h2⟩, h3⟩ := this
    exact ⟨_, hb, .inl ⟨b, rfl, h1, h2, h3⟩⟩
  · rename_i d b hb
    simp only [Bool.and_eq_true, bne_iff_ne, Bool.not_eq_true', decide_eq_false_iff_not, beq_iff_eq, decide_eq_true_eq] at this
    obtain ⟨⟨⟨h1, h2⟩, h3⟩, h4⟩ := this
    exact ⟨_, hb, .inr ⟨d, b, rfl, h1, h2, h3, h4⟩⟩
  · cases this

private theorem repList_valid : ∀ c ∈ repList, c ≤ 0xffff ∧ ¬ (0xd800 ≤ c ∧ c ≤ 0xdfff) := by decide +kernel

theorem Representable.valid {c} (h : Representable c) : c ≤ 0xffff ∧ ¬ (0xd800 ≤ c ∧ c ≤ 0xdfff) := repList_valid c (rep_mem h)

/-- Encoding goes character by character. -/
theorem isoEncode_cons (c : WChar) (s : List WChar) : isoEncode (c :: s) = (do let a ← isoEncodeCharSt isoMade c; let b ← isoEncode s; pure (a ++ b)) := by
  unfold isoEncode isoEncodeSt
  rw [isoEnsure_start, isoEncodeLoop]
  cases isoEncodeCharSt isoMade c with
  | error e => rfl
  | ok a =>
    rw [ok_bind, ok_bind]
    cases isoEncodeLoop isoMade s <;> rfl

/-- C50: decoding the encoding of any text over the character set gives the text back, after any history of
conversions. -/
theorem C50_round_trip {t} (ht : IsoReach t) (s : List WChar) (hs : ∀ c ∈ s, Representable c) :
    ∃ t1 o t2, isoEncodeSt t s = .ok (t1, o) ∧ isoDecodeSt t1 o = .ok (t2, s) := by
  have key : ∃ o, isoEncodeLoop isoMade s = .ok o ∧ IsoText o s := by
    induction s with
    | nil => exact ⟨[], rfl, .nil⟩
    | cons c s ih =>
      obtain ⟨a, ha, hau⟩ := unit_text (hs c (by simp))
      obtain ⟨b, hb, hbt⟩ := ih (fun c h => hs c (by simp [h]))
      exact ⟨a ++ b, by simp only [isoEncodeLoop, ha, hb, ok_bind]; rfl, hau b s hbt⟩
  obtain ⟨o, ho, hot⟩ := key
  have h0 : (0 : WChar) ∉ s := fun h => (hs 0 h).ne_zero rfl
  have he : isoEncodeSt t s = .ok (isoEnsure t, o) := by
    simp only [isoEncodeSt, encodeLoop_same ht.same s h0, ho, ok_bind]; rfl
  obtain ⟨t2, h2⟩ := C53_value (IsoReach.encode ht he) hot
  exact ⟨isoEnsure t, o, t2, he, h2⟩

theorem representable_of_table (c : WChar)
    (hc : (isoMain.any (fun p => p.2 == c && !decide (Diacritic p.1)) || isoDiacriticals.any (fun p => p.2.any (fun q => q.2 == c))) = true) : Representable c := by
  rcases Bool.or_eq_true _ _ ▸ hc with hc | hc
  · obtain ⟨p, hp, h⟩ := List.any_eq_true.mp hc
    simp at h
    exact .inl ⟨p.1, by rw [← h.1]; exact hp, h.2⟩
  · obtain ⟨p, hp, h⟩ := List.any_eq_true.mp hc
    obtain ⟨q, hq, h⟩ := List.any_eq_true.mp h
    simp at h
    exact .inr ⟨p.1, p.2, q.1, hp, by rw [← h]; exact hq⟩

/-- `Größe $ œ` -/
example : ∀ c ∈ [0x47, 0x72, 0xF6, 0xDF, 0x65, 0x20, 0x24, 0x20, 0x153], Representable c := by
  intro c hc
  apply representable_of_table
  revert c
  decide +kernel

/-- The combining marks of the main table are the exception: alone they are lost, and they attach to the
next letter. -/
theorem C50_combining_witness :
    (isoEncode [0x0300, 0x41]).bind isoDecode = .ok [0xC0] ∧ (isoEncode [0x41, 0x0300]).bind isoDecode = .ok [0x41] := by
  decide +kernel

/-- C50: printable ASCII other than the dollar sign is encoded as itself. -/
theorem C50_ascii {t} (ht : IsoReach t) (s : Str) (hs : ∀ b ∈ s, 32 ≤ b ∧ b ≤ 126 ∧ b ≠ 36) :
    ∃ t', isoEncodeSt t (s.map UInt8.toNat) = .ok (t', s) := by
  have h1 : ∀ b : Byte, 32 ≤ b ∧ b ≤ 126 ∧ b ≠ 36 → b.toNat ≠ 0 ∧ (isoEncodeCharSt isoMade b.toNat).toOption = some [b] :=
    forall_byte (p := fun b => 32 ≤ b ∧ b ≤ 126 ∧ b ≠ 36 → b.toNat ≠ 0 ∧ (isoEncodeCharSt isoMade b.toNat).toOption = some [b]) (by decide +kernel)
  refine ⟨isoEnsure t, ?_⟩
  have : isoEncodeLoop (isoEnsure t) (s.map UInt8.toNat) = .ok s := by
    induction s with
    | nil => rfl
    | cons b s ih =>
      obtain ⟨h0, h2⟩ := h1 b (hs b (by simp))
      simp only [List.map_cons, isoEncodeLoop, encodeChar_same ht.same h0, ih (fun b h => hs b (by simp [h]))]
      cases h3 : isoEncodeCharSt isoMade b.toNat with
      | error e => rw [h3] at h2; cases h2
      | ok o => rw [h3] at h2; cases h2; rfl
  simp only [isoEncodeSt, this, ok_bind]; rfl

example : ∀ b ∈ b!"Hello, world! <i>~", 32 ≤ b ∧ b ≤ 126 ∧ b ≠ 36 := by decide

end LibSub
