/-
C128: shifting and scaling times does not change their order.
-/
import Verif.Props.TimeFloat

namespace LibSub

/-! ### Specification -/

/-- The instant that a time denotes, in seconds, at a rate of `v` frames per second. -/
def instantAt (v : ℚ) (t : Time) : ℚ := t.secs + t.frames / v

/-- A time at rate `r` whose frames are those of one second, the first of the next included (`scale` gives such times). -/
structure Usual (r : FRate) (t : Time) : Prop where
  rate : t.rate = some r
  nonneg : 0 ≤ t.frames
  within : (t.frames : ℚ) ≤ r.value

/-! ### Proofs -/

private theorem value_pos {r : FRate} (hn : 0 < r.num) (hd : 0 < r.den) : 0 < r.value := by
  unfold FRate.value
  have h1 : (0 : ℚ) < r.num := by exact_mod_cast hn
  have h2 : (0 : ℚ) < r.den := by exact_mod_cast hd
  positivity

private theorem tdiv_lex {k n m : Int} (hk : 0 < k) (h : n ≤ m) : n.tdiv k < m.tdiv k ∨ n.tdiv k = m.tdiv k ∧ n.tmod k ≤ m.tmod k := by
  rcases lt_or_eq_of_le (Int.tdiv_le_tdiv hk h) with c | c
  · exact .inl c
  · have := Int.mul_tdiv_add_tmod n k
    have := Int.mul_tdiv_add_tmod m k
    rw [c] at *
    exact .inr ⟨rfl, by omega⟩

private theorem toInt_ok {x : ℚ} {n : Int} (h : toInt x = .ok n) : n = truncR x := by
  unfold toInt at h
  split at h
  · injection h with h; exact h.symm
  · cases h

private theorem truncR_mono {x y : ℚ} (h : x ≤ y) : truncR x ≤ truncR y := by
  unfold truncR
  split <;> split
  · exact Rat.floor_monotone h
  · linarith
  · rename_i h1 h2
    have a : (0 : Int) ≤ (-x).floor := Rat.le_floor_iff.2 (by push_cast; linarith)
    have b : (0 : Int) ≤ y.floor := Rat.le_floor_iff.2 (by push_cast; linarith)
    omega
  · have := Rat.floor_monotone (show -y ≤ -x by linarith)
    omega

private theorem inInt_small {m : Int} (h0 : 0 ≤ m) {n : Int} (h : m ≤ n) (hn : InInt n) : InInt m := by
  unfold InInt at *; omega

/-- Milliseconds of a usual time: from 0 to 1000; and which they are at the end of the second. -/
private theorem ms_bounds {r : FRate} {t : Time} {ms : Int} (hn : 0 < r.num) (hd : 0 < r.den) (u : Usual r t) (h : t.milliseconds = .ok ms) :
    0 ≤ ms ∧ ms ≤ 1000 ∧ (t.frames = 0 → ms = 0) ∧ ((t.frames : ℚ) = r.value → ms = 1000) := by
  have hdq : (0 : ℚ) < r.den := by exact_mod_cast hd
  have hnq : (0 : ℚ) < r.num := by exact_mod_cast hn
  simp only [Time.milliseconds, Time.framesAt, u.rate, bind_eq_ok, ck_eq_ok] at h
  obtain ⟨D, ⟨hD, rfl⟩, q, hq, h⟩ := h
  rw [mul_one] at hD hq
  unfold fdiv at hq
  rw [if_neg hnq.ne'] at hq
  injection hq with hq
  have hle : t.frames * r.den ≤ r.num := by
    have := u.within
    unfold FRate.value at this
    rw [le_div_iff₀ hdq] at this
    exact_mod_cast this
  have hf0 := u.nonneg
  have e1 : f64 (t.frames : ℚ) = t.frames := f64_of_inInt (inInt_small hf0 (by nlinarith) hD)
  have e2 : f64 ((t.frames : ℚ) * r.den) = ((t.frames * r.den : Int) : ℚ) := by
    rw [← Int.cast_mul]
    exact f64_of_inInt (inInt_small (mul_nonneg hf0 hd.le) hle hD)
  have e3 : f64 (((t.frames * r.den : Int) : ℚ) * (1000 : Int)) = ((t.frames * r.den * 1000 : Int) : ℚ) := by
    rw [← Int.cast_mul]
    apply f64_int
    have : 0 ≤ t.frames * r.den := mul_nonneg hf0 hd.le
    unfold InInt at hD
    rw [abs_of_nonneg (by omega)]
    omega
  rw [e1, e2, e3] at hq
  have hms : ms = rint (f64 q) := by rw [toInt_ok h, truncR_int]
  have q0 : 0 ≤ q := by
    rw [← hq]
    have : (0 : ℚ) ≤ ((t.frames * r.den * 1000 : Int) : ℚ) := by
      exact_mod_cast mul_nonneg (mul_nonneg hf0 hd.le) (by norm_num)
    positivity
  have q1 : q ≤ ((1000 : Int) : ℚ) := by
    rw [← hq, div_le_iff₀ hnq]
    have : t.frames * r.den * 1000 ≤ 1000 * r.num := by omega
    exact_mod_cast this
  have k1000 : f64 ((1000 : Int) : ℚ) = ((1000 : Int) : ℚ) := f64_of_inInt (by unfold InInt; decide)
  refine ⟨?_, ?_, ?_, ?_⟩
  · have := rint_mono (f64_mono q0)
    rwa [f64_zero, rint_zero, ← hms] at this
  · have := rint_mono (f64_mono q1)
    rwa [k1000, rint_int, ← hms] at this
  · intro z
    rw [hms, ← hq, z]; simp
  · intro z
    have : t.frames * r.den = r.num := by
      unfold FRate.value at z
      rw [eq_div_iff hdq.ne'] at z
      exact_mod_cast z
    have : q = ((1000 : Int) : ℚ) := by
      rw [← hq, this]; push_cast; field_simp
    rw [hms, this, k1000, rint_int]

private theorem seconds_eq {t : Time} {x : ℚ} (h : t.allAsSeconds = .ok x) : ∃ ms, t.milliseconds = .ok ms ∧ x = f64 (t.secs + f64 (f64 ms / 1000)) := by
  unfold Time.allAsSeconds at h
  obtain ⟨ms, h1, h2⟩ := bind_eq_ok.1 h
  exact ⟨ms, h1, by injection h2 with h2; exact h2.symm⟩

private theorem fraction_bounds {ms : Int} (h0 : 0 ≤ ms) (h1 : ms ≤ 1000) : 0 ≤ f64 (f64 ms / 1000) ∧ f64 (f64 ms / 1000) ≤ 1 := by
  have e : f64 (ms : ℚ) = ms := f64_of_inInt (by unfold InInt; omega)
  rw [e]
  have a : (0 : ℚ) ≤ ms := by exact_mod_cast h0
  have b : (ms : ℚ) ≤ 1000 := by exact_mod_cast h1
  have k : f64 ((1 : Int) : ℚ) = ((1 : Int) : ℚ) := f64_of_inInt (by unfold InInt; decide)
  constructor
  · have := f64_mono (show (0 : ℚ) ≤ (ms : ℚ) / 1000 by positivity)
    rwa [f64_zero] at this
  · have := f64_mono (show (ms : ℚ) / 1000 ≤ ((1 : Int) : ℚ) by push_cast; rw [div_le_one (by norm_num)]; exact b)
    rw [k] at this
    exact_mod_cast this

private theorem seconds_mono {r : FRate} {a b : Time} {x y : ℚ} (hn : 0 < r.num) (hd : 0 < r.den) (ua : Usual r a) (ub : Usual r b)
    (hle : instantAt r.value a ≤ instantAt r.value b) (hx : a.allAsSeconds = .ok x) (hy : b.allAsSeconds = .ok y) : x ≤ y := by
  obtain ⟨ma, hma, rfl⟩ := seconds_eq hx
  obtain ⟨mb, hmb, rfl⟩ := seconds_eq hy
  obtain ⟨a0, a1, a2, a3⟩ := ms_bounds hn hd ua hma
  obtain ⟨b0, b1, b2, b3⟩ := ms_bounds hn hd ub hmb
  obtain ⟨fa0, fa1⟩ := fraction_bounds a0 a1
  obtain ⟨fb0, fb1⟩ := fraction_bounds b0 b1
  have hv := value_pos hn hd
  apply f64_mono
  unfold instantAt at hle
  have na : (0 : ℚ) ≤ a.frames := by exact_mod_cast ua.nonneg
  have nb : (0 : ℚ) ≤ b.frames := by exact_mod_cast ub.nonneg
  have qa : (a.frames : ℚ) / r.value ≤ 1 := (div_le_one hv).2 ua.within
  have qb : (b.frames : ℚ) / r.value ≤ 1 := (div_le_one hv).2 ub.within
  have qa0 : 0 ≤ (a.frames : ℚ) / r.value := by positivity
  have qb0 : 0 ≤ (b.frames : ℚ) / r.value := by positivity
  rcases lt_trichotomy a.secs b.secs with c | c | c
  · have : (a.secs : ℚ) + 1 ≤ b.secs := by exact_mod_cast c
    linarith
  · rw [c] at hle ⊢
    have hf : (a.frames : ℚ) ≤ b.frames := by
      have : (a.frames : ℚ) / r.value ≤ b.frames / r.value := by linarith
      exact (div_le_div_iff_of_pos_right hv).1 this
    have hm : ma ≤ mb := C08_monotone a b r ⟨1000, 1⟩ ma mb ua.rate ub.rate hn hd.le (by decide) (by decide) (by exact_mod_cast hf) hma hmb
    have := f64_mono (show (ma : ℚ) ≤ mb by exact_mod_cast hm)
    have := f64_mono (show f64 (ma : ℚ) / 1000 ≤ f64 mb / 1000 by linarith)
    linarith
  · have hc : (b.secs : ℚ) + 1 ≤ a.secs := by exact_mod_cast c
    have e1 : (a.frames : ℚ) / r.value = 0 := by linarith
    have e2 : (b.frames : ℚ) / r.value = 1 := by linarith
    have e3 : (a.secs : ℚ) = b.secs + 1 := by linarith
    have z : a.frames = 0 := by
      rcases div_eq_zero_iff.1 e1 with z | z
      · exact_mod_cast z
      · exact absurd z hv.ne'
    have w : (b.frames : ℚ) = r.value := (div_eq_one_iff_eq hv.ne').1 e2
    rw [a2 z, b3 w, e3]
    have k : f64 ((1000 : Int) : ℚ) = ((1000 : Int) : ℚ) := f64_of_inInt (by unfold InInt; decide)
    have k' : f64 ((1 : Int) : ℚ) = ((1 : Int) : ℚ) := f64_of_inInt (by unfold InInt; decide)
    rw [k]
    push_cast at k' ⊢
    norm_num at k' ⊢
    rw [k']

/-- In order, as far as `secs` and `frames` tell. -/
private def LexLe (a b : Time) : Prop := a.secs < b.secs ∨ a.secs = b.secs ∧ a.frames ≤ b.frames

private theorem not_lt_of_lex {r : FRate} {a b : Time} (ha : a.rate = some r) (hb : b.rate = some r) (hp : 0 < r.num * r.den)
    (h : LexLe a b) : b.lt a ≠ .ok true := by
  intro e
  unfold Time.lt at e
  rcases h with h | ⟨h, h'⟩
  · rw [if_pos (by omega)] at e
    injection e with e
    have := of_decide_eq_true e
    omega
  · rw [if_neg (by omega), ha, hb] at e
    simp only [bind_eq_ok, Time.scaled, ck_eq_ok] at e
    obtain ⟨l, ⟨_, ⟨_, rfl⟩, ⟨_, rfl⟩⟩, r', ⟨_, ⟨_, rfl⟩, ⟨_, rfl⟩⟩, e⟩ := e
    injection e with e
    have := of_decide_eq_true e
    have : a.frames * r.num * r.den ≤ b.frames * r.num * r.den := by
      rw [mul_assoc, mul_assoc]; gcongr
    omega

private theorem integer_spec {r : FRate} {k : Int} (h0 : r.den ≠ 0) (h : r.integer = .ok true) (hk : r.integerFraction = .ok k) : r.num = r.den * k ∧ r.value = k ∧ InInt k := by
  unfold FRate.integer cmod at h
  rw [if_neg h0] at h
  split at h
  · unfold FRate.integerFraction cdiv at hk
    rw [if_neg h0] at hk
    obtain ⟨hi, rfl⟩ := ck_eq_ok.1 hk
    have h := (show decide (r.num.tmod r.den = 0) = true by simpa using h)
    have h := of_decide_eq_true h
    have e := Int.mul_tdiv_add_tmod r.num r.den
    rw [h, add_zero] at e
    refine ⟨e.symm, ?_, hi⟩
    unfold FRate.value
    have : (r.den : ℚ) ≠ 0 := by exact_mod_cast h0
    rw [div_eq_iff this, mul_comm]
    exact_mod_cast e.symm
  · cases h

private theorem fromFrames_spec {n : Int} {r : FRate} {t : Time} (h : Time.fromFrames n r = .ok t) :
    ∃ k : Int, k ≠ 0 ∧ r.den ≠ 0 ∧ r.num = r.den * k ∧ r.value = k ∧ InInt k ∧ t = ⟨n.tdiv k, n.tmod k, some r⟩ := by
  unfold Time.fromFrames at h
  obtain ⟨_, h1, h⟩ := bind_eq_ok.1 h
  obtain ⟨i, h2, h⟩ := bind_eq_ok.1 h
  obtain ⟨_, h3, h⟩ := bind_eq_ok.1 h
  obtain ⟨k, h4, h⟩ := bind_eq_ok.1 h
  obtain ⟨s, h5, h⟩ := bind_eq_ok.1 h
  obtain ⟨f, h6, h⟩ := bind_eq_ok.1 h
  injection h with h
  have hd : r.den ≠ 0 := by
    intro z
    rw [z] at h1
    cases h1
  have hi : i = true := by
    cases i
    · cases h3
    · rfl
  subst hi
  obtain ⟨e1, e2, e3⟩ := integer_spec hd h2 h4
  have hk : k ≠ 0 := by
    rintro rfl
    cases h5
  unfold cdiv at h5
  rw [if_neg hk] at h5
  obtain ⟨hi, rfl⟩ := ck_eq_ok.1 h5
  unfold cmod at h6
  rw [if_neg hk, if_pos hi] at h6
  injection h6 with h6
  exact ⟨k, hk, hd, e1, e2, e3, by rw [← h, ← h6]⟩

private theorem fraction_eq {r : FRate} {v : ℚ} (h : r.fraction = .ok v) : v = f64 r.value := by
  unfold FRate.fraction fdiv at h
  split at h
  · cases h
  · injection h with h; exact h.symm

private theorem nonneg_of_f64 {k : Int} (hi : InInt k) (h : 0 ≤ f64 (k : ℚ)) : 0 ≤ k := by
  rw [f64_of_inInt hi] at h
  exact_mod_cast h

private theorem add_spec {a d t : Time} {r : FRate} (ha : a.rate = some r) (h : a.add d = .ok t) :
    ∃ (rd rr : FRate) (va v x y : ℚ), d.rate = some rd ∧ FRate.max r rd = .ok rr ∧ (rr = r ∨ rr = rd) ∧ r.fraction = .ok va ∧ rr.fraction = .ok v ∧ va ≤ v ∧
      a.allAsSeconds = .ok x ∧ d.allAsSeconds = .ok y ∧ Time.fromFrames (truncR (f64 (f64 (x + y) * v))) rr = .ok t := by
  unfold Time.add at h
  rw [ha] at h
  cases hr : d.rate with
  | none => rw [hr] at h; cases h
  | some rd =>
    rw [hr] at h
    simp only [bind_eq_ok] at h
    obtain ⟨rr, h1, x, h2, y, h3, v, h4, n, h5, h⟩ := h
    have h0 := h1
    unfold FRate.max at h1
    obtain ⟨fa, g1, h1⟩ := bind_eq_ok.1 h1
    obtain ⟨fb, g2, h1⟩ := bind_eq_ok.1 h1
    injection h1 with h1
    rw [toInt_ok h5] at h
    split at h1
    · subst h1
      exact ⟨rd, r, fa, v, x, y, rfl, h0, .inl rfl, g1, h4, by rw [g1] at h4; injection h4 with h4; exact h4.le, h2, h3, h⟩
    · rename_i c
      subst h1
      exact ⟨rd, rd, fa, v, x, y, rfl, h0, .inr rfl, g1, h4, by rw [g2] at h4; injection h4 with h4; rw [← h4]; push Not at c; exact c, h2, h3, h⟩

/-- C128: two times at one rate with the same time added to each are in the order in which they were, as the instants that they
denote and as `<` sees them; the results are at one rate. -/
theorem C128_add {r : FRate} {a b d a' b' : Time} (hn : 0 < r.num) (hd : 0 < r.den) (ua : Usual r a) (ub : Usual r b)
    (hle : instantAt r.value a ≤ instantAt r.value b) (ha : a.add d = .ok a') (hb : b.add d = .ok b') :
    ∃ rr, (rr = r ∨ d.rate = some rr) ∧ 0 < rr.value ∧ a'.rate = some rr ∧ b'.rate = some rr ∧
      instantAt rr.value a' ≤ instantAt rr.value b' ∧ b'.lt a' ≠ .ok true := by
  obtain ⟨rd, rr, va, v, x, y, h1, h2, h3, h4, h5, h6, h7, h8, h9⟩ := add_spec ua.rate ha
  obtain ⟨rd', rr', va', v', x', y', g1, g2, g3, g4, g5, g6, g7, g8, g9⟩ := add_spec ub.rate hb
  obtain rfl : rd = rd' := by rw [h1] at g1; injection g1
  obtain rfl : rr = rr' := by rw [h2] at g2; injection g2
  obtain rfl : v = v' := by rw [h5] at g5; injection g5
  obtain rfl : y = y' := by rw [h8] at g8; injection g8
  have hx := seconds_mono hn hd ua ub hle h7 g7
  have hv : 0 ≤ v := by
    refine le_trans ?_ h6
    rw [fraction_eq h4]
    have := f64_mono (value_pos hn hd).le
    rwa [f64_zero] at this
  obtain ⟨k, k0, kd, e1, e2, e3, rfl⟩ := fromFrames_spec h9
  obtain ⟨k', _, _, _, e2', _, rfl⟩ := fromFrames_spec g9
  obtain rfl : k = k' := by rw [e2] at e2'; exact_mod_cast e2'
  have kpos : 0 < k := by
    have := nonneg_of_f64 e3 (by rw [← e2, ← fraction_eq h5]; exact hv)
    omega
  have hnm : truncR (f64 (f64 (x + y) * v)) ≤ truncR (f64 (f64 (x' + y) * v)) := by
    apply truncR_mono
    apply f64_mono
    apply mul_le_mul_of_nonneg_right _ hv
    apply f64_mono
    linarith
  have kq : (0 : ℚ) < k := by exact_mod_cast kpos
  have inst : ∀ n : Int, instantAt rr.value ⟨n.tdiv k, n.tmod k, some rr⟩ = (n : ℚ) / k := by
    intro n
    unfold instantAt
    rw [e2, eq_div_iff kq.ne', add_mul, div_mul_cancel₀ _ kq.ne', mul_comm]
    exact_mod_cast Int.mul_tdiv_add_tmod n k
  refine ⟨rr, h3.imp id (fun e => by rw [e]; exact h1), by rw [e2]; exact kq, rfl, rfl, ?_, ?_⟩
  · rw [inst, inst, div_le_div_iff_of_pos_right kq]
    exact_mod_cast hnm
  · exact not_lt_of_lex rfl rfl (by rw [e1]; nlinarith [sq_nonneg rr.den, Int.one_le_abs kd, mul_self_pos.2 kd]) (tdiv_lex kpos hnm)

private theorem scale_spec {t u : Time} {r : FRate} {f : ℚ} (ht : t.rate = some r) (h : t.scale f = .ok u) :
    ∃ (k : Int) (x : ℚ), r.den ≠ 0 ∧ r.num = r.den * k ∧ r.value = k ∧ InInt k ∧ t.allAsSeconds = .ok x ∧
      u = ⟨(f64 (x * f)).floor, rint (f64 (f64 (f64 (x * f) - (f64 (x * f)).floor) * f64 k)), some r⟩ := by
  unfold Time.scale at h
  rw [ht] at h
  simp only [bind_eq_ok] at h
  obtain ⟨_, h1, i, h2, _, h3, x, h4, secs, h5, v, h6, fr, h7, h⟩ := h
  injection h with h
  have hd : r.den ≠ 0 := by
    intro z
    rw [z] at h1
    cases h1
  have hi : i = true := by
    cases i
    · cases h3
    · rfl
  subst hi
  have hk : ∃ k, r.integerFraction = .ok k := by
    unfold FRate.integer cmod at h2
    rw [if_neg hd] at h2
    unfold FRate.integerFraction cdiv
    rw [if_neg hd]
    split at h2
    · rename_i c
      exact ⟨_, ck_eq_ok.2 ⟨c, rfl⟩⟩
    · cases h2
  obtain ⟨k, hk⟩ := hk
  obtain ⟨e1, e2, e3⟩ := integer_spec hd h2 hk
  have es : secs = (f64 (x * f)).floor := by rw [toInt_ok h5, truncR_int]
  refine ⟨k, x, hd, e1, e2, e3, h4, ?_⟩
  rw [← h, toInt_ok h7, truncR_int, fraction_eq h6, e2, es]

/-- C128: two times at one rate, both scaled by the same factor that is not negative, are in the order in which they were, as
the instants that they denote and as `<` sees them, and are usual times again. -/
theorem C128_scale {r : FRate} {a b a' b' : Time} {f : ℚ} (hn : 0 < r.num) (hd : 0 < r.den) (hf : 0 ≤ f) (ua : Usual r a) (ub : Usual r b)
    (hle : instantAt r.value a ≤ instantAt r.value b) (ha : a.scale f = .ok a') (hb : b.scale f = .ok b') :
    Usual r a' ∧ Usual r b' ∧ instantAt r.value a' ≤ instantAt r.value b' ∧ b'.lt a' ≠ .ok true := by
  obtain ⟨k, x, h0, e1, e2, e3, hx, rfl⟩ := scale_spec ua.rate ha
  obtain ⟨k', y, _, _, e2', _, hy, rfl⟩ := scale_spec ub.rate hb
  obtain rfl : k = k' := by rw [e2] at e2'; exact_mod_cast e2'
  have hxy := seconds_mono hn hd ua ub hle hx hy
  have hs : f64 (x * f) ≤ f64 (y * f) := f64_mono (mul_le_mul_of_nonneg_right hxy hf)
  generalize f64 (x * f) = s at *
  generalize f64 (y * f) = u at *
  have kq : (0 : ℚ) < k := by rw [← e2]; exact value_pos hn hd
  have ek : f64 (k : ℚ) = k := f64_of_inInt e3
  have one : f64 ((1 : Int) : ℚ) = ((1 : Int) : ℚ) := f64_of_inInt (by unfold InInt; decide)
  have rest : ∀ z : ℚ, 0 ≤ z - z.floor ∧ z - z.floor ≤ 1 := by
    intro z
    have h1 := Rat.floor_le z
    have h2 := Rat.lt_floor (x := z)
    constructor <;> linarith
  have us : ∀ z : ℚ, Usual r ⟨z.floor, rint (f64 (f64 (z - z.floor) * f64 k)), some r⟩ := by
    intro z
    obtain ⟨z0, z1⟩ := rest z
    have a0 : 0 ≤ f64 (z - z.floor) := by have := f64_mono z0; rwa [f64_zero] at this
    have a1 : f64 (z - z.floor) ≤ 1 := by
      have := f64_mono (show z - z.floor ≤ ((1 : Int) : ℚ) by push_cast; exact z1)
      rw [one] at this
      exact_mod_cast this
    refine ⟨rfl, ?_, ?_⟩
    · have := rint_mono (f64_mono (show (0 : ℚ) ≤ f64 (z - z.floor) * f64 k by rw [ek]; positivity))
      rwa [f64_zero, rint_zero] at this
    · have := rint_mono (f64_mono (show f64 (z - z.floor) * f64 k ≤ (k : ℚ) by rw [ek]; nlinarith))
      rw [ek, rint_int] at this
      rw [e2]
      rw [ek]
      exact_mod_cast this
  have hl : LexLe ⟨s.floor, rint (f64 (f64 (s - s.floor) * f64 k)), some r⟩ ⟨u.floor, rint (f64 (f64 (u - u.floor) * f64 k)), some r⟩ := by
    rcases lt_or_eq_of_le (Rat.floor_monotone hs) with c | c
    · exact .inl c
    · refine .inr ⟨c, ?_⟩
      show rint _ ≤ rint _
      apply rint_mono
      apply f64_mono
      rw [ek]
      apply mul_le_mul_of_nonneg_right _ kq.le
      apply f64_mono
      rw [c]
      linarith
  refine ⟨us s, us u, ?_, not_lt_of_lex rfl rfl (mul_pos hn hd) hl⟩
  have ws := (us s).within
  have nu := (us u).nonneg
  unfold instantAt
  rcases hl with c | ⟨c, c'⟩
  · have c1 : ((⟨s.floor, rint (f64 (f64 (s - s.floor) * f64 k)), some r⟩ : Time).secs : ℚ) + 1 ≤ ((⟨u.floor, rint (f64 (f64 (u - u.floor) * f64 k)), some r⟩ : Time).secs : ℚ) := by exact_mod_cast c
    have c2 : ((⟨s.floor, rint (f64 (f64 (s - s.floor) * f64 k)), some r⟩ : Time).frames : ℚ) / r.value ≤ 1 := (div_le_one (value_pos hn hd)).2 ws
    have c3 : (0 : ℚ) ≤ ((⟨u.floor, rint (f64 (f64 (u - u.floor) * f64 k)), some r⟩ : Time).frames : ℚ) / r.value :=
      div_nonneg (by exact_mod_cast nu) (value_pos hn hd).le
    linarith
  · rw [c]
    have : ((⟨s.floor, rint (f64 (f64 (s - s.floor) * f64 k)), some r⟩ : Time).frames : ℚ) ≤ ((⟨u.floor, rint (f64 (f64 (u - u.floor) * f64 k)), some r⟩ : Time).frames : ℚ) := by exact_mod_cast c'
    have := (div_le_div_iff_of_pos_right (value_pos hn hd)).2 this
    linarith

private def tA : Time := ⟨3, 999, some ⟨1000, 1⟩⟩
private def tB : Time := ⟨4, 0, some ⟨1000, 1⟩⟩
private def tD : Time := ⟨1, 13, some ⟨24, 1⟩⟩

example : Usual ⟨1000, 1⟩ tA ∧ Usual ⟨1000, 1⟩ tB ∧ instantAt (FRate.value ⟨1000, 1⟩) tA ≤ instantAt (FRate.value ⟨1000, 1⟩) tB ∧
    tA.add tD = .ok ⟨5, 541, some ⟨1000, 1⟩⟩ ∧ tB.add tD = .ok ⟨5, 542, some ⟨1000, 1⟩⟩ :=
  ⟨⟨rfl, by decide, by decide +kernel⟩, ⟨rfl, by decide, by decide +kernel⟩, by decide +kernel, by decide +kernel, by decide +kernel⟩

example : Usual ⟨1000, 1⟩ tA ∧ Usual ⟨1000, 1⟩ tB ∧ tA.scale (25 / 16) = .ok ⟨6, 248, some ⟨1000, 1⟩⟩ ∧ tB.scale (25 / 16) = .ok ⟨6, 250, some ⟨1000, 1⟩⟩ :=
  ⟨⟨rfl, by decide, by decide +kernel⟩, ⟨rfl, by decide, by decide +kernel⟩, by decide +kernel, by decide +kernel⟩

/-- C128: different times may become equal when the same time is added to both: here a millisecond of one is lost. -/
theorem C128_equal_witness : (⟨1, 0, some ⟨1000, 1⟩⟩ : Time).lt ⟨1, 1, some ⟨1000, 1⟩⟩ = .ok true ∧
    (⟨1, 0, some ⟨1000, 1⟩⟩ : Time).add ⟨0, 0, some ⟨1000, 1⟩⟩ = .ok ⟨1, 0, some ⟨1000, 1⟩⟩ ∧
    (⟨1, 1, some ⟨1000, 1⟩⟩ : Time).add ⟨0, 0, some ⟨1000, 1⟩⟩ = .ok ⟨1, 0, some ⟨1000, 1⟩⟩ := by decide +kernel

/-- A time of `n` milliseconds. -/
def timeMs (n : Int) : Time := ⟨n / 1000, n % 1000, some ⟨1000, 1⟩⟩

theorem timeMs_scaled (k : Int) : Time.scaled (k % 1000) ⟨1000, 1⟩ ⟨1000, 1⟩ = .ok (k % 1000 * 1000) := by
  have p : InInt (k % 1000 * 1000) := by unfold InInt; omega
  unfold Time.scaled
  rw [ck_eq_ok.2 ⟨p, rfl⟩]
  simp only [ok_bind]
  exact ck_eq_ok.2 ⟨by simpa using p, by simp⟩

theorem timeMs_lt (a b : Int) : (timeMs a).lt (timeMs b) = .ok (decide (a < b)) := by
  unfold Time.lt timeMs
  dsimp only
  split
  · congr 1
    rw [decide_eq_decide]
    omega
  · rw [timeMs_scaled a, timeMs_scaled b]
    simp only [ok_bind, pure_eq_ok]
    congr 1
    rw [decide_eq_decide]
    omega

theorem timeMs_eq (a b : Int) : (timeMs a).eq (timeMs b) = .ok (decide (a = b)) := by
  unfold Time.eq timeMs
  dsimp only
  split
  · congr 1
    rw [eq_comm, decide_eq_false_iff_not]
    rintro rfl
    contradiction
  · rw [timeMs_scaled a, timeMs_scaled b]
    simp only [ok_bind, pure_eq_ok]
    congr 1
    rw [decide_eq_decide]
    omega

/-- C128: the distance of two times in milliseconds is, after adding the same time to both, the same or one millisecond more or less; so times that are two
milliseconds apart stay apart. -/
theorem C128_distance {m n d : Int} {m' n' : Time} (hm : 0 ≤ m) (hmn : m ≤ n) (hd : 0 ≤ d) (hfit : n + d ≤ 2147483646)
    (h1 : (timeMs m).add (timeMs d) = .ok m') (h2 : (timeMs n).add (timeMs d) = .ok n') :
    ∃ a b : Int, m' = timeMs a ∧ n' = timeMs b ∧ a ≤ b ∧ b - a ≤ n - m + 1 ∧ n - m - 1 ≤ b - a ∧ (m + 2 ≤ n → m'.lt n' = .ok true) := by
  have step : ∀ k, 0 ≤ k → k ≤ n → ∀ t, (timeMs k).add (timeMs d) = .ok t → ∃ c : Int, t = timeMs c ∧ (c = k + d ∨ c = k + d - 1) := by
    intro k k0 kn t ht
    obtain ⟨t', g1, g2, g3, g4, g5⟩ := C09_add_milliseconds (k / 1000) (k % 1000) (d / 1000) (d % 1000) (by omega) (by omega) (by omega) (by omega)
      (by unfold InInt; omega) (by unfold InInt; omega) (by omega)
    have : t = t' := by
      have := ht.symm.trans g1
      injection this
    subst this
    refine ⟨1000 * t.secs + t.frames, ?_, by omega⟩
    cases t
    simp only at g2 g3 g4
    simp only [timeMs, g2, Time.mk.injEq, and_true]
    constructor <;> omega
  obtain ⟨a, rfl, ha⟩ := step m hm hmn _ h1
  obtain ⟨b, rfl, hb⟩ := step n (by omega) le_rfl _ h2
  have us : ∀ k : Int, Usual ⟨1000, 1⟩ (timeMs k) := by
    intro k
    refine ⟨rfl, by unfold timeMs; dsimp only; omega, ?_⟩
    have : k % 1000 ≤ 1000 := by omega
    have : ((k % 1000 : Int) : ℚ) ≤ ((1000 : Int) : ℚ) := Int.cast_le.2 this
    unfold timeMs FRate.value
    simpa using this
  have inst : ∀ k : Int, instantAt (FRate.value ⟨1000, 1⟩) (timeMs k) = (k : ℚ) / 1000 := by
    intro k
    have : 1000 * (k / 1000) + k % 1000 = k := by omega
    have : (1000 : ℚ) * ((k / 1000 : Int) : ℚ) + ((k % 1000 : Int) : ℚ) = k := by exact_mod_cast this
    unfold instantAt timeMs FRate.value
    push_cast
    linarith
  obtain ⟨rr, h3, h4, h5, h6, h7, h8⟩ := C128_add (r := ⟨1000, 1⟩) (by decide) (by decide) (us m) (us n)
    (by rw [inst, inst]; have : (m : ℚ) ≤ n := by exact_mod_cast hmn
        linarith) h1 h2
  obtain rfl : rr = ⟨1000, 1⟩ := by
    have : some (⟨1000, 1⟩ : FRate) = some rr := h5
    injection this with this
    exact this.symm
  rw [inst, inst] at h7
  have hab : a ≤ b := by
    have : (a : ℚ) ≤ b := by linarith
    exact_mod_cast this
  refine ⟨a, b, rfl, rfl, hab, by omega, by omega, ?_⟩
  intro h
  rw [timeMs_lt, decide_eq_true]
  omega

example : (timeMs 3999).add (timeMs 1541) = .ok (timeMs 5540) ∧ (timeMs 4001).add (timeMs 1541) = .ok (timeMs 5542) := by decide +kernel

end LibSub
