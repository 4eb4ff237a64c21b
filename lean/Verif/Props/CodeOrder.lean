/-
Property C147: the time codes in a binary STL file are in the order of the times they are written for.
-/
import Verif.Props.StlReadable
import Verif.Props.StlExact
import Mathlib.Tactic.Linarith
import Mathlib.Tactic.FieldSimp
import Mathlib.Tactic.NormNum
import Mathlib.Tactic.Positivity
import Mathlib.Tactic.Ring

namespace LibSub

/-! ### Specification -/

/-- The instant `x` (in seconds) that a time stands for: a time of less than 256 hours at a rate, with frames that count within the second. -/
inductive StandsFor : Time → ℚ → Prop where
  | mk (secs frames num den : Int) : 0 ≤ secs → secs < 921600 → 0 < num → num ≤ 1000000 → 0 < den → 0 ≤ frames → frames * den < num →
      StandsFor ⟨secs, frames, some ⟨num, den⟩⟩ (secs + frames * den / num)

/-- Four bytes read as a number, the first byte counting most. -/
def codeNumber (c : Str) : Nat := c.foldl (fun n x => n * 256 + x.toNat) 0

/-- The block `b` gives the time `t` of the subtitle `s` the code `c`: bytes 5 to 8 for the start, 9 to 12 for the end. -/
inductive GivesCode (s : Subtitle) (b : Str) : Time → Str → Prop where
  | start : GivesCode s b s.from_ ((b.drop 5).take 4)
  | stop : GivesCode s b s.to_ ((b.drop 9).take 4)

/-! ### Proofs -/

/-- The number of frames for an exact quotient: nothing is lost in the products, and the rounded quotient does not cross the middle between two numbers. -/
private theorem frames_near {a d : Int} (ha : 0 ≤ a) (hd : 0 < d) (hd' : d ≤ 10 ^ 9) (hle : a ≤ 255 * d) :
    |(rint (f64 ((a : ℚ) / d)) : ℚ) - (a : ℚ) / d| ≤ 1 / 2 := by
  have hdq : (0 : ℚ) < d := by exact_mod_cast hd
  have hd'' : (d : ℚ) ≤ 10 ^ 9 := by exact_mod_cast hd'
  have ha' : (0 : ℚ) ≤ a := by exact_mod_cast ha
  have hq0 : 0 ≤ (a : ℚ) / d := by positivity
  have hq1 : (a : ℚ) / d ≤ 255 := by rw [div_le_iff₀ hdq]; exact_mod_cast hle
  have he := f64_err ((a : ℚ) / d)
  rw [abs_of_nonneg hq0] at he
  obtain ⟨e1, e2⟩ := abs_le.1 he
  have eps : (a : ℚ) / d / 2 ^ 53 < 1 / (2 * d) := by
    rw [div_lt_div_iff₀ (by positivity) (by positivity)]
    nlinarith
  have r1 := rint_le (f64 ((a : ℚ) / d))
  have r2 := le_rint (f64 ((a : ℚ) / d))
  set m := rint (f64 ((a : ℚ) / d)) with hm
  have hqd : (a : ℚ) / d * d = a := by field_simp
  rw [abs_le]
  have step : ∀ z : Int, (0 : ℚ) < z / (2 * d) → (z : ℚ) / (2 * d) < 1 / (2 * d) → False := by
    intro z h1 h2
    rw [div_lt_div_iff_of_pos_right (by positivity)] at h2
    have h3 : (0 : ℚ) < z := by
      by_contra hc
      have := div_nonpos_of_nonpos_of_nonneg (not_lt.1 hc) (by positivity : (0 : ℚ) ≤ 2 * d)
      linarith
    have h4 : (0 : Int) < z := by exact_mod_cast h3
    have h5 : z < 1 := by exact_mod_cast h2
    omega
  constructor
  · by_contra hc
    have hz : ((2 * a - 2 * m * d - d : Int) : ℚ) / (2 * d) = (a : ℚ) / d - m - 1 / 2 := by push_cast; field_simp
    exact step (2 * a - 2 * m * d - d) (by rw [hz]; linarith) (by rw [hz]; linarith)
  · by_contra hc
    have hz : ((2 * m * d - d - 2 * a : Int) : ℚ) / (2 * d) = m - (a : ℚ) / d - 1 / 2 := by push_cast; field_simp; ring
    exact step (2 * m * d - d - 2 * a) (by rw [hz]; linarith) (by rw [hz]; linarith)

/-- What `frames_at` gives for the rate of the writer. -/
private theorem frames_eq {secs frames num den n f : Int} (hn : 0 < num) (hn' : num ≤ 1000000) (hd : 0 < den) (h0 : 0 ≤ frames) (h1 : frames * den < num) (hw : 0 < n) (hw' : n ≤ 255000)
    (h : (⟨secs, frames, some ⟨num, den⟩⟩ : Time).framesAt ⟨n, 1000⟩ = .ok f) : f = rint (f64 (((frames * den * n : Int) : ℚ) / ((num * 1000 : Int) : ℚ))) := by
  have hfd : 0 ≤ frames * den := mul_nonneg h0 hd.le
  have hfr : frames ≤ frames * den := le_mul_of_one_le_right h0 hd
  have hp : frames * den * n ≤ 1000000 * 255000 := mul_le_mul (by omega) hw' hw.le (by norm_num)
  have hp0 : 0 ≤ frames * den * n := mul_nonneg hfd hw.le
  simp only [Time.framesAt, bind_eq_ok, ck_eq_ok] at h
  obtain ⟨D, ⟨hD, rfl⟩, q, hq, h⟩ := h
  rw [f64_int (by rw [abs_le]; constructor <;> omega), show (frames : ℚ) * (den : ℚ) = ((frames * den : Int) : ℚ) by push_cast; ring,
    f64_int (by rw [abs_le]; constructor <;> omega), show ((frames * den : Int) : ℚ) * (n : ℚ) = ((frames * den * n : Int) : ℚ) by push_cast; ring,
    f64_int (by rw [abs_le]; constructor <;> omega)] at hq
  unfold fdiv at hq
  split at hq
  · cases hq
  · cases hq
    unfold toInt at h
    split at h
    · injection h with h; rw [truncR_int] at h; exact h.symm
    · cases h

/-- The bytes of a code. -/
private theorem code_bytes {fps : ℚ} {n : Int} (hn : WriterRate fps n) (hw : 0 < n) (hw' : n ≤ 255000) {s : Subtitle} {bs : List Str} (h : ttiBlocks fps s = .ok bs) {b : Str} (hb : b ∈ bs)
    {x' y' : ℚ} (hx' : StandsFor s.from_ x') (hy' : StandsFor s.to_ y') {t : Time} {c : Str} (hc : GivesCode s b t c) :
    ∃ h m sec f : Byte, c = [h, m, sec, f] ∧ (h.toNat : Int) * 3600 + m.toNat * 60 + sec.toNat = t.secs ∧ m.toNat < 60 ∧ sec.toNat < 60 ∧
      ∃ num den : Int, t.rate = some ⟨num, den⟩ ∧ (f.toNat : Int) = rint (f64 (((t.frames * den * n : Int) : ℚ) / ((num * 1000 : Int) : ℚ))) := by
  have bounds : ∀ {t : Time} {x : ℚ}, StandsFor t x → 0 ≤ t.secs ∧ t.secs < 921600 := by rintro _ _ ⟨⟩; constructor <;> assumption
  obtain ⟨ff, tf, hff, htf, hall⟩ := C62_bytes fps s bs h n hn (bounds hx') (bounds hy')
  obtain ⟨h1, m1, s1, h2, m2, s2, e, p1, p2, p3, p4, p5, p6⟩ := hall b hb
  have lb : ∀ {t : Time} {x : ℚ} {f : Int}, StandsFor t x → t.framesAt ⟨n, 1000⟩ = .ok f → ∃ num den : Int, t.rate = some ⟨num, den⟩ ∧
      ((lowByte f).toNat : Int) = rint (f64 (((t.frames * den * n : Int) : ℚ) / ((num * 1000 : Int) : ℚ))) := by
    rintro _ _ f ⟨secs, frames, num, den, a1, a2, a3, a4, a5, a6, a7⟩ hf
    refine ⟨num, den, rfl, ?_⟩
    have e := frames_eq a3 a4 a5 a6 a7 hw hw' hf
    rw [← e]
    have hd : (0 : Int) < num * 1000 := by omega
    have ha : 0 ≤ frames * den * n := mul_nonneg (mul_nonneg a6 a5.le) hw.le
    have hle : frames * den * n ≤ 255 * (num * 1000) := by nlinarith [mul_nonneg a6 a5.le]
    have hmono := rint_mono (f64_mono (x := ((frames * den * n : Int) : ℚ) / ((num * 1000 : Int) : ℚ)) (y := ((255 : Int) : ℚ)) (by
      rw [div_le_iff₀ (by exact_mod_cast hd)]; exact_mod_cast hle))
    have hmono0 := rint_mono (f64_mono (x := ((0 : Int) : ℚ)) (y := ((frames * den * n : Int) : ℚ) / ((num * 1000 : Int) : ℚ)) (by
      rw [Int.cast_zero]; exact div_nonneg (by exact_mod_cast ha) (by exact_mod_cast hd.le)))
    rw [← e, f64_int (by norm_num), rint_int] at hmono hmono0
    unfold lowByte
    rw [UInt8.toNat_ofNat']
    have : f.emod 256 = f := Int.emod_eq_of_lt hmono0 (by omega)
    rw [this]
    omega
  have e4 : (b.drop 5).take 4 = [h1, m1, s1, lowByte ff] := by
    have := congrArg (List.take 4) e
    rwa [List.take_take] at this
  have e9 : (b.drop 9).take 4 = [h2, m2, s2, lowByte tf] := by
    have := congrArg (List.drop 4) e
    rwa [List.drop_take, List.drop_drop] at this
  cases hc with
  | start => obtain ⟨num, den, q1, q2⟩ := lb hx' hff; exact ⟨h1, m1, s1, lowByte ff, e4, p1, p2, p3, num, den, q1, q2⟩
  | stop => obtain ⟨num, den, q1, q2⟩ := lb hy' htf; exact ⟨h2, m2, s2, lowByte tf, e9, p4, p5, p6, num, den, q1, q2⟩

private theorem number_four (h m s f : Byte) : codeNumber [h, m, s, f] = ((h.toNat * 256 + m.toNat) * 256 + s.toNat) * 256 + f.toNat := by
  simp [codeNumber]

private theorem seconds_less {h m s f h' m' s' f' : Nat} (hm : m < 60) (hs : s < 60) (hm' : m' < 60) (hs' : s' < 60) (hf : f < 256) (hf' : f' < 256)
    (hlt : h * 3600 + m * 60 + s < h' * 3600 + m' * 60 + s') : ((h * 256 + m) * 256 + s) * 256 + f < ((h' * 256 + m') * 256 + s') * 256 + f' := by
  have key : h < h' ∨ h = h' ∧ (m < m' ∨ m = m' ∧ s < s') := by
    rcases lt_trichotomy h h' with g | g | g
    · exact .inl g
    · refine .inr ⟨g, ?_⟩
      rcases lt_trichotomy m m' with k | k | k
      · exact .inl k
      · exact .inr ⟨k, by omega⟩
      · omega
    · omega
  rcases key with g | ⟨rfl, g | ⟨rfl, g⟩⟩
  · have : (h + 1) * 16777216 ≤ h' * 16777216 := Nat.mul_le_mul_right _ g
    clear hlt
    omega
  · clear hlt; omega
  · clear hlt; omega

private theorem seconds_same {h m s h' m' s' : Nat} (hm : m < 60) (hs : s < 60) (hm' : m' < 60) (hs' : s' < 60)
    (he : h * 3600 + m * 60 + s = h' * 3600 + m' * 60 + s') : h = h' ∧ m = m' ∧ s = s' := by omega

/-- The parts of an instant. -/
private theorem parts {t : Time} {x : ℚ} (h : StandsFor t x) {num den : Int} (hr : t.rate = some ⟨num, den⟩) (n : Int) :
    ∃ q : ℚ, 0 ≤ q ∧ q < 1 ∧ x = t.secs + q ∧ ((t.frames * den * n : Int) : ℚ) / ((num * 1000 : Int) : ℚ) = q * n / 1000 ∧ 0 ≤ t.frames * den ∧ t.frames * den < num ∧ 0 < num ∧ num ≤ 1000000 := by
  obtain ⟨secs, frames, num', den', a1, a2, a3, a4, a5, a6, a7⟩ := h
  cases hr
  have h0 : (0 : ℚ) < num := by exact_mod_cast a3
  have h1 : (0 : ℚ) ≤ (frames * den : Int) := by exact_mod_cast mul_nonneg a6 a5.le
  have h2 : ((frames * den : Int) : ℚ) < num := by exact_mod_cast a7
  push_cast at h1 h2
  refine ⟨frames * den / num, div_nonneg h1 h0.le, (div_lt_one h0).2 h2, rfl, ?_, mul_nonneg a6 a5.le, a7, a3, a4⟩
  push_cast
  field_simp

section

variable {fps : ℚ} {n : Int} {s s' : Subtitle} {bs bs' : List Str} {b b' : Str} {t u : Time} {c d : Str} {x y x1 y1 x2 y2 : ℚ}

private theorem code_cases (hn : WriterRate fps n) (hw : 0 < n) (hw' : n ≤ 255000) (h : ttiBlocks fps s = .ok bs) (h' : ttiBlocks fps s' = .ok bs') (hb : b ∈ bs) (hb' : b' ∈ bs')
    (h1 : StandsFor s.from_ x1) (h2 : StandsFor s.to_ y1) (h3 : StandsFor s'.from_ x2) (h4 : StandsFor s'.to_ y2)
    (hc : GivesCode s b t c) (hd : GivesCode s' b' u d) (ht : StandsFor t x) (hu : StandsFor u y) (hle : x ≤ y) :
    codeNumber c ≤ codeNumber d ∧ (x + 1000 / n < y → codeNumber c < codeNumber d) := by
  obtain ⟨h, m, sec, f, rfl, p1, p2, p3, num, den, q1, q2⟩ := code_bytes hn hw hw' h hb h1 h2 hc
  obtain ⟨h', m', sec', f', rfl, p1', p2', p3', num', den', q1', q2'⟩ := code_bytes hn hw hw' h' hb' h3 h4 hd
  obtain ⟨q, a0, a1, rfl, a2, a3, a4, a5, a6⟩ := parts ht q1 n
  obtain ⟨q', b0, b1, rfl, b2, b3, b4, b5, b6⟩ := parts hu q1' n
  have hnq : (0 : ℚ) < n := by exact_mod_cast hw
  have near1 := frames_near (a := t.frames * den * n) (d := num * 1000) (mul_nonneg a3 hw.le) (by omega) (by omega) (by nlinarith)
  have near2 := frames_near (a := u.frames * den' * n) (d := num' * 1000) (mul_nonneg b3 hw.le) (by omega) (by omega) (by nlinarith)
  rw [a2] at q2 near1
  rw [b2] at q2' near2
  rw [← q2] at near1
  rw [← q2'] at near2
  rw [number_four, number_four]
  have f1 := f.toNat_lt
  have f2 := f'.toNat_lt
  have hsecs : t.secs ≤ u.secs := by
    by_contra hc
    have : ((u.secs + 1 : Int) : ℚ) ≤ t.secs := by exact_mod_cast (by omega : u.secs + 1 ≤ t.secs)
    push_cast at this
    linarith
  rcases eq_or_lt_of_le hsecs with he | hlt
  · rw [he] at hle ⊢
    obtain ⟨g1, g2, g3⟩ := seconds_same p2 p3 p2' p3' (by omega : h.toNat * 3600 + m.toNat * 60 + sec.toNat = h'.toNat * 3600 + m'.toNat * 60 + sec'.toNat)
    rw [g1, g2, g3]
    constructor
    · have := rint_mono (f64_mono (x := q * n / 1000) (y := q' * n / 1000) (by
        have := mul_le_mul_of_nonneg_right (by linarith : q ≤ q') hnq.le
        linarith))
      omega
    · intro hap
      have hap : q + 1000 / n < q' := by linarith
      have h5 : (q + 1000 / n) * n = q * n + 1000 := by field_simp
      have h6 := mul_lt_mul_of_pos_right hap hnq
      rw [h5] at h6
      obtain ⟨k1, k2⟩ := abs_le.1 near1
      obtain ⟨k3, k4⟩ := abs_le.1 near2
      have h7 : ((f.toNat : Int) : ℚ) < (f'.toNat : Int) := by linarith
      have h8 : (f.toNat : Int) < f'.toNat := by exact_mod_cast h7
      omega
  · have := seconds_less p2 p3 p2' p3' f1 f2 (by omega : h.toNat * 3600 + m.toNat * 60 + sec.toNat < h'.toNat * 3600 + m'.toNat * 60 + sec'.toNat)
    exact ⟨this.le, fun _ => this⟩

/-- C147: the codes of two times of subtitles that are written at the same rate, whatever the rates of the times, are in the order of the instants the times stand for. -/
theorem C147_order (hn : WriterRate fps n) (hw : 0 < n) (hw' : n ≤ 255000) (h : ttiBlocks fps s = .ok bs) (h' : ttiBlocks fps s' = .ok bs') (hb : b ∈ bs) (hb' : b' ∈ bs')
    (h1 : StandsFor s.from_ x1) (h2 : StandsFor s.to_ y1) (h3 : StandsFor s'.from_ x2) (h4 : StandsFor s'.to_ y2)
    (hc : GivesCode s b t c) (hd : GivesCode s' b' u d) (ht : StandsFor t x) (hu : StandsFor u y) (hle : x ≤ y) : codeNumber c ≤ codeNumber d :=
  (code_cases hn hw hw' h h' hb hb' h1 h2 h3 h4 hc hd ht hu hle).1

/-- C147: if the instants are more than a frame apart the codes are different. -/
theorem C147_apart (hn : WriterRate fps n) (hw : 0 < n) (hw' : n ≤ 255000) (h : ttiBlocks fps s = .ok bs) (h' : ttiBlocks fps s' = .ok bs') (hb : b ∈ bs) (hb' : b' ∈ bs')
    (h1 : StandsFor s.from_ x1) (h2 : StandsFor s.to_ y1) (h3 : StandsFor s'.from_ x2) (h4 : StandsFor s'.to_ y2)
    (hc : GivesCode s b t c) (hd : GivesCode s' b' u d) (ht : StandsFor t x) (hu : StandsFor u y) (hlt : x + 1000 / n < y) : codeNumber c < codeNumber d := by
  have : (0 : ℚ) < 1000 / n := div_pos (by norm_num) (by exact_mod_cast hw)
  exact (code_cases hn hw hw' h h' hb hb' h1 h2 h3 h4 hc hd ht hu (by linarith)).2 hlt

end

/-! ### Reading the file again -/

private theorem shown_times {rate rows up : Int} {b : Str} {subs : List Raw} (h : BlockSays rate rows up b subs) : b.length = 128 ∧
    ∀ r ∈ subs, TimeBytes rate ((b.drop 5).take 4) r.from_ ∧ TimeBytes rate ((b.drop 9).take 4) r.to_ := by
  cases h with
  | comment a t h1 h2 => exact ⟨by simp [h1, h2], by simp⟩
  | shown a i o t row align f u href ps subs h1 h2 h3 h4 h5 h6 h7 =>
    have hi : i.length = 4 := by cases h3; rfl
    have ho : o.length = 4 := by cases h4; rfl
    refine ⟨by simp [h1, h2, hi, ho], ?_⟩
    have e1 : ((a ++ i ++ o ++ row :: align :: 0 :: t).drop 5).take 4 = i := by
      rw [List.append_assoc, List.append_assoc, List.drop_left' h1, List.take_left' hi]
    have e2 : ((a ++ i ++ o ++ row :: align :: 0 :: t).drop 9).take 4 = o := by
      rw [List.append_assoc, List.drop_left' (by simp [h1, hi]), List.take_left' ho]
    rw [e1, e2]
    intro r hr
    clear h6
    induction h7 with
    | nil => simp at hr
    | cons hx _ ih =>
      rcases List.mem_cons.1 hr with rfl | hr
      · obtain ⟨w, text, _, _, rfl⟩ := hx
        exact ⟨h3, h4⟩
      · exact ih hr

/-- A code with fewer than 60 minutes and seconds. -/
private def Regular (c : Str) : Prop := ∃ h m s f : Byte, c = [h, m, s, f] ∧ m.toNat < 60 ∧ s.toNat < 60

private theorem read_order {rate : Int} (h0 : 0 ≤ rate) (h1 : rate ≤ 1000) {c d : Str} {t u : Time} (ht : TimeBytes rate c t) (hu : TimeBytes rate d u) (hc : Regular c) (hd : Regular d) :
    (codeNumber c ≤ codeNumber d → u.lt t = .ok false) ∧ (0 < rate → codeNumber c < codeNumber d → t.lt u = .ok true) := by
  obtain ⟨h, m, s, f⟩ := ht
  obtain ⟨h', m', s', f'⟩ := hu
  obtain ⟨_, _, _, _, e, p1, p2⟩ := hc
  cases e
  obtain ⟨_, _, _, _, e, p1', p2'⟩ := hd
  cases e
  rw [number_four, number_four]
  have f1 := f.toNat_lt
  have f2 := f'.toNat_lt
  have sc : ∀ k : Nat, k < 256 → Time.scaled (k : Int) ⟨rate, 1⟩ ⟨rate, 1⟩ = .ok (k * rate) := by
    intro k hk
    have hb : (k : Int) * rate ≤ 256 * 1000 := mul_le_mul (by omega) h1 h0 (by norm_num)
    have hb0 : 0 ≤ (k : Int) * rate := mul_nonneg (by omega) h0
    have e : ck ((k : Int) * rate) = .ok ((k : Int) * rate) := ck_eq_ok.2 ⟨by unfold InInt; omega, rfl⟩
    unfold Time.scaled
    rw [e, ok_bind, mul_one, e]
  unfold Time.lt
  simp only [sc _ f1, sc _ f2, ok_bind]
  rcases lt_trichotomy (h.toNat * 3600 + m.toNat * 60 + s.toNat) (h'.toNat * 3600 + m'.toNat * 60 + s'.toNat) with g | g | g
  · have := seconds_less p1 p2 p1' p2' f1 f2 g
    constructor
    · intro _
      rw [if_pos (by omega), decide_eq_false (by omega)]
    · intro _ _
      rw [if_pos (by omega), decide_eq_true (by omega)]
  · obtain ⟨g1, g2, g3⟩ := seconds_same p1 p2 p1' p2' g
    rw [g1, g2, g3]
    constructor
    · intro hle
      rw [if_neg (by simp)]
      have : (f.toNat : Int) * rate ≤ f'.toNat * rate := mul_le_mul_of_nonneg_right (by omega) h0
      show Except.ok _ = Except.ok false
      rw [decide_eq_false (by omega)]
    · intro hr hlt
      rw [if_neg (by simp)]
      have : (f.toNat : Int) * rate < f'.toNat * rate := mul_lt_mul_of_pos_right (by omega) hr
      show Except.ok _ = Except.ok true
      rw [decide_eq_true (by omega)]
  · have := seconds_less p1' p2' p1 p2 f2 f1 g
    exact ⟨fun h => by omega, fun _ h => by omega⟩

private theorem forall₂_pairwise {α β : Type} {R : α → β → Prop} {P : α → α → Prop} {Q : β → β → Prop} {l : List α} {m : List β} (h : List.Forall₂ R l m) (hp : l.Pairwise P)
    (hq : ∀ a ∈ l, ∀ b ∈ l, ∀ x y, P a b → R a x → R b y → Q x y) : m.Pairwise Q := by
  induction h with
  | nil => exact .nil
  | @cons a x l m hax hlm ih =>
    rw [List.pairwise_cons] at hp ⊢
    refine ⟨fun y hy => ?_, ih hp.2 (fun a ha b hb => hq a (by simp [ha]) b (by simp [hb]))⟩
    obtain ⟨b, hb, hby⟩ : ∃ b ∈ l, R b y := by
      clear ih hp hq
      induction hlm with
      | nil => simp at hy
      | cons h1 _ ih =>
        rcases List.mem_cons.1 hy with rfl | hy
        · exact ⟨_, by simp, h1⟩
        · obtain ⟨b, h2, h3⟩ := ih hy; exact ⟨b, by simp [h2], h3⟩
    exact hq a (by simp) b (by simp [hb]) x y (hp.1 b hb) hax hby

private theorem forall₂_mem {α β : Type} {R : α → β → Prop} {l : List α} {m : List β} (h : List.Forall₂ R l m) {y : β} (hy : y ∈ m) : ∃ a ∈ l, R a y := by
  induction h with
  | nil => simp at hy
  | cons h1 _ ih =>
    rcases List.mem_cons.1 hy with rfl | hy
    · exact ⟨_, by simp, h1⟩
    · obtain ⟨b, h2, h3⟩ := ih hy; exact ⟨b, by simp [h2], h3⟩

/-- Where what is read from a written file comes from: blocks of the subtitles, in order. -/
private theorem read_from (l : Locale) (hl : SaneLocale l) (ht : l.thousandsSep.head? ≠ some 45) (a : StlArgs) (file : Str) (hw : writeStlIn l a = .ok file)
    (hc : ∀ bs, SubtitlesCoded a.fps a.subtitles bs → a.Counts bs) (info : StlInfo) (raws : List Raw) (hr : stlRead file = .ok (info, raws)) :
    ∃ bss blocks parts, List.Forall₂ (fun s bs => ttiBlocks a.fps s = .ok bs) a.subtitles bss ∧ blocks <+: bss.flatten ∧ raws = parts.flatten ∧ 0 < info.frameRate ∧ info.frameRate ≤ 30 ∧
      List.Forall₂ (fun b (part : List Raw) => ∀ r ∈ part, TimeBytes info.frameRate ((b.drop 5).take 4) r.from_ ∧ TimeBytes info.frameRate ((b.drop 9).take 4) r.to_) blocks parts := by
  obtain ⟨info', raws', bs, ⟨bss, hbss, rfl⟩, hr', h23, hn, hb, hle⟩ := C124_readable l hl ht a file hw hc
  rw [hr] at hr'
  injection hr' with e
  injection e with e1 e2
  subst e1 e2
  obtain ⟨g, rest, blocks, info, lowest, up, parts, hg, hh, hlen, hlow, hup, hp⟩ := (C120_exact file info raws).1 hr
  refine ⟨bss, blocks, parts, hbss.imp (fun s bs h => (C123_subtitle _ _ _).2 h), ?_, rfl, ?_, ?_, hp.imp (fun b p h => (shown_times h).2)⟩
  · have hl128 : ∀ b ∈ blocks, b.length = 128 := by
      clear hb hlen hw hr hn hlow hup
      induction hp with
      | nil => simp
      | cons h1 _ ih =>
        intro b hb
        rcases List.mem_cons.1 hb with rfl | hb
        · exact (shown_times h1).1
        · exact ih b hb
    have e := said_blocks_eq g rest hg blocks hl128
    rw [List.prefix_iff_eq_take]
    have hk : blocks.length = firstFive bss.flatten.length := by rw [hlen, hn]; omega
    apply List.ext_getElem
    · rw [List.length_take]; omega
    · intro i h1 h2
      have e3 := hb i (by omega)
      have e4 : blocks[i] = ttiBlock (g ++ blocks.flatten ++ rest) i := by
        have : blocks[i] = ((List.range blocks.length).map (ttiBlock (g ++ blocks.flatten ++ rest)))[i]'(by simpa using h1) := by congr 1; exact e.symm
        rw [this]; simp
      rw [e4, e3, List.getElem_take, List.getD_eq_getElem?_getD, List.getElem?_eq_getElem (by omega)]
      rfl
  · obtain ⟨f, _, hm⟩ := hh.frameRate
    simp only [List.mem_cons, Prod.mk.injEq, List.not_mem_nil, or_false] at hm
    omega
  · obtain ⟨f, _, hm⟩ := hh.frameRate
    simp only [List.mem_cons, Prod.mk.injEq, List.not_mem_nil, or_false] at hm
    omega

section

variable (l : Locale) (hl : SaneLocale l) (ht : l.thousandsSep.head? ≠ some 45) (a : StlArgs) (file : Str) (hw : writeStlIn l a = .ok file)
  (hc : ∀ bs, SubtitlesCoded a.fps a.subtitles bs → a.Counts bs) (info : StlInfo) (raws : List Raw) (hr : stlRead file = .ok (info, raws)) (n : Int) (hn : WriterRate a.fps n) (h0 : 0 < n)
  (h1 : n ≤ 255000) (from_ to_ : Subtitle → ℚ) (hs : ∀ s ∈ a.subtitles, StandsFor s.from_ (from_ s) ∧ StandsFor s.to_ (to_ s))

include hl ht hw hc hr hn h0 h1 hs

/-- C147: if the subtitles are in the order of their starts when they are written, so is what is read from the file. -/
theorem C147_read (ho : a.subtitles.Pairwise (fun s t => from_ s ≤ from_ t)) : raws.Pairwise (fun r q => q.from_.lt r.from_ = .ok false) := by
  obtain ⟨bss, blocks, parts, hbss, hpre, rfl, f0, f1, hp⟩ := read_from l hl ht a file hw hc info raws hr
  have reg : ∀ b ∈ bss.flatten, Regular ((b.drop 5).take 4) := by
    intro b hb
    obtain ⟨bs, hbs, hb⟩ := List.mem_flatten.1 hb
    obtain ⟨s, hsm, hsb⟩ := forall₂_mem hbss hbs
    obtain ⟨h, m, sec, f, e, _, p2, p3, _⟩ := code_bytes hn h0 h1 hsb hb (hs s hsm).1 (hs s hsm).2 .start
    exact ⟨h, m, sec, f, e, p2, p3⟩
  have ord : bss.flatten.Pairwise (fun b b' => codeNumber ((b.drop 5).take 4) ≤ codeNumber ((b'.drop 5).take 4)) := by
    rw [List.pairwise_flatten]
    constructor
    · intro bs hbs
      obtain ⟨s, hsm, hsb⟩ := forall₂_mem hbss hbs
      refine List.Pairwise.imp_of_mem (R := fun _ _ => True) ?_ (List.pairwise_of_forall (fun _ _ => trivial))
      intro b b' hb hb' _
      have hh := hs s hsm
      exact C147_order hn h0 h1 hsb hsb hb hb' hh.1 hh.2 hh.1 hh.2 .start .start hh.1 hh.1 (le_refl _)
    · refine forall₂_pairwise hbss ho (fun s hsm s' hsm' x y hle hx hy b hb b' hb' => ?_)
      have hh := hs s hsm
      have hh' := hs s' hsm'
      exact C147_order hn h0 h1 hx hy hb hb' hh.1 hh.2 hh'.1 hh'.2 .start .start hh.1 hh'.1 hle
  have ord' := ord.sublist hpre.sublist
  have reg' : ∀ b ∈ blocks, Regular ((b.drop 5).take 4) := fun b hb => reg b (hpre.sublist.mem hb)
  rw [List.pairwise_flatten]
  constructor
  · intro part hpart
    obtain ⟨b, hb, h⟩ := forall₂_mem hp hpart
    refine List.Pairwise.imp_of_mem (R := fun _ _ => True) ?_ (List.pairwise_of_forall (fun _ _ => trivial))
    intro r q hr hq _
    exact (read_order f0.le (by omega) (h r hr).1 (h q hq).1 (reg' b hb) (reg' b hb)).1 (le_refl _)
  · refine forall₂_pairwise hp ord' (fun b hb b' hb' x y hle hx hy r hr q hq => ?_)
    exact (read_order f0.le (by omega) (hx r hr).1 (hy q hq).1 (reg' b hb) (reg' b' hb')).1 hle

/-- C147: if no subtitle ends before it starts, this is so of what is read from the file; and if all last longer than a frame, all that is read lasts some time. -/
theorem C147_duration : ((∀ s ∈ a.subtitles, from_ s ≤ to_ s) → ∀ r ∈ raws, r.to_.lt r.from_ = .ok false) ∧
    ((∀ s ∈ a.subtitles, from_ s + 1000 / n < to_ s) → ∀ r ∈ raws, r.from_.lt r.to_ = .ok true) := by
  obtain ⟨bss, blocks, parts, hbss, hpre, rfl, f0, f1, hp⟩ := read_from l hl ht a file hw hc info raws hr
  have src : ∀ r ∈ parts.flatten, ∃ s ∈ a.subtitles, ∃ bs b, ttiBlocks a.fps s = .ok bs ∧ b ∈ bs ∧ TimeBytes info.frameRate ((b.drop 5).take 4) r.from_ ∧
      TimeBytes info.frameRate ((b.drop 9).take 4) r.to_ ∧ Regular ((b.drop 5).take 4) ∧ Regular ((b.drop 9).take 4) := by
    intro r hr
    obtain ⟨part, hpart, hr⟩ := List.mem_flatten.1 hr
    obtain ⟨b, hb, h⟩ := forall₂_mem hp hpart
    obtain ⟨bs, hbs, hb⟩ := List.mem_flatten.1 (hpre.sublist.mem hb)
    obtain ⟨s, hsm, hsb⟩ := forall₂_mem hbss hbs
    obtain ⟨h2, m, sec, f, e, _, p2, p3, _⟩ := code_bytes hn h0 h1 hsb hb (hs s hsm).1 (hs s hsm).2 .start
    obtain ⟨h2', m', sec', f', e', _, p2', p3', _⟩ := code_bytes hn h0 h1 hsb hb (hs s hsm).1 (hs s hsm).2 .stop
    exact ⟨s, hsm, bs, b, hsb, hb, (h r hr).1, (h r hr).2, ⟨h2, m, sec, f, e, p2, p3⟩, ⟨h2', m', sec', f', e', p2', p3'⟩⟩
  constructor
  · intro hle r hr
    obtain ⟨s, hsm, bs, b, hsb, hb, t1, t2, r1, r2⟩ := src r hr
    have hh := hs s hsm
    exact (read_order f0.le (by omega) t1 t2 r1 r2).1 (C147_order hn h0 h1 hsb hsb hb hb hh.1 hh.2 hh.1 hh.2 .start .stop hh.1 hh.2 (hle s hsm))
  · intro hlt r hr
    obtain ⟨s, hsm, bs, b, hsb, hb, t1, t2, r1, r2⟩ := src r hr
    have hh := hs s hsm
    exact (read_order f0.le (by omega) t1 t2 r1 r2).2 f0 (C147_apart hn h0 h1 hsb hsb hb hb hh.1 hh.2 hh.1 hh.2 .start .stop hh.1 hh.2 (hlt s hsm))

end

/-! ### Examples -/

/-- A subtitle with times in milliseconds. -/
private def flash (from_ to_ : Int) : Subtitle :=
  { from_ := ⟨59, from_, some ⟨1000, 1⟩⟩, to_ := ⟨59, to_, some ⟨1000, 1⟩⟩, lines := [{ vpos := { prop := some (1 / 2), ref := some .topOfScreen }, blocks := [{ text := b!"x" }] }] }

/-- C147: a frame is not enough: 60 ms and 100 ms are both frame 2 of 25, so a subtitle that lasts exactly a frame comes back with no duration. -/
theorem C147_frame_witness : ((writeStl { stlDemo with subtitles := [flash 60 100] }).bind stlRead).toOption.map (fun r => (r.1.frameRate, r.2.map (fun q => (q.from_, q.to_)))) =
    some (25, [(⟨59, 2, some ⟨25, 1⟩⟩, ⟨59, 2, some ⟨25, 1⟩⟩)]) := by decide +kernel

/-- The demonstration file is written at 25 frames per second. -/
private theorem flash_fps : WriterRate stlDemo.fps 25000 := writerRate_int 25 (by norm_num) (by norm_num)

private theorem stands (s f : Int) (h0 : 0 ≤ s) (h1 : s < 921600) (h2 : 0 ≤ f) (h3 : f < 1000) : StandsFor ⟨s, f, some ⟨1000, 1⟩⟩ (s + f * (1 : Int) / (1000 : Int)) :=
  .mk s f 1000 1 h0 h1 (by norm_num) (by norm_num) (by norm_num) h2 (by omega)

/-- Times that are 41 ms apart at 25 frames per second, and times at different rates. -/
example : StandsFor (flash 60 101).from_ (((59 : Int) : ℚ) + (60 : Int) * (1 : Int) / (1000 : Int)) ∧ StandsFor (flash 60 101).to_ (((59 : Int) : ℚ) + (101 : Int) * (1 : Int) / (1000 : Int)) ∧
    WriterRate stlDemo.fps 25000 ∧ (((59 : Int) : ℚ) + (60 : Int) * (1 : Int) / (1000 : Int)) + 1000 / (25000 : Int) < ((59 : Int) : ℚ) + (101 : Int) * (1 : Int) / (1000 : Int) ∧
    StandsFor ⟨59, 23, some ⟨30000, 1001⟩⟩ (((59 : Int) : ℚ) + (23 : Int) * (1001 : Int) / (30000 : Int)) :=
  ⟨stands 59 60 (by norm_num) (by norm_num) (by norm_num) (by norm_num), stands 59 101 (by norm_num) (by norm_num) (by norm_num) (by norm_num), flash_fps, by norm_num,
    .mk 59 23 30000 1001 (by norm_num) (by norm_num) (by norm_num) (by norm_num) (by norm_num) (by norm_num) (by norm_num)⟩

/-- The codes of such a subtitle. -/
example : (ttiBlocks 25 (flash 60 101)).toOption.map (fun bs => bs.map (fun b => ((b.drop 5).take 4, (b.drop 9).take 4))) = some [([0, 0, 59, 2], [0, 0, 59, 3])] := by decide +kernel

/-- All that the theorems about files ask for, of a file with two subtitles. -/
example : ∃ (a : StlArgs) (file : Str) (info : StlInfo) (raws : List Raw) (f t : Subtitle → ℚ), SaneLocale Locale.c ∧ Locale.c.thousandsSep.head? ≠ some 45 ∧
    writeStlIn Locale.c a = .ok file ∧ (∀ bs, SubtitlesCoded a.fps a.subtitles bs → a.Counts bs) ∧ stlRead file = .ok (info, raws) ∧ WriterRate a.fps 25000 ∧
    (∀ s ∈ a.subtitles, StandsFor s.from_ (f s) ∧ StandsFor s.to_ (t s)) ∧ a.subtitles.Pairwise (fun s u => f s ≤ f u) ∧ (∀ s ∈ a.subtitles, f s + 1000 / (25000 : Int) < t s) ∧ a.subtitles.length = 2 := by
  have hs : SaneLocale Locale.c := ⟨⟨46, [], rfl, by decide, by decide, by decide, by decide, by decide⟩, by intro c hc; cases hc⟩
  have hl : ((makeTtiBlocks stlDemo.fps [flash 60 101, flash 200 999]).toOption.map (·.length)) = some 2 := by decide +kernel
  have hcount : ∀ bs, SubtitlesCoded stlDemo.fps [flash 60 101, flash 200 999] bs → ({ stlDemo with subtitles := [flash 60 101, flash 200 999] } : StlArgs).Counts bs := by
    intro bs hbs
    rw [(C123_subtitles _ _ _).2 hbs] at hl
    have hl : bs.length = 2 := Option.some.inj hl
    exact ⟨by decide, by rw [hl]; decide, by decide, by decide⟩
  cases hb : makeTtiBlocks stlDemo.fps [flash 60 101, flash 200 999] with
  | error e => rw [hb] at hl; cases hl
  | ok bs =>
    have hw := (C55_layout _ hs (by decide) { stlDemo with subtitles := [flash 60 101, flash 200 999] } bs { stlDemo_valid with } hb (hcount bs ((C123_subtitles _ _ _).1 hb))).1
    obtain ⟨info, raws, _, _, hr, _⟩ := C124_readable _ hs (by decide) _ _ hw hcount
    refine ⟨_, _, info, raws, fun s => s.from_.secs + s.from_.frames * (1 : Int) / (1000 : Int), fun s => s.to_.secs + s.to_.frames * (1 : Int) / (1000 : Int), hs, by decide, hw, hcount, hr, flash_fps, ?_, ?_, ?_, rfl⟩
    · intro s hm
      simp only [List.mem_cons, List.not_mem_nil, or_false] at hm
      rcases hm with rfl | rfl
      · exact ⟨stands 59 60 (by norm_num) (by norm_num) (by norm_num) (by norm_num), stands 59 101 (by norm_num) (by norm_num) (by norm_num) (by norm_num)⟩
      · exact ⟨stands 59 200 (by norm_num) (by norm_num) (by norm_num) (by norm_num), stands 59 999 (by norm_num) (by norm_num) (by norm_num) (by norm_num)⟩
    · simp [flash]; norm_num
    · intro s hm
      simp only [List.mem_cons, List.not_mem_nil, or_false] at hm
      rcases hm with rfl | rfl <;> simp [flash] <;> norm_num

/-- What comes back of two subtitles, one at the end of a second. -/
example : ((writeStl { stlDemo with subtitles := [flash 60 101, flash 200 999] }).bind stlRead).toOption.map (fun r => r.2.map (fun q => (q.from_, q.to_))) =
    some [(⟨59, 2, some ⟨25, 1⟩⟩, ⟨59, 3, some ⟨25, 1⟩⟩), (⟨59, 5, some ⟨25, 1⟩⟩, ⟨59, 25, some ⟨25, 1⟩⟩)] := by decide +kernel

end LibSub
