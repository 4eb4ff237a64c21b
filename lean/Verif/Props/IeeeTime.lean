/-
C126: `Time` and `Rational` with the limits of `double`.
-/
import Verif.Props.IeeeBase

namespace LibSub

/-- A rate made of two `int`s. -/
def IntRate (r : FRate) : Prop := InInt r.num ∧ InInt r.den

/-- A time made of `int`s. -/
def IntTime (t : Time) : Prop := InInt t.secs ∧ InInt t.frames ∧ ∀ r, t.rate = some r → IntRate r

theorem fraction_track {r : FRate} (h : IntRate r) : Ieee.fraction r = r.fraction ∧ ∀ x, r.fraction = .ok x → Sized (-83) 31 x := by
  unfold Ieee.fraction FRate.fraction
  rw [ieee64_int h.1, ieee64_int h.2]
  simp only [ok_bind]
  by_cases h0 : (r.den : ℚ) = 0
  · rw [h0, fdiv_zero]; exact ⟨rfl, fun x hx => by cases hx⟩
  · rw [fdiv_ne h0]
    simp only [ok_bind]
    obtain ⟨a, b⟩ := div64 (Sized.int h.1) (Sized.int h.1).low (Sized.int h.2) h0
    rw [a]
    exact ⟨rfl, fun x hx => by cases hx; exact b.mono⟩

theorem max_track {a b : FRate} (ha : IntRate a) (hb : IntRate b) : Ieee.rateMax a b = FRate.max a b ∧ ∀ x, FRate.max a b = .ok x → x = a ∨ x = b := by
  unfold Ieee.rateMax FRate.max
  rw [(fraction_track ha).1, (fraction_track hb).1]
  refine ⟨rfl, fun x hx => ?_⟩
  obtain ⟨fa, -, hx⟩ := bind_eq_ok.1 hx
  obtain ⟨fb, -, hx⟩ := bind_eq_ok.1 hx
  cases hx
  split
  · exact .inl rfl
  · exact .inr rfl

theorem toInt_inInt {x : ℚ} {n : Int} (h : toInt x = .ok n) : InInt n := by
  unfold toInt at h
  split at h
  · cases h; assumption
  · cases h

theorem framesAt_track {t : Time} {rate : FRate} (h : IntTime t) (hr : IntRate rate) :
    Ieee.framesAt t rate = t.framesAt rate ∧ ∀ n, t.framesAt rate = .ok n → InInt n := by
  unfold Ieee.framesAt Time.framesAt
  cases e : t.rate with
  | none => exact ⟨rfl, fun n hn => by cases hn⟩
  | some r =>
    obtain ⟨h1, h2⟩ := h.2.2 r e
    dsimp only
    cases d : ck (r.num * rate.den) with
    | error x => exact ⟨rfl, fun n hn => by cases hn⟩
    | ok d' =>
      obtain ⟨hd, rfl⟩ := ck_eq_ok.1 d
      simp only [ok_bind]
      have f1 := Sized.int h.2.1
      have m1 := f1.f64.mul (Sized.int h2)
      have m2 := m1.f64.mul (Sized.int hr.1)
      have i1 := ieee64_fits f1
      rw [i1, ieee64_int h2]
      simp only [ok_bind]
      rw [ieee64_fits m1, ieee64_int hr.1]
      simp only [ok_bind]
      rw [ieee64_fits m2, ieee64_int hd]
      simp only [ok_bind]
      by_cases h0 : ((r.num * rate.den : Int) : ℚ) = 0
      · rw [h0, fdiv_zero]; exact ⟨rfl, fun x hx => by cases hx⟩
      · rw [fdiv_ne h0]
        simp only [ok_bind]
        rw [(div64 m2.f64 m2.f64.low (Sized.int hd) h0).1]
        exact ⟨rfl, fun n hn => toInt_inInt hn⟩

theorem seconds_track {t : Time} (h : IntTime t) : Ieee.allAsSeconds t = t.allAsSeconds ∧ ∀ x, t.allAsSeconds = .ok x → Sized (-62) 32 x := by
  obtain ⟨a, b⟩ := framesAt_track h (rate := ⟨1000, 1⟩) ⟨by decide, by decide⟩
  unfold Ieee.allAsSeconds Time.allAsSeconds Time.milliseconds
  rw [a]
  cases e : t.framesAt ⟨1000, 1⟩ with
  | error x => exact ⟨rfl, fun n hn => by cases hn⟩
  | ok ms =>
    have hm := b ms e
    simp only [ok_bind]
    rw [ieee64_int hm, ieee64_int h.1, f64_of_inInt hm]
    simp only [ok_bind]
    have f1000 : Sized 0 10 (1000 : ℚ) := ⟨by simpa using Grid.int 1000, by norm_num⟩
    obtain ⟨d1, d2⟩ := div64 (Sized.int hm) (Sized.int hm).low f1000 (by norm_num)
    rw [d1]
    simp only [ok_bind]
    have s := ((Sized.int h.1).mono (g' := -62) (k' := 31)).add d2.mono
    rw [ieee64_fits s]
    exact ⟨rfl, fun x hx => by cases hx; exact s.f64.mono⟩

theorem add_track {a t : Time} (ha : IntTime a) (ht : IntTime t) : Ieee.add a t = a.add t := by
  unfold Ieee.add Time.add
  cases e : a.rate with
  | none => rfl
  | some ra =>
    cases e' : t.rate with
    | none => rfl
    | some rt =>
      dsimp only
      have i1 := ha.2.2 ra e
      have i2 := ht.2.2 rt e'
      obtain ⟨m1, m2⟩ := max_track i1 i2
      rw [m1, (seconds_track ha).1, (seconds_track ht).1]
      cases em : FRate.max ra rt with
      | error x => rfl
      | ok rr =>
        have ir : IntRate rr := by
          rcases m2 rr em with rfl | rfl
          · exact i1
          · exact i2
        simp only [ok_bind]
        rw [(fraction_track ir).1]
        cases ex : a.allAsSeconds with
        | error x => rfl
        | ok x =>
          cases ey : t.allAsSeconds with
          | error x => rfl
          | ok y =>
            cases ef : rr.fraction with
            | error x => rfl
            | ok fr =>
              simp only [ok_bind]
              have s := ((seconds_track ha).2 x ex).add ((seconds_track ht).2 y ey)
              rw [ieee64_fits s]
              simp only [ok_bind]
              rw [ieee64_fits (s.f64.mul ((fraction_track ir).2 fr ef))]
              rfl

/-- The factor is the value of a `float`. -/
theorem scale_track {t : Time} {f : ℚ} (ht : IntTime t) (hf : Sized (-149) 128 f) : Ieee.scale t f = t.scale f := by
  unfold Ieee.scale Time.scale
  cases e : t.rate with
  | none => rfl
  | some r =>
    dsimp only
    have ir := ht.2.2 r e
    rw [(seconds_track ht).1, (fraction_track ir).1]
    cases subAssert (r.den != 0) with
    | error x => rfl
    | ok u =>
      cases r.integer with
      | error x => rfl
      | ok i =>
        simp only [ok_bind]
        cases subAssert i with
        | error x => rfl
        | ok u' =>
          cases ex : t.allAsSeconds with
          | error x => rfl
          | ok all =>
            simp only [ok_bind]
            have p := ((seconds_track ht).2 all ex).mul hf
            rw [ieee64_fits p]
            simp only [ok_bind]
            cases es : toInt (f64 (all * f)).floor with
            | error x => rfl
            | ok secs =>
              cases ef : r.fraction with
              | error x => rfl
              | ok fr =>
                simp only [ok_bind]
                have is := toInt_inInt es
                rw [ieee64_int is]
                simp only [ok_bind]
                have d := (p.f64.mono (g' := -211) (k' := 160)).sub ((Sized.int is).mono)
                rw [ieee64_fits d]
                simp only [ok_bind]
                rw [ieee64_fits (d.f64.mul ((fraction_track ir).2 fr ef))]
                rfl

end LibSub
