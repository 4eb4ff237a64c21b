/-
src/rational.h, src/rational.cc, src/sub_time.h, src/sub_time.cc
-/
import Verif.Model.Float

namespace LibSub

/-- `sub::Rational` (src/rational.h:22-41): two `int`s, not reduced. -/
structure FRate where
  num : Int
  den : Int
  deriving DecidableEq, Repr

/-- `Rational::fraction` (src/rational.h:33-35): `double (numerator) / denominator`. -/
def FRate.fraction (r : FRate) : R Rat := do
  let q ← fdiv r.num r.den
  pure (f64 q)

/-- `Rational::integer` (src/rational.cc:29-33). -/
def FRate.integer (r : FRate) : R Bool := do
  let m ← cmod r.num r.den
  pure (m == 0)

/-- `Rational::integer_fraction` (src/rational.h:38-40). -/
def FRate.integerFraction (r : FRate) : R Int := cdiv r.num r.den

/-- `sub::max (Rational, Rational)` (src/rational.cc:35-43). -/
def FRate.max (a b : FRate) : R FRate := do
  let fa ← a.fraction
  let fb ← b.fraction
  pure (if fa > fb then a else b)

/-- `sub::Time` (src/sub_time.h:28-67). -/
structure Time where
  /-- `_seconds` -/
  secs : Int := 0
  /-- `_frames` -/
  frames : Int := 0
  /-- `_rate` -/
  rate : Option FRate := none
  deriving DecidableEq, Repr

/-- The products compared by the relational operators for times with rates
(src/sub_time.cc:50, 69, 88): `x._frames * x._rate.numerator * y._rate.denominator`, in `int`. -/
def Time.scaled (frames : Int) (rx ry : FRate) : R Int := do
  let p ← ck (frames * rx.num)
  ck (p * ry.den)

/-- `sub::operator<` (src/sub_time.cc:34-51). -/
def Time.lt (a b : Time) : R Bool :=
  if a.secs ≠ b.secs then .ok (decide (a.secs < b.secs))
  else
    match a.rate, b.rate with
    | none, none => .ok (decide (a.frames < b.frames))
    | some ra, some rb => do
      let l ← Time.scaled a.frames ra rb
      let r ← Time.scaled b.frames rb ra
      pure (decide (l < r))
    | _, _ => .error .unknownFrameRate

/-- `sub::operator>` (src/sub_time.cc:53-70). -/
def Time.gt (a b : Time) : R Bool :=
  if a.secs ≠ b.secs then .ok (decide (a.secs > b.secs))
  else
    match a.rate, b.rate with
    | none, none => .ok (decide (a.frames > b.frames))
    | some ra, some rb => do
      let l ← Time.scaled a.frames ra rb
      let r ← Time.scaled b.frames rb ra
      pure (decide (l > r))
    | _, _ => .error .unknownFrameRate

/-- `sub::operator==` (src/sub_time.cc:72-89). -/
def Time.eq (a b : Time) : R Bool :=
  match a.rate, b.rate with
  | none, none => .ok (decide (a.secs = b.secs ∧ a.frames = b.frames))
  | some ra, some rb =>
    if a.secs ≠ b.secs then .ok false
    else do
      let l ← Time.scaled a.frames ra rb
      let r ← Time.scaled b.frames rb ra
      pure (decide (l = r))
  | _, _ => .error .unknownFrameRate

/-- `sub::operator!=` (src/sub_time.cc:91-95). -/
def Time.ne (a b : Time) : R Bool := do
  let e ← a.eq b
  pure (!e)

/-- `Time::hours` (src/sub_time.cc:112-116). -/
def Time.hours (t : Time) : Int := t.secs.tdiv 3600

/-- `Time::minutes` (src/sub_time.cc:118-122); no intermediate value exceeds `_seconds`. -/
def Time.minutes (t : Time) : Int := (t.secs - t.hours * 3600).tdiv 60

/-- `Time::seconds` (src/sub_time.cc:124-128). -/
def Time.seconds (t : Time) : Int := t.secs - t.hours * 3600 - t.minutes * 60

/-- `Time::frames_at` (src/sub_time.cc:130-138):
`rint (double (_frames) * _rate.denominator * rate.numerator / (_rate.numerator * rate.denominator))`;
the divisor is an `int` product, each product and the quotient on the left are `double`s. -/
def Time.framesAt (t : Time) (rate : FRate) : R Int :=
  match t.rate with
  | none => .error .unknownFrameRate
  | some r => do
    let d ← ck (r.num * rate.den)
    let q ← fdiv (f64 (f64 (f64 t.frames * r.den) * rate.num)) d
    toInt (rint (f64 q))

/-- `Time::milliseconds` (src/sub_time.cc:140-144). -/
def Time.milliseconds (t : Time) : R Int := t.framesAt ⟨1000, 1⟩

/-- `h * 3600 + m * 60 + s` in `int` (src/sub_time.cc:149, 155). -/
def hmsSeconds (h m s : Int) : R Int := do
  let a ← ck (h * 3600)
  let b ← ck (m * 60)
  let c ← ck (a + b)
  ck (c + s)

/-- `Time::from_hmsf` (src/sub_time.cc:146-150). -/
def Time.fromHmsf (h m s f : Int) (rate : Option FRate) : R Time := do
  let t ← hmsSeconds h m s
  pure ⟨t, f, rate⟩

/-- `Time::from_hms` (src/sub_time.cc:152-156). -/
def Time.fromHms (h m s ms : Int) : R Time := do
  let t ← hmsSeconds h m s
  pure ⟨t, ms, some ⟨1000, 1⟩⟩

/-- `Time::from_frames` (src/sub_time.cc:161-167). -/
def Time.fromFrames (f : Int) (rate : FRate) : R Time := do
  subAssert (rate.den != 0)
  let i ← rate.integer
  subAssert i
  let r ← rate.integerFraction
  let s ← cdiv f r
  let fr ← cmod f r
  pure ⟨s, fr, some rate⟩

/-- `Time::all_as_seconds` (src/sub_time.cc:169-173): `_seconds + double(milliseconds()) / 1000`. -/
def Time.allAsSeconds (t : Time) : R Rat := do
  let ms ← t.milliseconds
  pure (f64 (t.secs + f64 (f64 ms / 1000)))

/-- `Time::add` (src/sub_time.cc:176-184). -/
def Time.add (a t : Time) : R Time :=
  match a.rate, t.rate with
  | some ra, some rt => do
    let rr ← FRate.max ra rt
    let x ← a.allAsSeconds
    let y ← t.allAsSeconds
    let fr ← rr.fraction
    let n ← toInt (f64 (f64 (x + y) * fr))
    Time.fromFrames n rr
  | _, _ => .error .programming

/-- `Time::scale` (src/sub_time.cc:186-196); `f` is the value of the `float` argument.
`_seconds = floor (s); _frames = rint ((s - _seconds) * _rate->fraction())`. -/
def Time.scale (t : Time) (f : Rat) : R Time :=
  match t.rate with
  | none => .error .programming
  | some r => do
    subAssert (r.den != 0)
    let i ← r.integer
    subAssert i
    let all ← t.allAsSeconds
    let s := f64 (all * f)
    let secs ← toInt s.floor
    let fr ← r.fraction
    let frames ← toInt (rint (f64 (f64 (s - secs) * fr)))
    pure ⟨secs, frames, some r⟩

end LibSub
