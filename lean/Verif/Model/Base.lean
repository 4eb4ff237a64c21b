/-
Common vocabulary of the model: byte strings, outcomes, machine integers.
-/

namespace LibSub

/-- `char` / `unsigned char`. -/
abbrev Byte := UInt8

/-- `std::string`: a sequence of bytes (no terminator, embedded NULs allowed). -/
abbrev Str := List UInt8

open Lean in
/-- `b!"text"` is the explicit list of the UTF-8 bytes of a string literal. -/
macro:max "b!" s:str : term => do
  let bs := s.getString.toUTF8.toList
  let es ← bs.toArray.mapM (fun b => `($(Syntax.mkNumLit (toString b.toNat))))
  `(([$es,*] : List UInt8))

/-- Kinds of undefined behaviour the modelled code can reach.  Each is a *distinct outcome* of the
model: nothing is assumed about what the real program does after it. -/
inductive UB where
  /-- signed integer overflow -/
  | intOverflow
  /-- integer division or remainder by zero -/
  | intDivZero
  /-- `boost::optional::get()` on an empty optional -/
  | emptyOptional
  /-- `back()`/`front()` of an empty container -/
  | emptyContainer
  /-- null pointer dereference -/
  | nullDeref
  /-- conversion of a floating-point value to an integer type that cannot hold it -/
  | floatToInt
  /-- `sscanf` conversion whose value does not fit in the target object -/
  | scanfRange
  /-- write outside a buffer -/
  | bufferOverrun
  deriving DecidableEq, Repr

/-- The ways a modelled function can fail to return. -/
inductive Err where
  /-- `sub::XMLError` -/
  | xml (msg : Str)
  /-- `sub::STLError` -/
  | stl (msg : Str)
  /-- `sub::SubripError(line_number, saw, expecting, context)` -/
  | subrip (line : Nat) (saw expecting : Str) (context : List Str)
  /-- `sub::WebVTTHeaderError` -/
  | webvttHeader
  /-- `sub::WebVTTError(saw, expecting, context)` -/
  | webvtt (saw expecting : Str) (context : List Str)
  /-- `sub::SSAError` -/
  | ssa (msg : Str)
  /-- `sub::UnknownFrameRateError` -/
  | unknownFrameRate
  /-- `sub::ProgrammingError`, raised by `SUB_ASSERT` (src/sub_assert.h:22) -/
  | programming
  /-- `boost::bad_lexical_cast` -/
  | badLexicalCast
  /-- undefined behaviour -/
  | ub (kind : UB)
  /-- a floating-point operation whose result is infinite or NaN; the model stops there -/
  | nonFinite
  /-- input outside the modelled domain of a C library function (hex floats, exponents, "nan") -/
  | unmodelled
  deriving DecidableEq, Repr

/-- Result of a modelled call: a value or a failure. -/
abbrev R (α : Type) := Except Err α

/-- `x` is a value of C++ `int` (32-bit). -/
def InInt (x : Int) : Prop := -2147483648 ≤ x ∧ x ≤ 2147483647

instance (x : Int) : Decidable (InInt x) := by unfold InInt; infer_instance

/-- Result of an `int` operation whose mathematical value is `x`: signed overflow is undefined. -/
def ck (x : Int) : R Int := if InInt x then .ok x else .error (.ub .intOverflow)

/-- C++ `a / b` on `int`. -/
def cdiv (a b : Int) : R Int := if b = 0 then .error (.ub .intDivZero) else ck (a.tdiv b)

/-- C++ `a % b` on `int` (undefined also when `a / b` overflows). -/
def cmod (a b : Int) : R Int :=
  if b = 0 then .error (.ub .intDivZero)
  else if InInt (a.tdiv b) then .ok (a.tmod b) else .error (.ub .intOverflow)

/-- `SUB_ASSERT (x)` (src/sub_assert.h:22). -/
def subAssert (x : Bool) : R Unit := if x then .ok () else .error .programming

/-- `o.get()` on a `boost::optional`. -/
def optGet {α : Type} (o : Option α) : R α :=
  match o with
  | some a => .ok a
  | none => .error (.ub .emptyOptional)

/-- C++ `a && b` where evaluating either side may throw; `b` is evaluated only if `a` is true. -/
def andM (a b : R Bool) : R Bool :=
  match a with
  | .ok true => b
  | .ok false => .ok false
  | .error e => .error e

end LibSub
