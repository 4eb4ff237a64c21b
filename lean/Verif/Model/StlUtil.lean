/-
src/stl_util.cc
-/
import Verif.Model.Text

namespace LibSub

/-- `about_equal` (src/stl_util.cc:29-33): a `float` difference against the `double` `1e-4`. -/
def aboutEqual (a b : Rat) : Bool := decide (absR (f32 (a - b)) < f64 (1 / 10000))

/-- `sub::stl_frame_rate_to_dfc` (src/stl_util.cc:35-50). -/
def stlFrameRateToDfc (r : Rat) : Str :=
  if aboutEqual r (f32 (23976 / 1000)) then b!"STL23.01"
  else if aboutEqual r 24 then b!"STL24.01"
  else if aboutEqual r 25 then b!"STL25.01"
  else if aboutEqual r 30 then b!"STL30.01"
  else b!"STL25.01"

/-- `sub::stl_dfc_to_frame_rate` (src/stl_util.cc:52-66). -/
def stlDfcToFrameRate (s : Str) : R Rat :=
  if s = b!"STL23.01" then .ok (f32 (23976 / 1000))
  else if s = b!"STL24.01" then .ok 24
  else if s = b!"STL25.01" then .ok 25
  else if s = b!"STL30.01" then .ok 30
  else .error (.stl (b!"Unknown disk format code " ++ s ++ b!" in binary STL file"))

end LibSub
