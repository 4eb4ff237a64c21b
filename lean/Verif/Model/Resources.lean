/-
Memory that `write_stl_binary` allocates and files that `reader_factory` opens.
-/
import Verif.Model.StlWriter
import Verif.Model.Dump

namespace LibSub

/-! ### write_stl_binary -/

/-- What `write_stl_binary` does with memory from `new` and with its output, step by step. -/
inductive Op where
  /-- `p = new char[128]` and copying `block` to it (src/stl_binary_writer.cc:275-276) -/
  | new (p : Nat) (block : Str)
  /-- `output.write (buffer, 1024)` (src/stl_binary_writer.cc:388) -/
  | output (s : Str)
  /-- `output.write (p, 128)` (src/stl_binary_writer.cc:390) -/
  | outputBlock (p : Nat)
  /-- `delete[] p` (src/stl_binary_writer.cc:391) -/
  | delete (p : Nat)
  deriving DecidableEq, Repr

/-- `make_tti_blocks` (src/stl_binary_writer.cc:148-282): its steps until it returns or throws, and the vector of pointers.  The `n`th call of `new`
returns `n` (counted from 0).  For each subtitle all that may throw comes before the first `new`. -/
def makeTtiOps (fps : Rat) : Nat → List Subtitle → List Op × R (List Nat)
  | _, [] => ([], .ok [])
  | n, s :: ss =>
    match ttiBlocks fps s with
    | .error e => ([], .error e)
    | .ok bs =>
      let r := makeTtiOps fps (n + bs.length) ss
      (bs.mapIdx (fun i b => .new (n + i) b) ++ r.1, r.2.map ((List.range' n bs.length) ++ ·))

/-- `sub::write_stl_binary` (src/stl_binary_writer.cc:287-393): its steps until it returns or throws, and how it ends.  `tti_blocks` is a vector of
pointers: leaving the function by an exception frees none of them. -/
def writeStlOps (l : Locale) (a : StlArgs) : List Op × R Unit :=
  match a.check with
  | .error e => ([], .error e)
  | .ok _ =>
    let m := makeTtiOps a.fps 0 a.subtitles
    match m.2 with
    | .error e => (m.1, .error e)
    | .ok ps =>
      match stlGsi l a ps.length with
      | .error e => (m.1, .error e)
      | .ok gsi => (m.1 ++ .output gsi :: ps.flatMap (fun p => [.outputBlock p, .delete p]), .ok ())

/-! ### reader_factory in a process -/

/-- `sub::reader_factory` (src/reader_factory.cc:34-62) in a process that has `opened` files open already and may have `limit`: what it returns and
how many are open afterwards.  `fopen` fails at the limit (and so does opening an `ifstream`, which is closed in any case when the function is left);
`fclose` is not reached when `SubripReader` throws (lines 54-57). -/
def readerFactoryIn (limit opened : Nat) (path : Str) (contents : Option Str) : R FactoryResult × Nat :=
  let found := if opened < limit then contents else none
  let r := readerFactory path found
  if toLower (extension path) = b!".srt" then
    match found, r with
    | some _, .error _ => (r, opened + 1)
    | _, _ => (r, opened)
  else (r, opened)

/-- Several calls one after the other in a process that catches exceptions: what they return and how many files are open in the end. -/
def factoryRuns (limit : Nat) : Nat → List (Str × Option Str) → List (R FactoryResult) × Nat
  | opened, [] => ([], opened)
  | opened, c :: cs =>
    let r := readerFactoryIn limit opened c.1 c.2
    let rs := factoryRuns limit r.2 cs
    (r.1 :: rs.1, rs.2)

end LibSub
