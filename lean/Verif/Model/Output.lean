/-
`write_stl_binary` and the file it writes to, on a device that may not have room for it.
-/
import Verif.Model.StlWriter

namespace LibSub

/-- Where a file is to be written. -/
inductive Disk where
  /-- the file cannot be opened for writing -/
  | shut
  /-- it can be opened, and there is room for so many bytes once what was in it is gone -/
  | room (n : Nat)
  deriving DecidableEq, Repr

/-- A `std::ofstream` with the exception mask it starts with (none): bytes that reached the device, room that is left, and whether `badbit` and `failbit` are clear. -/
structure OStream where
  file : Str
  room : Nat
  good : Bool
  deriving DecidableEq, Repr

/-- `ofstream output (file_name)` (src/stl_binary_writer.cc:387): opening truncates the file; where it fails `failbit` is set. -/
def OStream.open (d : Disk) : OStream :=
  match d with
  | .shut => { file := [], room := 0, good := false }
  | .room n => { file := [], room := n, good := true }

/-- `output.write (s, length)` (src/stl_binary_writer.cc:388, 390): nothing on a stream that is not good; where the device is full the rest is lost and `badbit` is set.
(The buffer of the stream is not modelled: what reaches the device does so in order.) -/
def OStream.write (o : OStream) (s : Str) : OStream :=
  if o.good = false then o
  else if s.length ≤ o.room then { o with file := o.file ++ s, room := o.room - s.length }
  else { file := o.file ++ s.take o.room, room := 0, good := false }

/-- `sub::write_stl_binary` (src/stl_binary_writer.cc:287-393) under locale `l`, to the file `old` (`none`: there is none): how it ends, and the file afterwards.
The stream is not asked how it fared (lines 388-392). -/
def writeStlTo (l : Locale) (a : StlArgs) (d : Disk) (old : Option Str) : R Unit × Option Str :=
  let made : R (Str × List Str) := do
    a.check
    let tti ← makeTtiBlocks a.fps a.subtitles
    let gsi ← stlGsi l a tti.length
    pure (gsi, tti)
  match made with
  | .error e => (.error e, old)
  | .ok (gsi, tti) =>
    let o := tti.foldl OStream.write ((OStream.open d).write gsi)
    (.ok (), match d with | .shut => old | .room _ => some o.file)

end LibSub
