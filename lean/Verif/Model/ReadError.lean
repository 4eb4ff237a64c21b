/-
The readers that read from a `FILE*` (src/subrip_reader.cc, src/web_vtt_reader.cc, src/ssa_reader.cc) and tools/dumpsubs.cc, once more, for files that cannot be read to their end: after
some bytes there is a read error, and again whenever more is asked for.  Where the error is does not depend on the reader, but which bytes come before it does on the blocks that stdio reads:
here it is any number of bytes.
-/
import Verif.Model.DumpSubs
import Verif.Model.WebVtt

namespace LibSub

/-- `sub::get_line_file` (src/util.cc:73-83).  `f` is what can still be read, after it is the end of the file or (`err`) a read error.  `fgets` returns null if there is not a single byte, and also if it meets an
error before it has a newline or 255 bytes: what it has read is lost (glibc; ISO C, 7.21.7.2p3, "contents are indeterminate"). -/
def getLineE (err : Bool) (f : Str) : Option (Str × Str) :=
  let r := fgetsTake 255 f
  if r.isEmpty then none
  else if err && r.length != 255 && r.getLast? != some 10 then none
  else some (r.takeWhile (· != 0), f.drop r.length)

/-- The lines that a reader gets: all three stop at the first null (src/subrip_reader.cc:84-88, src/web_vtt_reader.cc:71-75, src/ssa_reader.cc:442-446). -/
def linesE (err : Bool) (s : Str) : List Str := allLinesGo (getLineE err) (s.length + 1) s

/-- `SubripReader (FILE*)` (src/subrip_reader.cc:60-63). -/
def srtReadE (err : Bool) (s : Str) : R (List Raw) := srtRead (linesE err s)

/-- `WebVTTReader (FILE*)` (src/web_vtt_reader.cc:40-43). -/
def vttReadE (err : Bool) (s : Str) : R (List Raw) := vttRead (linesE err s)

/-- `SSAReader (FILE*)` (src/ssa_reader.cc:50-54). -/
def ssaReadE (err : Bool) (s : Str) : R (List Raw) := do
  let r ← ssaLines {} (linesE err s)
  pure r.subs

/-- `main` of tools/dumpsubs.cc (tools/dumpsubs.cc:73-82) with `reader_factory` (src/reader_factory.cc:54-60), for one file whose extension is `.srt`. -/
def dumpsubsE (err : Bool) (s : Str) : Exit :=
  match srtReadE err s with
  | .error e => .failed e []
  | .ok subs =>
    match dump showFloat [] subs with
    | .ok out => .done out
    | .error e => .failed e []

end LibSub
