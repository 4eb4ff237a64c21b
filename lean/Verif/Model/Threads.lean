/-
src/iso6937.cc, src/iso6937_tables.cc: the conversions called from several threads.  The tables are global variables without
any synchronisation, so each access to one of them is recorded.  A step is atomic here; in C++ a run in which two
threads access a variable, one of them writing, has undefined behaviour (nothing orders the accesses), so the steps say
something about runs without such accesses only, and for those their size does not matter.
-/
import Verif.Model.Iso6937

namespace LibSub

/-- The global variables of src/iso6937_tables.cc:27-41: `main`, `diacriticals`, and the table that belongs to an accent. -/
inductive IsoVar where
  | main
  | dia
  | inner (d : Byte)
  deriving DecidableEq

/-- An access to one of them.  `map::operator[]` of a key that exists only reads (libstdc++), otherwise it inserts. -/
structure IsoAccess where
  var : IsoVar
  write : Bool
  deriving DecidableEq

/-- A call of `iso6937_to_utf16` or `utf16_to_iso6937`. -/
inductive IsoCall where
  | decode (s : Str)
  | encode (w : List WChar)
  deriving DecidableEq

/-- A call at some point of its execution. -/
inductive IsoJob where
  | start (c : IsoCall)
  /-- in the loop of src/iso6937.cc:48-60; `diacritical`, `o`, the rest of `s` -/
  | decoding (p : Option Byte) (o : List WChar) (s : Str)
  /-- in the loop of src/iso6937.cc:87-119; `o`, the rest of `s` -/
  | encoding (o : Str) (w : List WChar)
  | decoded (o : List WChar)
  | encoded (o : Str)
  | failed (e : Err)
  deriving DecidableEq

/-- The variables that `make_iso6937_tables` writes (src/iso6937_tables.cc:43-412). -/
def isoMakeWrites : List IsoAccess := ⟨.main, true⟩ :: isoDiacriticals.map (fun kv => ⟨.inner kv.1, true⟩) ++ [⟨.dia, true⟩]

/-- The tables read by the search over `diacriticals` (src/iso6937.cc:92-99), which stops at the first hit. -/
def isoFindDiaReads (c : WChar) : List (Byte × Option (List (Byte × WChar))) → List IsoAccess
  | [] => []
  | (_, none) :: _ => []
  | (d, some m) :: rest => ⟨.inner d, false⟩ :: (match isoFind m c with | some _ => [] | none => isoFindDiaReads c rest)

/-- The variables read by one iteration of the loop of `utf16_to_iso6937` (src/iso6937.cc:88-100). -/
def isoEncodeReads (t : IsoTables) (c : WChar) : List IsoAccess :=
  ⟨.main, false⟩ :: (match isoFind t.main c with | some _ => [] | none => ⟨.dia, false⟩ :: isoFindDiaReads c t.dia)

/-- One step of a call: the test whether there are tables (src/iso6937.cc:39-41, 80-82), or an iteration of the loop.
Nothing is left to do for a call that has returned. -/
def IsoJob.step (t : IsoTables) : IsoJob → Option (IsoTables × IsoJob × List IsoAccess)
  | .start c =>
    some (isoEnsure t, (match c with | .decode s => .decoding none [] s | .encode w => .encoding [] w),
      ⟨.dia, false⟩ :: (if t.dia.isEmpty then isoMakeWrites else []))
  | .decoding _ o [] => some (t, .decoded o, [])
  | .decoding p o (u :: us) =>
    if u = 0 then some (t, .decoded o, [])
    else if isDiacritical u then some (t, .decoding (some u) o us, [])
    else
      match p with
      | some d =>
        match mapGet t.dia d with
        | some (some m) =>
          match mapGet m u with
          | some v => some (t, .decoding none (o ++ [v]) us, [⟨.dia, false⟩, ⟨.inner d, false⟩])
          | none => some ({ t with dia := mapAssign d (some (mapAssign u 0 m)) t.dia }, .decoding none (o ++ [0]) us, [⟨.dia, false⟩, ⟨.inner d, true⟩])
        | some none => some (t, .failed (.ub .nullDeref), [⟨.dia, false⟩])
        | none => some ({ t with dia := mapAssign d none t.dia }, .failed (.ub .nullDeref), [⟨.dia, true⟩])
      | none =>
        match mapGet t.main u with
        | some v => some (t, .decoding none (o ++ [v]) us, [⟨.main, false⟩])
        | none => some ({ t with main := mapAssign u 0 t.main }, .decoding none (o ++ [0]) us, [⟨.main, true⟩])
  | .encoding o [] => some (t, .encoded o, [])
  | .encoding o (c :: cs) =>
    match isoEncodeCharSt t c with
    | .ok a => some (t, .encoding (o ++ a) cs, isoEncodeReads t c)
    | .error e => some (t, .failed e, isoEncodeReads t c)
  | .decoded _ => none
  | .encoded _ => none
  | .failed _ => none

/-- A step of a thread, which makes its calls one after another. -/
inductive ThreadStep (t : IsoTables) : List IsoJob → IsoTables → List IsoJob → List IsoAccess → Prop where
  | here {j j' js t' a} : j.step t = some (t', j', a) → ThreadStep t (j :: js) t' (j' :: js) a
  | later {j js t' js' a} : j.step t = none → ThreadStep t js t' js' a → ThreadStep t (j :: js) t' (j :: js') a

/-- A run of several threads: whichever thread the scheduler picks makes a step.  The trace has the accesses with the
number of the thread. -/
inductive IsoRun : IsoTables → List (List IsoJob) → List (Nat × IsoAccess) → IsoTables → List (List IsoJob) → Prop where
  | nil (t ths) : IsoRun t ths [] t ths
  | step {t ths i th t' th' a tr t'' ths''} : ths[i]? = some th → ThreadStep t th t' th' a → IsoRun t' (ths.set i th') tr t'' ths'' →
      IsoRun t ths (a.map (fun x => (i, x)) ++ tr) t'' ths''

end LibSub
