/-
Binary STL files read and written in several threads: src/stl_binary_reader.cc and src/stl_binary_writer.cc as in
Model/StlProcess.lean, with the conversions as in Model/Threads.lean.
-/
import Verif.Model.StlProcess
import Verif.Model.Threads

namespace LibSub

/-- A piece of the program whose caller catches its exceptions.  Undefined behaviour is not caught. -/
def IsoProg.caught {α : Type} : IsoProg α → IsoProg (R α)
  | .done (.error (.ub u)) => .done (.error (.ub u))
  | .done r => .done (.ok r)
  | .decode s k => .decode s (fun w => (k w).caught)
  | .encode w k => .encode w (fun o => (k o).caught)

/-- An action (Model/StlProcess.lean) with its outcome. -/
def StlAction.prog : StlAction → IsoProg StlOutcome
  | .read file => do
    let r ← (stlReadP file).caught
    pure (.read r)
  | .write l a => do
    let r ← (writeStlP l a).caught
    pure (.wrote r)

/-- Several actions one after another, with their outcomes: what a thread does. -/
def threadProg : List StlAction → IsoProg (List StlOutcome)
  | [] => pure []
  | a :: as => do
    let o ← a.prog
    let os ← threadProg as
    pure (o :: os)

/-- A thread at some point of its execution. -/
inductive ProgThread (α : Type) where
  /-- between calls of the conversions -/
  | between (p : IsoProg α)
  /-- in a call of `iso6937_to_utf16`; what it does with the result -/
  | inDecode (j : IsoJob) (k : List WChar → IsoProg α)
  /-- in a call of `utf16_to_iso6937`; what it does with the result -/
  | inEncode (j : IsoJob) (k : Str → IsoProg α)

/-- A step of a thread: a step of the call that it is in (Model/Threads.lean), the beginning of the next call or the return from one. -/
def ProgThread.step {α : Type} (t : IsoTables) : ProgThread α → Option (IsoTables × ProgThread α × List IsoAccess)
  | .between (.done _) => none
  | .between (.decode s k) => ((IsoJob.start (.decode s)).step t).map (fun r => (r.1, .inDecode r.2.1 k, r.2.2))
  | .between (.encode w k) => ((IsoJob.start (.encode w)).step t).map (fun r => (r.1, .inEncode r.2.1 k, r.2.2))
  | .inDecode (.decoded w) k => some (t, .between (k w), [])
  | .inDecode (.failed e) _ => some (t, .between (.done (.error e)), [])
  | .inDecode j k => (j.step t).map (fun r => (r.1, .inDecode r.2.1 k, r.2.2))
  | .inEncode (.encoded o) k => some (t, .between (k o), [])
  | .inEncode (.failed e) _ => some (t, .between (.done (.error e)), [])
  | .inEncode j k => (j.step t).map (fun r => (r.1, .inEncode r.2.1 k, r.2.2))

/-- A run of several threads: whichever thread the scheduler picks makes a step.  The trace has the accesses to the tables with the number of the thread. -/
inductive ProgRun {α : Type} : IsoTables → List (ProgThread α) → List (Nat × IsoAccess) → IsoTables → List (ProgThread α) → Prop where
  | nil (t xs) : ProgRun t xs [] t xs
  | step {t xs i x t' x' a tr t'' xs''} : xs[i]? = some x → x.step t = some (t', x', a) → ProgRun t' (xs.set i x') tr t'' xs'' →
      ProgRun t xs (a.map (fun y => (i, y)) ++ tr) t'' xs''

end LibSub
