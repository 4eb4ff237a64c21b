/-
src/collect.h
-/
import Verif.Model.Subtitle

namespace LibSub

/-- The body of the loop in `collect` (src/collect.h:42-58): `out` is in order, `current` is the
subtitle under construction. -/
def collectStep (st : List Subtitle × Option Subtitle) (i : Raw) : R (List Subtitle × Option Subtitle) :=
  match st.2 with
  | none => .ok (st.1, some (Subtitle.ofRaw i))
  | some cur => do
    let same ← cur.sameMetadata i
    if same then
      match cur.lines.getLast? with
      | some l =>
        if l.sameMetadata i then
          pure (st.1, some { cur with lines := cur.lines.dropLast ++ [{ l with blocks := l.blocks ++ [Block.ofRaw i] }] })
        else
          pure (st.1, some { cur with lines := cur.lines ++ [Line.ofRaw i] })
      | none => pure (st.1, some { cur with lines := cur.lines ++ [Line.ofRaw i] })
    else
      pure (st.1 ++ [cur], some (Subtitle.ofRaw i))

/-- The loop of `collect` (src/collect.h:41-58), over the sorted vector. -/
def collectLoop (st : List Subtitle × Option Subtitle) : List Raw → R (List Subtitle × Option Subtitle)
  | [] => .ok st
  | i :: is => do
    let st' ← collectStep st i
    collectLoop st' is

/-- The end of `collect` (src/collect.h:60-64). -/
def collectFinish (st : List Subtitle × Option Subtitle) : List Subtitle :=
  match st.2 with
  | none => st.1
  | some cur => st.1 ++ [cur]

/-- All outcomes of comparing elements at different places; `.ok ()` if no comparison fails (`a < b` fails exactly when
`b < a` does, `lt_ok_symm`). -/
def allComparable : List Raw → R Unit
  | [] => .ok ()
  | a :: as => do
    let rec go : List Raw → R Unit
      | [] => .ok ()
      | b :: bs => do
        let _ ← a.lt b
        go bs
    go as
    allComparable as

/-- Puts `a` before the first element that it may precede. -/
def insertRaw (le : Raw → Raw → Bool) (a : Raw) : List Raw → List Raw
  | [] => [a]
  | b :: l => if le a b then a :: b :: l else b :: insertRaw le a l

/-- Insertion sort, stable. -/
def sortRaws (le : Raw → Raw → Bool) : List Raw → List Raw
  | [] => []
  | a :: l => insertRaw le a (sortRaws le l)

/-- `std::stable_sort (raw.begin(), raw.end())` (src/collect.h:37) with `operator<` of `RawSubtitle`.
Which pairs the library compares is unspecified, so the model is used where every pair (of elements at different
places; nothing is compared with itself) can be compared: then this is the stable sort; if some pair cannot be compared the model reports that failure
(the real sort may or may not reach that pair).  The result of a stable sort by a strict weak order is determined
(`C13_order`); it is computed here by insertion with `¬ (b < a)` as "`a` goes before `b`". -/
def stableSort (raws : List Raw) : R (List Raw) := do
  allComparable raws
  pure (sortRaws (fun a b => match b.lt a with | .ok true => false | _ => true) raws)

/-- `sub::collect` (src/collect.h:33-67) over a given sorting step. -/
def collectWith (sort : List Raw → R (List Raw)) (raws : List Raw) : R (List Subtitle) := do
  let sorted ← sort raws
  let st ← collectLoop ([], none) sorted
  pure (collectFinish st)

/-- `sub::collect` (src/collect.h:33-67). -/
def collect (raws : List Raw) : R (List Subtitle) := collectWith stableSort raws

end LibSub
