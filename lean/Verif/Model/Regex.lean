/-
The regular expressions of src/subrip_reader.cc and src/web_vtt_reader.cc, as they are written there, and how `boost::regex`
(Perl syntax, the default) searches with them: leftmost match, greedy repetition, backtracking.  Only the syntax used in those files:
characters, `.`, bracket sets with class names, `\` before a character that is not a letter or digit, groups, and `*`, `+`, `?` after a
character or set.  The limit that Boost puts on the number of steps of a search is not modelled.
-/
import Verif.Model.SubRip

namespace LibSub

/-- A member of a bracket set. -/
inductive SetItem where
  | chr (c : Byte)
  | space
  | digit
  | xdigit
  deriving DecidableEq, Repr

/-- What matches one character. -/
inductive Cls where
  | any
  | set (items : List SetItem)
  deriving DecidableEq, Repr

@[inherit_doc SetItem]
def SetItem.test : SetItem → Byte → Bool
  | .chr d, c => c == d
  | .space, c => isSpace c
  | .digit, c => isDigit c
  | .xdigit, c => isXDigit c

@[inherit_doc Cls]
def Cls.test : Cls → Byte → Bool
  | .any, _ => true
  | .set items, c => items.any (fun i => i.test c)

/-- A piece of a regular expression. -/
inductive RePiece where
  | one (k : Cls)
  | opt (k : Cls)
  | star (k : Cls)
  | plus (k : Cls)
  | openGroup
  | closeGroup
  deriving DecidableEq, Repr

/-- The members of a bracket set, after `[`, and what follows `]`. -/
def parseSet : Nat → Str → Option (List SetItem × Str)
  | 0, _ => none
  | _, [] => none
  | fuel + 1, c :: cs =>
    if c == 93 then some ([], cs)
    else if startsWith (c :: cs) b!"[:space:]" then (parseSet fuel ((c :: cs).drop 9)).map (fun r => (.space :: r.1, r.2))
    else if startsWith (c :: cs) b!"[:digit:]" then (parseSet fuel ((c :: cs).drop 9)).map (fun r => (.digit :: r.1, r.2))
    else if startsWith (c :: cs) b!"[:xdigit:]" then (parseSet fuel ((c :: cs).drop 10)).map (fun r => (.xdigit :: r.1, r.2))
    else if c == 91 || c == 92 || c == 94 || c == 45 then none
    else (parseSet fuel cs).map (fun r => (.chr c :: r.1, r.2))

/-- The pieces of a regular expression from its text; `none` if it uses other syntax. -/
def parseRe : Nat → Str → Option (List RePiece)
  | 0, _ => none
  | _, [] => some []
  | fuel + 1, c :: cs =>
    let quantified (k : Cls) (rest : Str) : Option (List RePiece) :=
      match rest with
      | 42 :: r => (parseRe fuel r).map (.star k :: ·)
      | 43 :: r => (parseRe fuel r).map (.plus k :: ·)
      | 63 :: r => (parseRe fuel r).map (.opt k :: ·)
      | r => (parseRe fuel r).map (.one k :: ·)
    if c == 40 then (parseRe fuel cs).map (.openGroup :: ·)
    else if c == 41 then (parseRe fuel cs).map (.closeGroup :: ·)
    else if c == 46 then quantified .any cs
    else if c == 91 then
      match parseSet fuel cs with
      | some (items, rest) => quantified (.set items) rest
      | none => none
    else if c == 92 then
      match cs with
      | d :: rest => if isDigit d || isAlpha d then none else quantified (.set [.chr d]) rest
      | [] => none
    else if c == 42 || c == 43 || c == 63 || c == 93 || c == 123 || c == 125 || c == 124 || c == 94 || c == 36 then none
    else quantified (.set [.chr c]) cs
where
  /-- a letter -/
  isAlpha (c : Byte) : Bool := (65 ≤ c && c ≤ 90) || (97 ≤ c && c ≤ 122)

/-- The `boost::regex` made from a text; a text that is not understood matches nothing. -/
def regex (text : Str) : List RePiece := (parseRe (text.length + 1) text).getD [.one (.set [])]

/-- As many characters as possible, then as many fewer as needed for what follows. -/
def greedy {α : Type} (p : Byte → Bool) (k : Str → Option α) : Str → Option α
  | [] => k []
  | c :: cs => if p c then (greedy p k cs).orElse (fun _ => k (c :: cs)) else k (c :: cs)

/-- The first match at the start of `s` in the order of trying: the groups matched and what follows the match.  `o` is what there was
when the group that is open was opened. -/
def runRe : List RePiece → Str → List Str → Str → Option (List Str × Str)
  | [], _, caps, s => some (caps, s)
  | .one k :: r, o, caps, s =>
    match s with
    | c :: cs => if k.test c then runRe r o caps cs else none
    | [] => none
  | .opt k :: r, o, caps, s =>
    match s with
    | c :: cs => if k.test c then (runRe r o caps cs).orElse (fun _ => runRe r o caps (c :: cs)) else runRe r o caps (c :: cs)
    | [] => runRe r o caps []
  | .star k :: r, o, caps, s => greedy k.test (runRe r o caps) s
  | .plus k :: r, o, caps, s =>
    match s with
    | c :: cs => if k.test c then greedy k.test (runRe r o caps) cs else none
    | [] => none
  | .openGroup :: r, _, caps, s => runRe r s caps s
  | .closeGroup :: r, o, caps, s => runRe r o (caps ++ [o.take (o.length - s.length)]) s

/-- `boost::regex_search`: what is before the match, the groups, and what is after it. -/
def regexSearch (r : List RePiece) : Str → Option (Str × List Str × Str)
  | [] => (runRe r [] [] []).map (fun m => ([], m.1, m.2))
  | c :: cs =>
    match runRe r [] [] (c :: cs) with
    | some m => some ([], m.1, m.2)
    | none => (regexSearch r cs).map (fun m => (c :: m.1, m.2))

/-- `boost::algorithm::split_regex` with a regular expression that does not match the empty string; `s.length` is enough fuel. -/
def splitRegexGo (r : List RePiece) : Nat → Str → List Str
  | 0, s => [s]
  | fuel + 1, s =>
    match regexSearch r s with
    | some (before, _, rest) => before :: splitRegexGo r fuel rest
    | none => [s]

@[inherit_doc splitRegexGo]
def splitRegex (r : List RePiece) (s : Str) : List Str := splitRegexGo r (s.length + 1) s

/-- The first expression of `convert_line` (src/subrip_reader.cc:265). -/
def hexPattern : Str := b!".*color=[\"']?#([[:xdigit:]]+)[\"']?"

/-- The second expression of `convert_line` (src/subrip_reader.cc:284-291). -/
def rgbaPattern : Str :=
  b!".*color=\"rgba\\(" ++
  b!"[[:space:]]*([[:digit:]]+)[[:space:]]*," ++
  b!"[[:space:]]*([[:digit:]]+)[[:space:]]*," ++
  b!"[[:space:]]*([[:digit:]]+)[[:space:]]*," ++
  b!"[[:space:]]*([[:digit:]]+)[[:space:]]*" ++
  b!"\\)\""

/-- The expression on which lines are split (src/subrip_reader.cc:157, src/web_vtt_reader.cc:138). -/
def lineSepPattern : Str := [0xe2, 0x80, 0xa8]

/-- The colour given by a `<font` tag, with the expressions of the code (src/subrip_reader.cc:265-300).  `match.size ()` is one more
than the number of groups. -/
def fontColourRe (lineNumber : Nat) (ctx : List Str) (tag : Str) : R Colour :=
  match regexSearch (regex hexPattern) tag with
  | some (_, caps, _) =>
    if (caps.getD 0 []).length = 6 then Colour.fromRgbHex (caps.getD 0 [])
    else if (caps.getD 0 []).length = 8 then Colour.fromRgbaHex (caps.getD 0 [])
    else .error (.subrip lineNumber tag badColourText ctx)
  | none =>
    match regexSearch (regex rgbaPattern) tag with
    | some (_, caps, _) =>
      if caps.length + 1 = 5 then do
        let r ← decComp (caps.getD 0 [])
        let g ← decComp (caps.getD 1 [])
        let b ← decComp (caps.getD 2 [])
        pure ⟨r, g, b⟩
      else .error (.subrip lineNumber tag badColourText ctx)
    | none => .error (.subrip lineNumber tag badColourText ctx)

/-! ### The number of steps -/

/-- The number of steps that `greedy` takes; `kc` is the number that `k` takes. -/
def greedySteps {α : Type} (p : Byte → Bool) (k : Str → Option α) (kc : Str → Nat) : Str → Nat
  | [] => 1 + kc []
  | c :: cs =>
    if p c then
      1 + greedySteps p k kc cs + (match greedy p k cs with | some _ => 0 | none => kc (c :: cs))
    else 1 + kc (c :: cs)

/-- The number of steps that `runRe` takes: one for each piece that is tried at a place, and for each character that is repeated. -/
def runSteps : List RePiece → Str → List Str → Str → Nat
  | [], _, _, _ => 1
  | .one k :: r, o, caps, s =>
    match s with
    | c :: cs => if k.test c then 1 + runSteps r o caps cs else 1
    | [] => 1
  | .opt k :: r, o, caps, s =>
    match s with
    | c :: cs =>
      if k.test c then
        1 + runSteps r o caps cs + (match runRe r o caps cs with | some _ => 0 | none => runSteps r o caps (c :: cs))
      else 1 + runSteps r o caps (c :: cs)
    | [] => 1 + runSteps r o caps []
  | .star k :: r, o, caps, s => 1 + greedySteps k.test (runRe r o caps) (runSteps r o caps) s
  | .plus k :: r, o, caps, s =>
    match s with
    | c :: cs => if k.test c then 1 + greedySteps k.test (runRe r o caps) (runSteps r o caps) cs else 1
    | [] => 1
  | .openGroup :: r, _, caps, s => 1 + runSteps r s caps s
  | .closeGroup :: r, o, caps, s => 1 + runSteps r o (caps ++ [o.take (o.length - s.length)]) s

/-- The number of steps that `regexSearch` takes. -/
def searchSteps (r : List RePiece) : Str → Nat
  | [] => runSteps r [] [] []
  | c :: cs =>
    runSteps r [] [] (c :: cs) + (match runRe r [] [] (c :: cs) with | some _ => 0 | none => searchSteps r cs)

end LibSub
