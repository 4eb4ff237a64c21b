/-
Property C140: what is read from SSA and SubRip files, and written to binary STL files, does not depend on the locale.
-/
import Verif.Model.ReadLocale
import Verif.Model.StlWriter
import Verif.Props.Locale
import Verif.Props.NoInvention
import Verif.Props.SubRipRead
import Verif.Props.Subsequence

namespace LibSub

/-! ### Specification -/

/-- `intro`, then `d` before any of the bytes `ends`: with `\fs` for `intro`, a size written with `d`. -/
def SizeWith (intro : Str) (d : Byte) (ends line : Str) : Prop := ∃ a m b, line = a ++ intro ++ m ++ d :: b ∧ ∀ c ∈ m, c ∉ ends

/-- A line of an SSA file without numbers that could be taken for others in locale `loc`.  If that writes a comma in numbers: no size in an override tag has one,
and the line does not end with `MarginV` (as a list of columns with the margin last does).  If it writes something else that is not a full stop: the line does not
have (the first byte of) that. -/
def SsaLineSafe (loc : Locale) (line : Str) : Prop :=
  loc.decimalPoint = b!"." ∨ ∀ d, loc.decimalPoint.head? = some d →
    (d = 44 → ¬ SizeWith b!"\\fs" 44 b!"\\}" line ∧ ¬ b!"MarginV" <:+ trim line) ∧ (d ≠ 44 → d ∉ line)

/-- The same of a line of a SubRip file. -/
def SrtLineSafe (loc : Locale) (line : Str) : Prop :=
  loc.decimalPoint = b!"." ∨ ∀ d, loc.decimalPoint.head? = some d →
    (d = 44 → ¬ SizeWith b!"{\\fs" 44 b!"}" line) ∧ (d ≠ 44 → d ∉ line)

/-! ### Proofs -/

/-- A string that is read as the same number in `loc`. -/
private def FloatSafe (loc : Locale) (v : Str) : Prop := loc.decimalPoint = b!"." ∨ ∀ d, loc.decimalPoint.head? = some d → d ∉ v

private theorem float_eq {loc : Locale} (hl : SaneLocale loc) {v : Str} (hv : FloatSafe loc v) : rawConvertFloatIn loc v = rawConvertFloat v :=
  C69_float_partial loc hl v hv

private theorem int_eq {loc : Locale} (hl : SaneLocale loc) : rawConvertIntIn loc = rawConvertInt := funext (C69_int loc hl)

private theorem lbind_congr {α β : Type} {x : R α} {f g : α → R β} (h : ∀ a, x = .ok a → f a = g a) : (x >>= f) = (x >>= g) := by
  cases x with
  | error e => rfl
  | ok a => exact h a rfl

private theorem lcolour_eq {loc : Locale} (hl : SaneLocale loc) : SsaStyle.colourIn loc = SsaStyle.colour := by
  funext c
  unfold SsaStyle.colourIn SsaStyle.colour
  rw [int_eq hl]
  rfl

private theorem lfield_eq {loc : Locale} (hl : SaneLocale loc) : SsaStyle.fieldIn loc = SsaStyle.field := by
  funext s k v
  unfold SsaStyle.fieldIn SsaStyle.field
  rw [int_eq hl, lcolour_eq hl]

private theorem lfields_eq {loc : Locale} (hl : SaneLocale loc) : ∀ (kvs : List (Str × Str)) (s : SsaStyle), s.fieldsIn loc kvs = s.fields kvs
  | [], _ => rfl
  | (k, v) :: kvs, s => by
    rw [SsaStyle.fieldsIn, SsaStyle.fields, lfield_eq hl]
    refine lbind_congr fun s' _ => ?_
    exact lfields_eq hl kvs s'

private theorem lmake_eq {loc : Locale} (hl : SaneLocale loc) : SsaStyle.makeIn loc = SsaStyle.make := by
  funext f s
  unfold SsaStyle.makeIn SsaStyle.make
  simp only [lfields_eq hl]

private theorem ltime_eq {loc : Locale} (hl : SaneLocale loc) : ssaParseTimeIn loc = ssaParseTime := by
  funext t
  unfold ssaParseTimeIn ssaParseTime
  rw [int_eq hl]
  rfl

private theorem ltag_eq {loc : Locale} (hl : SaneLocale loc) (ctx : SsaContext) (sub : Raw) (tag : Str)
    (hpos : ∀ x ∈ splitAny (fun c => c == 40 || c == 44) tag, FloatSafe loc x) (hfs : startsWith tag b!"\\fs" = true → FloatSafe loc (tag.drop 3)) :
    ssaParseTagIn loc ctx sub tag = ssaParseTag ctx sub tag := by
  unfold ssaParseTagIn ssaParseTag
  repeat (refine ite_congr rfl (fun _ => rfl) (fun _ => ?_))
  refine ite_congr rfl (fun _ => ?_) (fun _ => ?_)
  · rcases h : splitAny (fun c => c == 40 || c == 44) tag with _ | ⟨a, _ | ⟨x, _ | ⟨y, _ | ⟨z, zs⟩⟩⟩⟩
    · rfl
    · rfl
    · rfl
    · rw [h] at hpos
      simp only [float_eq hl (hpos x (by simp)), float_eq hl (hpos y (by simp))]
    · rfl
  · refine ite_congr rfl (fun h => ?_) (fun _ => rfl)
    rw [float_eq hl (hfs h)]

private theorem split_mem {p : Byte → Bool} (t : Str) : ∀ x ∈ splitAny p t, ∀ c ∈ x, c ∈ t := by
  induction t with
  | nil => simp [splitAny]
  | cons c cs ih =>
    intro x hx
    rw [splitAny] at hx
    split at hx
    · rcases List.mem_cons.1 hx with rfl | hx
      · simp
      · intro d hd; exact List.mem_cons_of_mem _ (ih x hx d hd)
    · split at hx
      · rename_i he; exact absurd he (splitAny_ne_nil _ _)
      · rename_i t0 ts he
        rw [he] at ih
        rcases List.mem_cons.1 hx with rfl | hx
        · intro d hd
          rcases List.mem_cons.1 hd with rfl | hd
          · simp
          · exact List.mem_cons_of_mem _ (ih t0 (by simp) d hd)
        · intro d hd; exact List.mem_cons_of_mem _ (ih x (List.mem_cons_of_mem _ hx) d hd)

/-- What is needed of a piece of text with override tags. -/
private def TextSafe (loc : Locale) (intro ends line : Str) : Prop :=
  loc.decimalPoint = b!"." ∨ ∀ d, loc.decimalPoint.head? = some d → (d = 44 → ¬ SizeWith intro 44 ends line) ∧ (d ≠ 44 → d ∉ line)

private theorem SizeWith.mono {intro ends w line : Str} {d : Byte} (h : SizeWith intro d ends w) (hw : w <:+: line) : SizeWith intro d ends line := by
  obtain ⟨a, m, b, rfl, hm⟩ := h
  obtain ⟨x, y, rfl⟩ := hw
  exact ⟨x ++ a, m, b ++ y, by simp, hm⟩

private theorem TextSafe.mono {loc : Locale} {intro ends w line : Str} (h : TextSafe loc intro ends line) (hw : w <:+: line) : TextSafe loc intro ends w := by
  rcases h with h | h
  · exact Or.inl h
  · exact Or.inr fun d hd => ⟨fun e hs => (h d hd).1 e (hs.mono hw), fun e hm => (h d hd).2 e (hw.subset hm)⟩

/-- The tag that is complete. -/
private theorem tag_safe {loc : Locale} (hl : SaneLocale loc) {a tag rest intro ends : Str} (hi : intro <:+ a ++ b!"\\fs") (h : TextSafe loc intro ends (a ++ tag ++ rest))
    (hc : ∀ c ∈ tag.drop 1, c ∉ ends) (ctx : SsaContext) (sub : Raw) : ssaParseTagIn loc ctx sub tag = ssaParseTag ctx sub tag := by
  refine ltag_eq hl ctx sub tag (fun x hx => ?_) (fun hs => ?_)
  · rcases h with h | h
    · exact Or.inl h
    · refine Or.inr fun d hd hm => ?_
      by_cases e : d = 44
      · subst e
        exact absurd (splitAny_noSep_mem _ _ x hx 44 hm) (by decide)
      · exact (h d hd).2 e (by simp [split_mem tag x hx d hm])
  · rcases h with h | h
    · exact Or.inl h
    · refine Or.inr fun d hd hm => ?_
      by_cases e : d = 44
      · subst e
        obtain ⟨m, m', hmm⟩ := List.append_of_mem hm
        have ht : tag = b!"\\fs" ++ (m ++ 44 :: m') := by
          rw [← hmm]
          obtain ⟨t, ht⟩ := List.isPrefixOf_iff_prefix.1 hs
          rw [← ht]; rfl
        obtain ⟨i, hi⟩ := hi
        refine (h 44 hd).1 rfl ⟨i, m, m' ++ rest, ?_, fun c hcm => hc c ?_⟩
        · rw [hi, ht]; simp
        · rw [ht]; simp [hcm]
      · exact (h d hd).2 e (by simp [List.mem_of_mem_drop hm])

private theorem flush_tag (l : SsaLoop) : l.flush.tag = l.tag ∧ l.flush.state = l.state := by
  unfold SsaLoop.flush; split <;> simp

private theorem lrun_eq {loc : Locale} (hl : SaneLocale loc) (ctx : SsaContext) (size : Rat) : ∀ (rest pre : Str) (l : SsaLoop),
    TextSafe loc b!"\\fs" b!"\\}" (pre ++ rest) → (if l.state = .tag then ∃ a, pre = a ++ l.tag ∧ ∀ c ∈ l.tag.drop 1, c ∉ b!"\\}" else l.tag = []) →
    ssaRunIn loc ctx size l rest = ssaRun ctx size l rest
  | [], _, _, _, _ => rfl
  | c :: rest, pre, l, h, hi => by
    have hstep : ssaStepIn loc ctx size l c = ssaStep ctx size l c := by
      unfold ssaStepIn ssaStep
      cases hs : l.state with
      | text => rfl
      | backslash => rfl
      | tag =>
        rw [if_pos hs] at hi
        obtain ⟨a, ha, hc⟩ := hi
        have ht : ssaParseTagIn loc ctx l.flush.current l.flush.tag = ssaParseTag ctx l.flush.current l.flush.tag := by
          rw [(flush_tag l).1]
          refine tag_safe hl (a := a) (rest := c :: rest) (List.suffix_append _ _) ?_ hc ctx _
          rw [← ha]; exact h
        simp only [ht]
    rw [ssaRunIn, ssaRun, hstep]
    cases hq : ssaStep ctx size l c with
    | error e => rfl
    | ok l' =>
      refine lrun_eq hl ctx size rest (pre ++ [c]) l' (by simpa using h) ?_
      unfold ssaStep at hq
      cases hs : l.state with
      | text =>
        rw [if_neg (by rw [hs]; decide)] at hi
        simp only [hs] at hq
        rcases ite_cases hq with ⟨_, hq⟩ | ⟨_, hq⟩
        · rw [← Except.ok.inj hq]
          simp [hi]
        · rcases ite_cases hq with ⟨_, hq⟩ | ⟨_, hq⟩
          · rw [← Except.ok.inj hq]; simp [hi]
          · rcases ite_cases hq with ⟨_, hq⟩ | ⟨_, hq⟩ <;> rw [← Except.ok.inj hq] <;> simp [hi, hs]
      | backslash =>
        rw [if_neg (by rw [hs]; decide)] at hi
        simp only [hs] at hq
        rcases ite_cases hq with ⟨_, hq⟩ | ⟨_, hq⟩
        · obtain ⟨v, _, hq⟩ := bind_eq_ok.1 hq
          rw [← Except.ok.inj hq]
          simp [(flush_tag l).1, hi]
        · rw [← Except.ok.inj hq]; simp [hi]
      | tag =>
        rw [if_pos hs] at hi
        obtain ⟨a, ha, hc⟩ := hi
        simp only [hs] at hq
        rcases ite_cases hq with ⟨_, hq⟩ | ⟨h1, hq⟩
        · obtain ⟨v, _, hq⟩ := bind_eq_ok.1 hq
          rw [← Except.ok.inj hq]
          simp
        · rcases ite_cases hq with ⟨_, hq⟩ | ⟨h2, hq⟩
          · obtain ⟨v, _, hq⟩ := bind_eq_ok.1 hq
            rw [← Except.ok.inj hq]
            simp [(flush_tag l).2, hs]
          · rw [← Except.ok.inj hq]
            rw [if_pos rfl]
            refine ⟨a, by rw [ha]; simp, fun x hx => ?_⟩
            cases ht : l.tag with
            | nil => rw [ht] at hx; simp at hx
            | cons y ys =>
              rw [ht] at hx hc
              simp only [List.cons_append, List.drop_succ_cons, List.drop_zero, List.mem_append, List.mem_singleton] at hx hc
              rcases hx with hx | rfl
              · exact hc x hx
              · have h1' : x ≠ 125 := by simpa using h1
                have h2' : x ≠ 92 := by simpa using h2
                have e : b!"\\}" = [92, 125] := by decide
                rw [e]; simp [h1', h2']

private theorem lparse_eq {loc : Locale} (hl : SaneLocale loc) (ctx : SsaContext) (base : Raw) (line : Str) (h : TextSafe loc b!"\\fs" b!"\\}" line) :
    ssaParseLineIn loc ctx base line = ssaParseLine ctx base line := by
  unfold ssaParseLineIn ssaParseLine
  have : ∀ cur size, ssaRunIn loc ctx size { current := cur } line = ssaRun ctx size { current := cur } line := fun cur size =>
    lrun_eq hl ctx size line [] _ (by simpa using h) (by simp)
  simp only [this]

private theorem trim_infix (s : Str) : trim s <:+: s := by
  unfold trim trimLeftIf trimRightIf
  refine (List.dropWhile_suffix _).isInfix.trans ?_
  have := (List.dropWhile_suffix (l := s.reverse) isSpace)
  have := List.reverse_prefix.2 this
  rw [List.reverse_reverse] at this
  exact this.isInfix

private theorem removeBom_suffix (s : Str) : removeBom s <:+ s := by
  unfold removeBom
  split
  · exact ⟨[0xef, 0xbb, 0xbf], rfl⟩
  · exact List.suffix_refl _

/-- One column of an event. -/
private theorem levent_eq {loc : Locale} (hl : SaneLocale loc) (r : SsaRead) (ev : SsaEvent) (fmt raw : Str) (h : TextSafe loc b!"\\fs" b!"\\}" raw)
    (hm : fmt = b!"MarginV" → FloatSafe loc raw) : ssaEventFieldIn loc r ev fmt raw = ssaEventField r ev fmt raw := by
  unfold ssaEventFieldIn ssaEventField
  simp only [ltime_eq hl, int_eq hl, lparse_eq hl _ _ _ (h.mono (trim_infix raw))]
  by_cases e : fmt = b!"MarginV"
  · have : FloatSafe loc (trim raw) := by
      rcases hm e with h | h
      · exact Or.inl h
      · exact Or.inr fun d hd hx => h d hd ((trim_infix raw).subset hx)
    simp only [float_eq hl this]
    rfl
  · simp only [if_neg e]
    rfl

private theorem levents_eq {loc : Locale} (hl : SaneLocale loc) (r : SsaRead) : ∀ (kvs : List (Str × Str)) (ev : SsaEvent),
    (∀ kv ∈ kvs, TextSafe loc b!"\\fs" b!"\\}" kv.2 ∧ (kv.1 = b!"MarginV" → FloatSafe loc kv.2)) → ssaEventFieldsIn loc r ev kvs = ssaEventFields r ev kvs
  | [], _, _ => rfl
  | (k, v) :: kvs, ev, h => by
    rw [ssaEventFieldsIn, ssaEventFields, levent_eq hl r ev k v (h (k, v) (by simp)).1 (h (k, v) (by simp)).2]
    refine lbind_congr fun ev' _ => ?_
    exact levents_eq hl r kvs ev' fun kv hkv => h kv (by simp [hkv])

private theorem infix_intercalate : ∀ (ps : List Str), ∀ x ∈ ps, x <:+: [44].intercalate ps
  | [], _, h => by simp at h
  | [a], x, h => by simp at h; subst h; simp [List.intercalate, List.intersperse]
  | a :: b :: ps, x, h => by
    have e : ([44] : Str).intercalate (a :: b :: ps) = a ++ (44 :: [44].intercalate (b :: ps)) := by simp [List.intercalate, List.intersperse]
    rw [e]
    rcases List.mem_cons.1 h with rfl | h
    · exact (List.prefix_append _ _).isInfix
    · exact ((infix_intercalate (b :: ps) x h).trans (List.suffix_cons _ _).isInfix).trans (List.suffix_append _ _).isInfix

/-- All parts but the last have no comma. -/
private theorem rejoin_plain (n : Nat) : ∀ (f : Nat) (ps : List Str), (∀ x ∈ ps.dropLast, (44 : Byte) ∉ x) → ∀ x ∈ (ssaRejoin n f ps).dropLast, (44 : Byte) ∉ x
  | 0, ps, h => h
  | f + 1, ps, h => by
    rw [ssaRejoin]
    split
    · split
      · rename_i ex b rest e
        have : ps = rest.reverse ++ [b, ex] := by
          have := congrArg List.reverse e
          simpa using this
        refine rejoin_plain n f _ fun x hx => ?_
        rw [List.dropLast_concat] at hx
        have e2 : ps.dropLast = rest.reverse ++ [b] := by
          rw [this, show rest.reverse ++ [b, ex] = (rest.reverse ++ [b]) ++ [ex] by simp, List.dropLast_concat]
        rw [e2] at h
        exact h x (List.mem_append_left _ hx)
      · exact h
    · exact h

/-- A column that is not the last has a part that is not the last. -/
private theorem zip_dropLast : ∀ (ks vs : List Str), ks.length = vs.length → ∀ kv ∈ ks.zip vs, ks.getLast? ≠ some kv.1 → kv.2 ∈ vs.dropLast
  | [], _, _, _, h, _ => by simp at h
  | _ :: _, [], h, _, _, _ => by simp at h
  | [k], [v], _, kv, h, hn => by simp at h; subst h; simp at hn
  | [_], _ :: _ :: _, h, _, _, _ => by simp at h
  | _ :: _ :: _, [_], h, _, _, _ => by simp at h
  | k :: k' :: ks, v :: v' :: vs, hlen, kv, h, hn => by
    rw [List.zip_cons_cons] at h
    rw [List.dropLast_cons_cons]
    rcases List.mem_cons.1 h with rfl | h
    · simp
    · refine List.mem_cons_of_mem _ (zip_dropLast (k' :: ks) (v' :: vs) (by simpa using hlen) kv h ?_)
      rwa [List.getLast?_cons_cons] at hn

/-- The columns do not end with the margin, if commas matter. -/
private def FormatSafe (loc : Locale) (r : SsaRead) : Prop := loc.decimalPoint = b!"." ∨ (loc.decimalPoint.head? = some 44 → r.eventFormat.getLast? ≠ some b!"MarginV")

private theorem ldialogue_eq {loc : Locale} (hl : SaneLocale loc) (r : SsaRead) (hr : FormatSafe loc r) (body : Str) (h : TextSafe loc b!"\\fs" b!"\\}" body) :
    ssaDialogueIn loc r body = ssaDialogue r body := by
  unfold ssaDialogueIn ssaDialogue
  simp only []
  generalize hev : ssaRejoin r.eventFormat.length (splitAny isComma body).length (splitAny isComma body) = event
  refine lbind_congr fun _ _ => lbind_congr fun _ _ => lbind_congr fun _ hlen => ?_
  have hlen : r.eventFormat.length = event.length := by
    cases e : (r.eventFormat.length == event.length) with
    | false => rw [e] at hlen; cases hlen
    | true => simpa using e
  have hj : [44].intercalate event = body := by rw [← hev]; exact rejoin_join _ _ _ _ (split_intercalate body)
  have hp : ∀ x ∈ event.dropLast, (44 : Byte) ∉ x := by
    rw [← hev]
    refine rejoin_plain _ _ _ fun x hx hm => ?_
    exact absurd (splitAny_noSep_mem _ _ x (List.mem_of_mem_dropLast hx) 44 hm) (by decide)
  rw [levents_eq hl r _ _ fun kv hkv => ?_]
  have hin : kv.2 <:+: body := hj ▸ infix_intercalate event kv.2 (List.of_mem_zip hkv).2
  refine ⟨h.mono hin, fun e => ?_⟩
  rcases h with h | h
  · exact Or.inl h
  rcases hr with hr | hr
  · exact Or.inl hr
  · refine Or.inr fun d hd hm => ?_
    by_cases e44 : d = 44
    · subst e44
      refine hp _ (zip_dropLast _ _ hlen kv hkv ?_) hm
      rw [e]; exact hr hd
    · exact (h d hd).2 e44 (hin.subset hm)

/-- No white space at the end. -/
private def EndsPlain (s : Str) : Prop := ∀ c, s.getLast? = some c → isSpace c = false

private theorem EndsPlain.suffix {s y : Str} (h : EndsPlain y) (hs : s <:+ y) : EndsPlain s := by
  intro c hc
  refine h c ?_
  obtain ⟨a, rfl⟩ := hs
  rw [List.getLast?_append, hc]; rfl

private theorem trim_ends (s : Str) : EndsPlain (trim s) := by
  have : EndsPlain (trimRightIf isSpace s) := by
    intro c hc
    unfold trimRightIf at hc
    rw [List.getLast?_reverse] at hc
    have := List.head?_dropWhile_not isSpace s.reverse
    rw [hc] at this
    simpa using this
  exact this.suffix (List.dropWhile_suffix _)

private theorem trim_suffix {s : Str} (h : EndsPlain s) : trim s <:+ s := by
  have : trimRightIf isSpace s = s := by
    unfold trimRightIf
    cases hr : s.reverse with
    | nil => simpa using hr.symm
    | cons c cs =>
      have hs : s = cs.reverse ++ [c] := by
        have := congrArg List.reverse hr
        simpa using this
      have : isSpace c = false := h c (by rw [hs]; simp)
      rw [List.dropWhile_cons, if_neg (by simp [this]), hs]
      simp
  unfold trim
  rw [this]
  exact List.dropWhile_suffix _

private theorem getLast_intercalate : ∀ (ps : List Str) (x : Str), ps.getLast? = some x → x <:+ [44].intercalate ps
  | [], _, h => by simp at h
  | [a], x, h => by simp at h; subst h; simp [List.intercalate, List.intersperse]
  | a :: b :: ps, x, h => by
    have e : ([44] : Str).intercalate (a :: b :: ps) = a ++ (44 :: [44].intercalate (b :: ps)) := by simp [List.intercalate, List.intersperse]
    rw [e]
    rw [List.getLast?_cons_cons] at h
    exact ((getLast_intercalate (b :: ps) x h).trans (List.suffix_cons _ _)).trans (List.suffix_append _ _)

/-- The last column of a list of columns is at the end of its line. -/
private theorem last_column (raw : Str) (n : Nat) (x : Str)
    (h : ((splitAny isComma (trim ((removeBom (trim raw)).drop n))).map trim).getLast? = some x) : x <:+ trim raw := by
  have h1 : EndsPlain (trim raw) := trim_ends raw
  have hs : (removeBom (trim raw)).drop n <:+ trim raw := (List.drop_suffix _ _).trans (removeBom_suffix _)
  have hb : trim ((removeBom (trim raw)).drop n) <:+ trim raw := (trim_suffix (h1.suffix hs)).trans hs
  rw [List.getLast?_map] at h
  obtain ⟨y, hy, rfl⟩ := Option.map_eq_some_iff.1 h
  have hl := getLast_intercalate _ y hy
  rw [split_intercalate] at hl
  have hy2 : y <:+ trim raw := hl.trans hb
  exact (trim_suffix (h1.suffix hy2)).trans hy2

private theorem lline_eq {loc : Locale} (hl : SaneLocale loc) (r : SsaRead) (hr : FormatSafe loc r) (raw : Str) (h : SsaLineSafe loc raw) :
    ssaLineIn loc r raw = ssaLine r raw := by
  have ht : TextSafe loc b!"\\fs" b!"\\}" raw := by
    rcases h with h | h
    · exact Or.inl h
    · exact Or.inr fun d hd => ⟨fun e => ((h d hd).1 e).1, (h d hd).2⟩
  have hd : ∀ n, ssaDialogueIn loc r (trim ((removeBom (trim raw)).drop n)) = ssaDialogue r (trim ((removeBom (trim raw)).drop n)) := fun n =>
    ldialogue_eq hl r hr _ (ht.mono ((trim_infix _).trans (((List.drop_suffix _ _).trans (removeBom_suffix _)).isInfix.trans (trim_infix raw))))
  unfold ssaLineIn ssaLine
  simp only [int_eq hl, lmake_eq hl]
  refine ite_congr rfl (fun _ => rfl) (fun _ => ?_)
  refine ite_congr rfl (fun _ => rfl) (fun _ => ?_)
  cases (removeBom (trim raw)).findIdx? (· == 58) with
  | none => rfl
  | some n =>
    simp only []
    cases r.part with
    | info => rfl
    | styles => rfl
    | events => simp only [hd]

private theorem lline_safe {loc : Locale} (r r' : SsaRead) (hr : FormatSafe loc r) (raw : Str) (h : SsaLineSafe loc raw) (hk : ssaLine r raw = .ok r') : FormatSafe loc r' := by
  rcases hr with hr | hr
  · exact Or.inl hr
  rcases h with h | h
  · exact Or.inl h
  refine Or.inr fun hd => ?_
  have hsame : r'.eventFormat = r.eventFormat → r'.eventFormat.getLast? ≠ some b!"MarginV" := fun e => by rw [e]; exact hr hd
  unfold ssaLine at hk
  simp only [] at hk
  rcases ite_cases hk with ⟨_, hk⟩ | ⟨_, hk⟩
  · exact hsame (by rw [← Except.ok.inj hk])
  rcases ite_cases hk with ⟨_, hk⟩ | ⟨_, hk⟩
  · rcases ite_cases hk with ⟨_, hk⟩ | ⟨_, hk⟩
    · exact hsame (by rw [← Except.ok.inj hk])
    rcases ite_cases hk with ⟨_, hk⟩ | ⟨_, hk⟩
    · exact hsame (by rw [← Except.ok.inj hk])
    rcases ite_cases hk with ⟨_, hk⟩ | ⟨_, hk⟩ <;> exact hsame (by rw [← Except.ok.inj hk])
  cases hf : (removeBom (trim raw)).findIdx? (· == 58) with
  | none => rw [hf] at hk; cases hk
  | some n =>
    rw [hf] at hk
    simp only [] at hk
    cases hp : r.part with
    | info =>
      rw [hp] at hk
      simp only [] at hk
      rcases ite_cases hk with ⟨_, hk⟩ | ⟨_, hk⟩
      · obtain ⟨x, _, hk⟩ := bind_eq_ok.1 hk
        exact hsame (by rw [← Except.ok.inj hk])
      rcases ite_cases hk with ⟨_, hk⟩ | ⟨_, hk⟩
      · obtain ⟨x, _, hk⟩ := bind_eq_ok.1 hk
        exact hsame (by rw [← Except.ok.inj hk])
      · exact hsame (by rw [← Except.ok.inj hk])
    | styles =>
      rw [hp] at hk
      simp only [] at hk
      rcases ite_cases hk with ⟨_, hk⟩ | ⟨_, hk⟩
      · exact hsame (by rw [← Except.ok.inj hk])
      rcases ite_cases hk with ⟨_, hk⟩ | ⟨_, hk⟩
      · obtain ⟨_, _, hk⟩ := bind_eq_ok.1 hk
        obtain ⟨x, _, hk⟩ := bind_eq_ok.1 hk
        exact hsame (by rw [← Except.ok.inj hk])
      · exact hsame (by rw [← Except.ok.inj hk])
    | events =>
      rw [hp] at hk
      simp only [] at hk
      rcases ite_cases hk with ⟨_, hk⟩ | ⟨_, hk⟩
      · rw [← Except.ok.inj hk]
        intro e
        exact ((h 44 hd).1 rfl).2 (last_column raw (n + 1) _ e)
      rcases ite_cases hk with ⟨_, hk⟩ | ⟨_, hk⟩
      · unfold ssaDialogue at hk
        obtain ⟨_, _, hk⟩ := bind_eq_ok.1 hk
        obtain ⟨_, _, hk⟩ := bind_eq_ok.1 hk
        obtain ⟨_, _, hk⟩ := bind_eq_ok.1 hk
        obtain ⟨x, _, hk⟩ := bind_eq_ok.1 hk
        exact hsame (by rw [← Except.ok.inj hk])
      · exact hsame (by rw [← Except.ok.inj hk])

private theorem llines_eq {loc : Locale} (hl : SaneLocale loc) : ∀ (ls : List Str) (r : SsaRead), FormatSafe loc r → (∀ l ∈ ls, SsaLineSafe loc l) →
    ssaLinesIn loc r ls = ssaLines r ls
  | [], _, _, _ => rfl
  | l :: ls, r, hr, h => by
    rw [ssaLinesIn, ssaLines, lline_eq hl r hr l (h l (by simp))]
    cases hk : ssaLine r l with
    | error e => rfl
    | ok r' => exact llines_eq hl ls r' (lline_safe r r' hr l (h l (by simp)) hk) fun x hx => h x (by simp [hx])

/-! ### SubRip -/

private theorem lfont_eq {loc : Locale} (hl : SaneLocale loc) : fontColourIn loc = fontColour := by
  have hd : decCompIn loc = decComp := by
    funext s
    unfold decCompIn decComp
    rw [int_eq hl]
  funext n ctx tag
  unfold fontColourIn fontColour
  rw [hd]
  rfl

private theorem nextTok_tag {c : Byte} {cs tag : Str} (h : (nextTok c cs).1 = .ssa tag) : ∃ rest, c :: cs = 123 :: tag ++ rest ∧ ∀ x ∈ tag.drop 1, x ∉ b!"}" := by
  by_cases hn : hasNext (c :: cs) b!"{\\" = true
  · have hc : ∃ cs', c :: cs = 123 :: 92 :: cs' := by
      unfold hasNext toLower at hn
      have hlow : ∀ x : Byte, (lowerByte x = 123 → x = 123) ∧ (lowerByte x = 92 → x = 92) := fun x =>
        forall_byte (p := fun x => (lowerByte x = 123 → x = 123) ∧ (lowerByte x = 92 → x = 92)) (by decide +kernel) x
      have hn : ((c :: cs).take 2).map lowerByte = [123, 92] := by simpa using hn
      cases cs with
      | nil => simp at hn
      | cons y ys =>
        simp only [List.take_succ_cons, List.take_zero, List.map_cons, List.map_nil, List.cons.injEq, and_true] at hn
        exact ⟨ys, by rw [(hlow c).1 hn.1, (hlow y).2 hn.2]⟩
    obtain ⟨cs', hc⟩ := hc
    unfold nextTok at h
    simp only at h
    repeat' split at h
    all_goals first | (cases h; done) | skip
    cases h
    rw [hc]
    refine ⟨cs'.dropWhile (· != 125), ?_, fun x hx => ?_⟩
    · simp [List.takeWhile_append_dropWhile]
    · have := List.mem_takeWhile_imp (by simpa using hx)
      have e : b!"}" = [125] := by decide
      rw [e]
      simpa using this
  · unfold nextTok at h
    simp only [hn] at h
    repeat' split at h
    all_goals contradiction

private theorem lexec_eq {loc : Locale} (hl : SaneLocale loc) (n : Nat) (ctx : List Str) (s : SrtLine) (c : Byte) (cs line : Str) (hin : c :: cs <:+: line)
    (h : TextSafe loc b!"{\\fs" b!"}" line) : s.execIn loc n ctx (nextTok c cs).1 = s.exec n ctx (nextTok c cs).1 := by
  cases ht : (nextTok c cs).1 with
  | fontOpen tag =>
    show (fontColourIn loc n ctx tag >>= _) = (fontColour n ctx tag >>= _)
    rw [lfont_eq hl]
  | ssa tag =>
    obtain ⟨rest, hr, hc⟩ := nextTok_tag ht
    have := tag_safe hl (a := [123]) (tag := tag) (rest := rest) (intro := b!"{\\fs") (ends := b!"}") (by decide) (by
      have := h.mono hin
      rw [hr] at this
      exact this) hc srtSsaContext s.p
    show (ssaParseTagIn loc srtSsaContext s.p tag >>= _) = (ssaParseTag srtSsaContext s.p tag >>= _)
    rw [this]
  | _ => rfl

private theorem lloop_eq {loc : Locale} (hl : SaneLocale loc) (n : Nat) (ctx : List Str) (line : Str) (h : TextSafe loc b!"{\\fs" b!"}" line) :
    ∀ (f : Nat) (s : SrtLine) (t : Str), t <:+: line → srtLoopIn loc n ctx f s t = srtLoop n ctx f s t
  | 0, _, [], _ => rfl
  | 0, _, _ :: _, _ => rfl
  | _ + 1, _, [], _ => rfl
  | f + 1, s, c :: cs, hin => by
    rw [srtLoopIn, srtLoop, lexec_eq hl n ctx s c cs line hin h]
    exact lbind_congr fun s' _ => lloop_eq hl n ctx line h f s' _ ((nextTok_suffix c cs).isInfix.trans hin)

private theorem lconvert_eq {loc : Locale} (hl : SaneLocale loc) (n : Nat) (ctx : List Str) (line : Str) (h : TextSafe loc b!"{\\fs" b!"}" line) (p : Raw) (subs : List Raw) :
    convertLineIn loc n ctx line p subs = convertLine n ctx line p subs := by
  unfold convertLineIn convertLine
  rw [lloop_eq hl n ctx line h _ _ _ (List.infix_refl _)]

private theorem lsub_eq {loc : Locale} (hl : SaneLocale loc) (n : Nat) (ctx : List Str) : ∀ (ts : List Str) (p : Raw) (subs : List Raw),
    (∀ t ∈ ts, TextSafe loc b!"{\\fs" b!"}" t) → convertSubLinesIn loc n ctx ts p subs = convertSubLines n ctx ts p subs
  | [], _, _, _ => rfl
  | t :: ts, p, subs, h => by
    rw [convertSubLinesIn, convertSubLines, lconvert_eq hl n ctx t (h t (by simp))]
    refine lbind_congr fun x _ => ?_
    obtain ⟨p', subs'⟩ := x
    refine lbind_congr fun l _ => lbind_congr fun l' _ => ?_
    exact lsub_eq hl n ctx ts _ _ fun t ht => h t (by simp [ht])

private theorem trimRight_infix (q : Byte → Bool) (s : Str) : trimRightIf q s <:+: s := by
  unfold trimRightIf
  have := List.reverse_prefix.2 (List.dropWhile_suffix (l := s.reverse) q)
  rw [List.reverse_reverse] at this
  exact this.isInfix

private theorem lsrt_eq {loc : Locale} (hl : SaneLocale loc) : ∀ (ls : List Str) (n : Nat) (st : SrtState) (ctx : List Str) (rs : Raw) (subs : List Raw),
    (∀ l ∈ ls, SrtLineSafe loc l) → srtLinesIn loc n st ctx rs subs ls = srtLines n st ctx rs subs ls
  | [], _, _, _, _, _, _ => by rw [srtLinesIn, srtLines]
  | l :: ls, n, st, ctx, rs, subs, h => by
    have hr : ∀ l ∈ ls, SrtLineSafe loc l := fun x hx => h x (by simp [hx])
    rw [srtLinesIn.eq_def, srtLines.eq_def]
    simp only []
    cases st with
    | counter => exact ite_congr rfl (fun _ => lsrt_eq hl ls _ _ _ _ _ hr) (fun _ => lsrt_eq hl ls _ _ _ _ _ hr)
    | metadata => exact lbind_congr fun _ _ => lsrt_eq hl ls _ _ _ _ _ hr
    | content =>
      refine ite_congr rfl (fun _ => lsrt_eq hl ls _ _ _ _ _ hr) (fun _ => ?_)
      have hs : ∀ t ∈ splitStr lineSep (removeBom (trimRightIf isNlCr l)), TextSafe loc b!"{\\fs" b!"}" t := fun t ht =>
        TextSafe.mono (h l (by simp)) (((splitStrGo_infix lineSep 0 _ t ht).trans (removeBom_suffix _).isInfix).trans (trimRight_infix _ _))
      show (convertSubLinesIn loc _ _ _ _ _ >>= _) = (convertSubLines _ _ _ _ _ >>= _)
      rw [lsub_eq hl _ _ _ _ _ hs]
      refine lbind_congr fun x _ => ?_
      obtain ⟨rs', subs'⟩ := x
      exact lsrt_eq hl ls _ _ _ _ _ hr

/-! ### Writing -/

private theorem lreplace_absent (s search repl : Str) (h : ∀ c, search.head? = some c → c ∉ s) : replaceAll s search repl = s := by
  unfold replaceAll
  cases search with
  | nil => rfl
  | cons p ps =>
    have hp : p ∉ s := h p rfl
    rw [if_neg (by simp)]
    clear h
    induction s with
    | nil => rfl
    | cons c s ih =>
      have hne : p ≠ c := fun e => hp (e ▸ List.mem_cons_self)
      rw [replaceAllGo, startsWith, List.isPrefixOf, if_neg (by simp [hne]), ih (fun hm => hp (List.mem_cons_of_mem _ hm))]

private theorem makeRaw_pad {loc : Locale} (hl : SaneLocale loc) (ht : loc.thousandsSep.head? ≠ some 45) (n : Nat) (v : Int) :
    makeRaw loc (printfPad n v) = printfPad n v := by
  have hch : ∀ c ∈ printfPad n v, isDigit c = true ∨ c = 45 := by
    have hd : ∀ c ∈ natDec v.natAbs, isDigit c = true := natDec_digits _
    intro c hc
    unfold printfPad at hc
    simp only [] at hc
    split at hc
    · rcases List.mem_cons.1 hc with rfl | hc
      · exact Or.inr rfl
      · rcases List.mem_append.1 hc with hc | hc
        · rw [(List.mem_replicate.1 hc).2]; exact Or.inl rfl
        · exact Or.inl (hd c hc)
    · rcases List.mem_append.1 hc with hc | hc
      · rw [(List.mem_replicate.1 hc).2]; exact Or.inl rfl
      · exact Or.inl (hd c hc)
  obtain ⟨d, ds, hp, _, hdg, _, h45, _⟩ := hl.point
  unfold makeRaw
  have h1 : replaceAll (printfPad n v) loc.thousandsSep [] = printfPad n v := lreplace_absent _ _ _ fun c hc hm => by
    rcases hch c hm with h | h
    · rw [hl.thousands c hc] at h; cases h
    · subst h; exact ht hc
  rw [h1]
  refine lreplace_absent _ _ _ fun c hc hm => ?_
  rw [hp] at hc
  cases hc
  rcases hch d hm with h | h
  · rw [hdg] at h; cases h
  · exact h45 h

/-! ### Theorems -/

/-- An SSA file is read the same in every locale, if it has no numbers that could be taken for others. -/
theorem C140_ssa (loc : Locale) (hl : SaneLocale loc) (s : Str) (h : ∀ line ∈ linesOfString s, SsaLineSafe loc line) : ssaReadStringIn loc s = ssaReadString s := by
  unfold ssaReadStringIn ssaReadString
  rw [llines_eq hl _ _ (Or.inr fun _ => by simp) h]

/-- The same from a `FILE*`. -/
theorem C140_ssa_file (loc : Locale) (hl : SaneLocale loc) (s : Str) (h : ∀ line ∈ linesOfFile s, SsaLineSafe loc line) : ssaReadFileIn loc s = ssaReadFile s := by
  unfold ssaReadFileIn ssaReadFile
  rw [llines_eq hl _ _ (Or.inr fun _ => by simp) h]

/-- A SubRip file is read the same in every locale, if it has no sizes that could be taken for others. -/
theorem C140_subrip (loc : Locale) (hl : SaneLocale loc) (s : Str) (h : ∀ line ∈ linesOfString s, SrtLineSafe loc line) : srtReadStringIn loc s = srtReadString s :=
  lsrt_eq hl _ _ _ _ _ _ h

/-- The same from a `FILE*`. -/
theorem C140_subrip_file (loc : Locale) (hl : SaneLocale loc) (s : Str) (h : ∀ line ∈ linesOfFile s, SrtLineSafe loc line) : srtReadFileIn loc s = srtReadFile s :=
  lsrt_eq hl _ _ _ _ _ _ h

/-- Without sizes and lists of columns with the vertical margin last, all of this is so whatever the locale's decimal point, if that is a full stop or a comma. -/
theorem C140_usual (loc : Locale) (hl : SaneLocale loc) (hp : loc.decimalPoint = b!"." ∨ loc.decimalPoint = b!",") (s : Str) (hs : ¬ b!"\\fs" <:+: s) :
    srtReadStringIn loc s = srtReadString s ∧
    ((∀ line ∈ linesOfString s, ¬ b!"MarginV" <:+ trim line) → ssaReadStringIn loc s = ssaReadString s) := by
  have hno : ∀ pre ends line, line ∈ linesOfString s → ¬ SizeWith (pre ++ b!"\\fs") 44 ends line := fun pre ends line hm hw => by
    obtain ⟨a, m, b, rfl, _⟩ := hw
    exact hs (List.IsInfix.trans ⟨a ++ pre, m ++ 44 :: b, by simp⟩ (infix_linesOfString s _ hm))
  have h44 : loc.decimalPoint = b!"," → ∀ d, loc.decimalPoint.head? = some d → d = 44 := fun e d hd => by
    rw [e] at hd
    cases hd; rfl
  refine ⟨C140_subrip loc hl s fun line hm => ?_, fun hv => C140_ssa loc hl s fun line hm => ?_⟩
  · rcases hp with hp | hp
    · exact Or.inl hp
    · exact Or.inr fun d hd => ⟨fun _ => hno b!"{" _ line hm, fun e => absurd (h44 hp d hd) e⟩
  · rcases hp with hp | hp
    · exact Or.inl hp
    · exact Or.inr fun d hd => ⟨fun _ => ⟨hno [] _ line hm, hv line hm⟩, fun e => absurd (h44 hp d hd) e⟩

/-- A binary STL file is written the same in every locale. -/
theorem C140_write (loc : Locale) (hl : SaneLocale loc) (ht : loc.thousandsSep.head? ≠ some 45) (a : StlArgs) : writeStlIn loc a = writeStl a := by
  have : ∀ off v n buf, putIntAsString loc off v n buf = putIntAsString Locale.c off v n buf := fun off v n buf => by
    unfold putIntAsString
    rw [makeRaw_pad hl ht, makeRaw_pad ⟨⟨46, [], rfl, by decide, by decide, by decide, by decide, by decide⟩, by simp [Locale.c]⟩ (by simp [Locale.c])]
  unfold writeStl writeStlIn stlGsi
  simp only [this]

/-- A size with a comma is read differently where numbers have a comma (SSA and SubRip), and a vertical margin with a comma in the
last column may be too large there. -/
theorem C140_witness :
    (ssaReadStringIn ⟨b!",", b!"."⟩ b!"[Events]\nFormat: Text\nDialogue: {\\fs14,4}a\n").toOption.map (·.map (·.fontSize.prop)) = some [some (f32 (f32 (f32 (72 / 5)) / 288))] ∧
    (ssaReadString b!"[Events]\nFormat: Text\nDialogue: {\\fs14,4}a\n").toOption.map (·.map (·.fontSize.prop)) = some [some (f32 (14 / 288))] ∧
    (srtReadStringIn ⟨b!",", b!"."⟩ b!"1\n00:00:01,000 --> 00:00:02,000\n{\\fs14,4}a\n").toOption.map (·.map (·.fontSize.prop)) = some [some (f32 (f32 (f32 (72 / 5)) / 288))] ∧
    (srtReadString b!"1\n00:00:01,000 --> 00:00:02,000\n{\\fs14,4}a\n").toOption.map (·.map (·.fontSize.prop)) = some [some (f32 (14 / 288))] ∧
    (ssaReadStringIn ⟨b!",", b!"."⟩ b!"[Events]\nFormat: Text, MarginV\nDialogue: a,0,1e60\n").toOption = none ∧
    (ssaReadString b!"[Events]\nFormat: Text, MarginV\nDialogue: a,0,1e60\n").toOption.map (·.map (·.text)) = some [b!"a"] := by
  refine ⟨?_, ?_, ?_, ?_, ?_, ?_⟩ <;> decide +kernel

/-- German numbers. -/
private def german : Locale := ⟨b!",", b!"."⟩

private theorem german_sane : SaneLocale german := ⟨⟨44, [], rfl, by decide, by decide, by decide, by decide, by decide⟩, by decide⟩

/-- `SizeWith` can be decided. -/
private theorem sizeWith_iff (intro : Str) (d : Byte) (ends line : Str) : SizeWith intro d ends line ↔
    ∃ i < line.length + 1, ∃ j < line.length + 1, intro <+: line.drop i ∧ ((line.drop i).drop intro.length)[j]? = some d ∧ ∀ c ∈ ((line.drop i).drop intro.length).take j, c ∉ ends := by
  constructor
  · rintro ⟨a, m, b, rfl, hm⟩
    refine ⟨a.length, by simp; omega, m.length, by simp; omega, ?_⟩
    have e1 : (a ++ intro ++ m ++ d :: b).drop a.length = intro ++ (m ++ d :: b) := by simp [List.append_assoc]
    rw [e1]
    exact ⟨List.prefix_append _ _, by simp, by simpa using hm⟩
  · rintro ⟨i, _, j, _, ⟨w, hw⟩, hj, hm⟩
    rw [← hw, List.drop_left] at hj hm
    refine ⟨line.take i, w.take j, w.drop (j + 1), ?_, hm⟩
    have hlt : j < w.length := by
      rcases Nat.lt_or_ge j w.length with h | h
      · exact h
      · rw [List.getElem?_eq_none h] at hj; cases hj
    have hd : d :: w.drop (j + 1) = w.drop j := by
      rw [List.getElem?_eq_getElem hlt] at hj
      rw [← Option.some.inj hj]
      exact List.getElem_cons_drop hlt
    rw [hd, List.append_assoc, List.append_assoc, List.take_append_drop, hw, List.take_append_drop]

private instance (intro : Str) (d : Byte) (ends line : Str) : Decidable (SizeWith intro d ends line) := decidable_of_iff _ (sizeWith_iff intro d ends line).symm

/-- An SSA file for the examples: sizes, places and commas. -/
private def lssaDemo : Str := b!"[Script Info]\nPlayResX: 640\nPlayResY: 480\n[Events]\nFormat: Start, End, MarginV, Text\nDialogue: 0:00:01.50,0:00:02.00,10.5,{\\pos(12.5,40)\\fs20.5}Yes, no\n"

private theorem lssaDemo_safe : ∀ line ∈ linesOfString lssaDemo, SsaLineSafe german line := fun line hm =>
  Or.inr fun d hd => by
    cases hd
    have : ∀ line ∈ linesOfString lssaDemo, ¬ SizeWith b!"\\fs" 44 b!"\\}" line ∧ ¬ b!"MarginV" <:+ trim line := by decide +kernel
    exact ⟨fun _ => this line hm, fun e => absurd rfl e⟩

example : (ssaReadStringIn german lssaDemo).toOption.map (·.map fun r => (r.text, r.hpos.prop, r.fontSize.prop)) =
    some [(b!"Yes, no", 5 / 256, some (f32 (41 / 960)))] := by rw [C140_ssa german german_sane lssaDemo lssaDemo_safe]; decide +kernel

private theorem lssaDemo_safe_file : ∀ line ∈ linesOfFile lssaDemo, SsaLineSafe german line := fun line hm =>
  Or.inr fun d hd => by
    cases hd
    have : ∀ line ∈ linesOfFile lssaDemo, ¬ SizeWith b!"\\fs" 44 b!"\\}" line ∧ ¬ b!"MarginV" <:+ trim line := by decide +kernel
    exact ⟨fun _ => this line hm, fun e => absurd rfl e⟩

example : (ssaReadFileIn german lssaDemo).toOption.map (·.map fun r => (r.text, r.hpos.prop, r.fontSize.prop)) =
    some [(b!"Yes, no", 5 / 256, some (f32 (41 / 960)))] := by rw [C140_ssa_file german german_sane lssaDemo lssaDemo_safe_file]; decide +kernel

/-- A SubRip file for the examples. -/
private def lsrtDemo : Str := b!"1\n00:00:01,500 --> 00:00:02,000\n{\\fs20.5}Yes, no <font color=\"rgba(255,51,0,0)\">red, not blue</font>\n"

private theorem lsrtDemo_safe (lines : List Str) (h : ∀ line ∈ lines, ¬ SizeWith b!"{\\fs" 44 b!"}" line) : ∀ line ∈ lines, SrtLineSafe german line := fun line hm =>
  Or.inr fun d hd => by
    cases hd
    exact ⟨fun _ => h line hm, fun e => absurd rfl e⟩

example : (srtReadStringIn german lsrtDemo).toOption.map (·.map fun r => (r.text, r.colour)) = some [(b!"Yes, no ", ⟨1, 1, 1⟩), (b!"red, not blue", ⟨1, f32 (1 / 5), 0⟩)] := by
  rw [C140_subrip german german_sane lsrtDemo (lsrtDemo_safe _ (by decide +kernel))]; decide +kernel

example : (srtReadFileIn german lsrtDemo).toOption.map (·.map fun r => (r.text, r.colour)) = some [(b!"Yes, no ", ⟨1, 1, 1⟩), (b!"red, not blue", ⟨1, f32 (1 / 5), 0⟩)] := by
  rw [C140_subrip_file german german_sane lsrtDemo (lsrtDemo_safe _ (by decide +kernel))]; decide +kernel

/-- Files without sizes. -/
example : ¬ b!"\\fs" <:+: b!"1\n00:00:01,500 --> 00:00:02,000\n{\\pos(1.5,2)}Yes, no\n" ∧
    (∀ line ∈ linesOfString b!"[Events]\nFormat: Start, MarginV, Text\nDialogue: 0:00:01.50,7.5,{\\pos(1.5,2)}Yes, no\n", ¬ b!"MarginV" <:+ trim line) := by decide +kernel

/-- An argument with a negative number, of which the sign stays. -/
example : (writeStlIn german ⟨[], 25, .english, [], [], [], [], [], [], b!"261117", b!"261117", -5, b!"GBR", [], [], []⟩).toOption.map (fun f => (f.drop 236).take 7) = some b!"-500000" := by
  rw [C140_write german german_sane (by decide)]; decide +kernel

end LibSub
