/-
Property C71: message composition.
-/
import Verif.Model.Compose
import Verif.Lemmas.Text
import Verif.Lemmas.Time
import Verif.Props.Print

namespace LibSub

/-! ### Specification -/

/-- What can follow a piece of text in a format string. -/
inductive FTok where
  /-- `%%` -/
  | percent
  /-- `%n`, with leading zeros -/
  | arg (zeros n : Nat)
  /-- a `%` followed by something else -/
  | lone

/-- How it is written. -/
def FTok.text : FTok → Str
  | .percent => b!"%%"
  | .arg zeros n => b!"%" ++ List.replicate zeros 48 ++ decSpec n
  | .lone => b!"%"

/-- A format: text, then tokens each followed by text. -/
def fmtText (t : Str) : List (FTok × Str) → Str
  | [] => t
  | (k, t') :: r => t ++ k.text ++ fmtText t' r

/-- Text contains no `%`; the text after a number does not start with a digit; a lone `%` is followed by text that starts neither with a digit
nor with `%`, or by nothing at all.  Numbers are such that the `int` computation does not overflow. -/
def ValidFmt (t : Str) : List (FTok × Str) → Prop
  | [] => (37 : Byte) ∉ t
  | (k, t') :: r =>
    (37 : Byte) ∉ t ∧ ValidFmt t' r ∧
      match k with
      | .percent => True
      | .arg _ n => n ≤ 214748364 ∧ ∀ c, t'.head? = some c → isDigit c = false
      | .lone => (t' = [] ∧ r = []) ∨ ∃ c, t'.head? = some c ∧ isDigit c = false

/-- The n-th argument, counting from 1; nothing if there are not so many. -/
def nthArg (args : List Str) (n : Nat) : Str := if n = 0 then [] else args.getD (n - 1) []

/-- What a token stands for. -/
def FTok.value (args : List Str) : FTok → Str
  | .percent => b!"%"
  | .arg _ n => nthArg args n
  | .lone => b!"%"

/-- What the format stands for. -/
def fmtValue (args : List Str) (t : Str) : List (FTok × Str) → Str
  | [] => t
  | (k, t') :: r => t ++ k.value args ++ fmtValue args t' r

/-! ### Proofs -/

private theorem parse_fuel (f f' : Nat) (acc s : Str) (h : s.length < f) (h' : s.length < f') : composeParse f acc s = composeParse f' acc s := by
  induction f generalizing f' acc s with
  | zero => omega
  | succ f ih =>
    cases f' with
    | zero => omega
    | succ f' =>
      cases s with
      | nil => rfl
      | cons c cs =>
        rw [composeParse.eq_def, composeParse.eq_def (f' + 1)]
        simp only [List.length_cons] at h h'
        simp only
        split
        · split
          · exact ih _ _ _ (by simp at h; simp; omega) (by simp at h'; simp; omega)
          · rename_i d ds
            simp only [List.length_cons] at h h'
            split
            · exact ih _ _ _ (by omega) (by omega)
            · split
              · have hl : ((d :: ds).drop (takeDigits (d :: ds)).length).length ≤ ds.length + 1 := by simp [List.length_drop]
                rw [ih f' [] _ (by omega) (by omega)]
              · exact ih _ _ _ (by simp; omega) (by simp; omega)
        · exact ih _ _ _ (by omega) (by omega)

/-- Parsing with enough fuel. -/
private def parse (acc s : Str) : R (List Piece) := composeParse (s.length + 1) acc s

private theorem parse_nil (acc : Str) : parse acc [] = .ok (if acc.isEmpty then [] else [⟨acc, none, []⟩]) := rfl

private theorem parse_char (acc : Str) (c : Byte) (cs : Str) (h : c ≠ 37) : parse acc (c :: cs) = parse (acc ++ [c]) cs := by
  unfold parse
  rw [composeParse.eq_def]
  simp only [if_neg h, List.length_cons]

private theorem parse_text (acc t rest : Str) (h : (37 : Byte) ∉ t) : parse acc (t ++ rest) = parse (acc ++ t) rest := by
  induction t generalizing acc with
  | nil => simp
  | cons c t ih =>
    simp only [List.mem_cons, not_or] at h
    rw [List.cons_append, parse_char _ _ _ (Ne.symm h.1), ih _ h.2]
    simp

private theorem parse_percent (acc rest : Str) : parse acc (37 :: 37 :: rest) = parse (acc ++ [37]) rest := by
  unfold parse
  rw [composeParse.eq_def]
  simp only [if_pos]
  exact parse_fuel _ _ _ _ (by simp; omega) (by simp)

private theorem parse_end (acc : Str) : parse acc [37] = parse (acc ++ [37]) [] := rfl

private theorem parse_lone (acc rest : Str) (c : Byte) (h : c ≠ 37) (hd : isDigit c = false) : parse acc (37 :: c :: rest) = parse (acc ++ [37]) (c :: rest) := by
  unfold parse
  rw [composeParse.eq_def]
  simp only [if_pos, if_neg h, hd, Bool.false_eq_true, if_false]
  exact parse_fuel _ _ _ _ (by simp) (by simp)

private theorem takeDigits_append (ds rest : Str) (hd : ∀ c ∈ ds, isDigit c = true) (hr : ∀ c, rest.head? = some c → isDigit c = false) :
    takeDigits (ds ++ rest) = ds := by
  induction ds with
  | nil =>
    cases rest with
    | nil => rfl
    | cons c r => simp [takeDigits, List.takeWhile_cons, hr c rfl]
  | cons d ds ih =>
    simp only [List.cons_append, takeDigits, List.takeWhile_cons, hd d (by simp), if_true]
    congr 1
    exact ih (fun c hc => hd c (by simp [hc]))

private theorem parse_spec (acc ds rest : Str) (hd : ∀ c ∈ ds, isDigit c = true) (hne : ds ≠ []) (hr : ∀ c, rest.head? = some c → isDigit c = false) :
    parse acc (37 :: (ds ++ rest)) =
      (do let n ← specNumber 0 ds
          let r ← parse [] rest
          pure (⟨acc, some n, []⟩ :: r)) := by
  have htd := takeDigits_append ds rest hd hr
  cases ds with
  | nil => exact absurd rfl hne
  | cons d ds =>
    have hd1 := hd d (by simp)
    have hd2 : d ≠ 37 := isDigit_ne hd1 37 (by decide)
    rw [List.cons_append] at htd ⊢
    unfold parse
    rw [composeParse.eq_def]
    simp only [if_pos, if_neg hd2, hd1, htd]
    have : (d :: (ds ++ rest)).drop (d :: ds).length = rest := by simp
    rw [this, parse_fuel _ (rest.length + 1) [] rest (by simp; omega) (by simp)]

private theorem specNumber_digits (a : Nat) (ds : Str) (hd : ∀ c ∈ ds, isDigit c = true) (hb : 10 * (a * 10 ^ ds.length + decVal ds) ≤ 2147483647) :
    specNumber ((10 * a : Nat) : Int) ds = .ok ((a * 10 ^ ds.length + decVal ds : Nat) : Int) := by
  induction ds generalizing a with
  | nil =>
    rw [specNumber]
    have : decVal [] = 0 := rfl
    simp only [this, List.length_nil, pow_zero, Nat.mul_one, Nat.add_zero] at hb ⊢
    have h1 : InInt (a : Int) := by simp only [InInt]; omega
    have h2 : (((10 * a : Nat) : Int)).tdiv 10 = a := by
      rw [Int.tdiv_eq_ediv_of_nonneg (by omega)]; omega
    simp [cdiv, h2, ck, h1]
  | cons d ds ih =>
    have hv : decVal (d :: ds) = digitVal d * 10 ^ ds.length + decVal ds := by
      have := decVal_append [d] ds
      simpa [decVal] using this
    have hlt := digitVal_lt (hd d (by simp))
    have he : a * 10 ^ (d :: ds).length + decVal (d :: ds) = (10 * a + digitVal d) * 10 ^ ds.length + decVal ds := by
      rw [hv, List.length_cons, pow_succ]; ring
    rw [he] at hb ⊢
    have hp : 1 ≤ 10 ^ ds.length := Nat.one_le_pow _ _ (by decide)
    have hle : 10 * a + digitVal d ≤ (10 * a + digitVal d) * 10 ^ ds.length := Nat.le_mul_of_pos_right _ hp
    have h1 : ck (((10 * a : Nat) : Int) + digitVal d) = .ok ((10 * a + digitVal d : Nat) : Int) := by
      have : (((10 * a : Nat) : Int) + digitVal d) = ((10 * a + digitVal d : Nat) : Int) := by push_cast; ring
      rw [this]
      exact ck_ok (by simp only [InInt]; omega)
    have h2 : ck (((10 * a + digitVal d : Nat) : Int) * 10) = .ok ((10 * (10 * a + digitVal d) : Nat) : Int) := by
      have : (((10 * a + digitVal d : Nat) : Int) * 10) = ((10 * (10 * a + digitVal d) : Nat) : Int) := by push_cast; ring
      rw [this]
      exact ck_ok (by simp only [InInt]; omega)
    rw [specNumber, h1, ok_bind, h2, ok_bind]
    exact ih _ (fun c hc => hd c (by simp [hc])) hb

/-- The text of pieces, given what stands for the specifications. -/
private def pieceVal (F : Option Int → Str) (ps : List Piece) : Str := (ps.map (fun p => p.lit ++ F p.spec)).flatten

private def fill (args : List Str) (k : Int) : Option Int → Str
  | none => []
  | some n => if k ≤ n then args.getD (n - k).toNat [] else []

private theorem fill_arg (args : List Str) (n : Nat) : fill args 1 (some (n : Int)) = nthArg args n := by
  unfold fill nthArg
  by_cases h : n = 0
  · subst h; rfl
  · simp only []
    rw [if_pos (by omega), if_neg h]
    congr 1
    omega

private theorem parse_value (args : List Str) (acc t : Str) (r : List (FTok × Str)) (h : ValidFmt t r) :
    ∃ ps, parse acc (fmtText t r) = .ok ps ∧ (∀ p ∈ ps, p.filled = []) ∧ pieceVal (fill args 1) ps = acc ++ fmtValue args t r := by
  induction r generalizing acc t with
  | nil =>
    have h' : (37 : Byte) ∉ t := h
    refine ⟨if (acc ++ t).isEmpty then [] else [⟨acc ++ t, none, []⟩], ?_, ?_, ?_⟩
    · show parse acc t = _
      have := parse_text acc t [] h'
      rw [List.append_nil] at this
      rw [this, parse_nil]
    · intro p hp
      split at hp
      · cases hp
      · rw [List.mem_singleton] at hp; rw [hp]
    · split
      · rename_i he
        rw [List.isEmpty_iff] at he
        show [] = acc ++ t
        exact he.symm
      · simp [pieceVal, fmtValue, fill]
  | cons kt r ih =>
    obtain ⟨k, t'⟩ := kt
    obtain ⟨ht, hv, hk⟩ := h
    have e0 : parse acc (fmtText t ((k, t') :: r)) = parse (acc ++ t) (k.text ++ fmtText t' r) := by
      show parse acc (t ++ k.text ++ fmtText t' r) = _
      rw [List.append_assoc, parse_text _ _ _ ht]
    rw [e0]
    have head : ∀ c, (fmtText t' r).head? = some c → t'.head? = some c ∨ (t' = [] ∧ c = 37) := by
      intro c hc
      cases t' with
      | nil =>
        cases r with
        | nil => cases hc
        | cons kt r =>
          obtain ⟨k, t'⟩ := kt
          right
          refine ⟨rfl, ?_⟩
          cases k <;> (simp [fmtText, FTok.text] at hc; exact hc.symm)
      | cons d ds =>
        left
        cases r <;> simpa [fmtText] using hc
    cases k with
    | percent =>
      obtain ⟨ps, h1, h2, h3⟩ := ih (acc ++ t ++ [37]) t' hv
      refine ⟨ps, ?_, h2, ?_⟩
      · show parse (acc ++ t) (37 :: 37 :: fmtText t' r) = _
        rw [parse_percent, h1]
      · rw [h3]; simp [fmtValue, FTok.value]
    | lone =>
      obtain ⟨ps, h1, h2, h3⟩ := ih (acc ++ t ++ [37]) t' hv
      refine ⟨ps, ?_, h2, ?_⟩
      · show parse (acc ++ t) (37 :: fmtText t' r) = _
        rw [← h1]
        rcases hk with ⟨rfl, rfl⟩ | ⟨c, hc, hcd⟩
        · rfl
        · cases t' with
          | nil => cases hc
          | cons d ds =>
            have hd37 : d ≠ 37 := by
              rintro rfl
              cases r with
              | nil => exact absurd (List.mem_cons_self) hv
              | cons kt r => exact absurd (List.mem_cons_self) hv.1
            cases hc
            have : ∃ w, fmtText (c :: ds) r = c :: w := by
              cases r with
              | nil => exact ⟨_, rfl⟩
              | cons kt r => exact ⟨ds ++ kt.1.text ++ fmtText kt.2 r, by simp [fmtText]⟩
            obtain ⟨w, hw⟩ := this
            rw [hw, parse_lone _ _ _ hd37 hcd]
      · rw [h3]; simp [fmtValue, FTok.value]
    | arg z n =>
      obtain ⟨hn, hk⟩ := hk
      obtain ⟨ps, h1, h2, h3⟩ := ih [] t' hv
      have hdig : ∀ c ∈ List.replicate z 48 ++ decSpec n, isDigit c = true := by
        intro c hc
        rw [List.mem_append] at hc
        rcases hc with hc | hc
        · rw [(List.mem_replicate.1 hc).2]; decide
        · rw [← natDec_eq_decSpec] at hc; exact natDec_digits n c hc
      have hne : List.replicate z 48 ++ decSpec n ≠ [] := by
        rw [← natDec_eq_decSpec]
        intro e
        exact natDec_ne_nil n (List.append_eq_nil_iff.1 e).2
      have hval : decVal (List.replicate z 48 ++ decSpec n) = n := by
        rw [decVal_zeros_append, ← natDec_eq_decSpec, decVal_natDec]
      have hs : specNumber 0 (List.replicate z 48 ++ decSpec n) = .ok (n : Int) := by
        have := specNumber_digits 0 _ hdig (by rw [hval]; omega)
        rw [hval] at this
        simpa using this
      have hhead : ∀ c, (fmtText t' r).head? = some c → isDigit c = false := by
        intro c hc
        rcases head c hc with h | ⟨_, rfl⟩
        · exact hk c h
        · decide
      refine ⟨⟨acc ++ t, some (n : Int), []⟩ :: ps, ?_, ?_, ?_⟩
      · show parse (acc ++ t) (37 :: (List.replicate z 48 ++ decSpec n ++ fmtText t' r)) = _
        rw [parse_spec _ _ _ hdig hne hhead, hs, ok_bind, h1]
        rfl
      · intro p hp
        rcases List.mem_cons.1 hp with rfl | hp
        · rfl
        · exact h2 p hp
      · have : pieceVal (fill args 1) (⟨acc ++ t, some (n : Int), []⟩ :: ps) = acc ++ t ++ fill args 1 (some (n : Int)) ++ pieceVal (fill args 1) ps := by
          simp [pieceVal]
        rw [this, h3, fill_arg]
        simp [fmtValue, FTok.value]

private theorem fold_args (args : List Str) (k : Int) (ps : List Piece) :
    (args.foldl Composition.arg ⟨k, ps⟩).pieces = ps.map (fun p => ({ p with filled := fill (args.filter (fun a => a != [])) k p.spec ++ p.filled } : Piece)) := by
  induction args generalizing k ps with
  | nil =>
    have : ∀ p : Piece, ({ p with filled := fill [] k p.spec ++ p.filled } : Piece) = p := by
      intro p
      obtain ⟨lit, spec, filled⟩ := p
      cases spec <;> simp [fill]
    simp [this]
  | cons a as ih =>
    rw [List.foldl_cons]
    cases ha : a with
    | nil =>
      have : Composition.arg ⟨k, ps⟩ [] = ⟨k, ps⟩ := rfl
      rw [this, ih]
      rfl
    | cons c cs =>
      have : Composition.arg ⟨k, ps⟩ (c :: cs) = ⟨k + 1, ps.map (fun p => if p.spec = some k then { p with filled := (c :: cs) ++ p.filled } else p)⟩ := rfl
      rw [this, ih, List.map_map]
      apply List.map_congr_left
      intro p _
      have hf : (((c :: cs) :: as).filter (fun a => a != [])) = (c :: cs) :: as.filter (fun a => a != []) := rfl
      rw [hf]
      simp only [Function.comp]
      generalize as.filter (fun a => a != []) = l
      obtain ⟨lit, spec, filled⟩ := p
      cases spec with
      | none => simp [fill]
      | some n =>
        by_cases hn : n = k
        · subst hn
          simp only [if_true, fill]
          rw [if_neg (by omega), if_pos (by omega)]
          simp
        · have : (some n : Option Int) ≠ some k := by simpa using hn
          simp only [if_neg this, fill]
          by_cases h1 : k + 1 ≤ n
          · rw [if_pos h1, if_pos (by omega)]
            have : (n - k).toNat = (n - (k + 1)).toNat + 1 := by omega
            rw [this, List.getD_cons_succ]
          · rw [if_neg h1, if_neg (by omega)]

/-! ### C71: substitution by position -/

/-- Composing a message from a format and any number of arguments: the text is copied, `%%` gives `%`, and every `%n` gives the n-th of the
arguments that are not empty, as it stands: nothing in an argument is looked at again.  Numbers beyond the arguments, and `%0`, give nothing. -/
theorem C71_compose (t : Str) (r : List (FTok × Str)) (args : List Str) (h : ValidFmt t r) :
    composeStr (fmtText t r) args = .ok (fmtValue (args.filter (fun a => a != [])) t r) := by
  obtain ⟨ps, h1, h2, h3⟩ := parse_value (args.filter (fun a => a != [])) [] t r h
  have h1' : composeParse ((fmtText t r).length + 1) [] (fmtText t r) = .ok ps := h1
  unfold composeStr
  rw [h1', ok_bind, pure_eq_ok]
  congr 1
  rw [List.nil_append] at h3
  rw [← h3]
  have : ({ pieces := ps } : Composition) = ⟨1, ps⟩ := rfl
  rw [this, Composition.str, fold_args, List.map_map]
  unfold pieceVal
  congr 1
  apply List.map_congr_left
  intro p hp
  simp [h2 p hp]

/-- With no empty argument, `%n` is the n-th argument. -/
theorem C71_positional (t : Str) (r : List (FTok × Str)) (args : List Str) (h : ValidFmt t r) (ha : [] ∉ args) :
    composeStr (fmtText t r) args = .ok (fmtValue args t r) := by
  rw [C71_compose t r args h]
  have : args.filter (fun a => a != []) = args := by
    rw [List.filter_eq_self]
    intro a ham
    have : a ≠ [] := by rintro rfl; exact ha ham
    simpa using this
  rw [this]

/-- "a %2 %% %01%3" with the second argument looking like a placeholder. -/
example : ValidFmt b!"a " [(.arg 0 2, b!" "), (.percent, b!" "), (.arg 1 1, []), (.arg 0 3, [])] ∧
    fmtText b!"a " [(.arg 0 2, b!" "), (.percent, b!" "), (.arg 1 1, []), (.arg 0 3, [])] = b!"a %2 %% %01%3" ∧
    fmtValue [b!"x", b!"%1", b!"z"] b!"a " [(.arg 0 2, b!" "), (.percent, b!" "), (.arg 1 1, []), (.arg 0 3, [])] = b!"a %1 % xz" := by
  refine ⟨?_, by decide +kernel, by decide +kernel⟩
  simp [ValidFmt, isDigit]

/-- An empty argument does not count: the following ones take its place. -/
theorem C71_empty_shifts (t : Str) (r : List (FTok × Str)) (before after : List Str) (h : ValidFmt t r) :
    composeStr (fmtText t r) (before ++ [] :: after) = composeStr (fmtText t r) (before ++ after) := by
  rw [C71_compose t r _ h, C71_compose t r _ h]
  simp

example : composeStr b!"%1-%2" [[], b!"b"] = .ok b!"b-" := by decide +kernel

end LibSub
