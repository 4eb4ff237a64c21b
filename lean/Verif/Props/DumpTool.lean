/-
Property C107: the program `dumpsubs`.
-/
import Verif.Props.FloatText
import Verif.Props.Dump
import Verif.Props.EndToEnd
import Verif.Props.LineEnds

namespace LibSub

/-! ### Specification -/

/-- An argument that asks for help: `--h`, `--he`, `--hel`, `--help`, or `-` with letters among which is an `h`. -/
def AsksHelp (a : Str) : Prop :=
  (∃ n, a = b!"--" ++ n ∧ n ≠ [] ∧ n <+: b!"help") ∨ (∃ c s, a = 45 :: c :: s ∧ c ≠ 45 ∧ (104 : Byte) ∈ c :: s)

/-- An argument that is not an option. -/
def IsOperand (a : Str) : Prop := a = b!"-" ∨ a.head? ≠ some 45

/-- The arguments that are not options: those before `--` that do not look like options, and all after it. -/
inductive Operands : List Str → List Str → Prop where
  | nil : Operands [] []
  | rest (as : List Str) : Operands (b!"--" :: as) as
  | operand {a as os} : IsOperand a → Operands as os → Operands (a :: as) (a :: os)
  | option {a as os} : ¬ IsOperand a → a ≠ b!"--" → ¬ AsksHelp a → Operands as os → Operands (a :: as) os

/-- A time in milliseconds as `dumpsubs` writes it. -/
def shownTime (t : Time) : Str :=
  let s := t.secs.toNat
  twoDigits (s / 3600) ++ b!":" ++ twoDigits (s / 60 % 60) ++ b!":" ++ twoDigits (s % 60) ++ b!":" ++ decSpec t.frames.toNat ++ b!" @ 1000/1"

/-- The heading of subtitle `k`. -/
def shownHead (k : Nat) (s : Subtitle) : Str := b!"Subtitle " ++ decSpec k ++ b!" at " ++ shownTime s.from_ ++ b!" -> " ++ shownTime s.to_

/-- What `dumpsubs` writes for line `l` of a SubRip file: text with tags, in which every character has its style. -/
def ShownLine (l : Line) (x : Str) : Prop := ∃ m, x = b!"\t from top of subtitle\t" ++ m ∧ marked false false m = styledChars l.blocks

/-- What `dumpsubs` writes for subtitle `s`, number `k`, of a SubRip file. -/
def ShownSub (s : Subtitle × Nat) (x : List Str) : Prop := ∃ ls, x = shownHead s.2 s.1 :: ls ∧ List.Forall₂ ShownLine s.1.lines ls

/-! ### Arguments -/

private theorem help_long (n : Str) (h : n ≠ []) : startsWith b!"help" n = true ↔ AsksHelp (b!"--" ++ n) := by
  rw [startsWith_iff]
  constructor
  · intro hp
    exact .inl ⟨n, rfl, h, hp⟩
  · rintro (⟨m, e, -, hp⟩ | ⟨c, s, e, hc, -⟩)
    · rwa [List.append_cancel_left e]
    · simp at e
      exact absurd e.1.symm hc

private theorem operand_not_help {a : Str} (h : IsOperand a) : ¬ AsksHelp a := by
  rintro (⟨n, rfl, hn, -⟩ | ⟨c, s, rfl, -, -⟩)
  · rcases h with h | h
    · simp at h
    · simp at h
  · rcases h with h | h
    · simp at h
    · simp at h

/-- What one argument does. -/
private theorem args_cons (a : Str) (as : List Str) : dumpsubsArgs (a :: as) =
    (open Classical in if a = b!"--" then some as else if IsOperand a then (dumpsubsArgs as).map (a :: ·) else if AsksHelp a then none else dumpsubsArgs as) := by
  rw [dumpsubsArgs]
  by_cases h1 : a = b!"--"
  · rw [if_pos h1, if_pos h1]
  · rw [if_neg h1, if_neg h1]
    by_cases h2 : startsWith a b!"--" = true
    · rw [if_pos h2]
      obtain ⟨n, rfl⟩ := startsWith_iff.1 h2
      have hn : n ≠ [] := by rintro rfl; exact h1 (by simp)
      have ho : ¬ IsOperand (b!"--" ++ n) := by unfold IsOperand; simp
      rw [if_neg ho]
      have e : startsWith b!"help" ((b!"--" ++ n).drop 2) = startsWith b!"help" n := rfl
      by_cases h3 : AsksHelp (b!"--" ++ n)
      · rw [if_pos h3, e, if_pos ((help_long n hn).2 h3)]
      · rw [if_neg h3, e, if_neg (fun hh => h3 ((help_long n hn).1 hh))]
    · rw [if_neg h2]
      by_cases h3 : (startsWith a b!"-" && a != b!"-") = true
      · rw [if_pos h3]
        rw [Bool.and_eq_true, startsWith_iff] at h3
        obtain ⟨⟨n, rfl⟩, h4⟩ := h3
        have hn : n ≠ [] := by rintro rfl; simp at h4
        obtain ⟨c, t, rfl⟩ := List.exists_cons_of_ne_nil hn
        have hc : c ≠ 45 := by
          rintro rfl
          exact h2 (startsWith_iff.2 ⟨t, rfl⟩)
        have ho : ¬ IsOperand (b!"-" ++ c :: t) := by unfold IsOperand; simp
        rw [if_neg ho]
        have key : (b!"-" ++ c :: t).contains 104 = true ↔ AsksHelp (b!"-" ++ c :: t) := by
          constructor
          · intro hh
            refine .inr ⟨c, t, rfl, hc, ?_⟩
            simpa using hh
          · rintro (⟨n, e, -, -⟩ | ⟨d, u, e, -, hm⟩)
            · simp at e
              exact absurd e.1 hc
            · simp at e
              obtain ⟨rfl, rfl⟩ := e
              simpa using hm
        by_cases h5 : AsksHelp (b!"-" ++ c :: t)
        · rw [if_pos h5, if_pos (key.2 h5)]
        · rw [if_neg h5, if_neg (fun hh => h5 (key.1 hh))]
      · rw [if_neg h3]
        have ho : IsOperand a := by
          unfold IsOperand
          by_contra hc
          rw [not_or, not_not] at hc
          apply h3
          rw [Bool.and_eq_true, startsWith_iff]
          cases a with
          | nil => simp at hc
          | cons x t =>
            have hx : x = 45 := by simpa using hc.2
            subst hx
            exact ⟨⟨t, rfl⟩, by simpa using hc.1⟩
        rw [if_pos ho]

theorem args_some (args os : List Str) : dumpsubsArgs args = some os ↔ Operands args os := by
  induction args generalizing os with
  | nil =>
    constructor
    · intro h; cases h; exact .nil
    · intro h; cases h; rfl
  | cons a as ih =>
    rw [args_cons]
    by_cases h1 : a = b!"--"
    · rw [if_pos h1]
      subst h1
      constructor
      · intro h; cases h; exact .rest as
      · intro h
        cases h with
        | rest => rfl
        | operand ho _ => exact absurd ho (by unfold IsOperand; simp)
        | option _ hn _ _ => exact absurd rfl hn
    · rw [if_neg h1]
      by_cases h2 : IsOperand a
      · rw [if_pos h2, Option.map_eq_some_iff]
        constructor
        · rintro ⟨os', h, rfl⟩
          exact .operand h2 ((ih os').1 h)
        · intro h
          cases h with
          | rest => exact absurd rfl h1
          | operand _ h => exact ⟨_, (ih _).2 h, rfl⟩
          | option ho _ _ _ => exact absurd h2 ho
      · rw [if_neg h2]
        by_cases h3 : AsksHelp a
        · rw [if_pos h3]
          constructor
          · intro h; cases h
          · intro h
            cases h with
            | rest => exact absurd rfl h1
            | operand ho _ => exact absurd ho h2
            | option _ _ hh _ => exact absurd h3 hh
        · rw [if_neg h3, ih]
          constructor
          · exact fun h => .option h2 h1 h3 h
          · intro h
            cases h with
            | rest => exact absurd rfl h1
            | operand ho _ => exact absurd ho h2
            | option _ _ _ h => exact h

private theorem args_none (args : List Str) : dumpsubsArgs args = none ↔ ∃ pre a post, args = pre ++ a :: post ∧ b!"--" ∉ pre ∧ AsksHelp a := by
  induction args with
  | nil => simp [dumpsubsArgs]
  | cons a as ih =>
    rw [args_cons]
    have hdd : ¬ AsksHelp b!"--" := by
      rintro (⟨n, e, hn, -⟩ | ⟨c, s, e, hc, -⟩)
      · simp at e; exact hn e
      · simp at e; exact hc e.1.symm
    have more : a ≠ b!"--" → ¬ AsksHelp a → ((∃ pre b post, a :: as = pre ++ b :: post ∧ b!"--" ∉ pre ∧ AsksHelp b) ↔ ∃ pre b post, as = pre ++ b :: post ∧ b!"--" ∉ pre ∧ AsksHelp b) := by
      intro hne hnh
      constructor
      · rintro ⟨pre, b, post, e, h1, h2⟩
        cases pre with
        | nil => simp at e; exact absurd (e.1 ▸ h2) hnh
        | cons x pre => simp at e h1; exact ⟨pre, b, post, e.2, h1.2, h2⟩
      · rintro ⟨pre, b, post, rfl, h1, h2⟩
        exact ⟨a :: pre, b, post, rfl, by simp [h1, Ne.symm hne], h2⟩
    by_cases h1 : a = b!"--"
    · rw [if_pos h1]
      subst h1
      constructor
      · intro h; cases h
      · rintro ⟨pre, b, post, e, h1, h2⟩
        cases pre with
        | nil => simp at e; exact absurd (e.1 ▸ h2) hdd
        | cons x pre => simp at e h1; exact absurd e.1 h1.1
    · rw [if_neg h1]
      by_cases h2 : IsOperand a
      · rw [if_pos h2, Option.map_eq_none_iff, ih, more h1 (operand_not_help h2)]
      · rw [if_neg h2]
        by_cases h3 : AsksHelp a
        · rw [if_pos h3]
          exact ⟨fun _ => ⟨[], a, as, rfl, by simp, h3⟩, fun _ => rfl⟩
        · rw [if_neg h3, ih, more h1 h3]

/-- C107: `dumpsubs` shows its syntax and exits with success exactly if an argument before `--` asks for help. -/
theorem C107_help (fs : Str → Entry) (args : List Str) : dumpsubs fs args = .help ↔ ∃ pre a post, args = pre ++ a :: post ∧ b!"--" ∉ pre ∧ AsksHelp a := by
  rw [← args_none]
  unfold dumpsubs
  split
  · rename_i h; simp [h]
  · rename_i path h
    rw [h]
    simp only [reduceCtorEq, iff_false]
    split
    · simp
    · split
      · simp
      · simp
      · split <;> simp
  · rename_i h; simp [h]

example : AsksHelp b!"--he" ∧ AsksHelp b!"-vh" ∧ IsOperand b!"-" ∧ IsOperand b!"a.srt" :=
  ⟨.inl ⟨b!"he", rfl, by decide, by decide⟩, .inr ⟨118, b!"h", rfl, by decide, by decide⟩, .inl rfl, .inr (by decide)⟩

/-- C107: it shows its syntax and exits with failure exactly if there is no request for help, and not one file name. -/
theorem C107_usage (fs : Str → Entry) (args : List Str) : dumpsubs fs args = .usage ↔ ∃ os, Operands args os ∧ os.length ≠ 1 := by
  unfold dumpsubs
  split
  · rename_i h
    simp only [reduceCtorEq, false_iff, not_exists, not_and]
    intro os ho
    rw [← args_some, h] at ho
    cases ho
  · rename_i path h
    have : (∃ os, Operands args os ∧ os.length ≠ 1) ↔ False := by
      rw [iff_false]
      rintro ⟨os, ho, hl⟩
      rw [← args_some, h] at ho
      cases ho
      simp at hl
    rw [this, iff_false]
    split
    · simp
    · split
      · simp
      · simp
      · split <;> simp
  · rename_i os hne h
    simp only [true_iff]
    refine ⟨os, (args_some _ _).1 h, ?_⟩
    intro hl
    obtain ⟨p, rfl⟩ := List.length_eq_one_iff.1 hl
    exact hne p rfl

example : Operands [b!"-x", b!"a.srt", b!"--", b!"-h"] [b!"a.srt", b!"-h"] :=
  .option (by unfold IsOperand; decide) (by decide) (by
    rintro (⟨n, e, -, -⟩ | ⟨c, s, e, -, hm⟩)
    · simp at e
    · simp at e
      obtain ⟨rfl, rfl⟩ := e
      revert hm; decide) (.operand (.inr (by decide)) (.rest _))

/-- A file that is read, and whose subtitles can be collected. -/
theorem dumpsubs_reader {fs : Str → Entry} {args : List Str} {path s : Str} (ha : Operands args [path]) (hf : fs path = .file s) {r : FactoryResult}
    (hr : readerFactory path (some s) = .ok r) (hn : r ≠ .none) {out : Str} (hd : dump showFloat r.metadata r.subs = .ok out) :
    dumpsubs fs args = .done (factoryPrinted path (some s) ++ out) := by
  rw [← args_some] at ha
  unfold dumpsubs
  rw [ha]
  simp only [hf, Entry.contents, hr]
  cases r with
  | none => exact absurd rfl hn
  | stlBinary i s => simp only [hd]
  | stlText s => simp only [hd]
  | subrip s => simp only [hd]

/-- C107: with one file name: if there is no such file, or its name ends in neither `.stl` nor `.srt` (in any case), there is an error message and exit with failure. -/
theorem C107_no_file (fs : Str → Entry) (args : List Str) (path : Str) (ha : Operands args [path]) :
    (fs path = .missing → dumpsubs fs args = .notFound path) ∧
    (fs path ≠ .missing → (∀ pre e, path = pre ++ 46 :: e → toLower e ≠ b!"stl" ∧ toLower e ≠ b!"srt") → dumpsubs fs args = .noReader path) := by
  rw [← args_some] at ha
  constructor
  · intro h
    unfold dumpsubs
    rw [ha]
    simp only [h]
  · intro h hp
    unfold dumpsubs
    rw [ha]
    cases hf : fs path with
    | missing => exact absurd hf h
    | unreadable => simp only [hf, C73_other path _ hp]
    | file s => simp only [hf, C73_other path _ hp]

-- formats that the library can read, but not this program
example : ∀ pre e, b!"a.ass" = pre ++ 46 :: e → toLower e ≠ b!"stl" ∧ toLower e ≠ b!"srt" := by
  intro pre e h
  have : e = b!"ass" := by
    rcases pre with _ | ⟨a, _ | ⟨b, pre⟩⟩
    · simp at h
    · simp at h; exact h.2.symm
    · simp at h
      rcases pre with _ | ⟨c, _ | ⟨d, _ | ⟨f, pre⟩⟩⟩ <;> simp at h
  subst this
  decide

/-! ### SubRip files -/

private theorem cue_vpos {st : Style} {i : Nat} {ps : List Part} {ls : List Line} (h : cueLines st i ps = some ls) : ∀ l ∈ ls, ∃ j rs, l = styledLine j rs := by
  induction ps generalizing st i ls with
  | nil => cases h; simp
  | cons p ps ih =>
    rw [cueLines] at h
    split at h
    · cases h
    · rw [Option.map_eq_some_iff] at h
      obtain ⟨ls', h', rfl⟩ := h
      intro l hl
      rcases List.mem_append.1 hl with hl | hl
      · split at hl
        · cases hl
        · rw [List.mem_singleton] at hl
          exact ⟨_, _, hl⟩
      · exact ih h' l hl

private theorem srt_shape {cs : List Cue} {subs : List Subtitle} (hv : ∀ c ∈ cs, c.Valid) (h : srtSubtitles cs = some subs) :
    ∀ s ∈ subs, (∃ f t : Stamp, f.Valid ∧ t.Valid ∧ s.from_ = f.time ∧ s.to_ = t.time) ∧ ∀ l ∈ s.lines, ∃ j rs, l = styledLine j rs := by
  induction cs generalizing subs with
  | nil => cases h; simp
  | cons c cs ih =>
    rw [srtSubtitles] at h
    split at h
    · cases h
    · rename_i ls hls
      rw [Option.map_eq_some_iff] at h
      obtain ⟨subs', h', rfl⟩ := h
      intro s hs
      rcases List.mem_append.1 hs with hs | hs
      · split at hs
        · cases hs
        · rw [List.mem_singleton] at hs
          subst hs
          have hc := hv c (by simp)
          exact ⟨⟨_, _, hc.2.1.1, hc.2.1.2.1, rfl, rfl⟩, cue_vpos hls⟩
      · exact ih (fun c hc => hv c (by simp [hc])) h' s hs

private theorem stamp_shown {f : Stamp} (hf : f.Valid) : timeToStr f.time = shownTime f.time := by
  obtain ⟨h1, h2, -, -⟩ := hf
  have e := C11_format f.h f.m f.s f.ms (by omega) (by omega) (some (1000, 1))
  simp only [Option.map_some] at e
  show timeToStr ⟨3600 * f.h + 60 * f.m + f.s, f.ms, some ⟨1000, 1⟩⟩ = _
  refine e.trans ?_
  have e0 : (3600 * (f.h : Int) + 60 * f.m + f.s).toNat = 3600 * f.h + 60 * f.m + f.s := by omega
  unfold shownTime Stamp.time
  simp only [e0, Int.toNat_natCast]
  rw [show (3600 * f.h + 60 * f.m + f.s) / 3600 = f.h by omega, show (3600 * f.h + 60 * f.m + f.s) / 60 % 60 = f.m by omega,
    show (3600 * f.h + 60 * f.m + f.s) % 60 = f.s by omega]
  have d1 : decSpec 1000 = b!"1000" := by decide
  have d2 : decSpec 1 = b!"1" := by decide
  rw [d1, d2]
  simp

private theorem lines_shown (ls : List Line) (h : ∀ l ∈ ls, ∃ j rs, l = styledLine j rs) (hb : ∀ l ∈ ls, ∀ b ∈ l.blocks, ∀ c ∈ b.text, c ≠ 60) :
    ∃ xs, (ls.map (dumpLine showFloat)).flatten = unlines xs ∧ List.Forall₂ ShownLine ls xs := by
  induction ls with
  | nil => exact ⟨[], rfl, .nil⟩
  | cons l ls ih =>
    obtain ⟨xs, e, hx⟩ := ih (fun l hl => h l (by simp [hl])) (fun l hl => hb l (by simp [hl]))
    refine ⟨(b!"\t from top of subtitle\t" ++ dumpBlocks false false l.blocks) :: xs, ?_, .cons ⟨_, rfl, C105_marked _ (hb l (by simp))⟩ hx⟩
    obtain ⟨j, rs, rfl⟩ := h l (by simp)
    rw [List.map_cons, List.flatten_cons, e]
    rfl

private theorem subs_shown (k : Nat) (subs : List Subtitle)
    (h : ∀ s ∈ subs, (∃ f t : Stamp, f.Valid ∧ t.Valid ∧ s.from_ = f.time ∧ s.to_ = t.time) ∧ ∀ l ∈ s.lines, ∃ j rs, l = styledLine j rs)
    (hb : ∀ s ∈ subs, ∀ l ∈ s.lines, ∀ b ∈ l.blocks, ∀ c ∈ b.text, c ≠ 60) :
    ∃ xs, dumpSubs showFloat k subs = unlines xs.flatten ∧ List.Forall₂ ShownSub (subs.zipIdx k) xs := by
  induction subs generalizing k with
  | nil => exact ⟨[], rfl, .nil⟩
  | cons s subs ih =>
    obtain ⟨xs, e, hx⟩ := ih (k + 1) (fun s hs => h s (by simp [hs])) (fun s hs => hb s (by simp [hs]))
    obtain ⟨⟨f, t, hf, ht, ef, et⟩, hl⟩ := h s (by simp)
    obtain ⟨ys, e', hy⟩ := lines_shown s.lines hl (hb s (by simp))
    refine ⟨(shownHead k s :: ys) :: xs, ?_, .cons ⟨ys, rfl, hy⟩ hx⟩
    rw [dumpSubs, e, e', ef, et, stamp_shown hf, stamp_shown ht, natDec_eq_decSpec]
    unfold unlines shownHead
    simp [ef, et]

/-- C107: what `dumpsubs` says of a SubRip file that follows the grammar: each subtitle by its number, its times to the millisecond, and its lines,
in which every character stands in its italic and underline. -/
theorem C107_subrip (fs : Str → Entry) (args : List Str) (pre e : Str) (ha : Operands args [pre ++ 46 :: e]) (he : toLower e = b!"srt")
    (lead : Nat) (cs : List (Cue × Nat)) (hf : fs (pre ++ 46 :: e) = .file (unlines (List.replicate lead [] ++ fileLines cs)))
    (hl : ShortLines (unlines (List.replicate lead [] ++ fileLines cs)))
    (hv : ∀ c ∈ cs, c.1.Valid) (subs : List Subtitle) (hs : srtSubtitles (cs.map Prod.fst) = some subs)
    (hd : subs.Pairwise (fun s t => s.from_ ≠ t.from_ ∨ s.to_ ≠ t.to_))
    (hb : ∀ s ∈ subs, ∀ l ∈ s.lines, ∀ b ∈ l.blocks, ∀ c ∈ b.text, c ≠ 60) :
    ∃ out texts, InOrder subs out ∧ dumpsubs fs args = .done (unlines texts.flatten) ∧ List.Forall₂ ShownSub out.zipIdx texts := by
  obtain ⟨raws, out, h1, h2, h3⟩ := C82_subrip lead cs hv subs hs hd
  rw [← C30_subrip_partial _ hl] at h1
  have shape := srt_shape (cs := cs.map Prod.fst) (by
    intro c hc
    obtain ⟨x, hx, rfl⟩ := List.mem_map.1 hc
    exact hv x hx) hs
  obtain ⟨texts, h4, h5⟩ := subs_shown 0 out (fun s hm => shape s (h3.perm.mem_iff.1 hm)) (fun s hm => hb s (h3.perm.mem_iff.1 hm))
  refine ⟨out, texts, h3, ?_, h5⟩
  have hdump : dump showFloat [] raws = .ok (unlines texts.flatten) := by
    unfold dump
    rw [h2, ok_bind, pure_eq_ok]
    simp only [List.map_nil, List.flatten_nil, List.nil_append, h4]
  have hq : factoryPrinted (pre ++ 46 :: e) (some (unlines (List.replicate lead [] ++ fileLines cs))) = [] := by
    unfold factoryPrinted
    have hne : toLower (extension (pre ++ 46 :: e)) ≠ b!".stl" := by
      rw [ext_of pre e _ he (by decide) (by decide) (by decide)]
      decide
    rw [if_neg hne]
  have key := dumpsubs_reader ha hf (C73_srt pre e _ he |>.trans (by rw [h1]; rfl)) (r := .subrip raws) (by simp) hdump
  rwa [hq] at key

private def exTime : TimeLine := ⟨⟨0, 0, 5, 0, 1, 1, 1, 2⟩, ⟨0, 0, 6, 500, 1, 1, 1, 0⟩, 0, 0, [], 0⟩

/-- A cue of two lines, the first with an italic part. -/
private def exCue : Cue := ⟨b!"1", exTime, [[(b!"a ", [(.face .italic true false false, b!"b"), (.face .italic false false false, [])])], [(b!"c", [])]]⟩

private def exSub : Subtitle where
  from_ := ⟨5, 0, some ⟨1000, 1⟩⟩
  to_ := ⟨6, 500, some ⟨1000, 1⟩⟩
  lines := [{ vpos := { line := some 0, ref := some .topOfSubtitle }, blocks := [{ text := b!"a " }, { text := b!"b", italic := true }] }, { vpos := { line := some 1, ref := some .topOfSubtitle }, blocks := [{ text := b!"c" }] }]

private theorem exPart (p : Part) (h1 : plainTextB p.1 = true) (h2 : ∀ x ∈ p.2, (match x.1 with | .face .. => true | _ => false) = true ∧ plainTextB x.2 = true)
    (h3 : ¬ b!"\u202B" <:+: lastText p.1 p.2 ∧ ¬ b!"\u2028" <:+: p.text ∧ (10 : Byte) ∉ p.text) : p.Valid := by
  refine ⟨⟨plainText_of_b h1, ?_⟩, h3⟩
  intro x hx
  refine ⟨?_, plainText_of_b (h2 x hx).2⟩
  have := (h2 x hx).1
  revert this
  cases x.1 <;> simp [Mark.Valid]

private theorem exCue_valid : exCue.Valid := by
  refine ⟨by unfold GoodLine; decide, ⟨by unfold Stamp.Valid; decide, by unfold Stamp.Valid; decide, .inl rfl, by simp [exCue, exTime]⟩, ?_, by decide⟩
  intro l hl
  simp only [exCue, List.mem_cons, List.not_mem_nil, or_false] at hl
  rcases hl with rfl | rfl
  · refine ⟨by simp, by unfold GoodLine; decide, ?_⟩
    intro p hp
    simp only [List.mem_cons, List.not_mem_nil, or_false] at hp
    subst hp
    exact exPart _ (by decide) (by simp [plainTextB]) (by decide)
  · refine ⟨by simp, by unfold GoodLine; decide, ?_⟩
    intro p hp
    simp only [List.mem_cons, List.not_mem_nil, or_false] at hp
    subst hp
    exact exPart _ (by decide) (by simp) (by decide)

example : ∃ out texts, InOrder [exSub] out ∧
    dumpsubs (fun _ => .file (unlines (List.replicate 1 [] ++ fileLines [(exCue, 0)]))) [b!"-v", b!"a" ++ 46 :: b!"srt"] = .done (unlines texts.flatten) ∧
    List.Forall₂ ShownSub out.zipIdx texts := by
  refine C107_subrip _ _ b!"a" b!"srt" ((args_some _ _).1 (by decide)) (by decide) 1 [(exCue, 0)] rfl ⟨by decide +kernel, by decide +kernel⟩ ?_ [exSub] (by decide +kernel) (by simp) (by simp [exSub])
  simp [exCue_valid]

example : (match dumpsubs (fun _ => .file b!"1\n00:00:01,500 --> 00:01:02,003\nHi <i>x</i>\ny\n") [b!"a.SRT"] with | .done s => some s | _ => none) =
    some b!"Subtitle 0 at 00:00:01:500 @ 1000/1 -> 00:01:02:3 @ 1000/1\n\t from top of subtitle\tHi <i>x</i>\n\t from top of subtitle\ty\n" := by decide +kernel

/-- C107, witnesses: a `.srt` file that cannot be opened, or is not SubRip, ends the program with an exception; a `.stl` file that cannot be
opened or is short gives an empty dump and success. -/
theorem C107_failure_witness :
    (match dumpsubs (fun _ => .unreadable) [b!"a.srt"] with | .failed .programming [] => true | _ => false) = true ∧
    (match dumpsubs (fun _ => .file b!"1\nx\n") [b!"a.srt"] with | .failed (.subrip ..) [] => true | _ => false) = true ∧
    (match dumpsubs (fun _ => .unreadable) [b!"a.stl"] with | .done [] => true | _ => false) = true ∧
    (match dumpsubs (fun _ => .file b!"not STL") [b!"a.stl"] with | .done [] => true | _ => false) = true := by decide +kernel

end LibSub
