/-
Property C146: dumping and writing subtitles at places that are infinite or no numbers.
-/
import Verif.Props.SrtInf
import Verif.Props.DumpExact
import Verif.Model.OutInf

namespace LibSub

/-! ### Specification -/

/-- The height of a line, which may be infinite or no number. -/
inductive HeightTextX : VPos → Option XF → Str → Prop where
  | part (v : VPos) (p : Rat) : HeightTextX v (some (.fin p)) (showFloat p ++ b!" of screen")
  | above (v : VPos) : HeightTextX v (some (.inf true)) b!"-inf of screen"
  | below (v : VPos) : HeightTextX v (some (.inf false)) b!"inf of screen"
  | nowhere (v : VPos) : HeightTextX v (some .nan) b!"nan of screen"
  | rows (v : VPos) (l n : Int) : v.line = some l → v.lines = some n → HeightTextX v none (numberText l ++ b!" lines of " ++ numberText n)
  | noLine (v : VPos) : v.line = none ∨ v.lines = none → HeightTextX v none []

/-- A line. -/
inductive LineTextX : XLine → Str → Prop where
  | line (l : XLine) (h x : Str) : HeightTextX l.vpos l.vprop h → BlocksText false false (l.blocks.map XBlock.block) x →
      LineTextX l (b!"\t" ++ h ++ originText l.vpos.ref ++ b!"\t" ++ x ++ b!"\n")

/-- Subtitles, numbered from `n`. -/
inductive SubtitlesTextX : Nat → List XSubtitle → Str → Prop where
  | none (n : Nat) : SubtitlesTextX n [] []
  | subtitle (n : Nat) (s : XSubtitle) (ss : List XSubtitle) (a b : Str) (ls : List Str) (x : Str) : TimeText s.from_ a → TimeText s.to_ b → List.Forall₂ LineTextX s.lines ls →
      SubtitlesTextX (n + 1) ss x →
      SubtitlesTextX n (s :: ss) (b!"Subtitle " ++ decSpec n ++ b!" at " ++ a ++ b!" -> " ++ b ++ b!"\n" ++ ls.flatten ++ x)

/-- A place which is no number. -/
def Nowhere (v : VPos) (p : Option XF) : Prop := (p = some .nan ∨ ∃ neg, p = some (.inf neg)) ∧ v.ref ≠ some .topOfSubtitle

/-- The same outcome, but undefined behaviour where the model of numbers had none for an infinity. -/
def InfUndefined (x y : R Int) : Prop := (x = .error .nonFinite ∧ y = .error (.ub .floatToInt)) ∨ (x ≠ .error .nonFinite ∧ y = x)

/-! ### Dumping -/

private theorem heightX_unique {v : VPos} {p : Option XF} {x y : Str} (hx : HeightTextX v p x) (hy : HeightTextX v p y) : x = y := by
  cases hx <;> cases hy <;> simp_all

private theorem placeX (v : VPos) (p : Option XF) : ∃ h, HeightTextX v p h ∧ dumpPosX v p = b!"\t" ++ h ++ originText v.ref ++ b!"\t" := by
  obtain ⟨q, l, n, r⟩ := v
  have ho : ∀ h : Str, b!"\t" ++ h ++ (match r with | some r => b!" from " ++ vrefText r | none => []) ++ b!"\t" = b!"\t" ++ h ++ originText r ++ b!"\t" := by
    intro h
    cases r with
    | none => rfl
    | some r => cases r <;> rfl
  cases p with
  | some p =>
    cases p with
    | fin p => exact ⟨_, .part _ p, ho _⟩
    | inf s => cases s with
      | true => exact ⟨_, .above _, ho _⟩
      | false => exact ⟨_, .below _, ho _⟩
    | nan => exact ⟨_, .nowhere _, ho _⟩
  | none =>
    cases l with
    | none => exact ⟨_, .noLine _ (.inl rfl), ho _⟩
    | some l =>
      cases n with
      | none => exact ⟨_, .noLine _ (.inr rfl), ho _⟩
      | some n =>
        refine ⟨_, .rows _ l n rfl rfl, ?_⟩
        rw [← numberText_eq, ← numberText_eq]
        exact ho _

private theorem lineX_iff (l : XLine) (x : Str) : LineTextX l x ↔ x = dumpLineX l := by
  obtain ⟨h, hh, e⟩ := placeX l.vpos l.vprop
  unfold dumpLineX
  rw [e]
  constructor
  · intro hx
    cases hx with
    | line h' y h1 h2 => rw [heightX_unique h1 hh, (blocksText_iff _ _ _ _).1 h2]
  · rintro rfl
    exact .line l h _ hh ((blocksText_iff _ _ _ _).2 rfl)

private theorem linesX_iff (ls : List XLine) (xs : List Str) : List.Forall₂ LineTextX ls xs ↔ xs = ls.map dumpLineX := by
  induction ls generalizing xs with
  | nil => simp
  | cons l ls ih =>
    constructor
    · intro h
      cases h with
      | cons h1 h2 => rw [(lineX_iff _ _).1 h1, (ih _).1 h2]; rfl
    · rintro rfl
      exact .cons ((lineX_iff _ _).2 rfl) ((ih _).2 rfl)

private theorem subsX_iff (ss : List XSubtitle) : ∀ (n : Nat) (x : Str), SubtitlesTextX n ss x ↔ x = dumpSubsX n ss := by
  induction ss with
  | nil =>
    intro n x
    constructor
    · intro h; cases h; rfl
    · rintro rfl; exact .none n
  | cons s ss ih =>
    intro n x
    rw [dumpSubsX, natDec_eq_decSpec]
    constructor
    · intro h
      cases h with
      | subtitle _ _ _ a b ls y h1 h2 h3 h4 => rw [(timeText_iff _ _).1 h1, (timeText_iff _ _).1 h2, (linesX_iff _ _).1 h3, (ih _ _).1 h4]
    · rintro rfl
      exact .subtitle n s ss _ _ _ _ ((timeText_iff _ _).2 rfl) ((timeText_iff _ _).2 rfl) ((linesX_iff _ _).2 rfl) ((ih _ _).2 rfl)

private theorem srtX_of {fs : Str → Entry} {args : List Str} {path s : Str} (ho : Operands args [path]) (he : HasExtension path b!"srt") (hf : fs path = .file s) :
    dumpsubsX fs args = match srtReadX (linesOfFile s) with
      | .error e => .failed e []
      | .ok raws => match dumpX raws with | .ok out => .done out | .error e => .failed e [] := by
  unfold dumpsubsX
  rw [(args_some _ _).2 ho]
  simp only
  rw [if_pos ((hasExtension_iff path _ (by decide) (by decide) (by decide)).1 he), hf]
  rfl

/-- C146: what `dumpsubs` writes for a SubRip file: the subtitles that C138 and C139 tell of, each line with its place; a place may be `inf`, `-inf` or `nan`. -/
theorem C146_exact (fs : Str → Entry) (args : List Str) (path s out : Str) (ho : Operands args [path]) (he : HasExtension path b!"srt") (hf : fs path = .file s) :
    dumpsubsX fs args = .done out ↔ ∃ raws subs, srtReadX (linesOfFile s) = .ok raws ∧ collectX raws = .ok subs ∧ SubtitlesTextX 0 subs out := by
  rw [srtX_of ho he hf]
  unfold dumpX
  cases e1 : srtReadX (linesOfFile s) with
  | error e => simp
  | ok raws =>
    simp only
    cases e2 : collectX raws with
    | error e =>
      rw [error_bind]
      constructor
      · intro h; cases h
      · rintro ⟨r, u, h1, h2, -⟩
        cases h1
        rw [e2] at h2
        cases h2
    | ok subs =>
      rw [ok_bind]
      constructor
      · intro h
        cases h
        exact ⟨raws, subs, rfl, e2, (subsX_iff _ _ _).2 rfl⟩
      · rintro ⟨r, u, h1, h2, h3⟩
        cases h1
        rw [e2] at h2
        cases h2
        rw [(subsX_iff _ _ _).1 h3]
        rfl

/-- A SubRip file with text at places that are no numbers. -/
def exSrtNowhere : Str := b!"1\n00:00:01,000 --> 00:00:02,000\n{\\pos(0,-inf)}a\n{\\pos(0,NAN)}b<i>c</i>\n{\\pos(0,144)}d\n"

example : Operands [b!"x.srt"] [b!"x.srt"] ∧ HasExtension b!"x.srt" b!"srt" :=
  ⟨.operand (.inr (by decide)) .nil, b!"x", b!"srt", by decide, by decide⟩

example : ∃ out, (out.length > 0) ∧ dumpsubsX (fun _ => .file exSrtNowhere) [b!"x.srt"] = .done out := by
  have h : ((srtReadX (linesOfFile exSrtNowhere) >>= dumpX).toOption.map fun o => decide (o.length > 0)) = some true := by decide +kernel
  rw [srtX_of (path := b!"x.srt") (s := exSrtNowhere) (.operand (.inr (by decide)) .nil) ⟨b!"x", b!"srt", by decide, by decide⟩ rfl]
  cases e1 : srtReadX (linesOfFile exSrtNowhere) with
  | error e => rw [e1] at h; cases h
  | ok raws =>
    rw [e1, ok_bind] at h
    cases e2 : dumpX raws with
    | error e => rw [e2] at h; cases h
    | ok out =>
      rw [e2] at h
      exact ⟨out, by simpa [Except.toOption] using h, by simp only; rw [e2]⟩

/-! ### No SubRip file is outside -/

private theorem n_scaled (f : Int) (a b : FRate) : NeverInf (Time.scaled f a b) := n_bind (n_ck _) fun _ => n_ck _

private theorem n_lt (a b : Time) : NeverInf (a.lt b) := by
  unfold Time.lt
  refine n_ite n_ok ?_
  split
  · exact n_ok
  · exact n_bind (n_scaled _ _ _) fun _ => n_bind (n_scaled _ _ _) fun _ => n_ok
  · exact ⟨nofun, nofun⟩

private theorem n_eq (a b : Time) : NeverInf (a.eq b) := by
  unfold Time.eq
  split
  · exact n_ok
  · exact n_ite n_ok (n_bind (n_scaled _ _ _) fun _ => n_bind (n_scaled _ _ _) fun _ => n_ok)
  · exact ⟨nofun, nofun⟩

private theorem n_and {a b : R Bool} (ha : NeverInf a) (hb : NeverInf b) : NeverInf (andM a b) := by
  unfold andM
  split
  · exact hb
  · exact n_ok
  · exact ⟨fun h => ha.1 (by cases h; rfl), fun h => ha.2 (by cases h; rfl)⟩

private theorem n_optTime (a b : Option Time) : NeverInf (optTimeEq a b) := by
  unfold optTimeEq
  split
  · exact n_ok
  · exact n_eq _ _
  · exact n_ok

private theorem n_comparableGo (a : Raw) : ∀ l : List Raw, NeverInf (allComparable.go a l)
  | [] => n_ok
  | b :: bs => by
    rw [allComparable.go]
    exact n_bind (n_lt _ _) fun _ => n_comparableGo a bs

private theorem n_comparable : ∀ l : List Raw, NeverInf (allComparable l)
  | [] => n_ok
  | a :: as => by
    rw [allComparable]
    exact n_bind (n_comparableGo a as) fun _ => n_comparable as

private theorem n_step (st : List XSubtitle × Option XSubtitle) (i : XRaw) : NeverInf (collectStepX st i) := by
  unfold collectStepX
  split
  · exact n_ok
  · rename_i cur _
    refine n_bind (n_and (n_eq _ _) (n_and (n_eq _ _) (n_and (n_optTime _ _) (n_optTime _ _)))) fun same => ?_
    refine n_ite ?_ n_ok
    split
    · exact n_ite n_ok n_ok
    · exact n_ok

private theorem n_collectLoop : ∀ (is : List XRaw) (st : List XSubtitle × Option XSubtitle), NeverInf (collectLoopX st is)
  | [], st => n_ok
  | i :: is, st => by
    rw [collectLoopX]
    exact n_bind (n_step st i) fun st' => n_collectLoop is st'

/-- C146: whatever stands in a SubRip file, reading, collecting and dumping it is within the model: no infinity stops it. -/
theorem C146_outcome (fs : Str → Entry) (args : List Str) (path : Str) (e : Err) (out : Str) (ho : Operands args [path]) (he : HasExtension path b!"srt")
    (h : dumpsubsX fs args = .failed e out) : out = [] ∧ e ≠ .nonFinite ∧ e ≠ .unmodelled ∧
      ((fs path = .unreadable ∧ e = .programming) ∨ ∃ s, fs path = .file s ∧ (srtReadX (linesOfFile s) = .error e ∨ ∃ raws, srtReadX (linesOfFile s) = .ok raws ∧ collectX raws = .error e)) := by
  have hc : ∀ raws, NeverInf (collectX raws) := fun raws => n_bind (n_bind (n_comparable _) fun _ => n_ok) fun _ => n_bind (n_collectLoop _ _) fun _ => n_ok
  cases hf : fs path with
  | file s =>
    rw [srtX_of ho he hf] at h
    cases e1 : srtReadX (linesOfFile s) with
    | error x =>
      rw [e1] at h
      cases h
      have := C138_reads (linesOfFile s)
      rw [e1] at this
      exact ⟨rfl, fun hx => this.1 (by rw [hx]), fun hx => this.2 (by rw [hx]), .inr ⟨s, rfl, .inl e1⟩⟩
    | ok raws =>
      rw [e1] at h
      simp only [dumpX] at h
      have := hc raws
      cases e2 : collectX raws with
      | error x =>
        rw [e2, error_bind] at h
        rw [e2] at this
        cases h
        exact ⟨rfl, fun hx => this.1 (by rw [hx]), fun hx => this.2 (by rw [hx]), .inr ⟨s, rfl, .inr ⟨raws, e1, e2⟩⟩⟩
      | ok subs =>
        rw [e2, ok_bind] at h
        cases h
  | missing =>
    unfold dumpsubsX at h
    rw [(args_some _ _).2 ho] at h
    simp only at h
    rw [if_pos ((hasExtension_iff path _ (by decide) (by decide) (by decide)).1 he), hf] at h
    unfold dumpsubs at h
    rw [(args_some _ _).2 ho] at h
    simp only at h
    rw [hf] at h
    cases h
  | unreadable =>
    unfold dumpsubsX at h
    rw [(args_some _ _).2 ho] at h
    simp only at h
    rw [if_pos ((hasExtension_iff path _ (by decide) (by decide) (by decide)).1 he), hf] at h
    unfold dumpsubs at h
    rw [(args_some _ _).2 ho] at h
    simp only at h
    rw [hf] at h
    simp only [Entry.contents] at h
    obtain ⟨f1, -, f3⟩ := readerFactory_srt he none
    rw [f1 rfl, f3] at h
    cases h
    exact ⟨rfl, nofun, nofun, .inl ⟨rfl, rfl⟩⟩

/-- A number too large for `float`. -/
example : (match dumpsubsX (fun _ => .file b!"1\n00:00:01,000 --> 00:00:02,000\n{\\pos(0,1e40)}a\n") [b!"x.srt"] with | .failed e out => some (e, out) | _ => none) = some (.ub .scanfRange, []) := by
  decide +kernel

/-! ### Agreement -/

private theorem block_finite (b : Block) : b.finite.block.text = b.text ∧ b.finite.block.italic = b.italic ∧ b.finite.block.underline = b.underline := ⟨rfl, rfl, rfl⟩

private theorem dumpBlocks_finite : ∀ (ks : List Block) (i u : Bool), dumpBlocks i u ((ks.map Block.finite).map XBlock.block) = dumpBlocks i u ks
  | [], i, u => rfl
  | k :: ks, i, u => by
    rw [List.map_cons, List.map_cons, dumpBlocks, dumpBlocks, dumpBlocks_finite ks]
    rfl

private theorem dumpLine_finite (l : Line) : dumpLineX l.finite = dumpLine showFloat l := by
  unfold dumpLineX dumpLine
  rw [show l.finite.blocks = l.blocks.map Block.finite from rfl, dumpBlocks_finite]
  have : dumpPosX l.finite.vpos l.finite.vprop = dumpPos showFloat l.vpos := by
    unfold dumpPosX dumpPos Line.finite
    cases l.vpos.prop <;> rfl
  rw [this]

private theorem dumpSubs_finite : ∀ (ss : List Subtitle) (n : Nat), dumpSubsX n (ss.map Subtitle.finite) = dumpSubs showFloat n ss
  | [], n => rfl
  | s :: ss, n => by
    rw [List.map_cons, dumpSubsX, dumpSubs, dumpSubs_finite ss]
    have : (s.finite.lines.map dumpLineX) = s.lines.map (dumpLine showFloat) := by
      rw [show s.finite.lines = s.lines.map Line.finite from rfl, List.map_map]
      exact List.map_congr_left fun l _ => dumpLine_finite l
    rw [this]
    rfl

private theorem dump_finite (raws : List Raw) : dumpX (raws.map Raw.finite) = dump showFloat [] raws := by
  unfold dumpX dump
  rw [C139_agree]
  cases collect raws with
  | error e => rfl
  | ok subs =>
    show Except.ok _ = Except.ok _
    rw [dumpSubs_finite]
    rfl

/-- C146: where the model without infinities has an outcome, it is that of the model with them. -/
theorem C146_agree (fs : Str → Entry) (args : List Str) (h : ∀ out, dumpsubs fs args ≠ .failed .nonFinite out ∧ dumpsubs fs args ≠ .failed .unmodelled out) : dumpsubsX fs args = dumpsubs fs args := by
  cases ha : dumpsubsArgs args with
  | none => unfold dumpsubsX; rw [ha]
  | some ps =>
    rcases ps with _ | ⟨path, _ | ⟨p, ps⟩⟩
    · unfold dumpsubsX; rw [ha]
    · by_cases hx : toLower (extension path) = b!".srt"
      · cases hf : fs path with
        | missing => unfold dumpsubsX; rw [ha]; simp only; rw [if_pos hx, hf]
        | unreadable => unfold dumpsubsX; rw [ha]; simp only; rw [if_pos hx, hf]
        | file s =>
          have he := (hasExtension_iff path b!"srt" (by decide) (by decide) (by decide)).2 hx
          rw [srtX_of ((args_some _ _).1 ha) he hf]
          obtain ⟨-, f2, f3⟩ := readerFactory_srt he (some s)
          have e : dumpsubs fs args = match srtRead (linesOfFile s) with
              | .error e => .failed e []
              | .ok raws => match dump showFloat [] raws with | .ok out => .done out | .error e => .failed e [] := by
            unfold dumpsubs
            rw [ha]
            simp only
            rw [hf]
            simp only [Entry.contents]
            rw [f2 s rfl, f3, show srtReadFile s = srtRead (linesOfFile s) from rfl]
            cases srtRead (linesOfFile s) with
            | error e => rfl
            | ok raws =>
              simp only [Except.map, FactoryResult.metadata, FactoryResult.subs]
              cases dump showFloat [] raws <;> rfl
          have hr : srtRead (linesOfFile s) ≠ .error .nonFinite ∧ srtRead (linesOfFile s) ≠ .error .unmodelled := by
            constructor
            · intro k; rw [k] at e; exact (h []).1 e
            · intro k; rw [k] at e; exact (h []).2 e
          rw [e, C138_agree _ hr]
          cases srtRead (linesOfFile s) with
          | error e => rfl
          | ok raws =>
            simp only [Except.map]
            rw [dump_finite]
      · unfold dumpsubsX; rw [ha]; simp only; rw [if_neg hx]
    · unfold dumpsubsX; rw [ha]

example : (match dumpsubs (fun _ => .file b!"1\n00:00:01,000 --> 00:00:02,000\n{\\pos(0,144)}a\n") [b!"x.srt"] with | .done out => some out | _ => none) =
    some b!"Subtitle 0 at 00:00:01:0 @ 1000/1 -> 00:00:02:0 @ 1000/1\n\t0.5 of screen from top\ta\n" := by decide +kernel

/-! ### Writing -/

private theorem f32_fin (x : ℚ) : (∃ r, Ieee.ieee32 x = .ok r ∧ (XF.fin x).f32 = .fin r) ∨ (Ieee.ieee32 x = .error .nonFinite ∧ ∃ s, (XF.fin x).f32 = .inf s) := by
  cases e : Ieee.ieee32 x with
  | ok r => exact .inl ⟨r, rfl, by unfold XF.f32; simp only; rw [e]⟩
  | error y =>
    refine .inr ⟨?_, decide (x < 0), by unfold XF.f32; simp only; rw [e]⟩
    unfold Ieee.ieee32 Ieee.ieee at e
    simp only at e
    split at e
    · cases e
    · split at e
      · cases e
      · cases e; rfl

private theorem f64_fin (x : ℚ) : (∃ r, Ieee.ieee64 x = .ok r ∧ (XF.fin x).f64 = .fin r) ∨ (Ieee.ieee64 x = .error .nonFinite ∧ ∃ s, (XF.fin x).f64 = .inf s) := by
  cases e : Ieee.ieee64 x with
  | ok r => exact .inl ⟨r, rfl, by unfold XF.f64; simp only; rw [e]⟩
  | error y =>
    refine .inr ⟨?_, decide (x < 0), by unfold XF.f64; simp only; rw [e]⟩
    unfold Ieee.ieee64 Ieee.ieee at e
    simp only at e
    split at e
    · cases e
    · split at e
      · cases e
      · cases e; rfl

private theorem toInt_ne (x : ℚ) : toInt x ≠ .error .nonFinite := by
  unfold toInt
  split <;> nofun

private theorem inf_same {x : R Int} (h : x ≠ .error .nonFinite) : InfUndefined x x := .inr ⟨h, rfl⟩

private theorem mul_rows (s : Bool) : (XF.inf s).mul (.fin stlRows) = .inf s := by
  have h1 : (stlRows : ℚ) = 23 := by norm_num [stlRows]
  unfold XF.mul
  rw [h1]
  simp only [show ((23 : ℚ) = 0) = False by norm_num, if_false, show decide ((23 : ℚ) < 0) = false by norm_num, Bool.bne_false]

/-- `x` is a number where `a` is one, and infinite or no number where `a` has left the numbers. -/
private def Same (a : R ℚ) (x : XF) : Prop := (∃ r, a = .ok r ∧ x = .fin r) ∨ (a = .error .nonFinite ∧ ((∃ s, x = .inf s) ∨ x = .nan))

private theorem same32 (x : ℚ) : Same (Ieee.ieee32 x) (XF.fin x).f32 := by
  rcases f32_fin x with ⟨r, h1, h2⟩ | ⟨h1, s, h2⟩
  · exact .inl ⟨r, h1, h2⟩
  · exact .inr ⟨h1, .inl ⟨s, h2⟩⟩

private theorem same64 (x : ℚ) : Same (Ieee.ieee64 x) (XF.fin x).f64 := by
  rcases f64_fin x with ⟨r, h1, h2⟩ | ⟨h1, s, h2⟩
  · exact .inl ⟨r, h1, h2⟩
  · exact .inr ⟨h1, .inl ⟨s, h2⟩⟩

private theorem same_bind {a : R ℚ} {x : XF} {f : ℚ → R ℚ} {g : XF → XF} (h : Same a x) (hf : ∀ r, Same (f r) (g (.fin r))) (hi : ∀ s, (∃ t, g (.inf s) = .inf t) ∨ g (.inf s) = .nan) (hn : g .nan = .nan) :
    Same (a >>= f) (g x) := by
  rcases h with ⟨r, rfl, rfl⟩ | ⟨rfl, ⟨s, rfl⟩ | rfl⟩
  · exact hf r
  · exact .inr ⟨rfl, hi s⟩
  · exact .inr ⟨rfl, .inr hn⟩

private theorem same_int {a : R ℚ} {x : XF} (h : Same a x) : InfUndefined (a >>= toInt) (toIntX x) := by
  rcases h with ⟨r, rfl, rfl⟩ | ⟨rfl, ⟨s, rfl⟩ | rfl⟩
  · exact inf_same (toInt_ne r)
  · exact .inl ⟨rfl, rfl⟩
  · exact .inl ⟨rfl, rfl⟩

private theorem same_rint {a : R ℚ} {x : XF} (h : Same a x) : InfUndefined (a >>= fun r => toInt (rint r)) (toIntX x.rint) := by
  rcases h with ⟨r, rfl, rfl⟩ | ⟨rfl, ⟨s, rfl⟩ | rfl⟩
  · exact inf_same (toInt_ne _)
  · exact .inl ⟨rfl, rfl⟩
  · exact .inl ⟨rfl, rfl⟩

private theorem sized_int31 {a : Int} (h : InInt a) : Sized 0 31 (a : ℚ) := by
  refine ⟨Grid.int a, ?_⟩
  unfold InInt at h
  have : ((2 : ℚ) ^ (31 : Int)) = 2147483648 := by norm_num
  rw [this, abs_le]
  constructor
  · exact_mod_cast (by omega : (-2147483648 : Int) ≤ a)
  · exact_mod_cast (by omega : a ≤ (2147483648 : Int))

private theorem f32_zero_int {n : Int} (h : f32 (n : ℚ) = 0) : n = 0 := by
  have he := f32_err (n : ℚ)
  rw [h, zero_sub, abs_neg] at he
  have : |(n : ℚ)| = 0 := by
    have h0 := abs_nonneg (n : ℚ)
    have : |(n : ℚ)| * 2 ^ 24 ≤ |(n : ℚ)| := by rwa [le_div_iff₀ (by norm_num)] at he
    linarith
  exact_mod_cast abs_eq_zero.1 this

private theorem intRatio_same (a b : Int) (ha : InInt a) (hb : InInt b) : Same (Ieee.intRatio a b) (intRatioX a b) := by
  have fin : ∀ n : Int, InInt n → ∃ r, Ieee.ieee32 n = .ok r ∧ XF.ofInt n = .fin r := by
    intro n hn
    rcases f32_fin n with ⟨r, h1, h2⟩ | ⟨h1, -⟩
    · exact ⟨r, h1, h2⟩
    · rw [ieee32_fits (sized_int31 hn)] at h1
      cases h1
  obtain ⟨x, hx, hx'⟩ := fin a ha
  obtain ⟨y, hy, hy'⟩ := fin b hb
  unfold Ieee.intRatio intRatioX
  rw [hx, hx', hy, hy', ok_bind, ok_bind]
  unfold fdiv XF.div
  simp only
  by_cases h0 : y = 0
  · rw [if_pos h0, if_pos h0, error_bind]
    refine .inr ⟨rfl, ?_⟩
    by_cases h1 : x = 0
    · rw [if_pos h1]; exact .inr rfl
    · rw [if_neg h1]; exact .inl ⟨_, rfl⟩
  · rw [if_neg h0, if_neg h0, ok_bind]
    exact same32 _

/-- C146: the row of a line is that of the arithmetic of numbers, and where that leaves the numbers undefined behaviour. -/
theorem C146_row_agree (l : Line) (h1 : ∀ n, l.vpos.line = some n → InInt n) (h2 : ∀ n, l.vpos.lines = some n → InInt n) (h3 : l.vpos.ref ≠ some .topOfSubtitle) : InfUndefined (Ieee.writerVpos l) (writerVposX l.finite) := by
  have h4 : l.vpos.ref.getD .topOfScreen ≠ .topOfSubtitle := by
    cases hr : l.vpos.ref with
    | none => exact nofun
    | some r => exact fun h => h3 (by rw [hr]; exact congrArg some h)
  unfold Ieee.writerVpos writerVposX
  cases e : l.vpos.prop with
  | some p =>
    rw [show l.finite.vprop = some (.fin p) by unfold Line.finite; rw [e]; rfl, show l.finite.vpos.ref = l.vpos.ref from rfl]
    simp only
    rw [show (XF.fin p).mul (.fin stlRows) = .fin (p * stlRows) from rfl]
    generalize l.vpos.ref.getD .topOfScreen = ref at h4 ⊢
    cases ref with
    | topOfScreen => exact same_rint (same32 _)
    | centreOfScreen =>
      have := same_rint (same_bind (same32 (p * stlRows)) (f := fun a => Ieee.ieee64 (a + 23 / 2)) (g := fun x => (x.add (.fin (23 / 2))).f64) (fun r => same64 _) (fun s => .inl ⟨s, rfl⟩) rfl)
      rwa [bind_assoc] at this
    | bottomOfScreen =>
      have := same_rint (same_bind (same32 (p * stlRows)) (f := fun a => Ieee.ieee32 (stlRows - a)) (g := fun x => ((XF.fin stlRows).sub x).f32)
        (fun r => by rw [sub_eq_add_neg]; exact same32 _) (fun s => .inl ⟨!s, rfl⟩) rfl)
      rwa [bind_assoc] at this
    | topOfSubtitle => exact inf_same nofun
  | none =>
    rw [show l.finite.vprop = none by unfold Line.finite; rw [e]; rfl, show l.finite.vpos.ref = l.vpos.ref from rfl, show l.finite.vpos.line = l.vpos.line from rfl,
      show l.finite.vpos.lines = l.vpos.lines from rfl]
    simp only
    cases hl : l.vpos.line with
    | none => exact inf_same nofun
    | some n =>
      simp only
      cases hm : l.vpos.lines with
      | none => exact inf_same nofun
      | some m =>
        rw [show optGet (some m) = .ok m from rfl, ok_bind, ok_bind]
        have hr := intRatio_same n m (h1 n hl) (h2 m hm)
        have mi : ∀ s, (∃ t, ((XF.inf s).mul (.fin stlRows)).f32 = .inf t) ∨ ((XF.inf s).mul (.fin stlRows)).f32 = .nan := fun s => .inl ⟨s, by rw [mul_rows]; rfl⟩
        have mi' : ∀ s, (∃ t, ((XF.inf s).mul (.fin stlRows)).f64 = .inf t) ∨ ((XF.inf s).mul (.fin stlRows)).f64 = .nan := fun s => .inl ⟨s, by rw [mul_rows]; rfl⟩
        generalize l.vpos.ref.getD .topOfScreen = ref at h4 ⊢
        cases ref with
        | topOfScreen =>
          have := same_int (same_bind hr (f := fun a => Ieee.ieee32 (a * stlRows)) (g := fun x => (x.mul (.fin stlRows)).f32) (fun r => same32 _) mi rfl)
          rwa [bind_assoc] at this
        | centreOfScreen =>
          have := same_int (same_bind (same_bind hr (f := fun a => Ieee.ieee64 (a + 1 / 2)) (g := fun x => (x.add (.fin (1 / 2))).f64) (fun r => same64 _) (fun s => .inl ⟨s, rfl⟩) rfl)
            (f := fun a => Ieee.ieee64 (a * stlRows)) (g := fun x => (x.mul (.fin stlRows)).f64) (fun r => same64 _) mi' rfl)
          rwa [bind_assoc, bind_assoc] at this
        | bottomOfScreen =>
          have := same_int (same_bind (same_bind hr (f := fun a => Ieee.ieee32 (1 - a)) (g := fun x => ((XF.fin 1).sub x).f32) (fun r => by rw [sub_eq_add_neg]; exact same32 _) (fun s => .inl ⟨!s, rfl⟩) rfl)
            (f := fun a => Ieee.ieee32 (a * stlRows)) (g := fun x => (x.mul (.fin stlRows)).f32) (fun r => same32 _) mi rfl)
          rwa [bind_assoc, bind_assoc] at this
        | topOfSubtitle => exact absurd rfl h4

example : Ieee.writerVpos { vpos := { prop := some (2 ^ 127), ref := some .topOfScreen } } = .error .nonFinite ∧
    writerVposX (Line.finite { vpos := { prop := some (2 ^ 127), ref := some .topOfScreen } }) = .error (.ub .floatToInt) ∧
    writerVposX (Line.finite { vpos := { prop := some (1 / 4), ref := some .bottomOfScreen } }) = .ok 17 ∧
    writerVposX (Line.finite { vpos := { line := some 3, lines := some 0, ref := some .topOfScreen } }) = .error (.ub .floatToInt) := by decide +kernel

/-- C146: a line at a place that is no number has no row: the writer turns such a number into an `int`, which is undefined behaviour. -/
theorem C146_row (l : XLine) (h : Nowhere l.vpos l.vprop) : writerVposX l = .error (.ub .floatToInt) := by
  obtain ⟨h1, h2⟩ := h
  have h4 : l.vpos.ref.getD .topOfScreen ≠ .topOfSubtitle := by
    cases hr : l.vpos.ref with
    | none => exact nofun
    | some r => exact fun h => h2 (by rw [hr]; exact congrArg some h)
  unfold writerVposX
  rcases h1 with e | ⟨s, e⟩
  · rw [e]
    generalize l.vpos.ref.getD .topOfScreen = ref at h4 ⊢
    cases ref with
    | topOfSubtitle => exact absurd rfl h4
    | _ => rfl
  · rw [e]
    simp only
    rw [mul_rows]
    generalize l.vpos.ref.getD .topOfScreen = ref at h4 ⊢
    cases ref with
    | topOfSubtitle => exact absurd rfl h4
    | _ => rfl

example : Nowhere { ref := some .centreOfScreen } (some (.inf true)) ∧ Nowhere {} (some .nan) := ⟨⟨.inr ⟨true, rfl⟩, by decide⟩, ⟨.inl rfl, by decide⟩⟩

/-- Without a row only the top of the subtitle would save it. -/
example : writerVposX { hpos := {}, vpos := { ref := some .topOfSubtitle }, hprop := .nan, vprop := some .nan, blocks := [] } = .ok 0 := by decide +kernel

private theorem rows_nowhere : ∀ (pre : List XLine) (l : XLine) (post : List XLine), (∀ j ∈ pre, ∃ r, writerVposX j = .ok r) → Nowhere l.vpos l.vprop →
    writerVposesX (pre ++ l :: post) = .error (.ub .floatToInt)
  | [], l, post, _, h => by rw [List.nil_append, writerVposesX, C146_row l h, error_bind]
  | j :: pre, l, post, hp, h => by
    obtain ⟨r, hr⟩ := hp j (by simp)
    rw [List.cons_append, writerVposesX, hr, ok_bind, rows_nowhere pre l post (fun k hk => hp k (by simp [hk])) h, error_bind]

private theorem rows_of_ok : ∀ (ls : List XLine) (vs : List Int), writerVposesX ls = .ok vs → ∀ l ∈ ls, ¬ Nowhere l.vpos l.vprop
  | [], _, _, l, hl, _ => by cases hl
  | j :: ls, vs, e, l, hl, hn => by
    rw [writerVposesX] at e
    obtain ⟨v, h1, e⟩ := bind_eq_ok.1 e
    obtain ⟨vs', h2, e⟩ := bind_eq_ok.1 e
    rcases List.mem_cons.1 hl with rfl | hl
    · rw [C146_row _ hn] at h1; cases h1
    · exact rows_of_ok ls vs' h2 l hl hn

private theorem tti_nowhere {fps : ℚ} : ∀ (ss : List XSubtitle) (bs : List Str), makeTtiBlocksX fps ss = .ok bs → ∀ s ∈ ss, ∀ l ∈ s.lines, ¬ Nowhere l.vpos l.vprop
  | [], _, _, s, hs, _, _ => by cases hs
  | t :: ss, bs, e, s, hs, l, hl => by
    rw [makeTtiBlocksX] at e
    obtain ⟨a, h1, e⟩ := bind_eq_ok.1 e
    obtain ⟨b, h2, e⟩ := bind_eq_ok.1 e
    rcases List.mem_cons.1 hs with rfl | hs
    · unfold ttiBlocksX at h1
      obtain ⟨vps, h3, -⟩ := bind_eq_ok.1 h1
      exact rows_of_ok _ _ h3 l hl
    · exact tti_nowhere ss b h2 s hs l hl

/-- C146: a subtitle whose first line without a row is at a place that is no number is undefined behaviour, whatever else there is in it. -/
theorem C146_undefined (fps : ℚ) (pre post : List XLine) (l : XLine) (s : XSubtitle) (ss : List XSubtitle) (hs : s.lines = pre ++ l :: post) (hp : ∀ j ∈ pre, ∃ r, writerVposX j = .ok r)
    (h : Nowhere l.vpos l.vprop) : makeTtiBlocksX fps (s :: ss) = .error (.ub .floatToInt) := by
  rw [makeTtiBlocksX]
  unfold ttiBlocksX
  rw [hs, rows_nowhere pre l post hp h]
  rfl

example : ∃ (pre : List XLine) (l : XLine), pre.length = 1 ∧ (∀ j ∈ pre, ∃ r, writerVposX j = .ok r) ∧ Nowhere l.vpos l.vprop :=
  ⟨[⟨{}, { ref := some .topOfScreen }, .fin 0, some (.fin (1 / 2)), []⟩], ⟨{}, { ref := some .topOfScreen }, .fin 0, some .nan, []⟩, rfl,
    fun j hj => ⟨12, by rw [List.mem_singleton.1 hj]; decide +kernel⟩, .inl rfl, by decide⟩

private theorem writerBlocks_finite : ∀ (ks : List Block) (st : StyleState), writerBlocks st ((ks.map Block.finite).map XBlock.block) = writerBlocks st ks
  | [], st => rfl
  | k :: ks, st => by
    rw [List.map_cons, List.map_cons, writerBlocks, writerBlocks]
    show (isoEncode (utf8Decode k.text) >>= fun t => writerBlocks ⟨k.italic, k.underline⟩ ((ks.map Block.finite).map XBlock.block) >>= _) = _
    rw [writerBlocks_finite ks]
    rfl

private theorem writerLines_finite : ∀ (ls : List Line) (vs : List Int) (st : StyleState) (last : Option Int),
    writerLines st last (((ls.map Line.finite).map XLine.line).zip vs) = writerLines st last (ls.zip vs)
  | [], vs, st, last => rfl
  | l :: ls, [], st, last => rfl
  | l :: ls, v :: vs, st, last => by
    rw [List.map_cons, List.map_cons, List.zip_cons_cons, List.zip_cons_cons, writerLines, writerLines, show l.finite.line.blocks = (l.blocks.map Block.finite).map XBlock.block from rfl,
      writerBlocks_finite]
    congr 1
    funext x
    simp only [writerLines_finite ls vs]

private theorem vpos_finite {l : Line} (h : VPosOk l.vpos) (h0 : l.vpos.lines ≠ some 0) : writerVposX l.finite = writerVpos l := by
  by_cases hr : l.vpos.ref = some .topOfSubtitle
  · unfold writerVposX writerVpos
    rw [show l.finite.vpos.ref = l.vpos.ref from rfl, show l.finite.vpos.line = l.vpos.line from rfl, show l.finite.vpos.lines = l.vpos.lines from rfl, hr]
    cases e : l.vpos.prop with
    | some p => rw [show l.finite.vprop = some (.fin p) by unfold Line.finite; rw [e]; rfl]; rfl
    | none =>
      rw [show l.finite.vprop = none by unfold Line.finite; rw [e]; rfl]
      simp only
      cases l.vpos.line with
      | none => rfl
      | some n =>
        simp only
        cases hm : l.vpos.lines with
        | none => rfl
        | some m =>
          rw [show optGet (some m) = .ok m from rfl, ok_bind, ok_bind]
          unfold fdiv
          rw [if_neg (fun hz => h0 (by rw [hm, show m = 0 from f32_zero_int hz])), ok_bind]
          rfl
  · have small : SmallFloat 0 := ⟨⟨0, 0, by norm_num, by norm_num, by norm_num⟩, by norm_num⟩
    have e := (C126_positions {} l {} {} {} 0 0 ⟨nofun, nofun, nofun⟩ h small small nofun nofun (by decide) small).2.1
    have hne : writerVpos l ≠ .error .nonFinite := by
      unfold writerVpos
      cases l.vpos.prop with
      | some p =>
        simp only
        split <;> first | exact toInt_ne _ | exact nofun
      | none =>
        simp only
        cases l.vpos.line with
        | none => exact nofun
        | some n =>
          simp only
          cases hm : l.vpos.lines with
          | none => exact nofun
          | some m =>
            rw [show optGet (some m) = .ok m from rfl, ok_bind]
            unfold fdiv
            rw [if_neg (fun hz => h0 (by rw [hm, show m = 0 from f32_zero_int hz])), ok_bind]
            split <;> first | exact toInt_ne _ | exact nofun
    rcases C146_row_agree l h.2.1 h.2.2 hr with ⟨h1, -⟩ | ⟨-, h1⟩
    · rw [e] at h1; exact absurd h1 hne
    · rw [h1, e]

private theorem vposes_finite : ∀ ls : List Line, (∀ l ∈ ls, VPosOk l.vpos ∧ l.vpos.lines ≠ some 0) → writerVposesX (ls.map Line.finite) = writerVposes ls
  | [], _ => rfl
  | l :: ls, h => by
    rw [List.map_cons, writerVposesX, writerVposes, vpos_finite (h l (by simp)).1 (h l (by simp)).2, vposes_finite ls fun j hj => h j (by simp [hj])]

/-- C146: subtitles at finite places, of a size that is usual, are written as before. -/
theorem C146_write_agree (fps : ℚ) (ss : List Subtitle) (h : ∀ s ∈ ss, ∀ l ∈ s.lines, VPosOk l.vpos ∧ l.vpos.lines ≠ some 0) : makeTtiBlocksX fps (ss.map Subtitle.finite) = makeTtiBlocks fps ss := by
  induction ss with
  | nil => rfl
  | cons s ss ih =>
    rw [List.map_cons, makeTtiBlocksX, makeTtiBlocks, ih fun t ht => h t (by simp [ht])]
    have : ttiBlocksX fps s.finite = ttiBlocks fps s := by
      unfold ttiBlocksX ttiBlocks
      rw [show s.finite.lines = s.lines.map Line.finite from rfl, vposes_finite _ (h s (by simp))]
      congr 1
      funext vps
      unfold writerText
      rw [writerLines_finite]
      cases s.lines <;> rfl
    rw [this]

example : makeTtiBlocksX 25 ([{ from_ := ⟨1, 0, some ⟨1000, 1⟩⟩, to_ := ⟨2, 0, some ⟨1000, 1⟩⟩, lines := [{ vpos := { prop := some (1 / 2), ref := some .topOfScreen }, blocks := [{ text := b!"a" }] }] }].map Subtitle.finite) =
    .ok [[1, 0, 0, 255, 0, 0, 0, 1, 0, 0, 0, 2, 0, 12, 2, 0, 97] ++ List.replicate 111 143] := by decide +kernel

/-! ### From raw subtitles to the file -/

private def HasNowhere (out : List XSubtitle) : Prop := ∃ s ∈ out, ∃ l ∈ s.lines, Nowhere l.vpos l.vprop

private def AllPlaced (out : List XSubtitle) : Prop := ∀ s ∈ out, ∀ l ∈ s.lines, l.vprop ≠ none ∧ l.vpos.ref ≠ none

private theorem same_nowhere {l : XLine} {i : XRaw} (hl : l.vprop ≠ none ∧ l.vpos.ref ≠ none) (hi : i.vprop ≠ none ∧ i.raw.vpos.ref ≠ none) (h : l.sameMetadata i = true)
    (hn : Nowhere i.raw.vpos i.vprop) : Nowhere l.vpos l.vprop := by
  obtain ⟨p, hp⟩ := Option.ne_none_iff_exists'.1 hl.1
  obtain ⟨q, hq⟩ := Option.ne_none_iff_exists'.1 hi.1
  obtain ⟨r, hr⟩ := Option.ne_none_iff_exists'.1 hl.2
  obtain ⟨t, ht⟩ := Option.ne_none_iff_exists'.1 hi.2
  unfold XLine.sameMetadata vposEqX at h
  rw [hp, hq, hr, ht] at h
  simp only [Option.isSome_some, Bool.and_self, if_true, optXFEq, Bool.and_eq_true, beq_iff_eq] at h
  obtain ⟨hx, hrt⟩ := h
  unfold Nowhere at hn ⊢
  rw [hp, hr, hrt]
  rw [hq, ht] at hn
  refine ⟨?_, hn.2⟩
  rcases hn.1 with e | ⟨s, e⟩
  · cases e
    cases p <;> cases hx
  · cases e
    cases p with
    | inf s' => exact .inr ⟨s', rfl⟩
    | _ => cases hx

private theorem step_nowhere {st st' : List XSubtitle × Option XSubtitle} {i : XRaw} (hi : i.vprop ≠ none ∧ i.raw.vpos.ref ≠ none) (ha : AllPlaced (collectFinishX st)) (e : collectStepX st i = .ok st') :
    AllPlaced (collectFinishX st') ∧ (HasNowhere (collectFinishX st) ∨ Nowhere i.raw.vpos i.vprop → HasNowhere (collectFinishX st')) := by
  obtain ⟨done, cur⟩ := st
  unfold collectStepX at e
  cases cur with
  | none =>
    cases e
    simp only [collectFinishX] at ha ⊢
    refine ⟨?_, ?_⟩
    · intro s hs l hl
      rcases List.mem_append.1 hs with hs | hs
      · exact ha s hs l hl
      · rw [List.mem_singleton.1 hs] at hl
        rw [List.mem_singleton.1 hl]
        exact hi
    · rintro (⟨s, hs, l, hl, hn⟩ | hn)
      · exact ⟨s, List.mem_append_left _ hs, l, hl, hn⟩
      · exact ⟨XSubtitle.ofRaw i, by simp, XLine.ofRaw i, by simp [XSubtitle.ofRaw], hn⟩
  | some cur =>
    simp only at e
    obtain ⟨same, hs, e⟩ := bind_eq_ok.1 e
    simp only [collectFinishX] at ha
    have hcur : ∀ l ∈ cur.lines, l.vprop ≠ none ∧ l.vpos.ref ≠ none := fun l hl => ha cur (by simp) l hl
    have hdone : ∀ s ∈ done, ∀ l ∈ s.lines, l.vprop ≠ none ∧ l.vpos.ref ≠ none := fun s hs l hl => ha s (by simp [hs]) l hl
    -- a subtitle that has the lines of `cur`, or in place of the last one with the same place, and perhaps one more
    have fin : ∀ cur' : XSubtitle, (∀ l ∈ cur'.lines, l.vprop ≠ none ∧ l.vpos.ref ≠ none) → ((∃ l ∈ cur.lines, Nowhere l.vpos l.vprop) ∨ Nowhere i.raw.vpos i.vprop → ∃ l ∈ cur'.lines, Nowhere l.vpos l.vprop) →
        AllPlaced (collectFinishX (done, some cur')) ∧ (HasNowhere (collectFinishX (done, some cur)) ∨ Nowhere i.raw.vpos i.vprop → HasNowhere (collectFinishX (done, some cur'))) := by
      intro cur' h1 h2
      simp only [collectFinishX]
      refine ⟨?_, ?_⟩
      · intro s hs l hl
        rcases List.mem_append.1 hs with hs | hs
        · exact hdone s hs l hl
        · rw [List.mem_singleton.1 hs] at hl
          exact h1 l hl
      · have new : (∃ l ∈ cur'.lines, Nowhere l.vpos l.vprop) → HasNowhere (done ++ [cur']) := fun ⟨l, hl, hn⟩ => ⟨cur', by simp, l, hl, hn⟩
        rintro (⟨s, hs, l, hl, hn⟩ | hn)
        · rcases List.mem_append.1 hs with hs | hs
          · exact ⟨s, List.mem_append_left _ hs, l, hl, hn⟩
          · rw [List.mem_singleton.1 hs] at hl
            exact new (h2 (.inl ⟨l, hl, hn⟩))
        · exact new (h2 (.inr hn))
    have addLine : AllPlaced (collectFinishX (done, some { cur with lines := cur.lines ++ [XLine.ofRaw i] })) ∧
        (HasNowhere (collectFinishX (done, some cur)) ∨ Nowhere i.raw.vpos i.vprop → HasNowhere (collectFinishX (done, some { cur with lines := cur.lines ++ [XLine.ofRaw i] }))) := by
      refine fin _ ?_ ?_
      · intro l hl
        rcases List.mem_append.1 hl with hl | hl
        · exact hcur l hl
        · rw [List.mem_singleton.1 hl]; exact hi
      · rintro (⟨l, hl, hn⟩ | hn)
        · exact ⟨l, List.mem_append_left _ hl, hn⟩
        · exact ⟨XLine.ofRaw i, by simp, hn⟩
    cases same with
    | false =>
      cases e
      simp only [collectFinishX]
      refine ⟨?_, ?_⟩
      · intro s hs l hl
        rcases List.mem_append.1 hs with hs | hs
        · exact ha s hs l hl
        · rw [List.mem_singleton.1 hs] at hl
          rw [List.mem_singleton.1 hl]
          exact hi
      · rintro (⟨s, hs, l, hl, hn⟩ | hn)
        · exact ⟨s, List.mem_append_left _ hs, l, hl, hn⟩
        · exact ⟨XSubtitle.ofRaw i, by simp, XLine.ofRaw i, by simp [XSubtitle.ofRaw], hn⟩
    | true =>
      simp only [if_true] at e
      cases hg : cur.lines.getLast? with
      | none =>
        rw [hg] at e
        cases e
        exact addLine
      | some l =>
        rw [hg] at e
        simp only at e
        have hmem : l ∈ cur.lines := List.mem_of_getLast? hg
        have hdl : cur.lines = cur.lines.dropLast ++ [l] := by
          obtain ⟨ys, hys⟩ := List.getLast?_eq_some_iff.1 hg
          rw [hys, List.dropLast_concat]
        by_cases hm : l.sameMetadata i = true
        · rw [if_pos hm] at e
          cases e
          refine fin _ ?_ ?_
          · intro l' hl'
            rcases List.mem_append.1 hl' with hl' | hl'
            · exact hcur l' (List.mem_of_mem_dropLast hl')
            · rw [List.mem_singleton.1 hl']; exact hcur l hmem
          · rintro (⟨l', hl', hn⟩ | hn)
            · rw [hdl] at hl'
              rcases List.mem_append.1 hl' with hl' | hl'
              · exact ⟨l', List.mem_append_left _ hl', hn⟩
              · rw [List.mem_singleton.1 hl'] at hn
                exact ⟨_, List.mem_append_right _ (List.mem_singleton.2 rfl), hn⟩
            · exact ⟨_, List.mem_append_right _ (List.mem_singleton.2 rfl), same_nowhere (hcur l hmem) hi hm hn⟩
        · rw [if_neg hm] at e
          cases e
          exact addLine

private theorem loop_nowhere : ∀ (is : List XRaw) (st st' : List XSubtitle × Option XSubtitle), (∀ i ∈ is, i.vprop ≠ none ∧ i.raw.vpos.ref ≠ none) → AllPlaced (collectFinishX st) →
    collectLoopX st is = .ok st' → (HasNowhere (collectFinishX st) ∨ ∃ i ∈ is, Nowhere i.raw.vpos i.vprop) → HasNowhere (collectFinishX st')
  | [], st, st', _, _, e, h => by
    cases e
    rcases h with h | ⟨i, hi, -⟩
    · exact h
    · cases hi
  | i :: is, st, st', hp, ha, e, h => by
    rw [collectLoopX] at e
    obtain ⟨st1, e1, e⟩ := bind_eq_ok.1 e
    obtain ⟨a, b⟩ := step_nowhere (hp i (by simp)) ha e1
    refine loop_nowhere is st1 st' (fun j hj => hp j (by simp [hj])) a e ?_
    rcases h with h | ⟨j, hj, hn⟩
    · exact .inl (b (.inl h))
    · rcases List.mem_cons.1 hj with rfl | hj
      · exact .inl (b (.inr hn))
      · exact .inr ⟨j, hj, hn⟩

/-- C146: where every raw subtitle has a proportional place, as in SSA files, one of them at a place that is no number is enough: no file is written. -/
theorem C146_unwritten (fps : ℚ) (raws : List XRaw) (out : List XSubtitle) (bs : List Str) (h : ∀ r ∈ raws, r.vprop ≠ none ∧ r.raw.vpos.ref ≠ none) (e : collectX raws = .ok out)
    (r : XRaw) (hr : r ∈ raws) (hn : Nowhere r.raw.vpos r.vprop) : makeTtiBlocksX fps out ≠ .ok bs := by
  unfold collectX at e
  obtain ⟨sorted, hs, e⟩ := bind_eq_ok.1 e
  obtain ⟨hs', -⟩ := stableSortX_ok hs
  obtain ⟨st, hst, e⟩ := bind_eq_ok.1 e
  cases e
  subst hs'
  obtain ⟨s, h1, l, h2, h3⟩ := loop_nowhere _ ([], none) st (fun i hi => h i ((sortX_perm raws).mem_iff.1 hi)) (by intro s hs; simp [collectFinishX] at hs) hst
    (.inr ⟨r, (sortX_perm raws).mem_iff.2 hr, hn⟩)
  exact fun hb => tti_nowhere _ bs hb s h1 l h2 h3

/-- The second of two, at the same infinite place as the first, joins its line. -/
example : ∃ raws : List XRaw, (∀ r ∈ raws, r.vprop ≠ none ∧ r.raw.vpos.ref ≠ none) ∧ (∀ r ∈ raws, Nowhere r.raw.vpos r.vprop) ∧ (collectX raws).toOption.map (List.map fun s => s.lines.map fun l => l.blocks.length) = some [[2]] :=
  ⟨[{ raw := { text := b!"a", vpos := { ref := some .topOfScreen } }, vprop := some (.inf true) }, { raw := { text := b!"b", vpos := { ref := some .topOfScreen } }, vprop := some (.inf true) }], by decide +kernel,
    fun r hr => by
      simp only [List.mem_cons, List.not_mem_nil, or_false] at hr
      rcases hr with rfl | rfl <;> exact ⟨.inr ⟨true, rfl⟩, by decide⟩, by decide +kernel⟩

/-- C146: so it is for SSA files. -/
theorem C146_ssa (fps : ℚ) (lines : List Str) (f : SsaReadX) (out : List XSubtitle) (bs : List Str) (h : ssaLinesX {} lines = .ok f) (e : collectX f.subs = .ok out)
    (r : XRaw) (hr : r ∈ f.subs) (hn : Nowhere r.raw.vpos r.vprop) : makeTtiBlocksX fps out ≠ .ok bs :=
  C146_unwritten fps f.subs out bs (C139_ssa lines f h).1 e r hr hn

example : (((ssaLinesX {} (linesOfString (exItalics b!"0"))).toOption.map fun r => (r.subs.map fun s => (s.vprop, s.raw.vpos.ref)))) = some [(some .nan, some .bottomOfScreen), (some .nan, some .bottomOfScreen)] := by decide +kernel

/-! ### Cases -/

/-- C146: such a file as `dumpsubs` shows it.  The model without infinities has no outcome for it. -/
theorem C146_witness :
    (match dumpsubsX (fun _ => .file exSrtNowhere) [b!"x.srt"] with | .done out => some out | _ => none) =
      some b!"Subtitle 0 at 00:00:01:0 @ 1000/1 -> 00:00:02:0 @ 1000/1\n\t-inf of screen from top\ta\n\tnan of screen from top\tb\n\tnan of screen from top\t<i>c</i>\n\t0.5 of screen from top\td\n" ∧
    (match dumpsubs (fun _ => .file exSrtNowhere) [b!"x.srt"] with | .failed e out => some (e, out) | _ => none) = some (.unmodelled, []) ∧
    (ssaReadStringX (exItalics b!"0") >>= fun raws => collectX raws >>= makeTtiBlocksX 25) = .error (.ub .floatToInt) := by decide +kernel

end LibSub
