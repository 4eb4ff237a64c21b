/-
Property C122: what `dumpsubs` writes, exactly.
-/
import Verif.Props.DumpTool
import Verif.Props.StlTextReport
import Verif.Props.StlMetadata
import Verif.Props.SubRipExact
import Verif.Props.StlTextExact
import Verif.Props.StlExact
import Verif.Props.CollectExact
import Verif.Props.Collectable

namespace LibSub

/-! ### Specification -/

/-- A number in decimal notation. -/
def numberText (n : Int) : Str := if n < 0 then 45 :: decSpec n.natAbs else decSpec n.natAbs

/-- A number with a zero before it if it is a single digit. -/
def pairText (n : Int) : Str := if 0 ≤ n ∧ n < 10 then 48 :: numberText n else numberText n

/-- How a time is written: hours, minutes, seconds and frames, all of the sign of the time, and the rate if there is one. -/
inductive TimeText : Time → Str → Prop where
  | bare (h m s f : Int) : (0 ≤ h ∧ 0 ≤ m ∧ 0 ≤ s) ∨ (h ≤ 0 ∧ m ≤ 0 ∧ s ≤ 0) → m.natAbs < 60 → s.natAbs < 60 →
      TimeText ⟨3600 * h + 60 * m + s, f, none⟩ (pairText h ++ b!":" ++ pairText m ++ b!":" ++ pairText s ++ b!":" ++ numberText f)
  | rated (h m s f a b : Int) : (0 ≤ h ∧ 0 ≤ m ∧ 0 ≤ s) ∨ (h ≤ 0 ∧ m ≤ 0 ∧ s ≤ 0) → m.natAbs < 60 → s.natAbs < 60 →
      TimeText ⟨3600 * h + 60 * m + s, f, some ⟨a, b⟩⟩
        (pairText h ++ b!":" ++ pairText m ++ b!":" ++ pairText s ++ b!":" ++ numberText f ++ b!" @ " ++ numberText a ++ b!"/" ++ numberText b)

/-- The height of a line; the proportion of the screen is written as C106 says. -/
inductive HeightText : VPos → Str → Prop where
  | part (p : Rat) (l n : Option Int) (r : Option VRef) : HeightText ⟨some p, l, n, r⟩ (showFloat p ++ b!" of screen")
  | rows (l n : Int) (r : Option VRef) : HeightText ⟨none, some l, some n, r⟩ (numberText l ++ b!" lines of " ++ numberText n)
  | noLine (n : Option Int) (r : Option VRef) : HeightText ⟨none, none, n, r⟩ []
  | noLines (l : Option Int) (r : Option VRef) : HeightText ⟨none, l, none, r⟩ []

/-- What the height is measured from. -/
def originText : Option VRef → Str
  | none => []
  | some .topOfScreen => b!" from top"
  | some .centreOfScreen => b!" from centre"
  | some .bottomOfScreen => b!" from bottom"
  | some .topOfSubtitle => b!" from top of subtitle"

/-- What is written where a style goes from off or on to off or on. -/
def switchText (on off : Str) : Bool → Bool → Str
  | false, true => on
  | true, false => off
  | _, _ => []

/-- The blocks of a line, with the changes between them of italics and underlining, off before the line and after it. -/
inductive BlocksText : Bool → Bool → List Block → Str → Prop where
  | done (i u : Bool) : BlocksText i u [] (switchText b!"<i>" b!"</i>" i false ++ switchText b!"<u>" b!"</u>" u false)
  | block (i u : Bool) (k : Block) (ks : List Block) (x : Str) : BlocksText k.italic k.underline ks x →
      BlocksText i u (k :: ks) (switchText b!"<i>" b!"</i>" i k.italic ++ switchText b!"<u>" b!"</u>" u k.underline ++ k.text ++ x)

/-- A line. -/
inductive LineText : Line → Str → Prop where
  | line (l : Line) (h x : Str) : HeightText l.vpos h → BlocksText false false l.blocks x →
      LineText l (b!"\t" ++ h ++ originText l.vpos.ref ++ b!"\t" ++ x ++ b!"\n")

/-- Subtitles, numbered from `n`. -/
inductive SubtitlesText : Nat → List Subtitle → Str → Prop where
  | none (n : Nat) : SubtitlesText n [] []
  | subtitle (n : Nat) (s : Subtitle) (ss : List Subtitle) (a b : Str) (ls : List Str) (x : Str) : TimeText s.from_ a → TimeText s.to_ b → List.Forall₂ LineText s.lines ls →
      SubtitlesText (n + 1) ss x →
      SubtitlesText n (s :: ss) (b!"Subtitle " ++ decSpec n ++ b!" at " ++ a ++ b!" -> " ++ b ++ b!"\n" ++ ls.flatten ++ x)

/-- The subtitles that raw subtitles stand for, in the order of their start times (C121). -/
def Grouped (raws : List Raw) (subs : List Subtitle) : Prop := ∃ sorted, StablySorted raws sorted ∧ SubtitlesFor sorted subs

/-- The header of a binary STL file in the order of the names of its fields.  (No file has the group `utf8`: the code `U8` is taken for Hebrew, `C90_utf8_witness`.) -/
def HeaderText (i : StlInfo) (x : Str) : Prop :=
  ∃ standard group language status,
    (i.displayStandard, standard) ∈ [(DisplayStandard.undefined, b!"Undefined"), (.openSubtitling, b!"Open subtitling"), (.level1Teletext, b!"Level 1 teletext"), (.level2Teletext, b!"Level 2 teletext")] ∧
    (i.languageGroup, group) ∈ [(LanguageGroup.latin, b!"Latin"), (.latinCyrillic, b!"Latin/Cyrillic"), (.latinArabic, b!"Latin/Arabic"), (.latinGreek, b!"Latin/Greek"), (.latinHebrew, b!"Latin/Hebrew"), (.utf8, [])] ∧
    (∃ code, (code, i.language, language) ∈ languageTable) ∧
    (i.timecodeStatus, status) ∈ [(TimecodeStatus.notIntendedForUse, b!"Not intended for use"), (.intendedForUse, b!"Intended for use")] ∧
    x = unlines [
      b!"Code page number: " ++ numberText i.codePageNumber,
      b!"Country of origin: " ++ i.countryOfOrigin,
      b!"Creation date: " ++ i.creationDate,
      b!"Disk sequence number: " ++ numberText i.diskSequenceNumber,
      b!"Disks: " ++ numberText i.disks,
      b!"Display standard: " ++ standard,
      b!"Editor contact details: " ++ i.editorContactDetails,
      b!"Editor name: " ++ i.editorName,
      b!"First in cue: " ++ i.firstInCue,
      b!"Frame rate: " ++ numberText i.frameRate,
      b!"Language: " ++ language,
      b!"Language group: " ++ group,
      b!"Maximum characters: " ++ numberText i.maximumCharacters,
      b!"Maximum rows: " ++ numberText i.maximumRows,
      b!"Number of subtitles: " ++ numberText i.numberOfSubtitles,
      b!"Original episode title: " ++ i.originalEpisodeTitle,
      b!"Original programme title: " ++ i.originalProgrammeTitle,
      b!"Publisher: " ++ i.publisher,
      b!"Revision date: " ++ i.revisionDate,
      b!"Revision number: " ++ i.revisionNumber,
      b!"Start of programme: " ++ i.startOfProgramme,
      b!"Subtitle groups: " ++ numberText i.subtitleGroups,
      b!"Subtitle list reference code: " ++ i.subtitleListReferenceCode,
      b!"TTI blocks: " ++ numberText i.ttiBlocks,
      b!"Timecode status: " ++ status,
      b!"Translated episode title: " ++ i.translatedEpisodeTitle,
      b!"Translated programme title: " ++ i.translatedProgrammeTitle,
      b!"Translator contact details: " ++ i.translatorContactDetails,
      b!"Translator name: " ++ i.translatorName]

/-- The bytes of binary STL: `STL` after the first three, and at least eleven. -/
def LooksBinary (s : Str) : Prop := ∃ a b, s = a ++ b!"STL" ++ b ∧ a.length = 3 ∧ 5 ≤ b.length

/-- The path ends in a dot and the letters `w`, of either case. -/
def HasExtension (path w : Str) : Prop := ∃ pre e, path = pre ++ 46 :: e ∧ toLower e = w

/-- What is written for a file of a name. -/
inductive Dumped (path : Str) : Entry → Str → Prop where
  /-- SubRip -/
  | subrip (s : Str) (raws : List Raw) (subs : List Subtitle) (x : Str) : HasExtension path b!"srt" → SrtFile ((linesOfFile s).map cleanLine) raws → Grouped raws subs →
      SubtitlesText 0 subs x → Dumped path (.file s) x
  /-- binary STL: the header, then the subtitles -/
  | binary (s : Str) (info : StlInfo) (raws : List Raw) (subs : List Subtitle) (h x : Str) : HasExtension path b!"stl" → LooksBinary s → StlFile s info raws → HeaderText info h →
      Grouped raws subs → SubtitlesText 0 subs x → Dumped path (.file s) (h ++ x)
  /-- STL text: what the reader has to say of its lines (C110), then the subtitles -/
  | text (ls : List Str) (last : Str) (raws : List Raw) (subs : List Subtitle) (rs : List (List Str)) (x : Str) : HasExtension path b!"stl" →
      (∀ l ∈ ls, (10 : Byte) ∉ l) → (10 : Byte) ∉ last → ¬ LooksBinary (unlines ls ++ last) → 11 ≤ (unlines ls ++ last).length → StlTextFile (unlines ls ++ last) raws →
      List.Forall₂ (fun l r => Reports (trim l) r) ls rs → Grouped raws subs → SubtitlesText 0 subs x → Dumped path (.file (unlines ls ++ last)) (unlines rs.flatten ++ x)
  /-- STL of fewer than eleven bytes: nothing -/
  | short (s : Str) : HasExtension path b!"stl" → s.length < 11 → Dumped path (.file s) []
  /-- STL that cannot be opened: nothing -/
  | unreadable : HasExtension path b!"stl" → Dumped path .unreadable []

/-! ### Proofs -/

theorem numberText_eq (n : Int) : intDec n = numberText n := by
  unfold intDec numberText
  rw [natDec_eq_decSpec]

private theorem pair_eq (n : Int) : setwPad 2 n = pairText n := by
  unfold setwPad pairText
  rw [← numberText_eq]
  simp only
  split
  · rename_i h
    obtain ⟨k, rfl⟩ : ∃ k : Nat, n = k := ⟨n.toNat, by omega⟩
    have : intDec (k : Int) = natDec k := by unfold intDec; rw [if_neg (by omega)]; rfl
    rw [this, natDec_lt (by omega)]
    rfl
  · rename_i h
    have : 2 ≤ (intDec n).length := by
      unfold intDec
      split
      · have := natDec_length_pos n.natAbs
        simp; omega
      · rw [natDec_ge (by omega), List.length_append]
        have := natDec_length_pos (n.natAbs / 10)
        simp; omega
    rw [show 2 - (intDec n).length = 0 by omega]
    rfl

private theorem tdiv_of (a b q r : Int) (hb : 0 < b) (h : a = b * q + r) (hs : (0 ≤ q ∧ 0 ≤ r) ∨ (q ≤ 0 ∧ r ≤ 0)) (hr : r.natAbs < b) : a.tdiv b = q := by
  have key : ∀ a q r : Int, a = b * q + r → 0 ≤ q → 0 ≤ r → r < b → a.tdiv b = q := by
    intro a q r h h1 h2 h3
    subst h
    rw [Int.tdiv_eq_ediv_of_nonneg (by positivity), Int.mul_add_ediv_left _ _ (by omega), Int.ediv_eq_zero_of_lt h2 h3]
    omega
  rcases hs with ⟨h1, h2⟩ | ⟨h1, h2⟩
  · exact key a q r h h1 h2 (by omega)
  · have := key (-a) (-q) (-r) (by rw [h]; ring) (by omega) (by omega) (by omega)
    rw [Int.neg_tdiv] at this
    omega

private theorem hms (h m s f : Int) (r : Option FRate) (hs : (0 ≤ h ∧ 0 ≤ m ∧ 0 ≤ s) ∨ (h ≤ 0 ∧ m ≤ 0 ∧ s ≤ 0)) (hm : m.natAbs < 60) (hs' : s.natAbs < 60) :
    Time.hours ⟨3600 * h + 60 * m + s, f, r⟩ = h ∧ Time.minutes ⟨3600 * h + 60 * m + s, f, r⟩ = m ∧ Time.seconds ⟨3600 * h + 60 * m + s, f, r⟩ = s := by
  have h1 : Time.hours ⟨3600 * h + 60 * m + s, f, r⟩ = h := by
    exact tdiv_of _ 3600 h (60 * m + s) (by decide) (by ring) (by omega) (by omega)
  have h2 : Time.minutes ⟨3600 * h + 60 * m + s, f, r⟩ = m := by
    unfold Time.minutes
    rw [h1]
    exact tdiv_of _ 60 m s (by decide) (by simp only; ring) (by omega) (by omega)
  refine ⟨h1, h2, ?_⟩
  simp only [Time.seconds, h1, h2]; omega

theorem timeText_iff (t : Time) (x : Str) : TimeText t x ↔ x = timeToStr t := by
  constructor
  · intro h
    cases h with
    | bare h m s f h1 h2 h3 =>
      obtain ⟨a1, a2, a3⟩ := hms h m s f none h1 h2 h3
      unfold timeToStr
      rw [a1, a2, a3, pair_eq, pair_eq, pair_eq, numberText_eq]
      simp
    | rated h m s f a b h1 h2 h3 =>
      obtain ⟨a1, a2, a3⟩ := hms h m s f (some ⟨a, b⟩) h1 h2 h3
      unfold timeToStr
      rw [a1, a2, a3, pair_eq, pair_eq, pair_eq]
      simp only [numberText_eq]
      simp
  · rintro rfl
    obtain ⟨secs, f, r⟩ := t
    obtain ⟨h, m, s, rfl, hs, h2, h3⟩ : ∃ h m s : Int, secs = 3600 * h + 60 * m + s ∧ ((0 ≤ h ∧ 0 ≤ m ∧ 0 ≤ s) ∨ (h ≤ 0 ∧ m ≤ 0 ∧ s ≤ 0)) ∧ m.natAbs < 60 ∧ s.natAbs < 60 := by
      rcases Int.le_total 0 secs with h | h
      · exact ⟨secs / 3600, secs % 3600 / 60, secs % 60, by omega, by omega, by omega, by omega⟩
      · exact ⟨-(-secs / 3600), -(-secs % 3600 / 60), -(-secs % 60), by omega, by omega, by omega, by omega⟩
    obtain ⟨a1, a2, a3⟩ := hms h m s f r hs h2 h3
    unfold timeToStr
    rw [a1, a2, a3, pair_eq, pair_eq, pair_eq]
    simp only [numberText_eq]
    cases r with
    | none => simpa using TimeText.bare h m s f hs h2 h3
    | some q => simpa using TimeText.rated h m s f q.num q.den hs h2 h3

private theorem height_unique {v : VPos} {x y : Str} (hx : HeightText v x) (hy : HeightText v y) : x = y := by
  cases hx <;> cases hy <;> rfl

private theorem place (v : VPos) : ∃ h, HeightText v h ∧ dumpPos showFloat v = b!"\t" ++ h ++ originText v.ref ++ b!"\t" := by
  obtain ⟨p, l, n, r⟩ := v
  have ho : ∀ h : Str, b!"\t" ++ h ++ (match r with | some r => b!" from " ++ vrefText r | none => []) ++ b!"\t" = b!"\t" ++ h ++ originText r ++ b!"\t" := by
    intro h
    cases r with
    | none => rfl
    | some r => cases r <;> rfl
  cases p with
  | some p => exact ⟨_, .part p l n r, ho _⟩
  | none =>
    cases l with
    | none => exact ⟨_, .noLine n r, ho _⟩
    | some l =>
      cases n with
      | none => exact ⟨_, .noLines (some l) r, ho _⟩
      | some n =>
        refine ⟨_, .rows l n r, ?_⟩
        rw [← numberText_eq, ← numberText_eq]
        exact ho _

theorem blocksText_iff (ks : List Block) : ∀ (i u : Bool) (x : Str), BlocksText i u ks x ↔ x = dumpBlocks i u ks := by
  have sw : ∀ (on off : Str) (a b : Bool), (if b && !a then on else if a && !b then off else []) = switchText on off a b := by
    intro on off a b; cases a <;> cases b <;> rfl
  induction ks with
  | nil =>
    intro i u x
    constructor
    · intro h; cases h; cases i <;> cases u <;> rfl
    · rintro rfl
      have : dumpBlocks i u [] = switchText b!"<i>" b!"</i>" i false ++ switchText b!"<u>" b!"</u>" u false := by cases i <;> cases u <;> rfl
      rw [this]; exact .done i u
  | cons k ks ih =>
    intro i u x
    rw [dumpBlocks, sw, sw]
    constructor
    · intro h
      cases h with
      | block _ _ _ _ y hy => rw [(ih _ _ _).1 hy]
    · rintro rfl
      exact .block i u k ks _ ((ih _ _ _).2 rfl)

private theorem line_iff (l : Line) (x : Str) : LineText l x ↔ x = dumpLine showFloat l := by
  obtain ⟨h, hh, e⟩ := place l.vpos
  unfold dumpLine
  rw [e]
  constructor
  · intro hx
    cases hx with
    | line h' y h1 h2 => rw [height_unique h1 hh, (blocksText_iff _ _ _ _).1 h2]
  · rintro rfl
    exact .line l h _ hh ((blocksText_iff _ _ _ _).2 rfl)

private theorem lines_iff (ls : List Line) (xs : List Str) : List.Forall₂ LineText ls xs ↔ xs = ls.map (dumpLine showFloat) := by
  induction ls generalizing xs with
  | nil => simp
  | cons l ls ih =>
    constructor
    · intro h
      cases h with
      | cons h1 h2 => rw [(line_iff _ _).1 h1, (ih _).1 h2]; rfl
    · rintro rfl
      exact .cons ((line_iff _ _).2 rfl) ((ih _).2 rfl)

private theorem subs_iff (ss : List Subtitle) : ∀ (n : Nat) (x : Str), SubtitlesText n ss x ↔ x = dumpSubs showFloat n ss := by
  induction ss with
  | nil =>
    intro n x
    constructor
    · intro h; cases h; rfl
    · rintro rfl; exact .none n
  | cons s ss ih =>
    intro n x
    rw [dumpSubs, natDec_eq_decSpec]
    constructor
    · intro h
      cases h with
      | subtitle _ _ _ a b ls y h1 h2 h3 h4 => rw [(timeText_iff _ _).1 h1, (timeText_iff _ _).1 h2, (lines_iff _ _).1 h3, (ih _ _).1 h4]
    · rintro rfl
      exact .subtitle n s ss _ _ _ _ ((timeText_iff _ _).2 rfl) ((timeText_iff _ _).2 rfl) ((lines_iff _ _).2 rfl) ((ih _ _).2 rfl)

private theorem language_iff (l : Language) (x : Str) : (∃ code, (code, l, x) ∈ languageTable) ↔ x = languageDescription l := by
  have h1 : ∀ r ∈ languageTable, r.2.2 = languageDescription r.2.1 := by decide +kernel
  constructor
  · rintro ⟨code, h⟩
    exact h1 _ h
  · rintro rfl
    have : ∃ r ∈ languageTable, r.2.1 = l := by cases l <;> decide +kernel
    obtain ⟨⟨c, l', d⟩, hr, rfl⟩ := this
    exact ⟨c, by have := h1 _ hr; simp only at this; rw [← this]; exact hr⟩

private theorem header_iff (i : StlInfo) (x : Str) : HeaderText i x ↔ x = ((stlMetadataSorted i).map (fun kv => kv.1 ++ b!": " ++ kv.2 ++ b!"\n")).flatten := by
  have hs : ∀ (s : DisplayStandard) (x : Str), (s, x) ∈ [(DisplayStandard.undefined, b!"Undefined"), (.openSubtitling, b!"Open subtitling"), (.level1Teletext, b!"Level 1 teletext"), (.level2Teletext, b!"Level 2 teletext")] ↔ x = displayStandardDescription s := by
    intro s x
    have : displayStandardDescription s = (match s with | .undefined => b!"Undefined" | .openSubtitling => b!"Open subtitling" | .level1Teletext => b!"Level 1 teletext" | .level2Teletext => b!"Level 2 teletext") := by
      cases s <;> decide +kernel
    rw [this]
    cases s <;> simp
  have hg : ∀ (s : LanguageGroup) (x : Str), (s, x) ∈ [(LanguageGroup.latin, b!"Latin"), (.latinCyrillic, b!"Latin/Cyrillic"), (.latinArabic, b!"Latin/Arabic"), (.latinGreek, b!"Latin/Greek"), (.latinHebrew, b!"Latin/Hebrew"), (.utf8, [])] ↔ x = languageGroupDescription s := by
    intro s x
    have : languageGroupDescription s = (match s with | .latin => b!"Latin" | .latinCyrillic => b!"Latin/Cyrillic" | .latinArabic => b!"Latin/Arabic" | .latinGreek => b!"Latin/Greek" | .latinHebrew => b!"Latin/Hebrew" | .utf8 => []) := by
      cases s <;> decide +kernel
    rw [this]
    cases s <;> simp
  have ht : ∀ (s : TimecodeStatus) (x : Str), (s, x) ∈ [(TimecodeStatus.notIntendedForUse, b!"Not intended for use"), (.intendedForUse, b!"Intended for use")] ↔ x = timecodeStatusDescription s := by
    intro s x
    have : timecodeStatusDescription s = (match s with | .notIntendedForUse => b!"Not intended for use" | .intendedForUse => b!"Intended for use") := by
      cases s <;> decide +kernel
    rw [this]
    cases s <;> simp
  unfold HeaderText
  simp only [hs, hg, ht, language_iff, ← numberText_eq]
  rw [stlMetadataSorted_eq]
  simp only [unlines, List.map_cons, List.map_nil, List.append_assoc, List.cons_append, List.nil_append]
  exact ⟨fun ⟨_, _, _, _, h1, h2, h3, h4, h5⟩ => by subst h1 h2 h3 h4; exact h5, fun h => ⟨_, _, _, _, rfl, rfl, rfl, rfl, h⟩⟩

theorem hasExtension_iff (path w : Str) (h1 : (47 : Byte) ∉ w) (h2 : (46 : Byte) ∉ w) (h3 : w ≠ []) : HasExtension path w ↔ toLower (extension path) = 46 :: w := by
  constructor
  · rintro ⟨pre, e, rfl, h⟩
    exact ext_of pre e w h h1 h2 h3
  · intro h
    rcases extension_cases path with he | ⟨pre, e, hp, he⟩
    · rw [he] at h; cases h
    · rw [he] at h
      exact ⟨pre, e, hp, (List.cons.inj h).2⟩

private theorem binary_iff (s : Str) : LooksBinary s ↔ 11 ≤ s.length ∧ (s.drop 3).take 3 = b!"STL" := by
  constructor
  · rintro ⟨a, b, rfl, h1, h2⟩
    refine ⟨by simp; omega, ?_⟩
    rw [List.append_assoc, ← h1, List.drop_left, h1]
    rfl
  · rintro ⟨h1, h2⟩
    refine ⟨s.take 3, s.drop 6, ?_, by simp; omega, by simp; omega⟩
    rw [← h2, List.append_assoc]
    have : s.drop 6 = (s.drop 3).drop 3 := by simp
    rw [this, List.take_append_drop, List.take_append_drop]

private theorem dump_iff (m : List (Str × Str)) (raws : List Raw) (out : Str) : dump showFloat m raws = .ok out ↔
    ∃ subs x, collect raws = .ok subs ∧ SubtitlesText 0 subs x ∧ out = (m.map (fun kv => kv.1 ++ b!": " ++ kv.2 ++ b!"\n")).flatten ++ x := by
  unfold dump
  constructor
  · intro h
    obtain ⟨subs, h1, h2⟩ := bind_eq_ok.1 h
    cases h2
    exact ⟨subs, _, h1, (subs_iff _ _ _).2 rfl, rfl⟩
  · rintro ⟨subs, x, h1, h2, rfl⟩
    rw [h1, ok_bind, (subs_iff _ _ _).1 h2]
    rfl

private theorem done_iff (fs : Str → Entry) (args : List Str) (out : Str) : dumpsubs fs args = .done out ↔
    ∃ path r x, Operands args [path] ∧ fs path ≠ .missing ∧ readerFactory path (fs path).contents = .ok r ∧ r ≠ .none ∧ dump showFloat r.metadata r.subs = .ok x ∧
      out = factoryPrinted path (fs path).contents ++ x := by
  simp only [← args_some]
  unfold dumpsubs
  constructor
  · intro h
    split at h
    · cases h
    · rename_i path ha
      split at h
      · cases h
      · rename_i entry he
        split at h
        · cases h
        · cases h
        · rename_i r hr hn
          split at h
          · rename_i x hx
            cases h
            exact ⟨path, r, x, ha, he, hn, hr, hx, rfl⟩
          · cases h
    · cases h
  · rintro ⟨path, r, x, ha, hm, hr, hn, hx, rfl⟩
    rw [ha]
    simp only
    cases hf : fs path with
    | missing => exact absurd hf hm
    | unreadable =>
      rw [hf] at hr
      simp only [hr]
      cases r <;> simp_all
    | file s =>
      rw [hf] at hr
      simp only [hr]
      cases r <;> simp_all

private theorem ms_kind {raws : List Raw} (h : ∀ r ∈ raws, r.InMs) : ∀ a ∈ raws, ∀ b ∈ raws, a.from_.SameKind b.from_ := by
  intro a ha b hb
  exact .inl ⟨⟨_, (h a ha).1, by decide⟩, ⟨_, (h b hb).1, by decide⟩⟩

private theorem stl_kind {s : Str} {info : StlInfo} {raws : List Raw} (h : stlRead s = .ok (info, raws)) : ∀ a ∈ raws, ∀ b ∈ raws, a.from_.SameKind b.from_ := by
  intro a ha b hb
  obtain ⟨⟨_, _, _, h1⟩, _⟩ := stl_raws h a ha
  obtain ⟨⟨_, _, _, h2⟩, _⟩ := stl_raws h b hb
  exact .inl ⟨⟨_, by rw [h1], by simp⟩, ⟨_, by rw [h2], by simp⟩⟩

private theorem text_kind {s : Str} {raws : List Raw} (h : stlTextRead s = .ok raws) : ∀ a ∈ raws, ∀ b ∈ raws, a.from_.SameKind b.from_ :=
  fun a ha b hb => .inr ⟨(stltext_rates h a ha).1, (stltext_rates h b hb).1⟩

/-- The cases of `reader_factory`. -/
private theorem factory_stl {path : Str} (he : HasExtension path b!"stl") (c : Option Str) :
    (c = none → readerFactory path c = .ok (.stlText []) ∧ factoryPrinted path c = []) ∧
    (∀ s, c = some s → s.length < 11 → readerFactory path c = .ok (.stlText []) ∧ factoryPrinted path c = []) ∧
    (∀ s, c = some s → LooksBinary s → readerFactory path c = (stlRead s).map (fun r => FactoryResult.stlBinary r.1 r.2) ∧ factoryPrinted path c = []) ∧
    (∀ s, c = some s → ¬ LooksBinary s → 11 ≤ s.length → readerFactory path c = (stlTextRead s).map FactoryResult.stlText ∧ factoryPrinted path c = stlTextPrinted s) := by
  have he := (hasExtension_iff path _ (by decide) (by decide) (by decide)).1 he
  refine ⟨?_, ?_, ?_, ?_⟩
  · rintro rfl
    unfold readerFactory factoryPrinted
    simp only
    rw [if_pos he, if_pos he]
    exact ⟨rfl, rfl⟩
  · rintro s rfl h
    unfold readerFactory factoryPrinted
    simp only
    rw [if_pos he, if_pos he, if_neg (by omega), if_neg (by omega)]
    exact ⟨rfl, rfl⟩
  · rintro s rfl h
    obtain ⟨h1, h2⟩ := (binary_iff s).1 h
    unfold readerFactory factoryPrinted
    simp only
    rw [if_pos he, if_pos he, if_pos h1, if_pos h2, if_neg (fun h => h.2 h2)]
    refine ⟨?_, rfl⟩
    cases stlRead s <;> rfl
  · rintro s rfl h h1
    have h2 : (s.drop 3).take 3 ≠ b!"STL" := fun h2 => h ((binary_iff s).2 ⟨h1, h2⟩)
    unfold readerFactory factoryPrinted
    simp only
    rw [if_pos he, if_pos he, if_pos h1, if_neg h2, if_pos ⟨h1, h2⟩]
    refine ⟨?_, rfl⟩
    cases stlTextRead s <;> rfl

theorem readerFactory_srt {path : Str} (he : HasExtension path b!"srt") (c : Option Str) :
    (c = none → readerFactory path c = .error .programming) ∧ (∀ s, c = some s → readerFactory path c = (srtReadFile s).map FactoryResult.subrip) ∧ factoryPrinted path c = [] := by
  have he := (hasExtension_iff path _ (by decide) (by decide) (by decide)).1 he
  refine ⟨?_, ?_, ?_⟩
  · rintro rfl
    unfold readerFactory
    simp only
    rw [if_neg (by rw [he]; decide), if_pos he]
  · rintro s rfl
    unfold readerFactory
    simp only
    rw [if_neg (by rw [he]; decide), if_pos he]
    cases srtReadFile s <;> rfl
  · unfold factoryPrinted
    rw [if_neg (by rw [he]; decide)]

private theorem map_ok {α β : Type} {f : α → β} {x : R α} {y : β} (h : x.map f = .ok y) : ∃ a, x = .ok a ∧ y = f a := by
  cases x with
  | error e => cases h
  | ok a => cases h; exact ⟨a, rfl, rfl⟩

private theorem reports_unique {ls : List Str} {rs rs' : List (List Str)} (h : List.Forall₂ (fun l r => Reports (trim l) r) ls rs) (h' : List.Forall₂ (fun l r => Reports (trim l) r) ls rs') : rs = rs' := by
  induction h generalizing rs' with
  | nil => cases h'; rfl
  | cons a b ih =>
    cases h' with
    | cons c d => rw [C110_unique _ _ _ a c, ih d]

/-- C122: what `dumpsubs` writes when it succeeds. -/
theorem C122_sound (fs : Str → Entry) (args : List Str) (out : Str) (h : dumpsubs fs args = .done out) : ∃ path, Operands args [path] ∧ Dumped path (fs path) out := by
  obtain ⟨path, r, x, ha, hm, hr, hn, hx, rfl⟩ := (done_iff fs args out).1 h
  refine ⟨path, ha, ?_⟩
  obtain ⟨subs, y, hc, hy, rfl⟩ := (dump_iff _ _ _).1 hx
  by_cases e1 : HasExtension path b!"stl"
  · obtain ⟨f1, f2, f3, f4⟩ := factory_stl e1 (fs path).contents
    have nothing : r = .stlText [] → y = [] := by
      rintro rfl
      have : subs = [] := by cases hc; rfl
      subst this
      exact (subs_iff _ _ _).1 hy
    cases hf : fs path with
    | missing => exact absurd hf hm
    | unreadable =>
      rw [hf] at f1 hr
      obtain ⟨g1, g2⟩ := f1 rfl
      rw [g1] at hr
      cases hr
      obtain rfl := nothing rfl
      rw [g2]
      exact .unreadable e1
    | file s =>
      rw [hf] at f2 f3 f4 hr
      by_cases hs : s.length < 11
      · obtain ⟨g1, g2⟩ := f2 s rfl hs
        rw [g1] at hr
        cases hr
        obtain rfl := nothing rfl
        rw [g2]
        exact .short s e1 hs
      · by_cases hb : LooksBinary s
        · obtain ⟨g1, g2⟩ := f3 s rfl hb
          rw [g1] at hr
          obtain ⟨⟨info, raws⟩, k, rfl⟩ := map_ok hr
          rw [g2, List.nil_append]
          exact .binary s info raws subs _ y e1 hb ((C120_exact _ _ _).1 k) ((header_iff _ _).2 rfl) (C121_sound _ _ (stl_kind k) hc) hy
        · obtain ⟨g1, g2⟩ := f4 s rfl hb (by omega)
          rw [g1] at hr
          obtain ⟨raws, k, rfl⟩ := map_ok hr
          obtain ⟨ls, last, rfl, hl, hlast⟩ := lines_of s
          obtain ⟨rs, hrs, hp⟩ := C110_reports ls last hl hlast raws k
          rw [g2, hp]
          show Dumped path _ (unlines rs.flatten ++ y)
          exact .text ls last raws subs rs y e1 hl hlast hb (by omega) ((C119_exact _ _).1 k) hrs (C121_sound _ _ (text_kind k) hc) hy
  · by_cases e2 : HasExtension path b!"srt"
    · obtain ⟨f1, f2, f3⟩ := readerFactory_srt e2 (fs path).contents
      cases hf : fs path with
      | missing => exact absurd hf hm
      | unreadable =>
        rw [hf] at f1 hr
        rw [f1 rfl] at hr
        cases hr
      | file s =>
        rw [hf] at f2 f3 hr
        rw [f2 s rfl] at hr
        obtain ⟨raws, k, rfl⟩ := map_ok hr
        rw [f3]
        show Dumped path _ y
        exact .subrip s raws subs y e2 ((C116_file _ _).1 k) (C121_sound _ _ (ms_kind (srt_inMs k)) hc) hy
    · exfalso
      rw [C73_other path _ (fun pre e hp => ⟨fun h => e1 ⟨pre, e, hp, h⟩, fun h => e2 ⟨pre, e, hp, h⟩⟩)] at hr
      cases hr
      exact hn rfl

/-- C122: `dumpsubs` writes that and nothing else, provided that the times of a SubRip file can be compared. -/
theorem C122_exact (fs : Str → Entry) (args : List Str) (out : Str)
    (hT : ∀ path s raws, Operands args [path] → fs path = .file s → HasExtension path b!"srt" → SrtFile ((linesOfFile s).map cleanLine) raws → TimesCompare raws) :
    dumpsubs fs args = .done out ↔ ∃ path, Operands args [path] ∧ Dumped path (fs path) out := by
  refine ⟨C122_sound fs args out, ?_⟩
  rintro ⟨path, ha, hd⟩
  refine (done_iff fs args out).2 ⟨path, ?_⟩
  generalize hf : fs path = entry at hd
  have empty : HasExtension path b!"stl" → readerFactory path (fs path).contents = .ok (.stlText []) ∧ factoryPrinted path (fs path).contents = [] → fs path ≠ .missing →
      ∃ r x, Operands args [path] ∧ fs path ≠ .missing ∧ readerFactory path (fs path).contents = .ok r ∧ r ≠ .none ∧ dump showFloat r.metadata r.subs = .ok x ∧
      ([] : Str) = factoryPrinted path (fs path).contents ++ x := by
    rintro e ⟨g1, g2⟩ hm
    exact ⟨.stlText [], [], ha, hm, g1, by simp, rfl, by rw [g2]; rfl⟩
  rw [hf] at empty
  cases hd with
  | unreadable e => exact empty e ((factory_stl e none).1 rfl) (by simp)
  | short s e h => exact empty e ((factory_stl e (some s)).2.1 s rfl h) (by simp)
  | subrip s raws subs x e h1 h2 h3 =>
    obtain ⟨f1, f2, f3⟩ := readerFactory_srt e (some s)
    have k := (C116_file _ _).2 h1
    have hc := (C121_exact raws subs (ms_kind (srt_inMs k)) (hT path s raws ha hf e h1)).2 h2
    refine ⟨.subrip raws, out, ha, by simp, ?_, by simp, ?_, ?_⟩
    · show readerFactory path (some s) = _
      rw [f2 s rfl, k]; rfl
    · exact (dump_iff _ _ _).2 ⟨subs, out, hc, h3, rfl⟩
    · show _ = factoryPrinted path (some s) ++ _
      rw [f3]; rfl
  | binary s info raws subs h x e h1 h2 h3 h4 h5 =>
    obtain ⟨g1, g2⟩ := (factory_stl e (some s)).2.2.1 s rfl h1
    have k := (C120_exact _ _ _).2 h2
    have hc := (C121_exact raws subs (stl_kind k) (stl_compare k)).2 h4
    refine ⟨.stlBinary info raws, h ++ x, ha, by simp, ?_, by simp, ?_, ?_⟩
    · show readerFactory path (some s) = _
      rw [g1, k]; rfl
    · exact (dump_iff _ _ _).2 ⟨subs, x, hc, h5, by rw [(header_iff _ _).1 h3]; rfl⟩
    · show _ = factoryPrinted path (some s) ++ _
      rw [g2]; rfl
  | text ls last raws subs rs x e hl hlast hb h11 h2 h3 h4 h5 =>
    obtain ⟨g1, g2⟩ := (factory_stl e (some (unlines ls ++ last))).2.2.2 _ rfl hb h11
    have k := (C119_exact _ _).2 h2
    have hc := (C121_exact raws subs (text_kind k) (stltext_compare k)).2 h4
    obtain ⟨rs', hrs, hp⟩ := C110_reports ls last hl hlast raws k
    obtain rfl := reports_unique hrs h3
    refine ⟨.stlText raws, x, ha, by simp, ?_, by simp, ?_, ?_⟩
    · show readerFactory path (some _) = _
      rw [g1, k]; rfl
    · exact (dump_iff _ _ _).2 ⟨subs, x, hc, h5, rfl⟩
    · show _ = factoryPrinted path (some _) ++ _
      rw [g2, hp]

private def exCueFile : Str := b!"1\n00:00:01,500 --> 00:01:02,003\nHi <i>x</i>\n\n2\n00:00:00,500 --> 01:01:02,003\ny\n"

private def exDump : Str :=
  b!"Subtitle 0 at 00:00:00:500 @ 1000/1 -> 01:01:02:3 @ 1000/1\n\t from top of subtitle\ty\nSubtitle 1 at 00:00:01:500 @ 1000/1 -> 00:01:02:3 @ 1000/1\n\t from top of subtitle\tHi <i>x</i>\n"

private theorem done_of {e : Exit} {out : Str} (h : (match e with | .done s => some s | _ => none) = some out) : e = .done out := by
  cases e <;> simp at h
  rw [h]

/-- A SubRip file with two cues. -/
example : ∃ path, Operands [b!"a.SRT"] [path] ∧ Dumped path (.file exCueFile) exDump := by
  refine (C122_exact (fun _ => .file exCueFile) [b!"a.SRT"] exDump ?_).1 (done_of (by decide +kernel))
  intro path s raws _ hs _ h
  cases hs
  have k := (C116_file _ _).2 h
  have hall : ((srtReadFile exCueFile).toOption.map fun raws => raws.all fun a => raws.all fun b => a.times.all fun t => b.times.all fun u => (t.eq u).toOption.isSome) = some true := by decide +kernel
  rw [k] at hall
  simp only [Except.toOption, Option.map_some, Option.some.injEq, List.all_eq_true] at hall
  intro a ha b hb t ht u hu
  have := hall a ha b hb t ht u hu
  cases e : t.eq u with
  | ok x => exact ⟨x, rfl⟩
  | error e' => rw [e] at this; cases this

/-- An STL text file with a line that is not understood and a negative time. -/
example : ∃ path, Operands [b!"--", b!"a.stl"] [path] ∧ Dumped path (.file b!"hello\n$Italic=True\n-0:-1:-5:0 , 00:00:12:3 ,a|b\n") b!"Unrecognised line hello\nSubtitle 0 at 00:-1:-5:0 -> 00:00:12:3\n\t from top of subtitle\t<i>a</i>\n\t from top of subtitle\t<i>b</i>\n" :=
  C122_sound (fun _ => .file b!"hello\n$Italic=True\n-0:-1:-5:0 , 00:00:12:3 ,a|b\n") _ _ (done_of (by decide +kernel))

/-- C122: when `dumpsubs` fails: a `.srt` file that cannot be opened, means nothing or has times that cannot be compared, or a `.stl` file of at least eleven
bytes that means nothing.  Nothing is printed, except by the reader of STL text. -/
theorem C122_failed (fs : Str → Entry) (args : List Str) (e : Err) (out : Str) (h : dumpsubs fs args = .failed e out) : ∃ path, Operands args [path] ∧
    ((HasExtension path b!"srt" ∧ out = [] ∧ (fs path = .unreadable ∨ ∃ s, fs path = .file s ∧ ∀ raws, SrtFile ((linesOfFile s).map cleanLine) raws → ¬ TimesCompare raws)) ∨
     (HasExtension path b!"stl" ∧ ∃ s, fs path = .file s ∧ 11 ≤ s.length ∧
       ((LooksBinary s ∧ out = [] ∧ ∀ info raws, ¬ StlFile s info raws) ∨ (¬ LooksBinary s ∧ ∀ raws, ¬ StlTextFile s raws)))) := by
  have hok : ∀ {r : FactoryResult} {e : Err}, dump showFloat r.metadata r.subs = .error e → ¬ TimesCompare r.subs := by
    intro r e h hc
    obtain ⟨out, ho⟩ := C121_succeeds _ hc
    unfold dump at h
    rw [ho] at h
    cases h
  unfold dumpsubs at h
  split at h
  · cases h
  · rename_i path ha
    refine ⟨path, (args_some _ _).1 ha, ?_⟩
    split at h
    · cases h
    · rename_i entry hm
      by_cases e1 : HasExtension path b!"stl"
      · right
        refine ⟨e1, ?_⟩
        obtain ⟨f1, f2, f3, f4⟩ := factory_stl e1 (fs path).contents
        have nothing : readerFactory path (fs path).contents = .ok (.stlText []) → False := by
          intro k
          rw [k] at h
          cases h
        cases hf : fs path with
        | missing => exact absurd hf hm
        | unreadable => rw [hf] at f1 nothing; exact (nothing (f1 rfl).1).elim
        | file s =>
          rw [hf] at f2 f3 f4 h nothing
          refine ⟨s, rfl, ?_⟩
          by_cases hs : s.length < 11
          · exact (nothing (f2 s rfl hs).1).elim
          · refine ⟨by omega, ?_⟩
            by_cases hb : LooksBinary s
            · obtain ⟨g1, g2⟩ := f3 s rfl hb
              rw [g1, g2] at h
              cases k : stlRead s with
              | ok p =>
                exfalso
                rw [k] at h
                simp only [Except.map] at h
                split at h
                · cases h
                · rename_i _ hd
                  exact hok hd (stl_compare k)
              | error e' =>
                rw [k] at h
                cases h
                refine .inl ⟨hb, rfl, fun info raws hk => ?_⟩
                rw [(C120_exact _ _ _).2 hk] at k
                cases k
            · obtain ⟨g1, g2⟩ := f4 s rfl hb (by omega)
              rw [g1, g2] at h
              refine .inr ⟨hb, fun raws hk => ?_⟩
              have k := (C119_exact _ _).2 hk
              rw [k] at h
              simp only [Except.map] at h
              split at h
              · cases h
              · rename_i _ hd
                exact hok hd (stltext_compare k)
      · by_cases e2 : HasExtension path b!"srt"
        · left
          obtain ⟨f1, f2, f3⟩ := readerFactory_srt e2 (fs path).contents
          refine ⟨e2, ?_⟩
          rw [f3] at h
          cases hf : fs path with
          | missing => exact absurd hf hm
          | unreadable =>
            rw [hf] at f1 h
            rw [f1 rfl] at h
            cases h
            exact ⟨rfl, .inl rfl⟩
          | file s =>
            rw [hf] at f2 h
            rw [f2 s rfl] at h
            cases k : srtReadFile s with
            | error e' =>
              rw [k] at h
              cases h
              refine ⟨rfl, .inr ⟨s, rfl, fun raws hk => ?_⟩⟩
              rw [(C116_file _ _).2 hk] at k
              cases k
            | ok raws =>
              rw [k] at h
              simp only [Except.map] at h
              split at h
              · cases h
              · rename_i _ hd
                cases h
                refine ⟨rfl, .inr ⟨s, rfl, fun raws' hk => ?_⟩⟩
                rw [(C116_file _ _).2 hk] at k
                cases k
                exact hok hd
        · exfalso
          rw [C73_other path _ (fun pre e hp => ⟨fun h => e1 ⟨pre, e, hp, h⟩, fun h => e2 ⟨pre, e, hp, h⟩⟩)] at h
          cases h
  · cases h

/-- A binary STL file cut short. -/
example : ∃ e out, dumpsubs (fun _ => .file b!"850STL25.01") [b!"a.stl"] = .failed e out := by
  cases h : dumpsubs (fun _ => .file b!"850STL25.01") [b!"a.stl"] with
  | failed e out => exact ⟨e, out, rfl⟩
  | _ =>
    have : (match dumpsubs (fun _ => .file b!"850STL25.01") [b!"a.stl"] with | .failed _ _ => true | _ => false) = true := by decide +kernel
    rw [h] at this
    cases this

end LibSub
