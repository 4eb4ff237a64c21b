/-
Property C90: the metadata of a binary STL file.
-/
import Verif.Props.StlReader
import Verif.Props.StlHeader

namespace LibSub

/-! ### Specification -/

/-- What a field of the header contains. -/
inductive GsiKind where
  | text | number | rate | rows | standard | group | language | status

/-- Codes with their meaning. -/
def gsiCodes : GsiKind → List (Str × Str)
  | .rate => [(b!"STL23.01", b!"23"), (b!"STL24.01", b!"24"), (b!"STL25.01", b!"25"), (b!"STL30.01", b!"30")]
  | .standard => [(b!" ", b!"Undefined"), (b!"0", b!"Open subtitling"), (b!"1", b!"Level 1 teletext"), (b!"2", b!"Level 2 teletext")]
  | .group => [(b!"00", b!"Latin"), (b!"01", b!"Latin/Cyrillic"), (b!"02", b!"Latin/Arabic"), (b!"03", b!"Latin/Greek"), (b!"04", b!"Latin/Hebrew"), (b!"U8", b!"UTF-8")]
  | .status => [(b!"0", b!"Not intended for use"), (b!"1", b!"Intended for use")]
  | .language => languageTable.map (fun r => (r.1, r.2.2))
  | _ => []

/-- The value `v` shows what is in a field with the characters `s`: text as it is, numbers without leading zeros, 12 rows for 99, and codes by their meaning. -/
def GsiKind.Shows (s v : Str) : GsiKind → Prop
  | .text => v = s
  | .number => (∀ c ∈ s, isDigit c = true) → v = decSpec (decVal s)
  | .rows => (∀ c ∈ s, isDigit c = true) → v = decSpec (if decVal s = 99 then 12 else decVal s)
  | k => (s, v) ∈ gsiCodes k

/-- The fields of the header in the order of their names: name, offset, length, kind. -/
def gsiFields : List (Str × Nat × Nat × GsiKind) := [
  (b!"Code page number", 0, 3, .number),
  (b!"Country of origin", 274, 3, .text),
  (b!"Creation date", 224, 6, .text),
  (b!"Disk sequence number", 273, 1, .number),
  (b!"Disks", 272, 1, .number),
  (b!"Display standard", 11, 1, .standard),
  (b!"Editor contact details", 341, 32, .text),
  (b!"Editor name", 309, 32, .text),
  (b!"First in cue", 264, 8, .text),
  (b!"Frame rate", 3, 8, .rate),
  (b!"Language", 14, 2, .language),
  (b!"Language group", 12, 2, .group),
  (b!"Maximum characters", 251, 2, .number),
  (b!"Maximum rows", 253, 2, .rows),
  (b!"Number of subtitles", 243, 5, .number),
  (b!"Original episode title", 48, 32, .text),
  (b!"Original programme title", 16, 32, .text),
  (b!"Publisher", 277, 32, .text),
  (b!"Revision date", 230, 6, .text),
  (b!"Revision number", 236, 2, .text),
  (b!"Start of programme", 256, 8, .text),
  (b!"Subtitle groups", 248, 3, .number),
  (b!"Subtitle list reference code", 208, 16, .text),
  (b!"TTI blocks", 238, 5, .number),
  (b!"Timecode status", 255, 1, .status),
  (b!"Translated episode title", 112, 32, .text),
  (b!"Translated programme title", 80, 32, .text),
  (b!"Translator contact details", 176, 32, .text),
  (b!"Translator name", 144, 32, .text)]

/-! ### Proofs -/

private theorem getString_gsi (out : Str) (off len : Nat) (h : off + len ≤ 1024) : getString (out.take 1024) off len = (out.drop off).take len := by
  unfold getString
  rw [List.drop_take, List.take_take, Nat.min_eq_left (by omega)]

private theorem insert_map (g : Str → Str) (kv : Str × Str) (l : List (Str × Str)) :
    insertKey (kv.1, g kv.2) (l.map (fun x => (x.1, g x.2))) = (insertKey kv l).map (fun x => (x.1, g x.2)) := by
  induction l with
  | nil => rfl
  | cons x l ih =>
    rw [List.map_cons, insertKey, insertKey]
    split
    · rfl
    · rw [ih]; rfl

private theorem sort_map (g : Str → Str) (l : List (Str × Str)) :
    (l.map (fun x => (x.1, g x.2))).foldr insertKey [] = (l.foldr insertKey []).map (fun x => (x.1, g x.2)) := by
  induction l with
  | nil => rfl
  | cons x l ih => rw [List.map_cons, List.foldr_cons, List.foldr_cons, ih, insert_map]

/-- Names with their place in the source. -/
private def metaNames : List (Str × Str) := [(b!"Code page number", [0]), (b!"Frame rate", [1]), (b!"Display standard", [2]), (b!"Language group", [3]), (b!"Language", [4]), (b!"Original programme title", [5]), (b!"Original episode title", [6]), (b!"Translated programme title", [7]), (b!"Translated episode title", [8]), (b!"Translator name", [9]), (b!"Translator contact details", [10]), (b!"Subtitle list reference code", [11]), (b!"Creation date", [12]), (b!"Revision date", [13]), (b!"Revision number", [14]), (b!"TTI blocks", [15]), (b!"Number of subtitles", [16]), (b!"Subtitle groups", [17]), (b!"Maximum characters", [18]), (b!"Maximum rows", [19]), (b!"Timecode status", [20]), (b!"Start of programme", [21]), (b!"First in cue", [22]), (b!"Disks", [23]), (b!"Disk sequence number", [24]), (b!"Country of origin", [25]), (b!"Publisher", [26]), (b!"Editor name", [27]), (b!"Editor contact details", [28])]

private def metaSorted : List (Str × Str) := [(b!"Code page number", [0]), (b!"Country of origin", [25]), (b!"Creation date", [12]), (b!"Disk sequence number", [24]), (b!"Disks", [23]), (b!"Display standard", [2]), (b!"Editor contact details", [28]), (b!"Editor name", [27]), (b!"First in cue", [22]), (b!"Frame rate", [1]), (b!"Language", [4]), (b!"Language group", [3]), (b!"Maximum characters", [18]), (b!"Maximum rows", [19]), (b!"Number of subtitles", [16]), (b!"Original episode title", [6]), (b!"Original programme title", [5]), (b!"Publisher", [26]), (b!"Revision date", [13]), (b!"Revision number", [14]), (b!"Start of programme", [21]), (b!"Subtitle groups", [17]), (b!"Subtitle list reference code", [11]), (b!"TTI blocks", [15]), (b!"Timecode status", [20]), (b!"Translated episode title", [8]), (b!"Translated programme title", [7]), (b!"Translator contact details", [10]), (b!"Translator name", [9])]

private theorem names_sorted : metaNames.foldr insertKey [] = metaSorted := by decide +kernel

private def metaValue (i : StlInfo) (s : Str) : Str := ((stlMetadata i).map (·.2)).getD ((s.headD 0).toNat) []

theorem stlMetadataSorted_eq (i : StlInfo) : stlMetadataSorted i = [(b!"Code page number", intDec i.codePageNumber), (b!"Country of origin", i.countryOfOrigin), (b!"Creation date", i.creationDate), (b!"Disk sequence number", intDec i.diskSequenceNumber), (b!"Disks", intDec i.disks), (b!"Display standard", displayStandardDescription i.displayStandard), (b!"Editor contact details", i.editorContactDetails), (b!"Editor name", i.editorName), (b!"First in cue", i.firstInCue), (b!"Frame rate", intDec i.frameRate), (b!"Language", languageDescription i.language), (b!"Language group", languageGroupDescription i.languageGroup), (b!"Maximum characters", intDec i.maximumCharacters), (b!"Maximum rows", intDec i.maximumRows), (b!"Number of subtitles", intDec i.numberOfSubtitles), (b!"Original episode title", i.originalEpisodeTitle), (b!"Original programme title", i.originalProgrammeTitle), (b!"Publisher", i.publisher), (b!"Revision date", i.revisionDate), (b!"Revision number", i.revisionNumber), (b!"Start of programme", i.startOfProgramme), (b!"Subtitle groups", intDec i.subtitleGroups), (b!"Subtitle list reference code", i.subtitleListReferenceCode), (b!"TTI blocks", intDec i.ttiBlocks), (b!"Timecode status", timecodeStatusDescription i.timecodeStatus), (b!"Translated episode title", i.translatedEpisodeTitle), (b!"Translated programme title", i.translatedProgrammeTitle), (b!"Translator contact details", i.translatorContactDetails), (b!"Translator name", i.translatorName)] := by
  have h : stlMetadata i = metaNames.map (fun x => (x.1, metaValue i x.2)) := rfl
  unfold stlMetadataSorted
  rw [h, sort_map, names_sorted]
  rfl

private theorem number_shows (s : Str) : GsiKind.Shows s (intDec (atoi s)) .number := by
  intro h
  rw [atoi_digits s h, ← natDec_eq_decSpec]
  rfl

private theorem rows_shows (s : Str) : GsiKind.Shows s (intDec (if atoi s = 99 then 12 else atoi s)) .rows := by
  intro h
  rw [atoi_digits s h, ← natDec_eq_decSpec]
  by_cases h9 : decVal s = 99
  · rw [if_pos h9, if_pos (by exact_mod_cast h9)]; rfl
  · rw [if_neg h9, if_neg (by exact_mod_cast h9)]; rfl

private theorem find_row {E : Type} [DecidableEq E] (k : Str) (t : StlTable Str E) (name : Str) (v : E) (h : strToEnum k t name = .ok v) (codes : List (Str × Str))
    (ht : ∀ r ∈ t, (tableFind r.1 t).all (fun v => decide ((r.1, enumToDescription strLt v t) ∈ codes)) = true) : (k, enumToDescription strLt v t) ∈ codes := by
  unfold strToEnum at h
  split at h
  · rename_i v' hf
    cases h
    obtain ⟨d, hd⟩ := tableFind_mem k v t hf
    have := ht _ hd
    rw [hf] at this
    simpa using this
  · cases h

/-- C90 (all but files in UTF-8): the metadata map has one entry for each field of the header, with the value that is in the file. -/
theorem C90_metadata_partial (file : Str) (info : StlInfo) (subs : List Raw) (h : stlRead file = .ok (info, subs)) (hu : (file.drop 12).take 2 ≠ b!"U8") :
    List.Forall₂ (fun (kv : Str × Str) f => kv.1 = f.1 ∧ f.2.2.2.Shows ((file.drop f.2.1).take f.2.2.1) kv.2) (stlMetadataSorted info) gsiFields := by
  have hp := (read_steps h).2.1
  have hrate := (parseGsi_ok hp).1
  unfold parseGsi at hp
  obtain ⟨fr, -, hp⟩ := bind_eq_ok.mp hp
  obtain ⟨frame, -, hp⟩ := bind_eq_ok.mp hp
  obtain ⟨ds, h2, hp⟩ := bind_eq_ok.mp hp
  obtain ⟨lg, h3, hp⟩ := bind_eq_ok.mp hp
  obtain ⟨lang, h4, hp⟩ := bind_eq_ok.mp hp
  simp only [] at hp
  obtain ⟨tc, h5, hp⟩ := bind_eq_ok.mp hp
  cases hp
  simp only [getString_gsi _ _ _ (show 11 + 1 ≤ 1024 by decide), getString_gsi _ _ _ (show 12 + 2 ≤ 1024 by decide),
    getString_gsi _ _ _ (show 14 + 2 ≤ 1024 by decide), getString_gsi _ _ _ (show 255 + 1 ≤ 1024 by decide)] at h2 h3 h4 h5
  have k2 := find_row _ _ _ _ h2 (gsiCodes .standard) (by decide +kernel)
  have k3 := find_row _ _ _ _ h3 ((b!"U8", b!"Latin/Hebrew") :: gsiCodes .group) (by decide +kernel)
  have k4 := find_row _ _ _ _ h4 (gsiCodes .language) (by decide +kernel)
  have k5 := find_row _ _ _ _ h5 (gsiCodes .status) (by decide +kernel)
  have k3 := (List.mem_cons.1 k3).resolve_left (fun e => hu (by injection e))
  have k1 : ((file.drop 3).take 8, intDec frame) ∈ gsiCodes .rate := by
    simp only [List.mem_cons, Prod.mk.injEq, List.not_mem_nil, or_false] at hrate
    rcases hrate with ⟨e, e'⟩ | ⟨e, e'⟩ | ⟨e, e'⟩ | ⟨e, e'⟩ <;> rw [e, e'] <;> decide +kernel
  have txt : ∀ off len, off + len ≤ 1024 → GsiKind.Shows ((file.drop off).take len) (getString (file.take 1024) off len) .text := fun off len h => getString_gsi file off len h
  have num : ∀ off len, off + len ≤ 1024 → GsiKind.Shows ((file.drop off).take len) (intDec (atoi (getString (file.take 1024) off len))) .number := by
    intro off len h
    rw [getString_gsi file off len h]; exact number_shows _
  have rws : GsiKind.Shows ((file.drop 253).take 2) (intDec (if atoi (getString (file.take 1024) 253 2) = 99 then 12 else atoi (getString (file.take 1024) 253 2))) .rows := by
    rw [getString_gsi file 253 2 (by decide)]; exact rows_shows _
  rw [stlMetadataSorted_eq]
  unfold gsiFields
  repeat' first
    | exact List.Forall₂.nil
    | refine List.Forall₂.cons ⟨rfl, ?_⟩ ?_
    | exact txt _ _ (by decide)
    | exact num _ _ (by decide)
    | exact rws
    | exact k1
    | exact k2
    | exact k3
    | exact k4
    | exact k5

/-- C90: the names are all different, and in the order of a `std::map`. -/
theorem C90_names (info : StlInfo) : ((stlMetadataSorted info).map (·.1)).Pairwise (fun a b => strLt a b = true) ∧ (stlMetadataSorted info).Perm (stlMetadata info) := by
  constructor
  · have : (stlMetadataSorted info).map (·.1) = metaSorted.map (·.1) := by rw [stlMetadataSorted_eq]; rfl
    rw [this]
    decide +kernel
  · have ins : ∀ (kv : Str × Str) l, (insertKey kv l).Perm (kv :: l) := by
      intro kv l
      induction l with
      | nil => exact .refl _
      | cons x l ih =>
        rw [insertKey]
        split
        · exact .refl _
        · exact (ih.cons x).trans (.swap _ _ _)
    unfold stlMetadataSorted
    induction stlMetadata info with
    | nil => exact .refl _
    | cons x l ih => rw [List.foldr_cons]; exact (ins _ _).trans (ih.cons x)

example : (stlRead (stlFileDemo b!"00001" [stlBlockDemo 20 0 b!"Hello"])).toOption.isSome = true ∧ ((stlFileDemo b!"00001" [stlBlockDemo 20 0 b!"Hello"]).drop 12).take 2 = b!"00" := by decide +kernel

/-- C90 fails for files in UTF-8: their language group is shown as that of Hebrew. -/
theorem C90_utf8_witness :
    (stlRead ((stlFileDemo b!"00001" [stlBlockDemo 20 0 b!"Hello"]).take 12 ++ b!"U8" ++ (stlFileDemo b!"00001" [stlBlockDemo 20 0 b!"Hello"]).drop 14)).toOption.map
      (fun r => (stlMetadataSorted r.1).lookup b!"Language group") = some (some b!"Latin/Hebrew") := by decide +kernel

end LibSub
