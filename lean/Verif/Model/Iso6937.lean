/-
src/iso6937_tables.cc (the assignments of `make_iso6937_tables`, in source order) and src/iso6937.cc
-/
import Verif.Model.Base

namespace LibSub

/-- `wchar_t` (32 bits on the platforms of interest); values are code points. -/
abbrev WChar := Nat

/-- Assignments to `grave` (src/iso6937_tables.cc:48-57). -/
def isoGrave : List (Byte × WChar) := [
  (65, 0x00C0), (69, 0x00C8), (73, 0x00CC), (79, 0x00D2), (85, 0x00D9), (97, 0x00E0), (101, 0x00E8), (105, 0x00EC),
  (111, 0x00F2), (117, 0x00F9)]

/-- Assignments to `acute` (src/iso6937_tables.cc:59-83). -/
def isoAcute : List (Byte × WChar) := [
  (65, 0x00C1), (67, 0x0106), (69, 0x00C9), (73, 0x00CD), (76, 0x0139), (78, 0x0143), (79, 0x00D3), (82, 0x0154),
  (83, 0x015A), (85, 0x00DA), (89, 0x00DD), (90, 0x0179), (97, 0x00E1), (99, 0x0107), (101, 0x00E9), (103, 0x01F5),
  (105, 0x00ED), (108, 0x013A), (110, 0x0144), (111, 0x00F3), (114, 0x0155), (115, 0x015B), (117, 0x00FA), (121, 0x00FD),
  (122, 0x017A)]

/-- Assignments to `circumflex` (src/iso6937_tables.cc:85-108). -/
def isoCircumflex : List (Byte × WChar) := [
  (65, 0x00C2), (67, 0x0108), (69, 0x00CA), (71, 0x011C), (72, 0x0124), (73, 0x00CE), (74, 0x0134), (79, 0x00D4),
  (83, 0x015C), (85, 0x00DB), (87, 0x0174), (89, 0x0176), (97, 0x00E2), (99, 0x0109), (101, 0x00EA), (103, 0x011D),
  (104, 0x0125), (105, 0x00EE), (106, 0x0135), (111, 0x00F4), (115, 0x015D), (117, 0x00FB), (119, 0x0175), (121, 0x0177)]

/-- Assignments to `tilde` (src/iso6937_tables.cc:110-119). -/
def isoTilde : List (Byte × WChar) := [
  (65, 0x00C3), (73, 0x0128), (78, 0x00D1), (79, 0x00D5), (85, 0x0168), (97, 0x00E3), (105, 0x0129), (110, 0x00F1),
  (111, 0x00F5), (117, 0x0169)]

/-- Assignments to `macron` (src/iso6937_tables.cc:121-130). -/
def isoMacron : List (Byte × WChar) := [
  (65, 0x0100), (69, 0x0112), (73, 0x012A), (79, 0x014C), (85, 0x016A), (97, 0x0101), (101, 0x0113), (105, 0x012B),
  (111, 0x014D), (117, 0x016B)]

/-- Assignments to `breve` (src/iso6937_tables.cc:132-137). -/
def isoBreve : List (Byte × WChar) := [
  (65, 0x0102), (71, 0x011E), (85, 0x016C), (97, 0x0103), (103, 0x011F), (117, 0x016D)]

/-- Assignments to `dot` (src/iso6937_tables.cc:139-147). -/
def isoDot : List (Byte × WChar) := [
  (67, 0x010A), (69, 0x0116), (71, 0x0120), (73, 0x0130), (90, 0x017B), (99, 0x010B), (101, 0x0117), (103, 0x0121),
  (122, 0x017C)]

/-- Assignments to `diaeresis` (src/iso6937_tables.cc:149-160). -/
def isoDiaeresis : List (Byte × WChar) := [
  (65, 0x00C4), (69, 0x00CB), (73, 0x00CF), (79, 0x00D6), (85, 0x00DC), (89, 0x0178), (97, 0x00E4), (101, 0x00EB),
  (105, 0x00EF), (111, 0x00F6), (117, 0x00FC), (121, 0x00FF)]

/-- Assignments to `ring` (src/iso6937_tables.cc:162-165). -/
def isoRing : List (Byte × WChar) := [
  (65, 0x00C5), (85, 0x016E), (97, 0x00E5), (117, 0x016F)]

/-- Assignments to `cedilla` (src/iso6937_tables.cc:167-181). -/
def isoCedilla : List (Byte × WChar) := [
  (67, 0x00C7), (71, 0x0122), (75, 0x0136), (76, 0x013B), (78, 0x0145), (82, 0x0156), (83, 0x015E), (84, 0x0162),
  (99, 0x00E7), (107, 0x0137), (108, 0x013C), (110, 0x0146), (114, 0x0157), (115, 0x015F), (116, 0x0163)]

/-- Assignments to `double_acute` (src/iso6937_tables.cc:183-186). -/
def isoDoubleAcute : List (Byte × WChar) := [
  (79, 0x0150), (85, 0x0170), (111, 0x0151), (117, 0x0171)]

/-- Assignments to `ogonek` (src/iso6937_tables.cc:188-195). -/
def isoOgonek : List (Byte × WChar) := [
  (65, 0x0104), (69, 0x0118), (73, 0x012E), (85, 0x0172), (97, 0x0105), (101, 0x0119), (117, 0x0173), (105, 0x012F)]

/-- Assignments to `caron` (src/iso6937_tables.cc:197-214). -/
def isoCaron : List (Byte × WChar) := [
  (67, 0x010C), (68, 0x010E), (69, 0x011A), (76, 0x013D), (78, 0x0147), (82, 0x0158), (83, 0x0160), (84, 0x0164),
  (90, 0x017D), (99, 0x010D), (100, 0x010F), (101, 0x011B), (108, 0x013E), (110, 0x0148), (114, 0x0159), (115, 0x0161),
  (116, 0x0165), (122, 0x017E)]

/-- Assignments to `main` (src/iso6937_tables.cc:216-397). -/
def isoMain : List (Byte × WChar) := [
  (10, 0x000A), (32, 0x0020), (33, 0x0021), (34, 0x0022), (35, 0x0023), (36, 0x0024), (37, 0x0025), (38, 0x0026),
  (39, 0x0027), (40, 0x0028), (41, 0x0029), (42, 0x002A), (43, 0x002B), (44, 0x002C), (45, 0x002D), (46, 0x002E),
  (47, 0x002F), (48, 0x0030), (49, 0x0031), (50, 0x0032), (51, 0x0033), (52, 0x0034), (53, 0x0035), (54, 0x0036),
  (55, 0x0037), (56, 0x0038), (57, 0x0039), (58, 0x003A), (59, 0x003B), (60, 0x003C), (61, 0x003D), (62, 0x003E),
  (63, 0x003F), (64, 0x0040), (65, 0x0041), (66, 0x0042), (67, 0x0043), (68, 0x0044), (69, 0x0045), (70, 0x0046),
  (71, 0x0047), (72, 0x0048), (73, 0x0049), (74, 0x004A), (75, 0x004B), (76, 0x004C), (77, 0x004D), (78, 0x004E),
  (79, 0x004F), (80, 0x0050), (81, 0x0051), (82, 0x0052), (83, 0x0053), (84, 0x0054), (85, 0x0055), (86, 0x0056),
  (87, 0x0057), (88, 0x0058), (89, 0x0059), (90, 0x005A), (91, 0x005B), (92, 0x005C), (93, 0x005D), (94, 0x005E),
  (95, 0x005F), (96, 0x0060), (97, 0x0061), (98, 0x0062), (99, 0x0063), (100, 0x0064), (101, 0x0065), (102, 0x0066),
  (103, 0x0067), (104, 0x0068), (105, 0x0069), (106, 0x006A), (107, 0x006B), (108, 0x006C), (109, 0x006D), (110, 0x006E),
  (111, 0x006F), (112, 0x0070), (113, 0x0071), (114, 0x0072), (115, 0x0073), (116, 0x0074), (117, 0x0075), (118, 0x0076),
  (119, 0x0077), (120, 0x0078), (121, 0x0079), (122, 0x007A), (123, 0x007B), (124, 0x007C), (125, 0x007D), (126, 0x007E),
  (161, 0x00A1), (162, 0x00A2), (163, 0x00A3), (164, 0x0024), (165, 0x00A5), (167, 0x00A7), (168, 0x00A4), (169, 0x2018),
  (170, 0x201C), (171, 0x00AB), (172, 0x2190), (173, 0x2191), (174, 0x2192), (175, 0x2193), (176, 0x00B0), (177, 0x00B1),
  (178, 0x00B2), (179, 0x00B3), (180, 0x00D7), (181, 0x00B5), (182, 0x00B6), (183, 0x00B7), (184, 0x00F7), (185, 0x2019),
  (186, 0x201D), (187, 0x00BB), (188, 0x00BC), (189, 0x00BD), (190, 0x00BE), (191, 0x00BF), (193, 0x0300), (194, 0x0301),
  (195, 0x0302), (196, 0x0303), (197, 0x0304), (198, 0x0306), (199, 0x0307), (200, 0x0308), (202, 0x030A), (203, 0x0327),
  (205, 0x030B), (206, 0x032B), (207, 0x030C), (208, 0x2015), (209, 0x00B9), (210, 0x00AE), (211, 0x00A9), (212, 0x2122),
  (213, 0x266A), (214, 0x00AC), (215, 0x00A6), (220, 0x215B), (221, 0x215C), (222, 0x215D), (223, 0x215E), (224, 0x2126),
  (225, 0x00C6), (226, 0x0110), (227, 0x00AA), (228, 0x0126), (230, 0x0132), (231, 0x013F), (232, 0x0141), (233, 0x00D8),
  (234, 0x0152), (235, 0x00BA), (236, 0x00DE), (237, 0x0166), (238, 0x014A), (239, 0x0149), (240, 0x0138), (241, 0x00E6),
  (242, 0x0111), (243, 0x00F0), (244, 0x0127), (245, 0x0131), (246, 0x0133), (247, 0x0140), (248, 0x0142), (249, 0x00F8),
  (250, 0x0153), (251, 0x00DF), (252, 0x00FE), (253, 0x0167), (254, 0x014B), (255, 0x00AD)]

/-- Assignments to `diacriticals` (src/iso6937_tables.cc:399-411). -/
def isoDiacriticals : List (Byte × List (Byte × WChar)) := [
  (0xC1, isoGrave),
  (0xC2, isoAcute),
  (0xC3, isoCircumflex),
  (0xC4, isoTilde),
  (0xC5, isoMacron),
  (0xC6, isoBreve),
  (0xC7, isoDot),
  (0xC8, isoDiaeresis),
  (0xCA, isoRing),
  (0xCB, isoCedilla),
  (0xCD, isoDoubleAcute),
  (0xCE, isoOgonek),
  (0xCF, isoCaron)]

/-! ### `std::map<char, T>`

`char` is signed on the platforms of interest, so iteration visits the keys 128…255 before 0…127. -/

/-- Position of a key in the iteration order of `map<char, …>`. -/
def charRank (c : Byte) : Nat := (c.toNat + 128) % 256

/-- `m[k] = v`, keeping the list in iteration order. -/
def mapAssign {α : Type} (k : Byte) (v : α) : List (Byte × α) → List (Byte × α)
  | [] => [(k, v)]
  | (k', v') :: rest =>
    if k = k' then (k, v) :: rest
    else if charRank k < charRank k' then (k, v) :: (k', v') :: rest
    else (k', v') :: mapAssign k v rest

/-- A sequence of assignments to an empty map. -/
def mapOf {α : Type} (l : List (Byte × α)) : List (Byte × α) := l.foldl (fun m kv => mapAssign kv.1 kv.2 m) []

/-- The value at a key, if any. -/
def mapGet {α : Type} (m : List (Byte × α)) (k : Byte) : Option α :=
  match m with
  | [] => none
  | (k', v) :: rest => if k' = k then some v else mapGet rest k

/-! ### The tables as global, mutable state -/

/-- The global variables of src/iso6937_tables.cc:27-41.  Each inner map is reachable only through
`diacriticals`, so it is stored there; `none` is a null pointer. -/
structure IsoTables where
  main : List (Byte × WChar) := []
  dia : List (Byte × Option (List (Byte × WChar))) := []
  deriving DecidableEq

/-- State after `make_iso6937_tables ()` from scratch (src/iso6937_tables.cc:43-412). -/
def isoMade : IsoTables :=
  { main := mapOf isoMain
    dia := mapOf (isoDiacriticals.map (fun kv => (kv.1, some (mapOf kv.2)))) }

/-- `if (iso6937::diacriticals.empty ()) make_iso6937_tables ();` (src/iso6937.cc:39-41, 80-82). -/
def isoEnsure (t : IsoTables) : IsoTables := if t.dia.isEmpty then isoMade else t

/-- A byte in the diacritical column (src/iso6937.cc:50). -/
def isDiacritical (u : Byte) : Bool := 0xc1 ≤ u && u ≤ 0xcf

/-- The loop of `iso6937_to_utf16` (src/iso6937.cc:48-60) with the effect of `operator[]` on the maps:
reading a missing key inserts a zero (a null pointer for `diacriticals`, whose dereference is undefined).
`pending` is `diacritical`. -/
def isoDecodeLoop (t : IsoTables) (pending : Option Byte) (o : List WChar) : Str → R (IsoTables × List WChar)
  | [] => .ok (t, o)
  | u :: us =>
    if u = 0 then .ok (t, o)
    else if isDiacritical u then isoDecodeLoop t (some u) o us
    else
      match pending with
      | some d =>
        match mapGet t.dia d with
        | some (some m) =>
          match mapGet m u with
          | some v => isoDecodeLoop t none (o ++ [v]) us
          | none => isoDecodeLoop { t with dia := mapAssign d (some (mapAssign u 0 m)) t.dia } none (o ++ [0]) us
        | _ => .error (.ub .nullDeref)
      | none =>
        match mapGet t.main u with
        | some v => isoDecodeLoop t none (o ++ [v]) us
        | none => isoDecodeLoop { t with main := mapAssign u 0 t.main } none (o ++ [0]) us

/-- `sub::iso6937_to_utf16` (src/iso6937.cc:36-63) on global state `t`. -/
def isoDecodeSt (t : IsoTables) (s : Str) : R (IsoTables × List WChar) := isoDecodeLoop (isoEnsure t) none [] s

/-- `find` (src/iso6937.cc:65-75): the first key, in iteration order, with the given value. -/
def isoFind (m : List (Byte × WChar)) (c : WChar) : Option Byte :=
  match m with
  | [] => none
  | (k, v) :: rest => if v = c then some k else isoFind rest c

/-- The search over `diacriticals` (src/iso6937.cc:92-99); dereferencing a null pointer is undefined. -/
def isoFindDia (c : WChar) : List (Byte × Option (List (Byte × WChar))) → R Str
  | [] => .ok []
  | (_, none) :: _ => .error (.ub .nullDeref)
  | (d, some m) :: rest =>
    match isoFind m c with
    | some k => .ok [d, k]
    | none => isoFindDia c rest

/-- The substitutes for characters missing from the character set (src/iso6937.cc:102-118). -/
def isoSubst (c : WChar) : Str :=
  if c = 0x201e then [170]
  else if c = 0x2013 ∨ c = 0x2014 then [208]
  else if c = 0x2010 ∨ c = 0x2011 ∨ c = 0x2012 then [45]
  else if c = 0x2032 then [39]
  else []

/-- One iteration of the loop of `utf16_to_iso6937` (src/iso6937.cc:88-118). -/
def isoEncodeCharSt (t : IsoTables) (c : WChar) : R Str :=
  match isoFind t.main c with
  | some k => .ok (k :: isoSubst c)
  | none => do
    let s ← isoFindDia c t.dia
    pure (s ++ isoSubst c)

@[inherit_doc isoEncodeCharSt]
def isoEncodeLoop (t : IsoTables) : List WChar → R Str
  | [] => .ok []
  | c :: cs => do
    let a ← isoEncodeCharSt t c
    let b ← isoEncodeLoop t cs
    pure (a ++ b)

/-- `sub::utf16_to_iso6937` (src/iso6937.cc:77-122) on global state `t`; the state afterwards is
`isoEnsure t`. -/
def isoEncodeSt (t : IsoTables) (s : List WChar) : R (IsoTables × Str) := do
  let o ← isoEncodeLoop (isoEnsure t) s
  pure (isoEnsure t, o)

/-- `iso6937_to_utf16` in a fresh process. -/
def isoDecode (s : Str) : R (List WChar) := do
  let r ← isoDecodeSt {} s
  pure r.2

/-- `utf16_to_iso6937` in a fresh process.  (The STL model uses these two; what the global state can
change is the subject of the history theorems.) -/
def isoEncode (s : List WChar) : R Str := do
  let r ← isoEncodeSt {} s
  pure r.2

end LibSub
