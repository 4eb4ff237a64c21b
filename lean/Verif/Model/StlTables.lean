/-
src/stl_binary_tables.h, src/stl_binary_tables.cc
-/
import Verif.Model.Text

namespace LibSub

/-- `sub::DisplayStandard` (src/stl_binary_tables.h:29-34). -/
inductive DisplayStandard where
  | undefined
  | openSubtitling
  | level1Teletext
  | level2Teletext
  deriving DecidableEq, Repr

/-- `sub::LanguageGroup` (src/stl_binary_tables.h:36-43). -/
inductive LanguageGroup where
  | latin
  | latinCyrillic
  | latinArabic
  | latinGreek
  | latinHebrew
  | utf8
  deriving DecidableEq, Repr

/-- `sub::Language` (src/stl_binary_tables.h:45-149). -/
inductive Language where
  | unknown
  | albanian
  | breton
  | catalan
  | croatian
  | welsh
  | czech
  | danish
  | german
  | english
  | spanish
  | esperanto
  | estonian
  | basque
  | faroese
  | french
  | frisian
  | irish
  | gaelic
  | galacian
  | icelandic
  | italian
  | lappish
  | latin
  | latvian
  | luxemborgian
  | lithuanian
  | hungarian
  | maltese
  | dutch
  | norwegian
  | occitan
  | polish
  | portugese
  | romanian
  | romansh
  | serbian
  | slovak
  | slovenian
  | finnish
  | swedish
  | turkish
  | flemish
  | wallon
  | amharic
  | arabic
  | armenian
  | assamese
  | azerbaijani
  | bambora
  | bielorussian
  | bengali
  | bulgarian
  | burmese
  | chinese
  | churash
  | dari
  | fulani
  | georgian
  | greek
  | gujurati
  | gurani
  | hausa
  | hebrew
  | hindi
  | indonesian
  | japanese
  | kannada
  | kazakh
  | khmer
  | korean
  | laotian
  | macedonian
  | malagasay
  | malaysian
  | moldavian
  | marathi
  | ndebele
  | nepali
  | oriya
  | papamiento
  | persian
  | punjabi
  | pushtu
  | quechua
  | russian
  | ruthenian
  | serboCroat
  | shona
  | sinhalese
  | somali
  | srananTongo
  | swahili
  | tadzhik
  | tamil
  | tatar
  | telugu
  | thai
  | ukranian
  | urdu
  | uzbek
  | vietnamese
  | zulu
  deriving DecidableEq, Repr

/-- `sub::TimecodeStatus` (src/stl_binary_tables.h:151-154). -/
inductive TimecodeStatus where
  | notIntendedForUse
  | intendedForUse
  deriving DecidableEq, Repr

/-- `sub::CumulativeStatus` (src/stl_binary_tables.h:156-161). -/
inductive CumulativeStatus where
  | notCumulative
  | first
  | intermediate
  | last
  deriving DecidableEq, Repr

/-- `sub::Justification` (src/stl_binary_tables.h:163-168). -/
inductive Justification where
  | none
  | left
  | centre
  | right
  deriving DecidableEq, Repr

/-- `sub::Comment` (src/stl_binary_tables.h:170-173). -/
inductive Comment where
  | no
  | yes
  deriving DecidableEq, Repr

/-- A table: the calls of `code` in the constructor (src/stl_binary_tables.cc:29-34, 202-335), in source
order: key in the file, value, description.  The keys of each table are distinct. -/
abbrev StlTable (K E : Type) := List (K × E × Str)

/-- src/stl_binary_tables.cc:204-207 -/
def displayStandardTable : StlTable Str DisplayStandard := [
  (b!" ", .undefined, b!"Undefined"),
  (b!"0", .openSubtitling, b!"Open subtitling"),
  (b!"1", .level1Teletext, b!"Level 1 teletext"),
  (b!"2", .level2Teletext, b!"Level 2 teletext")]

/-- src/stl_binary_tables.cc:209-214 -/
def languageGroupTable : StlTable Str LanguageGroup := [
  (b!"00", .latin, b!"Latin"),
  (b!"01", .latinCyrillic, b!"Latin/Cyrillic"),
  (b!"02", .latinArabic, b!"Latin/Arabic"),
  (b!"03", .latinGreek, b!"Latin/Greek"),
  (b!"04", .latinHebrew, b!"Latin/Hebrew"),
  (b!"U8", .latinHebrew, b!"UTF-8")]

/-- src/stl_binary_tables.cc:216-318 -/
def languageTable : StlTable Str Language := [
  (b!"00", .unknown, b!"Unknown"),
  (b!"01", .albanian, b!"Albanian"),
  (b!"02", .breton, b!"Breton"),
  (b!"03", .catalan, b!"Catalan"),
  (b!"04", .croatian, b!"Croatian"),
  (b!"05", .welsh, b!"Welsh"),
  (b!"06", .czech, b!"Czech"),
  (b!"07", .danish, b!"Danish"),
  (b!"08", .german, b!"German"),
  (b!"09", .english, b!"English"),
  (b!"0A", .spanish, b!"Spanish"),
  (b!"0B", .esperanto, b!"Esperanto"),
  (b!"0C", .estonian, b!"Estonian"),
  (b!"0D", .basque, b!"Basque"),
  (b!"0E", .faroese, b!"Faroese"),
  (b!"0F", .french, b!"French"),
  (b!"10", .frisian, b!"Frisian"),
  (b!"11", .irish, b!"Irish"),
  (b!"12", .gaelic, b!"Gaelic"),
  (b!"13", .galacian, b!"Galacian"),
  (b!"14", .icelandic, b!"Icelandic"),
  (b!"15", .italian, b!"Italian"),
  (b!"16", .lappish, b!"Lappish"),
  (b!"17", .latin, b!"Latin"),
  (b!"18", .latvian, b!"Latvian"),
  (b!"19", .luxemborgian, b!"Luxemborgian"),
  (b!"1A", .lithuanian, b!"Lithuanian"),
  (b!"1B", .hungarian, b!"Hungarian"),
  (b!"1C", .maltese, b!"Maltese"),
  (b!"1D", .dutch, b!"Dutch"),
  (b!"1E", .norwegian, b!"Norwegian"),
  (b!"1F", .occitan, b!"Occitan"),
  (b!"20", .polish, b!"Polish"),
  (b!"21", .portugese, b!"Portugese"),
  (b!"22", .romanian, b!"Romanian"),
  (b!"23", .romansh, b!"Romansh"),
  (b!"24", .serbian, b!"Serbian"),
  (b!"25", .slovak, b!"Slovak"),
  (b!"26", .slovenian, b!"Slovenian"),
  (b!"27", .finnish, b!"Finnish"),
  (b!"28", .swedish, b!"Swedish"),
  (b!"29", .turkish, b!"Turkish"),
  (b!"2A", .flemish, b!"Flemish"),
  (b!"2B", .wallon, b!"Wallon"),
  (b!"7F", .amharic, b!"Amharic"),
  (b!"7E", .arabic, b!"Arabic"),
  (b!"7D", .armenian, b!"Armenian"),
  (b!"7C", .assamese, b!"Assamese"),
  (b!"7B", .azerbaijani, b!"Azerbaijani"),
  (b!"7A", .bambora, b!"Bambora"),
  (b!"79", .bielorussian, b!"Bielorussian"),
  (b!"78", .bengali, b!"Bengali"),
  (b!"77", .bulgarian, b!"Bulgarian"),
  (b!"76", .burmese, b!"Burmese"),
  (b!"75", .chinese, b!"Chinese"),
  (b!"74", .churash, b!"Churash"),
  (b!"73", .dari, b!"Dari"),
  (b!"72", .fulani, b!"Fulani"),
  (b!"71", .georgian, b!"Georgian"),
  (b!"70", .greek, b!"Greek"),
  (b!"6F", .gujurati, b!"Gujarati"),
  (b!"6E", .gurani, b!"Gurani"),
  (b!"6D", .hausa, b!"Hausa"),
  (b!"6C", .hebrew, b!"Hebrew"),
  (b!"6B", .hindi, b!"Hindi"),
  (b!"6A", .indonesian, b!"Indonesian"),
  (b!"69", .japanese, b!"Japanese"),
  (b!"68", .kannada, b!"Kannada"),
  (b!"67", .kazakh, b!"Kazakh"),
  (b!"66", .khmer, b!"Khmer"),
  (b!"65", .korean, b!"Korean"),
  (b!"64", .laotian, b!"Laotian"),
  (b!"63", .macedonian, b!"Macedonian"),
  (b!"62", .malagasay, b!"Malagasay"),
  (b!"61", .malaysian, b!"Malaysian"),
  (b!"60", .moldavian, b!"Moldavian"),
  (b!"5F", .marathi, b!"Marathi"),
  (b!"5E", .ndebele, b!"Ndebele"),
  (b!"5D", .nepali, b!"Nepali"),
  (b!"5C", .oriya, b!"Oriya"),
  (b!"5B", .papamiento, b!"Papamiento"),
  (b!"5A", .persian, b!"Persian"),
  (b!"59", .punjabi, b!"Punjabi"),
  (b!"58", .pushtu, b!"Pushtu"),
  (b!"57", .quechua, b!"Quechua"),
  (b!"56", .russian, b!"Russian"),
  (b!"55", .ruthenian, b!"Ruthenian"),
  (b!"54", .serboCroat, b!"Serbo Croat"),
  (b!"53", .shona, b!"Shona"),
  (b!"52", .sinhalese, b!"Sinhalese"),
  (b!"51", .somali, b!"Somali"),
  (b!"50", .srananTongo, b!"Sranan Tongo"),
  (b!"4F", .swahili, b!"Swahili"),
  (b!"4E", .tadzhik, b!"Tadzhik"),
  (b!"4D", .tamil, b!"Tamil"),
  (b!"4C", .tatar, b!"Tatar"),
  (b!"4B", .telugu, b!"Telugu"),
  (b!"4A", .thai, b!"Thai"),
  (b!"49", .ukranian, b!"Ukranian"),
  (b!"48", .urdu, b!"Urdu"),
  (b!"47", .uzbek, b!"Uzbek"),
  (b!"46", .vietnamese, b!"Vietnamese"),
  (b!"45", .zulu, b!"Zulu")]

/-- src/stl_binary_tables.cc:320-321 -/
def timecodeStatusTable : StlTable Str TimecodeStatus := [
  (b!"0", .notIntendedForUse, b!"Not intended for use"),
  (b!"1", .intendedForUse, b!"Intended for use")]

/-- src/stl_binary_tables.cc:323-326 -/
def cumulativeStatusTable : StlTable Int CumulativeStatus := [
  (0, .notCumulative, b!"Not part of a cumulative set"),
  (1, .first, b!"First subtitle of a cumulative set"),
  (2, .intermediate, b!"Intermediate subtitle of a cumulative set"),
  (3, .last, b!"Last subtitle of a cumulative set")]

/-- src/stl_binary_tables.cc:328-331 -/
def justificationTable : StlTable Int Justification := [
  (0, .none, b!"No justification"),
  (1, .left, b!"Left justification"),
  (2, .centre, b!"Centre justification"),
  (3, .right, b!"Right justification")]

/-- src/stl_binary_tables.cc:333-334 -/
def commentTable : StlTable Int Comment := [
  (0, .no, b!"Not a comment"),
  (1, .yes, b!"Is a comment")]

/-- `m.find (k)` (src/stl_binary_tables.cc:40). -/
def tableFind {K E : Type} [DecidableEq K] (k : K) : StlTable K E → Option E
  | [] => none
  | (k', v, _) :: rest => if k' = k then some v else tableFind k rest

/-- `file_to_enum` (src/stl_binary_tables.cc:36-46) for string keys.
(`String::compose ("Unknown %1 %2 in binary STL file", name, k)` is written out.) -/
def strToEnum {E : Type} (k : Str) (m : StlTable Str E) (name : Str) : R E :=
  match tableFind k m with
  | some v => .ok v
  | none => .error (.stl (b!"Unknown " ++ name ++ b!" " ++ k ++ b!" in binary STL file"))

/-- `file_to_enum` (src/stl_binary_tables.cc:36-46) for `int` keys. -/
def intToEnum {E : Type} (k : Int) (m : StlTable Int E) (name : Str) : R E :=
  match tableFind k m with
  | some v => .ok v
  | none => .error (.stl (b!"Unknown " ++ name ++ b!" " ++ intDec k ++ b!" in binary STL file"))

/-- Lexicographic order of `std::string` keys. -/
def strLt : Str → Str → Bool
  | [], [] => false
  | [], _ :: _ => true
  | _ :: _, [] => false
  | a :: as, b :: bs => if a < b then true else if b < a then false else strLt as bs

/-- The first row of a table, in key order, satisfying `p` (iteration over a `std::map`): the
satisfying row whose key is not greater than that of any other satisfying row. -/
def tableFirst {K E : Type} (lt : K → K → Bool) (p : E × Str → Bool) : StlTable K E → Option (K × E × Str)
  | [] => none
  | (k, v, d) :: rest =>
    match tableFirst lt p rest with
    | none => if p (v, d) then some (k, v, d) else none
    | some (k', v', d') => if p (v, d) && lt k k' then some (k, v, d) else some (k', v', d')

/-- `enum_to_file` (src/stl_binary_tables.cc:48-60). -/
def enumToFile {K E : Type} [DecidableEq E] (lt : K → K → Bool) (e : E) (m : StlTable K E) : R K :=
  match tableFirst lt (fun x => x.1 == e) m with
  | some (k, _, _) => .ok k
  | none => .error .programming

/-- `enum_to_description` (src/stl_binary_tables.cc:62-73). -/
def enumToDescription {K E : Type} [DecidableEq E] (lt : K → K → Bool) (e : E) (m : StlTable K E) : Str :=
  match tableFirst lt (fun x => x.1 == e) m with
  | some (_, _, d) => d
  | none => []

/-- `description_to_enum` (src/stl_binary_tables.cc:75-86). -/
def descriptionToEnum {K E : Type} (lt : K → K → Bool) (d : Str) (m : StlTable K E) : Option E :=
  match tableFirst lt (fun x => x.2 == d) m with
  | some (_, v, _) => some v
  | none => none

/-- Order of `int` keys. -/
def intLt (a b : Int) : Bool := decide (a < b)

/-- `display_standard_file_to_enum` (src/stl_binary_tables.cc:88-92). -/
def displayStandardFileToEnum (s : Str) : R DisplayStandard := strToEnum s displayStandardTable b!"display standard code"
/-- `language_group_file_to_enum` (src/stl_binary_tables.cc:94-98). -/
def languageGroupFileToEnum (s : Str) : R LanguageGroup := strToEnum s languageGroupTable b!"language group code"
/-- `language_file_to_enum` (src/stl_binary_tables.cc:100-104). -/
def languageFileToEnum (s : Str) : R Language := strToEnum s languageTable b!"language code"
/-- `timecode_status_file_to_enum` (src/stl_binary_tables.cc:106-110). -/
def timecodeStatusFileToEnum (s : Str) : R TimecodeStatus := strToEnum s timecodeStatusTable b!"timecode status code"
/-- `cumulative_status_file_to_enum` (src/stl_binary_tables.cc:112-116). -/
def cumulativeStatusFileToEnum (s : Int) : R CumulativeStatus := intToEnum s cumulativeStatusTable b!"cumulative status code"
/-- `justification_file_to_enum` (src/stl_binary_tables.cc:118-122). -/
def justificationFileToEnum (s : Int) : R Justification := intToEnum s justificationTable b!"justification code"
/-- `comment_file_to_enum` (src/stl_binary_tables.cc:124-128). -/
def commentFileToEnum (s : Int) : R Comment := intToEnum s commentTable b!"comment code"
/-- `language_enum_to_file` (src/stl_binary_tables.cc:130-134). -/
def languageEnumToFile (e : Language) : R Str := enumToFile strLt e languageTable
/-- `cumulative_status_enum_to_file` (src/stl_binary_tables.cc:136-140). -/
def cumulativeStatusEnumToFile (e : CumulativeStatus) : R Int := enumToFile intLt e cumulativeStatusTable
/-- `justification_enum_to_file` (src/stl_binary_tables.cc:142-146). -/
def justificationEnumToFile (e : Justification) : R Int := enumToFile intLt e justificationTable
/-- `comment_enum_to_file` (src/stl_binary_tables.cc:148-152). -/
def commentEnumToFile (e : Comment) : R Int := enumToFile intLt e commentTable
/-- `display_standard_enum_to_description` (src/stl_binary_tables.cc:154-158). -/
def displayStandardDescription (e : DisplayStandard) : Str := enumToDescription strLt e displayStandardTable
/-- `language_group_enum_to_description` (src/stl_binary_tables.cc:160-164). -/
def languageGroupDescription (e : LanguageGroup) : Str := enumToDescription strLt e languageGroupTable
/-- `language_enum_to_description` (src/stl_binary_tables.cc:166-170). -/
def languageDescription (e : Language) : Str := enumToDescription strLt e languageTable
/-- `timecode_status_enum_to_description` (src/stl_binary_tables.cc:172-176). -/
def timecodeStatusDescription (e : TimecodeStatus) : Str := enumToDescription strLt e timecodeStatusTable
/-- `language_description_to_enum` (src/stl_binary_tables.cc:196-200). -/
def languageDescriptionToEnum (d : Str) : Option Language := descriptionToEnum strLt d languageTable

end LibSub
