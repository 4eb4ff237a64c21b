/-
Property C101: SSA style definitions: every property comes from the column of its name.
-/
import Verif.Props.SsaDoc
import Mathlib.Data.List.TakeWhile

namespace LibSub

/-! ### Specification -/

/-- `v` starts with a decimal number of value `i`: white space, an optional sign, one digit or more. -/
def LeadingNumber (v : Str) (i : Int) : Prop :=
  ∃ sp sg ds rest, v = sp ++ (sg ++ (ds ++ rest)) ∧ (∀ c ∈ sp, c ∈ ([9, 10, 11, 12, 13, 32] : Str)) ∧ ds ≠ [] ∧ (∀ c ∈ ds, c ∈ b!"0123456789") ∧
    (∀ c, rest.head? = some c → c ∉ b!"0123456789") ∧ (((sg = [] ∨ sg = b!"+") ∧ i = textVal ds) ∨ (sg = b!"-" ∧ i = -(textVal ds : Int)))

/-- The value in the last column with a name. -/
def lastColumn (cols : List (Str × Str)) (key : Str) : Option Str := ((cols.filter (fun c => c.1 = key)).getLast?).map Prod.snd

/-- The names of columns that hold numbers, and of those that hold colours. -/
def numberColumns : List Str := [b!"Fontsize", b!"MarginV", b!"MarginL", b!"MarginR"]
@[inherit_doc numberColumns]
def colourColumns : List Str := [b!"PrimaryColour", b!"BackColour"]

/-- The value can be read, if its column holds a number or a colour. -/
def Readable (c : Str × Str) : Prop :=
  (c.1 ∈ numberColumns → ∃ i, rawConvertInt c.2 = .ok i) ∧ (c.1 ∈ colourColumns → ∃ x, SsaStyle.colour c.2 = .ok x)

/-- `x` is the number in column `key`, or `dflt` if there is no such column. -/
def NumberOf (cols : List (Str × Str)) (key : Str) (dflt x : Int) : Prop :=
  match lastColumn cols key with
  | none => x = dflt
  | some v => rawConvertInt v = .ok x

/-- `x` is "yes" exactly if the column `key` says so. -/
def FlagOf (cols : List (Str × Str)) (key : Str) (x : Bool) : Prop := x = true ↔ lastColumn cols key = some b!"-1"

/-- A position of the numeric keypad; anything that is not one of the keys is the bottom centre. -/
def KeyOf (v : Str) (h : HRef) (w : VRef) : Prop :=
  (∃ k, 1 ≤ k ∧ k ≤ 9 ∧ v = decSpec k ∧ h = keypadH k ∧ w = keypadV k) ∨ ((∀ k, 1 ≤ k → k ≤ 9 → v ≠ decSpec k) ∧ h = .centre ∧ w = .bottomOfScreen)

/-- The style that columns describe. -/
structure StyleOf (cols : List (Str × Str)) (s : SsaStyle) : Prop where
  name : s.name = (lastColumn cols b!"Name").getD []
  font : s.fontName = lastColumn cols b!"Fontname"
  size : NumberOf cols b!"Fontsize" 72 s.fontSize
  primary : match lastColumn cols b!"PrimaryColour" with | none => s.primaryColour = ⟨255, 255, 255⟩ | some v => SsaStyle.colour v = .ok s.primaryColour
  back : match lastColumn cols b!"BackColour" with | none => s.backColour = none | some v => ∃ c, SsaStyle.colour v = .ok c ∧ s.backColour = some c
  bold : FlagOf cols b!"Bold" s.bold
  italic : FlagOf cols b!"Italic" s.italic
  underline : FlagOf cols b!"Underline" s.underline
  effect : s.effect = if (b!"BorderStyle", b!"1") ∈ cols then some .shadow else none
  align : match lastColumn cols b!"Alignment" with | none => s.href = .centre ∧ s.vref = .bottomOfScreen | some v => KeyOf v s.href s.vref
  vmargin : NumberOf cols b!"MarginV" 0 s.vmargin
  lmargin : NumberOf cols b!"MarginL" 0 s.lmargin
  rmargin : NumberOf cols b!"MarginR" 0 s.rmargin

/-- Names and values that belong together, without the space around them. -/
def columns (names values : List Str) : List (Str × Str) := (names.map trim).zip (values.map trim)

/-! ### Reading numbers -/

private theorem space_mem (c : Byte) : isSpace c = true ↔ c ∈ ([9, 10, 11, 12, 13, 32] : Str) :=
  forall_byte (p := fun c => isSpace c = true ↔ c ∈ ([9, 10, 11, 12, 13, 32] : Str)) (by decide +kernel) c

private theorem digit_not (c : Byte) (h : isDigit c = true) : isSpace c = false ∧ c ≠ 45 ∧ c ≠ 43 :=
  forall_byte (p := fun c => isDigit c = true → isSpace c = false ∧ c ≠ 45 ∧ c ≠ 43) (by decide +kernel) c h

private theorem drop_spaces {sp t : Str} (h : ∀ c ∈ sp, isSpace c = true) (ht : ∀ c, t.head? = some c → isSpace c = false) : (sp ++ t).dropWhile isSpace = t := by
  induction sp with
  | nil =>
    cases t with
    | nil => rfl
    | cons a t => exact List.dropWhile_cons_of_neg (by simp [ht a rfl])
  | cons a sp ih => rw [List.cons_append, List.dropWhile_cons_of_pos (h a (by simp)), ih (fun c hc => h c (by simp [hc]))]

private theorem take_digits {ds rest : Str} (hd : ∀ c ∈ ds, isDigit c = true) (hr : ∀ c, rest.head? = some c → isDigit c = false) : takeDigits (ds ++ rest) = ds := by
  unfold takeDigits
  induction ds with
  | nil =>
    cases rest with
    | nil => rfl
    | cons a t => exact List.takeWhile_cons_of_neg (by simp [hr a rfl])
  | cons a ds ih => rw [List.cons_append, List.takeWhile_cons_of_pos (hd a (by simp)), ih (fun c hc => hd c (by simp [hc]))]

private theorem raw_unfold (v : Str) : rawConvertInt v = (let p := takeSign (v.dropWhile isSpace); let x : Int := if p.1 then -(decVal (takeDigits p.2) : Int) else decVal (takeDigits p.2); if InInt x then .ok x else .error (.ub .scanfRange)) := by
  unfold rawConvertInt rawConvertIntIn scanInt
  rw [makeLocal_classic]

private theorem raw_number {v : Str} {i : Int} (h : LeadingNumber v i) : rawConvertInt v = if InInt i then .ok i else .error (.ub .scanfRange) := by
  obtain ⟨sp, sg, ds, rest, rfl, hsp, hne, hd, hr, hv⟩ := h
  have hd' : ∀ c ∈ ds, isDigit c = true := fun c hc => (isDigit_iff_mem c).2 (hd c hc)
  have hr' : ∀ c, rest.head? = some c → isDigit c = false := by
    intro c hc
    rw [← Bool.not_eq_true, isDigit_iff_mem]
    exact hr c hc
  obtain ⟨d, ds', e⟩ := List.exists_cons_of_ne_nil hne
  have hdd := digit_not d (hd' d (by simp [e]))
  have e1 : (sp ++ (sg ++ (ds ++ rest))).dropWhile isSpace = sg ++ (ds ++ rest) := by
    refine drop_spaces (fun c hc => (space_mem c).2 (hsp c hc)) ?_
    intro c hc
    rcases hv with ⟨rfl | rfl, -⟩ | ⟨rfl, -⟩
    · rw [e] at hc; cases hc; exact hdd.1
    · cases hc; decide
    · cases hc; decide
  have e2 : takeSign (sg ++ (ds ++ rest)) = (sg == b!"-", ds ++ rest) := by
    rcases hv with ⟨rfl | rfl, -⟩ | ⟨rfl, -⟩
    · rw [e]; simp [takeSign, hdd.2.1, hdd.2.2]
    · rfl
    · rfl
  rw [raw_unfold, e1, e2]
  simp only [take_digits hd' hr', decVal_textVal hd']
  rcases hv with ⟨rfl | rfl, rfl⟩ | ⟨rfl, rfl⟩ <;> rfl

private theorem takeWhile_drop_head (p : Byte → Bool) (l : Str) : ∀ c, (l.dropWhile p).head? = some c → p c = false := by
  induction l with
  | nil => intro c hc; cases hc
  | cons a l ih =>
    intro c hc
    by_cases h : p a = true
    · rw [List.dropWhile_cons_of_pos h] at hc; exact ih c hc
    · rw [List.dropWhile_cons_of_neg h] at hc; cases hc; simpa using h

private theorem raw_no_number {v : Str} (h : ∀ i, ¬ LeadingNumber v i) : rawConvertInt v = .ok 0 := by
  rw [raw_unfold]
  have key : takeDigits (takeSign (v.dropWhile isSpace)).2 = [] := by
    by_contra hne
    set ds := takeDigits (takeSign (v.dropWhile isSpace)).2 with hds
    set t := (takeSign (v.dropWhile isSpace)).2 with ht
    obtain ⟨sg, hsg, hsg'⟩ : ∃ sg, v.dropWhile isSpace = sg ++ t ∧ (sg = [] ∨ sg = b!"+" ∨ sg = b!"-") := by
      rw [ht]
      unfold takeSign
      split
      · rename_i cs e; exact ⟨b!"-", e, .inr (.inr rfl)⟩
      · rename_i cs e; exact ⟨b!"+", e, .inr (.inl rfl)⟩
      · exact ⟨[], rfl, .inl rfl⟩
    have hsp : ∀ c ∈ v.takeWhile isSpace, c ∈ ([9, 10, 11, 12, 13, 32] : Str) := fun c hc => (space_mem c).1 (List.mem_takeWhile_imp hc)
    have hdig : ∀ c ∈ ds, c ∈ b!"0123456789" := fun c hc => (isDigit_iff_mem c).1 (List.mem_takeWhile_imp hc)
    have hrest : ∀ c, (t.dropWhile isDigit).head? = some c → c ∉ b!"0123456789" := by
      intro c hc hm
      have := takeWhile_drop_head isDigit t c hc
      rw [(isDigit_iff_mem c).2 hm] at this
      cases this
    have hsplit : v = v.takeWhile isSpace ++ (sg ++ (ds ++ t.dropWhile isDigit)) := by
      rw [hds]
      unfold takeDigits
      rw [List.takeWhile_append_dropWhile, ← hsg, List.takeWhile_append_dropWhile]
    rcases hsg' with hsg' | hsg' | hsg'
    · exact h _ ⟨_, sg, ds, _, hsplit, hsp, hne, hdig, hrest, .inl ⟨.inl hsg', rfl⟩⟩
    · exact h _ ⟨_, sg, ds, _, hsplit, hsp, hne, hdig, hrest, .inl ⟨.inr hsg', rfl⟩⟩
    · exact h _ ⟨_, sg, ds, _, hsplit, hsp, hne, hdig, hrest, .inr ⟨hsg', rfl⟩⟩
  simp only [key]
  have : decVal [] = 0 := rfl
  rw [this]
  cases (takeSign (v.dropWhile isSpace)).1 <;> rfl

/-! ### Columns -/

private theorem lastColumn_snoc (cols : List (Str × Str)) (k v key : Str) : lastColumn (cols ++ [(k, v)]) key = if k = key then some v else lastColumn cols key := by
  unfold lastColumn
  rw [List.filter_append]
  by_cases h : k = key
  · simp [h]
  · simp [h]

private def fieldsC (s : SsaStyle) : List (Str × Str) → R SsaStyle
  | [] => .ok s
  | (k, v) :: rest => do
    let s' ← s.field k v
    fieldsC s' rest

private theorem fields_trim (ks vs : List Str) (s : SsaStyle) : SsaStyle.fields s (ks.zip vs) = fieldsC s (columns ks vs) := by
  unfold columns
  induction ks generalizing vs s with
  | nil => rfl
  | cons k ks ih =>
    cases vs with
    | nil => rfl
    | cons v vs =>
      rw [List.zip_cons_cons, List.map_cons, List.map_cons, List.zip_cons_cons, SsaStyle.fields, fieldsC]
      congr 1
      funext s'
      exact ih vs s'

private theorem fieldsC_snoc (s : SsaStyle) (cols : List (Str × Str)) (k v : Str) : fieldsC s (cols ++ [(k, v)]) = (do let s' ← fieldsC s cols; s'.field k v) := by
  induction cols generalizing s with
  | nil =>
    show (s.field k v >>= fun s' => fieldsC s' []) = s.field k v
    cases s.field k v <;> rfl
  | cons c cols ih =>
    obtain ⟨k', v'⟩ := c
    rw [List.cons_append, fieldsC, fieldsC]
    cases h : s.field k' v' with
    | error e => rfl
    | ok s' => exact ih s'

/-- A property of the style which only the column `key` sets. -/
private theorem set_by {α : Type} (π : SsaStyle → α) (key : Str) (P : Str → α → Prop)
    (step : ∀ s k v s', s.field k v = .ok s' → (k = key → P v (π s')) ∧ (k ≠ key → π s' = π s)) (s : SsaStyle) (cols : List (Str × Str)) (s' : SsaStyle) (h : fieldsC s cols = .ok s') :
    match lastColumn cols key with | none => π s' = π s | some v => P v (π s') := by
  induction cols using List.reverseRecOn generalizing s' with
  | nil => cases h; rfl
  | append_singleton cols c ih =>
    obtain ⟨k, v⟩ := c
    rw [fieldsC_snoc] at h
    obtain ⟨t, ht, h⟩ := bind_eq_ok.mp h
    rw [lastColumn_snoc]
    have st := step t k v s' h
    by_cases hk : k = key
    · rw [if_pos hk]; exact st.1 hk
    · rw [if_neg hk, st.2 hk]; exact ih t ht

/-- The choice of the program for `Alignment`. -/
private theorem keyOf_model (v : Str) :
    KeyOf v (if v = b!"1" ∨ v = b!"4" ∨ v = b!"7" then .left else if v = b!"3" ∨ v = b!"6" ∨ v = b!"9" then .right else .centre)
      (if v = b!"7" ∨ v = b!"8" ∨ v = b!"9" then .topOfScreen else if v = b!"4" ∨ v = b!"5" ∨ v = b!"6" then .centreOfScreen else .bottomOfScreen) := by
  by_cases h : ∃ k, 1 ≤ k ∧ k ≤ 9 ∧ v = decSpec k
  · obtain ⟨k, h1, h9, rfl⟩ := h
    refine .inl ⟨k, h1, h9, rfl, ?_, ?_⟩ <;> interval_cases k <;> decide
  · have hv : ∀ k, 1 ≤ k → k ≤ 9 → v ≠ decSpec k := fun k h1 h9 e => h ⟨k, h1, h9, e⟩
    refine .inr ⟨hv, ?_, ?_⟩
    all_goals
      have v1 : v ≠ b!"1" := hv 1 (by decide) (by decide)
      have v3 : v ≠ b!"3" := hv 3 (by decide) (by decide)
      have v4 : v ≠ b!"4" := hv 4 (by decide) (by decide)
      have v5 : v ≠ b!"5" := hv 5 (by decide) (by decide)
      have v6 : v ≠ b!"6" := hv 6 (by decide) (by decide)
      have v7 : v ≠ b!"7" := hv 7 (by decide) (by decide)
      have v8 : v ≠ b!"8" := hv 8 (by decide) (by decide)
      have v9 : v ≠ b!"9" := hv 9 (by decide) (by decide)
      simp only [v1, v3, v4, v5, v6, v7, v8, v9, or_self, if_false]

private theorem flag_of {cols : List (Str × Str)} {key : Str} {x : Bool} (h : match lastColumn cols key with | none => x = false | some v => x = (v == b!"-1")) : FlagOf cols key x := by
  unfold FlagOf
  cases hc : lastColumn cols key with
  | none => rw [hc] at h; simp only at h; simp [h]
  | some v => rw [hc] at h; simp only at h; rw [h]; simp

/-- What one column does. -/
private theorem field_cases {s : SsaStyle} {k v : Str} {s' : SsaStyle} (h : s.field k v = .ok s') :
    (k = b!"Name" ∧ s' = { s with name := v }) ∨ (k = b!"Fontname" ∧ s' = { s with fontName := some v }) ∨
    (k = b!"Fontsize" ∧ ∃ x, rawConvertInt v = .ok x ∧ s' = { s with fontSize := x }) ∨
    (k = b!"PrimaryColour" ∧ ∃ x, SsaStyle.colour v = .ok x ∧ s' = { s with primaryColour := x }) ∨
    (k = b!"BackColour" ∧ ∃ x, SsaStyle.colour v = .ok x ∧ s' = { s with backColour := some x }) ∨
    (k = b!"Bold" ∧ s' = { s with bold := v == b!"-1" }) ∨ (k = b!"Italic" ∧ s' = { s with italic := v == b!"-1" }) ∨
    (k = b!"Underline" ∧ s' = { s with underline := v == b!"-1" }) ∨ (k = b!"BorderStyle" ∧ s' = if v = b!"1" then { s with effect := some .shadow } else s) ∨
    (k = b!"Alignment" ∧ ∃ h w, KeyOf v h w ∧ s' = { s with href := h, vref := w }) ∨
    (k = b!"MarginV" ∧ ∃ x, rawConvertInt v = .ok x ∧ s' = { s with vmargin := x }) ∨
    (k = b!"MarginL" ∧ ∃ x, rawConvertInt v = .ok x ∧ s' = { s with lmargin := x }) ∨
    (k = b!"MarginR" ∧ ∃ x, rawConvertInt v = .ok x ∧ s' = { s with rmargin := x }) ∨
    (k ∉ [b!"Name", b!"Fontname", b!"Fontsize", b!"PrimaryColour", b!"BackColour", b!"Bold", b!"Italic", b!"Underline", b!"BorderStyle", b!"Alignment", b!"MarginV", b!"MarginL", b!"MarginR"] ∧ s' = s) := by
  unfold SsaStyle.field at h
  by_cases h1 : k = b!"Name"
  · rw [if_pos h1] at h; cases h; exact .inl ⟨h1, rfl⟩
  rw [if_neg h1] at h; refine .inr ?_
  by_cases h2 : k = b!"Fontname"
  · rw [if_pos h2] at h; cases h; exact .inl ⟨h2, rfl⟩
  rw [if_neg h2] at h; refine .inr ?_
  by_cases h3 : k = b!"Fontsize"
  · rw [if_pos h3] at h; obtain ⟨x, hx, h⟩ := bind_eq_ok.mp h; cases h; exact .inl ⟨h3, x, hx, rfl⟩
  rw [if_neg h3] at h; refine .inr ?_
  by_cases h4 : k = b!"PrimaryColour"
  · rw [if_pos h4] at h; obtain ⟨x, hx, h⟩ := bind_eq_ok.mp h; cases h; exact .inl ⟨h4, x, hx, rfl⟩
  rw [if_neg h4] at h; refine .inr ?_
  by_cases h5 : k = b!"BackColour"
  · rw [if_pos h5] at h; obtain ⟨x, hx, h⟩ := bind_eq_ok.mp h; cases h; exact .inl ⟨h5, x, hx, rfl⟩
  rw [if_neg h5] at h; refine .inr ?_
  by_cases h6 : k = b!"Bold"
  · rw [if_pos h6] at h; cases h; exact .inl ⟨h6, rfl⟩
  rw [if_neg h6] at h; refine .inr ?_
  by_cases h7 : k = b!"Italic"
  · rw [if_pos h7] at h; cases h; exact .inl ⟨h7, rfl⟩
  rw [if_neg h7] at h; refine .inr ?_
  by_cases h8 : k = b!"Underline"
  · rw [if_pos h8] at h; cases h; exact .inl ⟨h8, rfl⟩
  rw [if_neg h8] at h; refine .inr ?_
  by_cases h9 : k = b!"BorderStyle"
  · rw [if_pos h9] at h; cases h; exact .inl ⟨h9, rfl⟩
  rw [if_neg h9] at h; refine .inr ?_
  by_cases h10 : k = b!"Alignment"
  · rw [if_pos h10] at h; cases h; exact .inl ⟨h10, _, _, keyOf_model v, rfl⟩
  rw [if_neg h10] at h; refine .inr ?_
  by_cases h11 : k = b!"MarginV"
  · rw [if_pos h11] at h; obtain ⟨x, hx, h⟩ := bind_eq_ok.mp h; cases h; exact .inl ⟨h11, x, hx, rfl⟩
  rw [if_neg h11] at h; refine .inr ?_
  by_cases h12 : k = b!"MarginL"
  · rw [if_pos h12] at h; obtain ⟨x, hx, h⟩ := bind_eq_ok.mp h; cases h; exact .inl ⟨h12, x, hx, rfl⟩
  rw [if_neg h12] at h; refine .inr ?_
  by_cases h13 : k = b!"MarginR"
  · rw [if_pos h13] at h; obtain ⟨x, hx, h⟩ := bind_eq_ok.mp h; cases h; exact .inl ⟨h13, x, hx, rfl⟩
  rw [if_neg h13] at h; refine .inr ?_
  cases h
  exact ⟨by simp only [List.mem_cons, List.not_mem_nil, or_false, not_or]; exact ⟨h1, h2, h3, h4, h5, h6, h7, h8, h9, h10, h11, h12, h13⟩, rfl⟩

private theorem effect_of {cols : List (Str × Str)} {s : SsaStyle} (h : fieldsC {} cols = .ok s) : s.effect = if (b!"BorderStyle", b!"1") ∈ cols then some .shadow else none := by
  induction cols using List.reverseRecOn generalizing s with
  | nil => cases h; rfl
  | append_singleton cols c ih =>
    obtain ⟨k, v⟩ := c
    rw [fieldsC_snoc] at h
    obtain ⟨t, ht, h⟩ := bind_eq_ok.mp h
    have hi := ih ht
    by_cases hk : k = b!"BorderStyle"
    · have hs : s = if v = b!"1" then { t with effect := some .shadow } else t := by
        subst hk
        rcases field_cases h with ⟨e, -⟩ | ⟨e, -⟩ | ⟨e, -⟩ | ⟨e, -⟩ | ⟨e, -⟩ | ⟨e, -⟩ | ⟨e, -⟩ | ⟨e, -⟩ | ⟨-, e⟩ | ⟨e, -⟩ | ⟨e, -⟩ | ⟨e, -⟩ | ⟨e, -⟩ | ⟨e, -⟩
        case inr.inr.inr.inr.inr.inr.inr.inr.inl => exact e
        all_goals exact absurd e (by decide)
      by_cases hv : v = b!"1"
      · rw [hs, if_pos hv, if_pos (by simp [hk, hv])]
      · rw [hs, if_neg hv, hi]
        have : (b!"BorderStyle", b!"1") ∈ cols ++ [(k, v)] ↔ (b!"BorderStyle", b!"1") ∈ cols := by
          rw [List.mem_append, List.mem_singleton]
          exact ⟨fun h => h.elim id (fun h => absurd (Prod.mk.inj h).2.symm hv), .inl⟩
        simp only [this]
    · have hs : s.effect = t.effect := by
        rcases field_cases h with ⟨e, rfl⟩ | ⟨e, rfl⟩ | ⟨e, x, hx, rfl⟩ | ⟨e, x, hx, rfl⟩ | ⟨e, x, hx, rfl⟩ | ⟨e, rfl⟩ | ⟨e, rfl⟩ | ⟨e, rfl⟩ | ⟨e, rfl⟩ | ⟨e, hr, vr, hx, rfl⟩ | ⟨e, x, hx, rfl⟩ | ⟨e, x, hx, rfl⟩ | ⟨e, x, hx, rfl⟩ | ⟨e, rfl⟩
        case inr.inr.inr.inr.inr.inr.inr.inr.inl => exact absurd e hk
        all_goals rfl
      have : (b!"BorderStyle", b!"1") ∈ cols ++ [(k, v)] ↔ (b!"BorderStyle", b!"1") ∈ cols := by
        rw [List.mem_append, List.mem_singleton]
        exact ⟨fun h => h.elim id (fun h => absurd (Prod.mk.inj h).1.symm hk), .inl⟩
      rw [hs, hi]
      simp only [this]

set_option hygiene false in
/-- A column sets its own property and leaves the others alone: case analysis over `field_cases`. -/
local macro "one_column" h:ident : tactic =>
  `(tactic| (rcases field_cases $h with ⟨e, rfl⟩ | ⟨e, rfl⟩ | ⟨e, x, hx, rfl⟩ | ⟨e, x, hx, rfl⟩ | ⟨e, x, hx, rfl⟩ | ⟨e, rfl⟩ | ⟨e, rfl⟩ | ⟨e, rfl⟩ | ⟨e, rfl⟩ | ⟨e, hr, vr, hx, rfl⟩ |
      ⟨e, x, hx, rfl⟩ | ⟨e, x, hx, rfl⟩ | ⟨e, x, hx, rfl⟩ | ⟨e, rfl⟩ <;>
    first
    | (subst e; refine ⟨fun he => absurd he (by decide), fun _ => ?_⟩; first | rfl | (split <;> rfl))
    | (subst e; refine ⟨fun _ => ?_, fun he => absurd rfl he⟩; first | rfl | exact hx | exact ⟨_, hx, rfl⟩)
    | exact ⟨fun he => absurd (by rw [he]; decide) e, fun _ => rfl⟩))

private theorem style_of {cols : List (Str × Str)} {s : SsaStyle} (h : fieldsC {} cols = .ok s) : StyleOf cols s where
  name := by
    have := set_by (fun s => s.name) b!"Name" (fun v x => x = v) (by intro s k v s' h; one_column h) _ _ _ h
    cases hc : lastColumn cols b!"Name" <;> rw [hc] at this <;> exact this
  font := by
    have := set_by (fun s => s.fontName) b!"Fontname" (fun v x => x = some v) (by intro s k v s' h; one_column h) _ _ _ h
    cases hc : lastColumn cols b!"Fontname" <;> rw [hc] at this <;> exact this
  size := set_by (fun s => s.fontSize) b!"Fontsize" (fun v x => rawConvertInt v = .ok x) (by intro s k v s' h; one_column h) _ _ _ h
  primary := set_by (fun s => s.primaryColour) b!"PrimaryColour" (fun v x => SsaStyle.colour v = .ok x) (by intro s k v s' h; one_column h) _ _ _ h
  back := set_by (fun s => s.backColour) b!"BackColour" (fun v x => ∃ c, SsaStyle.colour v = .ok c ∧ x = some c) (by intro s k v s' h; one_column h) _ _ _ h
  bold := by
    have := set_by (fun s => s.bold) b!"Bold" (fun v x => x = (v == b!"-1")) (by intro s k v s' h; one_column h) _ _ _ h
    exact flag_of this
  italic := by
    have := set_by (fun s => s.italic) b!"Italic" (fun v x => x = (v == b!"-1")) (by intro s k v s' h; one_column h) _ _ _ h
    exact flag_of this
  underline := by
    have := set_by (fun s => s.underline) b!"Underline" (fun v x => x = (v == b!"-1")) (by intro s k v s' h; one_column h) _ _ _ h
    exact flag_of this
  effect := effect_of h
  align := by
    have := set_by (fun s => (s.href, s.vref)) b!"Alignment" (fun v x => KeyOf v x.1 x.2) (by intro s k v s' h; one_column h) _ _ _ h
    cases hc : lastColumn cols b!"Alignment" with
    | none => rw [hc] at this; simpa using this
    | some v => rw [hc] at this; exact this
  vmargin := set_by (fun s => s.vmargin) b!"MarginV" (fun v x => rawConvertInt v = .ok x) (by intro s k v s' h; one_column h) _ _ _ h
  lmargin := set_by (fun s => s.lmargin) b!"MarginL" (fun v x => rawConvertInt v = .ok x) (by intro s k v s' h; one_column h) _ _ _ h
  rmargin := set_by (fun s => s.rmargin) b!"MarginR" (fun v x => rawConvertInt v = .ok x) (by intro s k v s' h; one_column h) _ _ _ h

private theorem readable_of {cols : List (Str × Str)} {s s' : SsaStyle} (h : fieldsC s cols = .ok s') : ∀ c ∈ cols, Readable c := by
  induction cols generalizing s with
  | nil => simp
  | cons c cols ih =>
    obtain ⟨k, v⟩ := c
    obtain ⟨t, ht, h⟩ := bind_eq_ok.mp (show (s.field k v >>= fun t => fieldsC t cols) = .ok s' from h)
    intro c hc
    rcases List.mem_cons.1 hc with rfl | hc
    · unfold Readable numberColumns colourColumns
      dsimp only
      rcases field_cases ht with ⟨e, -⟩ | ⟨e, -⟩ | ⟨e, x, hx, -⟩ | ⟨e, x, hx, -⟩ | ⟨e, x, hx, -⟩ | ⟨e, -⟩ | ⟨e, -⟩ | ⟨e, -⟩ | ⟨e, -⟩ | ⟨e, -⟩ | ⟨e, x, hx, -⟩ | ⟨e, x, hx, -⟩ | ⟨e, x, hx, -⟩ | ⟨e, -⟩
      case inr.inr.inr.inr.inr.inr.inr.inr.inr.inr.inr.inr.inr =>
        constructor <;> intro hk <;> exfalso <;> apply e <;> simp only [List.mem_cons, List.not_mem_nil, or_false] at hk ⊢ <;> tauto
      all_goals subst e
      all_goals first
        | exact ⟨fun hk => absurd hk (by decide), fun hk => absurd hk (by decide)⟩
        | exact ⟨fun _ => ⟨x, hx⟩, fun hk => absurd hk (by decide)⟩
        | exact ⟨fun hk => absurd hk (by decide), fun _ => ⟨x, hx⟩⟩
    · exact ih h c hc

private theorem field_ok {s : SsaStyle} {k v : Str} (h : Readable (k, v)) : ∃ s', s.field k v = .ok s' := by
  obtain ⟨h1, h2⟩ := h
  unfold numberColumns at h1
  unfold colourColumns at h2
  dsimp only at h1 h2
  unfold SsaStyle.field
  by_cases e0 : k = b!"Name"
  · rw [if_pos e0]; exact ⟨_, rfl⟩
  rw [if_neg e0]
  by_cases e1 : k = b!"Fontname"
  · rw [if_pos e1]; exact ⟨_, rfl⟩
  rw [if_neg e1]
  by_cases e2 : k = b!"Fontsize"
  · rw [if_pos e2]; obtain ⟨i, hi⟩ := h1 (by rw [e2]; decide); exact ⟨_, by rw [hi]; rfl⟩
  rw [if_neg e2]
  by_cases e3 : k = b!"PrimaryColour"
  · rw [if_pos e3]; obtain ⟨i, hi⟩ := h2 (by rw [e3]; decide); exact ⟨_, by rw [hi]; rfl⟩
  rw [if_neg e3]
  by_cases e4 : k = b!"BackColour"
  · rw [if_pos e4]; obtain ⟨i, hi⟩ := h2 (by rw [e4]; decide); exact ⟨_, by rw [hi]; rfl⟩
  rw [if_neg e4]
  by_cases e5 : k = b!"Bold"
  · rw [if_pos e5]; exact ⟨_, rfl⟩
  rw [if_neg e5]
  by_cases e6 : k = b!"Italic"
  · rw [if_pos e6]; exact ⟨_, rfl⟩
  rw [if_neg e6]
  by_cases e7 : k = b!"Underline"
  · rw [if_pos e7]; exact ⟨_, rfl⟩
  rw [if_neg e7]
  by_cases e8 : k = b!"BorderStyle"
  · rw [if_pos e8]; exact ⟨_, rfl⟩
  rw [if_neg e8]
  by_cases e9 : k = b!"Alignment"
  · rw [if_pos e9]; exact ⟨_, rfl⟩
  rw [if_neg e9]
  by_cases e10 : k = b!"MarginV"
  · rw [if_pos e10]; obtain ⟨i, hi⟩ := h1 (by rw [e10]; decide); exact ⟨_, by rw [hi]; rfl⟩
  rw [if_neg e10]
  by_cases e11 : k = b!"MarginL"
  · rw [if_pos e11]; obtain ⟨i, hi⟩ := h1 (by rw [e11]; decide); exact ⟨_, by rw [hi]; rfl⟩
  rw [if_neg e11]
  by_cases e12 : k = b!"MarginR"
  · rw [if_pos e12]; obtain ⟨i, hi⟩ := h1 (by rw [e12]; decide); exact ⟨_, by rw [hi]; rfl⟩
  rw [if_neg e12]
  exact ⟨_, rfl⟩

private theorem fields_ok {cols : List (Str × Str)} (h : ∀ c ∈ cols, Readable c) (s : SsaStyle) : ∃ s', fieldsC s cols = .ok s' := by
  induction cols generalizing s with
  | nil => exact ⟨s, rfl⟩
  | cons c cols ih =>
    obtain ⟨t, ht⟩ := field_ok (s := s) (h c (by simp))
    obtain ⟨s', hs'⟩ := ih (fun c hc => h c (by simp [hc])) t
    exact ⟨s', by show (s.field c.1 c.2 >>= fun t => fieldsC t cols) = _; rw [ht]; exact hs'⟩

private theorem numberOf_unique {cols : List (Str × Str)} {k : Str} {d x y : Int} (h : NumberOf cols k d x) (h' : NumberOf cols k d y) : x = y := by
  unfold NumberOf at h h'
  cases hc : lastColumn cols k with
  | none => rw [hc] at h h'; exact h.trans h'.symm
  | some v => rw [hc] at h h'; simp only at h h'; rw [h] at h'; cases h'; rfl

private theorem flagOf_unique {cols : List (Str × Str)} {k : Str} {x y : Bool} (h : FlagOf cols k x) (h' : FlagOf cols k y) : x = y := by
  unfold FlagOf at h h'
  exact Bool.eq_iff_iff.2 (h.trans h'.symm)

private theorem decSpec_inj {a b : Nat} (h : decSpec a = decSpec b) : a = b := by
  rw [← natDec_eq_decSpec, ← natDec_eq_decSpec] at h
  have := congrArg decVal h
  rwa [decVal_natDec, decVal_natDec] at this

private theorem keyOf_unique {v : Str} {h h' : HRef} {w w' : VRef} (a : KeyOf v h w) (b : KeyOf v h' w') : h = h' ∧ w = w' := by
  rcases a with ⟨k, k1, k2, rfl, rfl, rfl⟩ | ⟨hn, rfl, rfl⟩
  · rcases b with ⟨j, j1, j2, e, rfl, rfl⟩ | ⟨hn, rfl, rfl⟩
    · have := decSpec_inj e; subst this; exact ⟨rfl, rfl⟩
    · exact absurd rfl (hn k k1 k2)
  · rcases b with ⟨j, j1, j2, e, rfl, rfl⟩ | ⟨-, rfl, rfl⟩
    · exact absurd e (hn j j1 j2)
    · exact ⟨rfl, rfl⟩

/-- Columns describe one style at most. -/
theorem StyleOf.unique {cols : List (Str × Str)} {s t : SsaStyle} (h : StyleOf cols s) (h' : StyleOf cols t) : s = t := by
  have e1 := h.name.trans h'.name.symm
  have e2 := h.font.trans h'.font.symm
  have e3 := numberOf_unique h.size h'.size
  have e4 : s.primaryColour = t.primaryColour := by
    have a := h.primary; have b := h'.primary
    cases hc : lastColumn cols b!"PrimaryColour" with
    | none => rw [hc] at a b; exact a.trans b.symm
    | some v => rw [hc] at a b; exact Except.ok.inj (a.symm.trans b)
  have e5 : s.backColour = t.backColour := by
    have a := h.back; have b := h'.back
    cases hc : lastColumn cols b!"BackColour" with
    | none => rw [hc] at a b; exact a.trans b.symm
    | some v =>
      rw [hc] at a b
      obtain ⟨x, hx, a⟩ := a
      obtain ⟨y, hy, b⟩ := b
      rw [hx] at hy; cases hy; exact a.trans b.symm
  have e6 := flagOf_unique h.bold h'.bold
  have e7 := flagOf_unique h.italic h'.italic
  have e8 := flagOf_unique h.underline h'.underline
  have e9 := h.effect.trans h'.effect.symm
  have e10 : s.href = t.href ∧ s.vref = t.vref := by
    have a := h.align; have b := h'.align
    cases hc : lastColumn cols b!"Alignment" with
    | none => rw [hc] at a b; exact ⟨a.1.trans b.1.symm, a.2.trans b.2.symm⟩
    | some v => rw [hc] at a b; exact keyOf_unique a b
  have e11 := numberOf_unique h.vmargin h'.vmargin
  have e12 := numberOf_unique h.lmargin h'.lmargin
  have e13 := numberOf_unique h.rmargin h'.rmargin
  obtain ⟨e10, e14⟩ := e10
  cases s; cases t
  simp only at e1 e2 e3 e4 e5 e6 e7 e8 e9 e10 e11 e12 e13 e14
  subst e1 e2 e3 e4 e5 e6 e7 e8 e9 e10 e11 e12 e13 e14
  rfl

private theorem make_fields (names values : List Str) (hn : ∀ n ∈ names, (44 : Byte) ∉ n) (hv : ∀ v ∈ values, (44 : Byte) ∉ v) (h0 : names ≠ []) (hl : names.length = values.length) :
    SsaStyle.make (commas names) (commas values) = fieldsC {} (columns names values) := by
  have h0' : values ≠ [] := by rintro rfl; exact h0 (List.length_eq_zero_iff.1 hl)
  unfold SsaStyle.make
  rw [split_commas names h0 hn, split_commas values h0' hv]
  have a1 : (!names.isEmpty) = true := by simpa using h0
  have a2 : (!values.isEmpty) = true := by simpa using h0'
  have a3 : (names.length == values.length) = true := by simpa using hl
  simp only [a1, a2, a3]
  rw [fields_trim]
  rfl

/-! ### C101 -/

/-- C101: numbers in a style are read from the start of the text; without one the value is 0, and one that an `int` cannot hold is undefined behaviour. -/
theorem C101_number (v : Str) : (∀ i, LeadingNumber v i → rawConvertInt v = if InInt i then .ok i else .error (.ub .scanfRange)) ∧ ((∀ i, ¬ LeadingNumber v i) → rawConvertInt v = .ok 0) :=
  ⟨fun _ h => raw_number h, raw_no_number⟩

example : LeadingNumber b!" -12px" (-12) := ⟨b!" ", b!"-", b!"12", b!"px", rfl, by decide, by decide, by decide, by decide, .inr ⟨rfl, by decide⟩⟩

private theorem byteComp_int (i : Int) (k : Nat) : byteComp i k = component (i / 2 ^ (8 * k) % 256).toNat := by
  have h1 := Int.emod_nonneg (i / 2 ^ (8 * k)) (show (256 : Int) ≠ 0 by norm_num)
  have h2 := Int.emod_lt_of_pos (i / 2 ^ (8 * k)) (show (0 : Int) < 256 by norm_num)
  have e : byteComp i k = byteComp (((i / 2 ^ (8 * k) % 256).toNat : Nat) : Int) 0 := by
    unfold byteComp
    rw [Int.fdiv_eq_ediv_of_nonneg _ (by positivity), Int.fmod_eq_emod_of_nonneg _ (by norm_num), Int.toNat_of_nonneg h1, Int.fdiv_eq_ediv_of_nonneg _ (by positivity), Int.fmod_eq_emod_of_nonneg _ (by norm_num)]
    norm_num
  rw [e, byteComp_eq]
  congr 1
  omega

/-- C101: a colour in a style is either `&H` and more (see C48), or a number whose three lowest bytes are red, green and blue; `&` without `H` is an error. -/
theorem C101_colour (v : Str) :
    (b!"&H" <+: v → ∃ c, SsaStyle.colour v = .ok c) ∧ (b!"&" <+: v → ¬ b!"&H" <+: v → SsaStyle.colour v = .error (.ssa (b!"Badly formatted colour tag " ++ v))) ∧
    (¬ b!"&" <+: v → (∀ i, rawConvertInt v = .ok i → SsaStyle.colour v = .ok ⟨component (i % 256).toNat, component (i / 256 % 256).toNat, component (i / 65536 % 256).toNat⟩) ∧
      (∀ e, rawConvertInt v = .error e → SsaStyle.colour v = .error e)) := by
  refine ⟨?_, ?_, ?_⟩
  · rintro ⟨t, rfl⟩
    exact ⟨_, rfl⟩
  · rintro ⟨t, rfl⟩ h
    show hColour (38 :: t) = _
    unfold hColour
    split
    · rename_i t' e
      cases e
      exact absurd ⟨t', rfl⟩ h
    · rfl
  · intro h
    have hc : SsaStyle.colour v = (do let i ← rawConvertInt v; pure ⟨byteComp i 0, byteComp i 1, byteComp i 2⟩) := by
      unfold SsaStyle.colour
      split
      · rename_i t
        exact absurd ⟨t, rfl⟩ h
      · rfl
    constructor
    · intro i hi
      rw [hc, hi, ok_bind, byteComp_int, byteComp_int, byteComp_int]
      norm_num
    · intro e he
      rw [hc, he]
      rfl

example : SsaStyle.colour b!"-1" = .ok ⟨component 255, component 255, component 255⟩ := ((C101_colour b!"-1").2.2 (by decide)).1 (-1) rfl
example : SsaStyle.colour b!"&FF" = .error (.ssa b!"Badly formatted colour tag &FF") := (C101_colour b!"&FF").2.1 (by decide) (by decide)

/-- C101: a style line with as many values as the format line has names gives a style exactly if its numbers and colours can be read, and then every property comes from the (last) column of its
name; properties without a column have their defaults and columns of other names mean nothing. -/
theorem C101_style (names values : List Str) (hn : ∀ n ∈ names, (44 : Byte) ∉ n) (hv : ∀ v ∈ values, (44 : Byte) ∉ v) (h0 : names ≠ []) (hl : names.length = values.length) (s : SsaStyle) :
    SsaStyle.make (commas names) (commas values) = .ok s ↔ (∀ c ∈ columns names values, Readable c) ∧ StyleOf (columns names values) s := by
  rw [make_fields names values hn hv h0 hl]
  constructor
  · intro h
    exact ⟨readable_of h, style_of h⟩
  · rintro ⟨h1, h2⟩
    obtain ⟨t, ht⟩ := fields_ok h1 {}
    rw [ht, (style_of ht).unique h2]

example : ∃ s, SsaStyle.make b!"Name, Bold, Fontsize, Outline, Alignment" b!"Big,-1, 40,2,8" = .ok s ∧ s = { name := b!"Big", bold := true, fontSize := 40, vref := .topOfScreen } ∧
    (∀ n ∈ [b!"Name", b!" Bold", b!" Fontsize", b!" Outline", b!" Alignment"], (44 : Byte) ∉ n) ∧ commas [b!"Name", b!" Bold", b!" Fontsize", b!" Outline", b!" Alignment"] = b!"Name, Bold, Fontsize, Outline, Alignment" :=
  ⟨_, rfl, rfl, by decide, rfl⟩

/-- C101: a later `BorderStyle` does not undo an earlier one: the effect is there if any such column says so. -/
example : ∃ s, SsaStyle.make b!"BorderStyle,BorderStyle" b!"1,3" = .ok s ∧ s.effect = some .shadow := ⟨_, rfl, rfl⟩

/-- C101: otherwise the programming-error exception is thrown. -/
theorem C101_count (names values : List Str) (hn : ∀ n ∈ names, (44 : Byte) ∉ n) (hv : ∀ v ∈ values, (44 : Byte) ∉ v) (h0 : names ≠ []) (h1 : values ≠ []) (hl : names.length ≠ values.length) :
    SsaStyle.make (commas names) (commas values) = .error .programming := by
  unfold SsaStyle.make
  rw [split_commas names h0 hn, split_commas values h1 hv]
  have a1 : (!names.isEmpty) = true := by simpa using h0
  have a2 : (!values.isEmpty) = true := by simpa using h1
  have a3 : (names.length == values.length) = false := by simpa using hl
  simp only [a1, a2, a3]
  rfl

example : SsaStyle.make b!"Name,Bold" b!"Big" = .error .programming := C101_count [b!"Name", b!"Bold"] [b!"Big"] (by decide) (by decide) (by decide) (by decide) (by decide)

private theorem lastColumn_perm {c d : List (Str × Str)} (hp : c.Perm d) (hd : (c.map Prod.fst).Nodup) (key : Str) : lastColumn c key = lastColumn d key := by
  have hf : (c.filter (fun x => x.1 = key)).Perm (d.filter (fun x => x.1 = key)) := hp.filter _
  have hlen : (c.filter (fun x => x.1 = key)).length ≤ 1 := by
    induction c generalizing d with
    | nil => simp
    | cons a c ih =>
      rw [List.map_cons, List.nodup_cons] at hd
      by_cases ha : a.1 = key
      · rw [List.filter_cons_of_pos (by simpa using ha)]
        have : c.filter (fun x => x.1 = key) = [] := by
          rw [List.filter_eq_nil_iff]
          intro x hx hk
          exact hd.1 (by rw [ha, ← of_decide_eq_true hk]; exact List.mem_map_of_mem hx)
        simp [this]
      · rw [List.filter_cons_of_neg (by simpa using ha)]
        exact ih (List.Perm.refl c) hd.2 (List.Perm.refl _)
  unfold lastColumn
  generalize c.filter (fun x => x.1 = key) = l at hf hlen ⊢
  match l, hlen with
  | [], _ => rw [hf.symm.eq_nil]
  | [a], _ => rw [List.singleton_perm.1 hf]

private theorem styleOf_perm {c d : List (Str × Str)} (hp : c.Perm d) (hd : (c.map Prod.fst).Nodup) {s : SsaStyle} (h : StyleOf c s) : StyleOf d s := by
  have e := lastColumn_perm hp hd
  exact
    { name := e _ ▸ h.name
      font := e _ ▸ h.font
      size := by have := h.size; unfold NumberOf at this ⊢; rwa [e] at this
      primary := by have := h.primary; rwa [e] at this
      back := by have := h.back; rwa [e] at this
      bold := by have := h.bold; unfold FlagOf at this ⊢; rwa [e] at this
      italic := by have := h.italic; unfold FlagOf at this ⊢; rwa [e] at this
      underline := by have := h.underline; unfold FlagOf at this ⊢; rwa [e] at this
      effect := by rw [h.effect]; simp only [hp.mem_iff]
      align := by have := h.align; rwa [e] at this
      vmargin := by have := h.vmargin; unfold NumberOf at this ⊢; rwa [e] at this
      lmargin := by have := h.lmargin; unfold NumberOf at this ⊢; rwa [e] at this
      rmargin := by have := h.rmargin; unfold NumberOf at this ⊢; rwa [e] at this }

/-- C101: the order of the columns is of no importance, provided that their names differ. -/
theorem C101_order (names values names' values' : List Str) (hn : ∀ n ∈ names, (44 : Byte) ∉ n) (hv : ∀ v ∈ values, (44 : Byte) ∉ v) (h0 : names ≠ []) (hl : names.length = values.length)
    (hl' : names'.length = values'.length) (hp : (names.zip values).Perm (names'.zip values')) (hd : (names.map trim).Nodup) (s : SsaStyle) :
    SsaStyle.make (commas names) (commas values) = .ok s ↔ SsaStyle.make (commas names') (commas values') = .ok s := by
  have zip_col : ∀ a b : List Str, columns a b = (a.zip b).map (fun c => (trim c.1, trim c.2)) := by
    intro a b; unfold columns; rw [List.zip_map]; rfl
  have e1 : ∀ a b : List Str, a.length = b.length → (a.zip b).map Prod.fst = a := fun a b h => List.map_fst_zip (le_of_eq h)
  have e2 : ∀ a b : List Str, a.length = b.length → (a.zip b).map Prod.snd = b := fun a b h => List.map_snd_zip (le_of_eq h.symm)
  have p1 : names.Perm names' := by have := hp.map Prod.fst; rwa [e1 _ _ hl, e1 _ _ hl'] at this
  have p2 : values.Perm values' := by have := hp.map Prod.snd; rwa [e2 _ _ hl, e2 _ _ hl'] at this
  have hn' : ∀ n ∈ names', (44 : Byte) ∉ n := fun n h => hn n (p1.mem_iff.2 h)
  have hv' : ∀ n ∈ values', (44 : Byte) ∉ n := fun n h => hv n (p2.mem_iff.2 h)
  have h0' : names' ≠ [] := by rintro rfl; exact h0 p1.eq_nil
  have pc : (columns names values).Perm (columns names' values') := by rw [zip_col, zip_col]; exact hp.map _
  have dc : ((columns names values).map Prod.fst).Nodup := by
    unfold columns
    rw [List.map_fst_zip (by simp [hl])]
    exact hd
  have dc' : ((columns names' values').map Prod.fst).Nodup := (pc.map Prod.fst).nodup_iff.1 dc
  rw [C101_style names values hn hv h0 hl, C101_style names' values' hn' hv' h0' hl']
  constructor
  · rintro ⟨a, b⟩; exact ⟨fun c hc => a c (pc.mem_iff.2 hc), styleOf_perm pc dc b⟩
  · rintro ⟨a, b⟩; exact ⟨fun c hc => a c (pc.mem_iff.1 hc), styleOf_perm pc.symm dc' b⟩

example (s : SsaStyle) : SsaStyle.make b!"Name,Bold,Italic" b!"Big,-1,0" = .ok s ↔ SsaStyle.make b!"Italic,Name,Bold" b!"0,Big,-1" = .ok s :=
  C101_order [b!"Name", b!"Bold", b!"Italic"] [b!"Big", b!"-1", b!"0"] [b!"Italic", b!"Name", b!"Bold"] [b!"0", b!"Big", b!"-1"] (by decide) (by decide) (by decide) rfl rfl (by decide) (by decide) s

end LibSub
