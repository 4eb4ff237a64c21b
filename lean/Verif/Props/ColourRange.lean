/-
Property C102: components of the colours that readers report.
-/
import Verif.Props.SsaColumns
import Verif.Props.Collectable

namespace LibSub

/-! ### Specification -/

/-- All components are within [0, 1]. -/
def Colour.Within (c : Colour) : Prop := ∀ x ∈ [c.r, c.g, c.b], 0 ≤ x ∧ x ≤ 1

/-- The colour of the text and that of the effect, if there is one, are as `P` says. -/
def Raw.ColoursAre (P : Colour → Prop) (r : Raw) : Prop := P r.colour ∧ ∀ c, r.effectColour = some c → P c

/-- The lines (without space around them and byte order mark) that stand in a section for styles; `inside` tells whether the first one does. -/
def styleSection (inside : Bool) : List Str → List Str
  | [] => []
  | l :: ls =>
    let c := removeBom (trim l)
    if c = b!"[V4 Styles]" ∨ c = b!"[V4+ Styles]" then styleSection true ls
    else if c = b!"[Script Info]" ∨ c = b!"[Events]" then styleSection false ls
    else if inside then c :: styleSection true ls
    else styleSection false ls

/-- Among the names in the format lines for styles is always `PrimaryColour`. -/
def PrimaryNamed (lines : List Str) : Prop :=
  ∀ c ∈ styleSection false lines, ∀ body, c = b!"Format:" ++ body → ∃ names, (∀ n ∈ names, (44 : Byte) ∉ n) ∧ trim body = commas names ∧ b!"PrimaryColour" ∈ names.map trim

/-! ### Colours in text -/

private theorem white_within : (⟨1, 1, 1⟩ : Colour).Within := by intro x hx; simp at hx; subst hx; norm_num

private theorem component_within {a b c : Nat} (ha : a < 256) (hb : b < 256) (hc : c < 256) : (⟨component a, component b, component c⟩ : Colour).Within := by
  intro x hx
  simp only [List.mem_cons, List.not_mem_nil, or_false] at hx
  rcases hx with rfl | rfl | rfl
  · exact C72_component.2.2.1 a ha
  · exact C72_component.2.2.1 b hb
  · exact C72_component.2.2.1 c hc

private theorem xdigit_hexOf (c : Byte) (h : isXDigit c = true) : ∃ n, hexOf c = some n ∧ n < 16 := by
  have := forall_byte (p := fun c => isXDigit c = true → (hexOf c).any (fun n => n < 16) = true) (by decide +kernel) c h
  cases hc : hexOf c with
  | none => rw [hc] at this; cases this
  | some n => rw [hc] at this; exact ⟨n, rfl, of_decide_eq_true this⟩

private theorem hex6 {g : Str} {x : Colour} (hg : ∀ c ∈ g, isXDigit c = true) (hl : g.length = 6) (h : Colour.fromRgbHex g = .ok x) : x.Within := by
  match g, hl with
  | [a, b, c, d, e, f], _ =>
    obtain ⟨n1, h1, l1⟩ := xdigit_hexOf a (hg a (by simp))
    obtain ⟨n2, h2, l2⟩ := xdigit_hexOf b (hg b (by simp))
    obtain ⟨n3, h3, l3⟩ := xdigit_hexOf c (hg c (by simp))
    obtain ⟨n4, h4, l4⟩ := xdigit_hexOf d (hg d (by simp))
    obtain ⟨n5, h5, l5⟩ := xdigit_hexOf e (hg e (by simp))
    obtain ⟨n6, h6, l6⟩ := xdigit_hexOf f (hg f (by simp))
    rw [C72_rgb a b c d e f _ _ _ _ _ _ [] h1 h2 h3 h4 h5 h6] at h
    cases h
    exact component_within (by omega) (by omega) (by omega)

private theorem hex8 {g : Str} {x : Colour} (hg : ∀ c ∈ g, isXDigit c = true) (hl : g.length = 8) (h : Colour.fromRgbaHex g = .ok x) : x.Within := by
  match g, hl with
  | [a, b, c, d, e, f, i, j], _ =>
    obtain ⟨n1, h1, l1⟩ := xdigit_hexOf a (hg a (by simp))
    obtain ⟨n2, h2, l2⟩ := xdigit_hexOf b (hg b (by simp))
    obtain ⟨n3, h3, l3⟩ := xdigit_hexOf c (hg c (by simp))
    obtain ⟨n4, h4, l4⟩ := xdigit_hexOf d (hg d (by simp))
    obtain ⟨n5, h5, l5⟩ := xdigit_hexOf e (hg e (by simp))
    obtain ⟨n6, h6, l6⟩ := xdigit_hexOf f (hg f (by simp))
    obtain ⟨n7, h7, l7⟩ := xdigit_hexOf i (hg i (by simp))
    obtain ⟨n8, h8, l8⟩ := xdigit_hexOf j (hg j (by simp))
    rw [C72_rgba a b c d e f i j _ _ _ _ _ _ _ _ [] h1 h2 h3 h4 h5 h6 h7 h8] at h
    cases h
    exact component_within (by omega) (by omega) (by omega)

private theorem lastMatch_at {α : Type} {f : Str → Option α} {s : Str} {r : α} (h : lastMatch f s = some r) : ∃ t, f t = some r ∧ ∀ x ∈ t, x ∈ s := by
  induction s with
  | nil => exact ⟨[], h, by simp⟩
  | cons c cs ih =>
    rw [lastMatch] at h
    split at h
    · rename_i r' hr
      cases h
      obtain ⟨t, ht, hs⟩ := ih hr
      exact ⟨t, ht, fun x hx => List.mem_cons_of_mem _ (hs x hx)⟩
    · exact ⟨c :: cs, h, fun x hx => hx⟩

private theorem hexAt_digits {s g : Str} (h : fontHexAt s = some g) : ∀ c ∈ g, isXDigit c = true := by
  unfold fontHexAt at h
  split at h
  · simp only at h
    split at h
    · split at h
      · cases h
      · cases h
        exact fun c hc => List.mem_takeWhile_imp hc
    · cases h
  · cases h

private theorem rgbaAt_paren {s : Str} {x : Str × Str × Str} (h : fontRgbaAt s = some x) : (40 : Byte) ∈ s := by
  unfold fontRgbaAt at h
  split at h
  · rename_i hs
    obtain ⟨t, rfl⟩ := List.isPrefixOf_iff_prefix.1 hs
    simp
  · cases h

private theorem fontColour_within {n : Nat} {ctx : List Str} {tag : Str} {c : Colour} (hp : (40 : Byte) ∉ tag) (h : fontColour n ctx tag = .ok c) : c.Within := by
  unfold fontColour at h
  split at h
  · rename_i g hg
    obtain ⟨t, ht, -⟩ := lastMatch_at hg
    have hd := hexAt_digits ht
    split at h
    · exact hex6 hd (by assumption) h
    · split at h
      · exact hex8 hd (by assumption) h
      · cases h
  · split at h
    · rename_i hr
      obtain ⟨t, ht, hs⟩ := lastMatch_at hr
      exact absurd (hs _ (rgbaAt_paren ht)) hp
    · cases h

/-! ### SSA tags -/

/-- An SSA tag leaves the colour as it is, or sets one that is within range, or that of the style. -/
private theorem updateH_colours {ctx : SsaContext} {sub r : Raw} (h : ctx.updateH sub = .ok r) : r.colour = sub.colour ∧ r.effectColour = sub.effectColour := by
  unfold SsaContext.updateH at h
  simp only [] at h
  split at h
  · rw [bind_eq_ok] at h
    obtain ⟨_, _, h⟩ := h
    cases h; exact ⟨rfl, rfl⟩
  · simp only [bind_eq_ok] at h
    obtain ⟨_, _, _, _, _, _, h⟩ := h
    cases h; exact ⟨rfl, rfl⟩
  · rw [bind_eq_ok] at h
    obtain ⟨_, _, h⟩ := h
    cases h; exact ⟨rfl, rfl⟩

private theorem parseTag_colours {P : Colour → Prop} (hP : ∀ c : Colour, c.Within → P c) (ctx : SsaContext) (hctx : P ctx.primaryColour) (sub : Raw) (tag : Str) (hs : sub.ColoursAre P) :
    OkIn (fun r : Raw => r.ColoursAre P) (ssaParseTag ctx sub tag) := by
  have hal : ∀ {a b}, OkIn (fun r : Raw => r.ColoursAre P) (ssaAlign ctx sub a b) := by
    intro a b
    constructor
    intro r h
    have := updateH_colours h
    unfold Raw.ColoursAre
    rw [this.1, this.2]
    exact hs
  unfold ssaParseTag
  refine .ite (.ok hs) (.ite (.ok hs) (.ite (.ok hs) (.ite (.ok hs) (.ite (.ok hs) (.ite (.ok hs) (.ite hal (.ite hal (.ite hal (.ite hal (.ite hal
    (.ite hal (.ite hal (.ite hal (.ite hal (.ite ?_ (.ite ?_ (.ite (.ite ?_ (.ok ⟨hctx, hs.2⟩)) (.ok hs))))))))))))))))))
  · split
    · exact .bind fun _ _ => .bind fun _ _ => .bind fun _ _ => .bind fun _ _ => .ok hs
    · exact .error
  · exact .bind fun _ _ => .bind fun _ _ => .bind fun _ _ => .ok hs
  · exact .bind fun c hc => .ok ⟨hP c (C48_range _ c (.inl hc)), hs.2⟩

/-! ### SubRip -/

private def SrtLine.Cols (P : Colour → Prop) (s : SrtLine) : Prop := s.p.ColoursAre P ∧ (∀ c ∈ s.colours, P c) ∧ ∀ r ∈ s.subs, r.ColoursAre P

private theorem content_cols {P} {s : SrtLine} (h : s.Cols P) : s.maybeContent.Cols P := by
  unfold SrtLine.maybeContent
  split
  · exact h
  · refine ⟨h.1, h.2.1, ?_⟩
    intro r hr
    simp only [List.mem_append, List.mem_singleton] at hr
    rcases hr with hr | rfl
    · exact h.2.2 r hr
    · exact h.1

private theorem exec_cols {P} (hP : ∀ c : Colour, c.Within → P c) {n : Nat} {ctx : List Str} {s s' : SrtLine} {t : Tok} (h : s.Cols P)
    (ht : ∀ tag, t = .fontOpen tag → ∀ c, fontColour n ctx tag = .ok c → P c) (he : s.exec n ctx t = .ok s') : s'.Cols P := by
  have hm := content_cols h
  cases t with
  | fontOpen tag =>
    obtain ⟨c, h1, h2⟩ := bind_eq_ok.1 he
    cases h2
    have hc := ht tag rfl c h1
    refine ⟨⟨hc, hm.1.2⟩, ?_, hm.2.2⟩
    intro x hx
    simp only [List.mem_append, List.mem_singleton] at hx
    rcases hx with hx | rfl
    · exact hm.2.1 x hx
    · exact hc
  | fontClose =>
    unfold SrtLine.exec at he
    simp only at he
    split at he
    · cases he; exact hm
    · split at he
      · rename_i c hc
        cases he
        refine ⟨⟨hm.2.1 c (List.mem_of_mem_dropLast (List.mem_of_getLast? hc)), hm.1.2⟩, ?_, hm.2.2⟩
        exact fun x hx => hm.2.1 x (List.mem_of_mem_dropLast hx)
      · cases he
  | ssa tag =>
    obtain ⟨c, h1, h2⟩ := bind_eq_ok.1 he
    cases h2
    exact ⟨(parseTag_colours hP _ (hP _ white_within) _ _ h.1).h c h1, h.2⟩
  | chr c => cases he; exact h
  | _ => cases he; exact hm

private theorem nextTok_font (c : Byte) (cs : Str) (x : Str) (h : (nextTok c cs).1 = .fontOpen x) : ∀ y ∈ x, y ∈ c :: cs := by
  unfold nextTok at h
  simp only at h
  repeat' split at h
  all_goals first
    | contradiction
    | (cases h; intro y hy; exact List.mem_of_mem_drop ((List.takeWhile_sublist _).subset hy))

/-- The colours that the tags in `t` can set. -/
private def TagsAre (P : Colour → Prop) (t : Str) : Prop := ∀ n ctx tag, (∀ y ∈ tag, y ∈ t) → ∀ c, fontColour n ctx tag = .ok c → P c

private theorem loop_cols {P} (hP : ∀ c : Colour, c.Within → P c) {n : Nat} {ctx : List Str} {f : Nat} {s s' : SrtLine} {t : Str} (ht : TagsAre P t) (h : s.Cols P) (he : srtLoop n ctx f s t = .ok s') :
    s'.Cols P := by
  induction f generalizing s t with
  | zero => cases t <;> (cases he; exact h)
  | succ f ih =>
    cases t with
    | nil => cases he; exact h
    | cons c cs =>
      obtain ⟨s1, h1, h2⟩ := bind_eq_ok.1 he
      refine ih ?_ (exec_cols hP h ?_ h1) h2
      · exact fun n ctx tag hm => ht n ctx tag (fun y hy => nextTok_sub c cs _ (hm y hy))
      · exact fun tag hx => ht n ctx tag (nextTok_font c cs tag hx)

private theorem convertLine_cols {P} (hP : ∀ c : Colour, c.Within → P c) {n : Nat} {ctx : List Str} {t : Str} {p : Raw} {subs : List Raw} {q : Raw × List Raw} (ht : TagsAre P t)
    (hp : p.ColoursAre P) (h : ∀ r ∈ subs, r.ColoursAre P) (he : convertLine n ctx t p subs = .ok q) : q.1.ColoursAre P ∧ ∀ r ∈ q.2, r.ColoursAre P := by
  obtain ⟨s, h1, h2⟩ := bind_eq_ok.1 he
  cases h2
  have : s.Cols P := loop_cols hP (s := ⟨p, [⟨1, 1, 1⟩], subs⟩) ht ⟨hp, by intro c hc; simp at hc; subst hc; exact hP _ white_within, h⟩ h1
  have := content_cols (s := ⟨{ s.p with text := replaceAll s.p.text rle [] }, s.colours, s.subs⟩) this
  exact ⟨this.1, this.2.2⟩

private theorem convertSubLines_cols {P} (hP : ∀ c : Colour, c.Within → P c) {n : Nat} {ctx : List Str} {ts : List Str} {p : Raw} {subs : List Raw} {q : Raw × List Raw} (ht : ∀ t ∈ ts, TagsAre P t)
    (hp : p.ColoursAre P) (h : ∀ r ∈ subs, r.ColoursAre P) (he : convertSubLines n ctx ts p subs = .ok q) : q.1.ColoursAre P ∧ ∀ r ∈ q.2, r.ColoursAre P := by
  induction ts generalizing p subs with
  | nil => cases he; exact ⟨hp, h⟩
  | cons t ts ih =>
    obtain ⟨q1, h1, h2⟩ := bind_eq_ok.1 he
    obtain ⟨l, _, h3⟩ := bind_eq_ok.1 h2
    obtain ⟨l', _, h4⟩ := bind_eq_ok.1 h3
    obtain ⟨h5, h6⟩ := convertLine_cols hP (ht t (by simp)) hp h h1
    exact ih (p := { q1.1 with vpos := { q1.1.vpos with line := some l' }, text := [] }) (fun t h => ht t (by simp [h])) h5 h6 h4

private theorem metadata_cols {P} {n : Nat} {ctx rest : List Str} {line : Str} {rs r : Raw} (hrs : rs.ColoursAre P) (h : srtMetadata n ctx line rest rs = .ok r) : r.ColoursAre P := by
  unfold srtMetadata at h
  simp only at h
  split at h
  · cases h
  · obtain ⟨a, h1, h2⟩ := bind_eq_ok.1 h
    split at h2
    · cases h2
    · obtain ⟨b, h3, h4⟩ := bind_eq_ok.1 h2
      split at h4
      · cases h4
      · cases h4
        exact hrs

private theorem fresh_cols {P} (hP : ∀ c : Colour, c.Within → P c) : srtFresh.ColoursAre P := ⟨hP _ white_within, by intro c hc; cases hc⟩

private theorem fold_cols {P} (hP : ∀ c : Colour, c.Within → P c) {ls : List Str} {s s' : SrtSt} (ht : ∀ l ∈ ls, TagsAre P l) (h : s.2.1.ColoursAre P ∧ ∀ r ∈ s.2.2, r.ColoursAre P)
    (he : srtFold s ls = .ok s') : s'.2.1.ColoursAre P ∧ ∀ r ∈ s'.2.2, r.ColoursAre P := by
  induction ls generalizing s with
  | nil => cases he; exact h
  | cons l ls ih =>
    obtain ⟨s1, h1, h2⟩ := bind_eq_ok.1 he
    refine ih (fun l hl => ht l (by simp [hl])) ?_ h2
    obtain ⟨ha, hc⟩ := h
    unfold srtStep at h1
    split at h1
    · split at h1
      · cases h1; exact ⟨ha, hc⟩
      · cases h1; exact ⟨fresh_cols hP, hc⟩
    · obtain ⟨r, h4, h3⟩ := bind_eq_ok.1 h1
      cases h3
      exact ⟨metadata_cols ha h4, hc⟩
    · split at h1
      · cases h1; exact ⟨ha, hc⟩
      · obtain ⟨r, h4, h3⟩ := bind_eq_ok.1 h1
        cases h3
        exact convertSubLines_cols hP (fun t h n ctx tag hm => ht l (by simp) n ctx tag (fun y hy => cleanLine_mem l _ (splitStrGo_mem _ _ 0 t h _ (hm y hy)))) ha hc h4

private theorem srt_cols {P} (hP : ∀ c : Colour, c.Within → P c) {lines : List Str} {subs : List Raw} (ht : ∀ l ∈ lines, TagsAre P l) (h : srtRead lines = .ok subs) : ∀ r ∈ subs, r.ColoursAre P := by
  rw [srtRead_ok_iff] at h
  obtain ⟨st, rs, h⟩ := h
  exact (fold_cols hP (s := (.counter, srtFresh, [])) ht ⟨fresh_cols hP, by simp⟩ h).2

/-! Colours in `rgba` -/

private theorem rgba_nonneg {n : Nat} {ctx : List Str} {tag : Str} {c : Colour} (h : fontColour n ctx tag = .ok c) : ∀ x ∈ [c.r, c.g, c.b], 0 ≤ x := by
  by_cases hn : ∃ r g b, lastMatch fontHexAt tag = none ∧ lastMatch fontRgbaAt tag = some (r, g, b)
  · obtain ⟨r, g, b, e1, e2⟩ := hn
    unfold fontColour at h
    rw [e1, e2] at h
    simp only at h
    obtain ⟨t, ht, -⟩ := lastMatch_at e2
    have hd : ∀ {stop : Byte} {s ds rest : Str}, spacedInt stop s = some (ds, rest) → ds ≠ [] ∧ ∀ c ∈ ds, isDigit c = true := by
      intro stop s ds rest h
      unfold spacedInt at h
      simp only at h
      split at h
      · cases h
      · rename_i hne
        split at h
        · split at h
          · cases h
            exact ⟨by simpa using hne, fun c hc => List.mem_takeWhile_imp hc⟩
          · cases h
        · cases h
    have hc : ∀ {ds : Str} {x : ℚ}, (ds ≠ [] ∧ ∀ c ∈ ds, isDigit c = true) → decComp ds = .ok x → 0 ≤ x := by
      intro ds x hds hx
      obtain ⟨i, hi, hx⟩ := bind_eq_ok.1 hx
      cases hx
      have hl : LeadingNumber ds (textVal ds) :=
        ⟨[], [], ds, [], by simp, by simp, hds.1, fun c hc => (isDigit_iff_mem c).1 (hds.2 c hc), (by intro c hc; cases hc), .inl ⟨.inl rfl, rfl⟩⟩
      have h0 : (0 : Int) ≤ i := by
        have := (C101_number ds).1 _ hl
        rw [hi] at this
        split at this
        · cases this; positivity
        · cases this
      have h1 : (0 : ℚ) ≤ i := by exact_mod_cast h0
      exact rnd_nonneg (rnd_nonneg (by positivity))
    have hs : (r ≠ [] ∧ ∀ c ∈ r, isDigit c = true) ∧ (g ≠ [] ∧ ∀ c ∈ g, isDigit c = true) ∧ (b ≠ [] ∧ ∀ c ∈ b, isDigit c = true) := by
      unfold fontRgbaAt at ht
      split at ht
      · split at ht
        · cases ht
        · rename_i r' s1 a1
          split at ht
          · cases ht
          · rename_i g' s2 a2
            split at ht
            · cases ht
            · rename_i b' s3 a3
              split at ht
              · cases ht
              · split at ht
                · cases ht
                  exact ⟨hd a1, hd a2, hd a3⟩
                · cases ht
      · cases ht
    obtain ⟨x1, h1, h⟩ := bind_eq_ok.1 h
    obtain ⟨x2, h2, h⟩ := bind_eq_ok.1 h
    obtain ⟨x3, h3, h⟩ := bind_eq_ok.1 h
    cases h
    intro x hx
    simp only [List.mem_cons, List.not_mem_nil, or_false] at hx
    rcases hx with rfl | rfl | rfl
    · exact hc hs.1 h1
    · exact hc hs.2.1 h2
    · exact hc hs.2.2 h3
  · have hw : c.Within := by
      unfold fontColour at h
      split at h
      · rename_i g hg
        obtain ⟨t, ht, -⟩ := lastMatch_at hg
        have hd := hexAt_digits ht
        split at h
        · exact hex6 hd (by assumption) h
        · split at h
          · exact hex8 hd (by assumption) h
          · cases h
      · rename_i hg
        split at h
        · rename_i r g b hr
          exact absurd ⟨r, g, b, hg, hr⟩ hn
        · cases h
    exact fun x hx => (hw x hx).1

/-! ### WebVTT -/

/-- White, and no effect. -/
private def Plain (r : Raw) : Prop := r.colour = ⟨1, 1, 1⟩ ∧ r.effectColour = none

private theorem plain_within {r : Raw} (h : Plain r) : r.ColoursAre Colour.Within := ⟨by rw [h.1]; exact white_within, by intro c hc; rw [h.2] at hc; cases hc⟩

private theorem timing_plain {ctx rest : List Str} {line : Str} {rs r : Raw} (hrs : Plain rs) (h : vttTiming ctx line rest rs = .ok r) : Plain r := by
  unfold vttTiming at h
  simp only at h
  split at h
  · cases h
  · obtain ⟨a, h1, h2⟩ := bind_eq_ok.1 h
    split at h2
    · cases h2
    · obtain ⟨b, h3, h4⟩ := bind_eq_ok.1 h2
      split at h4
      · cases h4
      · cases h4
        exact hrs

private theorem vttSubLines_plain {ts : List Str} {p : Raw} {subs : List Raw} {q : Raw × List Raw} (hp : Plain p) (h : ∀ r ∈ subs, Plain r) (he : vttSubLines ts p subs = .ok q) :
    Plain q.1 ∧ ∀ r ∈ q.2, Plain r := by
  induction ts generalizing p subs with
  | nil => cases he; exact ⟨hp, h⟩
  | cons t ts ih =>
    obtain ⟨l, _, h3⟩ := bind_eq_ok.1 he
    obtain ⟨l', _, h4⟩ := bind_eq_ok.1 h3
    refine ih (p := { p with text := t, vpos := { p.vpos with line := some l' } }) hp ?_ h4
    intro r hr
    simp only [List.mem_append, List.mem_singleton] at hr
    rcases hr with hr | rfl
    · exact h r hr
    · exact hp

private theorem vttFold_plain {ls : List Str} {s s' : VttSt} (h : Plain s.2.1 ∧ ∀ r ∈ s.2.2, Plain r) (he : vttFold s ls = .ok s') : Plain s'.2.1 ∧ ∀ r ∈ s'.2.2, Plain r := by
  induction ls generalizing s with
  | nil => cases he; exact h
  | cons l ls ih =>
    obtain ⟨s1, h1, h2⟩ := bind_eq_ok.1 he
    refine ih ?_ h2
    obtain ⟨ha, hc⟩ := h
    unfold vttStep at h1
    split at h1
    · split at h1
      · cases h1; exact ⟨ha, hc⟩
      · cases h1
    · split at h1
      · cases h1; exact ⟨ha, hc⟩
      · split at h1
        · obtain ⟨r, h4, h3⟩ := bind_eq_ok.1 h1
          cases h3
          exact ⟨timing_plain ha h4, hc⟩
        · cases h1; exact ⟨ha, hc⟩
    · split at h1
      · cases h1; exact ⟨ha, hc⟩
      · obtain ⟨r, h4, h3⟩ := bind_eq_ok.1 h1
        cases h3
        exact vttSubLines_plain ha hc h4
    · split at h1
      · cases h1; exact ⟨ha, hc⟩
      · cases h1; exact ⟨ha, hc⟩

/-! ### STL text -/

private def StlTextSt.Plain (s : StlTextSt) : Prop := LibSub.Plain s.sub ∧ ∀ r ∈ s.subs, LibSub.Plain r

private theorem push_plain {s : StlTextSt} (h : s.Plain) : s.maybePush.Plain := by
  unfold StlTextSt.maybePush
  split
  · exact h
  · refine ⟨h.1, ?_⟩
    intro r hr
    simp only [List.mem_append, List.mem_singleton] at hr
    rcases hr with hr | rfl
    · exact h.2 r hr
    · exact h.1

private theorem chars_plain (cs : Str) (s s' : StlTextSt) (h : s.Plain) (he : stlTextChars s cs = .ok s') : s'.Plain := by
  suffices key : ∀ n, ∀ cs : Str, cs.length ≤ n → ∀ s s' : StlTextSt, s.Plain → stlTextChars s cs = .ok s' → s'.Plain from key _ cs (Nat.le_refl _) s s' h he
  intro n
  induction n with
  | zero =>
    intro cs hn s s' h he
    have : cs = [] := List.length_eq_zero_iff.1 (by omega)
    subst this
    cases he
    exact h
  | succ n ih =>
    intro cs hn s s' h he
    unfold stlTextChars at he
    split at he
    · cases he; exact h
    · rename_i cs
      rw [bind_eq_ok] at he
      obtain ⟨l, -, he⟩ := he
      rw [bind_eq_ok] at he
      obtain ⟨l', -, he⟩ := he
      refine ih cs (by simpa using hn) _ _ ?_ he
      exact push_plain h
    · cases he; exact push_plain h
    · rename_i d cs
      refine ih cs (by simp at hn; omega) _ _ ?_ he
      have := push_plain h
      split
      · exact this
      · split
        · exact this
        · split <;> exact this
    · rename_i c cs _ _ _
      refine ih cs (by simpa using hn) _ _ ?_ he
      exact h

private theorem set_plain {s s' : StlTextSt} {n v : Str} (hs : s.Plain) (h : s.set n v = .ok s') : s'.Plain := by
  unfold StlTextSt.set at h
  split at h
  · cases h; exact hs
  · split at h
    · cases h; exact hs
    · split at h
      · cases h; exact hs
      · split at h
        · cases h; exact hs
        · split at h
          · rw [bind_eq_ok] at h
            obtain ⟨i, -, h⟩ := h
            cases h; exact hs
          · cases h; exact hs

private theorem textLine_plain (l : Str) (s s' : StlTextSt) (h : s.Plain) (he : stlTextLine s l = .ok s') : s'.Plain := by
  unfold stlTextLine at he
  simp only at he
  split at he
  · cases he; exact h
  · split at he
    · split at he
      · exact set_plain h he
      · cases he; exact h
    · split at he
      · cases he; exact h
      · split at he
        · cases he; exact h
        · split at he
          · cases he; exact h
          · rw [bind_eq_ok] at he
            obtain ⟨f, hf, he⟩ := he
            rw [bind_eq_ok] at he
            obtain ⟨t, ht, he⟩ := he
            split at he
            · rw [bind_eq_ok] at he
              obtain ⟨st, hc, he⟩ := he
              cases he
              refine push_plain (chars_plain _ _ _ ?_ hc)
              exact h
            · cases he; exact h

/-! ### SSA -/

private def SsaLoop.Cols (P : Colour → Prop) (l : SsaLoop) : Prop := l.current.ColoursAre P ∧ ∀ r ∈ l.subs, r.ColoursAre P

private theorem flush_cols {P} {l : SsaLoop} (h : l.Cols P) : l.flush.Cols P := by
  unfold SsaLoop.flush
  split
  · exact h
  · refine ⟨h.1, ?_⟩
    intro r hr
    simp only [List.mem_append, List.mem_singleton] at hr
    rcases hr with hr | rfl
    · exact h.2 r hr
    · exact h.1

private theorem step_cols {P} (hP : ∀ c : Colour, c.Within → P c) (ctx : SsaContext) (hctx : P ctx.primaryColour) (ls : ℚ) (l : SsaLoop) (c : Byte) (h : l.Cols P) :
    OkIn (fun l : SsaLoop => l.Cols P) (ssaStep ctx ls l c) := by
  have hf := flush_cols h
  unfold ssaStep
  split
  · exact .ite (.ok h) (.ite (.ok h) (.ite (.ok h) (.ok h)))
  · exact .ite (.bind fun cur hc => .ok ⟨(parseTag_colours hP ctx hctx _ _ hf.1).h cur hc, hf.2⟩) (.ite (.bind fun cur hc => .ok ⟨(parseTag_colours hP ctx hctx _ _ hf.1).h cur hc, hf.2⟩) (.ok h))
  · exact .ite (.bind fun v _ => .ok hf) (.ok h)

private theorem run_cols {P} (hP : ∀ c : Colour, c.Within → P c) (ctx : SsaContext) (hctx : P ctx.primaryColour) (ls : ℚ) (t : Str) (l l' : SsaLoop) (h : l.Cols P) (he : ssaRun ctx ls l t = .ok l') : l'.Cols P := by
  induction t generalizing l with
  | nil => cases he; exact h
  | cons c cs ih =>
    obtain ⟨m, hm, he⟩ := bind_eq_ok.1 he
    exact ih m ((step_cols hP ctx hctx ls l c h).h m hm) he

private theorem finish_cols {P} {v : VPos} {b : Nat} {ls : ℚ} {rs qs : List Raw} (h : ∀ r ∈ rs, r.ColoursAre P) (he : ssaFinishAll v b ls rs = .ok qs) : ∀ r ∈ qs, r.ColoursAre P := by
  induction rs generalizing qs with
  | nil => cases he; simp
  | cons r rs ih =>
    obtain ⟨x, hx, he⟩ := bind_eq_ok.1 he
    obtain ⟨xs, hxs, he⟩ := bind_eq_ok.1 he
    cases he
    intro q hq
    rcases List.mem_cons.1 hq with rfl | hq
    · obtain ⟨_, _, hx⟩ := bind_eq_ok.1 hx
      obtain ⟨_, _, hx⟩ := bind_eq_ok.1 hx
      cases hx
      exact h r (by simp)
    · exact ih (fun r hr => h r (by simp [hr])) hxs q hq

private theorem parseLine_cols {P} (hP : ∀ c : Colour, c.Within → P c) (ctx : SsaContext) (hctx : P ctx.primaryColour) (base : Raw) (hb : base.ColoursAre P) (t : Str) (subs : List Raw)
    (h : ssaParseLine ctx base t = .ok subs) : ∀ r ∈ subs, r.ColoursAre P := by
  obtain ⟨cur, hc, h⟩ := bind_eq_ok.1 h
  obtain ⟨fs, _, h⟩ := bind_eq_ok.1 h
  obtain ⟨l, hl, h⟩ := bind_eq_ok.1 h
  refine finish_cols ?_ h
  have hcur : cur.ColoursAre P := by
    obtain ⟨u, hu, hc⟩ := bind_eq_ok.1 hc
    have e := updateH_colours hu
    have hu' : u.ColoursAre P := by unfold Raw.ColoursAre; rw [e.1, e.2]; exact hb
    split at hc
    · cases hc; exact hu'
    · obtain ⟨q, _, hc⟩ := bind_eq_ok.1 hc
      cases hc; exact hu'
  exact (flush_cols (run_cols hP ctx hctx _ t { current := cur } l ⟨hcur, by simp⟩ hl)).2

private def SsaEvent.Cols (P : Colour → Prop) (ev : SsaEvent) : Prop := ev.sub.ColoursAre P ∧ (∀ s, ev.style = some s → P s.primaryColour) ∧ ∀ r ∈ ev.subs, r.ColoursAre P

private def SsaRead.Cols (P : Colour → Prop) (r : SsaRead) : Prop := (∀ s ∈ r.styles, P s.2.primaryColour ∧ ∀ c, s.2.backColour = some c → P c) ∧ ∀ x ∈ r.subs, x.ColoursAre P

private theorem lookup_mem {l : List (Str × SsaStyle)} {k : Str} {v : SsaStyle} (h : l.lookup k = some v) : ∃ k', (k', v) ∈ l := by
  induction l with
  | nil => cases h
  | cons a l ih =>
    obtain ⟨x, y⟩ := a
    rw [List.lookup_cons] at h
    split at h
    · cases h; exact ⟨x, by simp⟩
    · obtain ⟨k', hk⟩ := ih h
      exact ⟨k', by simp [hk]⟩

private theorem findStyle_mem {l : List (Str × SsaStyle)} {k : Str} {v : SsaStyle} (h : ssaFindStyle l k = some v) : ∃ k', (k', v) ∈ l := by
  unfold ssaFindStyle at h
  split at h
  · rename_i hl; cases h; exact lookup_mem hl
  · exact lookup_mem h

private theorem eventField_cols {P} (hP : ∀ c : Colour, c.Within → P c) (r : SsaRead) (hr : r.Cols P) (ev : SsaEvent) (k v : Str) (h : ev.Cols P) : OkIn (fun e : SsaEvent => e.Cols P) (ssaEventField r ev k v) := by
  unfold ssaEventField
  refine .ite (.bind fun t ht => .ok h) (.ite (.bind fun t ht => .ok h) (.ite ?_ (.ite (.ite (.bind fun _ _ => .bind fun _ _ => .ok h) (.ok h))
      (.ite (.ite (.bind fun _ _ => .ok h) (.ok h)) (.ite (.ite (.bind fun _ _ => .ok h) (.ok h)) (.ite (.bind fun subs hs => .ok ?_) (.ok h)))))))
  · split
    · exact .ok h
    · rename_i st hst
      obtain ⟨k', hk⟩ := findStyle_mem hst
      have hs := hr.1 _ hk
      have goal : ∀ (f : FontSize) (hp : HPos) (vp : VPos), SsaEvent.Cols P { ev with style := some st, lmargin := st.lmargin, rmargin := st.rmargin, sub := { ev.sub with font := st.fontName, fontSize := f, colour := st.primaryColour, effectColour := st.backColour, bold := st.bold, italic := st.italic, underline := st.underline, effect := st.effect, hpos := hp, vpos := vp } } :=
        fun f hp vp => ⟨⟨hs.1, hs.2⟩, (by intro s hs'; cases hs'; exact hs.1), h.2.2⟩
      unfold ssaApplyStyle
      exact .bind fun _ _ => .ite (.bind fun _ _ => .ok (goal _ _ _)) (.ok (goal _ _ _))
  · refine ⟨h.1, h.2.1, ?_⟩
    intro x hx
    rcases List.mem_append.1 hx with hx | hx
    · exact h.2.2 x hx
    · refine parseLine_cols hP _ ?_ _ h.1 _ _ hs x hx
      cases hst : ev.style with
      | none => exact hP _ white_within
      | some s => exact h.2.1 s hst

private theorem eventFields_cols {P} (hP : ∀ c : Colour, c.Within → P c) (r : SsaRead) (hr : r.Cols P) (l : List (Str × Str)) (ev ev' : SsaEvent) (h : ev.Cols P) (he : ssaEventFields r ev l = .ok ev') : ev'.Cols P := by
  induction l generalizing ev with
  | nil => cases he; exact h
  | cons kv l ih =>
    obtain ⟨k, v⟩ := kv
    rw [ssaEventFields, bind_eq_ok] at he
    obtain ⟨m, hm, he⟩ := he
    exact ih m ((eventField_cols hP r hr ev k v h).h m hm) he

private theorem ssaLine_cols {P} (hP : ∀ c : Colour, c.Within → P c) (r : SsaRead) (raw : Str) (hr : r.Cols P)
    (hst : ∀ body s, SsaStyle.make r.styleFormat body = .ok s → r.styleFormat ≠ [] → P s.primaryColour ∧ ∀ c, s.backColour = some c → P c) : OkIn (fun r : SsaRead => r.Cols P) (ssaLine r raw) := by
  unfold ssaLine
  refine .ite (.ok hr) (.ite (.ite (.ok hr) (.ite (.ok hr) (.ite (.ok hr) (.ok hr)))) ?_)
  split
  · exact .error
  · split
    · exact .ite (.bind fun _ _ => .ok hr) (.ite (.bind fun _ _ => .ok hr) (.ok hr))
    · rename_i hpart
      refine .ite (.ok hr) (.ite (.bind fun u hu => .bind fun s hs => .ok ⟨?_, hr.2⟩) (.ok hr))
      intro x hx
      rcases List.mem_cons.1 hx with rfl | hx
      · refine hst _ s hs ?_
        intro e
        rw [e] at hu
        cases hu
      · exact hr.1 x hx
    · refine .ite (.ok hr) (.ite ?_ (.ok hr))
      unfold ssaDialogue
      refine .bind fun _ _ => .bind fun _ _ => .bind fun _ _ => .bind fun ev hev => .ok ⟨hr.1, ?_⟩
      intro x hx
      rcases List.mem_append.1 hx with hx | hx
      · exact hr.2 x hx
      · exact (eventFields_cols hP r hr _ {} ev ⟨⟨hP _ white_within, by intro c hc; cases hc⟩, (by intro s hs; cases hs), by simp⟩ hev).2.2 x hx

private theorem split_free (p : Byte → Bool) (s : Str) : ∀ t ∈ splitAny p s, ∀ c ∈ t, p c = false := by
  induction s with
  | nil => intro t ht; simp [splitAny] at ht; simp [ht]
  | cons a s ih =>
    intro t ht
    rw [splitAny] at ht
    split at ht
    · rcases List.mem_cons.1 ht with rfl | ht
      · simp
      · exact ih t ht
    · rename_i ha
      split at ht
      · simp only [List.mem_singleton] at ht
        subst ht
        intro c hc
        simp only [List.mem_singleton] at hc
        subst hc
        simpa using ha
      · rename_i u us hu
        rcases List.mem_cons.1 ht with rfl | ht
        · intro c hc
          rcases List.mem_cons.1 hc with rfl | hc
          · simpa using ha
          · exact ih u (by rw [hu]; simp) c hc
        · exact ih t (by rw [hu]; simp [ht])

theorem split_commas_free (s : Str) : ∀ t ∈ splitAny isComma s, (44 : Byte) ∉ t := fun t ht h => by have := split_free isComma s t ht 44 h; cases this

theorem commas_split (s : Str) : commas (splitAny isComma s) = s ∧ splitAny isComma s ≠ [] := by
  induction s with
  | nil => exact ⟨rfl, by simp [splitAny]⟩
  | cons a s ih =>
    rw [splitAny]
    split
    · rename_i ha
      have : a = 44 := by simpa [isComma] using ha
      subst this
      refine ⟨?_, by simp⟩
      obtain ⟨x, l, e⟩ := List.exists_cons_of_ne_nil ih.2
      rw [e] at ih ⊢
      show [] ++ 44 :: commas (x :: l) = _
      rw [ih.1]; rfl
    · obtain ⟨x, l, e⟩ := List.exists_cons_of_ne_nil ih.2
      rw [e] at ih ⊢
      refine ⟨?_, by simp⟩
      cases l with
      | nil => simp only [commas] at ih ⊢; rw [ih.1]
      | cons y l =>
        have e1 : commas ((a :: x) :: y :: l) = a :: commas (x :: y :: l) := rfl
        simp only [e1, ih.1]

/-- What the colours of a style can be. -/
private theorem make_colours {fmt body : Str} {s : SsaStyle} (h : SsaStyle.make fmt body = .ok s) :
    (s.primaryColour.Within ∨ (s.primaryColour = ⟨255, 255, 255⟩ ∧ b!"PrimaryColour" ∉ (splitAny isComma fmt).map trim)) ∧ ∀ c, s.backColour = some c → c.Within := by
  have hl : (splitAny isComma fmt).length = (splitAny isComma body).length := by
    by_contra hne
    have := C101_count _ _ (split_commas_free fmt) (split_commas_free body) (commas_split fmt).2 (commas_split body).2 hne
    rw [(commas_split fmt).1, (commas_split body).1, h] at this
    cases this
  rw [← (commas_split fmt).1, ← (commas_split body).1, C101_style _ _ (split_commas_free fmt) (split_commas_free body) (commas_split fmt).2 hl] at h
  obtain ⟨-, h⟩ := h
  constructor
  · have := h.primary
    cases hc : lastColumn (columns (splitAny isComma fmt) (splitAny isComma body)) b!"PrimaryColour" with
    | none =>
      rw [hc] at this
      refine .inr ⟨this, ?_⟩
      intro hm
      unfold lastColumn at hc
      rw [Option.map_eq_none_iff, List.getLast?_eq_none_iff, List.filter_eq_nil_iff] at hc
      have e : (columns (splitAny isComma fmt) (splitAny isComma body)).map Prod.fst = (splitAny isComma fmt).map trim := by
        unfold columns
        rw [List.map_fst_zip (by simp [hl])]
      rw [← e, List.mem_map] at hm
      obtain ⟨q, hq, hk⟩ := hm
      exact hc q hq (by simpa using hk)
    | some v => rw [hc] at this; exact .inl (C48_range v _ (.inr this))
  · intro c hc
    have := h.back
    cases hl : lastColumn (columns (splitAny isComma fmt) (splitAny isComma body)) b!"BackColour" with
    | none => rw [hl] at this; rw [this] at hc; cases hc
    | some v =>
      rw [hl] at this
      obtain ⟨d, hd, e⟩ := this
      rw [e] at hc
      cases hc
      exact C48_range v _ (.inr hd)

private theorem lines_cols (ls : List Str) (r r' : SsaRead) (hr : r.Cols (fun c => c.Within ∨ c = ⟨255, 255, 255⟩)) (h : ssaLines r ls = .ok r') :
    r'.Cols (fun c => c.Within ∨ c = ⟨255, 255, 255⟩) := by
  induction ls generalizing r with
  | nil => cases h; exact hr
  | cons l ls ih =>
    rw [ssaLines, bind_eq_ok] at h
    obtain ⟨m, hm, h⟩ := h
    refine ih m ((ssaLine_cols (fun _ h => .inl h) r l hr ?_).h m hm) h
    intro body s hs _
    have := make_colours hs
    exact ⟨this.1.imp id (·.1), fun c hc => .inl (this.2 c hc)⟩

/-- The format for styles, if there is one, names `PrimaryColour`. -/
private def SsaRead.Named (r : SsaRead) : Prop := r.styleFormat ≠ [] → b!"PrimaryColour" ∈ (splitAny isComma r.styleFormat).map trim

private theorem inside_eq (r m : SsaRead) (l : Str) (h : ssaLine r l = .ok m) (hr : r.Named)
    (hf : r.part = .styles → ∀ body, removeBom (trim l) = b!"Format:" ++ body → b!"PrimaryColour" ∈ (splitAny isComma (trim body)).map trim) :
    m.Named ∧ m.part = (if removeBom (trim l) = b!"[V4 Styles]" ∨ removeBom (trim l) = b!"[V4+ Styles]" then .styles else if removeBom (trim l) = b!"[Script Info]" then .info else if removeBom (trim l) = b!"[Events]" then .events else r.part) := by
  unfold ssaLine at h
  simp only at h
  generalize removeBom (trim l) = c at h hf ⊢
  split at h
  · rename_i hc
    cases h
    refine ⟨hr, ?_⟩
    have : ∀ t : Str, c ≠ 91 :: t := by
      rintro t rfl
      rcases hc with hc | hc
      · simp [startsWith, List.isPrefixOf] at hc
      · cases hc
    rw [if_neg (by rintro (h | h) <;> exact this _ h), if_neg (this _), if_neg (this _)]
  · split at h
    · split at h
      · rename_i e; cases h; subst e; exact ⟨hr, rfl⟩
      · split at h
        · rename_i e; cases h; rw [if_pos e]; exact ⟨hr, rfl⟩
        · split at h
          · rename_i e; cases h; subst e; exact ⟨hr, rfl⟩
          · cases h; rw [if_neg (by assumption), if_neg (by assumption), if_neg (by assumption)]; exact ⟨hr, rfl⟩
    · rename_i hb
      have hno : ∀ t : Str, c ≠ 91 :: t := by
        rintro t rfl
        simp [startsWith, List.isPrefixOf] at hb
      rw [if_neg (by rintro (h | h) <;> exact hno _ h), if_neg (hno _), if_neg (hno _)]
      split at h
      · cases h
      · rename_i colon hcolon
        split at h
        · rename_i hp
          split at h
          · obtain ⟨x, _, h⟩ := bind_eq_ok.1 h; cases h; exact ⟨hr, rfl⟩
          · split at h
            · obtain ⟨x, _, h⟩ := bind_eq_ok.1 h; cases h; exact ⟨hr, rfl⟩
            · cases h; exact ⟨hr, rfl⟩
        · rename_i hp
          split at h
          · rename_i ht
            cases h
            refine ⟨fun _ => ?_, rfl⟩
            refine hf hp (c.drop (colon + 1)) ?_
            have hlt := List.findIdx?_eq_some_iff_getElem.1 hcolon
            obtain ⟨h1, h2, -⟩ := hlt
            have e : c = c.take colon ++ c[colon] :: c.drop (colon + 1) := by
              rw [← List.drop_eq_getElem_cons h1, List.take_append_drop]
            have e2 : c[colon] = 58 := by simpa using h2
            rw [e2, ht] at e
            exact e
          · split at h
            · obtain ⟨x, _, h⟩ := bind_eq_ok.1 h
              obtain ⟨x, _, h⟩ := bind_eq_ok.1 h
              cases h; exact ⟨hr, rfl⟩
            · cases h; exact ⟨hr, rfl⟩
        · rename_i hp
          split at h
          · cases h; exact ⟨hr, rfl⟩
          · split at h
            · unfold ssaDialogue at h
              obtain ⟨x, _, h⟩ := bind_eq_ok.1 h
              obtain ⟨x, _, h⟩ := bind_eq_ok.1 h
              obtain ⟨x, _, h⟩ := bind_eq_ok.1 h
              obtain ⟨x, _, h⟩ := bind_eq_ok.1 h
              cases h; exact ⟨hr, rfl⟩
            · cases h; exact ⟨hr, rfl⟩

private theorem lines_named (ls : List Str) (r r' : SsaRead) (hr : r.Cols Colour.Within) (hn : r.Named)
    (hf : ∀ c ∈ styleSection (decide (r.part = .styles)) ls, ∀ body, c = b!"Format:" ++ body → b!"PrimaryColour" ∈ (splitAny isComma (trim body)).map trim) (h : ssaLines r ls = .ok r') :
    r'.Cols Colour.Within := by
  induction ls generalizing r with
  | nil => cases h; exact hr
  | cons l ls ih =>
    rw [ssaLines, bind_eq_ok] at h
    obtain ⟨m, hm, h⟩ := h
    have hlt : r.part = .styles → ∀ body, removeBom (trim l) = b!"Format:" ++ body → b!"PrimaryColour" ∈ (splitAny isComma (trim body)).map trim := by
      intro hp body e
      refine hf _ ?_ body e
      rw [styleSection]
      simp [e, hp]
    obtain ⟨hn', hp'⟩ := inside_eq r m l hm hn hlt
    refine ih m ((ssaLine_cols (fun _ h => h) r l hr ?_).h m hm) hn' ?_ h
    · intro body s hs he
      have := make_colours hs
      refine ⟨this.1.resolve_right ?_, this.2⟩
      rintro ⟨-, hno⟩
      exact hno (hn he)
    · intro c hc body e
      refine hf c ?_ body e
      rw [styleSection]
      rw [hp'] at hc
      split
      · rename_i h1; rw [if_pos h1] at hc; simpa using hc
      · rename_i h1
        rw [if_neg h1] at hc
        split
        · rename_i h2
          rcases h2 with h2 | h2
          · rw [if_pos h2] at hc; simpa using hc
          · rw [if_neg (by rw [h2]; decide), if_pos h2] at hc; simpa using hc
        · rename_i h2
          rw [if_neg (fun h => h2 (.inl h)), if_neg (fun h => h2 (.inr h))] at hc
          split
          · rename_i h3; rw [h3] at hc; simp [hc]
          · rename_i h3; simp only [Bool.not_eq_true] at h3; rw [h3] at hc; exact hc

/-! ### Binary STL -/

/-- One of the eight colours whose components are 0 or 1. -/
def Raw.Teletext (r : Raw) : Prop := (∀ x ∈ [r.colour.r, r.colour.g, r.colour.b], x = 0 ∨ x = 1) ∧ r.effectColour = none

private theorem push_tele {s s' : StlChars} (h : s.sub.Teletext ∧ ∀ r ∈ s.subs, r.Teletext) (he : s.push = .ok s') : s'.sub.Teletext ∧ ∀ r ∈ s'.subs, r.Teletext := by
  obtain ⟨w, _, he⟩ := bind_eq_ok.1 he
  cases he
  refine ⟨h.1, ?_⟩
  intro r hr
  rcases List.mem_append.1 hr with hr | hr
  · exact h.2 r hr
  · simp only [List.mem_singleton] at hr
    subst hr
    exact h.1

private theorem stlColour_tele (c : Byte) (x : Colour) (h : stlColour c = some x) : ∀ y ∈ [x.r, x.g, x.b], y = 0 ∨ y = 1 := by
  have := forall_byte (p := fun c => (stlColour c).all (fun x => [x.r, x.g, x.b].all (fun y => y == 0 || y == 1)) = true) (by decide +kernel) c
  rw [h] at this
  simpa using this

private theorem apply_tele {s : StlChars} (c : Byte) (h : s.sub.Teletext ∧ ∀ r ∈ s.subs, r.Teletext) : (s.apply c).sub.Teletext ∧ ∀ r ∈ (s.apply c).subs, r.Teletext := by
  unfold StlChars.apply
  simp only
  split
  · rename_i x hx
    exact ⟨⟨stlColour_tele c x hx, h.1.2⟩, h.2⟩
  · repeat' split
    all_goals exact h

private theorem chars_tele (cs : Str) (s s' : StlChars) (h : s.sub.Teletext ∧ ∀ r ∈ s.subs, r.Teletext) (he : stlChars s cs = .ok s') : ∀ r ∈ s'.subs, r.Teletext := by
  have fin : ∀ s s' : StlChars, (s.sub.Teletext ∧ ∀ r ∈ s.subs, r.Teletext) → (if s.text.isEmpty then .ok s else s.push) = .ok s' → ∀ r ∈ s'.subs, r.Teletext := by
    intro s s' h he
    split at he
    · cases he; exact h.2
    · exact (push_tele h he).2
  induction cs generalizing s with
  | nil => exact fin s s' h he
  | cons c cs ih =>
    rw [stlChars] at he
    split at he
    · exact fin s s' h he
    · split at he
      · obtain ⟨t, ht, he⟩ := bind_eq_ok.1 he
        exact ih _ (apply_tele c (s := { t with text := [] }) (push_tele (s' := t) h ht)) he
      · exact ih _ (apply_tele c h) he

private theorem lines_tele (info : StlInfo) (blk : Str) (ls : List Str) (i u : Bool) (st st' : StlBlocks) (j : Nat) (h : ∀ r ∈ st.subs, r.Teletext) (he : stlLines info blk i u st j ls = .ok st') :
    ∀ r ∈ st'.subs, r.Teletext := by
  induction ls generalizing i u st j with
  | nil => cases he; exact h
  | cons l ls ih =>
    rw [stlLines] at he
    obtain ⟨f, _, he⟩ := bind_eq_ok.1 he
    obtain ⟨t, _, he⟩ := bind_eq_ok.1 he
    obtain ⟨q, hq, he⟩ := bind_eq_ok.1 he
    refine ih _ _ _ _ ?_ he
    exact chars_tele l _ q ⟨⟨by simp, rfl⟩, h⟩ hq

private theorem blocks_tele (info : StlInfo) (n : Nat) (file : Str) (st st' : StlBlocks) (h : ∀ r ∈ st.subs, r.Teletext) (he : stlBlocks info st file n = .ok st') : ∀ r ∈ st'.subs, r.Teletext := by
  induction n generalizing st file with
  | zero => cases he; exact h
  | succ n ih =>
    rw [stlBlocks] at he
    obtain ⟨⟨blk, rest⟩, _, he⟩ := bind_eq_ok.1 he
    obtain ⟨s, hs, he⟩ := bind_eq_ok.1 he
    refine ih rest s ?_ he
    obtain ⟨c, _, hs⟩ := bind_eq_ok.1 hs
    split at hs
    · cases hs; exact h
    · exact lines_tele info blk _ _ _ st s _ h hs

/-! ### C102 -/

/-- C102 for SubRip: without `rgba(…)` all colours are within [0, 1]. -/
theorem C102_subrip_partial (lines : List Str) (hp : ∀ l ∈ lines, (40 : Byte) ∉ l) (subs : List Raw) (h : srtRead lines = .ok subs) : ∀ r ∈ subs, r.ColoursAre Colour.Within :=
  srt_cols (fun _ h => h) (fun l hl _ _ _ hm _ hc => fontColour_within (fun h => hp l hl (hm _ h)) hc) h

/-- C102 for SubRip: components are never negative. -/
theorem C102_subrip_nonneg (lines : List Str) (subs : List Raw) (h : srtRead lines = .ok subs) : ∀ r ∈ subs, r.ColoursAre (fun c => ∀ x ∈ [c.r, c.g, c.b], 0 ≤ x) :=
  srt_cols (fun _ h x hx => (h x hx).1) (fun _ _ _ _ _ _ _ hc => rgba_nonneg hc) h

/-- C102 for WebVTT: all text is white. -/
theorem C102_webvtt (lines : List Str) (subs : List Raw) (h : vttRead lines = .ok subs) : ∀ r ∈ subs, r.colour = ⟨1, 1, 1⟩ ∧ r.effectColour = none := by
  rw [vttRead_ok_iff] at h
  obtain ⟨st, rs, h⟩ := h
  exact (vttFold_plain (s := (.header, vttFresh, [])) ⟨⟨rfl, rfl⟩, by simp⟩ h).2

/-- C102 for STL text: all text is white. -/
theorem C102_stltext (file : Str) (subs : List Raw) (h : stlTextRead file = .ok subs) : ∀ r ∈ subs, r.colour = ⟨1, 1, 1⟩ ∧ r.effectColour = none := by
  unfold stlTextRead at h
  rw [bind_eq_ok] at h
  obtain ⟨st, h, he⟩ := h
  cases he
  generalize streamLines file = ls at h
  have key : ∀ ls : List Str, ∀ s s' : StlTextSt, s.Plain → stlTextLines s ls = .ok s' → s'.Plain := by
    intro ls
    induction ls with
    | nil => intro s s' h he; cases he; exact h
    | cons l ls ih =>
      intro s s' h he
      rw [stlTextLines, bind_eq_ok] at he
      obtain ⟨s1, h1, h2⟩ := he
      exact ih s1 s' (textLine_plain _ _ _ h h1) h2
  exact (key ls {} st ⟨⟨rfl, rfl⟩, by intro r hr; cases hr⟩ h).2

/-- C102 for binary STL: components are 0 or 1. -/
theorem C102_stl (file : Str) (info : StlInfo) (subs : List Raw) (h : stlRead file = .ok (info, subs)) : ∀ r ∈ subs, r.Teletext := by
  obtain ⟨⟨g, rest⟩, _, h⟩ := bind_eq_ok.1 h
  obtain ⟨i, _, h⟩ := bind_eq_ok.1 h
  obtain ⟨st, hst, h⟩ := bind_eq_ok.1 h
  cases h
  have := blocks_tele info _ _ {} st (by simp) hst
  unfold stlCorrect
  split
  · intro r hr
    obtain ⟨q, hq, rfl⟩ := List.mem_map.1 hr
    exact this q hq
  · exact this

/-- A block with red text between white texts. -/
example : (stlRead (stlFileDemo b!"00001" [stlBlockDemo 3 0 (b!"a" ++ [1] ++ b!"b")])).toOption.map (fun r => r.2.map (fun x => x.colour)) = some [⟨1, 1, 1⟩, ⟨1, 0, 0⟩] := by decide +kernel

/-- C102 for binary STL: what is within [0, 1] as stated. -/
theorem C102_stl_within (r : Raw) (h : r.Teletext) : r.ColoursAre Colour.Within := by
  refine ⟨?_, fun c hc => ?_⟩
  · intro x hx
    rcases h.1 x hx with rfl | rfl <;> norm_num
  · rw [h.2] at hc
    cases hc

example : ({ } : Raw).Teletext := ⟨by simp, rfl⟩

/-- C102 for SSA: components are within [0, 1] or the colour is that of a style without `PrimaryColour`, the components of which are 255. -/
theorem C102_ssa (s : Str) (subs : List Raw) (h : ssaReadString s = .ok subs ∨ ssaReadFile s = .ok subs) : ∀ r ∈ subs, r.ColoursAre (fun c => c.Within ∨ c = ⟨255, 255, 255⟩) := by
  unfold ssaReadString ssaReadFile at h
  rcases h with h | h <;>
  · obtain ⟨r, hr, h⟩ := bind_eq_ok.1 h
    cases h
    exact (lines_cols _ {} _ ⟨by simp, by simp⟩ hr).2

/-- C102 for SSA: if the format lines for styles all name `PrimaryColour`, all colours are within [0, 1]. -/
theorem C102_ssa_partial (lines : List Str) (hp : PrimaryNamed lines) (r : SsaRead) (h : ssaLines {} lines = .ok r) : ∀ x ∈ r.subs, x.ColoursAre Colour.Within := by
  refine (lines_named lines {} r ⟨by simp, by simp⟩ (fun h => absurd rfl h) ?_ h).2
  intro c hc body e
  obtain ⟨names, h1, h2, h3⟩ := hp c hc body e
  have h0 : names ≠ [] := by rintro rfl; simp at h3
  rw [h2, split_commas names h0 h1]
  exact h3

/-- C102 as stated for SubRip: components are within [0, 1]. -/
abbrev C102_subrip_statement : Prop := ∀ lines subs, srtRead lines = .ok subs → ∀ r ∈ subs, r.ColoursAre Colour.Within

/-- C102 is false for SubRip: decimal components above 255 are not refused or limited. -/
theorem C102_subrip_false : ¬ C102_subrip_statement := by
  intro h
  have e : (srtRead [b!"1", b!"00:00:01,000 --> 00:00:02,000", b!"<font color=\"rgba(510,0,0,0)\">x"]).toOption.map (fun l => l.map (fun r => r.colour)) = some [⟨2, 0, 0⟩] := by decide +kernel
  cases hs : srtRead [b!"1", b!"00:00:01,000 --> 00:00:02,000", b!"<font color=\"rgba(510,0,0,0)\">x"] with
  | error => rw [hs] at e; cases e
  | ok subs =>
    rw [hs] at e
    have e : subs.map (fun r => r.colour) = [⟨2, 0, 0⟩] := Option.some.inj e
    obtain ⟨r, hr, hc⟩ : ∃ r ∈ subs, r.colour = ⟨2, 0, 0⟩ := List.mem_map.1 (by rw [e]; simp)
    have := (h _ subs hs r hr).1
    rw [hc] at this
    have := (this 2 (by simp)).2
    norm_num at this

/-- C102 as stated for SSA. -/
abbrev C102_ssa_statement : Prop := ∀ s subs, ssaReadString s = .ok subs → ∀ r ∈ subs, r.ColoursAre Colour.Within

/-- C102 is false for SSA: the default of `primary_colour` is (255, 255, 255) on a scale to 1. -/
theorem C102_ssa_false : ¬ C102_ssa_statement := by
  intro h
  have e : (ssaReadString (b!"[V4 Styles]\nFormat: Name\nStyle: A\n[Events]\nFormat: Style, Text\nDialogue: A,x\n")).toOption.map (fun l => l.map (fun r => r.colour)) = some [⟨255, 255, 255⟩] := by decide +kernel
  cases hs : ssaReadString (b!"[V4 Styles]\nFormat: Name\nStyle: A\n[Events]\nFormat: Style, Text\nDialogue: A,x\n") with
  | error => rw [hs] at e; cases e
  | ok subs =>
    rw [hs] at e
    have e : subs.map (fun r => r.colour) = [⟨255, 255, 255⟩] := Option.some.inj e
    obtain ⟨r, hr, hc⟩ : ∃ r ∈ subs, r.colour = ⟨255, 255, 255⟩ := List.mem_map.1 (by rw [e]; simp)
    have := (h _ subs hs r hr).1
    rw [hc] at this
    have := (this 255 (by simp)).2
    norm_num at this

/-! Concrete files. -/

example : (srtRead [b!"1", b!"00:00:01,000 --> 00:00:02,000", b!"<font color=\"#ff0000\">x"]).toOption.map (fun l => l.map (fun r => r.colour)) = some [⟨1, 0, 0⟩] ∧
    ∀ l ∈ [b!"1", b!"00:00:01,000 --> 00:00:02,000", b!"<font color=\"#ff0000\">x"], (40 : Byte) ∉ l := by decide +kernel

example : (vttRead [b!"WEBVTT", b!"", b!"00:00:01.000 --> 00:00:02.000", b!"x"]).toOption.map (fun l => l.map (fun r => r.colour)) = some [⟨1, 1, 1⟩] := by decide +kernel

example : (stlTextRead b!"0:0:1:0 ,0:0:2:0,x\n").toOption.map (fun l => l.map (fun r => r.colour)) = some [⟨1, 1, 1⟩] := by decide +kernel

example : (ssaLines {} [b!"[V4 Styles]", b!"Format: Name, PrimaryColour", b!"Style: A,&H0000ff", b!"[Events]", b!"Format: Style, Text", b!"Dialogue: A,x"]).toOption.map (fun r => r.subs.map (fun r => r.colour)) =
    some [⟨1, 0, 0⟩] := by decide +kernel

example : PrimaryNamed [b!"[V4 Styles]", b!"Format: Name, PrimaryColour", b!"Style: A,&H0000ff", b!"[Events]", b!"Format: Style, Text", b!"Dialogue: A,x"] := by
  have e : styleSection false [b!"[V4 Styles]", b!"Format: Name, PrimaryColour", b!"Style: A,&H0000ff", b!"[Events]", b!"Format: Style, Text", b!"Dialogue: A,x"] = [b!"Format: Name, PrimaryColour", b!"Style: A,&H0000ff"] := by decide +kernel
  intro c hc body he
  rw [e] at hc
  simp only [List.mem_cons, List.not_mem_nil, or_false] at hc
  rcases hc with rfl | rfl
  · have : body = b!" Name, PrimaryColour" := List.append_cancel_left (as := b!"Format:") he.symm
    subst this
    exact ⟨[b!"Name", b!" PrimaryColour"], by decide, by decide +kernel, by decide +kernel⟩
  · exact absurd he (by intro h; cases h)

end LibSub
