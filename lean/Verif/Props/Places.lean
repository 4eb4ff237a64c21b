/-
Property C104: what readers report has a place on the screen.
-/
import Verif.Props.Collectable
import Verif.Props.Equality

namespace LibSub

/-! ### Line numbers -/

/-- With a reference and a line number. -/
def Raw.Placed (r : Raw) : Prop := r.vpos.ref ≠ none ∧ r.vpos.line ≠ none

theorem Raw.Placed.given {r : Raw} (h : r.Placed) : r.vpos.Given := ⟨h.1, .inr h.2⟩

/-! ### WebVTT -/

private theorem timing_placed {ctx rest : List Str} {line : Str} {rs r : Raw} (hrs : rs.Placed) (h : vttTiming ctx line rest rs = .ok r) : r.Placed := by
  unfold vttTiming at h
  simp only at h
  split at h
  · cases h
  · obtain ⟨a, h1, h2⟩ := bind_eq_ok.1 h
    split at h2
    · cases h2
    · obtain ⟨b, h3, h4⟩ := bind_eq_ok.1 h2
      split at h4
      · cases h4
      · cases h4
        exact ⟨hrs.1, by simp⟩

private theorem vttSubLines_placed {ts : List Str} {p : Raw} {subs : List Raw} {q : Raw × List Raw} (hp : p.Placed) (h : ∀ r ∈ subs, r.Placed) (he : vttSubLines ts p subs = .ok q) :
    q.1.Placed ∧ ∀ r ∈ q.2, r.Placed := by
  induction ts generalizing p subs with
  | nil => cases he; exact ⟨hp, h⟩
  | cons t ts ih =>
    obtain ⟨l, _, h3⟩ := bind_eq_ok.1 he
    obtain ⟨l', _, h4⟩ := bind_eq_ok.1 h3
    refine ih (p := { p with text := t, vpos := { p.vpos with line := some l' } }) ⟨hp.1, by simp⟩ ?_ h4
    intro r hr
    simp only [List.mem_append, List.mem_singleton] at hr
    rcases hr with hr | rfl
    · exact h r hr
    · exact hp

private theorem vttFold_placed {ls : List Str} {s s' : VttSt} (h : s.2.1.Placed ∧ ∀ r ∈ s.2.2, r.Placed) (he : vttFold s ls = .ok s') : s'.2.1.Placed ∧ ∀ r ∈ s'.2.2, r.Placed := by
  induction ls generalizing s with
  | nil => cases he; exact h
  | cons l ls ih =>
    obtain ⟨s1, h1, h2⟩ := bind_eq_ok.1 he
    refine ih ?_ h2
    obtain ⟨ha, hc⟩ := h
    unfold vttStep at h1
    split at h1
    · split at h1
      · cases h1; exact ⟨ha, hc⟩
      · cases h1
    · split at h1
      · cases h1; exact ⟨ha, hc⟩
      · split at h1
        · obtain ⟨r, h4, h3⟩ := bind_eq_ok.1 h1
          cases h3
          exact ⟨timing_placed ha h4, hc⟩
        · cases h1; exact ⟨ha, hc⟩
    · split at h1
      · cases h1; exact ⟨ha, hc⟩
      · obtain ⟨r, h4, h3⟩ := bind_eq_ok.1 h1
        cases h3
        exact vttSubLines_placed ha hc h4
    · split at h1
      · cases h1; exact ⟨ha, hc⟩
      · cases h1; exact ⟨ha, hc⟩

/-! ### STL text -/

private def StlTextSt.Placed (s : StlTextSt) : Prop := s.sub.Placed ∧ ∀ r ∈ s.subs, r.Placed

private theorem push_placed {s : StlTextSt} (h : s.Placed) : s.maybePush.Placed := by
  unfold StlTextSt.maybePush
  split
  · exact h
  · refine ⟨⟨h.1.1, by simp⟩, ?_⟩
    intro r hr
    simp only [List.mem_append, List.mem_singleton] at hr
    rcases hr with hr | rfl
    · exact h.2 r hr
    · exact h.1

private theorem chars_placed (cs : Str) (s s' : StlTextSt) (h : s.Placed) (he : stlTextChars s cs = .ok s') : s'.Placed := by
  suffices key : ∀ n, ∀ cs : Str, cs.length ≤ n → ∀ s s' : StlTextSt, s.Placed → stlTextChars s cs = .ok s' → s'.Placed from key _ cs (Nat.le_refl _) s s' h he
  intro n
  induction n with
  | zero =>
    intro cs hn s s' h he
    have : cs = [] := List.length_eq_zero_iff.1 (by omega)
    subst this
    cases he
    exact h
  | succ n ih =>
    intro cs hn s s' h he
    unfold stlTextChars at he
    split at he
    · cases he; exact h
    · rename_i cs
      rw [bind_eq_ok] at he
      obtain ⟨l, -, he⟩ := he
      rw [bind_eq_ok] at he
      obtain ⟨l', -, he⟩ := he
      refine ih cs (by simpa using hn) _ _ ?_ he
      exact ⟨⟨(push_placed h).1.1, by simp⟩, (push_placed h).2⟩
    · cases he; exact push_placed h
    · rename_i d cs
      refine ih cs (by simp at hn; omega) _ _ ?_ he
      have := push_placed h
      split
      · exact this
      · split
        · exact this
        · split <;> exact this
    · rename_i c cs _ _ _
      refine ih cs (by simpa using hn) _ _ ?_ he
      exact h

private theorem set_placed {s s' : StlTextSt} {n v : Str} (hs : s.Placed) (h : s.set n v = .ok s') : s'.Placed := by
  unfold StlTextSt.set at h
  split at h
  · cases h; exact hs
  · split at h
    · cases h; exact hs
    · split at h
      · cases h; exact hs
      · split at h
        · cases h; exact hs
        · split at h
          · rw [bind_eq_ok] at h
            obtain ⟨i, -, h⟩ := h
            cases h; exact hs
          · cases h; exact hs

private theorem textLine_placed (l : Str) (s s' : StlTextSt) (h : s.Placed) (he : stlTextLine s l = .ok s') : s'.Placed := by
  unfold stlTextLine at he
  simp only at he
  split at he
  · cases he; exact h
  · split at he
    · split at he
      · exact set_placed h he
      · cases he; exact h
    · split at he
      · cases he; exact h
      · split at he
        · cases he; exact h
        · split at he
          · cases he; exact h
          · rw [bind_eq_ok] at he
            obtain ⟨f, hf, he⟩ := he
            rw [bind_eq_ok] at he
            obtain ⟨t, ht, he⟩ := he
            split at he
            · rw [bind_eq_ok] at he
              obtain ⟨st, hc, he⟩ := he
              cases he
              refine push_placed (chars_placed _ _ _ ?_ hc)
              exact h
            · cases he; exact h

private theorem updateH_vpos {ctx : SsaContext} {sub r : Raw} (h : ctx.updateH sub = .ok r) : r.vpos = sub.vpos := by
  unfold SsaContext.updateH at h
  simp only [] at h
  split at h
  · rw [bind_eq_ok] at h
    obtain ⟨_, _, h⟩ := h
    cases h; rfl
  · simp only [bind_eq_ok] at h
    obtain ⟨_, _, _, _, _, _, h⟩ := h
    cases h; rfl
  · rw [bind_eq_ok] at h
    obtain ⟨_, _, h⟩ := h
    cases h; rfl

/-! ### SubRip -/

private theorem tag_placed (ctx : SsaContext) (sub : Raw) (tag : Str) (hs : sub.Placed) : OkIn Raw.Placed (ssaParseTag ctx sub tag) := by
  have hal : ∀ {a b}, OkIn Raw.Placed (ssaAlign ctx sub a b) := by
    intro a b
    constructor
    intro r h
    have e := updateH_vpos h
    exact ⟨by rw [e]; simp, by rw [e]; exact hs.2⟩
  unfold ssaParseTag
  refine .ite (.ok hs) (.ite (.ok hs) (.ite (.ok hs) (.ite (.ok hs) (.ite (.ok hs) (.ite (.ok hs) (.ite hal (.ite hal (.ite hal (.ite hal (.ite hal
    (.ite hal (.ite hal (.ite hal (.ite hal (.ite ?_ (.ite ?_ (.ite (.ite ?_ (.ok hs)) (.ok hs))))))))))))))))))
  · split
    · exact .bind fun _ _ => .bind fun _ _ => .bind fun _ _ => .bind fun _ _ => .ok ⟨by simp, hs.2⟩
    · exact .error
  · exact .bind fun _ _ => .bind fun _ _ => .bind fun _ _ => .ok hs
  · exact .bind fun c hc => .ok hs

private def SrtLine.Placed (s : SrtLine) : Prop := s.p.Placed ∧ ∀ r ∈ s.subs, r.Placed

private theorem content_placed {s : SrtLine} (h : s.Placed) : s.maybeContent.Placed := by
  unfold SrtLine.maybeContent
  split
  · exact h
  · refine ⟨h.1, ?_⟩
    intro r hr
    simp only [List.mem_append, List.mem_singleton] at hr
    rcases hr with hr | rfl
    · exact h.2 r hr
    · exact h.1

private theorem exec_placed {n : Nat} {ctx : List Str} {s s' : SrtLine} {t : Tok} (h : s.Placed) (he : s.exec n ctx t = .ok s') : s'.Placed := by
  have hm := content_placed h
  cases t with
  | fontOpen tag =>
    obtain ⟨c, h1, h2⟩ := bind_eq_ok.1 he
    cases h2
    exact hm
  | fontClose =>
    unfold SrtLine.exec at he
    simp only at he
    split at he
    · cases he; exact hm
    · split at he
      · cases he
        exact hm
      · cases he
  | ssa tag =>
    obtain ⟨c, h1, h2⟩ := bind_eq_ok.1 he
    cases h2
    exact ⟨(tag_placed _ _ _ h.1).h c h1, h.2⟩
  | chr c => cases he; exact h
  | _ => cases he; exact hm

private theorem loop_placed {n : Nat} {ctx : List Str} {f : Nat} {s s' : SrtLine} {t : Str} (h : s.Placed) (he : srtLoop n ctx f s t = .ok s') : s'.Placed := by
  induction f generalizing s t with
  | zero => cases t <;> (cases he; exact h)
  | succ f ih =>
    cases t with
    | nil => cases he; exact h
    | cons c cs =>
      obtain ⟨s1, h1, h2⟩ := bind_eq_ok.1 he
      exact ih (exec_placed h h1) h2

private theorem convertLine_placed {n : Nat} {ctx : List Str} {t : Str} {p : Raw} {subs : List Raw} {q : Raw × List Raw} (hp : p.Placed) (h : ∀ r ∈ subs, r.Placed)
    (he : convertLine n ctx t p subs = .ok q) : q.1.Placed ∧ ∀ r ∈ q.2, r.Placed := by
  obtain ⟨s, h1, h2⟩ := bind_eq_ok.1 he
  cases h2
  have : s.Placed := loop_placed (s := ⟨p, [⟨1, 1, 1⟩], subs⟩) ⟨hp, h⟩ h1
  have := content_placed (s := ⟨{ s.p with text := replaceAll s.p.text rle [] }, s.colours, s.subs⟩) this
  exact this

private theorem convertSubLines_placed {n : Nat} {ctx : List Str} {ts : List Str} {p : Raw} {subs : List Raw} {q : Raw × List Raw} (hp : p.Placed) (h : ∀ r ∈ subs, r.Placed)
    (he : convertSubLines n ctx ts p subs = .ok q) : q.1.Placed ∧ ∀ r ∈ q.2, r.Placed := by
  induction ts generalizing p subs with
  | nil => cases he; exact ⟨hp, h⟩
  | cons t ts ih =>
    obtain ⟨q1, h1, h2⟩ := bind_eq_ok.1 he
    obtain ⟨l, _, h3⟩ := bind_eq_ok.1 h2
    obtain ⟨l', _, h4⟩ := bind_eq_ok.1 h3
    obtain ⟨h5, h6⟩ := convertLine_placed hp h h1
    exact ih (p := { q1.1 with vpos := { q1.1.vpos with line := some l' }, text := [] }) ⟨h5.1, by simp⟩ h6 h4

private theorem metadata_placed {n : Nat} {ctx rest : List Str} {line : Str} {rs r : Raw} (hrs : rs.Placed) (h : srtMetadata n ctx line rest rs = .ok r) : r.Placed := by
  unfold srtMetadata at h
  simp only at h
  split at h
  · cases h
  · obtain ⟨a, h1, h2⟩ := bind_eq_ok.1 h
    split at h2
    · cases h2
    · obtain ⟨b, h3, h4⟩ := bind_eq_ok.1 h2
      split at h4
      · cases h4
      · cases h4
        exact hrs

private theorem fold_placed {ls : List Str} {s s' : SrtSt} (h : s.2.1.Placed ∧ ∀ r ∈ s.2.2, r.Placed) (he : srtFold s ls = .ok s') : s'.2.1.Placed ∧ ∀ r ∈ s'.2.2, r.Placed := by
  induction ls generalizing s with
  | nil => cases he; exact h
  | cons l ls ih =>
    obtain ⟨s1, h1, h2⟩ := bind_eq_ok.1 he
    refine ih ?_ h2
    obtain ⟨ha, hc⟩ := h
    unfold srtStep at h1
    split at h1
    · split at h1
      · cases h1; exact ⟨ha, hc⟩
      · cases h1; exact ⟨⟨by simp [srtFresh], by simp [srtFresh]⟩, hc⟩
    · obtain ⟨r, h4, h3⟩ := bind_eq_ok.1 h1
      cases h3
      exact ⟨metadata_placed ha h4, hc⟩
    · split at h1
      · cases h1; exact ⟨ha, hc⟩
      · obtain ⟨r, h4, h3⟩ := bind_eq_ok.1 h1
        cases h3
        exact convertSubLines_placed ha hc h4

/-! ### SSA -/

private theorem finish_placed {base : VPos} {k : Nat} {z : ℚ} {ss out : List Raw} (h : ssaFinishAll base k z ss = .ok out) : ∀ r ∈ out, r.vpos.ref ≠ none ∧ r.vpos.prop ≠ none := by
  induction ss generalizing out with
  | nil => cases h; simp
  | cons s ss ih =>
    obtain ⟨a, ha, h⟩ := bind_eq_ok.1 h
    obtain ⟨b, hb, h⟩ := bind_eq_ok.1 h
    cases h
    intro r hr
    rcases List.mem_cons.1 hr with rfl | hr
    · obtain ⟨v, hv, ha⟩ := bind_eq_ok.1 ha
      obtain ⟨w, hw, ha⟩ := bind_eq_ok.1 ha
      cases ha
      refine ⟨?_, by simp⟩
      intro e
      have e : s.vpos.ref = none := e
      rw [e] at hv
      cases hv
    · exact ih hb r hr

private def OnScreen (l : List Raw) : Prop := ∀ r ∈ l, r.vpos.ref ≠ none ∧ r.vpos.prop ≠ none

private theorem field_placed (r : SsaRead) (ev : SsaEvent) (k v : Str) (h : OnScreen ev.subs) : OkIn (fun e : SsaEvent => OnScreen e.subs) (ssaEventField r ev k v) := by
  unfold ssaEventField
  refine .ite (.bind fun _ _ => .ok h) (.ite (.bind fun _ _ => .ok h) (.ite ?_ (.ite (.ite (.bind fun _ _ => .bind fun _ _ => .ok h) (.ok h)) (.ite (.ite (.bind fun _ _ => .ok h) (.ok h))
    (.ite (.ite (.bind fun _ _ => .ok h) (.ok h)) (.ite (.bind fun out ho => .ok ?_) (.ok h)))))))
  · split
    · exact .ok h
    · unfold ssaApplyStyle
      exact .bind fun _ _ => .ite (.bind fun _ _ => .bind fun _ _ => .ok h) (.bind fun _ _ => .ok h)
  · intro x hx
    rcases List.mem_append.1 hx with hx | hx
    · exact h x hx
    · unfold ssaParseLine at ho
      simp only [bind_eq_ok] at ho
      obtain ⟨_, _, _, _, _, _, ho⟩ := ho
      exact finish_placed ho x hx

private theorem fields_placed (r : SsaRead) (l : List (Str × Str)) (ev ev' : SsaEvent) (h : OnScreen ev.subs) (he : ssaEventFields r ev l = .ok ev') : OnScreen ev'.subs := by
  induction l generalizing ev with
  | nil => cases he; exact h
  | cons x l ih =>
    obtain ⟨k, v⟩ := x
    rw [ssaEventFields, bind_eq_ok] at he
    obtain ⟨e1, h1, h2⟩ := he
    exact ih e1 ((field_placed r ev k v h).h e1 h1) h2

private theorem line_placed (r : SsaRead) (raw : Str) (hr : OnScreen r.subs) : OkIn (fun r : SsaRead => OnScreen r.subs) (ssaLine r raw) := by
  unfold ssaLine
  refine .ite (.ok hr) (.ite (.ite (.ok hr) (.ite (.ok hr) (.ite (.ok hr) (.ok hr)))) ?_)
  split
  · exact .error
  · split
    · exact .ite (.bind fun _ _ => .ok hr) (.ite (.bind fun _ _ => .ok hr) (.ok hr))
    · exact .ite (.ok hr) (.ite (.bind fun u hu => .bind fun s hs => .ok hr) (.ok hr))
    · refine .ite (.ok hr) (.ite ?_ (.ok hr))
      unfold ssaDialogue
      refine .bind fun _ _ => .bind fun _ _ => .bind fun _ _ => .bind fun ev hev => .ok ?_
      intro x hx
      rcases List.mem_append.1 hx with hx | hx
      · exact hr x hx
      · exact fields_placed r _ {} ev (by intro x hx; cases hx) hev x hx

private theorem lines_placed (ls : List Str) (r r' : SsaRead) (hr : OnScreen r.subs) (h : ssaLines r ls = .ok r') : OnScreen r'.subs := by
  induction ls generalizing r with
  | nil => cases h; exact hr
  | cons l ls ih =>
    rw [ssaLines, bind_eq_ok] at h
    obtain ⟨m, hm, h⟩ := h
    exact ih m ((line_placed r l hr).h m hm) h

/-! ### C104 -/

/-- C104 for SubRip: each piece has a vertical reference and a line number. -/
theorem C104_subrip (lines : List Str) (subs : List Raw) (h : srtRead lines = .ok subs) : ∀ r ∈ subs, r.Placed := by
  rw [srtRead_ok_iff] at h
  obtain ⟨st, rs, h⟩ := h
  exact (fold_placed (s := (.counter, srtFresh, [])) ⟨⟨by simp [srtFresh], by simp [srtFresh]⟩, by simp⟩ h).2

example : (srtRead [b!"1", b!"0:0:1,0 --> 0:0:2,0", b!"{\\an8}x", b!"y"]).toOption.map (fun l => l.map (fun r => (r.vpos.ref, r.vpos.line))) = some [(some .topOfScreen, some 0), (some .topOfScreen, some 1)] := by decide +kernel

/-- C104 for WebVTT. -/
theorem C104_webvtt (lines : List Str) (subs : List Raw) (h : vttRead lines = .ok subs) : ∀ r ∈ subs, r.Placed := by
  rw [vttRead_ok_iff] at h
  obtain ⟨st, rs, h⟩ := h
  exact (vttFold_placed (s := (.header, vttFresh, [])) ⟨⟨by simp [vttFresh], by simp [vttFresh]⟩, by simp⟩ h).2

example : (vttRead [b!"WEBVTT", b!"", b!"00:00:01.000 --> 00:00:02.000", b!"x", b!"y"]).toOption.map (fun l => l.map (fun r => (r.vpos.ref, r.vpos.line))) =
    some [(some .topOfSubtitle, some 0), (some .topOfSubtitle, some 1)] := by decide +kernel

/-- C104 for STL text. -/
theorem C104_stltext (file : Str) (subs : List Raw) (h : stlTextRead file = .ok subs) : ∀ r ∈ subs, r.Placed := by
  unfold stlTextRead at h
  rw [bind_eq_ok] at h
  obtain ⟨st, h, he⟩ := h
  cases he
  generalize streamLines file = ls at h
  have key : ∀ ls : List Str, ∀ s s' : StlTextSt, s.Placed → stlTextLines s ls = .ok s' → s'.Placed := by
    intro ls
    induction ls with
    | nil => intro s s' h he; cases he; exact h
    | cons l ls ih =>
      intro s s' h he
      rw [stlTextLines, bind_eq_ok] at he
      obtain ⟨s1, h1, h2⟩ := he
      exact ih s1 s' (textLine_placed _ _ _ h h1) h2
  exact (key ls {} st ⟨⟨by simp, by simp⟩, by intro r hr; cases hr⟩ h).2

example : (stlTextRead b!"0:0:1:0 ,0:0:2:0,x|y\n").toOption.map (fun l => l.map (fun r => (r.vpos.ref, r.vpos.line))) = some [(some .topOfSubtitle, some 0), (some .topOfSubtitle, some 1)] := by decide +kernel

/-- C104 for SSA: each piece has a vertical reference and a proportion of the screen. -/
theorem C104_ssa (s : Str) (subs : List Raw) (h : ssaReadString s = .ok subs ∨ ssaReadFile s = .ok subs) : ∀ r ∈ subs, r.vpos.ref ≠ none ∧ r.vpos.prop ≠ none := by
  unfold ssaReadString ssaReadFile at h
  rcases h with h | h <;>
  · obtain ⟨r, hr, h⟩ := bind_eq_ok.1 h
    cases h
    exact lines_placed _ {} _ (by intro r hr; cases hr) hr

example : (ssaReadString b!"[Events]\nFormat: Start, End, Text\nDialogue: 0:00:01.00,0:00:02.00,{\\an8}a\\Nb").toOption.map (fun l => l.map (fun r => (r.vpos.ref, r.vpos.prop.isSome))) =
    some [(some .topOfScreen, true), (some .topOfScreen, true)] := by decide +kernel

/-- C61 for SSA: what is read from an SSA file can be collected and written, if every event has times with proper hundredths and nothing is placed
more than a million screens away. -/
theorem C61_ssa_partial (s : Str) (subs : List Raw) (h : ssaReadString s = .ok subs ∨ ssaReadFile s = .ok subs)
    (hr : ∀ r ∈ subs, r.from_.rate ≠ none ∧ r.to_.rate ≠ none) (hf : ∀ r ∈ subs, (0 ≤ r.from_.frames ∧ r.from_.frames < 1000) ∧ (0 ≤ r.to_.frames ∧ r.to_.frames < 1000))
    (hp : ∀ r ∈ subs, ∀ p ∈ r.vpos.prop, |p| ≤ 10 ^ 6) (fps : ℚ) (h0 : 0 ≤ fps) (h1 : fps ≤ 1000) :
    ∃ out blocks, collect subs = .ok out ∧ makeTtiBlocks fps out = .ok blocks := by
  obtain ⟨out, ho⟩ := C84_ssa_partial s subs h hr (fun r hm => by obtain ⟨k1, k2⟩ := hf r hm; unfold Raw.SmallMs; omega)
  obtain ⟨-, h2⟩ := collect_of ho
  have hw : ∀ (t : Time), (t.rate = some ⟨1000, 1⟩ ∨ t.rate = none) → t.rate ≠ none → 0 ≤ t.frames → t.frames < 1000 → Writable t := by
    intro t h1 h2 h3 h4
    exact ⟨⟨1000, 1⟩, h1.resolve_right h2, by simp, by simp, by simp, h3, by simp only []; omega⟩
  obtain ⟨blocks, hb⟩ := C61_defined_partial fps h0 h1 out (fun s' hs => by
    obtain ⟨h3, ⟨r, hr1, e1, e2⟩, h4⟩ := h2 s' hs
    obtain ⟨t1, t2, -, -⟩ := ssa_times h r hr1
    refine ⟨h3, fun l hl => ?_, ?_, ?_⟩
    · obtain ⟨r, hr2, e⟩ := h4 l hl
      obtain ⟨-, k⟩ := C104_ssa s subs h r hr2
      obtain ⟨p, hq⟩ := Option.ne_none_iff_exists'.1 k
      rw [e]
      exact .prop _ p hq (hp r hr2 p (by simp [hq]))
    · rw [e1]; exact hw _ (t1.imp id (fun e => by rw [e])) (hr r hr1).1 (hf r hr1).1.1 (hf r hr1).1.2
    · rw [e2]; exact hw _ (t2.imp id (fun e => by rw [e])) (hr r hr1).2 (hf r hr1).2.1 (hf r hr1).2.2)
  exact ⟨out, blocks, ho, hb⟩

example : (ssaReadString b!"[Events]\nFormat: Start, End, Text\nDialogue: 0:00:01.00,0:00:02.00,{\\an8}a\\Nb").toOption.map
    (fun l => l.map (fun r => (r.from_.rate, r.from_.frames, r.to_.frames, r.vpos.prop.map (fun p => decide (|p| ≤ 10 ^ 6))))) =
    some [(some ⟨1000, 1⟩, 0, 0, some true), (some ⟨1000, 1⟩, 0, 0, some true)] := by decide +kernel

/-- C61 is false of an SSA file with a margin of two thousand million lines: the row is not an `int`. -/
theorem C61_ssa_witness :
    (((ssaReadString b!"[Script Info]\nPlayResY: 1\n[Events]\nFormat: Start, End, MarginV, Text\nDialogue: 0:00:01.00,0:00:02.00,2000000000,a").bind collect).bind
      (fun ss => writeStl { stlDemo with subtitles := ss })) = .error (.ub .floatToInt) ∧
    ((ssaReadString b!"[Script Info]\nPlayResY: 1\n[Events]\nFormat: Start, End, MarginV, Text\nDialogue: 0:00:01.00,0:00:02.00,2000000000,a").bind collect).toOption.map (·.length) =
      some 1 := by
  decide +kernel

/-- C61 for SSA: an event without times cannot be written: the writer raises its exception. -/
theorem C61_ssa_untimed_witness :
    (((ssaReadString b!"[Events]\nFormat: End, Text\nDialogue: 0:00:02.00,a").bind collect).bind (fun ss => writeStl { stlDemo with subtitles := ss })) =
      .error .unknownFrameRate := by
  decide +kernel

/-- C104 for binary STL: each piece has a line number, the number of lines, and is placed relative to the top of the screen. -/
theorem C104_stl (file : Str) (info : StlInfo) (subs : List Raw) (h : stlRead file = .ok (info, subs)) :
    ∀ r ∈ subs, r.vpos.ref = some .topOfScreen ∧ r.vpos.lines = some info.maximumRows ∧ r.vpos.line ≠ none ∧ r.vpos.prop = none := by
  intro r hr
  obtain ⟨-, -, -, -, h1, h2, h3, l, h4, -⟩ := stl_raws h r hr
  exact ⟨h3, h2, by rw [h4]; simp, h1⟩

example : (stlRead (stlFileDemo b!"00001" [stlBlockDemo 20 0 b!"Hello"])).toOption.map (fun r => r.2.map (fun x => (x.vpos.line, x.vpos.lines, x.vpos.ref))) = some [(some 20, some 23, some .topOfScreen)] := by decide +kernel

/-- C104: collecting keeps places, so that a collected subtitle is equal to itself exactly if its times can be compared. -/
theorem C104_collected (raws : List Raw) (out : List Subtitle) (hg : ∀ r ∈ raws, r.vpos.Given) (h : collect raws = .ok out) :
    ∀ s ∈ out, (∀ l ∈ s.lines, l.vpos.Given) ∧ (s.eq s = .ok true ↔ ∀ t ∈ s.times, t.Handy) := by
  intro s hs
  have key : ∀ l ∈ s.lines, l.vpos.Given := by
    intro l hl
    obtain ⟨r, hr, e⟩ := ((collect_of h).2 s hs).2.2 l hl
    rw [e]
    exact hg r hr
  refine ⟨key, ?_⟩
  rw [C103_self]
  exact ⟨fun h => h.1, fun h => ⟨h, key⟩⟩

example : ((srtRead [b!"1", b!"0:0:1,0 --> 0:0:2,0", b!"<i>x</i>", b!"y"]).bind collect).toOption.map (fun l => l.map (fun s => (s.eq s).toOption)) = some [some true] := by decide +kernel

example : ({ vpos := { ref := some .topOfScreen, line := some 1 } } : Raw).Placed := ⟨by simp, by simp⟩

end LibSub
