/-
Lemmas about the WebVTT reader.
-/
import Verif.Model.WebVtt
import Verif.Lemmas.Err

namespace LibSub

theorem containsStr_iff {sub s : Str} : containsStr sub s = true ↔ sub <:+: s := by
  induction s with
  | nil =>
    unfold containsStr
    rw [startsWith_iff]
    simp
  | cons c cs ih =>
    unfold containsStr
    rw [Bool.or_eq_true, startsWith_iff, ih, List.infix_cons_iff]

theorem vttTiming_okEq (ctx ctx' : List Str) (line : Str) (rest rest' : List Str) (rs : Raw) :
    OkEq (vttTiming ctx line rest rs) (vttTiming ctx' line rest' rs) := by
  unfold vttTiming
  simp only
  split
  · exact .error _ _
  · refine .bind (.refl _) fun r => ?_
    cases r with
    | error e => exact .error _ _
    | ok t =>
      refine .bind (.refl _) fun r => ?_
      cases r with
      | error e => exact .error _ _
      | ok t' => exact .refl _

/-- State, subtitle under construction and subtitles so far. -/
abbrev VttSt := VttState × Raw × List Raw

/-- What one line does. -/
def vttStep (s : VttSt) (raw : Str) : R VttSt :=
  match s.1 with
  | .header => if startsWith (cleanLine raw) b!"WEBVTT" then .ok (.data, s.2) else .error .webvttHeader
  | .data =>
    if startsWith (cleanLine raw) b!"NOTE" then .ok (.note, s.2)
    else if containsStr b!"-->" (cleanLine raw) then (vttTiming [] (cleanLine raw) [] s.2.1).bind (fun rs => .ok (.subtitle, rs, s.2.2))
    else .ok (.data, s.2)
  | .subtitle =>
    if cleanLine raw = [] then .ok (.data, s.2)
    else (vttSubLines (splitStr lineSep (cleanLine raw)) s.2.1 s.2.2).bind (fun q => .ok (.subtitle, q))
  | .note => if cleanLine raw = [] then .ok (.data, s.2) else .ok (.note, s.2)

/-- What a list of lines does. -/
def vttFold (s : VttSt) : List Str → R VttSt
  | [] => .ok s
  | l :: ls => (vttStep s l).bind (fun s' => vttFold s' ls)

theorem vttFold_append (s : VttSt) (a b : List Str) : vttFold s (a ++ b) = (vttFold s a).bind (fun s' => vttFold s' b) := by
  induction a generalizing s with
  | nil => rfl
  | cons l a ih =>
    rw [List.cons_append, vttFold, vttFold]
    cases vttStep s l with
    | error e => rfl
    | ok s' => exact ih s'

theorem vttFold_clean (s : VttSt) (a b : List Str) (h : a.map cleanLine = b.map cleanLine) : vttFold s a = vttFold s b := by
  induction a generalizing s b with
  | nil =>
    cases b with
    | nil => rfl
    | cons x b => simp at h
  | cons l a ih =>
    cases b with
    | nil => simp at h
    | cons x b =>
      simp only [List.map_cons, List.cons.injEq] at h
      have e : vttStep s l = vttStep s x := by unfold vttStep; rw [h.1]
      rw [vttFold, vttFold, e]
      congr 1
      funext s'
      exact ih s' b h.2

theorem vttLines_fold (st : VttState) (ctx : List Str) (rs : Raw) (subs : List Raw) (ls : List Str) :
    OkEq (vttLines st ctx rs subs ls) ((vttFold (st, rs, subs) ls).bind (fun s => .ok s.2.2)) := by
  induction ls generalizing st ctx rs subs with
  | nil => exact .refl _
  | cons l ls ih =>
    rw [vttFold]
    cases st with
    | header =>
      rw [vttLines, vttStep]
      simp only
      unfold cleanLine
      split
      · exact ih ..
      · exact .refl _
    | data =>
      rw [vttLines, vttStep]
      simp only
      unfold cleanLine
      split
      · exact ih ..
      · split
        · rw [bind_assoc_R, bind_assoc_R]
          exact OkEq.bind (vttTiming_okEq ..) (fun rs => ih ..)
        · exact ih ..
    | subtitle =>
      rw [vttLines, vttStep]
      simp only
      unfold cleanLine
      split
      · exact ih ..
      · rw [bind_assoc_R, bind_assoc_R]
        exact OkEq.bind (.refl _) (fun q => ih ..)
    | note =>
      rw [vttLines, vttStep]
      simp only
      unfold cleanLine
      split
      · exact ih ..
      · exact ih ..

/-- The subtitle under construction at the start. -/
def vttFresh : Raw := { vpos := { line := some 0, ref := some .topOfSubtitle } }

theorem vttRead_okEq (ls : List Str) : OkEq (vttRead ls) ((vttFold (.header, vttFresh, []) ls).bind (fun s => .ok s.2.2)) := vttLines_fold ..

theorem vttRead_ok_iff (ls : List Str) (subs : List Raw) :
    vttRead ls = .ok subs ↔ ∃ st rs, vttFold (.header, vttFresh, []) ls = .ok (st, rs, subs) := by
  rw [(vttRead_okEq _).iff]
  constructor
  · intro h
    obtain ⟨s, h1, h2⟩ := bind_eq_ok.1 h
    cases h2
    exact ⟨s.1, s.2.1, h1⟩
  · rintro ⟨st, rs, h⟩
    rw [h]
    rfl

end LibSub
