/-
C126: the SubRip reader with the limits of `float` and `double`.
-/
import Verif.Props.IeeeSsaRead
import Verif.Lemmas.Text

namespace LibSub

private theorem digitVal_le (b : Byte) : digitVal b ≤ 300 := forall_byte (p := fun b => digitVal b ≤ 300) (by decide +kernel) b

private theorem scanHex2_inInt {s t : Str} {n : Int} (h : scanHex2 s = some (n, t)) : InInt n := by
  unfold scanHex2 at h
  unfold InInt
  split at h
  · rename_i b _ _
    have := digitVal_le b
    split at h
    · cases h; omega
    · cases h
  · rename_i b _ _
    have := digitVal_le b
    split at h
    · cases h; omega
    · cases h
  · rename_i a b _ _ _ _
    have := digitVal_le a
    have := digitVal_le b
    split at h
    · split at h
      · cases h; push_cast; omega
      · split at h
        · cases h
        · cases h; omega
    · cases h
  · rename_i a _
    have := digitVal_le a
    split at h
    · cases h; omega
    · cases h
  · cases h

private theorem f255 : Sized 0 8 (255 : ℚ) := ⟨by simpa using Grid.int 255, by norm_num⟩

private theorem comp_track {i : Int} (h : InInt i) : Ieee.comp255 i = .ok (comp255 i) := by
  unfold Ieee.comp255 comp255
  have f := Sized.int h
  rw [ieee32_fits f]
  simp only [ok_bind]
  exact (div32 f.f32 f.f32.low f255 (by norm_num)).1

private theorem hex_track {r g b : Int} (hr : InInt r) (hg : InInt g) (hb : InInt b) : Ieee.hexColour r g b = .ok ⟨comp255 r, comp255 g, comp255 b⟩ := by
  unfold Ieee.hexColour
  rw [comp_track hr, comp_track hg, comp_track hb]
  rfl

private theorem rgb_track (s : Str) : Ieee.fromRgbHex s = Colour.fromRgbHex s := by
  unfold Ieee.fromRgbHex Colour.fromRgbHex
  cases e1 : scanHex2 s with
  | none => rfl
  | some p1 =>
    obtain ⟨r, s1⟩ := p1
    dsimp only
    cases e2 : scanHex2 s1 with
    | none => rfl
    | some p2 =>
      obtain ⟨g, s2⟩ := p2
      dsimp only
      cases e3 : scanHex2 s2 with
      | none => rfl
      | some p3 =>
        obtain ⟨b, s3⟩ := p3
        exact hex_track (scanHex2_inInt e1) (scanHex2_inInt e2) (scanHex2_inInt e3)

private theorem rgba_track (s : Str) : Ieee.fromRgbaHex s = Colour.fromRgbaHex s := by
  unfold Ieee.fromRgbaHex Colour.fromRgbaHex
  cases e1 : scanHex2 s with
  | none => rfl
  | some p1 =>
    obtain ⟨r, s1⟩ := p1
    dsimp only
    cases e2 : scanHex2 s1 with
    | none => rfl
    | some p2 =>
      obtain ⟨g, s2⟩ := p2
      dsimp only
      cases e3 : scanHex2 s2 with
      | none => rfl
      | some p3 =>
        obtain ⟨b, s3⟩ := p3
        dsimp only
        cases e4 : scanHex2 s3 with
        | none => rfl
        | some p4 => exact hex_track (scanHex2_inInt e1) (scanHex2_inInt e2) (scanHex2_inInt e3)

private theorem dec_track (s : Str) : Ieee.decComp s = decComp s := by
  unfold Ieee.decComp decComp
  cases e : rawConvertInt s with
  | error x => rfl
  | ok i =>
    simp only [ok_bind]
    have f := Sized.int (scanInt_inInt e)
    rw [ieee64_int (scanInt_inInt e)]
    simp only [ok_bind]
    obtain ⟨a, b⟩ := div64 f f.low f255 (by norm_num)
    rw [a]
    simp only [ok_bind]
    rw [ieee32_fits b]
    rfl

theorem font_track (n : Nat) (ctx : List Str) (tag : Str) : Ieee.fontColour n ctx tag = fontColour n ctx tag := by
  unfold Ieee.fontColour fontColour
  cases lastMatch fontHexAt tag with
  | some g => dsimp only; rw [rgb_track, rgba_track]
  | none =>
    dsimp only
    cases lastMatch fontRgbaAt tag with
    | none => rfl
    | some p =>
      obtain ⟨r, g, b⟩ := p
      dsimp only
      rw [dec_track, dec_track, dec_track]

/-- The position of the sub under construction. -/
private def SrtOk (s : SrtLine) : Prop := PosOk s.p

private theorem content_ok {s : SrtLine} (h : SrtOk s) : SrtOk s.maybeContent := by
  unfold SrtLine.maybeContent
  split
  · exact h
  · exact h

private theorem exec_track (n : Nat) (ctx : List Str) {s : SrtLine} (h : SrtOk s) (t : Tok) : Track SrtOk (s.exec n ctx t) (Ieee.srtExec n ctx s t) := by
  have hc := content_ok h
  cases t with
  | fontOpen tag =>
    unfold SrtLine.exec Ieee.srtExec
    dsimp only
    rw [font_track]
    exact Track.bind (P := fun _ => True) (.same fun _ _ => trivial) fun c _ => .ok hc
  | ssa tag =>
    unfold SrtLine.exec Ieee.srtExec
    exact (tag_track ⟨by decide, by decide, by decide, by decide⟩ h tag).bind fun p hp => .ok hp
  | bold b => exact .ok hc
  | italic b => exact .ok hc
  | underline b => exact .ok hc
  | chr c => exact .ok h
  | fontClose =>
    refine .same fun x hx => ?_
    unfold SrtLine.exec at hx
    dsimp only at hx
    split at hx
    · cases hx; exact hc
    · split at hx
      · cases hx; exact hc
      · cases hx

private theorem loop_track (n : Nat) (ctx : List Str) : ∀ (fuel : Nat) (t : Str) {s : SrtLine}, SrtOk s → Track SrtOk (srtLoop n ctx fuel s t) (Ieee.srtLoop n ctx fuel s t)
  | fuel, [], s, h => by rw [srtLoop.eq_def, Ieee.srtLoop.eq_def]; exact .ok h
  | 0, c :: cs, s, h => by rw [srtLoop, Ieee.srtLoop]; exact .ok h
  | fuel + 1, c :: cs, s, h => by
    rw [srtLoop, Ieee.srtLoop]
    exact (exec_track n ctx h _).bind fun s' h' => loop_track n ctx fuel _ h'

private theorem convertLine_track (n : Nat) (ctx : List Str) (t : Str) {p : Raw} (hp : PosOk p) (subs : List Raw) :
    Track (fun x => PosOk x.1) (convertLine n ctx t p subs) (Ieee.convertLine n ctx t p subs) := by
  unfold convertLine Ieee.convertLine
  refine (loop_track n ctx _ t (s := { p := p, colours := [⟨1, 1, 1⟩], subs := subs }) hp).bind fun s hs => .ok ?_
  exact content_ok (s := { s with p := { s.p with text := replaceAll s.p.text rle [] } }) hs

private theorem subLines_track (n : Nat) (ctx : List Str) : ∀ (ts : List Str) {p : Raw}, PosOk p → ∀ (subs : List Raw),
    Track (fun x => PosOk x.1) (convertSubLines n ctx ts p subs) (Ieee.convertSubLines n ctx ts p subs)
  | [], p, hp, subs => .ok hp
  | t :: ts, p, hp, subs => by
    rw [convertSubLines, Ieee.convertSubLines]
    refine (convertLine_track n ctx t hp subs).bind fun x hx => ?_
    obtain ⟨p', subs'⟩ := x
    refine Track.bind (P := fun _ => True) (.same fun _ _ => trivial) fun l _ => ?_
    refine Track.bind (P := fun _ => True) (.same fun _ _ => trivial) fun l' _ => ?_
    exact subLines_track n ctx ts (p := { p' with vpos := { p'.vpos with line := some l' }, text := [] }) hx subs'

private theorem metadata_ok {n : Nat} {ctx : List Str} {line : Str} {rest : List Str} {rs x : Raw} (h : PosOk rs) (e : srtMetadata n ctx line rest rs = .ok x) : PosOk x := by
  unfold srtMetadata at e
  dsimp only at e
  split at e
  · cases e
  · obtain ⟨a, -, e⟩ := bind_eq_ok.1 e
    split at e
    · cases e
    · obtain ⟨b, -, e⟩ := bind_eq_ok.1 e
      split at e
      · cases e
      · cases e; exact h

theorem srtLines_track : ∀ (ls : List Str) (n : Nat) (st : SrtState) (ctx : List Str) {rs : Raw}, PosOk rs → ∀ (subs : List Raw),
    Track (fun _ => True) (srtLines n st ctx rs subs ls) (Ieee.srtLines n st ctx rs subs ls)
  | [], n, st, ctx, rs, h, subs => by rw [srtLines, Ieee.srtLines]; exact .ok trivial
  | raw :: rest, n, st, ctx, rs, h, subs => by
    cases st with
    | counter =>
      rw [srtLines, Ieee.srtLines]
      exact .ite (fun _ => srtLines_track rest _ _ _ h _) fun _ => srtLines_track rest _ _ _ (fun p hp => by cases hp) _
    | metadata =>
      rw [srtLines, Ieee.srtLines]
      exact Track.bind (P := PosOk) (.same fun x hx => metadata_ok h hx) fun x hx => srtLines_track rest _ _ _ hx _
    | content =>
      rw [srtLines, Ieee.srtLines]
      refine .ite (fun _ => srtLines_track rest _ _ _ h _) fun _ => (subLines_track _ _ _ h _).bind fun x hx => ?_
      obtain ⟨p', subs'⟩ := x
      exact srtLines_track rest _ _ _ hx _

end LibSub
