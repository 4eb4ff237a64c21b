/-
Property C131: memory and files are given back, unless an exception is thrown.
-/
import Verif.Model.Resources
import Verif.Model.DumpSubs
import Verif.Props.StlWriter
import Verif.Props.SubRipExact
import Verif.Props.Dump

namespace LibSub

/-! ### Specification: memory -/

/-- The memory in use: pointers and what they point to. -/
abbrev Heap := List (Nat × Str)

/-- What steps do to memory and output; `none` if memory is used or freed that is not in use, or given out twice. -/
def runOps : Heap → Str → List Op → Option (Heap × Str)
  | h, out, [] => some (h, out)
  | h, out, .new p b :: os => if p ∈ h.map (·.1) then none else runOps (h ++ [(p, b)]) out os
  | h, out, .output s :: os => runOps h (out ++ s) os
  | h, out, .outputBlock p :: os =>
    match h.lookup p with
    | none => none
    | some b => runOps h (out ++ b) os
  | h, out, .delete p :: os => if p ∈ h.map (·.1) then runOps (h.filter (·.1 ≠ p)) out os else none

/-! ### Specification: files -/

/-- A SubRip file, by its name, that the reader does not accept. -/
def BadSubRip (c : Str × Option Str) : Prop :=
  (∃ pre e, c.1 = pre ++ 46 :: e ∧ toLower e = b!"srt") ∧ ∃ s, c.2 = some s ∧ ∀ subs, ¬ SrtFile ((linesOfFile s).map cleanLine) subs

/-! ### Memory -/

private theorem runOps_append (a b : List Op) : ∀ (h : Heap) (out : Str), runOps h out (a ++ b) = (runOps h out a).bind (fun r => runOps r.1 r.2 b) := by
  induction a with
  | nil => intro h out; rfl
  | cons o a ih =>
    intro h out
    cases o with
    | new p x =>
      rw [List.cons_append, runOps, runOps]
      split
      · rfl
      · exact ih _ _
    | output s => exact ih _ _
    | outputBlock p =>
      rw [List.cons_append, runOps, runOps]
      split
      · rfl
      · exact ih _ _
    | delete p =>
      rw [List.cons_append, runOps, runOps]
      split
      · exact ih _ _
      · rfl

/-- Pointers `n`, `n + 1`, … to the given blocks. -/
private def heapFrom (n : Nat) (bs : List Str) : Heap := bs.mapIdx (fun i b => (n + i, b))

private theorem heapFrom_cons (n : Nat) (b : Str) (bs : List Str) : heapFrom n (b :: bs) = (n, b) :: heapFrom (n + 1) bs := by
  unfold heapFrom
  rw [List.mapIdx_cons]
  simp [Nat.add_assoc, Nat.add_comm 1]

private theorem heapFrom_append (n : Nat) (as bs : List Str) : heapFrom n (as ++ bs) = heapFrom n as ++ heapFrom (n + as.length) bs := by
  unfold heapFrom
  rw [List.mapIdx_append]
  simp [Nat.add_assoc, Nat.add_comm as.length]

private theorem heapFrom_keys (n : Nat) (bs : List Str) : ∀ p ∈ (heapFrom n bs).map (·.1), n ≤ p ∧ p < n + bs.length := by
  intro p hp
  unfold heapFrom at hp
  simp only [List.mem_map, List.mem_mapIdx] at hp
  obtain ⟨x, ⟨i, hi, rfl⟩, rfl⟩ := hp
  exact ⟨Nat.le_add_right _ _, by simp only; omega⟩

private theorem heapFrom_blocks (n : Nat) (bs : List Str) : (heapFrom n bs).map (·.2) = bs := by
  induction bs generalizing n with
  | nil => rfl
  | cons b bs ih => rw [heapFrom_cons, List.map_cons, ih]

private theorem run_new (bs : List Str) : ∀ (n : Nat) (h : Heap) (out : Str), (∀ p ∈ h.map (·.1), p < n) →
    runOps h out (bs.mapIdx (fun i b => .new (n + i) b)) = some (h ++ heapFrom n bs, out) := by
  induction bs with
  | nil => intro n h out _; simp [heapFrom, runOps]
  | cons b bs ih =>
    intro n h out hh
    have e : (b :: bs).mapIdx (fun i b => Op.new (n + i) b) = .new n b :: bs.mapIdx (fun i b => Op.new (n + 1 + i) b) := by
      rw [List.mapIdx_cons]
      simp [Nat.add_assoc, Nat.add_comm 1]
    rw [e, runOps, if_neg (fun hm => Nat.lt_irrefl _ (hh n hm)), ih (n + 1), heapFrom_cons]
    · simp
    · intro p hp
      simp only [List.map_append, List.mem_append, List.map_cons, List.map_nil, List.mem_singleton] at hp
      rcases hp with hp | rfl
      · have := hh p hp; omega
      · omega

private theorem run_out (bs : List Str) : ∀ (n : Nat) (out : Str),
    runOps (heapFrom n bs) out ((List.range' n bs.length).flatMap (fun p => [.outputBlock p, .delete p])) = some ([], out ++ bs.flatten) := by
  induction bs with
  | nil => intro n out; simp [heapFrom, runOps]
  | cons b bs ih =>
    intro n out
    rw [List.length_cons, List.range'_succ, List.flatMap_cons, heapFrom_cons]
    show runOps ((n, b) :: heapFrom (n + 1) bs) out (.outputBlock n :: .delete n :: (List.range' (n + 1) bs.length).flatMap (fun p => [.outputBlock p, .delete p])) = _
    rw [runOps, List.lookup_cons_self]
    simp only
    rw [runOps, if_pos (by simp), List.filter_cons_of_neg (by simp), List.filter_eq_self.2, ih, List.flatten_cons, List.append_assoc]
    intro x hx
    have := heapFrom_keys (n + 1) bs x.1 (List.mem_map.2 ⟨x, hx, rfl⟩)
    simp only [ne_eq, decide_eq_true_eq]
    omega

/-- What has been allocated when the blocks are made: those of the subtitles before the first that cannot be written. -/
private theorem make_run (fps : ℚ) (ss : List Subtitle) : ∀ (n : Nat) (h : Heap) (out : Str), (∀ p ∈ h.map (·.1), p < n) →
    ∃ pre post bs, ss = pre ++ post ∧ makeTtiBlocks fps pre = .ok bs ∧ runOps h out (makeTtiOps fps n ss).1 = some (h ++ heapFrom n bs, out) ∧
      ((post = [] ∧ makeTtiBlocks fps ss = .ok bs ∧ (makeTtiOps fps n ss).2 = .ok (List.range' n bs.length)) ∨
        ∃ s rest e, post = s :: rest ∧ ttiBlocks fps s = .error e ∧ makeTtiBlocks fps ss = .error e ∧ (makeTtiOps fps n ss).2 = .error e) := by
  induction ss with
  | nil => exact fun n h out _ => ⟨[], [], [], rfl, rfl, by simp [makeTtiOps, runOps, heapFrom], .inl ⟨rfl, rfl, rfl⟩⟩
  | cons s ss ih =>
    intro n h out hh
    cases hs : ttiBlocks fps s with
    | error e =>
      refine ⟨[], s :: ss, [], rfl, rfl, ?_, .inr ⟨s, ss, e, rfl, hs, ?_, ?_⟩⟩
      · simp [makeTtiOps, hs, runOps, heapFrom]
      · rw [makeTtiBlocks, hs]; rfl
      · simp [makeTtiOps, hs]
    | ok bs =>
      have hh' : ∀ p ∈ (h ++ heapFrom n bs).map (·.1), p < n + bs.length := by
        intro p hp
        rw [List.map_append, List.mem_append] at hp
        rcases hp with hp | hp
        · have := hh p hp; omega
        · exact (heapFrom_keys n bs p hp).2
      obtain ⟨pre, post, bs', e1, e2, e3, e4⟩ := ih (n + bs.length) (h ++ heapFrom n bs) out hh'
      refine ⟨s :: pre, post, bs ++ bs', by rw [e1]; rfl, ?_, ?_, ?_⟩
      · rw [makeTtiBlocks, hs, ok_bind, e2]; rfl
      · have : (makeTtiOps fps n (s :: ss)).1 = bs.mapIdx (fun i b => .new (n + i) b) ++ (makeTtiOps fps (n + bs.length) ss).1 := by simp [makeTtiOps, hs]
        rw [this, runOps_append, run_new bs n h out hh, Option.bind_some, e3, heapFrom_append, List.append_assoc]
      · have h2 : (makeTtiOps fps n (s :: ss)).2 = (makeTtiOps fps (n + bs.length) ss).2.map ((List.range' n bs.length) ++ ·) := by simp [makeTtiOps, hs]
        have h3 : makeTtiBlocks fps (s :: ss) = (makeTtiBlocks fps ss).map (bs ++ ·) := by
          rw [makeTtiBlocks, hs, ok_bind]
          cases makeTtiBlocks fps ss <;> rfl
        rw [h2, h3]
        rcases e4 with ⟨f1, f2, f3⟩ | ⟨s', rest, e, f1, f2, f3, f4⟩
        · refine .inl ⟨f1, by rw [f2]; rfl, ?_⟩
          rw [f3, List.length_append]
          show Except.ok (List.range' n bs.length ++ List.range' (n + bs.length) bs'.length) = _
          rw [List.range'_append_1]
        · exact .inr ⟨s', rest, e, f1, f2, by rw [f3]; rfl, by rw [f4]; rfl⟩

/-! ### The property: memory -/

/-- C131: when `write_stl_binary` returns, every block has been in use while it was written, every one has been freed exactly once, and the output is the file. -/
theorem C131_write (l : Locale) (a : StlArgs) (file : Str) (h : writeStlIn l a = .ok file) :
    (writeStlOps l a).2 = .ok () ∧ runOps [] [] (writeStlOps l a).1 = some ([], file) := by
  obtain ⟨u, hc, h1⟩ := bind_eq_ok.1 h
  obtain ⟨tti, ht, h2⟩ := bind_eq_ok.1 h1
  obtain ⟨gsi, hg, h3⟩ := bind_eq_ok.1 h2
  cases h3
  obtain ⟨pre, post, bs, e1, e2, e3, e4⟩ := make_run a.fps a.subtitles 0 [] [] (by simp)
  rcases e4 with ⟨-, f2, f3⟩ | ⟨_, _, e, -, -, f3, -⟩
  · rw [ht] at f2
    cases f2
    have hg' : stlGsi l a (List.range' 0 tti.length).length = .ok gsi := by rw [List.length_range']; exact hg
    have e : writeStlOps l a = ((makeTtiOps a.fps 0 a.subtitles).1 ++ .output gsi :: (List.range' 0 tti.length).flatMap (fun p => [.outputBlock p, .delete p]), .ok ()) := by
      unfold writeStlOps
      simp only [hc, f3, hg']
    rw [e]
    refine ⟨rfl, ?_⟩
    rw [runOps_append, e3, Option.bind_some, runOps, List.nil_append, run_out]
    simp
  · rw [ht] at f3
    cases f3

/-- C131: when it throws, nothing has been output and what stays in use are the blocks of all subtitles before the first that cannot be written (of all, if it is the header that cannot be). -/
theorem C131_throws (l : Locale) (a : StlArgs) (e : Err) (h : writeStlIn l a = .error e) :
    (writeStlOps l a).2 = .error e ∧ ∃ left pre post bs, runOps [] [] (writeStlOps l a).1 = some (left, []) ∧ a.subtitles = pre ++ post ∧
      makeTtiBlocks a.fps pre = .ok bs ∧ ((a.check = .error e ∧ left = []) ∨ (a.check = .ok () ∧ left.map (·.2) = bs ∧ ∀ s ∈ post.head?, ttiBlocks a.fps s = .error e)) := by
  obtain ⟨pre, post, bs, e1, e2, e3, e4⟩ := make_run a.fps a.subtitles 0 [] [] (by simp)
  cases hc : a.check with
  | error e' =>
    unfold writeStlIn at h
    rw [hc] at h
    cases h
    have e : writeStlOps l a = ([], .error e) := by
      unfold writeStlOps
      simp only [hc]
    rw [e]
    exact ⟨rfl, [], pre, post, bs, rfl, e1, e2, .inl ⟨rfl, rfl⟩⟩
  | ok u =>
    unfold writeStlIn at h
    rw [hc, ok_bind] at h
    rcases e4 with ⟨f1, f2, f3⟩ | ⟨s, rest, e', f1, f2, f3, f4⟩
    · rw [f2, ok_bind] at h
      cases hg : stlGsi l a bs.length with
      | ok g =>
        rw [hg] at h
        cases h
      | error e' =>
        rw [hg] at h
        cases h
        have hg' : stlGsi l a (List.range' 0 bs.length).length = .error e := by rw [List.length_range']; exact hg
        have e : writeStlOps l a = ((makeTtiOps a.fps 0 a.subtitles).1, .error e) := by
          unfold writeStlOps
          simp only [hc, f3, hg']
        rw [e]
        refine ⟨rfl, heapFrom 0 bs, pre, post, bs, e3, e1, e2, .inr ⟨rfl, heapFrom_blocks 0 bs, ?_⟩⟩
        rw [f1]
        simp
    · rw [f3] at h
      cases h
      have e : writeStlOps l a = ((makeTtiOps a.fps 0 a.subtitles).1, .error e) := by
        unfold writeStlOps
        simp only [hc, f4]
      rw [e]
      refine ⟨rfl, heapFrom 0 bs, pre, post, bs, e3, e1, e2, .inr ⟨rfl, heapFrom_blocks 0 bs, ?_⟩⟩
      rw [f1]
      simpa using f2

/-- C131: so memory stays in use exactly if the arguments are valid and the first subtitle could be written. -/
theorem C131_leak (l : Locale) (a : StlArgs) (e : Err) (h : writeStlIn l a = .error e) :
    (∃ p b left, runOps [] [] (writeStlOps l a).1 = some ((p, b) :: left, [])) ↔ a.check = .ok () ∧ ∃ s ss bs, a.subtitles = s :: ss ∧ ttiBlocks a.fps s = .ok bs := by
  obtain ⟨-, left, pre, post, bs, h1, h2, h3, h4⟩ := C131_throws l a e h
  rw [h1]
  constructor
  · rintro ⟨p, b, left', e1⟩
    cases e1
    rcases h4 with ⟨-, h4⟩ | ⟨h4, h5, h6⟩
    · cases h4
    · refine ⟨h4, ?_⟩
      cases pre with
      | nil =>
        cases h3
        cases h5
      | cons s pre =>
        obtain ⟨x, hx, -⟩ := bind_eq_ok.1 h3
        exact ⟨s, pre ++ post, x, h2, hx⟩
  · rintro ⟨hc, s, ss, xs, e1, e2⟩
    rcases h4 with ⟨h4, -⟩ | ⟨-, h5, h6⟩
    · rw [hc] at h4
      cases h4
    · cases pre with
      | nil =>
        rw [e1, List.nil_append] at h2
        rw [← h2] at h6
        have := h6 s rfl
        rw [e2] at this
        cases this
      | cons s' pre =>
        rw [e1, List.cons_append] at h2
        injection h2 with h7 h8
        subst h7
        obtain ⟨x, hx, h9⟩ := bind_eq_ok.1 h3
        obtain ⟨y, hy, h10⟩ := bind_eq_ok.1 h9
        rw [e2] at hx
        cases hx
        cases h10
        obtain ⟨-, -, -, -, hne, -⟩ := C58_chunks a.fps s xs e2
        obtain ⟨z, zs, rfl⟩ := List.exists_cons_of_ne_nil hne
        cases left with
        | nil => cases h5
        | cons q left => exact ⟨q.1, q.2, left, rfl⟩

/-- The second subtitle has no frame rate: the blocks of the first are never freed. -/
example : (writeStlIn Locale.c { stlDemo with subtitles := stlDemo.subtitles.take 1 ++ [{ (stlDemo.subtitles.getD 1 {}) with from_ := ⟨7, 3, none⟩ }] }).toOption = none ∧
    (runOps [] [] (writeStlOps Locale.c { stlDemo with subtitles := stlDemo.subtitles.take 1 ++ [{ (stlDemo.subtitles.getD 1 {}) with from_ := ⟨7, 3, none⟩ }] }).1).map (fun r => (r.1.length, r.2)) =
      some (1, []) := by decide +kernel

example : ((writeStlOps Locale.c stlDemo).1.length, (runOps [] [] (writeStlOps Locale.c stlDemo).1).map (fun r => (r.1, r.2.length))) = (7, some ([], 1280)) := by decide +kernel

/-! ### Files -/

private theorem srt_of_ext (path : Str) : toLower (extension path) = b!".srt" ↔ ∃ pre e, path = pre ++ 46 :: e ∧ toLower e = b!"srt" := by
  constructor
  · intro h
    rcases extension_cases path with he | ⟨pre, e, hp, he⟩
    · rw [he] at h
      cases h
    · refine ⟨pre, e, hp, ?_⟩
      rw [he] at h
      injection h
  · rintro ⟨pre, e, rfl, h⟩
    exact ext_of pre e _ h (by decide) (by decide) (by decide)

open Classical in
/-- One call. -/
private theorem factory_open (limit opened : Nat) (c : Str × Option Str) : (readerFactoryIn limit opened c.1 c.2).2 = if opened < limit ∧ BadSubRip c then opened + 1 else opened := by
  obtain ⟨path, contents⟩ := c
  unfold readerFactoryIn BadSubRip
  simp only
  rw [← srt_of_ext]
  by_cases hs : toLower (extension path) = b!".srt"
  · rw [if_pos hs]
    obtain ⟨pre, e, rfl, he⟩ := (srt_of_ext path).1 hs
    by_cases hl : opened < limit
    · rw [if_pos hl]
      cases contents with
      | none => simp
      | some s =>
        rw [C73_srt pre e s he]
        simp only [hl, hs, true_and, Option.some.injEq, exists_eq_left']
        cases hr : srtReadFile s with
        | ok subs =>
          rw [if_neg]
          · rfl
          · intro hn
            exact hn subs ((C116_file s subs).1 hr)
        | error e' =>
          rw [if_pos]
          · rfl
          · intro subs hm
            rw [(C116_file s subs).2 hm] at hr
            cases hr
    · rw [if_neg hl]
      simp [hl]
  · rw [if_neg hs]
    exact (if_neg (fun h => hs h.2.1)).symm

/-! ### The property: files -/

open Classical in
/-- C131: however many files a process reads, the ones that stay open are the SubRip files that were not accepted, up to the limit. -/
theorem C131_files (limit opened : Nat) (ho : opened ≤ limit) (cs : List (Str × Option Str)) :
    (factoryRuns limit opened cs).2 = min limit (opened + cs.countP (fun c => decide (BadSubRip c))) := by
  induction cs generalizing opened with
  | nil => rw [factoryRuns, List.countP_nil]; omega
  | cons c cs ih =>
    rw [factoryRuns]
    simp only
    rw [factory_open]
    by_cases hb : BadSubRip c
    · rw [List.countP_cons_of_pos (by simpa using hb)]
      by_cases hl : opened < limit
      · rw [if_pos ⟨hl, hb⟩, ih _ (by omega)]
        omega
      · rw [if_neg (by tauto), ih _ ho]
        omega
    · rw [List.countP_cons_of_neg (by simpa using hb), if_neg (by tauto), ih _ ho]

open Classical in
/-- C131: and after as many as the limit, no SubRip file is read any more, and STL files seem to be empty. -/
theorem C131_exhausted (limit : Nat) (cs : List (Str × Option Str)) (hc : limit ≤ cs.countP (fun c => decide (BadSubRip c))) (pre e : Str) (contents : Option Str) :
    (toLower e = b!"srt" → (readerFactoryIn limit (factoryRuns limit 0 cs).2 (pre ++ 46 :: e) contents).1 = .error .programming) ∧
    (toLower e = b!"stl" → (readerFactoryIn limit (factoryRuns limit 0 cs).2 (pre ++ 46 :: e) contents).1 = .ok (.stlText [])) := by
  rw [C131_files limit 0 (by omega), Nat.zero_add, Nat.min_eq_left hc]
  constructor <;> intro he
  · have hx := ext_of pre e _ he (by decide) (by decide) (by decide)
    unfold readerFactoryIn readerFactory
    simp only [hx, Nat.lt_irrefl, if_false]
    rfl
  · have hx := ext_of pre e _ he (by decide) (by decide) (by decide)
    unfold readerFactoryIn readerFactory
    simp only [hx, Nat.lt_irrefl, if_false]
    rfl

/-- Three bad files and a limit of three: a good one is refused; without the bad ones it is read. -/
example : let bad : Str × Option Str := (b!"x.srt", some b!"1\nwhen?\n"); let good : Str × Option Str := (b!"y.SRT", some b!"1\n0:0:1,0 --> 0:0:2,0\na\n")
    (factoryRuns 3 0 [bad, good, bad, bad, good]).2 = 3 ∧ ((factoryRuns 3 0 [bad, good, bad, bad, good]).1.map fun r => r.toOption.map (·.subs.length)) = [none, some 1, none, none, none] := by
  decide +kernel

/-- Such a bad file. -/
example : BadSubRip (b!"x.srt", some b!"1\nwhen?\n") := by
  refine ⟨⟨b!"x", b!"srt", rfl, by decide⟩, _, rfl, fun subs h => ?_⟩
  have h1 := (C116_file _ _).2 h
  have h2 : (srtReadFile b!"1\nwhen?\n").toOption = none := by decide +kernel
  rw [h1] at h2
  cases h2

end LibSub
