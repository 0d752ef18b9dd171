import Verif.Spec.CmdLineRt
import Verif.Lemmas.CmdLineComplete

/-!
# Lemmas about the command line of `qopen rt`: parts and values
-/

namespace Qopen.CmdLine

open Run Rt
open Spec (RtPart rtGroups rtGiven rtLast rtUses rtFlags)

section tables

set_option maxRecDepth 100000

theorem flat_rt : flat rtOpts = rtFlags := by decide

theorem table_rt : TableOK rtOpts where
  nodup := by decide
  good := by decide
  free := by decide
  count := by decide
  group := by decide

theorem twoLong_rt : TwoLong (flat rtOpts) :=
  ⟨⟨"--help", "help", .help⟩, by decide, ⟨"--log", "log", .on⟩, by decide, by decide, by decide, by decide⟩

theorem rt_keys : ∀ o ∈ rtOpts, o.dest = "help" ∨ o.dest = "r" ∨ o.dest = "t" ∨ o.dest = "absorption" ∨
    o.dest = "log" ∨ o.dest = "no_direct" ∨ o.dest = "type" := by decide

end tables

section

variable {num : List Char → Option ℝ}

/-- Action of a part. -/
def partTake (num : List Char → Option ℝ) (st : RtSt) : RtPart → Except Exit RtSt
  | .arguments vs => rtRun num st vs
  | .option f vs => rtTake num st f.key vs

/-- Actions of parts. -/
def partsTake (num : List Char → Option ℝ) : RtSt → List RtPart → Except Exit RtSt
  | st, [] => .ok st
  | st, p :: ps => do
    let st ← partTake num st p
    partsTake num st ps

theorem partsTake_append {st : RtSt} {ps qs : List RtPart} {st' : RtSt} :
    partsTake num st (ps ++ qs) = .ok st' ↔
      ∃ s, partsTake num st ps = .ok s ∧ partsTake num s qs = .ok st' := by
  induction ps generalizing st with
  | nil => simp [partsTake]
  | cons p ps ih =>
    simp only [List.cons_append, partsTake, ebind_ok, ih]
    constructor
    · rintro ⟨a, h, s, h1, h2⟩; exact ⟨s, ⟨a, h, h1⟩, h2⟩
    · rintro ⟨s, ⟨a, h, h1⟩, h2⟩; exact ⟨a, h, s, h1, h2⟩

/-- Parts as they are read: there are values, and single ones for numbers. -/
def PartOK : RtPart → Prop
  | .arguments vs => vs ≠ []
  | .option f vs => vs ≠ [] ∧ (f.key ≠ "type" → ∃ v, vs = [v]) ∧ ∃ o ∈ rtOpts, o.dest = f.key

/-- The parts are valid as far as they go. -/
structure PartsOK (num : List Char → Option ℝ) (ps : List RtPart) : Prop where
  command : ∀ v ∈ (rtGroups ps).flatten[0]?, String.ofList v ∈ rtCommands
  velocity : ∀ v ∈ (rtGroups ps).flatten[1]?, num v ≠ none
  paths : ∀ v ∈ (rtGroups ps).flatten.drop 2, num v ≠ none
  together : (rtGroups ps).dropLast.flatten.length ≤ 2
  numbers : ∀ key ∈ ["r", "t", "absorption"], ∀ vs ∈ rtGiven ps key, ∀ v ∈ vs, num v ≠ none
  known : ∀ vs ∈ rtGiven ps "type", ∀ v ∈ vs, String.ofList v ∈ rtTypes
  help : rtGiven ps "help" = []

/-- The state after the parts. -/
structure RtInv (num : List Char → Option ℝ) (st : RtSt) (ps : List RtPart) : Prop where
  ok : PartsOK num ps
  extras : st.extras = false
  expected : st.expected = [Pos.command, .c, .l].drop (rtGroups ps).flatten.length
  command : st.command = (rtGroups ps).flatten[0]?.map String.ofList
  c : st.c = (rtGroups ps).flatten[1]?.bind num
  ls : st.ls = if (rtGroups ps).flatten.length ≤ 2 then none
    else some (((rtGroups ps).flatten.drop 2).filterMap num)
  r : st.r = rtLast num ps "r"
  t : st.t = rtLast num ps "t"
  absorption : st.absorption = rtLast num ps "absorption"
  log : st.log = true ↔ rtGiven ps "log" ≠ []
  noDirect : st.noDirect = true ↔ rtGiven ps "no_direct" ≠ []
  types : st.types = ((rtGiven ps "type").getLast?.map (·.map String.ofList)).getD ["rt3d"]

@[simp] theorem rtGroups_append (ps qs : List RtPart) : rtGroups (ps ++ qs) = rtGroups ps ++ rtGroups qs :=
  List.filterMap_append

@[simp] theorem rtGiven_append (ps qs : List RtPart) (k : String) :
    rtGiven (ps ++ qs) k = rtGiven ps k ++ rtGiven qs k := List.filterMap_append

@[simp] theorem rtGroups_arguments (vs : List (List Char)) : rtGroups [.arguments vs] = [vs] := rfl
@[simp] theorem rtGroups_option (f : Spec.Flag) (vs : List (List Char)) : rtGroups [.option f vs] = [] := rfl
@[simp] theorem rtGiven_arguments (vs : List (List Char)) (k : String) : rtGiven [.arguments vs] k = [] := rfl
@[simp] theorem rtGiven_option (f : Spec.Flag) (vs : List (List Char)) (k : String) :
    rtGiven [.option f vs] k = if f.key = k then [vs] else [] := by
  by_cases h : f.key = k <;> simp [rtGiven, h]

theorem rtLast_option (ps : List RtPart) (f : Spec.Flag) (v : List Char) (k : String) :
    rtLast num (ps ++ [.option f [v]]) k = if f.key = k then num v else rtLast num ps k := by
  unfold rtLast
  by_cases h : f.key = k <;> simp [h]

theorem rtLast_other (ps : List RtPart) (f : Spec.Flag) (vs : List (List Char)) {k : String} (h : f.key ≠ k) :
    rtLast num (ps ++ [.option f vs]) k = rtLast num ps k := by
  unfold rtLast
  simp [h]

theorem rtNumber_ok {v : List Char} {x : ℝ} : rtNumber num v = .ok x ↔ num v = some x := by
  unfold rtNumber
  cases num v <;> simp

theorem rtNumbers_ok {vs : List (List Char)} {l : List ℝ} :
    rtNumbers num vs = .ok l ↔ vs.map num = l.map some := by
  induction vs generalizing l with
  | nil => cases l <;> simp [rtNumbers]
  | cons v vs ih =>
    simp only [rtNumbers, ebind_ok, rtNumber_ok, Except.ok.injEq, List.map_cons]
    constructor
    · rintro ⟨x, hx, r, hr, rfl⟩
      simp [hx, ih.1 hr]
    · intro h
      cases l with
      | nil => simp at h
      | cons x r =>
        simp only [List.map_cons, List.cons.injEq] at h
        exact ⟨x, h.1, r, ih.2 h.2, rfl⟩

theorem filterMap_of_map {vs : List (List Char)} {l : List ℝ} (h : vs.map num = l.map some) :
    vs.filterMap num = l := by
  induction vs generalizing l with
  | nil => cases l <;> simp_all
  | cons v vs ih =>
    cases l with
    | nil => simp at h
    | cons x r =>
      simp only [List.map_cons, List.cons.injEq] at h
      simp [h.1, ih h.2]

theorem map_of_filterMap {vs : List (List Char)} (h : ∀ v ∈ vs, num v ≠ none) :
    vs.map num = (vs.filterMap num).map some := by
  induction vs with
  | nil => rfl
  | cons v vs ih =>
    obtain ⟨x, hx⟩ := Option.ne_none_iff_exists'.1 (h v (by simp))
    simp [hx, ih (fun w hw => h w (by simp [hw]))]

theorem ne_none_of_map {vs : List (List Char)} {l : List ℝ} (h : vs.map num = l.map some) :
    ∀ v ∈ vs, num v ≠ none := by
  intro v hv hn
  have : num v ∈ vs.map num := List.mem_map_of_mem hv
  rw [h, hn] at this
  simp at this

theorem PartsOK.prefix {ps qs : List RtPart} (h : PartsOK num (ps ++ qs)) : PartsOK num ps where
  command := by
    intro v hv
    refine h.command v ?_
    rw [rtGroups_append, List.flatten_append, Option.mem_def, List.getElem?_append, if_pos, hv]
    exact (List.getElem?_eq_some_iff.1 hv).1
  velocity := by
    intro v hv
    refine h.velocity v ?_
    rw [rtGroups_append, List.flatten_append, Option.mem_def, List.getElem?_append, if_pos, hv]
    exact (List.getElem?_eq_some_iff.1 hv).1
  paths := by
    intro v hv
    refine h.paths v ?_
    rw [rtGroups_append, List.flatten_append, List.drop_append]
    exact List.mem_append_left _ hv
  together := by
    have h1 := h.together
    rw [rtGroups_append] at h1
    rcases List.eq_nil_or_concat (rtGroups qs) with e | ⟨gs, g, e⟩
    · rw [e, List.append_nil] at h1; exact h1
    · rw [e, List.concat_eq_append, ← List.append_assoc, List.dropLast_concat, List.flatten_append,
        List.length_append] at h1
      have h2 : (rtGroups ps).dropLast.flatten.length ≤ (rtGroups ps).flatten.length :=
        ((List.dropLast_sublist _).flatten).length_le
      omega
  numbers := by
    intro k hk vs hv
    exact h.numbers k hk vs (by rw [rtGiven_append]; exact List.mem_append_left _ hv)
  known := by
    intro vs hv
    exact h.known vs (by rw [rtGiven_append]; exact List.mem_append_left _ hv)
  help := by
    have := h.help
    rw [rtGiven_append, List.append_eq_nil_iff] at this
    exact this.1

theorem inv_empty : RtInv num {} [] := by
  constructor <;> try rfl
  · constructor <;> simp [rtGroups, rtGiven]
  · simp [rtGiven]
  · simp [rtGiven]

theorem ok_arguments {ps : List RtPart} {vs : List (List Char)} (h : PartsOK num ps)
    (hl : (rtGroups ps).flatten.length ≤ 2)
    (h0 : ∀ v ∈ ((rtGroups ps).flatten ++ vs)[0]?, String.ofList v ∈ rtCommands)
    (h1 : ∀ v ∈ ((rtGroups ps).flatten ++ vs)[1]?, num v ≠ none)
    (h2 : ∀ v ∈ ((rtGroups ps).flatten ++ vs).drop 2, num v ≠ none) :
    PartsOK num (ps ++ [.arguments vs]) where
  command := by simpa using h0
  velocity := by simpa using h1
  paths := by simpa using h2
  together := by simpa using hl
  numbers := by simpa using h.numbers
  known := by simpa using h.known
  help := by simpa using h.help

theorem inv_arguments {st : RtSt} {ps : List RtPart} {vs : List (List Char)} (h : RtInv num st ps)
    (ok : PartsOK num (ps ++ [.arguments vs])) {command : Option String} {c : Option ℝ}
    {ls : Option (List ℝ)} {expected : List Pos}
    (h0 : expected = [Pos.command, .c, .l].drop ((rtGroups ps).flatten ++ vs).length)
    (h1 : command = ((rtGroups ps).flatten ++ vs)[0]?.map String.ofList)
    (h2 : c = ((rtGroups ps).flatten ++ vs)[1]?.bind num)
    (h3 : ls = if ((rtGroups ps).flatten ++ vs).length ≤ 2 then none
      else some ((((rtGroups ps).flatten ++ vs).drop 2).filterMap num)) :
    RtInv num { st with command := command, c := c, ls := ls, expected := expected, extras := false }
      (ps ++ [.arguments vs]) where
  ok := ok
  extras := rfl
  expected := by simpa using h0
  command := by simpa using h1
  c := by simpa using h2
  ls := by simpa using h3
  r := by simpa [rtLast] using h.r
  t := by simpa [rtLast] using h.t
  absorption := by simpa [rtLast] using h.absorption
  log := by simpa using h.log
  noDirect := by simpa using h.noDirect
  types := by simpa using h.types

theorem run_cases {st : RtSt} {vs : List (List Char)} {st' : RtSt} :
    rtRun num st vs = .ok st' ↔ ∃ s, posTakeAll num st (assign st.expected vs) = .ok s ∧
      st' = { s with expected := st.expected.drop (assign st.expected vs).length,
                     extras := st.extras || (assign st.expected vs).isEmpty } := by
  unfold rtRun
  simp only [ebind_ok, Except.ok.injEq]
  exact exists_congr fun _ => and_congr_right fun _ => eq_comm

theorem command_ok {st s : RtSt} {v : List Char} : posTake num st .command [v] = .ok s ↔
    String.ofList v ∈ rtCommands ∧ s = { st with command := some (String.ofList v) } := by
  unfold posTake
  simp only [List.headD_cons]
  by_cases h : String.ofList v ∈ rtCommands <;> simp [h, eq_comm]

theorem c_ok {st s : RtSt} {v : List Char} : posTake num st .c [v] = .ok s ↔
    ∃ x, num v = some x ∧ s = { st with c := some x } := by
  unfold posTake
  simp only [List.headD_cons, ebind_ok, rtNumber_ok, Except.ok.injEq]
  exact exists_congr fun _ => and_congr_right fun _ => eq_comm

theorem l_ok {st s : RtSt} {vs : List (List Char)} : posTake num st .l vs = .ok s ↔
    (∀ v ∈ vs, num v ≠ none) ∧ s = { st with ls := some (vs.filterMap num) } := by
  unfold posTake
  simp only [ebind_ok, rtNumbers_ok, Except.ok.injEq]
  constructor
  · rintro ⟨l, h, rfl⟩
    exact ⟨ne_none_of_map h, by rw [filterMap_of_map h]⟩
  · rintro ⟨h, rfl⟩
    exact ⟨_, map_of_filterMap h, rfl⟩

theorem run_iff {st : RtSt} {ps : List RtPart} {vs : List (List Char)} (hi : RtInv num st ps)
    (hv : vs ≠ []) :
    (∀ st', rtRun num st vs = .ok st' → st'.extras = false → RtInv num st' (ps ++ [.arguments vs])) ∧
      (PartsOK num (ps ++ [.arguments vs]) → ∃ st', rtRun num st vs = .ok st' ∧ st'.extras = false) := by
  have hex := hi.expected
  have hx := hi.extras
  have hcom := hi.command
  have hc := hi.c
  have hls := hi.ls
  have hok0 := hi.ok.command
  have hok1 := hi.ok.velocity
  have key := @inv_arguments num st ps vs hi
  have key2 := @ok_arguments num ps vs hi.ok
  have key3 : PartsOK num (ps ++ [.arguments vs]) → (rtGroups ps).flatten.length ≤ 2 := fun h => by
    simpa using h.together
  have c0 : PartsOK num (ps ++ [.arguments vs]) →
      ∀ v ∈ ((rtGroups ps).flatten ++ vs)[0]?, String.ofList v ∈ rtCommands :=
    fun h => by simpa using h.command
  have c1 : PartsOK num (ps ++ [.arguments vs]) →
      ∀ v ∈ ((rtGroups ps).flatten ++ vs)[1]?, num v ≠ none :=
    fun h => by simpa using h.velocity
  have c2 : PartsOK num (ps ++ [.arguments vs]) →
      ∀ v ∈ ((rtGroups ps).flatten ++ vs).drop 2, num v ≠ none :=
    fun h => by simpa using h.paths
  generalize (rtGroups ps).flatten = P at *
  match P, vs with
  | _, [] => exact absurd rfl hv
  | a :: b :: d :: P, v :: vs =>
    simp at hex
    constructor
    · intro st' h h'
      rw [run_cases] at h
      obtain ⟨s, -, rfl⟩ := h
      simp [hex, assign] at h'
    · intro h
      have := key3 h
      simp at this
  | [], [v] =>
    simp at hex hcom hc hls
    constructor
    · intro st' h h'
      simp only [run_cases, hex, assign, posTakeAll, ebind_ok, command_ok, Except.ok.injEq] at h
      obtain ⟨s, ⟨s1, ⟨h1, rfl⟩, rfl⟩, rfl⟩ := h
      have := key (key2 (by simp) (by simpa using h1) (by simp) (by simp)) rfl rfl rfl rfl
      simpa [hx, hc, hls] using this
    · intro h
      have h0 := c0 h
      simp at h0
      have : ∃ s, posTakeAll num st (assign st.expected [v]) = .ok s := by
        rw [hex]
        simp only [assign, posTakeAll, ebind_ok, command_ok]
        exact ⟨_, _, ⟨h0, rfl⟩, rfl⟩
      obtain ⟨s, hs⟩ := this
      exact ⟨_, run_cases.2 ⟨s, hs, rfl⟩, by simp [hx, hex, assign]⟩
  | [], [v, w] =>
    simp at hex hcom hc hls
    constructor
    · intro st' h h'
      simp only [run_cases, hex, assign, posTakeAll, ebind_ok, command_ok, c_ok, Except.ok.injEq] at h
      obtain ⟨s, ⟨s1, ⟨h1, rfl⟩, s2, ⟨x, h2, rfl⟩, rfl⟩, rfl⟩ := h
      have := key (key2 (by simp) (by simpa using h1) (by simp [h2]) (by simp)) rfl rfl rfl rfl
      simpa [hx, hls, h2] using this
    · intro h
      have h0 := c0 h
      have h1 := c1 h
      simp at h0 h1
      obtain ⟨x, hxx⟩ := Option.ne_none_iff_exists'.1 h1
      have : ∃ s, posTakeAll num st (assign st.expected [v, w]) = .ok s := by
        rw [hex]
        simp only [assign, posTakeAll, ebind_ok, command_ok, c_ok]
        exact ⟨_, _, ⟨h0, rfl⟩, _, ⟨x, hxx, rfl⟩, rfl⟩
      obtain ⟨s, hs⟩ := this
      exact ⟨_, run_cases.2 ⟨s, hs, rfl⟩, by simp [hx, hex, assign]⟩
  | [], v :: w :: y :: ys =>
    simp at hex hcom hc hls
    constructor
    · intro st' h h'
      simp only [run_cases, hex, assign, posTakeAll, ebind_ok, command_ok, c_ok, l_ok,
        Except.ok.injEq] at h
      obtain ⟨s, ⟨s1, ⟨h1, rfl⟩, s2, ⟨x, h2, rfl⟩, s3, ⟨h3, rfl⟩, rfl⟩, rfl⟩ := h
      have := key (key2 (by simp) (by simpa using h1) (by simp [h2]) (by simpa using h3)) rfl rfl rfl rfl
      simpa [hx, h2] using this
    · intro h
      have h0 := c0 h
      have h1 := c1 h
      have h2 := c2 h
      simp only [List.nil_append, List.getElem?_cons_zero, List.getElem?_cons_succ, Option.mem_def,
        Option.some.injEq, forall_eq', List.drop_succ_cons, List.drop_zero] at h0 h1 h2
      obtain ⟨x, hxx⟩ := Option.ne_none_iff_exists'.1 h1
      have : ∃ s, posTakeAll num st (assign st.expected (v :: w :: y :: ys)) = .ok s := by
        rw [hex]
        simp only [assign, posTakeAll, ebind_ok, command_ok, c_ok, l_ok]
        exact ⟨_, _, ⟨h0, rfl⟩, _, ⟨x, hxx, rfl⟩, _, ⟨h2, rfl⟩, rfl⟩
      obtain ⟨s, hs⟩ := this
      exact ⟨_, run_cases.2 ⟨s, hs, rfl⟩, by simp [hx, hex, assign]⟩
  | [a], [v] =>
    simp at hex hcom hc hls hok0
    constructor
    · intro st' h h'
      simp only [run_cases, hex, assign, posTakeAll, ebind_ok, c_ok, Except.ok.injEq] at h
      obtain ⟨s, ⟨s1, ⟨x, h2, rfl⟩, rfl⟩, rfl⟩ := h
      have := key (key2 (by simp) (by simpa using hok0) (by simp [h2]) (by simp)) rfl rfl rfl rfl
      simpa [hx, hcom, hls, h2] using this
    · intro h
      have h1 := c1 h
      simp at h1
      obtain ⟨x, hxx⟩ := Option.ne_none_iff_exists'.1 h1
      have : ∃ s, posTakeAll num st (assign st.expected [v]) = .ok s := by
        rw [hex]
        simp only [assign, posTakeAll, ebind_ok, c_ok]
        exact ⟨_, _, ⟨x, hxx, rfl⟩, rfl⟩
      obtain ⟨s, hs⟩ := this
      exact ⟨_, run_cases.2 ⟨s, hs, rfl⟩, by simp [hx, hex, assign]⟩
  | [a], v :: y :: ys =>
    simp at hex hcom hc hls hok0
    constructor
    · intro st' h h'
      simp only [run_cases, hex, assign, posTakeAll, ebind_ok, c_ok, l_ok, Except.ok.injEq] at h
      obtain ⟨s, ⟨s2, ⟨x, h2, rfl⟩, s3, ⟨h3, rfl⟩, rfl⟩, rfl⟩ := h
      have := key (key2 (by simp) (by simpa using hok0) (by simp [h2]) (by simpa using h3)) rfl rfl rfl rfl
      simpa [hx, hcom, h2] using this
    · intro h
      have h1 := c1 h
      have h2 := c2 h
      simp only [List.cons_append, List.nil_append, List.getElem?_cons_zero, List.getElem?_cons_succ,
        Option.mem_def, Option.some.injEq, forall_eq', List.drop_succ_cons, List.drop_zero] at h1 h2
      obtain ⟨x, hxx⟩ := Option.ne_none_iff_exists'.1 h1
      have : ∃ s, posTakeAll num st (assign st.expected (v :: y :: ys)) = .ok s := by
        rw [hex]
        simp only [assign, posTakeAll, ebind_ok, c_ok, l_ok]
        exact ⟨_, _, ⟨x, hxx, rfl⟩, _, ⟨h2, rfl⟩, rfl⟩
      obtain ⟨s, hs⟩ := this
      exact ⟨_, run_cases.2 ⟨s, hs, rfl⟩, by simp [hx, hex, assign]⟩
  | [a, b], v :: vs =>
    simp at hex hcom hc hls hok0 hok1
    constructor
    · intro st' h h'
      simp only [run_cases, hex, assign, posTakeAll, ebind_ok, l_ok, Except.ok.injEq] at h
      obtain ⟨s, ⟨s3, ⟨h3, rfl⟩, rfl⟩, rfl⟩ := h
      have := key (key2 (by simp) (by simpa using hok0) (by simpa using hok1) (by simpa using h3))
        rfl rfl rfl rfl
      simpa [hx, hcom, hc] using this
    · intro h
      have h2 := c2 h
      simp only [List.cons_append, List.nil_append, List.drop_succ_cons, List.drop_zero] at h2
      have : ∃ s, posTakeAll num st (assign st.expected (v :: vs)) = .ok s := by
        rw [hex]
        simp only [assign, posTakeAll, ebind_ok, l_ok]
        exact ⟨_, _, ⟨h2, rfl⟩, rfl⟩
      obtain ⟨s, hs⟩ := this
      exact ⟨_, run_cases.2 ⟨s, hs, rfl⟩, by simp [hx, hex, assign]⟩

theorem ok_option {ps : List RtPart} {f : Spec.Flag} {vs : List (List Char)} :
    PartsOK num (ps ++ [.option f vs]) ↔ PartsOK num ps ∧
      (f.key ∈ ["r", "t", "absorption"] → ∀ v ∈ vs, num v ≠ none) ∧
      (f.key = "type" → ∀ v ∈ vs, String.ofList v ∈ rtTypes) ∧ f.key ≠ "help" := by
  constructor
  · intro h
    refine ⟨h.prefix, ?_, ?_, ?_⟩
    · intro hk
      exact h.numbers f.key hk vs (by simp)
    · intro hk
      exact h.known vs (by simp [hk])
    · intro hk
      have := h.help
      simp [hk] at this
  · rintro ⟨h, h1, h2, h3⟩
    refine ⟨by simpa using h.command, by simpa using h.velocity, by simpa using h.paths,
      by simpa using h.together, ?_, ?_, by simpa [h3] using h.help⟩
    · intro k hk ws hw
      rw [rtGiven_append, rtGiven_option, List.mem_append] at hw
      rcases hw with hw | hw
      · exact h.numbers k hk ws hw
      · split at hw
        · next e =>
          simp only [List.mem_singleton] at hw
          subst hw e
          exact h1 hk
        · simp at hw
    · intro ws hw
      rw [rtGiven_append, rtGiven_option, List.mem_append] at hw
      rcases hw with hw | hw
      · exact h.known ws hw
      · split at hw
        · next e =>
          simp only [List.mem_singleton] at hw
          subst hw
          exact h2 e
        · simp at hw

theorem rtTake_extras {st st' : RtSt} {k : String} {vs : List (List Char)}
    (h : rtTake num st k vs = .ok st') : st'.extras = st.extras := by
  unfold rtTake at h
  split at h
  · cases h
  all_goals first
    | (rw [ebind_ok] at h
       obtain ⟨x, -, h⟩ := h
       injection h with h
       rw [← h])
    | (injection h with h
       rw [← h])
    | (split at h
       · injection h with h
         rw [← h]
       · cases h)
    | cases h

theorem option_iff {st : RtSt} {ps : List RtPart} {f : Spec.Flag} {vs : List (List Char)}
    (hi : RtInv num st ps) (hp : PartOK (.option f vs)) :
    (∀ st', rtTake num st f.key vs = .ok st' → RtInv num st' (ps ++ [.option f vs])) ∧
      (PartsOK num (ps ++ [.option f vs]) → ∃ st', rtTake num st f.key vs = .ok st' ∧ st'.extras = false) := by
  obtain ⟨hne, h1, o, ho, hk⟩ := hp
  have hkeys := rt_keys o ho
  rw [hk] at hkeys
  obtain ⟨i1, i2, i3, i4, i5, i6, i7, i8, i9, i10, i11, i12⟩ := hi
  rcases hkeys with e | e | e | e | e | e | e
  · rw [e]
    refine ⟨fun st' h => by simp [rtTake] at h, fun h => ?_⟩
    exact absurd e (ok_option.1 h).2.2.2
  · obtain ⟨v, rfl⟩ := h1 (by rw [e]; decide)
    rw [e]
    constructor
    · intro st' h
      simp only [rtTake, List.headD_cons, ebind_ok, rtNumber_ok, Except.ok.injEq] at h
      obtain ⟨x, hx, rfl⟩ := h
      refine ⟨ok_option.2 ⟨i1, by simp [hx], by simp [e], by simp [e]⟩, ?_, ?_, ?_, ?_, ?_, ?_, ?_, ?_, ?_, ?_, ?_⟩
      all_goals simp [rtLast_option, rtLast_other, *]
    · intro h
      obtain ⟨x, hx⟩ := Option.ne_none_iff_exists'.1 ((ok_option.1 h).2.1 (by simp [e]) v (by simp))
      have : ∃ st', rtTake num st "r" [v] = .ok st' := by
        simp only [rtTake, List.headD_cons, ebind_ok, rtNumber_ok]
        exact ⟨_, x, hx, rfl⟩
      obtain ⟨st', hs⟩ := this
      exact ⟨st', hs, (rtTake_extras hs).trans i2⟩
  · obtain ⟨v, rfl⟩ := h1 (by rw [e]; decide)
    rw [e]
    constructor
    · intro st' h
      simp only [rtTake, List.headD_cons, ebind_ok, rtNumber_ok, Except.ok.injEq] at h
      obtain ⟨x, hx, rfl⟩ := h
      refine ⟨ok_option.2 ⟨i1, by simp [hx], by simp [e], by simp [e]⟩, ?_, ?_, ?_, ?_, ?_, ?_, ?_, ?_, ?_, ?_, ?_⟩
      all_goals simp [rtLast_option, rtLast_other, *]
    · intro h
      obtain ⟨x, hx⟩ := Option.ne_none_iff_exists'.1 ((ok_option.1 h).2.1 (by simp [e]) v (by simp))
      have : ∃ st', rtTake num st "t" [v] = .ok st' := by
        simp only [rtTake, List.headD_cons, ebind_ok, rtNumber_ok]
        exact ⟨_, x, hx, rfl⟩
      obtain ⟨st', hs⟩ := this
      exact ⟨st', hs, (rtTake_extras hs).trans i2⟩
  · obtain ⟨v, rfl⟩ := h1 (by rw [e]; decide)
    rw [e]
    constructor
    · intro st' h
      simp only [rtTake, List.headD_cons, ebind_ok, rtNumber_ok, Except.ok.injEq] at h
      obtain ⟨x, hx, rfl⟩ := h
      refine ⟨ok_option.2 ⟨i1, by simp [hx], by simp [e], by simp [e]⟩, ?_, ?_, ?_, ?_, ?_, ?_, ?_, ?_, ?_, ?_, ?_⟩
      all_goals simp [rtLast_option, rtLast_other, *]
    · intro h
      obtain ⟨x, hx⟩ := Option.ne_none_iff_exists'.1 ((ok_option.1 h).2.1 (by simp [e]) v (by simp))
      have : ∃ st', rtTake num st "absorption" [v] = .ok st' := by
        simp only [rtTake, List.headD_cons, ebind_ok, rtNumber_ok]
        exact ⟨_, x, hx, rfl⟩
      obtain ⟨st', hs⟩ := this
      exact ⟨st', hs, (rtTake_extras hs).trans i2⟩
  · rw [e]
    constructor
    · intro st' h
      simp only [rtTake, Except.ok.injEq] at h
      subst h
      refine ⟨ok_option.2 ⟨i1, by simp [e], by simp [e], by simp [e]⟩, ?_, ?_, ?_, ?_, ?_, ?_, ?_, ?_, ?_, ?_, ?_⟩
      all_goals simp [rtLast_other, *]
    · intro _
      exact ⟨_, rfl, i2⟩
  · rw [e]
    constructor
    · intro st' h
      simp only [rtTake, Except.ok.injEq] at h
      subst h
      refine ⟨ok_option.2 ⟨i1, by simp [e], by simp [e], by simp [e]⟩, ?_, ?_, ?_, ?_, ?_, ?_, ?_, ?_, ?_, ?_, ?_⟩
      all_goals simp [rtLast_other, *]
    · intro _
      exact ⟨_, rfl, i2⟩
  · rw [e]
    constructor
    · intro st' h
      by_cases hv : ∀ v ∈ vs, String.ofList v ∈ rtTypes
      · simp only [rtTake, if_pos hv, Except.ok.injEq] at h
        subst h
        refine ⟨ok_option.2 ⟨i1, by simp [e], fun _ => hv, by simp [e]⟩,
          ?_, ?_, ?_, ?_, ?_, ?_, ?_, ?_, ?_, ?_, ?_⟩
        all_goals simp [rtLast_other, *]
      · simp [rtTake, hv] at h
    · intro h
      have hv := (ok_option.1 h).2.2.1 e
      have : ∃ st', rtTake num st "type" vs = .ok st' := by
        simp only [rtTake, if_pos hv]
        exact ⟨_, rfl⟩
      obtain ⟨st', hs⟩ := this
      exact ⟨st', hs, (rtTake_extras hs).trans i2⟩

theorem part_iff {st : RtSt} {ps : List RtPart} {p : RtPart} (hi : RtInv num st ps) (hp : PartOK p) :
    (∀ st', partTake num st p = .ok st' → st'.extras = false → RtInv num st' (ps ++ [p])) ∧
      (PartsOK num (ps ++ [p]) → ∃ st', partTake num st p = .ok st' ∧ st'.extras = false) := by
  cases p with
  | arguments vs => exact run_iff hi hp
  | option f vs =>
    have := option_iff hi hp
    exact ⟨fun st' h _ => this.1 st' h, this.2⟩

theorem run_extras {st st' : RtSt} {vs : List (List Char)} (h : rtRun num st vs = .ok st')
    (hx : st.extras = true) : st'.extras = true := by
  rw [run_cases] at h
  obtain ⟨s, -, rfl⟩ := h
  simp [hx]

theorem parts_extras {st st' : RtSt} {ps : List RtPart} (h : partsTake num st ps = .ok st')
    (hx : st.extras = true) : st'.extras = true := by
  induction ps generalizing st with
  | nil => simp only [partsTake, Except.ok.injEq] at h; rw [← h, hx]
  | cons p ps ih =>
    simp only [partsTake, ebind_ok] at h
    obtain ⟨s, h1, h2⟩ := h
    refine ih h2 ?_
    cases p with
    | arguments vs => exact run_extras h1 hx
    | option f vs => rw [rtTake_extras h1, hx]

theorem parts_iff {st : RtSt} {ps qs : List RtPart} (hi : RtInv num st ps) (hq : ∀ p ∈ qs, PartOK p) :
    (∀ st', partsTake num st qs = .ok st' → st'.extras = false → RtInv num st' (ps ++ qs)) ∧
      (PartsOK num (ps ++ qs) → ∃ st', partsTake num st qs = .ok st' ∧ st'.extras = false) := by
  induction qs generalizing st ps with
  | nil =>
    refine ⟨fun st' h _ => ?_, fun _ => ⟨st, rfl, hi.extras⟩⟩
    simp only [partsTake, Except.ok.injEq] at h
    rw [← h, List.append_nil]; exact hi
  | cons q qs ih =>
    have hq' : ∀ p ∈ qs, PartOK p := fun p hp => hq p (by simp [hp])
    have hstep := part_iff hi (hq q (by simp))
    rw [List.append_cons]
    constructor
    · intro st' h hx
      simp only [partsTake, ebind_ok] at h
      obtain ⟨s, h1, h2⟩ := h
      have hs : s.extras = false := by
        by_contra hne
        rw [parts_extras h2 (by simpa using hne)] at hx
        cases hx
      exact (ih (hstep.1 s h1 hs) hq').1 st' h2 hx
    · intro h
      obtain ⟨s, h1, hs⟩ := hstep.2 h.prefix
      obtain ⟨st', h2, hx⟩ := (ih (hstep.1 s h1 hs) hq').2 h
      exact ⟨st', by simp only [partsTake, ebind_ok]; exact ⟨s, h1, h2⟩, hx⟩

/-- The values at the end are the ones which are meant. -/
theorem finish_iff {st : RtSt} {ps : List RtPart} (hi : RtInv num st ps) {a : RtArgs} :
    rtFinish st = .ok a ↔ Spec.RtMeans num ps a := by
  obtain ⟨⟨o1, o2, o3, o4, o5, o6, o7⟩, i2, i3, i4, i5, i6, i7, i8, i9, i10, i11, i12⟩ := hi
  unfold rtFinish
  constructor
  · intro h
    rcases hP : (rtGroups ps).flatten with _ | ⟨v, _ | ⟨w, _ | ⟨x, vs⟩⟩⟩
    · rw [hP] at i4; simp [i4] at h
    · rw [hP] at i5; simp [i5] at h
    · rw [hP] at i6; simp [i6] at h
    · rw [hP] at i4 i5 i6 o1 o2 o3
      simp only [List.getElem?_cons_zero, List.getElem?_cons_succ, Option.map_some, Option.bind_some,
        List.length_cons, List.drop_succ_cons, List.drop_zero, Option.mem_def, Option.some.injEq,
        forall_eq'] at i4 i5 i6 o1 o2 o3
      rw [if_neg (by omega)] at i6
      obtain ⟨y, hy⟩ := Option.ne_none_iff_exists'.1 o2
      rw [hy] at i5
      rw [i4, i5, i6] at h
      simp only [i2, Bool.false_eq_true, if_false, Except.ok.injEq] at h
      subst h
      exact ⟨⟨v, w, x :: vs, hP, by simp, rfl, hy, map_of_filterMap o3⟩, o1, o4, o5, o6, o7, i7, i8, i9, i10,
        i11, i12⟩
  · rintro ⟨⟨v, w, vs, hP, hne, h1, h2, h3⟩, m2, m3, m4, m5, m6, m7, m8, m9, m10, m11, m12⟩
    rw [hP] at i4 i5 i6
    cases vs with
    | nil => exact absurd rfl hne
    | cons x vs =>
      simp only [List.getElem?_cons_zero, List.getElem?_cons_succ, Option.map_some, Option.bind_some,
        List.length_cons, List.drop_succ_cons, List.drop_zero] at i4 i5 i6
      rw [if_neg (by omega), filterMap_of_map h3] at i6
      rw [i4, i5, i6, h2]
      simp only [i2, Bool.false_eq_true, if_false, Except.ok.injEq]
      have e1 : st.log = a.log := Bool.eq_iff_iff.2 (i10.trans m10.symm)
      have e2 : st.noDirect = a.noDirect := Bool.eq_iff_iff.2 (i11.trans m11.symm)
      rw [i7, i8, i9, i12, e1, e2, ← m7, ← m8, ← m9, ← m12, ← h1]

theorem ok_of_means {ps : List RtPart} {a : RtArgs} (h : Spec.RtMeans num ps a) : PartsOK num ps := by
  obtain ⟨⟨v, w, vs, hP, hne, h1, h2, h3⟩, m2, m3, m4, m5, m6, -⟩ := h
  refine ⟨?_, ?_, ?_, m3, m4, m5, m6⟩
  · rw [hP]; simpa [← h1, rtCommands] using m2
  · rw [hP]; simp [h2]
  · rw [hP]; exact ne_none_of_map h3

end

end Qopen.CmdLine
