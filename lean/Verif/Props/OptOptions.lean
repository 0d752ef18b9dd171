import Verif.Model.OptOptions
import Mathlib.Tactic.NormNum

/-!
# Options of the optimiser: C128
-/

namespace Qopen

open OptOpt

namespace Spec

/-- The value of an option: what the user gives, else the default. -/
def orDefault (d : Dict String Val) (k : String) (v : Val) : Val := (d.get? k).getD v

/-- The options of the user: `true` is like no options, `none` and `false` mean no optimisation. -/
def userOptions : Optimize → Option (Dict String Val)
  | .none => none
  | .bool b => if b then some [] else none
  | .dict d => some d

/-- Names of methods in lower case, the optimiser itself accepts them in upper and lower case. -/
def lower (s : String) : List Char := s.toList.map Char.toLower

end Spec

open Spec

namespace OptOpt

theorem get?_setDefault (d : Dict String Val) (k : String) (v : Val) (k' : String) :
    (setDefault d k v).get? k' = if k' = k then some (orDefault d k v) else d.get? k' := by
  unfold setDefault orDefault
  split
  · next x h =>
    split_ifs with e
    · rw [e, h]; rfl
    · rfl
  · next h =>
    rw [Dict.get?_set]
    split_ifs with e1 e2 e2
    · rw [h]; rfl
    · exact absurd e1.symm e2
    · exact absurd e2.symm e1
    · rfl

end OptOpt

/-- **C128** (part): an optimisation is done iff the option `optimize` is true or a dictionary.  The
optimiser gets all options of the user unchanged; if they are missing, `method` is golden, `tol` is
1e-8, and for the methods brent and golden `bracket`, for bounded `bounds` are the bounds of g0; there
are no other options.  Missing: names of methods in upper case. -/
theorem C128_options_partial (optimize : Optimize) (g0Bounds : Val) :
    (optimizeArgs optimize g0Bounds = none ↔ userOptions optimize = none) ∧
    ∀ d args, userOptions optimize = some d → optimizeArgs optimize g0Bounds = some args →
      args.get? "method" = some (orDefault d "method" (.text "golden")) ∧
      args.get? "tol" = some (orDefault d "tol" (.num (1 / 10 ^ 8))) ∧
      args.get? "bracket" = (if orDefault d "method" (.text "golden") ∈ [.text "brent", .text "golden"]
        then some (orDefault d "bracket" g0Bounds) else d.get? "bracket") ∧
      args.get? "bounds" = (if orDefault d "method" (.text "golden") = .text "bounded"
        then some (orDefault d "bounds" g0Bounds) else d.get? "bounds") ∧
      ∀ k, k ∉ ["method", "tol", "bracket", "bounds"] → args.get? k = d.get? k := by
  have key : ∀ d : Dict String Val, ∀ args, methodDefaults g0Bounds (setDefault
      (setDefault d "method" (.text "golden")) "tol" (.num (1 / 100000000))) = args →
      args.get? "method" = some (orDefault d "method" (.text "golden")) ∧
      args.get? "tol" = some (orDefault d "tol" (.num (1 / 10 ^ 8))) ∧
      args.get? "bracket" = (if orDefault d "method" (.text "golden") ∈ [.text "brent", .text "golden"]
        then some (orDefault d "bracket" g0Bounds) else d.get? "bracket") ∧
      args.get? "bounds" = (if orDefault d "method" (.text "golden") = .text "bounded"
        then some (orDefault d "bounds" g0Bounds) else d.get? "bounds") ∧
      ∀ k, k ∉ ["method", "tol", "bracket", "bounds"] → args.get? k = d.get? k := by
    intro d args h
    subst h
    set e := setDefault (setDefault d "method" (.text "golden")) "tol" (.num (1 / 100000000)) with he
    have ht : ((1 : ℚ) / 100000000) = 1 / 10 ^ 8 := by norm_num
    have eget : ∀ k, e.get? k = if k = "tol" then some (orDefault d "tol" (.num (1 / 10 ^ 8)))
        else if k = "method" then some (orDefault d "method" (.text "golden")) else d.get? k := by
      intro k
      rw [he, get?_setDefault, get?_setDefault]
      have : orDefault (setDefault d "method" (.text "golden")) "tol" (.num (1 / 100000000)) =
          orDefault d "tol" (.num (1 / 10 ^ 8)) := by
        unfold orDefault
        rw [get?_setDefault, if_neg (by decide), ht]
      rw [this]
    have em : e.get? "method" = some (orDefault d "method" (.text "golden")) := by
      rw [eget]; rfl
    have eb : ∀ k v, k ∉ ["method", "tol"] → orDefault e k v = orDefault d k v := by
      intro k v hk
      simp only [List.mem_cons, List.not_mem_nil, or_false, not_or] at hk
      unfold orDefault
      rw [eget, if_neg hk.2, if_neg hk.1]
    unfold methodDefaults
    rw [em]
    simp only [Option.some.injEq]
    by_cases h1 : orDefault d "method" (.text "golden") = .text "brent" ∨
        orDefault d "method" (.text "golden") = .text "golden"
    · have h2 : orDefault d "method" (.text "golden") ≠ .text "bounded" := by
        rcases h1 with h | h <;> rw [h] <;> decide
      rw [if_pos h1, if_pos (by simpa using h1), if_neg h2]
      refine ⟨?_, ?_, ?_, ?_, ?_⟩
      · rw [get?_setDefault, if_neg (by decide), em]
      · rw [get?_setDefault, if_neg (by decide), eget]; rfl
      · rw [get?_setDefault, if_pos rfl, eb _ _ (by decide)]
      · rw [get?_setDefault, if_neg (by decide), eget, if_neg (by decide), if_neg (by decide)]
      · intro k hk
        simp only [List.mem_cons, List.not_mem_nil, or_false, not_or] at hk
        rw [get?_setDefault, if_neg hk.2.2.1, eget, if_neg hk.2.1, if_neg hk.1]
    · have h1' : orDefault d "method" (.text "golden") ∉ [.text "brent", .text "golden"] := by
        simpa using h1
      rw [if_neg h1, if_neg h1']
      by_cases h2 : orDefault d "method" (.text "golden") = .text "bounded"
      · rw [if_pos h2, if_pos h2]
        refine ⟨?_, ?_, ?_, ?_, ?_⟩
        · rw [get?_setDefault, if_neg (by decide), em]
        · rw [get?_setDefault, if_neg (by decide), eget]; rfl
        · rw [get?_setDefault, if_neg (by decide), eget, if_neg (by decide), if_neg (by decide)]
        · rw [get?_setDefault, if_pos rfl, eb _ _ (by decide)]
        · intro k hk
          simp only [List.mem_cons, List.not_mem_nil, or_false, not_or] at hk
          rw [get?_setDefault, if_neg hk.2.2.2, eget, if_neg hk.2.1, if_neg hk.1]
      · rw [if_neg h2, if_neg h2]
        refine ⟨em, by rw [eget]; rfl, ?_, ?_, ?_⟩
        · rw [eget, if_neg (by decide), if_neg (by decide)]
        · rw [eget, if_neg (by decide), if_neg (by decide)]
        · intro k hk
          simp only [List.mem_cons, List.not_mem_nil, or_false, not_or] at hk
          rw [eget, if_neg hk.2.1, if_neg hk.1]
  cases optimize with
  | none => simp [optimizeArgs, userOptions]
  | bool b =>
    cases b with
    | false => simp [optimizeArgs, userOptions]
    | true =>
      refine ⟨by simp [optimizeArgs, userOptions], ?_⟩
      intro d args hd ha
      simp only [userOptions, if_true, Option.some.injEq] at hd
      subst hd
      exact key [] args (Option.some.inj ha)
  | dict d =>
    refine ⟨by simp [optimizeArgs, userOptions], ?_⟩
    intro d' args hd ha
    simp only [userOptions, Option.some.injEq] at hd
    subst hd
    exact key d args (Option.some.inj ha)

/-- `optimize: true` and `optimize: {method: bounded, xatol: ..}`. -/
example : optimizeArgs (.bool true) (.pair 1 2) = some [("method", .text "golden"),
      ("tol", .num (1 / 100000000)), ("bracket", .pair 1 2)] ∧
    optimizeArgs (.dict [("method", .text "bounded"), ("options", .other 0)]) (.pair 1 2) =
      some [("method", .text "bounded"), ("options", .other 0), ("tol", .num (1 / 100000000)),
        ("bounds", .pair 1 2)] := ⟨rfl, rfl⟩

/-- **C128** fails for names of methods in upper case, which the optimiser documents and accepts: the
bounds of g0 are not passed on, with `Bounded` the optimiser has no bounds at all. -/
theorem C128_upper_case_counterexample (g0Bounds : Val) :
    (∀ m ∈ ["Brent", "Golden", "Bounded"], ∃ m' ∈ ["brent", "golden", "bounded"], lower m = m'.toList) ∧
    ∀ m ∈ ["Brent", "Golden", "Bounded"], ∃ args,
      optimizeArgs (.dict [("method", .text m)]) g0Bounds = some args ∧
      args.get? "bracket" = none ∧ args.get? "bounds" = none := by
  refine ⟨by decide, ?_⟩
  intro m hm
  simp only [List.mem_cons, List.not_mem_nil, or_false] at hm
  rcases hm with rfl | rfl | rfl <;> exact ⟨_, rfl, rfl, rfl⟩

end Qopen
