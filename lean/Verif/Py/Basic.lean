import Mathlib.Data.Real.Basic
import Mathlib.Data.List.Basic
import Mathlib.Data.List.Forall2
import Mathlib.Tactic.Common

/-!
# Python basics used by the model

Exceptions are values (`Py α = Except PyErr α`), dictionaries are insertion
ordered association lists, cells of result tables are `None`, `NaN` or a number.
-/

namespace Qopen

/-- The exception classes that the modelled code can raise.  `zeroDivision` is
Python's `ZeroDivisionError`; `skipError` is `qopen.core.SkipError` and
`parseError` `qopen.core.ParseError` (core.py:81-90). -/
inductive PyErr
  | valueError | keyError | typeError | indexError | zeroDivision
  | attributeError | assertion | unboundLocal | notImplemented
  | skipError | parseError | nameError | other
  deriving DecidableEq, Repr

/-- A Python computation: it returns a value or raises. -/
abbrev Py (α : Type) := Except PyErr α

/-- An entry of a result table as it is read from / written to JSON:
`None`, `NaN` or a number.  (Floats are idealised as reals; infinities are not
modelled.) -/
inductive Cell
  | none
  | nan
  | num (x : ℝ)

namespace Cell

/-- `None if x is None or np.isnan(x) else x`, the test used all over the code
(e.g. site.py:73, 78, 124, 229, 290; util.py:139). -/
def val? : Cell → Option ℝ
  | .none => Option.none
  | .nan => Option.none
  | .num x => some x

@[simp] theorem val?_none : Cell.none.val? = Option.none := rfl
@[simp] theorem val?_nan : Cell.nan.val? = Option.none := rfl
@[simp] theorem val?_num (x : ℝ) : (Cell.num x).val? = some x := rfl

theorem val?_eq_some {c : Cell} {x : ℝ} : c.val? = some x ↔ c = .num x := by
  cases c <;> simp [val?]

/-- JSON representation of an optional number: `None` for a missing one. -/
def ofOption : Option ℝ → Cell
  | Option.none => .none
  | some x => .num x

@[simp] theorem val?_ofOption (o : Option ℝ) : (ofOption o).val? = o := by
  cases o <;> rfl

end Cell

/-- Python sequence indexing `l[i]` for a non-negative index: `IndexError` when
out of range. -/
def pyGet {α : Type} (l : List α) (i : ℕ) : Py α :=
  match l[i]? with
  | some a => .ok a
  | Option.none => .error .indexError

theorem pyGet_ok {α : Type} {l : List α} {i : ℕ} {a : α} :
    pyGet l i = .ok a ↔ l[i]? = some a := by
  unfold pyGet
  cases h : l[i]? <;> simp

/-- Insertion ordered dictionary (`dict`/`OrderedDict`). Keys are kept unique by
`set`; `Dict.WF` states uniqueness for dictionaries that come from outside. -/
abbrev Dict (κ α : Type) := List (κ × α)

namespace Dict
variable {κ α β : Type} [DecidableEq κ]

/-- `d.get(k)`. -/
def get? : Dict κ α → κ → Option α
  | [], _ => none
  | (k', v) :: d, k => if k' = k then some v else get? d k

/-- `d[k] = v`: replaces in place or appends. -/
def set : Dict κ α → κ → α → Dict κ α
  | [], k, v => [(k, v)]
  | (k', v') :: d, k, v => if k' = k then (k', v) :: d else (k', v') :: set d k v

/-- `d.pop(k, None)` as far as the dictionary is concerned. -/
def pop : Dict κ α → κ → Dict κ α
  | [], _ => []
  | (k', v') :: d, k => if k' = k then d else (k', v') :: pop d k

/-- `d.update(e)`. -/
def update (d e : Dict κ α) : Dict κ α :=
  e.foldl (fun acc kv => acc.set kv.1 kv.2) d

/-- `d.setdefault(k, v)` as far as the dictionary is concerned. -/
def setdefault (d : Dict κ α) (k : κ) (v : α) : Dict κ α :=
  match d.get? k with
  | some _ => d
  | none => d.set k v

/-- `d.keys()`. -/
def keys (d : Dict κ α) : List κ := d.map Prod.fst

/-- Keys are unique, as in every Python dictionary. -/
def WF (d : Dict κ α) : Prop := d.keys.Nodup

omit [DecidableEq κ] in
@[simp] theorem keys_nil : keys ([] : Dict κ α) = [] := rfl
omit [DecidableEq κ] in
@[simp] theorem keys_cons (k : κ) (v : α) (d : Dict κ α) :
    keys ((k, v) :: d) = k :: keys d := rfl
@[simp] theorem get?_nil (k : κ) : get? ([] : Dict κ α) k = none := rfl

theorem get?_cons (k' k : κ) (v : α) (d : Dict κ α) :
    get? ((k', v) :: d) k = if k' = k then some v else get? d k := rfl

theorem get?_set (d : Dict κ α) (k k' : κ) (v : α) :
    (d.set k v).get? k' = if k = k' then some v else d.get? k' := by
  induction d with
  | nil => simp [set, get?]
  | cons p d ih =>
    obtain ⟨a, w⟩ := p
    simp only [set]
    split
    · next h =>
      subst h
      simp only [get?_cons]
      split <;> rfl
    · next h =>
      simp only [get?_cons, ih]
      split
      · next h1 => subst h1; simp [Ne.symm h]
      · rfl

@[simp] theorem get?_set_self (d : Dict κ α) (k : κ) (v : α) :
    (d.set k v).get? k = some v := by simp [get?_set]

theorem get?_set_ne (d : Dict κ α) {k k' : κ} (v : α) (h : k ≠ k') :
    (d.set k v).get? k' = d.get? k' := by simp [get?_set, h]

theorem get?_eq_none (d : Dict κ α) (k : κ) : d.get? k = none ↔ k ∉ d.keys := by
  induction d with
  | nil => simp
  | cons p d ih =>
    obtain ⟨a, w⟩ := p
    simp only [get?_cons, keys_cons, List.mem_cons, not_or]
    split
    · next h => simp [h]
    · next h => simp [ih, Ne.symm h]

theorem get?_isSome (d : Dict κ α) (k : κ) : (d.get? k).isSome ↔ k ∈ d.keys := by
  rw [← not_iff_not, Bool.not_eq_true, Option.isSome_eq_false_iff, Option.isNone_iff_eq_none,
    get?_eq_none]

theorem mem_of_get? {d : Dict κ α} {k : κ} {v : α} (h : d.get? k = some v) : (k, v) ∈ d := by
  induction d with
  | nil => simp at h
  | cons p d ih =>
    obtain ⟨a, w⟩ := p
    rw [get?_cons] at h
    split at h
    · next h1 => subst h1; simp_all
    · exact List.mem_cons_of_mem _ (ih h)

theorem get?_of_mem {d : Dict κ α} {k : κ} {v : α} (hw : d.WF) (h : (k, v) ∈ d) :
    d.get? k = some v := by
  induction d with
  | nil => simp at h
  | cons p d ih =>
    obtain ⟨a, w⟩ := p
    simp only [WF, keys_cons, List.nodup_cons] at hw
    rw [get?_cons]
    rcases List.mem_cons.1 h with h1 | h1
    · simp only [Prod.mk.injEq] at h1; simp [h1.1, h1.2]
    · have : a ≠ k := by
        rintro rfl
        exact hw.1 (List.mem_map.2 ⟨(a, v), h1, rfl⟩)
      simp [this, ih hw.2 h1]

theorem mem_iff_get? {d : Dict κ α} (hw : d.WF) {k : κ} {v : α} :
    (k, v) ∈ d ↔ d.get? k = some v := ⟨get?_of_mem hw, mem_of_get?⟩

theorem mem_keys_set (d : Dict κ α) (k k' : κ) (v : α) :
    k' ∈ (d.set k v).keys ↔ k' = k ∨ k' ∈ d.keys := by
  rw [← get?_isSome, get?_set, ← get?_isSome]
  split
  · next h => simp [h]
  · next h => simp [Ne.symm h]

theorem keys_set_of_mem {d : Dict κ α} {k : κ} (v : α) (h : k ∈ d.keys) :
    (d.set k v).keys = d.keys := by
  induction d with
  | nil => simp at h
  | cons p d ih =>
    obtain ⟨a, w⟩ := p
    simp only [set]
    split
    · rfl
    · next h1 =>
      simp only [keys_cons, List.mem_cons] at h ⊢
      rw [ih (h.resolve_left (Ne.symm h1))]

theorem keys_set_of_not_mem {d : Dict κ α} {k : κ} (v : α) (h : k ∉ d.keys) :
    d.set k v = d ++ [(k, v)] := by
  induction d with
  | nil => rfl
  | cons p d ih =>
    obtain ⟨a, w⟩ := p
    simp only [keys_cons, List.mem_cons, not_or] at h
    simp [set, Ne.symm h.1, ih h.2]

theorem WF_set {d : Dict κ α} (h : d.WF) (k : κ) (v : α) : (d.set k v).WF := by
  unfold WF at *
  by_cases hk : k ∈ d.keys
  · rw [keys_set_of_mem v hk]; exact h
  · rw [keys_set_of_not_mem v hk]
    simp only [keys, List.map_append, List.map_cons, List.map_nil] at *
    rw [List.nodup_append]
    refine ⟨h, by simp, ?_⟩
    intro a ha b hb
    simp only [List.mem_singleton] at hb
    subst hb
    rintro rfl
    exact hk ha

theorem get?_pop_self {d : Dict κ α} (h : d.WF) (k : κ) : (d.pop k).get? k = none := by
  induction d with
  | nil => rfl
  | cons p d ih =>
    obtain ⟨a, w⟩ := p
    simp only [WF, keys_cons, List.nodup_cons] at h
    simp only [pop]
    split
    · next h1 => subst h1; rw [get?_eq_none]; exact h.1
    · next h1 => rw [get?_cons]; simp [h1, ih h.2]

theorem get?_pop_ne (d : Dict κ α) {k k' : κ} (h : k ≠ k') : (d.pop k).get? k' = d.get? k' := by
  induction d with
  | nil => rfl
  | cons p d ih =>
    obtain ⟨a, w⟩ := p
    simp only [pop]
    split
    · next h1 => subst h1; rw [get?_cons]; simp [h]
    · next h1 => rw [get?_cons, get?_cons, ih]

theorem pop_sublist (d : Dict κ α) (k : κ) : (d.pop k).Sublist d := by
  induction d with
  | nil => exact List.Sublist.slnil
  | cons p d ih =>
    obtain ⟨a, w⟩ := p
    simp only [pop]
    split
    · exact List.sublist_cons_self _ _
    · exact ih.cons_cons _

theorem WF_pop {d : Dict κ α} (h : d.WF) (k : κ) : (d.pop k).WF :=
  List.Nodup.sublist ((pop_sublist d k).map Prod.fst) h

theorem get?_update (d e : Dict κ α) (he : e.WF) (k : κ) :
    (d.update e).get? k = (e.get? k).or (d.get? k) := by
  induction e generalizing d with
  | nil => simp [update]
  | cons p e ih =>
    obtain ⟨a, w⟩ := p
    simp only [WF, keys_cons, List.nodup_cons] at he
    have : d.update ((a, w) :: e) = (d.set a w).update e := rfl
    rw [this, ih _ he.2, get?_cons, get?_set]
    split
    · next h =>
      subst h
      rw [(get?_eq_none e a).2 he.1]; rfl
    · rfl

theorem WF_update {d : Dict κ α} (h : d.WF) (e : Dict κ α) : (d.update e).WF := by
  induction e generalizing d with
  | nil => exact h
  | cons p e ih => exact ih (WF_set h _ _)

theorem get?_setdefault (d : Dict κ α) (k k' : κ) (v : α) :
    (d.setdefault k v).get? k' = if k = k' then some ((d.get? k).getD v) else d.get? k' := by
  unfold setdefault
  cases h : d.get? k with
  | some w =>
    simp only [Option.getD_some]
    split
    · next h1 => subst h1; exact h
    · rfl
  | none => simp [get?_set]

/-- Mapping the values keeps keys. -/
def mapVals (f : α → β) (d : Dict κ α) : Dict κ β := d.map (fun p => (p.1, f p.2))

omit [DecidableEq κ] in
@[simp] theorem keys_mapVals (f : α → β) (d : Dict κ α) : (d.mapVals f).keys = d.keys := by
  simp [keys, mapVals]

theorem get?_mapVals (f : α → β) (d : Dict κ α) (k : κ) :
    (d.mapVals f).get? k = (d.get? k).map f := by
  induction d with
  | nil => rfl
  | cons p d ih =>
    obtain ⟨a, w⟩ := p
    have : mapVals f ((a, w) :: d) = (a, f w) :: mapVals f d := rfl
    rw [this, get?_cons, get?_cons, ih]
    split <;> rfl

end Dict

/-- Run a raising function over a list, left to right, stop at the first
exception (a Python `for` loop that collects results). -/
def mapExc {α β : Type} (f : α → Py β) : List α → Py (List β)
  | [] => .ok []
  | a :: l => do
    let b ← f a
    let bs ← mapExc f l
    return b :: bs

theorem mapExc_ok {α β : Type} {f : α → Py β} {l : List α} {l' : List β} :
    mapExc f l = .ok l' ↔ List.Forall₂ (fun a b => f a = .ok b) l l' := by
  induction l generalizing l' with
  | nil =>
    simp only [mapExc, Except.ok.injEq]
    constructor
    · rintro rfl; exact .nil
    · intro h; cases h; rfl
  | cons a l ih =>
    simp only [mapExc]
    constructor
    · intro h
      cases h1 : f a with
      | error e => rw [h1] at h; simp [bind, Except.bind] at h
      | ok b =>
        rw [h1] at h
        cases h2 : mapExc f l with
        | error e => rw [h2] at h; simp [bind, Except.bind] at h
        | ok bs =>
          rw [h2] at h
          simp only [bind, Except.bind, pure, Except.pure, Except.ok.injEq] at h
          subst h
          exact .cons h1 (ih.1 h2)
    · intro h
      cases h with
      | cons h1 h2 => simp [h1, ih.2 h2, bind, Except.bind, pure, Except.pure]

theorem mapExc_length {α β : Type} {f : α → Py β} {l : List α} {l' : List β}
    (h : mapExc f l = .ok l') : l'.length = l.length :=
  (mapExc_ok.1 h).length_eq.symm

/-- `bind` on successful runs. -/
theorem bind_ok {α β : Type} {x : Py α} {f : α → Py β} {b : β} :
    (x >>= f) = .ok b ↔ ∃ a, x = .ok a ∧ f a = .ok b := by
  cases x <;> simp [bind, Except.bind]

end Qopen
