import Verif.Props.SourceFit

/-!
# C66, C67: source properties in result dictionaries
-/

namespace Qopen

open Real Source Spec Util

set_option linter.unusedSimpArgs false

/-! ## dictionary lemmas -/

theorem get?_update_congr {κ α : Type} [DecidableEq κ] (e : Dict κ α) (d d' : Dict κ α) (k : κ)
    (h : d.get? k = d'.get? k) : (d.update e).get? k = (d'.update e).get? k := by
  induction e generalizing d d' with
  | nil => exact h
  | cons p e ih =>
    apply ih
    rw [Dict.get?_set, Dict.get?_set, h]

theorem get?_update_of_not_mem {κ α : Type} [DecidableEq κ] (e : Dict κ α) (d : Dict κ α) (k : κ)
    (h : k ∉ e.keys) : (d.update e).get? k = d.get? k := by
  induction e generalizing d with
  | nil => rfl
  | cons p e ih =>
    obtain ⟨a, v⟩ := p
    simp only [Dict.keys_cons, List.mem_cons, not_or] at h
    have : d.update ((a, v) :: e) = (d.set a v).update e := rfl
    rw [this, ih _ h.2, Dict.get?_set_ne _ _ (Ne.symm h.1)]

theorem get?_pops {α : Type} (ks : List String) (d : Dict String α) (hd : d.WF) (k : String) :
    (ks.foldl (fun d k => d.pop k) d).get? k = if k ∈ ks then none else d.get? k := by
  induction ks generalizing d with
  | nil => simp
  | cons a ks ih =>
    rw [List.foldl_cons, ih _ (Dict.WF_pop hd a)]
    by_cases h : k ∈ ks
    · simp [h]
    · by_cases ha : a = k
      · subst ha; simp [h, Dict.get?_pop_self hd]
      · simp [h, Ne.symm ha, Dict.get?_pop_ne d ha]

theorem WF_pops {α : Type} (ks : List String) (d : Dict String α) (hd : d.WF) :
    (ks.foldl (fun d k => d.pop k) d).WF := by
  induction ks generalizing d with
  | nil => exact hd
  | cons a ks ih => exact ih _ (Dict.WF_pop hd a)

/-! ## keys reported by `fit_sds` -/

def fitKeys : List String := ["M0", "fc", "n", "gamma", "fit_error"]

theorem fitResult_keys (orc : Oracle) (model : List ℝ → List (List ℝ) → List ℝ)
    (pts : List (ℝ × ℝ)) (o : Opts) (r : Dict String Cell)
    (h : fitResult orc model pts o = .ok r) : r.WF ∧ ∀ k ∈ r.keys, k ∈ fitKeys := by
  have key : ∀ x, fitAt model pts o (unknowns o) x = .ok r → unknowns o ≠ [] →
      r.WF ∧ ∀ k ∈ r.keys, k ∈ fitKeys := by
    clear h
    intro xopt h hu
    obtain ⟨fc, n, g, fcl, nl, gl, fc0, n0, g0, fb, np⟩ := o
    match xopt with
    | [] =>
      cases fc <;> cases n <;> cases g <;>
      simp [fitAt, unknowns, wrapper, lstsq, lstsqab, bind, Except.bind] at h hu
    | [x] =>
      cases fc <;> cases n <;> cases g <;>
      simp [fitAt, unknowns, wrapper, lstsq, lstsqab, bind, Except.bind, Dict.update, Dict.set,
        translateAB, Dict.get?_cons, Dict.pop] at h hu
      all_goals subst h
      all_goals simp [fitKeys, Dict.WF]
    | x :: y :: l =>
      cases fc <;> cases n <;> cases g <;>
      simp [fitAt, unknowns, wrapper, lstsq, lstsqab, bind, Except.bind, Dict.update, Dict.set,
        translateAB, Dict.get?_cons, Dict.pop] at h hu
      all_goals subst h
      all_goals simp [fitKeys, Dict.WF]
  rw [fitResult] at h
  split at h
  · next hu =>
    obtain ⟨fc, n, g, fcl, nl, gl, fc0, n0, g0, fb, np⟩ := o
    cases fc <;> cases n <;> cases g <;> simp [unknowns] at hu
    simp only [lstsq, bind, Except.bind, pure, Except.pure, Except.ok.injEq] at h
    subst h
    simp [fitKeys, Dict.WF]
  · next x hu =>
    rw [hu] at key
    split at h
    · obtain ⟨_, -, h⟩ := bind_ok.1 h
      exact key _ h (by simp)
    · rw [translateAB_nil] at h
      simp only [Except.ok.injEq] at h; subst h; simp [Dict.WF]
  · next us h1 h2 =>
    split at h
    · obtain ⟨_, -, h⟩ := bind_ok.1 h
      exact key _ h h1
    · rw [translateAB_nil] at h
      simp only [Except.ok.injEq] at h; subst h; simp [Dict.WF]

theorem fitSds_keys (orc : Oracle) (freq : List ℝ) (omM : List Cell) (m : Method) (o : Opts)
    (r : Dict String Cell) (h : fitSds orc freq omM m o = .ok (some r)) :
    r.WF ∧ ∀ k ∈ r.keys, k ∈ fitKeys := by
  by_cases hm : isFit m
  · have hl := (fitSds_shape orc freq omM m hm o r h).1
    rw [fitSds_fit orc freq omM m hm o hl] at h
    split at h
    · simp at h
    · cases hr : fitResult orc (if m = .robustFit ∧ o.fallBack ≤ (points freq omM).length
        then orc.rlm else orc.ols) (points freq omM) o with
      | error e => rw [hr] at h; simp [Except.map] at h
      | ok a =>
        rw [hr] at h
        simp only [Except.map, Except.ok.injEq, Option.some.injEq] at h
        subst h
        exact fitResult_keys orc _ _ o _ hr
  · cases m with
    | fit => exact absurd (Or.inl rfl) hm
    | robustFit => exact absurd (Or.inr rfl) hm
    | other => simp [fitSds] at h
    | mean =>
      simp only [fitSds] at h
      split at h
      · simp at h
      · split at h
        · simp at h
        · split at h
          · simp only [bind, Except.bind, pure, Except.pure] at h
            split at h
            · simp at h
            · simp only [Except.ok.injEq, Option.some.injEq] at h
              subst h; simp [fitKeys, Dict.WF]
          · simp at h

/-! ## what `insert_source_properties` does -/

/-- The part of the extra entries that the fit result overwrites. -/
theorem insertFit_congr (d d' : Dict String Val) (fit : Option (Dict String Cell)) (k : String)
    (h : d.get? k = d'.get? k) : (insertFit d fit).get? k = (insertFit d' fit).get? k := by
  cases fit with
  | none => exact h
  | some r =>
    simp only [insertFit]
    generalize nanToNone r = r'
    have hc := get?_update_congr (r'.mapVals Val.cell) d d' k h
    split
    · rw [Dict.get?_set, Dict.get?_set, hc]
    · rw [Dict.get?_set, Dict.get?_set, hc]
    · exact hc

theorem insertFit_other (d : Dict String Val) (r : Dict String Cell)
    (hr : ∀ k ∈ r.keys, k ∈ fitKeys) (k : String) (hk : k ∉ fitKeys) (hk' : k ≠ "Mw") :
    (insertFit d (some r)).get? k = d.get? k := by
  simp only [insertFit]
  have h1 : ∀ k ∈ (nanToNone r).keys, k ∈ fitKeys := by
    intro k hk
    unfold nanToNone at hk
    split at hk
    · rw [Dict.mem_keys_set] at hk
      rcases hk with rfl | hk
      · simp [fitKeys, Dict.WF]
      · exact hr k hk
    · exact hr k hk
  revert h1
  generalize nanToNone r = r'
  intro h1
  have hu := get?_update_of_not_mem (r'.mapVals Val.cell) d k (by
    rw [Dict.keys_mapVals]; exact fun h => hk (h1 k h))
  split
  · rw [Dict.get?_set_ne _ _ (Ne.symm hk'), hu]
  · rw [Dict.get?_set_ne _ _ (Ne.symm hk'), hu]
  · exact hu

/-- `insert_source_properties` with true `v0`, `rho0` and no `'sds'` entry left. -/
theorem insert_ok (orc : Oracle) (freq : List ℝ) (ev ev' : EvRes) (v0 rho0 : Option ℝ)
    (smm : Option Method) (smo : Option Opts)
    (hs : ev.extra.get? "sds" = none ∨ ev.W ≠ [] ∧ truthy rho0 ∧ truthy v0)
    (h : insertSourceProperties orc freq ev v0 rho0 smm smo none = .ok ev') :
    ev'.W = ev.W ∧ ev'.R = ev.R ∧ ∃ L, sdsEntries freq ev.W v0 rho0 = .ok L ∧
      ∃ fit : Option (Dict String Cell), (∀ r, fit = some r → r.WF ∧ ∀ k ∈ r.keys, k ∈ fitKeys) ∧
        (smm = none ∧ fit = none ∨
          ∃ m o, smm = some m ∧ smo = some o ∧ fitSds orc freq L m o = .ok fit) ∧
        ev'.extra = insertFit (ev.extra.set "sds" (.cells L)) fit := by
  unfold insertSourceProperties at h
  have hold : sdsStart ev v0 rho0 = [] := by
    unfold sdsStart
    rcases hs with h1 | h1
    · rw [h1]; simp
    · rw [if_pos h1]
  obtain ⟨L, hL, h⟩ := bind_ok.1 h
  simp only [hold, List.nil_append] at h
  cases smm with
  | none =>
    simp only [pure, Except.pure, Except.ok.injEq] at h
    subst h
    exact ⟨rfl, rfl, L, hL, none, by simp, Or.inl ⟨rfl, rfl⟩, rfl⟩
  | some m =>
    cases smo with
    | none => simp [throw, throwThe, MonadExceptOf.throw] at h
    | some o =>
      obtain ⟨fit, hf, h⟩ := bind_ok.1 h
      simp only [pure, Except.pure, Except.ok.injEq] at h
      subst h
      exact ⟨rfl, rfl, L, hL, fit, fun r hr => fitSds_keys orc freq L m o r (hr ▸ hf),
        Or.inr ⟨m, o, rfl, rfl, hf⟩, rfl⟩

/-! ## C66 -/

/-- **C66**: if density and velocity are given (positive), the spectrum in the result has one entry per
frequency; the entry is `None` exactly where the source energy is missing (`None` or 0) and otherwise
it is the source displacement spectrum of the energy *at the same position* at that frequency. -/
theorem C66_aligned (orc : Oracle) (freq : List ℝ) (ev ev' : EvRes) (v rho : ℝ)
    (smm : Option Method) (smo : Option Opts) (catmag : Option ℝ) (hv : 0 < v) (hr : 0 < rho)
    (hf : ∀ f ∈ freq, 0 < f) (hW : ev.W ≠ [])
    (hpos : ∀ c ∈ ev.W, c = .none ∨ ∃ w, 0 ≤ w ∧ c = .num w)
    (h : insertSourceProperties orc freq ev (some v) (some rho) smm smo catmag = .ok ev') :
    ∃ L : List Cell, ev'.extra.get? "sds" = some (.cells L) ∧ L.length = freq.length ∧
      ∀ (i : ℕ) (f : ℝ) (w : Cell), freq[i]? = some f → ev.W[i]? = some w →
        ((w = Cell.none ∨ w = Cell.num 0) → L[i]? = some .none) ∧
        (∀ W, w = Cell.num W → 0 < W →
          L[i]? = some (.num (sqrt (5 * W * rho * v ^ 5 / (2 * π * f ^ 2))))) := by
  -- the catalogue magnitude does not matter for the spectrum
  have hred : ∃ ev'', insertSourceProperties orc freq ev (some v) (some rho) smm smo none = .ok ev'' ∧
      ev''.extra.get? "sds" = ev'.extra.get? "sds" := by
    unfold insertSourceProperties at h ⊢
    obtain ⟨L, hL, h⟩ := bind_ok.1 h
    rw [hL]
    cases smm with
    | none => exact ⟨ev', h, rfl⟩
    | some m =>
      cases smo with
      | none => simp [throw, throwThe, MonadExceptOf.throw] at h
      | some o =>
        obtain ⟨fit, hf, h⟩ := bind_ok.1 h
        simp only [bind, Except.bind] at hf ⊢
        rw [hf]
        simp only [pure, Except.pure, Except.ok.injEq] at h
        subst h
        refine ⟨_, rfl, ?_⟩
        cases catmag with
        | none => rfl
        | some c => simp [Dict.get?_set_ne]
  obtain ⟨ev'', h2, he⟩ := hred
  rw [← he]
  obtain ⟨-, -, L, hL, fit, hk, -, hex⟩ := insert_ok orc freq ev ev'' (some v) (some rho) smm smo
    (Or.inr ⟨hW, (hr.ne' : rho ≠ 0), (hv.ne' : v ≠ 0)⟩) h2
  have hg : ev''.extra.get? "sds" = some (.cells L) := by
    rw [hex]
    cases fit with
    | none => simp [insertFit]
    | some r => rw [insertFit_other _ r (hk r rfl).2 _ (by simp [fitKeys]) (by simp)]; simp
  refine ⟨L, hg, ?_, ?_⟩
  · have := mapExc_length hL; simpa using this
  · intro i f w hfi hwi
    have hF := mapExc_ok.1 hL
    rw [List.forall₂_iff_get] at hF
    obtain ⟨hlen, hF⟩ := hF
    have hi : i < freq.length := (List.getElem?_eq_some_iff.1 hfi).1
    have hif : freq[i] = f := (List.getElem?_eq_some_iff.1 hfi).2
    have hiL : i < L.length := by rw [← hlen]; simpa using hi
    have hx := hF i (by simpa using hi) hiL
    simp only [List.get_eq_getElem, List.getElem_zipIdx, zero_add] at hx
    rw [hif, pyGet_ok.2 hwi] at hx
    simp only [bind, Except.bind] at hx
    have hf0 : 0 < f := hf f (hif ▸ List.getElem_mem hi)
    constructor
    · rintro (rfl | rfl)
      · simp only [Cell.truthy, false_and, if_false, Except.ok.injEq] at hx
        rw [List.getElem?_eq_getElem hiL, hx]
      · simp only [Cell.truthy, ne_eq, not_true, false_and, if_false, Except.ok.injEq] at hx
        rw [List.getElem?_eq_getElem hiL, hx]
    · rintro W rfl hW0
      rw [if_pos ⟨hW0.ne', hv.ne', hr.ne'⟩] at hx
      simp only [sdsCell] at hx
      obtain ⟨x, hsx, hx0, hx2⟩ := C65_value W f v rho hW0 hf0 hv hr
      rw [hsx] at hx
      simp only [Except.ok.injEq] at hx
      rw [List.getElem?_eq_getElem hiL, ← hx, ← hx2, sqrt_sq hx0.le]

/-- non-vacuity: the function succeeds on an event with two bands, one without result -/
example (orc : Oracle) : ∃ ev', insertSourceProperties orc [1, 2]
    ⟨[.num 3, .none], [], []⟩ (some 3000) (some 2700) none none none = .ok ev' := by
  have hp : ∀ w f : ℝ, 0 ≤ w → ¬ sdsArg w f 3000 2700 < 0 := by
    intro w f hw; unfold sdsArg; rw [not_lt]; positivity
  simp [insertSourceProperties, sdsEntries, mapExc, pyGet, bind, Except.bind, pure, Except.pure,
    Cell.truthy, sdsCell, sds, hp]

/-! ## C67 -/

/-- Equality of dictionaries as Python sees it (same keys, same values). -/
def SameDict {α : Type} (d e : Dict String α) : Prop := ∀ k, d.get? k = e.get? k

theorem recalc_v0 (ev : EvRes) (d : Dict String Val) (h : d.get? "v0" = ev.extra.get? "v0") :
    EvRes.v0 { ev with extra := d } = EvRes.v0 ev := by
  simp only [EvRes.v0, h]

/-- One event: unfolding of the recalculation. -/
theorem recalc_ok (orc : Oracle) (freq : List ℝ) (v02 rho0 : Option ℝ) (smm : Option Method)
    (smo : Option Opts) (ev ev' : EvRes) (hwf : ev.extra.WF)
    (h : recalcEvent orc freq v02 rho0 smm smo ev = .ok ev') :
    ev'.W = ev.W ∧ ev'.R = ev.R ∧
    ((¬ truthy (pyOr (EvRes.v0 ev) v02) ∧
      ev'.extra = poppedKeys.foldl (fun d k => d.pop k) ev.extra) ∨
     (truthy (pyOr (EvRes.v0 ev) v02) ∧
      ∃ L, sdsEntries freq ev.W (pyOr (EvRes.v0 ev) v02) rho0 = .ok L ∧
      ∃ fit : Option (Dict String Cell), (∀ r, fit = some r → r.WF ∧ ∀ k ∈ r.keys, k ∈ fitKeys) ∧
        (smm = none ∧ fit = none ∨
          ∃ m o, smm = some m ∧ smo = some o ∧ fitSds orc freq L m o = .ok fit) ∧
        ev'.extra = insertFit ((poppedKeys.foldl (fun d k => d.pop k) ev.extra).set "sds"
          (.cells L)) fit)) := by
  unfold recalcEvent at h
  simp only at h
  split at h
  · next ht =>
    obtain ⟨h1, h2, h3⟩ := insert_ok orc freq _ ev' _ _ smm smo (Or.inl (by
      simp only
      rw [get?_pops _ _ hwf]; simp [poppedKeys])) h
    exact ⟨h1, h2, Or.inr ⟨ht, h3⟩⟩
  · next ht =>
    simp only [Except.ok.injEq] at h
    subst h
    exact ⟨rfl, rfl, Or.inl ⟨ht, rfl⟩⟩

/-- Source parameters that are replaced: all that are derived from the source energies,
with the exception of `Mw`. -/
theorem recalc_determined (orc : Oracle) (freq : List ℝ) (v02 rho0 : Option ℝ)
    (smm : Option Method) (smo : Option Opts) (ev₁ ev₂ ev₁' ev₂' : EvRes)
    (hw₁ : ev₁.extra.WF) (hw₂ : ev₂.extra.WF) (hW : ev₁.W = ev₂.W)
    (hv : ev₁.extra.get? "v0" = ev₂.extra.get? "v0")
    (h₁ : recalcEvent orc freq v02 rho0 smm smo ev₁ = .ok ev₁')
    (h₂ : recalcEvent orc freq v02 rho0 smm smo ev₂ = .ok ev₂') :
    (∀ k ∈ poppedKeys, ev₁'.extra.get? k = ev₂'.extra.get? k) ∧
    (ev₁.extra.get? "Mw" = ev₂.extra.get? "Mw" → ev₁'.extra.get? "Mw" = ev₂'.extra.get? "Mw") := by
  have hvv : EvRes.v0 ev₁ = EvRes.v0 ev₂ := by simp only [EvRes.v0, hv]
  obtain ⟨-, -, c₁⟩ := recalc_ok orc freq v02 rho0 smm smo ev₁ ev₁' hw₁ h₁
  obtain ⟨-, -, c₂⟩ := recalc_ok orc freq v02 rho0 smm smo ev₂ ev₂' hw₂ h₂
  rw [hvv] at c₁
  have hp : ∀ k, (k ∈ poppedKeys ∨ ev₁.extra.get? k = ev₂.extra.get? k) →
      (poppedKeys.foldl (fun d k => d.pop k) ev₁.extra).get? k =
      (poppedKeys.foldl (fun d k => d.pop k) ev₂.extra).get? k := by
    intro k hk
    rw [get?_pops _ _ hw₁, get?_pops _ _ hw₂]
    rcases hk with hk | hk
    · simp [hk]
    · rw [hk]
  have main : ∀ k, (k ∈ poppedKeys ∨ ev₁.extra.get? k = ev₂.extra.get? k) →
      ev₁'.extra.get? k = ev₂'.extra.get? k := by
    intro k hk
    rcases c₁ with ⟨t₁, e₁⟩ | ⟨t₁, L₁, hL₁, fit₁, -, hf₁, e₁⟩ <;>
      rcases c₂ with ⟨t₂, e₂⟩ | ⟨t₂, L₂, hL₂, fit₂, -, hf₂, e₂⟩
    · rw [e₁, e₂]; exact hp k hk
    · exact absurd t₂ t₁
    · exact absurd t₁ t₂
    · rw [hW, hL₂] at hL₁
      simp only [Except.ok.injEq] at hL₁
      subst hL₁
      have : fit₁ = fit₂ := by
        rcases hf₁ with ⟨a, b⟩ | ⟨m, o, a, b, c⟩ <;> rcases hf₂ with ⟨a', b'⟩ | ⟨m', o', a', b', c'⟩
        · rw [b, b']
        · rw [a] at a'; simp at a'
        · rw [a] at a'; simp at a'
        · rw [a] at a'; rw [b] at b'
          simp only [Option.some.injEq] at a' b'
          subst a' b'
          rw [c] at c'; simpa using c'
      subst this
      rw [e₁, e₂]
      apply insertFit_congr
      rw [Dict.get?_set, Dict.get?_set, hp k hk]
  exact ⟨fun k hk => main k (Or.inl hk), fun h => main _ (Or.inr h)⟩

theorem recalc_other (orc : Oracle) (freq : List ℝ) (v02 rho0 : Option ℝ) (smm : Option Method)
    (smo : Option Opts) (ev ev' : EvRes) (hwf : ev.extra.WF)
    (h : recalcEvent orc freq v02 rho0 smm smo ev = .ok ev') (k : String) (hk : k ∉ poppedKeys)
    (hk' : k ≠ "Mw") : ev'.extra.get? k = ev.extra.get? k := by
  obtain ⟨-, -, c⟩ := recalc_ok orc freq v02 rho0 smm smo ev ev' hwf h
  have hp : (poppedKeys.foldl (fun d k => d.pop k) ev.extra).get? k = ev.extra.get? k := by
    rw [get?_pops _ _ hwf]; simp [hk]
  simp only [poppedKeys, List.mem_cons, not_or] at hk
  have hkf : k ∉ fitKeys := by simp [fitKeys]; tauto
  rcases c with ⟨-, e⟩ | ⟨-, L, -, fit, hkeys, -, e⟩
  · rw [e, hp]
  · rw [e]
    have hs : ((poppedKeys.foldl (fun d k => d.pop k) ev.extra).set "sds" (.cells L)).get? k =
        ev.extra.get? k := by
      rw [Dict.get?_set_ne _ _ (Ne.symm hk.1), hp]
    cases fit with
    | none => exact hs
    | some r => rw [insertFit_other _ r (hkeys r rfl).2 k hkf hk', hs]

/-- Magnitude of an entry `M0`. -/
noncomputable def mwOf : Val → Val
  | .cell (.num m) => .cell (.num (momentMagnitude m))
  | _ => .cell .nan

/-- Mw follows M0 whenever M0 is reported. -/
theorem recalc_mw (orc : Oracle) (freq : List ℝ) (v02 rho0 : Option ℝ) (smm : Option Method)
    (smo : Option Opts) (ev ev' : EvRes) (hwf : ev.extra.WF)
    (h : recalcEvent orc freq v02 rho0 smm smo ev = .ok ev') :
    (∀ v, ev'.extra.get? "M0" = some v → ev'.extra.get? "Mw" = some (mwOf v)) ∧
    (ev'.extra.get? "M0" = none → ev'.extra.get? "Mw" = ev.extra.get? "Mw") := by
  obtain ⟨-, -, c⟩ := recalc_ok orc freq v02 rho0 smm smo ev ev' hwf h
  have hp : ∀ k, (poppedKeys.foldl (fun d k => d.pop k) ev.extra).get? k =
      if k ∈ poppedKeys then none else ev.extra.get? k := get?_pops _ _ hwf
  rcases c with ⟨-, e⟩ | ⟨-, L, -, fit, hkeys, -, e⟩
  · rw [e, hp, hp]; simp [poppedKeys]
  · rw [e]
    cases fit with
    | none =>
      simp only [insertFit]
      rw [Dict.get?_set_ne _ _ (by simp), Dict.get?_set_ne _ _ (by simp), hp, hp]
      simp [poppedKeys]
    | some r =>
      have hM0 : (nanToNone r).get? "M0" = r.get? "M0" := by
        unfold nanToNone
        split
        · rw [Dict.get?_set_ne _ _ (by simp)]
        · rfl
      have hwr : (nanToNone r).WF := by
        unfold nanToNone
        split
        · exact Dict.WF_set (hkeys r rfl).1 _ _
        · exact (hkeys r rfl).1
      have hkr : "Mw" ∉ (nanToNone r).keys := by
        intro hh
        unfold nanToNone at hh
        have : "Mw" ∉ r.keys := fun h => by
          have := (hkeys r rfl).2 _ h
          simp [fitKeys] at this
        split at hh
        · rw [Dict.mem_keys_set] at hh; simp [this] at hh
        · exact this hh
      have hwm : ((nanToNone r).mapVals Val.cell).WF := by
        unfold Dict.WF; rw [Dict.keys_mapVals]; exact hwr
      have hu : ∀ d : Dict String Val, d.get? "M0" = none →
          (d.update ((nanToNone r).mapVals Val.cell)).get? "M0" = (r.get? "M0").map Val.cell := by
        intro d hd
        rw [Dict.get?_update _ _ hwm, Dict.get?_mapVals, hM0, hd]
        cases r.get? "M0" <;> rfl
      have hd : ((poppedKeys.foldl (fun d k => d.pop k) ev.extra).set "sds" (.cells L)).get? "M0" =
          none := by
        rw [Dict.get?_set_ne _ _ (by simp), hp]; simp [poppedKeys]
      have hd' : ((poppedKeys.foldl (fun d k => d.pop k) ev.extra).set "sds" (.cells L)).get? "Mw" =
          ev.extra.get? "Mw" := by
        rw [Dict.get?_set_ne _ _ (by simp), hp]; simp [poppedKeys]
      simp only [insertFit, hM0]
      cases hr : r.get? "M0" with
      | none =>
        simp only
        rw [hu _ hd, hr, get?_update_of_not_mem _ _ _ (by rw [Dict.keys_mapVals]; exact hkr), hd']
        simp
      | some c =>
        cases c with
        | num x =>
          simp only [Dict.get?_set_self]
          rw [Dict.get?_set_ne _ _ (by simp), hu _ hd, hr]
          simp [mwOf]
        | none =>
          simp only [Dict.get?_set_self]
          rw [Dict.get?_set_ne _ _ (by simp), hu _ hd, hr]
          simp [mwOf]
        | nan =>
          simp only [Dict.get?_set_self]
          rw [Dict.get?_set_ne _ _ (by simp), hu _ hd, hr]
          simp [mwOf]

/-- Looking up an event after the recalculation of all events. -/
theorem calc_get (orc : Oracle) (conf : Config) (freq : List ℝ) (events events' : Dict String EvRes)
    (rho0 v0 : Option ℝ) (smm : Option Method) (smo : Option Opts)
    (hr : truthy (pyOr rho0 conf.rho0))
    (h : calculateSourceProperties orc conf freq events rho0 v0 smm smo = .ok events') :
    events'.keys = events.keys ∧ ∀ id ev', events'.get? id = some ev' →
      ∃ ev, events.get? id = some ev ∧ recalcEvent orc freq (pyOr v0 conf.v0) (pyOr rho0 conf.rho0)
        (smm.or conf.smm) (smo.or conf.smo) ev = .ok ev' := by
  unfold calculateSourceProperties at h
  simp only [if_pos hr] at h
  have hF := mapExc_ok.1 h
  clear h
  induction hF with
  | nil => simp
  | cons h1 h2 ih =>
    rename_i p q l l'
    obtain ⟨id, ev⟩ := p
    obtain ⟨e, he, hq⟩ := bind_ok.1 h1
    simp only [pure, Except.pure, Except.ok.injEq] at hq
    subst hq
    refine ⟨by simp [ih.1], ?_⟩
    intro id' ev' hg
    rw [Dict.get?_cons] at hg ⊢
    split at hg
    · next heq =>
      simp only [Option.some.injEq] at hg
      subst hg
      exact ⟨ev, by simp [heq], he⟩
    · next hne =>
      obtain ⟨ev1, h3, h4⟩ := ih.2 id' ev' hg
      exact ⟨ev1, by simp [hne, h3], h4⟩

/-- **C67** (partial): recalculation leaves no stale spectrum, moment, corner
frequency, fall-off, sharpness or fit error: these entries of an event depend only on its source energies and
velocity (and the options), not on what was there before.  Missing: `Mw`, see
`C67_stale_mw_counterexample`; `Mw` is right if a moment was determined. -/
theorem C67_no_stale_entries_partial (orc : Oracle) (conf : Config) (freq : List ℝ)
    (events₁ events₂ events₁' events₂' : Dict String EvRes) (rho0 v0 : Option ℝ)
    (smm : Option Method) (smo : Option Opts) (hr : truthy (pyOr rho0 conf.rho0))
    (h₁ : calculateSourceProperties orc conf freq events₁ rho0 v0 smm smo = .ok events₁')
    (h₂ : calculateSourceProperties orc conf freq events₂ rho0 v0 smm smo = .ok events₂')
    (id : String) (ev₁ ev₂ ev₁' ev₂' : EvRes)
    (e₁ : events₁.get? id = some ev₁) (e₂ : events₂.get? id = some ev₂)
    (e₁' : events₁'.get? id = some ev₁') (e₂' : events₂'.get? id = some ev₂')
    (hw₁ : ev₁.extra.WF) (hw₂ : ev₂.extra.WF)
    (hW : ev₁.W = ev₂.W) (hv : ev₁.extra.get? "v0" = ev₂.extra.get? "v0") :
    (∀ k ∈ ["sds", "M0", "fc", "n", "gamma", "fit_error"], ev₁'.extra.get? k = ev₂'.extra.get? k) ∧
    (∀ m, ev₁'.extra.get? "M0" = some (.cell (.num m)) →
      ev₁'.extra.get? "Mw" = some (.cell (.num (momentMagnitude m)))) := by
  obtain ⟨a₁, g₁, r₁⟩ := (calc_get orc conf freq events₁ events₁' rho0 v0 smm smo hr h₁).2 id ev₁' e₁'
  obtain ⟨a₂, g₂, r₂⟩ := (calc_get orc conf freq events₂ events₂' rho0 v0 smm smo hr h₂).2 id ev₂' e₂'
  rw [e₁] at g₁; rw [e₂] at g₂
  simp only [Option.some.injEq] at g₁ g₂
  subst g₁ g₂
  exact ⟨(recalc_determined orc freq _ _ _ _ _ _ _ _ hw₁ hw₂ hW hv r₁ r₂).1,
    fun m hm => (recalc_mw orc freq _ _ _ _ _ _ hw₁ r₁).1 _ hm⟩

/-- **C67**: everything else in the result of an event (source energies, site
responses, velocity, attenuation, error, ...) is left alone. -/
theorem C67_rest_unchanged (orc : Oracle) (conf : Config) (freq : List ℝ)
    (events events' : Dict String EvRes) (rho0 v0 : Option ℝ)
    (smm : Option Method) (smo : Option Opts) (hr : truthy (pyOr rho0 conf.rho0))
    (h : calculateSourceProperties orc conf freq events rho0 v0 smm smo = .ok events')
    (id : String) (ev' : EvRes) (e' : events'.get? id = some ev') :
    ∃ ev, events.get? id = some ev ∧ ev'.W = ev.W ∧ ev'.R = ev.R ∧
      (ev.extra.WF → ∀ k ∉ ["sds", "M0", "fc", "n", "gamma", "fit_error", "Mw"],
        ev'.extra.get? k = ev.extra.get? k) := by
  obtain ⟨ev, g, r⟩ := (calc_get orc conf freq events events' rho0 v0 smm smo hr h).2 id ev' e'
  have hWR : ev'.W = ev.W ∧ ev'.R = ev.R := by
    unfold recalcEvent at r
    simp only at r
    split at r
    · unfold insertSourceProperties at r
      obtain ⟨L, hL, r⟩ := bind_ok.1 r
      split at r
      · simp only [pure, Except.pure, Except.ok.injEq] at r; subst r; exact ⟨rfl, rfl⟩
      · split at r
        · simp [throw, throwThe, MonadExceptOf.throw] at r
        · obtain ⟨fit, hf, r⟩ := bind_ok.1 r
          simp only [pure, Except.pure, Except.ok.injEq] at r; subst r; exact ⟨rfl, rfl⟩
    · simp only [Except.ok.injEq] at r; subst r; exact ⟨rfl, rfl⟩
  refine ⟨ev, g, hWR.1, hWR.2, ?_⟩
  intro hwf k hk
  simp only [List.mem_cons, not_or] at hk
  exact recalc_other orc freq _ _ _ _ ev ev' hwf r k (by simp [poppedKeys]; tauto) (by tauto)

theorem WF_insertFit (d : Dict String Val) (hd : d.WF) (fit : Option (Dict String Cell)) :
    (insertFit d fit).WF := by
  cases fit with
  | none => exact hd
  | some r =>
    simp only [insertFit]
    split
    · exact Dict.WF_set (Dict.WF_update hd _) _ _
    · exact Dict.WF_set (Dict.WF_update hd _) _ _
    · exact Dict.WF_update hd _

theorem recalc_WF (orc : Oracle) (freq : List ℝ) (v02 rho0 : Option ℝ) (smm : Option Method)
    (smo : Option Opts) (ev ev' : EvRes) (hwf : ev.extra.WF)
    (h : recalcEvent orc freq v02 rho0 smm smo ev = .ok ev') : ev'.extra.WF := by
  obtain ⟨-, -, c⟩ := recalc_ok orc freq v02 rho0 smm smo ev ev' hwf h
  rcases c with ⟨-, e⟩ | ⟨-, L, -, fit, -, -, e⟩
  · rw [e]; exact WF_pops _ _ hwf
  · rw [e]; exact WF_insertFit _ (Dict.WF_set (WF_pops _ _ hwf) _ _) _

/-- **C67**: recalculating a second time changes nothing. -/
theorem C67_idempotent (orc : Oracle) (conf : Config) (freq : List ℝ)
    (events events' events'' : Dict String EvRes) (rho0 v0 : Option ℝ)
    (smm : Option Method) (smo : Option Opts) (hwf : ∀ id ev, events.get? id = some ev → ev.extra.WF)
    (h : calculateSourceProperties orc conf freq events rho0 v0 smm smo = .ok events')
    (h2 : calculateSourceProperties orc conf freq events' rho0 v0 smm smo = .ok events'') :
    events''.keys = events'.keys ∧
    ∀ id ev' ev'', events'.get? id = some ev' → events''.get? id = some ev'' →
      ev''.W = ev'.W ∧ ev''.R = ev'.R ∧ SameDict ev''.extra ev'.extra := by
  by_cases hr : truthy (pyOr rho0 conf.rho0)
  · have c1 := calc_get orc conf freq events events' rho0 v0 smm smo hr h
    have c2 := calc_get orc conf freq events' events'' rho0 v0 smm smo hr h2
    refine ⟨c2.1, ?_⟩
    intro id ev' ev'' e' e''
    obtain ⟨ev, g, r⟩ := c1.2 id ev' e'
    obtain ⟨ev1, g1, r1⟩ := c2.2 id ev'' e''
    rw [e'] at g1
    simp only [Option.some.injEq] at g1
    subst g1
    have hw := hwf id ev g
    have hw' := recalc_WF orc freq _ _ _ _ _ _ hw r
    have ok1 := recalc_ok orc freq _ _ _ _ _ _ hw r
    have ok2 := recalc_ok orc freq _ _ _ _ _ _ hw' r1
    refine ⟨ok2.1, ok2.2.1, ?_⟩
    have hv : ev'.extra.get? "v0" = ev.extra.get? "v0" :=
      recalc_other orc freq _ _ _ _ ev ev' hw r "v0" (by simp [poppedKeys]) (by simp)
    have hdet := recalc_determined orc freq _ _ _ _ ev' ev ev'' ev' hw' hw ok1.1 hv r1 r
    intro k
    by_cases hk : k ∈ poppedKeys
    · exact hdet.1 k hk
    · by_cases hk' : k = "Mw"
      · subst hk'
        have m1 := recalc_mw orc freq _ _ _ _ ev' ev'' hw' r1
        have m0 := recalc_mw orc freq _ _ _ _ ev ev' hw r
        have e := hdet.1 "M0" (by simp [poppedKeys])
        cases hM : ev'.extra.get? "M0" with
        | none => exact m1.2 (by rw [e, hM])
        | some v =>
          rw [m1.1 v (by rw [e, hM]), m0.1 v hM]
      · exact recalc_other orc freq _ _ _ _ ev' ev'' hw' r1 k hk hk'
  · unfold calculateSourceProperties at h h2
    simp only [if_neg hr, Except.ok.injEq] at h h2
    subst h h2
    exact ⟨rfl, fun id a b ha hb => by
      rw [ha] at hb; simp only [Option.some.injEq] at hb; subst hb; exact ⟨rfl, rfl, fun _ => rfl⟩⟩

/-- **C67** is violated for `Mw`: if the moment can not be determined any more (here: `num_points`
raised to 5), the old magnitude stays in the result without a moment that belongs to it. -/
theorem C67_stale_mw_counterexample (orc : Oracle) :
    ∃ ev', calculateSourceProperties orc {} [1, 2]
      [("ev", ⟨[.num 3, .num 4], [], [("M0", .cell (.num 1)), ("Mw", .cell (.num 7))]⟩)]
      (some 2700) (some 3000) (some .mean) (some { fc := some 10, numPoints := some 5 }) =
        .ok [("ev", ev')] ∧
      ev'.extra.get? "M0" = none ∧ ev'.extra.get? "Mw" = some (.cell (.num 7)) := by
  have hp : ∀ w f : ℝ, 0 ≤ w → ¬ sdsArg w f 3000 2700 < 0 := by
    intro w f hw; unfold sdsArg; rw [not_lt]; positivity
  simp [calculateSourceProperties, mapExc, recalcEvent, pyOr, truthy, EvRes.v0, Dict.get?_cons,
    poppedKeys, Dict.pop, insertSourceProperties, sdsEntries, sdsStart, pyGet, bind, Except.bind, pure,
    Except.pure, Cell.truthy, sdsCell, sds, hp, fitSds, below_eq, below, List.filter_cons, tooFew,
    insertFit, Dict.set]
  norm_num [Dict.get?_cons]
  simp

/-- non-vacuity of the C67 theorems: recalculation of this event succeeds and determines a moment -/
example (orc : Oracle) : ∃ ev', calculateSourceProperties orc {} [1, 2]
      [("ev", ⟨[.num 3, .num 4], [], [("v0", .cell (.num 3000)), ("M0", .cell (.num 1))]⟩)]
      (some 2700) none (some .mean) (some { fc := some 10 }) = .ok [("ev", ev')] := by
  have hp : ∀ w f : ℝ, 0 ≤ w → ¬ sdsArg w f 3000 2700 < 0 := by
    intro w f hw; unfold sdsArg; rw [not_lt]; positivity
  simp [calculateSourceProperties, mapExc, recalcEvent, pyOr, truthy, EvRes.v0, Dict.get?_cons,
    poppedKeys, Dict.pop, insertSourceProperties, sdsEntries, sdsStart, pyGet, bind, Except.bind, pure,
    Except.pure, Cell.truthy, sdsCell, sds, hp, fitSds, tooFew, gstat, weightedStat, weightsMismatch,
    insertFit, Dict.set, below_eq, below, List.filter_cons]

end Qopen
