import Verif.Model.FigureSource
import Verif.Props.SourceRecalc
import Verif.Props.FigureSites
import Verif.Lemmas.SiteTotal

/-!
# C95: figures of source displacement spectra
-/

namespace Qopen

open Real Source Spec Util Figures

open FigureSites (forall₂_right forall₂_left)

set_option linter.unusedSimpArgs false

/-! ## Specification -/

namespace Spec

/-- The dictionary of options `d` (keyword arguments of `fit_sds`) gives the arguments `o`: missing keys
have the default values, `None` is a free parameter, numbers are not zero.  The seismic moment is not
an option. -/
structure OptionsOf (d : Dict String Cell) (o : Opts) : Prop where
  fc : o.fc = (match d.get? "fc" with
    | none => none
    | some c => c.val?)
  n : o.n = (match d.get? "n" with
    | none => some 2
    | some c => c.val?)
  gamma : o.gamma = (match d.get? "gamma" with
    | none => some 1
    | some c => c.val?)
  noM0 : d.get? "M0" = none
  values : ∀ k c, d.get? k = some c → c ≠ .num 0 ∧ c ≠ .nan

/-- A parameter of the source model of an event: the reported number or else the given one. -/
def paramOf (e : Dict String Val) (given : Option ℝ) (key : String) : Option ℝ :=
  match e.get? key with
  | some (.cell c) => c.val?
  | some (.cells _) => none
  | none => given

/-- The reported source displacement spectrum of an event. -/
def spectrum (e : Dict String Val) : List Cell :=
  match e.get? "sds" with
  | some (.cells l) => l
  | _ => []

/-- Hundred equidistant frequencies from `a` to `b`. -/
noncomputable def hundred (a b : ℝ) : List ℝ :=
  (List.range 100).map (fun i : ℕ => a + (b - a) * i / 99)

end Spec

/-! ## Lemmas -/

theorem linspace_hundred (a b : ℝ) : InvertFb.linspace a b 100 = Spec.hundred a b := by
  unfold InvertFb.linspace Spec.hundred
  apply List.map_congr_left
  intro i _
  push_cast
  ring

theorem hundred_pos (a b : ℝ) (ha : 0 < a) (hb : 0 < b) : ∀ f ∈ Spec.hundred a b, 0 < f := by
  intro f hf
  obtain ⟨i, hi, rfl⟩ := List.mem_map.1 hf
  have h99 : (i : ℝ) ≤ 99 := by
    have := List.mem_range.1 hi
    exact_mod_cast (by omega : i ≤ 99)
  have h0 : (0 : ℝ) ≤ i := Nat.cast_nonneg i
  have : a + (b - a) * i / 99 = (a * (99 - i) + b * i) / 99 := by ring
  rw [this]
  apply div_pos _ (by norm_num)
  rcases eq_or_lt_of_le h0 with h | h
  · rw [← h]; nlinarith
  · have := mul_pos hb h
    have := mul_nonneg ha.le (sub_nonneg.2 h99)
    linarith

theorem head_pos (freq : List ℝ) (h : freq ≠ []) (hf : ∀ f ∈ freq, 0 < f) : 0 < freq.headD 0 := by
  cases freq with
  | nil => exact absurd rfl h
  | cons a l => exact hf a (by simp)

theorem last_pos (freq : List ℝ) (h : freq ≠ []) (hf : ∀ f ∈ freq, 0 < f) : 0 < freq.getLastD 0 := by
  rw [List.getLastD_eq_getLast?, List.getLast?_eq_some_getLast h]
  exact hf _ (List.getLast_mem h)

/-- `insert_source_properties` with a magnitude from the catalogue. -/
theorem insert_extra (orc : Oracle) (freq : List ℝ) (ev ev' : EvRes) (v0 rho0 : Option ℝ)
    (m : Method) (o : Opts) (mag : Option ℝ)
    (h : insertSourceProperties orc freq ev v0 rho0 (some m) (some o) mag = .ok ev') :
    ∃ L fit, fitSds orc freq L m o = .ok fit ∧
      ev'.extra = (match mag with
        | some x => (insertFit (ev.extra.set "sds" (.cells L)) fit).set "Mcat" (.cell (.num x))
        | none => insertFit (ev.extra.set "sds" (.cells L)) fit) := by
  unfold insertSourceProperties at h
  obtain ⟨L, hL, h⟩ := bind_ok.1 h
  obtain ⟨fit, hf, h⟩ := bind_ok.1 h
  simp only [pure, Except.pure, Except.ok.injEq] at h
  subst h
  exact ⟨_, fit, hf, by cases mag <;> rfl⟩

theorem insert_get (orc : Oracle) (freq : List ℝ) (ev ev' : EvRes) (v0 rho0 : Option ℝ)
    (m : Method) (o : Opts) (mag : Option ℝ)
    (h : insertSourceProperties orc freq ev v0 rho0 (some m) (some o) mag = .ok ev') :
    ∃ L fit, fitSds orc freq L m o = .ok fit ∧ (∀ k, k ≠ "Mcat" →
      ev'.extra.get? k = (insertFit (ev.extra.set "sds" (.cells L)) fit).get? k) := by
  obtain ⟨L, fit, hf, he⟩ := insert_extra orc freq ev ev' v0 rho0 m o mag h
  refine ⟨L, fit, hf, fun k hk => ?_⟩
  rw [he]
  cases mag with
  | none => rfl
  | some x => simp only [Dict.get?_set_ne _ _ (Ne.symm hk)]

/-- Entries of the fit in the result of an event. -/
theorem insertFit_fit (d : Dict String Val) (r : Dict String Cell) (hr : r.WF)
    (hn : r.get? "fit_error" ≠ some .nan) (k : String) (hk : k ≠ "Mw") :
    (insertFit d (some r)).get? k = (match r.get? k with
      | some c => some (.cell c)
      | none => d.get? k) := by
  have h0 : nanToNone r = r := by
    unfold nanToNone
    split
    · next h => exact absurd h hn
    · rfl
  have hu : (Dict.update d (r.mapVals Val.cell)).get? k = (match r.get? k with
      | some c => some (.cell c)
      | none => d.get? k) := by
    rw [Dict.get?_update _ _ (by unfold Dict.WF; rw [Dict.keys_mapVals]; exact hr),
      Dict.get?_mapVals]
    cases r.get? k <;> rfl
  simp only [insertFit, h0]
  split
  · rw [Dict.get?_set_ne _ _ (Ne.symm hk), hu]
  · rw [Dict.get?_set_ne _ _ (Ne.symm hk), hu]
  · exact hu

theorem val?_filter (freq : List ℝ) (l : List Cell) :
    (freq.zip (l.map Cell.val?)).filterMap (fun p => p.2.map (fun x => (p.1, x))) =
      points freq l := by
  rw [← points_eq]
  rw [List.zip_map_right, List.filterMap_map]
  rfl

/-- What a successful call of `plot_sds` with a fit method draws. -/
theorem plotSds_fit (freq : List ℝ) (res : Dict String Val) (m : Method) (hm : isFit m)
    (smo : Dict String Cell) (cmap color : Bool) (vmin vmax mx : Option ℝ) (p : SdsPanel)
    (h : plotSds freq res (some m) smo cmap color vmin vmax mx = .ok (some p)) :
    ∃ M0 fc n g, getParam smo res "M0" = .ok M0 ∧ getParam smo res "fc" = .ok fc ∧
      getParam smo res "n" = .ok n ∧ getParam smo res "gamma" = .ok g ∧
      p.points = points freq (Spec.spectrum res) ∧ freq.length = (Spec.spectrum res).length ∧
      p.curve = modelCurve freq M0 fc n g ∧ p.level = levelOf M0 ∧
      labelOf res = .ok p.label ∧ colourOf res cmap color vmin vmax mx = .ok p.colour := by
  unfold plotSds at h
  obtain ⟨colour, hc, h⟩ := bind_ok.1 h
  obtain ⟨spec, hs, h⟩ := bind_ok.1 h
  split at h
  · simp [pure, Except.pure] at h
  · obtain ⟨M0, e1, h⟩ := bind_ok.1 h
    obtain ⟨fc, e2, h⟩ := bind_ok.1 h
    obtain ⟨n, e3, h⟩ := bind_ok.1 h
    obtain ⟨g, e4, h⟩ := bind_ok.1 h
    have hspec : spec = (Spec.spectrum res).map Cell.val? := by
      unfold spectrumOf at hs
      unfold Spec.spectrum
      split at hs <;> simp_all
    split at h
    · next hh => rcases hm with rfl | rfl <;> simp at hh
    · obtain ⟨pts, hp, h⟩ := bind_ok.1 h
      obtain ⟨u, hu, h⟩ := bind_ok.1 h
      obtain ⟨lab, hl, h⟩ := bind_ok.1 h
      simp only [pure, Except.pure, Except.ok.injEq, Option.some.injEq] at h
      subst h
      rw [if_pos (show m = .fit ∨ m = .robustFit from hm)]
      unfold sdsPoints at hp
      split at hp
      · next hlen =>
        simp only [Except.ok.injEq] at hp
        refine ⟨M0, fc, n, g, e1, e2, e3, e4, ?_, by rw [hlen, hspec, List.length_map], rfl, rfl, hl,
          hc⟩
        rw [← hp, hspec, val?_filter]
      · simp at hp

/-- The fit reports free parameters only. -/
theorem fitResult_free (orc : Oracle) (model : List ℝ → List (List ℝ) → List ℝ)
    (pts : List (ℝ × ℝ)) (o : Opts) (r : Dict String Cell)
    (h : fitResult orc model pts o = .ok r) :
    (o.fc ≠ none → r.get? "fc" = none) ∧ (o.n ≠ none → r.get? "n" = none) ∧
      (o.gamma ≠ none → r.get? "gamma" = none) := by
  have key : ∀ x, fitAt model pts o (unknowns o) x = .ok r → unknowns o ≠ [] →
      (o.fc ≠ none → r.get? "fc" = none) ∧ (o.n ≠ none → r.get? "n" = none) ∧
      (o.gamma ≠ none → r.get? "gamma" = none) := by
    clear h
    intro xopt h hu
    obtain ⟨fc, n, g, fcl, nl, gl, fc0, n0, g0, fb, np⟩ := o
    match xopt with
    | [] =>
      cases fc <;> cases n <;> cases g <;>
      simp [fitAt, unknowns, wrapper, lstsq, lstsqab, bind, Except.bind] at h hu
    | [x] =>
      cases fc <;> cases n <;> cases g <;>
      simp [fitAt, unknowns, wrapper, lstsq, lstsqab, bind, Except.bind, Dict.update, Dict.set,
        translateAB, Dict.get?_cons, Dict.pop] at h hu
      all_goals subst h
      all_goals simp [Dict.get?_cons]
    | x :: y :: l =>
      cases fc <;> cases n <;> cases g <;>
      simp [fitAt, unknowns, wrapper, lstsq, lstsqab, bind, Except.bind, Dict.update, Dict.set,
        translateAB, Dict.get?_cons, Dict.pop] at h hu
      all_goals subst h
      all_goals simp [Dict.get?_cons]
  rw [fitResult] at h
  split at h
  · next hu =>
    obtain ⟨fc, n, g, fcl, nl, gl, fc0, n0, g0, fb, np⟩ := o
    cases fc <;> cases n <;> cases g <;> simp [unknowns] at hu
    simp only [lstsq, bind, Except.bind, pure, Except.pure, Except.ok.injEq] at h
    subst h
    simp [Dict.get?_cons]
  · next x hu =>
    rw [hu] at key
    split at h
    · obtain ⟨_, -, h⟩ := bind_ok.1 h
      exact key _ h (by simp)
    · rw [translateAB_nil] at h
      simp only [Except.ok.injEq] at h; subst h; simp [Dict.get?]
  · next us h1 h2 =>
    split at h
    · obtain ⟨_, -, h⟩ := bind_ok.1 h
      exact key _ h h1
    · rw [translateAB_nil] at h
      simp only [Except.ok.injEq] at h; subst h; simp [Dict.get?]

theorem fitSds_free (orc : Oracle) (freq : List ℝ) (omM : List Cell) (m : Method) (hm : isFit m)
    (o : Opts) (r : Dict String Cell) (h : fitSds orc freq omM m o = .ok (some r)) :
    (o.fc ≠ none → r.get? "fc" = none) ∧ (o.n ≠ none → r.get? "n" = none) ∧
      (o.gamma ≠ none → r.get? "gamma" = none) := by
  have hl := (fitSds_shape orc freq omM m hm o r h).1
  rw [fitSds_fit orc freq omM m hm o hl] at h
  split at h
  · simp at h
  · cases hr : fitResult orc (if m = .robustFit ∧ o.fallBack ≤ (points freq omM).length
      then orc.rlm else orc.ols) (points freq omM) o with
    | error e => rw [hr] at h; simp [Except.map] at h
    | ok a =>
      rw [hr] at h
      simp only [Except.map, Except.ok.injEq, Option.some.injEq] at h
      subst h
      exact fitResult_free orc _ _ o _ hr

/-- Parameters drawn with the options of the fit are the reported or else the given ones. -/
theorem getParam_eq (d : Dict String Cell) (e : Dict String Val) (k : String) (c : Cell) (x dflt : ℝ)
    (hd : ∀ c, d.get? k = some c → c ≠ .num 0 ∧ c ≠ .nan)
    (h : getParam d e k = .ok c)
    (hx : Spec.paramOf e (match d.get? k with
      | none => some dflt
      | some c => c.val?) k = some x)
    (hfree : ∀ y, d.get? k = some (.num y) → e.get? k = none) :
    orDefault c dflt = .num x ∧ (d.get? k ≠ none → c = .num x) := by
  unfold getParam at h
  unfold Spec.paramOf at hx
  cases hk : d.get? k with
  | none =>
    rw [hk] at h hx
    simp only [numberOf] at h
    cases he : e.get? k with
    | none =>
      rw [he] at h hx
      simp at h hx
      subst h hx
      simp [orDefault]
    | some v =>
      cases v with
      | cell c' =>
        rw [he] at h hx
        simp at h hx
        subst h
        cases c' <;> simp [Cell.val?] at hx
        subst hx
        simp [orDefault]
      | cells l => rw [he] at h; simp at h
  | some cc =>
    have h0 := hd cc hk
    rw [hk] at h hx
    cases cc with
    | nan => exact absurd rfl h0.2
    | num y =>
      have he := hfree y hk
      have hy : y ≠ 0 := fun hy => h0.1 (by rw [hy])
      simp only [Cell.truthy, hy, ne_eq, not_false_eq_true, if_true, Except.ok.injEq] at h
      subst h
      rw [he] at hx
      simp [Cell.val?] at hx
      subst hx
      simp [orDefault]
    | none =>
      simp only [Cell.truthy, if_false, numberOf] at h
      cases he : e.get? k with
      | none => rw [he] at hx; simp [Cell.val?] at hx
      | some v =>
        cases v with
        | cell c' =>
          rw [he] at h hx
          simp at h hx
          subst h
          cases c' <;> simp [Cell.val?] at hx
          subst hx
          simp [orDefault]
        | cells l => rw [he] at h; simp at h

/-! ## C95 -/

/-- **C95** (curve): in the figure of an event whose source model was fitted with the same options, the
points are the reported spectrum, the dashed line is at the reported moment, and the curve is the
fitted source model: with the reported moment and the reported, or else given, corner frequency,
fall-off and sharpness, at hundred frequencies covering the bands; its misfit to the drawn points is
the reported error.  Without a moment neither curve nor line are drawn. -/
theorem C95_curve (orc : Oracle) (freq : List ℝ) (ev ev' : EvRes) (v0 rho0 mag : Option ℝ)
    (m : Method) (hm : isFit m) (o : Opts) (d : Dict String Cell) (hd : Spec.OptionsOf d o)
    (hnew : ∀ k ∈ ["M0", "fc", "n", "gamma", "fit_error"], ev.extra.get? k = none)
    (h : insertSourceProperties orc freq ev v0 rho0 (some m) (some o) mag = .ok ev')
    (cmap color : Bool) (vmin vmax mx : Option ℝ) (p : SdsPanel)
    (hp : plotSds freq ev'.extra (some m) d cmap color vmin vmax mx = .ok (some p))
    (hf : ∀ f ∈ freq, 0 < f) :
    p.points = points freq (Spec.spectrum ev'.extra) ∧
    ((ev'.extra.get? "M0" = none ∧ p.curve = [] ∧ p.level = none) ∨
      ∃ M0 fc n g err, 0 < M0 ∧ ev'.extra.get? "M0" = some (.cell (.num M0)) ∧
        ev'.extra.get? "fit_error" = some (.cell (.num err)) ∧
        Spec.paramOf ev'.extra o.fc "fc" = some fc ∧ Spec.paramOf ev'.extra o.n "n" = some n ∧
        Spec.paramOf ev'.extra o.gamma "gamma" = some g ∧ p.level = some M0 ∧
        (0 < fc → p.curve = (Spec.hundred (freq.headD 0 / 1.5) (freq.getLastD 0 * 1.5)).map
          (fun f => (f, some (omegaModel M0 fc n g f)))) ∧
        (0 < fc → g ≠ 0 → err = rmsLogMisfit p.points (omegaModel M0 fc n g))) := by
  obtain ⟨M0, fc, n, g, e1, e2, e3, e4, h1, h2, h3, h4, h5, h6⟩ :=
    plotSds_fit freq ev'.extra m hm d cmap color vmin vmax mx p hp
  refine ⟨h1, ?_⟩
  obtain ⟨L, fit, hfit, hget⟩ := insert_get orc freq ev ev' v0 rho0 m o mag h
  have hsds : Spec.spectrum ev'.extra = L := by
    unfold Spec.spectrum
    rw [hget "sds" (by decide)]
    cases fit with
    | none => simp [insertFit, Dict.get?_set]
    | some r =>
      rw [insertFit_other _ r (fitSds_keys orc freq L m o r hfit).2 "sds" (by decide) (by decide)]
      simp [Dict.get?_set]
  have hM0 : getParam d ev'.extra "M0" = numberOf ev'.extra "M0" := by
    unfold getParam; rw [hd.noM0]
  have nofit : (∀ k ∈ ["M0", "fc", "n", "gamma", "fit_error"], ev'.extra.get? k = none) →
      (ev'.extra.get? "M0" = none ∧ p.curve = [] ∧ p.level = none) := by
    intro hh
    have hn := hh "M0" (by simp)
    rw [hM0] at e1
    simp only [numberOf, hn, Except.ok.injEq] at e1
    subst e1
    exact ⟨hn, by rw [h3]; simp [modelCurve, Cell.truthy], by rw [h4]; simp [levelOf, Cell.truthy]⟩
  have hset : ∀ k ∈ ["M0", "fc", "n", "gamma", "fit_error"],
      (ev.extra.set "sds" (.cells L)).get? k = none := by
    intro k hk
    rw [Dict.get?_set_ne _ _ (by rintro rfl; simp at hk)]
    exact hnew k hk
  cases fit with
  | none =>
    left
    apply nofit
    intro k hk
    rw [hget k (by rintro rfl; simp at hk)]
    exact hset k hk
  | some r =>
    have hwf := (fitSds_keys orc freq L m o r hfit).1
    have hfree := fitSds_free orc freq L m hm o r hfit
    obtain ⟨-, -, hpos0, hs⟩ := fitSds_shape orc freq L m hm o r hfit
    rcases hs with ⟨-, rfl⟩ | ⟨-, hs⟩
    · left
      apply nofit
      intro k hk
      rw [hget k (by rintro rfl; simp at hk),
        insertFit_fit _ _ hwf (by simp [Dict.get?]) k (by rintro rfl; simp at hk)]
      exact hset k hk
    · right
      have hs' : ∃ M err fc n g, 0 < M ∧ r.get? "M0" = some (.num M) ∧
          r.get? "fit_error" = some (.num err) ∧ reported r o.fc "fc" = some fc ∧
          reported r o.n "n" = some n ∧ reported r o.gamma "gamma" = some g := by
        rcases hs with ⟨fc, n, g, -, a1, a2, a3, a4, a5⟩ | ⟨fc, a, par, -, -, -, a1, a2, a3, a4, a5⟩
        · exact ⟨_, _, _, _, _, exp_pos _, a4, a5, a1, a2, a3⟩
        · exact ⟨_, _, _, _, _, exp_pos _, a4, a5, a1, a2, a3⟩
      obtain ⟨M, err, fc', n', g', hM, r1, r2, r3, r4, r5⟩ := hs'
      have hval : ∀ k ∈ ["M0", "fc", "n", "gamma", "fit_error"],
          ev'.extra.get? k = (r.get? k).map Val.cell := by
        intro k hk
        rw [hget k (by rintro rfl; simp at hk),
          insertFit_fit _ _ hwf (by rw [r2]; simp) k (by rintro rfl; simp at hk)]
        cases r.get? k with
        | none => exact hset k hk
        | some c => rfl
      have hpar : ∀ k ∈ ["M0", "fc", "n", "gamma", "fit_error"], ∀ given,
          Spec.paramOf ev'.extra given k = reported r given k := by
        intro k hk given
        unfold Spec.paramOf reported
        rw [hval k hk]
        cases r.get? k <;> rfl
      have hM' : M0 = .num M := by
        rw [hM0] at e1
        simp only [numberOf, hval "M0" (by simp), r1, Option.map, Except.ok.injEq] at e1
        exact e1.symm
      have hgiven : ∀ k ∈ ["fc", "n", "gamma"], ∀ y, d.get? k = some (.num y) →
          ev'.extra.get? k = none := by
        intro k hk y hy
        simp only [List.mem_cons, List.not_mem_nil, or_false] at hk
        rcases hk with rfl | rfl | rfl
        · rw [hval _ (by simp), hfree.1 (by rw [hd.fc, hy]; simp [Cell.val?])]; rfl
        · rw [hval _ (by simp), hfree.2.1 (by rw [hd.n, hy]; simp [Cell.val?])]; rfl
        · rw [hval _ (by simp), hfree.2.2 (by rw [hd.gamma, hy]; simp [Cell.val?])]; rfl
      have hn := getParam_eq d ev'.extra "n" n n' 2 (hd.values "n") e3
        (by rw [← hd.n, hpar _ (by simp)]; exact r4) (hgiven "n" (by simp))
      have hg := getParam_eq d ev'.extra "gamma" g g' 1 (hd.values "gamma") e4
        (by rw [← hd.gamma, hpar _ (by simp)]; exact r5) (hgiven "gamma" (by simp))
      have hfc : fc = .num fc' := by
        have r3' := r3
        rw [← hpar _ (by simp)] at r3'
        unfold Spec.paramOf at r3'
        cases hk : d.get? "fc" with
        | none =>
          rw [hd.fc, hk] at r3'
          unfold getParam numberOf at e2
          rw [hk] at e2
          cases he : ev'.extra.get? "fc" with
          | none => rw [he] at r3'; simp at r3'
          | some v =>
            rw [he] at r3' e2
            cases v with
            | cells l => simp at e2
            | cell c =>
              simp only [Except.ok.injEq] at e2 r3'
              subst e2
              cases c <;> simp [Cell.val?] at r3'
              rw [r3']
        | some c =>
          exact (getParam_eq d ev'.extra "fc" fc fc' 0 (hd.values "fc") e2 (by
            rw [hk]; rw [hd.fc, hk] at r3'; exact r3') (hgiven "fc" (by simp))).2 (by simp [hk])
      refine ⟨M, fc', n', g', err, hM, by rw [hval _ (by simp), r1]; rfl,
        by rw [hval _ (by simp), r2]; rfl, by rw [hpar _ (by simp)]; exact r3,
        by rw [hpar _ (by simp)]; exact r4, by rw [hpar _ (by simp)]; exact r5, ?_, ?_, ?_⟩
      · rw [h4, hM']
        simp [levelOf, Cell.truthy, hM.ne', Cell.val?]
      · intro hc
        rw [h3, hM', hfc]
        unfold modelCurve
        rw [if_pos (by simp [Cell.truthy, hM.ne', hc.ne']), linspace_hundred]
        apply List.map_congr_left
        intro f hfm
        have hpos : 0 < f := by
          have hne : freq ≠ [] := by
            rintro rfl
            simp [points] at hpos0
          exact hundred_pos _ _ (div_pos (head_pos freq hne hf) (by norm_num))
            (mul_pos (last_pos freq hne hf) (by norm_num)) f hfm
        rw [← C61_is_omega_model f M fc' n' g' hpos hc]
        simp only [modelAt, hn.1, hg.1]
      · intro hc hg0
        rw [h1, hsds]
        exact C62_reported_parameters_describe_fit orc freq L m hm o r hfit M err fc' n' g' r1 r2 r3
          r4 r5 hf hc hg0

/-- **C95** fails for the method `'mean'`: whatever the reported spectrum, the options and the colours
are, as soon as there is a value to be drawn an exception is raised. -/
theorem C95_mean_counterexample (freq : List ℝ) (res : Dict String Val) (smo : Dict String Cell)
    (cmap color : Bool) (vmin vmax mx : Option ℝ) (x : ℝ) (hx : Cell.num x ∈ Spec.spectrum res) :
    ∃ e, plotSds freq res (some .mean) smo cmap color vmin vmax mx = .error e := by
  cases h : plotSds freq res (some .mean) smo cmap color vmin vmax mx with
  | error e => exact ⟨e, rfl⟩
  | ok p =>
    exfalso
    unfold plotSds at h
    obtain ⟨colour, hc, h⟩ := bind_ok.1 h
    obtain ⟨spec, hs, h⟩ := bind_ok.1 h
    have hspec : spec = (Spec.spectrum res).map Cell.val? := by
      unfold spectrumOf at hs
      unfold Spec.spectrum
      split at hs <;> simp_all
    rw [if_neg (by
      rw [hspec]
      simp only [List.all_map, List.all_eq_true, not_forall]
      exact ⟨_, hx, by simp [Cell.val?]⟩)] at h
    obtain ⟨M0, e1, h⟩ := bind_ok.1 h
    obtain ⟨fc, e2, h⟩ := bind_ok.1 h
    obtain ⟨n, e3, h⟩ := bind_ok.1 h
    obtain ⟨g, e4, h⟩ := bind_ok.1 h
    simp only [meanPanel] at h
    split at h
    · simp at h
    · split at h <;> simp at h

/-- In particular for an event with a spectrum and the moment determined with the method `'mean'`. -/
example (orc : Oracle) : ∃ ev', insertSourceProperties orc [1] ⟨[.num 1], [], []⟩ (some 1) (some 1)
      (some .mean) (some { fc := some 10 }) none = .ok ev' ∧
    ∃ x, Cell.num x ∈ Spec.spectrum ev'.extra := by
  have hp : ¬ sdsArg 1 1 1 1 < 0 := by
    unfold sdsArg; rw [not_lt]; positivity
  have hL : sdsEntries [1] [.num 1] (some 1) (some 1) = .ok [.num (sqrt (sdsArg 1 1 1 1))] := by
    simp [sdsEntries, mapExc, pyGet, bind, Except.bind, pure, Except.pure, Cell.truthy, sdsCell, sds,
      hp]
  have hs : 0 < sqrt (sdsArg 1 1 1 1) := by
    apply sqrt_pos.2; unfold sdsArg; positivity
  obtain ⟨r, hr, -⟩ := (C63_mean orc [1] [.num (sqrt (sdsArg 1 1 1 1))] { fc := some 10 } 10 rfl
    (by intro c hc; right; simp at hc; exact ⟨_, hs, hc⟩)).2
    (by simp [below, List.filter_cons]) (by simp)
  refine ⟨⟨[.num 1], [], insertFit (Dict.set [] "sds" (.cells [.num (sqrt (sdsArg 1 1 1 1))]))
      (some r)⟩, ?_, sqrt (sdsArg 1 1 1 1), ?_⟩
  · unfold insertSourceProperties
    refine bind_ok.2 ⟨_, hL, ?_⟩
    refine bind_ok.2 ⟨some r, ?_, ?_⟩
    · simpa [sdsStart, truthy] using hr
    · simp [sdsStart, truthy, pure, Except.pure]
  · unfold Spec.spectrum
    simp only
    rw [insertFit_other _ r (fitSds_keys orc _ _ _ _ r hr).2 "sds" (by decide) (by decide)]
    simp [Dict.get?_set]

theorem largest_spec (n : List Cell) (M : ℝ) (h : largest n = .ok M) :
    Cell.num M ∈ n ∧ ∀ c ∈ n, ∃ x, c = .num x ∧ x ≤ M := by
  unfold largest at h
  split at h
  · simp at h
  · next x xs hx =>
    split at h
    · simp at h
    · next hn =>
      simp only [Except.ok.injEq] at h
      have hall : ∀ c ∈ n, ∃ y, c = .num y := by
        intro c hc
        simp only [List.any_eq_true, not_exists, not_and] at hn
        have := hn c hc
        cases c <;> simp [Cell.val?] at this
        exact ⟨_, rfl⟩
      have hmem : ∀ y, Cell.num y ∈ n ↔ y ∈ x :: xs := by
        intro y
        rw [← hx, List.mem_filterMap]
        constructor
        · intro hy; exact ⟨_, hy, rfl⟩
        · rintro ⟨c, hc, hy⟩
          cases c <;> simp [Cell.val?] at hy
          subst hy; exact hc
      have hfold : ∀ (l : List ℝ) (a : ℝ), l.foldl max a ∈ a :: l ∧ ∀ y ∈ a :: l, y ≤ l.foldl max a := by
        intro l
        induction l with
        | nil => intro a; simp
        | cons b l ih =>
          intro a
          obtain ⟨h1, h2⟩ := ih (max a b)
          rw [List.foldl_cons]
          constructor
          · rcases List.mem_cons.1 h1 with h1 | h1
            · rcases max_choice a b with h3 | h3 <;> rw [h1, h3] <;> simp
            · simp [h1]
          · intro y hy
            rcases List.mem_cons.1 hy with rfl | hy
            · exact le_trans (le_max_left y b) (h2 (max y b) (by simp))
            · rcases List.mem_cons.1 hy with rfl | hy
              · exact le_trans (le_max_right a y) (h2 (max a y) (by simp))
              · exact h2 _ (by simp [hy])
      obtain ⟨h1, h2⟩ := hfold xs x
      rw [h] at h1 h2
      refine ⟨(hmem M).2 h1, fun c hc => ?_⟩
      obtain ⟨y, rfl⟩ := hall c hc
      exact ⟨y, rfl, h2 y ((hmem y).1 hc)⟩

/-- Numbers of stations in the bands of an event. -/
def Spec.stationCounts (e : Dict String Val) : List Cell :=
  match e.get? "nstations" with
  | some (.cells l) => l
  | _ => []

/-- `M` is the largest number of stations in a band of any of the events. -/
def Spec.LargestCount (events : Dict String (Dict String Val)) (M : ℝ) : Prop :=
  (∃ e ∈ events, Cell.num M ∈ Spec.stationCounts e.2) ∧
    ∀ e ∈ events, ∀ c ∈ Spec.stationCounts e.2, ∃ x, c = .num x ∧ x ≤ M

theorem maxStations_spec (events : Dict String (Dict String Val)) (M : ℝ)
    (hst : ∀ e ∈ events, e.2.get? "nstations" ≠ none)
    (h : maxStations events true false = .ok M) : Spec.LargestCount events M := by
  unfold maxStations at h
  cases events with
  | nil => simp at h
  | cons a events =>
    have h1 := hst a (by simp)
    simp only at h
    rw [if_neg (by simp [Option.isNone_iff_eq_none, h1])] at h
    obtain ⟨ns, hns, h⟩ := bind_ok.1 h
    obtain ⟨h2, h3⟩ := largest_spec _ _ h
    have hF := mapExc_ok.1 hns
    have key : ∀ (e : String × Dict String Val) (n : List Cell),
        stationsOf e.2 = .ok n → Spec.stationCounts e.2 = n := by
      intro e n he
      unfold Spec.stationCounts
      unfold stationsOf at he
      split at he <;> simp_all
    constructor
    · obtain ⟨l, hl, hM⟩ := List.mem_flatten.1 h2
      obtain ⟨e, he, hel⟩ := forall₂_right hF l hl
      exact ⟨e, he, by rw [key e l hel]; exact hM⟩
    · intro e he c hc
      obtain ⟨l, hl, hel⟩ := forall₂_left hF e he
      rw [key e l hel] at hc
      exact h3 c (List.mem_flatten.2 ⟨l, hl, hc⟩)

/-- The selected events of a figure: all, or those named. -/
def Spec.selected (events : Dict String (Dict String Val)) (only : List String) :
    Dict String (Dict String Val) :=
  if only = [] then events else events.filter (fun e => decide (e.1 ∈ only))

theorem label_spec (res : Dict String Val) (l : List (String × Cell)) (h : labelOf res = .ok l) :
    ∀ k c, (k, c) ∈ l ↔ (k ∈ ["M0", "fc", "n", "gamma", "fit_error"] ∧
      res.get? k = some (.cell c)) := by
  unfold labelOf at h
  have hF := mapExc_ok.1 h
  have step : ∀ (k : String) (b : String × Cell), (do
      let c ← numberOf res k
      match c with
      | .none => (.error .typeError : Py (String × Cell))
      | c => return (k, c)) = .ok b → (res.get? k).isSome → b.1 = k ∧ res.get? k = some (.cell b.2) := by
    intro k b hb hs
    obtain ⟨c, hc, hb⟩ := bind_ok.1 hb
    unfold numberOf at hc
    cases hk : res.get? k with
    | none => rw [hk] at hs; simp at hs
    | some v =>
      rw [hk] at hc
      cases v with
      | cells l => simp at hc
      | cell c' =>
        simp only [Except.ok.injEq] at hc
        subst hc
        cases c' <;> simp [pure, Except.pure] at hb <;> subst hb <;> simp
  intro k c
  constructor
  · intro hkc
    obtain ⟨k', hk', hb⟩ := forall₂_right hF (k, c) hkc
    obtain ⟨hmem, hs⟩ := List.mem_filter.1 hk'
    obtain ⟨rfl, h2⟩ := step k' (k, c) hb hs
    exact ⟨hmem, h2⟩
  · rintro ⟨hk, hres⟩
    obtain ⟨b, hb, hstep⟩ := forall₂_left hF k (List.mem_filter.2 ⟨hk, by rw [hres]; rfl⟩)
    obtain ⟨h1, h2⟩ := step k b hstep (by rw [hres]; rfl)
    rw [hres] at h2
    simp only [Option.some.injEq, Val.cell.injEq] at h2
    obtain ⟨b1, b2⟩ := b
    simp only at h1 h2
    subst h1 h2
    exact hb

theorem forall₂_mem_left {α β : Type} {r : α → β → Prop} {l : List α} {l' : List β}
    (h : List.Forall₂ r l l') : List.Forall₂ (fun a b => a ∈ l ∧ r a b) l l' := by
  induction h with
  | nil => exact .nil
  | cons h _ ih =>
    exact .cons ⟨by simp, h⟩ (ih.imp (fun a b hab => ⟨by simp [hab.1], hab.2⟩))

theorem forall₂_last {α β : Type} {r : α → β → Prop} {l : List α} {l' : List β}
    (h : List.Forall₂ r l l') : ∀ a, l.getLast? = some a → ∃ b, l'.getLast? = some b ∧ r a b := by
  induction h with
  | nil => simp
  | @cons a b l l' h ht ih =>
    intro c hc
    cases ht with
    | nil =>
      simp at hc
      subst hc
      exact ⟨b, by simp, h⟩
    | cons h2 ht =>
      rw [List.getLast?_cons_cons] at hc
      obtain ⟨d, hd, hr⟩ := ih c hc
      exact ⟨d, by rw [List.getLast?_cons_cons]; exact hd, hr⟩

/-- Outcome of `plot_sds` for all methods but `'mean'`. -/
theorem plotSds_spec (freq : List ℝ) (res : Dict String Val) (smm : Option Method)
    (hm : smm ≠ some .mean) (smo : Dict String Cell) (cmap color : Bool)
    (vmin vmax mx : Option ℝ) (p : Option SdsPanel)
    (h : plotSds freq res smm smo cmap color vmin vmax mx = .ok p) :
    (p = none ↔ ∀ x, Cell.num x ∉ Spec.spectrum res) ∧
    ∀ q, p = some q → q.points = points freq (Spec.spectrum res) ∧ labelOf res = .ok q.label ∧
      colourOf res cmap color vmin vmax mx = .ok q.colour := by
  unfold plotSds at h
  obtain ⟨colour, hc, h⟩ := bind_ok.1 h
  obtain ⟨spec, hs, h⟩ := bind_ok.1 h
  have hspec : spec = (Spec.spectrum res).map Cell.val? := by
    unfold spectrumOf at hs
    unfold Spec.spectrum
    split at hs <;> simp_all
  have hnone : spec.all Option.isNone = true ↔ ∀ x, Cell.num x ∉ Spec.spectrum res := by
    rw [hspec]
    simp only [List.all_map, List.all_eq_true, Function.comp]
    constructor
    · intro h x hx
      have := h _ hx
      simp [Cell.val?] at this
    · intro h c hc
      cases c with
      | num x => exact absurd hc (h x)
      | none => rfl
      | nan => rfl
  split at h
  · next hn =>
    simp only [pure, Except.pure, Except.ok.injEq] at h
    subst h
    exact ⟨by simpa using hnone.1 hn, by simp⟩
  · next hn =>
    obtain ⟨M0, e1, h⟩ := bind_ok.1 h
    obtain ⟨fc, e2, h⟩ := bind_ok.1 h
    obtain ⟨n, e3, h⟩ := bind_ok.1 h
    obtain ⟨g, e4, h⟩ := bind_ok.1 h
    split at h
    · exact absurd rfl hm
    · obtain ⟨pts, hp, h⟩ := bind_ok.1 h
      obtain ⟨u, hu, h⟩ := bind_ok.1 h
      obtain ⟨lab, hl, h⟩ := bind_ok.1 h
      simp only [pure, Except.pure, Except.ok.injEq] at h
      subst h
      refine ⟨?_, ?_⟩
      · rw [← hnone]; simp [hn]
      · intro q hq
        simp only [Option.some.injEq] at hq
        subst hq
        refine ⟨?_, hl, hc⟩
        unfold sdsPoints at hp
        split at hp
        · simp only [Except.ok.injEq] at hp
          rw [← hp, hspec, val?_filter]
        · simp at hp

/-- **C95** (all events): the figure has one panel for each selected event in the order of the events,
each drawn with the method and options of the call or else of the configuration.  A panel is empty
iff the event has no spectrum.  The points are the reported spectrum, the annotation consists of the
reported numbers, and the colours are the numbers of stations, on the same scale in all panels, which
covers the largest number.  The colour bar explains this scale if the last event has a spectrum; it is
missing only if one station is the largest number.  Not proved (and false) for the method `'mean'`
and, concerning the colour bar, for a last event without spectrum. -/
theorem C95_all_events_partial (res : SdsRes) (smm : Option Method) (smo : Dict String Cell)
    (only : List String) (F : SdsFig) (hm : smm.or res.smm ≠ some .mean)
    (hst : ∀ e ∈ res.events, e.2.get? "nstations" ≠ none)
    (h : plotAllSds res smm smo only = .ok F) :
    ∃ M, Spec.LargestCount (Spec.selected res.events only) M ∧
    List.Forall₂ (fun (e : String × Dict String Val) (p : String × Option SdsPanel) => p.1 = e.1 ∧
      plotSds res.freq e.2 (smm.or res.smm) (if smo.length = 0 then res.smo else smo) true false none
        none (some M) = .ok p.2 ∧
      (p.2 = none ↔ ∀ x, Cell.num x ∉ Spec.spectrum e.2) ∧
      ∀ q, p.2 = some q → q.points = points res.freq (Spec.spectrum e.2) ∧
        (∀ k c, (k, c) ∈ q.label ↔ (k ∈ ["M0", "fc", "n", "gamma", "fit_error"] ∧
          e.2.get? k = some (.cell c))) ∧
        q.colour = .counts (Spec.stationCounts e.2) 0.5 (M + 0.5))
      (Spec.selected res.events only) F.panels ∧
    (F.bar = none ↔ M = 1) ∧
    ∀ e x, (Spec.selected res.events only).getLast? = some e → Cell.num x ∈ Spec.spectrum e.2 → M ≠ 1 →
      F.bar = some (some (.counts (Spec.stationCounts e.2) 0.5 (M + 0.5))) := by
  unfold plotAllSds at h
  obtain ⟨M, hM, h⟩ := bind_ok.1 h
  obtain ⟨panels, hp, h⟩ := bind_ok.1 h
  simp only [pure, Except.pure, Except.ok.injEq] at h
  subst h
  have hsub : ∀ e ∈ Spec.selected res.events only, e ∈ res.events := by
    intro e he
    unfold Spec.selected at he
    split at he
    · exact he
    · exact (List.mem_filter.1 he).1
  have hst' : ∀ e ∈ Spec.selected res.events only, e.2.get? "nstations" ≠ none :=
    fun e he => hst e (hsub e he)
  have hM' : maxStations (Spec.selected res.events only) true false = .ok M := hM
  have hcol : ∀ e ∈ Spec.selected res.events only, ∀ q,
      colourOf e.2 true false none none (some M) = .ok q →
      q = .counts (Spec.stationCounts e.2) 0.5 (M + 0.5) := by
    intro e he q hq
    have := hst' e he
    unfold colourOf scaleEnd at hq
    unfold Spec.stationCounts
    cases hn : e.2.get? "nstations" with
    | none => exact absurd hn this
    | some v =>
      rw [hn] at hq
      cases v with
      | cell c => simp at hq
      | cells l =>
        simp only [bind, Except.bind, pure, Except.pure, Except.ok.injEq] at hq
        exact hq.symm
  have hF : List.Forall₂ (fun (e : String × Dict String Val) (p : String × Option SdsPanel) =>
      e ∈ Spec.selected res.events only ∧ p.1 = e.1 ∧
      plotSds res.freq e.2 (smm.or res.smm) (if smo.length = 0 then res.smo else smo) true false none
        none (some M) = .ok p.2) (Spec.selected res.events only) panels := by
    have := mapExc_ok.1 hp
    have h2 := forall₂_mem_left this
    refine h2.imp ?_
    rintro e p ⟨he, hep⟩
    obtain ⟨q, hq, hr⟩ := bind_ok.1 hep
    simp only [pure, Except.pure, Except.ok.injEq] at hr
    subst hr
    exact ⟨he, rfl, hq⟩
  have hall : ∀ (e : String × Dict String Val) (p : String × Option SdsPanel),
      (e ∈ Spec.selected res.events only ∧ p.1 = e.1 ∧
      plotSds res.freq e.2 (smm.or res.smm) (if smo.length = 0 then res.smo else smo) true false none
        none (some M) = .ok p.2) →
      (p.1 = e.1 ∧
      plotSds res.freq e.2 (smm.or res.smm) (if smo.length = 0 then res.smo else smo) true false none
        none (some M) = .ok p.2 ∧
      (p.2 = none ↔ ∀ x, Cell.num x ∉ Spec.spectrum e.2) ∧
      ∀ q, p.2 = some q → q.points = points res.freq (Spec.spectrum e.2) ∧
        (∀ k c, (k, c) ∈ q.label ↔ (k ∈ ["M0", "fc", "n", "gamma", "fit_error"] ∧
          e.2.get? k = some (.cell c))) ∧
        q.colour = .counts (Spec.stationCounts e.2) 0.5 (M + 0.5)) := by
    rintro e p ⟨he, h1, h2⟩
    obtain ⟨h3, h4⟩ := plotSds_spec res.freq e.2 _ hm _ true false none none (some M) p.2 h2
    refine ⟨h1, h2, h3, fun q hq => ?_⟩
    obtain ⟨h5, h6, h7⟩ := h4 q hq
    exact ⟨h5, label_spec e.2 _ h6, hcol e he _ h7⟩
  refine ⟨M, maxStations_spec _ M hst' hM', hF.imp hall, ?_, ?_⟩
  · by_cases h1 : M = 1 <;> simp [h1]
  · intro e x he hx h1
    simp only [h1, if_false, Option.some.injEq]
    obtain ⟨p, hpl, hep⟩ := forall₂_last hF e he
    obtain ⟨-, -, h3, h4⟩ := hall e p hep
    rw [hpl]
    cases hp2 : p.2 with
    | none => exact absurd hx (h3.1 hp2 x)
    | some q => simp [hp2, (h4 q hp2).2.2]

theorem plotAllSds_bar (res : SdsRes) (smm : Option Method) (smo : Dict String Cell)
    (only : List String) (F : SdsFig) (h : plotAllSds res smm smo only = .ok F) :
    F.bar = none ∨ F.bar = some ((F.panels.getLast?.bind Prod.snd).map SdsPanel.colour) := by
  unfold plotAllSds at h
  obtain ⟨M, hM, h⟩ := bind_ok.1 h
  obtain ⟨panels, hp, h⟩ := bind_ok.1 h
  simp only [pure, Except.pure, Except.ok.injEq] at h
  subst h
  by_cases h1 : M = 1 <;> simp [h1]

/-- A result of an event that can be drawn: spectrum and numbers of stations for each band, and no
missing value among the reported parameters. -/
structure Spec.SourceResult (nf : ℕ) (e : Dict String Val) : Prop where
  sds : ∃ l, e.get? "sds" = some (.cells l) ∧ l.length = nf
  nstations : ∃ l : List ℝ, e.get? "nstations" = some (.cells (l.map Cell.num)) ∧ l.length = nf
  values : ∀ k ∈ ["M0", "fc", "n", "gamma", "fit_error"], ∀ v, e.get? k = some v →
    ∃ c, v = .cell c ∧ c ≠ .none

theorem getParam_total (smo : Dict String Cell) (nf : ℕ) (e : Dict String Val)
    (he : Spec.SourceResult nf e) (k : String) (hk : k ∈ ["M0", "fc", "n", "gamma", "fit_error"]) :
    (∃ c, numberOf e k = .ok c) ∧ ∃ c, getParam smo e k = .ok c := by
  have h1 : ∃ c, numberOf e k = .ok c := by
    unfold numberOf
    cases h : e.get? k with
    | none => exact ⟨_, rfl⟩
    | some v =>
      obtain ⟨c, rfl, -⟩ := he.values k hk v h
      exact ⟨_, rfl⟩
  refine ⟨h1, ?_⟩
  unfold getParam
  split
  · split
    · exact ⟨_, rfl⟩
    · exact h1
  · exact h1

theorem label_total (nf : ℕ) (e : Dict String Val) (he : Spec.SourceResult nf e) :
    ∃ l, labelOf e = .ok l := by
  unfold labelOf
  apply Site.mapExc_total
  intro k hk
  obtain ⟨hk1, hk2⟩ := List.mem_filter.1 hk
  cases h : e.get? k with
  | none => rw [h] at hk2; simp at hk2
  | some v =>
    obtain ⟨c, rfl, hc⟩ := he.values k hk1 v h
    simp only [numberOf, h, bind, Except.bind]
    cases c with
    | none => exact absurd rfl hc
    | nan => exact ⟨_, rfl⟩
    | num x => exact ⟨_, rfl⟩

theorem plotSds_total (freq : List ℝ) (e : Dict String Val) (smm : Option Method)
    (hm : smm ≠ some .mean) (smo : Dict String Cell) (M : ℝ)
    (he : Spec.SourceResult freq.length e) :
    ∃ p, plotSds freq e smm smo true false none none (some M) = .ok p := by
  obtain ⟨l, hl, hlen⟩ := he.sds
  obtain ⟨ns, hns, hnl⟩ := he.nstations
  obtain ⟨lab, hlab⟩ := label_total _ e he
  obtain ⟨M0, e1⟩ := (getParam_total smo _ e he "M0" (by simp)).2
  obtain ⟨fc, e2⟩ := (getParam_total smo _ e he "fc" (by simp)).2
  obtain ⟨n, e3⟩ := (getParam_total smo _ e he "n" (by simp)).2
  obtain ⟨g, e4⟩ := (getParam_total smo _ e he "gamma" (by simp)).2
  have hcol : colourOf e true false none none (some M) =
      .ok (.counts (ns.map Cell.num) 0.5 (M + 0.5)) := by
    unfold colourOf
    rw [hns]
    rfl
  have hspec : spectrumOf e = .ok (l.map Cell.val?) := by
    unfold spectrumOf
    rw [hl]
  have hpts : ∃ pts, sdsPoints freq (l.map Cell.val?) = .ok pts := by
    unfold sdsPoints
    rw [if_pos (by simp [hlen])]
    exact ⟨_, rfl⟩
  obtain ⟨pts, hpts⟩ := hpts
  unfold plotSds
  simp only [hcol, hspec, e1, e2, e3, e4, bind, Except.bind, pure, Except.pure]
  split
  · exact ⟨_, rfl⟩
  · simp only [hpts, hlab, checkColours, List.length_map, hnl, if_true]
    cases smm with
    | none => exact ⟨_, rfl⟩
    | some m =>
      cases m with
      | mean => exact absurd rfl hm
      | fit => exact ⟨_, rfl⟩
      | robustFit => exact ⟨_, rfl⟩
      | other => exact ⟨_, rfl⟩

/-- **C95** (total): for results of events with the documented entries the figure is made, for each
method but `'mean'`. -/
theorem C95_total_partial (res : SdsRes) (smm : Option Method) (smo : Dict String Cell)
    (only : List String) (hm : smm.or res.smm ≠ some .mean)
    (hne : Spec.selected res.events only ≠ []) (hf : res.freq ≠ [])
    (hres : ∀ e ∈ Spec.selected res.events only, Spec.SourceResult res.freq.length e.2) :
    ∃ F, plotAllSds res smm smo only = .ok F := by
  have hM : ∃ M, maxStations (Spec.selected res.events only) true false = .ok M := by
    unfold maxStations
    cases hs : Spec.selected res.events only with
    | nil => exact absurd hs hne
    | cons a l =>
      simp only
      split
      · exact ⟨_, rfl⟩
      · rw [← hs]
        have hall : mapExc (fun e : String × Dict String Val => stationsOf e.2) (Spec.selected res.events only) =
            .ok ((Spec.selected res.events only).map (fun e => Spec.stationCounts e.2)) := by
          apply mapExc_ok.2
          rw [List.forall₂_map_right_iff, List.forall₂_same]
          intro e he
          obtain ⟨n, hn, -⟩ := (hres e he).nstations
          unfold Spec.stationCounts stationsOf
          rw [hn]
        rw [hall]
        simp only [bind, Except.bind]
        unfold largest
        have hnum : ∀ c ∈ ((Spec.selected res.events only).map
            (fun e => Spec.stationCounts e.2)).flatten, ∃ x, c = .num x := by
          intro c hc
          obtain ⟨l', hl', hc⟩ := List.mem_flatten.1 hc
          obtain ⟨e, he, rfl⟩ := List.mem_map.1 hl'
          obtain ⟨n, hn, -⟩ := (hres e he).nstations
          unfold Spec.stationCounts at hc
          rw [hn] at hc
          obtain ⟨x, -, rfl⟩ := List.mem_map.1 hc
          exact ⟨x, rfl⟩
        have ha : a ∈ Spec.selected res.events only := by rw [hs]; simp
        obtain ⟨n, hn, hnl⟩ := (hres a ha).nstations
        have hn0 : n ≠ [] := by
          rintro rfl
          simp at hnl
          exact hf (List.length_eq_zero_iff.1 hnl.symm)
        obtain ⟨x, n', rfl⟩ := List.exists_cons_of_ne_nil hn0
        have hx : Cell.num x ∈ ((Spec.selected res.events only).map
            (fun e => Spec.stationCounts e.2)).flatten := by
          refine List.mem_flatten.2 ⟨_, List.mem_map.2 ⟨a, ha, rfl⟩, ?_⟩
          unfold Spec.stationCounts
          rw [hn]
          simp
        split
        · next hnil =>
          have : x ∈ ([] : List ℝ) := by
            rw [← hnil]; exact List.mem_filterMap.2 ⟨_, hx, rfl⟩
          simp at this
        · rw [if_neg]
          · exact ⟨_, rfl⟩
          · simp only [List.any_eq_true, not_exists, not_and]
            intro c hc
            obtain ⟨y, rfl⟩ := hnum c hc
            simp [Cell.val?]
  obtain ⟨M, hM⟩ := hM
  have hp : ∃ ps, mapExc (fun e : String × Dict String Val => do
      let p ← plotSds res.freq e.2 (smm.or res.smm) (if smo.length = 0 then res.smo else smo)
        true false none none (some M)
      return (e.1, p)) (Spec.selected res.events only) = .ok ps := by
    apply Site.mapExc_total
    intro e he
    obtain ⟨p, hp⟩ := plotSds_total res.freq e.2 _ hm (if smo.length = 0 then res.smo else smo) M
      (hres e he)
    exact ⟨(e.1, p), by rw [hp]; rfl⟩
  obtain ⟨ps, hp⟩ := hp
  exact ⟨_, bind_ok.2 ⟨M, hM, bind_ok.2 ⟨ps, hp, rfl⟩⟩⟩

/-! ## Example: two events, of which the second has no spectrum -/

namespace SdsExample

def one : Dict String Val := [("sds", .cells [.num 2, .none]), ("nstations", .cells [.num 3, .num 0]),
  ("M0", .cell (.num 2)), ("fc", .cell (.num 5)), ("fit_error", .cell (.num 0))]

def two : Dict String Val := [("sds", .cells [.none, .none]), ("nstations", .cells [.num 0, .num 0])]

def both : SdsRes := ⟨[1, 2], some .fit, [], [("a", one), ("b", two)]⟩

def first : SdsRes := ⟨[1, 2], some .fit, [], [("b", two), ("a", one)]⟩

theorem counts_one : Spec.stationCounts one = [.num 3, .num 0] := rfl

theorem one_ok : Spec.SourceResult 2 one := by
  refine ⟨⟨_, rfl, rfl⟩, ⟨[3, 0], rfl, rfl⟩, ?_⟩
  intro k hk v hv
  simp only [List.mem_cons, List.not_mem_nil, or_false] at hk
  rcases hk with rfl | rfl | rfl | rfl | rfl <;> simp [one, Dict.get?_cons] at hv <;> subst hv <;>
    exact ⟨_, rfl, by simp⟩

theorem two_ok : Spec.SourceResult 2 two := by
  refine ⟨⟨_, rfl, rfl⟩, ⟨[0, 0], rfl, rfl⟩, ?_⟩
  intro k hk v hv
  simp only [List.mem_cons, List.not_mem_nil, or_false] at hk
  rcases hk with rfl | rfl | rfl | rfl | rfl <;> simp [two, Dict.get?_cons] at hv

theorem both_ok : ∃ F, plotAllSds both none [] [] = .ok F := by
  apply C95_total_partial both none [] [] (by simp [both]) (by simp [both, Spec.selected])
    (by simp [both])
  intro e he
  simp [both, Spec.selected] at he
  rcases he with rfl | rfl
  · exact one_ok
  · exact two_ok

theorem first_ok : ∃ F, plotAllSds first none [] [] = .ok F := by
  apply C95_total_partial first none [] [] (by simp [first]) (by simp [first, Spec.selected])
    (by simp [first])
  intro e he
  simp [first, Spec.selected] at he
  rcases he with rfl | rfl
  · exact two_ok
  · exact one_ok

theorem hasStations : (∀ e ∈ both.events, e.2.get? "nstations" ≠ none) ∧
    ∀ e ∈ first.events, e.2.get? "nstations" ≠ none := by
  constructor
  · intro e he
    simp [both] at he
    rcases he with rfl | rfl <;> simp [one, two, Dict.get?_cons]
  · intro e he
    simp [first] at he
    rcases he with rfl | rfl <;> simp [one, two, Dict.get?_cons]

theorem largest_both (M : ℝ) (h : Spec.LargestCount (Spec.selected both.events []) M) : M = 3 := by
  obtain ⟨⟨e, he, h1⟩, h2⟩ := h
  simp [Spec.selected, both] at he
  obtain ⟨x, hx, hle⟩ := h2 ("a", one) (by simp [Spec.selected, both]) (.num 3)
    (by simp [Spec.stationCounts, one, Dict.get?_cons])
  simp only [Cell.num.injEq] at hx
  subst hx
  rcases he with rfl | rfl
  · simp [Spec.stationCounts, one, Dict.get?_cons] at h1
    rcases h1 with h1 | h1 <;> linarith
  · simp [Spec.stationCounts, two, Dict.get?_cons] at h1
    linarith

/-- **C95** fails: if the last event has no spectrum, the colour bar has no scale, although the points
of the other events are coloured by the number of stations. -/
theorem _root_.Qopen.C95_colour_bar_counterexample : ∃ F, plotAllSds both none [] [] = .ok F ∧
    F.bar = some none ∧ ∃ q, (("a" : String), some q) ∈ F.panels ∧
      q.colour = .counts [.num 3, .num 0] 0.5 3.5 := by
  obtain ⟨F, hF⟩ := both_ok
  obtain ⟨M, h1, h2, h3, -⟩ := C95_all_events_partial both none [] [] F (by simp [both])
    hasStations.1 hF
  have hM := largest_both M h1
  subst hM
  refine ⟨F, hF, ?_, ?_⟩
  · have hb : F.bar ≠ none := fun hb => by have := h3.1 hb; norm_num at this
    obtain ⟨p, hp, h4, -, h5, -⟩ := forall₂_last h2 ("b", two) rfl
    rcases plotAllSds_bar _ _ _ _ F hF with h | h
    · exact absurd h hb
    · rw [h, hp]
      have : p.2 = none := h5.2 (by simp [Spec.spectrum, two, Dict.get?_cons])
      simp [this]
  · obtain ⟨p, hp, h4, -, h5, h6⟩ := forall₂_left h2 ("a", one) (by simp [Spec.selected, both])
    obtain ⟨i, p⟩ := p
    simp only at h4 h5 h6
    subst h4
    cases p with
    | none => exact absurd (by simp [Spec.spectrum, one, Dict.get?_cons]) (h5.1 rfl 2)
    | some q =>
      refine ⟨q, hp, ?_⟩
      rw [(h6 q rfl).2.2, counts_one]
      norm_num

theorem largest_first (M : ℝ) (h : Spec.LargestCount (Spec.selected first.events []) M) : M = 3 := by
  apply largest_both
  obtain ⟨⟨e, he, h1⟩, h2⟩ := h
  have hperm : ∀ e, e ∈ Spec.selected both.events [] ↔ e ∈ Spec.selected first.events [] := by
    intro e
    simp [Spec.selected, both, first, or_comm]
  exact ⟨⟨e, (hperm e).2 he, h1⟩, fun e he => h2 e ((hperm e).1 he)⟩

/-- non-vacuity of the colour bar: the last event has a spectrum -/
example : ∃ F, plotAllSds first none [] [] = .ok F ∧
    F.bar = some (some (.counts [.num 3, .num 0] 0.5 3.5)) := by
  obtain ⟨F, hF⟩ := first_ok
  obtain ⟨M, h1, -, -, h3⟩ := C95_all_events_partial first none [] [] F (by simp [first])
    hasStations.2 hF
  have hM := largest_first M h1
  subst hM
  refine ⟨F, hF, ?_⟩
  rw [h3 ("a", one) 2 rfl (by simp [Spec.spectrum, one, Dict.get?_cons]) (by norm_num), counts_one]
  norm_num

/-- Options of a fit: corner frequency free, fall-off given, sharpness by
default. -/
example : Spec.OptionsOf [("fc", .none), ("n", .num 3)] { n := some 3 } :=
  ⟨rfl, rfl, rfl, rfl, by
    intro k c h
    simp [Dict.get?_cons] at h
    split_ifs at h <;> simp at h <;> subst h <;> simp⟩

/-- non-vacuity of `C95_curve`: a model with given corner frequency fitted to two values -/
example : ∃ ev' p, insertSourceProperties ⟨fun _ _ => [30], fun _ _ => [30], fun _ => (0, 0),
      fun _ _ => 2, fun _ _ _ => []⟩ [1, 2] ⟨[.num 1, .num 1], [], []⟩ (some 1) (some 1) (some .fit)
      (some { fc := some 5 }) none = .ok ev' ∧
    plotSds [1, 2] ev'.extra (some .fit) [("fc", .num 5)] = .ok (some p) ∧
    ev'.extra.get? "M0" = some (.cell (.num (exp 30))) ∧
    Spec.OptionsOf [("fc", .num 5)] { fc := some 5 } := by
  have hp : ∀ f : ℝ, ¬ sdsArg 1 f 1 1 < 0 := by
    intro f; unfold sdsArg; rw [not_lt]; positivity
  have h : ∃ a b err mw : ℝ, insertSourceProperties ⟨fun _ _ => [30], fun _ _ => [30],
      fun _ => (0, 0), fun _ _ => 2, fun _ _ _ => []⟩ [1, 2] ⟨[.num 1, .num 1], [], []⟩ (some 1)
      (some 1) (some .fit) (some { fc := some 5 }) none = .ok ⟨[.num 1, .num 1], [],
        [("sds", .cells [.num a, .num b]), ("M0", .cell (.num (exp 30))),
          ("fit_error", .cell (.num err)), ("Mw", .cell (.num mw))]⟩ := by
    simp [insertSourceProperties, sdsEntries, mapExc, pyGet, bind, Except.bind, pure, Except.pure,
      Cell.truthy, sdsCell, sds, hp, sdsStart, truthy, fitSds, fitResult, unknowns, lstsq, tooFew,
      Cell.val?, insertFit, nanToNone, Dict.get?_cons, Dict.set, Dict.update, Dict.mapVals]
  obtain ⟨a, b, err, mw, h⟩ := h
  have hpl : ∃ p, plotSds [1, 2] [("sds", .cells [.num a, .num b]), ("M0", .cell (.num (exp 30))),
      ("fit_error", .cell (.num err)), ("Mw", .cell (.num mw))] (some .fit) [("fc", .num 5)] =
      .ok (some p) := by
    simp [plotSds, colourOf, Dict.get?_cons, spectrumOf, getParam, numberOf, Cell.truthy, Cell.val?,
      sdsPoints, checkColours, labelOf, labelKeys, mapExc, bind, Except.bind, pure, Except.pure]
  obtain ⟨p, hpl⟩ := hpl
  refine ⟨_, p, h, hpl, rfl, rfl, rfl, rfl, rfl, ?_⟩
  intro k c h
  simp [Dict.get?_cons] at h
  obtain ⟨rfl, rfl⟩ := h
  simp

end SdsExample

end Qopen
