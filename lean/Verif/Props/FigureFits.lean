import Verif.Model.FigureBand
import Verif.Props.Invert

/-!
# Figure of the fits of a band: C107
-/

namespace Qopen

open Real Util Tr InvertFb FigBand Spec Imaging

variable {G : Greens} {cfg : Cfg} {ps : List PairData} {gs : List (List ℝ × ℝ)} {g0 b : ℝ}

namespace FigBand

theorem infoOf_eq (hnd : (ps.map PairData.pair).Nodup) (hne : ∀ p ∈ ps, p.coda ≠ [])
    (h : IsGreens G cfg g0 ps gs) :
    infoOf G cfg (bandOf cfg.bulk ps) g0 = .ok
      { tcoda := ps.map (fun p => p.coda.map Prod.fst)
        tbulk := if cfg.bulk then ps.map PairData.bulkTime else []
        Ecoda := ps.map (fun p => p.coda.map Prod.snd)
        Ebulk := if cfg.bulk then ps.map PairData.bulkEnergy else []
        Gcoda := gs.map Prod.fst
        Gbulk := if cfg.bulk then gs.map Prod.snd else [] } := by
  have hlen := h.length_eq
  have hm : mapExc (greensOfPair G cfg (bandOf cfg.bulk ps) g0) (bandOf cfg.bulk ps).pairs.zipIdx =
      .ok (gs.map (fun g => (g.1, if cfg.bulk then [g.2] else []))) := by
    rw [mapExc_ok, List.forall₂_iff_get]
    refine ⟨by simp [bandOf, hlen], ?_⟩
    intro i h1 h2
    have hi : i < ps.length := by simpa [bandOf] using h1
    have hi' : i < gs.length := by omega
    have hg := List.Forall₂.get h hi hi'
    simp only [List.get_eq_getElem] at hg
    have := greensOfPair_eq hnd hi (hne _ (List.getElem_mem hi)) hg.1 hg.2.2
    simpa [bandOf] using this
  unfold infoOf
  rw [hm]
  simp only [bind, Except.bind, pure, Except.pure, List.map_map, Function.comp_def]
  have hf : (gs.map (fun g => if cfg.bulk then [g.2] else [])).flatten =
      if cfg.bulk then gs.map Prod.snd else [] := by
    clear hm h hlen
    induction gs with
    | nil => cases cfg.bulk <;> rfl
    | cons g l ih =>
      rw [List.map_cons, List.flatten_cons, ih]
      cases cfg.bulk <;> simp
  rw [hf]
  rfl

theorem plotFits_ok {es : List FitTrace} {ob : Option ℝ} {W : Dict String ℝ}
    {R : Dict String (Option ℝ)} {info : Info} {xlim ylim : Option (ℝ × ℝ)} {fig : FitsPlot}
    (h : plotFits G cfg es g0 ob W R info xlim ylim = .ok fig) :
    ∃ steps : List (Option FitStep),
      List.Forall₂ (fun p s => fitPass G cfg g0 (ob.getD 0) W R info es.length p = .ok s)
        es.zipIdx steps ∧
      fig.panels = (steps.filterMap id).map FitStep.panel ∧
      xLimits xlim (steps.filterMap id) = .ok fig.xlim ∧
      yLimits ylim (steps.filterMap id) = .ok fig.ylim := by
  unfold plotFits at h
  obtain ⟨steps, h1, h⟩ := bind_ok.1 h
  obtain ⟨xl, h2, h⟩ := bind_ok.1 h
  obtain ⟨yl, h3, h⟩ := bind_ok.1 h
  simp only [pure, Except.pure, Except.ok.injEq] at h
  subst h
  exact ⟨steps, mapExc_ok.1 h1, rfl, h2, h3⟩

/-- The contents of a pass of the loop. -/
theorem fitStep_ok {W : Dict String ℝ} {info : Info} {N i : ℕ} {e : FitTrace} {r : ℝ} {s : FitStep}
    (h : fitStep G cfg g0 b W info N e i r = .ok s) :
    ∃ g w tc Ec Gc bulk m1 m2 m3 m4,
      gsmooth G cfg e.tr.distance (traceTimes e.tr cfg.v0) g0 = .ok g ∧
      Dict.get? W e.tr.event = some w ∧
      info.tcoda[i]? = some tc ∧ info.Ecoda[i]? = some Ec ∧ info.Gcoda[i]? = some Gc ∧
      fitBulk r w b info i = .ok bulk ∧
      maxOf ((emod r w b g (traceTimes e.tr cfg.v0)).map (fun x => max x (1e-30))) = .ok m1 ∧
      maxOf e.tr.data = .ok m2 ∧ minOf (emod r w b Gc tc) = .ok m3 ∧ maxOf Ec = .ok m4 ∧
      (traceTimes e.tr cfg.v0)[(traceTimes e.tr cfg.v0).length - 1]? = some s.tmax ∧
      s.ymax = max m1 m2 ∧ s.ymin = min m3 m4 ∧
      s.panel.cell = (i / gridSize N, i % gridSize N) ∧ s.panel.event = e.tr.event ∧
      s.panel.station = e.tr.station ∧ s.panel.km = trunc (e.tr.distance / 1000) ∧
      s.panel.unsmoothed = (match cfg.smooth with
        | some s => if s ≠ 0 then (traceTimes e.tr cfg.v0).zip e.unsmoothed else []
        | none => []) ∧
      s.panel.observed = (traceTimes e.tr cfg.v0).zip e.tr.data ∧
      s.panel.model = (traceTimes e.tr cfg.v0).zip
        ((emod r w b g (traceTimes e.tr cfg.v0)).map (fun x => max x (1e-30))) ∧
      s.panel.coda = tc.zip Ec ∧ s.panel.codaModel = tc.zip (emod r w b Gc tc) ∧
      s.panel.bulk = bulk.1 ∧ s.panel.bulkModel = bulk.2 := by
  unfold fitStep at h
  obtain ⟨g, hg, h⟩ := bind_ok.1 h
  obtain ⟨w, hw, h⟩ := bind_ok.1 h
  obtain ⟨tc, htc, h⟩ := bind_ok.1 h
  obtain ⟨Ec, hEc, h⟩ := bind_ok.1 h
  obtain ⟨Gc, hGc, h⟩ := bind_ok.1 h
  obtain ⟨bulk, hb, h⟩ := bind_ok.1 h
  obtain ⟨tm, htm, h⟩ := bind_ok.1 h
  obtain ⟨m1, h1, h⟩ := bind_ok.1 h
  obtain ⟨m2, h2, h⟩ := bind_ok.1 h
  obtain ⟨m3, h3, h⟩ := bind_ok.1 h
  obtain ⟨m4, h4, h⟩ := bind_ok.1 h
  simp only [pure, Except.pure, Except.ok.injEq] at h
  subst h
  have hw' : Dict.get? W e.tr.event = some w := by
    unfold dictGet at hw
    split at hw
    · next v hv => simp only [Except.ok.injEq] at hw; rw [hv, hw]
    · simp at hw
  exact ⟨g, w, tc, Ec, Gc, bulk, m1, m2, m3, m4, hg, hw', pyGet_ok.1 htc, pyGet_ok.1 hEc,
    pyGet_ok.1 hGc, hb, h1, h2, h3, h4, pyGet_ok.1 htm, rfl, rfl, rfl, rfl, rfl, rfl, rfl, rfl, rfl,
    rfl, rfl, rfl, rfl⟩

/-- The site response which is used for a station; `none` if it is missing (NaN). -/
def responseOf (R : Dict String (Option ℝ)) (sta : String) : Option ℝ := (Dict.get? R sta).getD none

theorem fitPass_ok {W : Dict String ℝ} {R : Dict String (Option ℝ)} {info : Info} {N : ℕ}
    {p : FitTrace × ℕ} {o : Option FitStep} (h : fitPass G cfg g0 b W R info N p = .ok o) :
    (responseOf R p.1.tr.station = none ∧ o = none) ∨
    ∃ r s, responseOf R p.1.tr.station = some r ∧ o = some s ∧
      fitStep G cfg g0 b W info N p.1 p.2 r = .ok s := by
  unfold fitPass at h
  obtain ⟨r, hr, h⟩ := bind_ok.1 h
  have hr' : Dict.get? R p.1.tr.station = some r := by
    unfold dictGet at hr
    split at hr
    · next v hv => simp only [Except.ok.injEq] at hr; rw [hv, hr]
    · simp at hr
  cases r with
  | none =>
    simp only [pure, Except.pure, Except.ok.injEq] at h
    exact Or.inl ⟨by simp [responseOf, hr'], h.symm⟩
  | some r =>
    obtain ⟨s, hs, h⟩ := bind_ok.1 h
    simp only [pure, Except.pure, Except.ok.injEq] at h
    exact Or.inr ⟨r, s, by simp [responseOf, hr'], h.symm, hs⟩

/-- The passes which were not left out belong to the traces with a site response. -/
theorem passes_shown {W : Dict String ℝ} {R : Dict String (Option ℝ)} {info : Info} {N : ℕ}
    {l : List (FitTrace × ℕ)} {steps : List (Option FitStep)}
    (h : List.Forall₂ (fun p s => fitPass G cfg g0 b W R info N p = .ok s) l steps) :
    List.Forall₂ (fun p s => ∃ r, responseOf R p.1.tr.station = some r ∧
        fitStep G cfg g0 b W info N p.1 p.2 r = .ok s)
      (l.filter (fun p => (responseOf R p.1.tr.station).isSome)) (steps.filterMap id) := by
  induction h with
  | nil => simp
  | cons h1 h2 ih =>
    rename_i p o l steps
    rcases fitPass_ok h1 with ⟨e1, rfl⟩ | ⟨r, s, e1, rfl, e3⟩
    · rw [List.filter_cons_of_neg (by simp [e1]), List.filterMap_cons_none rfl]
      exact ih
    · rw [List.filter_cons_of_pos (by simp [e1]), List.filterMap_cons_some (f := id) (a := some s) (b := s) rfl]
      exact .cons ⟨r, e1, e3⟩ ih

theorem map_eq_map {α β γ : Type} {f : α → γ} {g : β → γ} {l : List α} {m : List β}
    (h : List.Forall₂ (fun a b => f a = g b) l m) : l.map f = m.map g := by
  induction h with
  | nil => rfl
  | cons a _ ih => rw [List.map_cons, List.map_cons, a, ih]

theorem mem_right {α β : Type} {r : α → β → Prop} {l : List α} {m : List β}
    (h : List.Forall₂ r l m) {b : β} (hb : b ∈ m) : ∃ a ∈ l, r a b := by
  induction h with
  | nil => simp at hb
  | cons a _ ih =>
    rcases List.mem_cons.1 hb with rfl | hb
    · exact ⟨_, List.mem_cons_self, a⟩
    · obtain ⟨x, hx, e⟩ := ih hb
      exact ⟨x, List.mem_cons_of_mem _ hx, e⟩

theorem flatMap_eq {α β γ : Type} {f : α → List γ} {g : β → List γ} {l : List α} {m : List β}
    (h : List.Forall₂ (fun a b => f a = g b) l m) : l.flatMap f = m.flatMap g := by
  rw [List.flatMap_def, List.flatMap_def, map_eq_map h]

theorem get?_some_map (R : Dict String ℝ) (k : String) :
    Dict.get? (R.map (fun x => (x.1, some x.2))) k = (Dict.get? R k).map some := by
  induction R with
  | nil => rfl
  | cons x R ih =>
    obtain ⟨a, v⟩ := x
    rw [List.map_cons, Dict.get?_cons, Dict.get?_cons, ih]
    split <;> rfl

theorem gridSize_sq (N : ℕ) : N ≤ gridSize N * gridSize N := by
  have h : sqrt (N : ℝ) ≤ (gridSize N : ℝ) := Nat.le_ceil _
  have h2 : (N : ℝ) ≤ (gridSize N : ℝ) * gridSize N := by
    calc (N : ℝ) = sqrt N * sqrt N := (mul_self_sqrt (Nat.cast_nonneg N)).symm
      _ ≤ _ := mul_self_le_mul_self (sqrt_nonneg _) h
  exact_mod_cast h2

end FigBand

/-! ## Panels -/

/-- **C107**: in the figure of the fits each trace whose station has a site response has its own
panel, in the order of the traces, with the label of its event and station; the cells of the panels
are different and fit into the square grid. -/
theorem C107_panels {es : List FitTrace} {ob : Option ℝ} {W : Dict String ℝ}
    {R : Dict String (Option ℝ)} {info : Info} {xlim ylim : Option (ℝ × ℝ)} {fig : FitsPlot}
    (h : plotFits G cfg es g0 ob W R info xlim ylim = .ok fig) :
    (fig.panels.map (fun p => (p.event, p.station)) =
      (es.filter (fun e => (responseOf R e.tr.station).isSome)).map
        (fun e => (e.tr.event, e.tr.station))) ∧
    (fig.panels.map FitPanel.cell).Nodup ∧
    ∃ n, ∀ p ∈ fig.panels, p.cell.1 < n ∧ p.cell.2 < n := by
  obtain ⟨steps, h1, h2, -, -⟩ := plotFits_ok h
  have hs := passes_shown h1
  have hp : List.Forall₂ (fun (p : FitTrace × ℕ) (q : FitPanel) => q.event = p.1.tr.event ∧
      q.station = p.1.tr.station ∧
      q.cell = (p.2 / gridSize es.length, p.2 % gridSize es.length))
      (es.zipIdx.filter (fun p => (responseOf R p.1.tr.station).isSome)) fig.panels := by
    rw [h2, List.forall₂_map_right_iff]
    refine hs.imp ?_
    rintro p s ⟨r, -, hr⟩
    obtain ⟨g, w, tc, Ec, Gc, bulk, m1, m2, m3, m4, -, -, -, -, -, -, -, -, -, -, -, -, -, a, b, c, -⟩ :=
      fitStep_ok hr
    exact ⟨b, c, a⟩
  have hmem : ∀ p ∈ es.zipIdx.filter (fun p => (responseOf R p.1.tr.station).isSome),
      p.2 < es.length := by
    intro p hp
    have := (List.mem_filter.1 hp).1
    obtain ⟨i, hi, e⟩ := List.mem_iff_getElem.1 this
    rw [List.getElem_zipIdx] at e
    rw [← e]
    simpa using hi
  refine ⟨?_, ?_, gridSize es.length, ?_⟩
  · have e1 : (es.zipIdx.filter (fun p => (responseOf R p.1.tr.station).isSome)).map Prod.fst =
        es.filter (fun e => (responseOf R e.tr.station).isSome) := by
      have := List.filter_map (f := Prod.fst) (p := fun e : FitTrace =>
        (responseOf R e.tr.station).isSome) (l := es.zipIdx)
      rw [List.zipIdx_map_fst] at this
      rw [this]
      rfl
    rw [← e1, List.map_map]
    refine (map_eq_map (hp.imp ?_)).symm
    rintro a q ⟨a1, a2, -⟩
    simp only [Function.comp, a1, a2]
  · have e2 : fig.panels.map FitPanel.cell =
        ((es.zipIdx.filter (fun p => (responseOf R p.1.tr.station).isSome)).map Prod.snd).map
          (fun i => (i / gridSize es.length, i % gridSize es.length)) := by
      rw [List.map_map]
      refine (map_eq_map (hp.imp ?_)).symm
      rintro a q ⟨-, -, a3⟩
      simp only [Function.comp, a3]
    rw [e2]
    refine List.Nodup.map ?_ ?_
    · intro i j hij
      simp only [Prod.mk.injEq] at hij
      rw [← Nat.div_add_mod i (gridSize es.length), ← Nat.div_add_mod j (gridSize es.length),
        hij.1, hij.2]
    · have hsub : ((es.zipIdx.filter (fun p => (responseOf R p.1.tr.station).isSome)).map
          Prod.snd).Sublist (es.zipIdx.map Prod.snd) := List.Sublist.map _ List.filter_sublist
      refine hsub.nodup ?_
      rw [List.zipIdx_map_snd]
      exact List.nodup_range' 
  · intro p hpp
    obtain ⟨q, hq, -, -, e⟩ := mem_right hp hpp
    have hlt := hmem q hq
    have hsq := gridSize_sq es.length
    have hpos : 0 < gridSize es.length := by
      rcases Nat.eq_zero_or_pos (gridSize es.length) with h0 | h0
      · rw [h0] at hsq; omega
      · exact h0
    rw [e]
    exact ⟨Nat.div_lt_of_lt_mul (by omega), Nat.mod_lt _ hpos⟩

/-! ## Contents of the panels -/

/-- **C107**: each panel shows a whole trace and the model for it on one time axis: the sample `k` of
the trace is drawn at its time after the S-onset plus `distance / v0`, and the model at this time is
`G R W exp(-b t)` with the (smoothed) Green's function, never less than `1e-30`; the label shows the
distance in kilometres without decimals. -/
theorem C107_whole_trace {es : List FitTrace} {W : Dict String ℝ} {R : Dict String (Option ℝ)}
    {info : Info} {xlim ylim : Option (ℝ × ℝ)} {fig : FitsPlot}
    (h : plotFits G cfg es g0 (some b) W R info xlim ylim = .ok fig) {p : FitPanel}
    (hp : p ∈ fig.panels) :
    ∃ e ∈ es, ∃ (r w : ℝ) (t g : List ℝ), p.event = e.tr.event ∧ p.station = e.tr.station ∧
      Dict.get? R p.station = some (some r) ∧ Dict.get? W p.event = some w ∧
      t.length = e.tr.data.length ∧
      (∀ k < t.length, t[k]? = some (e.tr.start + k / e.tr.sr - e.tr.sonset +
        e.tr.distance / cfg.v0)) ∧
      gsmooth G cfg e.tr.distance t g0 = .ok g ∧
      (∀ (k : ℕ) (tk x : ℝ), t[k]? = some tk → e.tr.data[k]? = some x →
        p.observed[k]? = some (tk, x)) ∧
      (∀ (k : ℕ) (tk gk : ℝ), t[k]? = some tk → g[k]? = some gk →
        p.model[k]? = some (tk, max (gk * r * w * exp (-b * tk)) (1e-30))) ∧
      (0 ≤ e.tr.distance → (p.km : ℝ) ≤ e.tr.distance / 1000 ∧ e.tr.distance / 1000 < p.km + 1) := by
  obtain ⟨steps, h1, h2, -, -⟩ := plotFits_ok h
  rw [h2] at hp
  obtain ⟨s, hs, rfl⟩ := List.mem_map.1 hp
  obtain ⟨q, hq, r, hr, hst⟩ := mem_right (passes_shown h1) hs
  have hqe : q.1 ∈ es := by
    have := List.mem_map_of_mem (f := Prod.fst) (List.mem_filter.1 hq).1
    rwa [List.zipIdx_map_fst] at this
  obtain ⟨g, w, tc, Ec, Gc, bulk, m1, m2, m3, m4, hg, hw, -, -, -, -, -, -, -, -, -, -, -, -, c1, c2, c3,
    -, c5, c6, -⟩ := fitStep_ok hst
  have hR : Dict.get? R q.1.tr.station = some (some r) := by
    unfold responseOf at hr
    cases hd : Dict.get? R q.1.tr.station with
    | none => rw [hd] at hr; simp at hr
    | some o => rw [hd] at hr; simp at hr; rw [hr]
  refine ⟨q.1, hqe, r, w, traceTimes q.1.tr cfg.v0, g, c1, c2, by rw [c2]; exact hR,
    by rw [c1]; exact hw, by simp [traceTimes, fitTimes], ?_, hg, ?_, ?_, ?_⟩
  · intro k hk
    have hk' : k < q.1.tr.data.length := by simpa [traceTimes, fitTimes] using hk
    simp only [traceTimes, fitTimes, List.getElem?_map, List.getElem?_range hk', Option.map_some,
      Option.some.injEq]
    ring
  · intro k tk x hk hx
    rw [c5, List.getElem?_zip_eq_some]
    exact ⟨hk, hx⟩
  · intro k tk gk hk hgk
    rw [c6, List.getElem?_zip_eq_some]
    refine ⟨hk, ?_⟩
    simp only [emod, List.getElem?_map, List.getElem?_zipWith, hk, hgk, Option.map_some,
      Option.some.injEq]
    simp only [Option.getD_some, modelled]
    congr 1
    ring
  · intro hd
    rw [c3, trunc, if_pos (by positivity)]
    exact ⟨Int.floor_le _, Int.lt_floor_add_one _⟩

/-- **C107**: the windows drawn in the figure are exactly the data of the inversion, and the values
drawn for the model are the predictions `G R W exp(-b t)` for them, for every list of pairs, with or
without bulk windows, and for all site responses and source energies handed to the figure. -/
theorem C107_data (hnd : (ps.map PairData.pair).Nodup) (hne : ∀ p ∈ ps, p.coda ≠ [])
    (hg : IsGreens G cfg g0 ps gs) {es : List FitTrace}
    (hes : es.map (fun e => e.tr.pair) = ps.map PairData.pair) {R W : Dict String ℝ}
    (hR : ∀ p ∈ ps, (Dict.get? R p.station).isSome) {info : Info}
    (hi : infoOf G cfg (bandOf cfg.bulk ps) g0 = .ok info) {xlim ylim : Option (ℝ × ℝ)}
    {fig : FitsPlot}
    (h : plotFits G cfg es g0 (some b) W (R.map (fun x => (x.1, some x.2))) info xlim ylim = .ok fig) :
    fig.panels.flatMap FitPanel.coda ++ fig.panels.flatMap FitPanel.bulk =
      (samplesOf cfg.bulk ps gs).map (fun s => (s.t, s.E)) ∧
    fig.panels.flatMap FitPanel.codaModel ++ fig.panels.flatMap FitPanel.bulkModel =
      (samplesOf cfg.bulk ps gs).map (fun s => (s.t, predicted (valueOf R) (valueOf W) b s)) := by
  rw [infoOf_eq hnd hne hg, Except.ok.injEq] at hi
  have hl := isGreens_len hg
  have hgl := hl.length_eq
  obtain ⟨steps, h1, h2, -, -⟩ := plotFits_ok h
  have hs := passes_shown h1
  have hlen : es.length = ps.length := by
    have := congrArg List.length hes
    simpa using this
  have hall : es.zipIdx.filter (fun p => (responseOf (R.map (fun x => (x.1, some x.2)))
      p.1.tr.station).isSome) = es.zipIdx := by
    rw [List.filter_eq_self]
    intro q hq
    have hq1 : q.1 ∈ es := by
      have := List.mem_map_of_mem (f := Prod.fst) hq
      rwa [List.zipIdx_map_fst] at this
    have : q.1.tr.pair ∈ ps.map PairData.pair := by
      rw [← hes]; exact List.mem_map.2 ⟨q.1, hq1, rfl⟩
    obtain ⟨p, hp, e⟩ := List.mem_map.1 this
    simp only [PairData.pair, Trace.pair, Prod.mk.injEq] at e
    have := hR p hp
    rw [e.2] at this
    unfold responseOf
    rw [get?_some_map]
    cases hd : Dict.get? R q.1.tr.station with
    | none => rw [hd] at this; simp at this
    | some v => rfl
  rw [hall] at hs
  have key : List.Forall₂ (fun (q : PairData × (List ℝ × ℝ)) (p : FitPanel) =>
      p.coda = List.zipWith (fun te _ => (te.1, te.2)) q.1.coda q.2.1 ∧
      p.bulk = (if cfg.bulk then [(q.1.bulkTime, q.1.bulkEnergy)] else []) ∧
      p.codaModel = List.zipWith (fun te g => (te.1, predicted (valueOf R) (valueOf W) b
        ⟨q.1.event, q.1.station, te.1, te.2, g, 1⟩)) q.1.coda q.2.1 ∧
      p.bulkModel = (if cfg.bulk then [(q.1.bulkTime, predicted (valueOf R) (valueOf W) b
        ⟨q.1.event, q.1.station, q.1.bulkTime, q.1.bulkEnergy, q.2.2, q.1.bulkWeight⟩)] else []))
      (ps.zip gs) fig.panels := by
    rw [h2, List.forall₂_map_right_iff, List.forall₂_iff_get]
    have hsl := hs.length_eq
    rw [List.length_zipIdx] at hsl
    refine ⟨by rw [List.length_zip]; omega, ?_⟩
    intro i i1 i2
    have hip : i < ps.length := by rw [List.length_zip] at i1; omega
    have hig : i < gs.length := by rw [List.length_zip] at i1; omega
    have hie : i < es.length := by omega
    have hgi := List.Forall₂.get hl hip hig
    obtain ⟨r, hr, hst⟩ := List.Forall₂.get hs (i := i) (by simpa using hie) i2
    simp only [List.get_eq_getElem, List.getElem_zipIdx, Nat.zero_add, List.getElem_zip] at hr hst hgi ⊢
    obtain ⟨g, w, tc, Ec, Gc, bulk, m1, m2, m3, m4, -, hw, k1, k2, k3, k4, -, -, -, -, -, -, -, -, -, -,
      -, -, -, -, c7, c8, c9, c10⟩ := fitStep_ok hst
    have hpair : es[i].tr.pair = ps[i].pair := by
      have := congrArg (fun l => l[i]?) hes
      simpa [hie, hip] using this
    simp only [Trace.pair, PairData.pair, Prod.mk.injEq] at hpair
    rw [← hi] at k1 k2 k3 k4
    simp only [List.getElem?_map, List.getElem?_eq_getElem hip, List.getElem?_eq_getElem hig,
      Option.map_some, Option.some.injEq] at k1 k2 k3
    have hrv : valueOf R ps[i].station = r := by
      unfold responseOf at hr
      rw [get?_some_map, hpair.2] at hr
      unfold valueOf
      cases hd : Dict.get? R ps[i].station with
      | none => rw [hd] at hr; simp at hr
      | some v => rw [hd] at hr; simp at hr; rw [hr]; rfl
    have hwv : valueOf W ps[i].event = w := by
      unfold valueOf
      rw [← hpair.1, hw]; rfl
    have hb : bulk = (if cfg.bulk then [(ps[i].bulkTime, ps[i].bulkEnergy)] else [],
        if cfg.bulk then [(ps[i].bulkTime, predicted (valueOf R) (valueOf W) b
          ⟨ps[i].event, ps[i].station, ps[i].bulkTime, ps[i].bulkEnergy, gs[i].2,
            ps[i].bulkWeight⟩)] else []) := by
      unfold fitBulk at k4
      cases hbk : cfg.bulk with
      | false =>
        rw [hbk] at k4
        simp only [Bool.false_eq_true, if_false, if_true, Except.ok.injEq] at k4
        rw [← k4]; rfl
      | true =>
        rw [hbk] at k4
        simp only [if_true] at k4
        rw [if_neg (by
          rw [List.map_eq_nil_iff]
          intro h0
          rw [h0] at hip
          simp at hip)] at k4
        obtain ⟨t, ht, k4⟩ := bind_ok.1 k4
        obtain ⟨E, hE, k4⟩ := bind_ok.1 k4
        obtain ⟨Gv, hGv, k4⟩ := bind_ok.1 k4
        rw [pyGet_ok] at ht hE hGv
        simp only [List.getElem?_map, List.getElem?_eq_getElem hip, List.getElem?_eq_getElem hig,
          Option.map_some, Option.some.injEq] at ht hE hGv
        simp only [pure, Except.pure, Except.ok.injEq] at k4
        rw [← k4, ← ht, ← hE, ← hGv]
        simp only [if_true, predicted, modelled, hrv, hwv, Option.getD_some]
        congr 3
        ring
    refine ⟨?_, ?_, ?_, ?_⟩
    · rw [c7, ← k1, ← k2]
      apply List.ext_getElem
      · simp [hgi]
      · intro j j1 j2; simp
    · rw [c9, hb]
    · rw [c8, ← k1, ← k3]
      apply List.ext_getElem
      · simp [emod, hgi]
      · intro j j1 j2
        simp only [emod, List.getElem_zip, List.getElem_zipWith, List.getElem_map, modelled,
          predicted, hrv, hwv, Prod.mk.injEq, true_and, Option.getD_some]
        ring
    · rw [c10, hb]
  have hbulk : ∀ (f : FitPanel → List (ℝ × ℝ)) (v : PairData × (List ℝ × ℝ) → ℝ × ℝ),
      List.Forall₂ (fun q p => (if cfg.bulk then [v q] else []) = f p) (ps.zip gs) fig.panels →
      fig.panels.flatMap f = if cfg.bulk then (ps.zip gs).map v else [] := by
    intro f v hf
    rw [← flatMap_eq hf]
    cases cfg.bulk with
    | false => simp
    | true => simp only [if_true]; rw [List.map_eq_flatMap]
  rw [map_samplesOf hl, map_samplesOf hl]
  constructor
  · congr 1
    · exact (flatMap_eq (key.imp fun q p hh => hh.1.symm)).symm
    · exact hbulk _ _ (key.imp fun q p hh => hh.2.1.symm)
  · congr 1
    · exact (flatMap_eq (key.imp fun q p hh => hh.2.2.1.symm)).symm
    · exact hbulk _ _ (key.imp fun q p hh => hh.2.2.2.symm)

/-! ## The fit of a result -/

variable {res : BandResult} {wls : List ℝ → List (List ℝ) → List ℝ → List ℝ × ℝ}
  {rank : List ℝ → List (List ℝ) → ℕ} {minimize : (ℝ → Py (WithTop ℝ)) → Py ℝ}

open Classical in
/-- **C107** (part): with free site responses the figure shows the reported fit: the drawn windows are
the data of the inversion, the drawn model are the predictions with the reported site responses,
source energies and attenuation, and the reported error is the root mean square of the vertical
distances between them in the logarithmic plot, with the weights and the number of degrees of freedom
of the inversion.  Missing: fixed site responses. -/
theorem C107_shows_reported_fit_partial (hwls : IsWls rank wls) (hG : OneValuePerTime G)
    (hin : GoodInput cfg ps) (hc : cfg.codaNorm = false) (hfs : cfg.fixSites = false)
    (hres : solveBand wls G minimize cfg (bandOf cfg.bulk ps) = .ok (some res))
    {R W : Dict String ℝ} (hR : res.R = some R) (hW : res.W = some W)
    (hgb : attenuation cfg res = (some g0, some b)) {es : List FitTrace}
    (hes : es.map (fun e => e.tr.pair) = ps.map PairData.pair) {info : Info}
    (hi : infoOf G cfg (bandOf cfg.bulk ps) g0 = .ok info) {xlim ylim : Option (ℝ × ℝ)}
    {fig : FitsPlot}
    (h : plotFits G cfg es g0 (some b) W (R.map (fun x => (x.1, some x.2))) info xlim ylim = .ok fig) :
    ∃ (gs : List (List ℝ × ℝ)) (rk : ℕ), IsGreens G cfg g0 ps gs ∧
      fig.panels.flatMap FitPanel.coda ++ fig.panels.flatMap FitPanel.bulk =
        (samplesOf cfg.bulk ps gs).map (fun s => (s.t, s.E)) ∧
      fig.panels.flatMap FitPanel.codaModel ++ fig.panels.flatMap FitPanel.bulkModel =
        (samplesOf cfg.bulk ps gs).map (fun s => (s.t, predicted (valueOf R) (valueOf W) b s)) ∧
      res.error = if cfg.fix = false ∧ outside cfg b g0 then ⊤ else
        ((sqrt (((samplesOf cfg.bulk ps gs).map (fun s =>
          s.w * (log s.E - log (predicted (valueOf R) (valueOf W) b s)) ^ 2)).sum /
            ((samplesOf cfg.bulk ps gs).length - rk)) : ℝ) : WithTop ℝ) := by
  obtain ⟨f, gs, h1, h2, h3, h4, h5, h6, h7, h8, h9⟩ := free_result hwls hG hin hc hfs hres
  rw [h1] at hgb
  simp only [Prod.mk.injEq, Option.some.injEq] at hgb
  obtain ⟨rfl, rfl⟩ := hgb
  rw [h2, Option.some.injEq] at hR
  rw [h3, Option.some.injEq] at hW
  subst hR hW
  have hst : ∀ p ∈ ps, (Dict.get? ((stations (bandOf cfg.bulk ps)).zip f.R) p.station).isSome := by
    intro p hp
    have hm : p.station ∈ stations (bandOf cfg.bulk ps) := mem_stations.2 ⟨p, hp, rfl⟩
    have := List.idxOf_lt_length_iff.2 hm
    rw [get?_zip _ _ _ h9.lenR, List.getElem?_eq_getElem (by rw [h9.lenR]; exact this)]
    rfl
  obtain ⟨d1, d2⟩ := C107_data hin.pairs h7 h6 hes hst hi h
  exact ⟨gs, _, h6, d1, d2, by rw [h4, h9.err]; rfl⟩

/-- **C107** (part): with fixed site responses the figure of a single event (each station once) uses the
reference site responses. -/
theorem C107_fixed_sites_partial (hnd : (ps.map PairData.station).Nodup) (hc : cfg.fixSites = true)
    (hG : OneValuePerTime G) {bf : ℝ} {f : Fit}
    (h : lstsq wls G cfg (bandOf cfg.bulk ps) g0 (some bf) true = .ok f) {p : PairData} (hp : p ∈ ps) :
    Dict.get? ((stations (bandOf cfg.bulk ps)).zip f.R) p.station =
      Dict.get? cfg.fixSitesParams p.station := by
  have hnd' : (ps.map PairData.pair).Nodup := by
    refine List.Nodup.of_map Prod.snd ?_
    rw [List.map_map]
    exact hnd
  obtain ⟨gs, Rfix, -, -, -, -, hRf, -, hfit⟩ := lstsq_ok hnd' hG (fun _ => hc) h
  have hfR : f.R = Rfix := by
    unfold fitOf at hfit
    simp only [decode, if_true] at hfit
    cases hfx : cfg.fix with
    | true =>
      rw [hfx] at hfit
      simp only [if_true] at hfit
      split at hfit
      · simp at hfit
      · simp only [Except.ok.injEq] at hfit; rw [← hfit]
    | false =>
      rw [hfx] at hfit
      simp only [Bool.false_eq_true, if_false, Except.ok.injEq] at hfit
      rw [← hfit]
  have hst : stations (bandOf cfg.bulk ps) = ps.map PairData.station := by
    unfold stations fromKeys
    have : (bandOf cfg.bulk ps).pairs.map Prod.snd = ps.map PairData.station := by
      simp [bandOf, PairData.pair, Function.comp_def]
    rw [this, List.Nodup.dedup (List.nodup_reverse.2 hnd), List.reverse_reverse]
  have hbl : ps.length ≤ (blockLengths (bandOf cfg.bulk ps)).length := by
    simp [blockLengths, bandOf]
  have htake : ((List.range (blockLengths (bandOf cfg.bulk ps)).length).map
      (blockPair (bandOf cfg.bulk ps))).take (stations (bandOf cfg.bulk ps)).length =
      ps.map PairData.pair := by
    apply List.ext_getElem
    · simp [hst, hbl]
    · intro i i1 i2
      have hi : i < ps.length := by simpa using i2
      simp only [List.getElem_take, List.getElem_map, List.getElem_range, blockPair, bandOf,
        List.length_map, Nat.mod_eq_of_lt hi, List.getD_eq_getElem?_getD, List.getElem?_map,
        List.getElem?_eq_getElem hi, Option.map_some, Option.getD_some]
  unfold siteRefsShort at hRf
  rw [if_pos hc, htake, mapExc_ok] at hRf
  rw [hfR, hst]
  have hl := hRf.length_eq
  rw [get?_zip _ _ _ (by simpa using hl.symm)]
  have hi := List.idxOf_lt_length_iff.2 (List.mem_map_of_mem (f := PairData.station) hp)
  have hi1 : (ps.map PairData.station).idxOf p.station < ps.length := by simpa using hi
  have hi2 : (ps.map PairData.station).idxOf p.station < Rfix.length := by
    rw [← hl]; simpa using hi
  have hg := List.Forall₂.get hRf (by simpa using hi) hi2
  simp only [List.get_eq_getElem, List.getElem_map] at hg
  have hsta : ps[(ps.map PairData.station).idxOf p.station].pair.2 = p.station := by
    have := List.getElem_idxOf hi
    rw [List.getElem_map] at this
    exact this
  rw [hsta] at hg
  rw [List.getElem?_eq_getElem hi2]
  unfold dictGet at hg
  split at hg
  · next v hv => simp only [Except.ok.injEq] at hg; rw [hv, hg]
  · simp at hg

/-! ## Limits -/

namespace FigBand

theorem foldl_max_ge (l : List ℝ) : ∀ x : ℝ, x ≤ l.foldl max x ∧ ∀ y ∈ l, y ≤ l.foldl max x := by
  induction l with
  | nil => intro x; simp
  | cons a l ih =>
    intro x
    rw [List.foldl_cons]
    obtain ⟨h1, h2⟩ := ih (max x a)
    refine ⟨(le_max_left x a).trans h1, ?_⟩
    intro y hy
    rcases List.mem_cons.1 hy with rfl | hy
    · exact (le_max_right x y).trans h1
    · exact h2 y hy

theorem foldl_min_le (l : List ℝ) : ∀ x : ℝ, l.foldl min x ≤ x ∧ ∀ y ∈ l, l.foldl min x ≤ y := by
  induction l with
  | nil => intro x; simp
  | cons a l ih =>
    intro x
    rw [List.foldl_cons]
    obtain ⟨h1, h2⟩ := ih (min x a)
    refine ⟨h1.trans (min_le_left x a), ?_⟩
    intro y hy
    rcases List.mem_cons.1 hy with rfl | hy
    · exact h1.trans (min_le_right x y)
    · exact h2 y hy

theorem maxOf_ge {l : List ℝ} {m : ℝ} (h : maxOf l = .ok m) : ∀ x ∈ l, x ≤ m := by
  cases l with
  | nil => simp
  | cons a l =>
    simp only [maxOf, Except.ok.injEq] at h
    subst h
    intro x hx
    rcases List.mem_cons.1 hx with rfl | hx
    · exact (foldl_max_ge l _).1
    · exact (foldl_max_ge l _).2 x hx

theorem minOf_le {l : List ℝ} {m : ℝ} (h : minOf l = .ok m) : ∀ x ∈ l, m ≤ x := by
  cases l with
  | nil => simp
  | cons a l =>
    simp only [minOf, Except.ok.injEq] at h
    subst h
    intro x hx
    rcases List.mem_cons.1 hx with rfl | hx
    · exact (foldl_min_le l _).1
    · exact (foldl_min_le l _).2 x hx

end FigBand

/-- **C107** (part): without options `xlim` and `ylim` the time axis starts at zero and reaches the end
of all traces, the energy axis reaches above all observed and modelled values, and below the model in
all coda windows.  Missing: observed energies in the coda windows. -/
theorem C107_limits_partial {es : List FitTrace} {W : Dict String ℝ} {R : Dict String (Option ℝ)}
    {info : Info} {fig : FitsPlot} (hsr : ∀ e ∈ es, 0 < e.tr.sr)
    (h : plotFits G cfg es g0 (some b) W R info none none = .ok fig) :
    fig.xlim.1 = 0 ∧ ∀ p ∈ fig.panels,
      (∀ q ∈ p.observed ++ p.model, q.1 ≤ fig.xlim.2 ∧ q.2 ≤ fig.ylim.2) ∧
      ∀ q ∈ p.codaModel, 0 ≤ q.2 → fig.ylim.1 ≤ q.2 := by
  obtain ⟨steps, h1, h2, hx, hy⟩ := plotFits_ok h
  unfold xLimits at hx
  unfold yLimits at hy
  obtain ⟨tm, htm, hx⟩ := bind_ok.1 hx
  obtain ⟨ya, hya, hy⟩ := bind_ok.1 hy
  obtain ⟨yc, hyc, hy⟩ := bind_ok.1 hy
  simp only [pure, Except.pure, Except.ok.injEq] at hx hy
  rw [← hx, ← hy, h2]
  refine ⟨rfl, ?_⟩
  intro p hp
  obtain ⟨s, hs, rfl⟩ := List.mem_map.1 hp
  obtain ⟨q, hq, r, hr, hst⟩ := mem_right (passes_shown h1) hs
  have hqe : q.1 ∈ es := by
    have := List.mem_map_of_mem (f := Prod.fst) (List.mem_filter.1 hq).1
    rwa [List.zipIdx_map_fst] at this
  obtain ⟨g, w, tc, Ec, Gc, bulk, m1, m2, m3, m4, hg, hw, -, -, -, -, k1, k2, k3, k4, k5, k6, k7, -,
    -, -, -, -, c5, c6, -, c8, -⟩ := fitStep_ok hst
  have t1 := maxOf_ge htm s.tmax (List.mem_map_of_mem hs)
  have t2 := maxOf_ge hyc s.ymax (List.mem_map_of_mem hs)
  have t3 := minOf_le hya s.ymin (List.mem_map_of_mem hs)
  have htime : ∀ t ∈ traceTimes q.1.tr cfg.v0, t ≤ tm := by
    intro t ht
    refine le_trans ?_ t1
    unfold traceTimes fitTimes at ht k5
    obtain ⟨i, hi, rfl⟩ := List.mem_map.1 ht
    have hi := List.mem_range.1 hi
    simp only [List.length_map, List.length_range, List.getElem?_map] at k5
    rw [List.getElem?_range (by omega)] at k5
    simp only [Option.map_some, Option.some.injEq] at k5
    rw [← k5]
    have : (i : ℝ) / q.1.tr.sr ≤ ((q.1.tr.data.length - 1 : ℕ) : ℝ) / q.1.tr.sr := by
      apply div_le_div_of_nonneg_right _ (hsr _ hqe).le
      exact_mod_cast (by omega : i ≤ q.1.tr.data.length - 1)
    linarith
  have hmpos : 0 ≤ yc := by
    refine le_trans ?_ t2
    rw [k6]
    refine le_trans ?_ (le_max_left _ _)
    cases hm : (emod r w ((some b).getD 0) g (traceTimes q.1.tr cfg.v0)).map
        (fun x => max x (1e-30)) with
    | nil => rw [hm] at k1; simp [maxOf] at k1
    | cons a l =>
      have h1 := maxOf_ge k1 a (by rw [hm]; exact List.mem_cons_self)
      have h2 : a ∈ (emod r w ((some b).getD 0) g (traceTimes q.1.tr cfg.v0)).map
        (fun x => max x (1e-30)) := by rw [hm]; exact List.mem_cons_self
      obtain ⟨x, -, rfl⟩ := List.mem_map.1 h2
      exact le_trans (le_trans (by norm_num) (le_max_right x (1e-30))) h1
  have hyt : ∀ y, y ≤ yc → y ≤ 1.5 * yc := by intro y hy; linarith
  refine ⟨?_, ?_⟩
  · intro z hz
    rcases List.mem_append.1 hz with hz | hz
    · rw [c5] at hz
      obtain ⟨a, c⟩ := List.of_mem_zip (a := z.1) (b := z.2) hz
      refine ⟨htime _ a, hyt _ ?_⟩
      refine le_trans ?_ t2
      rw [k6]
      exact (maxOf_ge k2 _ c).trans (le_max_right _ _)
    · rw [c6] at hz
      obtain ⟨a, c⟩ := List.of_mem_zip (a := z.1) (b := z.2) hz
      refine ⟨htime _ a, hyt _ ?_⟩
      refine le_trans ?_ t2
      rw [k6]
      exact (maxOf_ge k1 _ c).trans (le_max_left _ _)
  · intro z hz h0
    rw [c8] at hz
    obtain ⟨-, c⟩ := List.of_mem_zip (a := z.1) (b := z.2) hz
    have h3 := minOf_le k3 _ c
    have : ya ≤ z.2 := t3.trans (by rw [k7]; exact (min_le_left _ _).trans h3)
    simp only
    rcases le_total 0 ya with h' | h' <;> linarith

/-- **C107**: the figure can be drawn for every result: if every station has a site response, every
event a source energy, no trace is empty and Green's function can be evaluated at the times of the
traces. -/
theorem C107_drawn (hnd : (ps.map PairData.pair).Nodup) (hne : ∀ p ∈ ps, p.coda ≠ []) (hps : ps ≠ [])
    (hg : IsGreens G cfg g0 ps gs) {es : List FitTrace}
    (hes : es.map (fun e => e.tr.pair) = ps.map PairData.pair) {R W : Dict String ℝ}
    (hR : ∀ p ∈ ps, (Dict.get? R p.station).isSome) (hW : ∀ p ∈ ps, (Dict.get? W p.event).isSome)
    (hd : ∀ e ∈ es, e.tr.data ≠ [] ∧
      ∃ g, gsmooth G cfg e.tr.distance (traceTimes e.tr cfg.v0) g0 = .ok g ∧ g ≠ [])
    {info : Info} (hi : infoOf G cfg (bandOf cfg.bulk ps) g0 = .ok info)
    (xlim ylim : Option (ℝ × ℝ)) :
    ∃ fig, plotFits G cfg es g0 (some b) W (R.map (fun x => (x.1, some x.2))) info xlim ylim =
      .ok fig := by
  rw [infoOf_eq hnd hne hg, Except.ok.injEq] at hi
  have hl := isGreens_len hg
  have hgl := hl.length_eq
  have hlen : es.length = ps.length := by
    have := congrArg List.length hes
    simpa using this
  have hmax : ∀ l : List ℝ, l ≠ [] → ∃ m, maxOf l = .ok m := by
    intro l hl; cases l with
    | nil => exact absurd rfl hl
    | cons a l => exact ⟨_, rfl⟩
  have hmin : ∀ l : List ℝ, l ≠ [] → ∃ m, minOf l = .ok m := by
    intro l hl; cases l with
    | nil => exact absurd rfl hl
    | cons a l => exact ⟨_, rfl⟩
  have hstep : ∀ i (hie : i < es.length), ∃ s, fitPass G cfg g0 b W
      (R.map (fun x => (x.1, some x.2))) info es.length (es[i], i) = .ok (some s) := by
    intro i hie
    have hip : i < ps.length := by omega
    have hig : i < gs.length := by omega
    have hgi := List.Forall₂.get hl hip hig
    simp only [List.get_eq_getElem] at hgi
    have hpair : es[i].tr.pair = ps[i].pair := by
      have := congrArg (fun l => l[i]?) hes
      simpa [hie, hip] using this
    simp only [Trace.pair, PairData.pair, Prod.mk.injEq] at hpair
    obtain ⟨r, hr⟩ := Option.isSome_iff_exists.1 (hR ps[i] (List.getElem_mem hip))
    obtain ⟨w, hw⟩ := Option.isSome_iff_exists.1 (hW ps[i] (List.getElem_mem hip))
    rw [← hpair.2] at hr
    rw [← hpair.1] at hw
    obtain ⟨hdn, g, hgg, hgn⟩ := hd es[i] (List.getElem_mem hie)
    have hcn := hne ps[i] (List.getElem_mem hip)
    have htn : traceTimes es[i].tr cfg.v0 ≠ [] := by
      intro h0
      have := congrArg List.length h0
      simp [traceTimes, fitTimes] at this
      exact hdn this
    have hzn : ∀ {u v : List ℝ}, u ≠ [] → v ≠ [] → emod r w b u v ≠ [] := by
      intro u v hu hv
      cases u with
      | nil => exact absurd rfl hu
      | cons a u => cases v with
        | nil => exact absurd rfl hv
        | cons c v => simp [emod]
    have hGn : gs[i].1 ≠ [] := by
      intro h0; rw [h0] at hgi; exact hcn (List.length_eq_zero_iff.1 hgi.symm)
    obtain ⟨m1, h1⟩ := hmax ((emod r w b g (traceTimes es[i].tr cfg.v0)).map (fun x => max x (1e-30)))
      (by rw [Ne, List.map_eq_nil_iff]; exact hzn hgn htn)
    obtain ⟨m2, h2⟩ := hmax es[i].tr.data hdn
    obtain ⟨m3, h3⟩ := hmin (emod r w b gs[i].1 (ps[i].coda.map Prod.fst))
      (hzn hGn (by rw [Ne, List.map_eq_nil_iff]; exact hcn))
    obtain ⟨m4, h4⟩ := hmax (ps[i].coda.map Prod.snd) (by rw [Ne, List.map_eq_nil_iff]; exact hcn)
    have hb : ∃ bulk, fitBulk r w b info i = .ok bulk := by
      unfold fitBulk
      rw [← hi]
      cases hbk : cfg.bulk with
      | false => exact ⟨_, rfl⟩
      | true =>
        simp only [if_true]
        rw [if_neg (by rw [List.map_eq_nil_iff]; exact hps)]
        exact ⟨_, bind_ok.2 ⟨ps[i].bulkTime, by rw [pyGet_ok]; simp [hip], bind_ok.2
          ⟨ps[i].bulkEnergy, by rw [pyGet_ok]; simp [hip], bind_ok.2
          ⟨gs[i].2, by rw [pyGet_ok]; simp [hig], rfl⟩⟩⟩⟩
    obtain ⟨bulk, hb⟩ := hb
    have hlast : ∃ tm, pyGet (traceTimes es[i].tr cfg.v0) ((traceTimes es[i].tr cfg.v0).length - 1) =
        .ok tm := by
      have hlp := List.length_pos_iff.2 htn
      exact ⟨_, pyGet_ok.2 (List.getElem?_eq_getElem (by omega))⟩
    obtain ⟨tm, htm⟩ := hlast
    refine ⟨_, bind_ok.2 ⟨some r, ?_, bind_ok.2 ⟨_, bind_ok.2 ⟨g, hgg, bind_ok.2 ⟨w, ?_, bind_ok.2
      ⟨ps[i].coda.map Prod.fst, ?_, bind_ok.2 ⟨ps[i].coda.map Prod.snd, ?_, bind_ok.2
      ⟨gs[i].1, ?_, bind_ok.2 ⟨bulk, hb, bind_ok.2 ⟨tm, htm, bind_ok.2 ⟨m1, h1, bind_ok.2 ⟨m2, h2,
      bind_ok.2 ⟨m3, h3, bind_ok.2 ⟨m4, h4, rfl⟩⟩⟩⟩⟩⟩⟩⟩⟩⟩⟩, rfl⟩⟩⟩
    · unfold dictGet
      rw [get?_some_map, hr]; rfl
    · unfold dictGet
      rw [hw]
    · rw [pyGet_ok, ← hi]; simp [hip]
    · rw [pyGet_ok, ← hi]; simp [hip]
    · rw [pyGet_ok, ← hi]; simp [hig]
  choose s hs using hstep
  obtain ⟨steps, hsteps⟩ : ∃ l : List (Option FitStep),
      l = (List.finRange es.length).map (fun i : Fin es.length => some (s i.1 i.2)) := ⟨_, rfl⟩
  have hm : mapExc (fitPass G cfg g0 b W (R.map (fun x => (x.1, some x.2))) info es.length)
      es.zipIdx = .ok steps := by
    rw [mapExc_ok, List.forall₂_iff_get, hsteps]
    refine ⟨by simp, ?_⟩
    intro i i1 i2
    simp only [List.get_eq_getElem, List.getElem_zipIdx, Nat.zero_add, List.getElem_map,
      List.getElem_finRange]
    exact hs i (by simpa using i1)
  have hfm : steps.filterMap id ≠ [] := by
    have h0 : 0 < es.length := by
      rw [hlen]; exact List.length_pos_iff.2 hps
    refine List.ne_nil_of_mem (a := s 0 h0) (List.mem_filterMap.2 ⟨some (s 0 h0), ?_, rfl⟩)
    rw [hsteps]
    exact List.mem_map.2 ⟨⟨0, h0⟩, List.mem_finRange _, rfl⟩
  have hx : ∃ xl, xLimits xlim (steps.filterMap id) = .ok xl := by
    unfold xLimits
    cases xlim with
    | some l => exact ⟨_, rfl⟩
    | none =>
      obtain ⟨m, hm⟩ := hmax ((steps.filterMap id).map FitStep.tmax)
        (by rw [Ne, List.map_eq_nil_iff]; exact hfm)
      exact ⟨_, bind_ok.2 ⟨m, hm, rfl⟩⟩
  have hy : ∃ yl, yLimits ylim (steps.filterMap id) = .ok yl := by
    unfold yLimits
    cases ylim with
    | some l => exact ⟨_, rfl⟩
    | none =>
      obtain ⟨m, hm⟩ := hmin ((steps.filterMap id).map FitStep.ymin)
        (by rw [Ne, List.map_eq_nil_iff]; exact hfm)
      obtain ⟨m', hm'⟩ := hmax ((steps.filterMap id).map FitStep.ymax)
        (by rw [Ne, List.map_eq_nil_iff]; exact hfm)
      exact ⟨_, bind_ok.2 ⟨m, hm, bind_ok.2 ⟨m', hm', rfl⟩⟩⟩
  obtain ⟨xl, hx⟩ := hx
  obtain ⟨yl, hy⟩ := hy
  exact ⟨_, bind_ok.2 ⟨_, hm, bind_ok.2 ⟨xl, hx, bind_ok.2 ⟨yl, hy, rfl⟩⟩⟩⟩

/-! ## Cases which meet the hypotheses, counterexamples -/

namespace FitsExample

open InvertExample

/-- Traces of the three pairs. -/
noncomputable def es1 : List FitTrace :=
  ps1.map (fun p => ⟨⟨p.event, p.station, 0, 1, [1, 2, 3], 0, 1, 2, 1, none⟩, [1, 1, 1]⟩)

theorem es1_pairs : es1.map (fun e => e.tr.pair) = ps1.map PairData.pair := by
  simp [es1, Trace.pair, PairData.pair, Function.comp_def]

theorem ps1_ne : ∀ p ∈ ps1, p.coda ≠ [] := by
  intro p hp
  simp only [ps1, List.mem_cons, List.not_mem_nil, or_false] at hp
  rcases hp with rfl | rfl | rfl <;> simp [pair1]

theorem es1_data (e : FitTrace) (he : e ∈ es1) : e.tr.data ≠ [] ∧
    ∃ g, gsmooth G1 cfg1 e.tr.distance (traceTimes e.tr cfg1.v0) 1 = .ok g ∧ g ≠ [] := by
  unfold es1 at he
  obtain ⟨p, hp, rfl⟩ := List.mem_map.1 he
  refine ⟨by simp, ?_⟩
  simp [gsmooth, smoothFunc, cfg1, G1, traceTimes, fitTimes]

/-- The figure of the result of the example. -/
theorem figure (minimize : (ℝ → Py (WithTop ℝ)) → Py ℝ) : ∃ res R W info fig,
    solveBand someWls G1 minimize cfg1 (bandOf cfg1.bulk ps1) = .ok (some res) ∧
    res.R = some R ∧ res.W = some W ∧ attenuation cfg1 res = (some 1, some 1) ∧
    infoOf G1 cfg1 (bandOf cfg1.bulk ps1) 1 = .ok info ∧
    plotFits G1 cfg1 es1 1 (some 1) W (R.map (fun x => (x.1, some x.2))) info none none = .ok fig := by
  obtain ⟨res, R, W, h, h1, -, h3, h4, h5, h6⟩ := example_result minimize
  have hi := infoOf_eq good1.pairs ps1_ne greens1
  obtain ⟨fig, hf⟩ := C107_drawn (b := 1) (R := R) (W := W) good1.pairs ps1_ne good1.some_pair greens1
    es1_pairs (fun p hp => by rw [h4 p hp]; rfl) (fun p hp => by rw [h6 p hp]; rfl) es1_data hi
    none none
  exact ⟨res, R, W, _, fig, h, h3, h5, h1, hi, hf⟩

/-- All theorems on the figure apply to the example. -/
example (minimize : (ℝ → Py (WithTop ℝ)) → Py ℝ) : ∃ fig : FitsPlot, fig.panels.length = 3 ∧
    fig.xlim.1 = 0 ∧ fig.panels.flatMap FitPanel.coda = ps1.flatMap PairData.coda := by
  obtain ⟨res, R, W, info, fig, h, hR, hW, hgb, hi, hf⟩ := figure minimize
  have h1 := (C107_panels hf).1
  have h2 := (C107_limits_partial (by
    intro e he
    unfold es1 at he
    obtain ⟨p, hp, rfl⟩ := List.mem_map.1 he
    norm_num) hf).1
  obtain ⟨gs, rk, hg, h3, h4, h5⟩ := C107_shows_reported_fit_partial someWls_spec one_value_G1 good1
    rfl rfl h hR hW hgb es1_pairs hi hf
  obtain ⟨res', R', W', h', -, -, h3', h4', -⟩ := example_result minimize
  rw [h, Except.ok.injEq, Option.some.injEq] at h'
  subst h'
  rw [hR, Option.some.injEq] at h3'
  subst h3'
  refine ⟨fig, ?_, h2, ?_⟩
  · have := congrArg List.length h1
    rw [List.length_map, List.length_map, List.filter_eq_self.2] at this
    · simpa [es1, ps1] using this
    · intro e he
      unfold es1 at he
      obtain ⟨p, hp, rfl⟩ := List.mem_map.1 he
      simp [responseOf, get?_some_map, h4' p hp]
  · have hl := isGreens_len hg
    have hb : cfg1.bulk = false := rfl
    rw [map_samplesOf hl, hb] at h3
    simp only [Bool.false_eq_true, if_false, List.append_nil] at h3
    rw [zip_flatMap_fst hl (fun _ te => (te.1, te.2))] at h3
    simp only [Prod.mk.eta, List.map_id'] at h3
    have hbulk : fig.panels.flatMap FitPanel.bulk = [] := by
      have := congrArg List.length h3
      rw [List.length_append] at this
      rw [List.flatMap_eq_nil_iff]
      intro p hp
      obtain ⟨steps, k1, k2, -, -⟩ := plotFits_ok hf
      rw [k2] at hp
      obtain ⟨s, hs, rfl⟩ := List.mem_map.1 hp
      obtain ⟨q, hq, r, hr, hst⟩ := mem_right (passes_shown k1) hs
      obtain ⟨g, w, tc, Ec, Gc, bulk, m1, m2, m3, m4, -, -, -, -, -, kb, -, -, -, -, -, -, -, -, -, -,
        -, -, -, -, -, -, c9, -⟩ := fitStep_ok hst
      rw [infoOf_eq good1.pairs ps1_ne greens1, Except.ok.injEq] at hi
      rw [← hi] at kb
      simp only [fitBulk, hb, Bool.false_eq_true, if_false, if_true, Except.ok.injEq] at kb
      rw [c9, ← kb]
    rwa [hbulk, List.append_nil] at h3

/-- Windows of a station with strong decay. -/
noncomputable def ps2 : List PairData :=
  [{ event := "e", station := "A", distance := 3, coda := [(1, 1), (2, 1 / 1000)] }]

noncomputable def es2 : List FitTrace := [⟨⟨"e", "A", 0, 1, [1, 1, 1 / 1000], 0, 1 / 2, 1, 3, none⟩, []⟩]

theorem info2 : infoOf G1 cfg1 (bandOf cfg1.bulk ps2) 1 =
    .ok ⟨[[1, 2]], [], [[1, 1 / 1000]], [], [[1, 1]], []⟩ := by
  have := infoOf_eq (G := G1) (cfg := cfg1) (g0 := 1) (ps := ps2) (gs := [([1, 1], 0)])
    (by simp [ps2]) (by simp [ps2]) (by simp [IsGreens, ps2, gsmooth, smoothFunc, cfg1, G1])
  rw [this]
  simp [ps2, cfg1]

/-- Two events at station A, the second event also at B. -/
noncomputable def ps3 : List PairData :=
  [{ event := "e1", station := "A", distance := 1, coda := [(1, 1)] },
   { event := "e2", station := "A", distance := 1, coda := [(1, 1)] },
   { event := "e2", station := "B", distance := 1, coda := [(1, 1)] }]

/-- Fixed attenuation and site responses: 1 at A, 4 at B. -/
noncomputable def cfg3 : Cfg :=
  { g0Bounds := some (1 / 2, 3 / 2), bBounds := some (1 / 10, 10), v0 := 3, optimize := false,
    fix := true, fixSites := true, fixSitesParams := [("A", 1), ("B", 4)] }

end FitsExample

open InvertExample FitsExample in
/-- **C107**, violated: an observed energy of a coda window below the energy axis. -/
theorem C107_lower_limit_counterexample : ∃ info fig,
    infoOf G1 cfg1 (bandOf cfg1.bulk ps2) 1 = .ok info ∧
    plotFits G1 cfg1 es2 1 (some 0) [("e", 1)] [("A", some 1)] info none none = .ok fig ∧
    ∃ p ∈ fig.panels, ∃ q ∈ p.coda, q ∈ p.observed ∧ 0 < q.2 ∧ q.2 < fig.ylim.1 := by
  obtain ⟨fig, hf⟩ := C107_drawn (G := G1) (cfg := cfg1) (g0 := 1) (b := 0) (ps := ps2)
    (gs := [([1, 1], 0)]) (es := es2) (R := [("A", 1)]) (W := [("e", 1)])
    (by simp [ps2]) (by simp [ps2]) (by simp [ps2])
    (by simp [IsGreens, ps2, gsmooth, smoothFunc, cfg1, G1])
    (by simp [ps2, es2, Trace.pair, PairData.pair])
    (by simp [ps2, Dict.get?_cons]) (by simp [ps2, Dict.get?_cons])
    (by simp [es2, gsmooth, smoothFunc, cfg1, G1, traceTimes, fitTimes]) info2 none none
  refine ⟨_, fig, info2, hf, ?_⟩
  have hp := (C107_panels hf).1
  obtain ⟨steps, h1, h2, -, hy⟩ := plotFits_ok hf
  unfold yLimits at hy
  obtain ⟨ya, hya, hy⟩ := bind_ok.1 hy
  obtain ⟨yc, hyc, hy⟩ := bind_ok.1 hy
  simp only [pure, Except.pure, Except.ok.injEq] at hy
  have hlen : (steps.filterMap id).length = 1 := by
    have := congrArg List.length hp
    rw [h2, List.length_map, List.length_map] at this
    rw [this]
    simp [es2, responseOf, Dict.get?_cons]
  obtain ⟨s, hss⟩ := List.length_eq_one_iff.1 hlen
  obtain ⟨q, hq, r, hr, hst⟩ := mem_right (passes_shown h1)
    (by rw [hss]; exact List.mem_singleton_self s)
  have hq1 : q = (es2[0], 0) := by
    have := (List.mem_filter.1 hq).1
    simpa [es2] using this
  subst hq1
  have hr1 : r = 1 := by
    simp [es2, responseOf, Dict.get?_cons] at hr
    exact hr.symm
  subst hr1
  obtain ⟨g, w, tc, Ec, Gc, bulk, m1, m2, m3, m4, -, hw, i1, i2, i3, -, -, -, k3, k4, -, -, k7, -,
    -, -, -, -, c5, -, c7, -, -⟩ := fitStep_ok hst
  have hw1 : w = 1 := by
    simp [es2, Dict.get?_cons] at hw
    exact hw.symm
  simp only [List.getElem?_cons_zero, Option.some.injEq] at i1 i2 i3
  subst hw1 i1 i2 i3
  simp [emod, modelled, minOf] at k3
  simp [maxOf] at k4
  rw [hss] at hya h2
  simp only [List.map_cons, List.map_nil, minOf, List.foldl_nil, Except.ok.injEq] at hya
  rw [h2]
  refine ⟨s.panel, by simp, (2, 1 / 1000), by rw [c7]; simp, ?_, by norm_num, ?_⟩
  · rw [c5]
    have hv : cfg1.v0 = 3 := rfl
    simp [es2, traceTimes, fitTimes, hv, List.range_succ]
  · rw [← hy, ← hya, k7, ← k3, ← k4]
    norm_num

open InvertExample FitsExample in
/-- **C107**, violated: the figure of several events with fixed site responses uses the response of
station A also for station B. -/
theorem C107_fixed_sites_counterexample (wls : List ℝ → List (List ℝ) → List ℝ → List ℝ × ℝ) :
    ∃ f, lstsq wls G1 cfg3 (bandOf cfg3.bulk ps3) 1 (some 1) true = .ok f ∧
    Dict.get? ((stations (bandOf cfg3.bulk ps3)).zip f.R) "B" = some 1 ∧
    Dict.get? cfg3.fixSitesParams "B" = some 4 := by
  have hs : stations (bandOf cfg3.bulk ps3) = ["A", "B"] := by
    simp [stations, ps3, bandOf, fromKeys, PairData.pair]
  have hR : siteRefsShort cfg3 (bandOf cfg3.bulk ps3) = .ok [1, 1] := by
    unfold siteRefsShort
    rw [hs]
    simp [cfg3, blockLengths, bandOf, ps3, blockPair, PairData.pair, List.range_succ, mapExc, dictGet,
      Dict.get?_cons, bind, Except.bind, pure, Except.pure]
  have hg : IsGreens G1 cfg3 1 ps3 [([1], 0), ([1], 0), ([1], 0)] := by
    simp [IsGreens, ps3, gsmooth, smoothFunc, cfg3, G1]
  have hrs : siteRefs cfg3 (bandOf cfg3.bulk ps3) = .ok [1, 1, 4] := by
    simp [siteRefs, perSample, cfg3, blockLengths, bandOf, ps3, blockPair, PairData.pair, mapExc,
      dictGet, Dict.get?_cons, bind, Except.bind, pure, Except.pure]
  have h := lstsq_eq (wls := wls) (G := G1) (cfg := cfg3) (g0 := 1) (ps := ps3)
    (by simp [ps3, PairData.pair]) (by simp [ps3]) hg
    (by intro s hs'; simp [samplesOf, ps3, cfg3] at hs'; rcases hs' with rfl | rfl | rfl <;> norm_num)
    hrs hR (bFix := some 1) (fixSites := true) (fun _ => rfl)
  simp only [fitOf, cfg3, Bool.false_eq_true, if_false, if_true] at h
  refine ⟨_, h, ?_, ?_⟩
  · simp only [decode, if_true]
    rw [hs]
    simp [Dict.get?_cons]
  · simp [cfg3, Dict.get?_cons]

open InvertExample FitsExample in
/-- A single event with fixed sites: station B gets its own response. -/
example (wls : List ℝ → List (List ℝ) → List ℝ → List ℝ × ℝ) :
    ∃ f, lstsq wls G1 cfg3 (bandOf cfg3.bulk (ps3.drop 1)) 1 (some 1) true = .ok f ∧
    Dict.get? ((stations (bandOf cfg3.bulk (ps3.drop 1))).zip f.R) "B" = some 4 := by
  have hs : stations (bandOf cfg3.bulk (ps3.drop 1)) = ["A", "B"] := by
    simp [stations, ps3, bandOf, fromKeys, PairData.pair]
  have hR : siteRefsShort cfg3 (bandOf cfg3.bulk (ps3.drop 1)) = .ok [1, 4] := by
    unfold siteRefsShort
    rw [hs]
    simp [cfg3, blockLengths, bandOf, ps3, blockPair, PairData.pair, List.range_succ, mapExc, dictGet,
      Dict.get?_cons, bind, Except.bind, pure, Except.pure]
  have hg : IsGreens G1 cfg3 1 (ps3.drop 1) [([1], 0), ([1], 0)] := by
    simp [IsGreens, ps3, gsmooth, smoothFunc, cfg3, G1]
  have hrs : siteRefs cfg3 (bandOf cfg3.bulk (ps3.drop 1)) = .ok [1, 4] := by
    simp [siteRefs, perSample, cfg3, blockLengths, bandOf, ps3, blockPair, PairData.pair, mapExc,
      dictGet, Dict.get?_cons, bind, Except.bind, pure, Except.pure]
  have h := lstsq_eq (wls := wls) (G := G1) (cfg := cfg3) (g0 := 1) (ps := ps3.drop 1)
    (by simp [ps3, PairData.pair]) (by simp [ps3]) hg
    (by intro s hs'; simp [samplesOf, ps3, cfg3] at hs'; rcases hs' with rfl | rfl <;> norm_num)
    hrs hR (bFix := some 1) (fixSites := true) (fun _ => rfl)
  simp only [fitOf, cfg3, Bool.false_eq_true, if_false, if_true] at h
  refine ⟨_, h, ?_⟩
  have := C107_fixed_sites_partial (cfg := cfg3) (by simp [ps3]) rfl one_value_G1 h
    (p := { event := "e2", station := "B", distance := 1, coda := [(1, 1)] }) (by simp [ps3])
  rw [this]
  simp [cfg3, Dict.get?_cons]

end Qopen
