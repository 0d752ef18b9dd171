import Verif.Props.SourceExact
import Verif.Props.SourceTotal
import Verif.Props.TruthChain

/-!
# From exact envelopes to magnitudes (C130)
-/

namespace Qopen

open Real Spec Source Site

variable {orc : Oracle} {rlm : List ℝ → ℝ × ℝ}
  {solve : Bool → ℕ → List (List ℝ) → List ℝ → List ℝ} {results out : Results}
  {sel : StationSel} {response : Response} {us : Bool} {smm : Option Method}
  {smo : Option Opts} {ignore : Option (List String)} {R : ℕ → String → ℝ}

namespace Site

/-- After the alignment each source energy belongs to an event with a site response. -/
theorem energy_has_response (hp : ProperResults results.events)
    (h : align orc rlm solve results sel response us smm smo ignore = .ok out)
    {e : String × EvRes} (he : e ∈ resultsOf out.events) {i : ℕ} (hi : i < e.2.W.length) {w : ℝ}
    (hw : energyOf e.2 i = some w) : ∃ s, (respOf e.2 s i).isSome := by
  obtain ⟨events', Nf, bands, hout, hW, hrow, hb, hrel, hband, -⟩ := align_ok (proper_rwf hp) h
  have hev : resultsOf out.events = events' := by rw [hout, resultsOf_map_some]
  rw [hev] at he
  obtain ⟨ev, m⟩ := evrel_left hrel (id := e.1) (ev' := e.2) he
  obtain ⟨k, e1, e2, hal⟩ := evrel_get hrel (sorted_WF hp.ids) m he
  have hlen : i < bands.length := by
    rw [hb, ← hW _ m]
    rw [← hal.frame.lenW]
    exact hi
  have hst := hal.band i _ (List.getElem?_eq_getElem hlen)
  rw [zero_add] at hst
  cases hw0 : energyOf ev i with
  | none => rw [(hst.noW hw0).1] at hw; simp at hw
  | some w0 =>
    by_contra hno
    rw [(hst.energy w0 hw0).2 hno] at hw
    simp at hw

end Site

theorem sourceEnergy_div {M fc n g f v rho k : ℝ} (hk : 0 < k) :
    sourceEnergy (omegaModel M fc n g f) f v rho / k =
      sourceEnergy (omegaModel (M / sqrt k) fc n g f) f v rho := by
  have h : sqrt k ^ 2 = k := sq_sqrt hk.le
  have h0 : sqrt k ≠ 0 := (sqrt_pos.2 hk).ne'
  have e : omegaModel (M / sqrt k) fc n g f ^ 2 = omegaModel M fc n g f ^ 2 / k := by
    unfold omegaModel
    rw [div_right_comm, div_pow, h]
  unfold sourceEnergy
  rw [e]
  ring

open Classical in
/-- **C130** (partial: needs a search which finds the smallest misfit and enough frequencies, see C129): the
alignment of exact results of sources with spectra of the model.  If the requested response is `k` times
the geometric mean of the true responses of the named stations, every event gets its true corner
frequency, fall-off and sharpness, and its true moment divided by the root of `k`; for the right
reference (`k = 1`) the true moment and magnitude. -/
theorem C130_alignment_partial (hs : IsGlobalSearch orc) (h1 : IsExact orc.ols) (h2 : IsExact orc.rlm)
    (hp : ProperResults results.events)
    (h : align orc rlm solve results sel response us smm smo ignore = .ok out)
    (hsol : ∀ b, IsLsqSolver (solve b)) (hR : ∀ i s, 0 < R i s)
    {M fc n g v : String → ℝ} {rho k : ℝ} (hM : ∀ id, 0 < M id) (hc : ∀ id, 0 < fc id)
    (hn : ∀ id, 0 < n id) (hg : ∀ id, 0 < g id) (hv : ∀ id, 0 < v id) (hr : 0 < rho) (hk : 0 < k)
    (hf : ∀ f ∈ results.freq, 0 < f)
    (hlen : ∀ e ∈ resultsOf results.events, e.2.W.length = results.freq.length)
    (hx : ∀ (i : ℕ) f, results.freq[i]? = some f → RightProducts (resultsOf results.events) i (R i)
      (fun id => sourceEnergy (omegaModel (M id) (fc id) (n id) (g id) f) f (v id) rho))
    (hsub : ∀ nm, sel = .name nm → ∀ i, ∀ s ∈ stationsWith (resultsOf out.events) i, s ≠ nm →
      ¬ IsSubstring s nm)
    (hgeo : ∀ i, (stationsWith (resultsOf out.events) i).Nonempty → requested response i = some
      (k * (∏ s ∈ (stationsWith (resultsOf out.events) i).filter (IsNamed sel), R i s) ^
        (1 / (((stationsWith (resultsOf out.events) i).filter (IsNamed sel)).card : ℝ))))
    (hrho : results.config.rho0 = some rho)
    (hvel : ∀ e ∈ resultsOf results.events, pyOr (EvRes.v0 e.2) results.config.v0 = some (v e.1))
    {m : Method} (hm : isFit m) {o : Opts} (hsmm : smm.or results.config.smm = some m)
    (hsmo : smo.or results.config.smo = some o) :
    ∀ e ∈ resultsOf out.events, Different (needed o) (points results.freq e.2.W) →
      GivenTrue o (fc e.1) (n e.1) (g e.1) →
      InLimits o (points results.freq e.2.W) (fc e.1) (n e.1) (g e.1) →
      (∀ j, o.numPoints = some j → j ≤ (points results.freq e.2.W).length) →
      TrueSource o (M e.1 / sqrt k) (fc e.1) (n e.1) (g e.1) e.2.extra := by
  intro e he hd hgiv hlim hnum
  -- the energies
  have hW0 : ∀ (i : ℕ) f, results.freq[i]? = some f → ∀ id,
      0 < sourceEnergy (omegaModel (M id) (fc id) (n id) (g id) f) f (v id) rho := by
    intro i f hfi id
    have hf0 := hf f (List.mem_of_getElem? hfi)
    have ho := omega_pos (n := n id) (g := g id) (hM id) (hc id) hf0
    have := hv id
    unfold sourceEnergy
    positivity
  have hproper := out_proper hp h
  obtain ⟨events', Nf, bands, hout, hWl, hrow, hb, hrel, hband, -⟩ := align_ok (proper_rwf hp) h
  have hev : resultsOf out.events = events' := by rw [hout, resultsOf_map_some]
  have he' := he
  rw [hev] at he'
  obtain ⟨ev, mev⟩ := evrel_left hrel (id := e.1) (ev' := e.2) he'
  obtain ⟨kk, -, -, hal⟩ := evrel_get hrel (sorted_WF hp.ids) mev he'
  have hl : e.2.W.length = results.freq.length := by
    rw [hal.frame.lenW]
    exact hlen _ (mem_sortedEvents.1 mev)
  have henergy : ∀ (i : ℕ) f w, results.freq[i]? = some f → energyOf e.2 i = some w →
      w = sourceEnergy (omegaModel (M e.1 / sqrt k) (fc e.1) (n e.1) (g e.1) f) f (v e.1) rho := by
    intro i f w hfi hw
    have hi : i < e.2.W.length := by
      rw [hl]; exact (List.getElem?_eq_some_iff.1 hfi).1
    obtain ⟨s, hs1⟩ := energy_has_response hp h he hi hw
    obtain ⟨x, hx1⟩ := Option.isSome_iff_exists.1 hs1
    have hdata : ∃ e ∈ resultsOf results.events, ∃ s, (respOf e.2 s i).isSome := by
      obtain ⟨g2, ev0, g1⟩ := event_before hp h he
      obtain ⟨x0, w0, r1, -, -⟩ := C01_product_preserved hp.ids hp.stations h g1 g2 hx1 hw
      exact ⟨(e.1, ev0), mem_resultsOf.2 (Dict.mem_of_get? g1), s, by rw [r1]; rfl⟩
    have hne : (stationsWith (resultsOf out.events) i).Nonempty :=
      ⟨s, mem_stationsWith.2 ⟨e, he, hs1⟩⟩
    have hgp : 0 < (∏ s ∈ (stationsWith (resultsOf out.events) i).filter (IsNamed sel), R i s) ^
        (1 / (((stationsWith (resultsOf out.events) i).filter (IsNamed sel)).card : ℝ)) :=
      rpow_pos_of_pos (Finset.prod_pos fun s _ => hR i s) _
    have hreq := hgeo i hne
    obtain ⟨r, q1, -, q2⟩ := C125_factor hp h hsol (hR i) (hW0 i f hfi) hdata (hx i f hfi)
      (fun nm hnm => hsub nm hnm i) (by
        intro r hr'
        rw [hreq] at hr'
        rw [← Option.some.inj hr']
        exact mul_pos hk hgp)
    rw [hreq] at q1
    rw [← Option.some.inj q1, mul_div_assoc, div_self hgp.ne', mul_one] at q2
    rw [(q2 e he).2 w hw, sourceEnergy_div hk]
  -- the source parameters
  unfold align at h
  obtain ⟨e1, a1, h⟩ := bind_ok.1 h
  obtain ⟨e2, a2, h⟩ := bind_ok.1 h
  obtain ⟨R', -, h⟩ := bind_ok.1 h
  simp only [pure, Except.pure, Except.ok.injEq] at h
  have hee : events' = e2 := by
    rw [← h] at hout
    have := congrArg resultsOf hout
    rw [resultsOf_map_some, resultsOf_map_some] at this
    exact this.symm
  subst hee
  have hx1 := alignEvents_extra a1
  have hc1 := calc_frame a2
  obtain ⟨ev1, m1⟩ := evrel_left hc1 (id := e.1) (ev' := e.2) he'
  have hwf1 : Dict.WF e1 := by
    unfold Dict.WF Dict.keys
    rw [evrel_keys hx1]
    exact sorted_WF hp.ids
  obtain ⟨_, -, -, c1, -⟩ := evrel_get hc1 hwf1 m1 he'
  obtain ⟨_, -, -, c3⟩ := evrel_get hx1 (sorted_WF hp.ids) mev m1
  have hv1 : EvRes.v0 ev1 = EvRes.v0 ev := by unfold EvRes.v0; rw [c3]
  have hwf2 : Dict.WF events' := by
    unfold Dict.WF Dict.keys
    rw [evrel_keys hc1]
    exact hwf1
  rw [c1] at hd hlim hnum hl
  obtain ⟨ev', u1, u2, u3⟩ := C129_recalculated_partial hs h1 h2 hm
    (div_pos (hM e.1) (sqrt_pos.2 hk)) (hc e.1) (hn e.1) (hg e.1) (hv e.1) hr hf a2
    (by simpa [pyOr] using hrho) hsmm hsmo e.1 ev1 (Dict.get?_of_mem hwf1 m1)
    (by rw [hv1]; exact hvel _ (mem_sortedEvents.1 mev)) (by
      rw [List.forall₂_iff_get]
      refine ⟨hl.symm, ?_⟩
      intro i i1 i2 x hx
      simp only [List.get_eq_getElem] at hx ⊢
      refine henergy i _ x (List.getElem?_eq_getElem i1) ?_
      unfold energyOf numAt
      rw [c1, List.getElem?_eq_getElem i2, hx]) hd hgiv hlim hnum
  rw [Dict.get?_of_mem hwf2 he'] at u1
  rw [Option.some.inj u1]
  exact u3

section Chain

open Util Tr Energy InvertFb Window Catalog Freqs Invert Wrapper Collect

open Classical in
/-- **C130** (partial as above): from the envelopes to the magnitudes.  The events are inverted
separately and the results are aligned.  If the energies in the windows of every event are those of
the true site responses, the true attenuation and sources with spectra of the model, and the
requested response is `k` times the geometric mean of the true responses of the named stations, then
every event in the result has its true source parameters, the moment divided by the root of `k`. -/
theorem C130_from_envelopes_partial {rank : List ℝ → List (List ℝ) → ℕ} {env : Env} {cfg : InvCfg}
    {cpus : ℕ} {schedule : List Event → List ℕ} {events : List Event} {bands : Dict ℝ (ℝ × ℝ)}
    {w : WrapRes} {g0 b : ℕ → ℝ} {mean : Mean}
    (hwls : IsWls rank env.wls) (hG : OneValuePerTime env.G)
    (hset : IsSetOrder env.setOrder) (hid : (events.map getEventid).Nodup)
    (hb : getFreqs cfg.freqs = .ok bands)
    (hj : ∀ evs, OwnCopies cfg bands cpus (schedule evs)) (hcn : cfg.codaNorm = none)
    (hcmd : cfg.cmd ≠ .source) (hR : ∀ i s, 0 < R i s)
    {M fc n g v : String → ℝ} {rho k : ℝ} (hM : ∀ id, 0 < M id) (hc : ∀ id, 0 < fc id)
    (hn : ∀ id, 0 < n id) (hg : ∀ id, 0 < g id) (hv : ∀ id, 0 < v id) (hr : 0 < rho) (hk : 0 < k)
    (hf : ∀ f ∈ bands.map Prod.fst, 0 < f)
    {W : ℕ → String → ℝ} (hW : ∀ i id, 0 < W i id)
    (hWs : ∀ (i : ℕ) f, (bands.map Prod.fst)[i]? = some f → ∀ id, W i id =
      sourceEnergy (omegaModel (M id) (fc id) (n id) (g id) f) f (v id) rho)
    (hx : ∀ ev ∈ events, ExactData env cfg bands [ev] R W g0 b)
    (hi : invertWrapper rlm (fun evs => invert env cfg cpus (schedule evs) evs) false false mean
      events = .ok (some w)) (hread : ReadAs w results)
    (hs : IsGlobalSearch orc) (h1 : IsExact orc.ols) (h2 : IsExact orc.rlm)
    (h : align orc rlm solve results sel response us smm smo ignore = .ok out)
    (hsol : ∀ b, IsLsqSolver (solve b))
    (hsub : ∀ nm, sel = .name nm → ∀ i, ∀ s ∈ stationsWith (resultsOf out.events) i, s ≠ nm →
      ¬ IsSubstring s nm)
    (hgeo : ∀ i, (stationsWith (resultsOf out.events) i).Nonempty → requested response i = some
      (k * (∏ s ∈ (stationsWith (resultsOf out.events) i).filter (IsNamed sel), R i s) ^
        (1 / (((stationsWith (resultsOf out.events) i).filter (IsNamed sel)).card : ℝ))))
    (hrho : results.config.rho0 = some rho)
    (hvel : ∀ e ∈ resultsOf results.events, pyOr (EvRes.v0 e.2) results.config.v0 = some (v e.1))
    {m : Method} (hm : isFit m) {o : Opts} (hsmm : smm.or results.config.smm = some m)
    (hsmo : smo.or results.config.smo = some o) :
    ∀ e ∈ resultsOf out.events, Different (needed o) (points results.freq e.2.W) →
      GivenTrue o (fc e.1) (n e.1) (g e.1) →
      InLimits o (points results.freq e.2.W) (fc e.1) (n e.1) (g e.1) →
      (∀ j, o.numPoints = some j → j ≤ (points results.freq e.2.W).length) →
      TrueSource o (M e.1 / sqrt k) (fc e.1) (n e.1) (g e.1) e.2.extra := by
  obtain ⟨hp, hprod⟩ := C125_separate hwls hG hset hid hb hj hcn hcmd hR hW hx hi hread
  have hfr : results.freq = bands.map Prod.fst := by
    rw [hread.freq]
    exact (wrapper_freq hid hb (fun evs => (hj evs).1) hi).1
  have hlen : ∀ e ∈ resultsOf results.events, e.2.W.length = results.freq.length := by
    obtain ⟨res', -, hread', hcomp, hfr', -⟩ := C125_readable hset hid hb (fun evs => (hj evs).1) hcn hcmd hi results.config
    rintro ⟨id, ev⟩ he
    have hwf := wrapper_ids hid hi
    have hm' := mem_resultsOf.1 he
    have hmk : id ∈ w.events.keys := by
      rw [← hread.ids]
      exact List.mem_map.2 ⟨_, hm', rfl⟩
    obtain ⟨⟨id', d⟩, hp', hpe⟩ := List.mem_map.1 hmk
    simp only at hpe
    subst hpe
    obtain ⟨ev1, a1, a2, -⟩ := hread.entries _ _ hp'
    obtain ⟨ev2, b1, b2, -⟩ := hread'.entries _ _ hp'
    rw [Dict.get?_of_mem hp.ids hm'] at a1
    obtain rfl := Option.some.inj (Option.some.inj a1)
    have := hcomp.energies (id', ev2) (mem_resultsOf.2 (Dict.mem_of_get? b1))
    rw [a2] at b2
    simp only [Option.some.injEq, RVal.row.injEq] at b2
    rw [hfr, List.length_map, ← this]
    rw [b2]
  refine C130_alignment_partial hs h1 h2 hp h hsol hR hM hc hn hg hv hr hk (by rw [hfr]; exact hf) hlen ?_ hsub
    hgeo hrho hvel hm hsmm hsmo
  intro i f hfi e he s x w' hxs hw'
  rw [hfr] at hfi
  rw [hprod i e he s x w' hxs hw', hWs i f hfi]

end Chain

/-! ## A case which meets the hypotheses -/

namespace MagnitudeExample

/-- True moments. -/
noncomputable def mom (id : String) : ℝ := if id = "x" then 100 else 50

/-- True responses. -/
noncomputable def site (s : String) : ℝ := if s = "A" then 2 else 3

/-- True source energies. -/
noncomputable def en (id : String) (f : ℝ) : ℝ :=
  sourceEnergy (omegaModel (mom id) 4 2 1 f) f 3000 2700

/-- Results of an event with its own reference. -/
noncomputable def evOf (id : String) (c : ℝ) : EvRes :=
  ⟨[.num (en id 2 / c), .num (en id 8 / c)],
   [("A", [.num (c * site "A"), .num (c * site "A")]), ("B", [.num (c * site "B"), .num (c * site "B")])], []⟩

/-- Two events with different references, two bands. -/
noncomputable def res : Results :=
  ⟨[("x", some (evOf "x" 5)), ("y", some (evOf "y" 7))], [2, 8], none,
   { rho0 := some 2700, v0 := some 3000 }⟩

theorem res_events : resultsOf res.events = [("x", evOf "x" 5), ("y", evOf "y" 7)] := rfl

theorem mem_res {e : String × EvRes} (he : e ∈ resultsOf res.events) :
    ∃ c, 0 < c ∧ e = (e.1, evOf e.1 c) ∧ (e.1 = "x" ∨ e.1 = "y") := by
  rw [res_events] at he
  simp only [List.mem_cons, List.not_mem_nil, or_false] at he
  rcases he with rfl | rfl
  · exact ⟨5, by norm_num, rfl, by simp⟩
  · exact ⟨7, by norm_num, rfl, by simp⟩

theorem mom_pos (id : String) : 0 < mom id := by unfold mom; split_ifs <;> norm_num

theorem site_pos (s : String) : 0 < site s := by unfold site; split_ifs <;> norm_num

theorem resp_iff {id s : String} {c : ℝ} {i : ℕ} {x : ℝ} :
    respOf (evOf id c) s i = some x ↔ (s = "A" ∨ s = "B") ∧ i < 2 ∧ x = c * site s := by
  unfold respOf evOf
  simp only [Dict.get?_cons]
  rcases i with _ | _ | i <;> split_ifs with h1 h2 <;> subst_vars <;>
    simp [numAt, Dict.get?, eq_comm] <;> tauto

theorem energy_iff {id : String} {c : ℝ} {i : ℕ} {x : ℝ} :
    energyOf (evOf id c) i = some x ↔ (i = 0 ∧ x = en id 2 / c) ∨ (i = 1 ∧ x = en id 8 / c) := by
  unfold energyOf evOf
  rcases i with _ | _ | i <;> simp [numAt, eq_comm]

theorem proper : ProperResults res.events := by
  refine ⟨by simp [res, Dict.WF, Dict.keys], ?_, ?_, ?_⟩
  · intro e he
    obtain ⟨c, -, h, -⟩ := mem_res he
    rw [h]
    simp [evOf, Dict.WF, Dict.keys]
  · intro e he s i x hx
    obtain ⟨c, hc, h, -⟩ := mem_res he
    rw [h] at hx
    rw [(resp_iff.1 hx).2.2]
    exact mul_pos hc (site_pos s)
  · intro e he s i hx
    obtain ⟨c, hc, h, -⟩ := mem_res he
    obtain ⟨x, hx⟩ := Option.isSome_iff_exists.1 hx
    rw [h] at hx ⊢
    obtain ⟨-, hi, -⟩ := resp_iff.1 hx
    rw [Option.isSome_iff_exists]
    rcases i with _ | _ | i
    · exact ⟨_, energy_iff.2 (Or.inl ⟨rfl, rfl⟩)⟩
    · exact ⟨_, energy_iff.2 (Or.inr ⟨rfl, rfl⟩)⟩
    · omega

theorem complete : CompleteResults res.events 2 := by
  refine ⟨by rw [res_events]; simp, proper.stations, ?_, ?_⟩
  · intro e he
    obtain ⟨c, -, h, -⟩ := mem_res he
    rw [h]; rfl
  · intro e he p hp
    obtain ⟨c, -, h, -⟩ := mem_res he
    rw [h] at hp
    simp only [evOf, List.mem_cons, List.not_mem_nil, or_false] at hp
    rcases hp with rfl | rfl <;> rfl

theorem data {i : ℕ} (hi : i < 2) {s : String} (hs : s = "A" ∨ s = "B") :
    ∃ e ∈ resultsOf res.events, (respOf e.2 s i).isSome :=
  ⟨("x", evOf "x" 5), by rw [res_events]; simp, Option.isSome_iff_exists.2 ⟨_, resp_iff.2 ⟨hs, hi, rfl⟩⟩⟩

theorem area_all {i : ℕ} (hi : i < 2) {area : Finset String}
    (h : LargestArea (resultsOf res.events) i (notIgnored none) area) {t : String}
    (ht : t = "A" ∨ t = "B") : t ∈ area := by
  obtain ⟨s, hs⟩ := h.nonempty
  obtain ⟨-, e, he, hr⟩ := h.data s hs
  have hsAB : s = "A" ∨ s = "B" := by
    obtain ⟨c, -, he', -⟩ := mem_res he
    obtain ⟨x, hx⟩ := Option.isSome_iff_exists.1 hr
    rw [he'] at hx
    exact (resp_iff.1 hx).1
  rw [h.linked s hs t]
  refine Relation.ReflTransGen.single ?_
  exact ⟨by simp [notIgnored], by simp [notIgnored], ("x", evOf "x" 5), by rw [res_events]; simp,
    Option.isSome_iff_exists.2 ⟨_, resp_iff.2 ⟨hsAB, hi, rfl⟩⟩,
    Option.isSome_iff_exists.2 ⟨_, resp_iff.2 ⟨ht, hi, rfl⟩⟩⟩

/-- The alignment is told that station `B` has a response of 12 instead of 3: the moments are half of
the true ones, the corner frequency is right. -/
example (rlm : List ℝ → ℝ × ℝ) (us : Bool) : ∃ orc : Oracle, IsGlobalSearch orc ∧ ∃ out ev,
    align orc rlm (fun _ => someSolver) res (.names ["B"]) (.scalar 12) us (some .fit) (some {}) none =
      .ok out ∧ out.events.get? "x" = some (some ev) ∧
      ev.extra.get? "M0" = some (.cell (.num 50)) ∧ ev.extra.get? "fc" = some (.cell (.num 4)) := by
  classical
  obtain ⟨orc, hs, ho, ho', -⟩ := exists_isGlobalSearch 4
  obtain ⟨out, h⟩ := C114_succeeds_with_source_model_partial (orc := orc) (rlm := rlm)
    (solve := fun _ => someSolver) (results := res) (sel := .names ["B"]) (response := .scalar 12) (us := us)
    (smm := some .fit) (smo := some {}) (ignore := none) hs.toIsSearch complete (fun _ _ => rfl)
    (fun i hi area ha => ⟨"B", area_all hi ha (Or.inr rfl), by simp [IsNamed]⟩)
    (fun i hi ⟨e, he, s, h⟩ => ⟨e, he, s, by simp [notIgnored], h⟩)
    (fun m hm => ⟨{}, rfl, ⟨fun h => by simp at hm; rw [← hm] at h; simp at h, by simp,
      fun _ _ _ => by simp [res]; norm_num, by simp, by simp⟩⟩)
    (fun e he => by
      obtain ⟨c, -, h, -⟩ := mem_res he
      rw [h]; simp [evOf, Dict.WF, Dict.keys]) (by simp [res]) (by simp [res])
  have hmx : ("x", evOf "x" 5) ∈ resultsOf res.events := by rw [res_events]; simp
  obtain ⟨g1, ev, g2⟩ := event_after proper h hmx
  refine ⟨orc, hs, out, ev, h, g2, ?_⟩
  have hm : ("x", ev) ∈ resultsOf out.events := mem_resultsOf.2 (Dict.mem_of_get? g2)
  have hkeep : ∀ i < 2, (energyOf ev i).isSome ∧ (respOf ev "B" i).isSome := by
    intro i hi
    obtain ⟨e0, he0, hd⟩ := data hi (s := "B") (Or.inr rfl)
    obtain ⟨area, ha, hk⟩ := C05_only_largest_area proper h (i := i) ⟨e0, he0, "B", hd⟩
    obtain ⟨k1, k2⟩ := hk "x" _ ev g1 g2
    have hB : (respOf ev "B" i).isSome := (k1 "B").2 ⟨area_all hi ha (Or.inr rfl),
      Option.isSome_iff_exists.2 ⟨_, resp_iff.2 ⟨Or.inr rfl, hi, rfl⟩⟩⟩
    refine ⟨?_, hB⟩
    by_contra hno
    rw [Option.not_isSome_iff_eq_none] at hno
    rw [(k2 (proper.energy _ hmx "B" i (Option.isSome_iff_exists.2
      ⟨_, resp_iff.2 ⟨Or.inr rfl, hi, rfl⟩⟩))).1 hno "B"] at hB
    simp at hB
  have hlen : ev.W.length = 2 := by
    obtain ⟨bands, hrel, -⟩ := out_rel (proper_rwf proper) h
    obtain ⟨_, -, -, hal⟩ := evrel_get hrel (sorted_WF proper.ids) (mem_sortedEvents.2 hmx) hm
    rw [hal.frame.lenW]; rfl
  obtain ⟨w0, w1, hW⟩ : ∃ w0 w1, ev.W = [.num w0, .num w1] := by
    obtain ⟨a0, ha0⟩ := Option.isSome_iff_exists.1 (hkeep 0 (by norm_num)).1
    obtain ⟨a1, ha1⟩ := Option.isSome_iff_exists.1 (hkeep 1 (by norm_num)).1
    match hWW : ev.W, hlen with
    | [c0, c1], _ =>
      unfold energyOf numAt at ha0 ha1
      rw [hWW] at ha0 ha1
      cases c0 <;> simp at ha0
      cases c1 <;> simp at ha1
      exact ⟨_, _, rfl⟩
  have hpts : points res.freq ev.W = [(2, w0), (8, w1)] := by rw [hW]; rfl
  have key := C130_alignment_partial (k := 4) (R := fun _ => site) (M := mom) (fc := fun _ => 4)
    (n := fun _ => 2) (g := fun _ => 1) (v := fun _ => 3000) (rho := 2700) (m := .fit) (o := {}) hs
    (ols_exact ho) (ols_exact ho') proper h (fun _ => someSolver_spec) (fun _ => site_pos) mom_pos
    (by simp) (by simp) (by simp) (by norm_num) (by norm_num) (by norm_num) (by simp [res])
    complete.energies ?_ (by intro nm h; simp at h) ?_ rfl ?_ (Or.inl rfl) rfl rfl ("x", ev) hm ?_ ?_ ?_
    (by simp)
  · obtain ⟨q1, -, -, q2, -⟩ := key
    refine ⟨?_, q2 rfl⟩
    rw [q1]
    simp only [mom, if_true]
    have : sqrt 4 = 2 := by rw [show (4 : ℝ) = 2 ^ 2 by norm_num, sqrt_sq (by norm_num)]
    rw [this]
    norm_num
  · intro i f hf e he s x w hx hw
    obtain ⟨c, hc, he', -⟩ := mem_res he
    rw [he'] at hx hw
    obtain ⟨-, -, rfl⟩ := resp_iff.1 hx
    rcases energy_iff.1 hw with ⟨rfl, rfl⟩ | ⟨rfl, rfl⟩
    · simp [res] at hf
      subst hf
      unfold en
      field_simp
    · simp [res] at hf
      subst hf
      unfold en
      field_simp
  · intro i hne
    have hi : i < 2 := by
      obtain ⟨s, hs'⟩ := hne
      obtain ⟨e, he, hsome⟩ := mem_stationsWith.1 hs'
      obtain ⟨a1, ev0, a2⟩ := event_before proper h he
      by_contra hi
      obtain ⟨bands, hrel, hbl, -⟩ := out_rel (proper_rwf proper) h
      obtain ⟨ev1, m1⟩ := evrel_left hrel (id := e.1) (ev' := e.2) he
      obtain ⟨_, -, -, hal⟩ := evrel_get hrel (sorted_WF proper.ids) m1 he
      have m1' := mem_sortedEvents.1 m1
      have hb2 : bands.length = 2 := by rw [← hbl _ m1]; exact complete.energies _ m1'
      rw [(hal.other i (Or.inr (by omega))).2] at hsome
      obtain ⟨x, hx⟩ := Option.isSome_iff_exists.1 hsome
      obtain ⟨c, -, he', -⟩ := mem_res m1'
      simp only [Prod.mk.injEq, true_and] at he'
      rw [he'] at hx
      exact hi (resp_iff.1 hx).2.1
    have hB : (stationsWith (resultsOf out.events) i).filter (IsNamed (.names ["B"])) = {"B"} := by
      rw [Finset.eq_singleton_iff_unique_mem]
      refine ⟨Finset.mem_filter.2 ⟨mem_stationsWith.2 ⟨_, hm, (hkeep i hi).2⟩, by simp [IsNamed]⟩, ?_⟩
      intro t ht
      simpa [IsNamed] using (Finset.mem_filter.1 ht).2
    rw [hB]
    simp [requested, site]
    norm_num
  · intro e he
    obtain ⟨c, -, he', -⟩ := mem_res he
    rw [he']
    simp [EvRes.v0, evOf, Dict.get?, pyOr, res]
  · rw [hpts]
    exact ⟨[2, 8], rfl, by simp; norm_num, by simp⟩
  · exact ⟨by simp, by simp, by simp⟩
  · rw [hpts]
    refine ⟨by simp, ?_, by simp, by simp⟩
    intro _ _ p q hp hq
    simp at hp hq
    subst hp hq
    constructor <;> norm_num

end MagnitudeExample

end Qopen
