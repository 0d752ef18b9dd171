import Verif.Props.Again

/-!
# The command `source` repeats the inversion of all bands (C126)
-/

namespace Qopen

open Real Spec Util Tr Energy InvertFb Window Catalog Freqs Source Invert Wrapper

variable {wls : List ℝ → List (List ℝ) → List ℝ → List ℝ × ℝ} {rank : List ℝ → List (List ℝ) → ℕ}
  {G : Greens} {minimize : (ℝ → Py (WithTop ℝ)) → Py ℝ} {lib : Lib} {w : WCfg} {inv : InvertFb.Cfg}
  {streams : List Stream} {env : Env} {cfg : InvCfg} {bands : Dict ℝ (ℝ × ℝ)} {events : List Event}

namespace Window

variable {v0 : ℝ} {st st' : WState} {tr : Trace}

theorem collect_any {bulk : Option Bulk} {cw : ℝ × ℝ} (h : collect w v0 st tr bulk cw = .ok st')
    (st2 : WState) : ∃ s, collect w v0 st2 tr bulk cw = .ok s := by
  unfold collect at h ⊢
  cases hs : getSlice tr cw with
  | none => exact ⟨_, rfl⟩
  | some esl =>
    rw [hs] at h
    cases bulk with
    | none => exact ⟨_, rfl⟩
    | some b =>
      simp only at h ⊢
      obtain ⟨u, hu, -⟩ := bind_ok.1 h
      simp only [hu]
      exact ⟨_, rfl⟩

theorem checkMaximum_any {bulk : Option Bulk} {cw : ℝ × ℝ}
    (h : checkMaximum lib w v0 st tr bulk cw = .ok st') (st2 : WState) :
    ∃ s, checkMaximum lib w v0 st2 tr bulk cw = .ok s := by
  unfold checkMaximum at h ⊢
  cases hs : w.skipMaximum with
  | none => rw [hs] at h; exact collect_any h st2
  | some x =>
    rw [hs] at h
    simp only at h ⊢
    obtain ⟨mw, h1, h⟩ := bind_ok.1 h
    obtain ⟨im, h2, h⟩ := bind_ok.1 h
    simp only [h1, h2, bind, Except.bind]
    split at h
    · rename_i hc
      rw [if_pos hc]
      exact collect_any h st2
    · rename_i hc
      rw [if_neg hc]
      exact ⟨_, rfl⟩

theorem cutCoda_any {bulk : Option Bulk} {cw : ℝ × ℝ}
    (h : cutCoda lib w v0 st tr bulk cw = .ok st') (st2 : WState) :
    ∃ s, cutCoda lib w v0 st2 tr bulk cw = .ok s := by
  unfold cutCoda at h ⊢
  cases hs : w.cutCoda with
  | none => rw [hs] at h; exact checkMaximum_any h st2
  | some c =>
    rw [hs] at h
    simp only at h ⊢
    cases hg : getSlice tr (seamWindow c cw) with
    | none => exact ⟨_, rfl⟩
    | some esl =>
      rw [hg] at h
      simp only at h ⊢
      split at h
      · rename_i hc
        rw [if_pos hc]
        exact ⟨_, rfl⟩
      · rename_i hc
        rw [if_neg hc]
        exact checkMaximum_any h st2

theorem codaPart_any {bulk : Option Bulk} (h : codaPart lib w v0 st tr bulk = .ok st')
    (st2 : WState) : ∃ s, codaPart lib w v0 st2 tr bulk = .ok s := by
  unfold codaPart at h ⊢
  obtain ⟨t, h1, h⟩ := bind_ok.1 h
  obtain ⟨cw, h2, h⟩ := bind_ok.1 h
  simp only [h1, h2, bind, Except.bind]
  split at h
  · rename_i hc
    rw [if_pos hc]
    exact ⟨_, rfl⟩
  · rename_i hc
    rw [if_neg hc]
    exact cutCoda_any h st2

/-- Whether a pass of the loop fails does not depend on the passes before. -/
theorem step_any (h : step lib w v0 st tr = .ok st') (st2 : WState) :
    ∃ s, step lib w v0 st2 tr = .ok s := by
  unfold step at h ⊢
  cases hb : w.bulkWindow with
  | none => rw [hb] at h; exact codaPart_any h _
  | some bw =>
    rw [hb] at h
    simp only at h ⊢
    obtain ⟨cw, h1, h⟩ := bind_ok.1 h
    simp only [h1, bind, Except.bind]
    cases hs : getSlice tr cw with
    | none => exact ⟨_, rfl⟩
    | some esl =>
      rw [hs] at h
      simp only at h ⊢
      split at h
      · simp at h
      rename_i h2
      rw [if_neg h2]
      split at h
      · simp at h
      rename_i h3
      rw [if_neg h3]
      exact codaPart_any h _

theorem foldlM_each {α β : Type} {f : β → α → Py β} {l : List α} {b b' : β}
    (h : l.foldlM f b = .ok b') : ∀ a ∈ l, ∃ c c', f c a = .ok c' := by
  induction l generalizing b with
  | nil => simp
  | cons x l ih =>
    rw [List.foldlM_cons] at h
    obtain ⟨c, h1, h⟩ := bind_ok.1 h
    intro a ha
    rcases List.mem_cons.1 ha with rfl | ha
    · exact ⟨b, c, h1⟩
    · exact ih h a ha

theorem windows_sub {trs trs' : List Trace} (h : windows lib w v0 trs = .ok st)
    (hs : ∀ tr ∈ trs', tr ∈ trs) : ∃ s, windows lib w v0 trs' = .ok s := by
  unfold windows at h ⊢
  apply foldlM_ok_of_all
  intro b a ha
  obtain ⟨c, c', hc⟩ := foldlM_each h a (hs a ha)
  exact step_any hc b

theorem mapExc_filterMap {α β : Type} {f g : α → Py (Option β)} {l : List α}
    {r : List (Option β)} (q : β → Bool)
    (hfg : ∀ a o, f a = .ok o → g a = .ok (o.filter q)) (h : mapExc f l = .ok r) :
    ∃ r', mapExc g l = .ok r' ∧ r'.filterMap id = (r.filterMap id).filter q := by
  have h2 := mapExc_ok.1 h
  clear h
  induction h2 with
  | nil => exact ⟨[], rfl, rfl⟩
  | @cons a o l r ha hl ih =>
    obtain ⟨r', h1, h2⟩ := ih
    refine ⟨o.filter q :: r', ?_, ?_⟩
    · rw [mapExc_ok] at h1 ⊢
      exact .cons (hfg a o ha) h1
    · cases o with
      | none => simpa using h2
      | some x =>
        by_cases hq : q x = true
        · simp [Option.filter, hq]; exact h2
        · simp [Option.filter, hq]; exact h2

open Classical in
/-- Energies of the stations with given site responses. -/
theorem energies_known {P : Dict String ℝ} {trs : List Trace} (hfs : w.fixSites = false)
    (h : energies lib w streams = .ok trs) :
    energies lib { w with fixSites := true, fixSitesParams := P } streams =
      .ok (trs.filter (fun tr => (P.get? tr.station).isSome)) := by
  unfold energies at h ⊢
  obtain ⟨e1, h1, h⟩ := bind_ok.1 h
  obtain ⟨e2, h2, h⟩ := bind_ok.1 h
  simp only [pure, Except.pure, Except.ok.injEq] at h
  subst h
  obtain ⟨e1', a1, a2⟩ := mapExc_filterMap
    (g := energyOf lib { w with fixSites := true, fixSitesParams := P })
    (fun tr : Trace => (P.get? tr.station).isSome) (by
      intro s o ho
      have ho' := ho
      unfold energyOf at ho ⊢
      split at ho
      · rename_i hc
        rw [if_pos hc, ← Except.ok.inj ho]
        rfl
      rename_i hc
      rw [if_neg hc]
      rw [hfs] at ho
      simp only [Bool.false_and, Bool.false_eq_true, if_false] at ho
      cases hp : P.get? s.station with
      | none =>
        simp only [hp, Option.isNone_none, Bool.and_self, if_true]
        cases o with
        | none => rfl
        | some tr =>
          have := energyOf_pair ho'
          simp only [Trace.pair, Prod.mk.injEq] at this
          simp [Option.filter, this.2, hp]
      | some x =>
        simp only [hp, Option.isNone_some, Bool.and_false, Bool.false_eq_true, if_false]
        refine Eq.trans ho ?_
        cases o with
        | none => rfl
        | some tr =>
          have := energyOf_pair ho'
          simp only [Trace.pair, Prod.mk.injEq] at this
          simp [Option.filter, this.2, hp]) h1
  simp only [a1, bind, Except.bind]
  rw [a2]
  have hn : noiseStep lib { w with fixSites := true, fixSitesParams := P } = noiseStep lib w := rfl
  rw [hn]
  have key : ∀ (l : List Trace) (r : List (Option Trace)), mapExc (noiseStep lib w) l = .ok r →
      ∃ r', mapExc (noiseStep lib w) (l.filter (fun tr => (P.get? tr.station).isSome)) = .ok r' ∧
        r'.filterMap id = (r.filterMap id).filter (fun tr => (P.get? tr.station).isSome) := by
    intro l r hr
    have hr2 := mapExc_ok.1 hr
    clear hr
    induction hr2 with
    | nil => exact ⟨[], rfl, rfl⟩
    | @cons a o l r ha hl ih =>
      obtain ⟨r', b1, b2⟩ := ih
      have hst : ∀ tr, o = some tr → tr.station = a.station := by
        rintro tr rfl
        have := noiseStep_pair ha
        simp only [Trace.pair, Prod.mk.injEq] at this
        exact this.2
      by_cases hq : (P.get? a.station).isSome = true
      · refine ⟨o :: r', ?_, ?_⟩
        · rw [List.filter_cons_of_pos (by simpa using hq)]
          rw [mapExc_ok] at b1 ⊢
          exact .cons ha b1
        · cases o with
          | none => simpa using b2
          | some tr => simp [hst tr rfl, hq]; exact b2
      · refine ⟨r', ?_, ?_⟩
        · rw [List.filter_cons_of_neg (by simpa using hq)]
          exact b1
        · cases o with
          | none => simpa using b2
          | some tr => simp [hst tr rfl, hq]; exact b2
  obtain ⟨r', b1, b2⟩ := key _ _ h2
  rw [b1]
  simp only [pure, Except.pure]
  rw [b2]

/-- One band with its own attenuation and site responses; the velocity is given. -/
theorem source_again {o : Option BandResult} {P : Dict String ℝ} {v0 : ℝ} (hwls : IsWls rank wls)
    (hG : OneValuePerTime G) (hnd : (streams.map (fun s => (s.event, s.station))).Nodup)
    (hc : w.codaNorm = none) (hfs : w.fixSites = false) (hfx : inv.fix = false)
    (hv : w.v0 = some v0)
    (hgood : ∀ v0 ps, AcceptedPairs lib w streams v0 ps → ps ≠ [] → GoodInput (fullCfg w inv v0) ps)
    (hP : ∀ sta, (∃ s ∈ streams, s.station = sta) →
      P.get? sta = (o.bind (·.R)).bind (fun d => d.get? sta))
    (hP' : ∀ sta, (¬ ∃ s ∈ streams, s.station = sta) → P.get? sta = none ∨
      P.get? sta = (o.bind (·.R)).bind (fun d => d.get? sta))
    (h : invertFb lib wls G minimize w inv streams = .ok o) :
    ∃ o', invertFb lib wls G minimize { w with fixSites := true, fixSitesParams := P }
        { inv with fix := true, fixParams := (o.bind (·.g0), o.bind (·.b)) } streams = .ok o' ∧
      Option.Rel (fun r r' => r'.W = r.W ∧ r'.nstations = r.nstations ∧ r'.v0 = r.v0 ∧
        r'.error ≠ ⊤) o o' := by
  classical
  have h00 := h
  unfold invertFb at h
  split at h
  · rename_i hs
    obtain rfl := Except.ok.inj h
    refine ⟨none, ?_, .none⟩
    unfold invertFb
    rw [if_pos hs]
  rename_i hs
  obtain ⟨trs, htrs, h⟩ := bind_ok.1 h
  have hvel : ∀ l, velocity w l = some v0 := by intro l; unfold velocity; rw [hv]
  have hvel' : ∀ l, velocity { w with fixSites := true, fixSitesParams := P } l = some v0 := by
    intro l; unfold velocity; simp only [hv]
  rw [hvel] at h
  simp only at h
  obtain ⟨st, hst, h⟩ := bind_ok.1 h
  have he := energies_known (P := P) hfs htrs
  set trs' := trs.filter (fun tr => (P.get? tr.station).isSome) with htrs'
  obtain ⟨st', hst'⟩ := windows_sub (trs' := trs') hst (fun tr h => (List.mem_filter.1 h).1)
  have hst'' : windows lib { w with fixSites := true, fixSitesParams := P } v0 trs' = .ok st' := hst'
  have hin : ∀ tr ∈ trs, ∃ s ∈ streams, s.station = tr.station := by
    intro tr htr
    have := (energies_pairs htrs).subset (List.mem_map.2 ⟨tr, htr, rfl⟩)
    obtain ⟨s, hs, e⟩ := List.mem_map.1 this
    exact ⟨s, hs, congrArg Prod.snd e⟩
  cases o with
  | none =>
    have hnil : trs' = [] := by
      rw [htrs', List.filter_eq_nil_iff]
      intro tr htr
      rw [hP _ (hin tr htr)]
      simp
    refine ⟨none, ?_, .none⟩
    unfold invertFb
    rw [if_neg hs, he, hnil]
    simp only [bind, Except.bind, hvel']
    simp [windows, pure, Except.pure]
  | some r =>
    obtain ⟨v0', ps, hacc, hne, hsys⟩ := invertFb_system hnd h00
    obtain ⟨trs2, sel, c1, c2, c3, c4, c5, rfl⟩ := hacc
    obtain rfl : trs = trs2 := by rw [htrs] at c1; exact Except.ok.inj c1
    obtain rfl : v0 = v0' := by rw [hvel] at c2; exact Option.some.inj c2
    have hacc : AcceptedPairs lib w streams v0 (sel.map Prod.snd) :=
      ⟨trs, sel, c1, c2, c3, c4, c5, rfl⟩
    have hg := hgood _ _ hacc hne
    have hcn : (fullCfg w inv v0).codaNorm = false := by simp [fullCfg, hc]
    rw [hsys] at h00
    obtain ⟨g, b, R, W, -, d1, d2, -, -, d5, -⟩ := C13_reported_values_are_best_fit hwls hG hg hcn hfs h00
    obtain ⟨g0, b0, R0, W0, r', e1, e2, e3, e4, e5, e6, e7⟩ :=
      C116_source (minimize' := minimize) hwls hG hg hcn hfs h00
    obtain rfl : R = R0 := by rw [d2] at e2; exact Option.some.inj e2
    have hknown : ∀ q ∈ sel, (P.get? q.1.station).isSome = true := by
      intro q hq
      have hm : q.1 ∈ trs := c3.subset (List.mem_map.2 ⟨q, hq, rfl⟩)
      rw [hP _ (hin _ hm)]
      simp only [Option.bind_some, d2]
      rw [Dict.get?_isSome]
      exact (d5 _).2 ⟨q.2, List.mem_map.2 ⟨q, hq, rfl⟩, (c4 q hq).2.1⟩
    have hacc' : AcceptedPairs lib { w with fixSites := true, fixSitesParams := P } streams v0
        (sel.map Prod.snd) := by
      refine ⟨trs', sel, he, hvel' _, ?_, c4, ?_, rfl⟩
      · have := c3.filter (fun tr => (P.get? tr.station).isSome)
        rwa [List.filter_eq_self.2] at this
        intro tr htr
        obtain ⟨q, hq, rfl⟩ := List.mem_map.1 htr
        exact hknown q hq
      · intro tr htr hn
        exact c5 tr (List.mem_filter.1 htr).1 hn
    have hnd1 : (trs.map Trace.pair).Nodup := hnd.sublist (energies_pairs htrs)
    have hnd2 : (trs'.map Trace.pair).Nodup := hnd.sublist (energies_pairs he)
    have hlen : st'.Ecoda.length = st.Ecoda.length := by
      obtain ⟨s1, p1, p2, p3, -, -, p6, -⟩ := C18_windows_belong_to_pairs hnd1 hst
      obtain ⟨s2, q1, q2, q3, -, -, q6, -⟩ := C18_windows_belong_to_pairs hnd2 hst''
      have m1 := (acceptedPairs_unique hnd hacc ⟨trs, s1, htrs, hvel _, p1, p2, p3, rfl⟩).2
      have m2 := (acceptedPairs_unique hnd hacc' ⟨trs', s2, he, hvel' _, q1, q2, q3, rfl⟩).2
      rw [p6, q6, ← m1, ← m2]
    have hcond : ¬ (st.Ecoda.length = 0 ∨ (st.Ecoda.length : ℝ) < w.numPairs) := by
      intro hcc
      rw [if_pos hcc] at h
      simp [pure, Except.pure] at h
    have hgb : (r.g0, r.b) = (some g0, some b0) := by
      unfold attenuation at e1
      rw [show (fullCfg w inv v0).fix = false from hfx] at e1
      simpa using e1
    simp only [Prod.mk.injEq] at hgb
    have hcase : ∃ ps2, AcceptedPairs lib { w with fixSites := true, fixSitesParams := P } streams v0
        ps2 ∧ invertFb lib wls G minimize { w with fixSites := true, fixSitesParams := P }
          { inv with fix := true, fixParams := (r.g0, r.b) } streams =
        solveBand wls G minimize (fullCfg { w with fixSites := true, fixSitesParams := P }
          { inv with fix := true, fixParams := (r.g0, r.b) } v0)
          (bandOf w.bulkWindow.isSome ps2) :=
      invertFb_accepted (cfg := { w with fixSites := true, fixSitesParams := P }) hnd he (hvel' _)
        hst'' (by rw [hlen]; exact hcond)
    obtain ⟨ps2, u1, u2⟩ := hcase
    rw [(acceptedPairs_unique hnd u1 hacc').2] at u2
    have hPR : ∀ s, P.get? s = R.get? s := by
      intro s
      by_cases hex : ∃ x ∈ streams, x.station = s
      · rw [hP s hex]; simp [d2]
      · rcases hP' s hex with e | e
        · rw [e, eq_comm, Dict.get?_eq_none]
          intro hk
          obtain ⟨p, hp, rfl⟩ := (d5 s).1 hk
          obtain ⟨q, hq, rfl⟩ := List.mem_map.1 hp
          have hm : q.1 ∈ trs := c3.subset (List.mem_map.2 ⟨q, hq, rfl⟩)
          rw [(c4 q hq).2.1] at hex
          exact hex (hin _ hm)
        · rw [e]; simp [d2]
    refine ⟨some r', ?_, .some ⟨by rw [e5, e3], e6, e7, ?_⟩⟩
    · simp only [Option.bind_some]
      rw [u2]
      have hcongr := solveBand_sites (wls := wls) (G := G) (minimize := minimize)
        (cfg := sourceOptions (fullCfg w inv v0) g0 b0 R) (P := P) hPR
        (bandOf w.bulkWindow.isSome (sel.map Prod.snd))
      have e4' : solveBand wls G minimize (sourceOptions (fullCfg w inv v0) g0 b0 R)
        (bandOf w.bulkWindow.isSome (sel.map Prod.snd)) = .ok (some r') := e4
      rw [← hcongr] at e4'
      rw [hgb.1, hgb.2]
      exact e4'
    · exact error_of_fixed (c := sourceOptions (fullCfg w inv v0) g0 b0 R) hcn rfl e4

end Window

/-- **C126** (partial: the velocity has to be given in the configuration, see
`C126_velocity_counterexample`): the command `source` with attenuation and site responses of an
inversion of the same data reports the same source energies (and source properties), velocities and
numbers of stations in all bands. -/
theorem C126_source_partial {cpus cpus' : ℕ} {schedule schedule' : List ℕ} {res : InvRes} {v0 : ℝ}
    (hwls : IsWls rank env.wls) (hG : OneValuePerTime env.G) (hset : IsSetOrder env.setOrder)
    (hb : getFreqs cfg.freqs = .ok bands) (hc : cfg.codaNorm = none) (hcmd : cfg.cmd = .go)
    (hj : OwnCopies cfg bands cpus schedule) (hj' : OwnCopies cfg bands cpus' schedule')
    (h0 : cfg.njobs ≠ some 0) (hv : cfg.wcfg.v0 = some v0)
    (hsta : ∀ streams stations, StreamsOf env cfg events streams →
      resultStations env cfg = .ok stations → ∀ s ∈ streams, s.station ∈ stations)
    (hpairs : ∀ streams, StreamsOf env cfg events streams →
      (streams.map (fun s => (s.event, s.station))).Nodup)
    (hx : ∀ i c ps, WindowsOf env cfg bands events i c ps → ps ≠ [] → GoodInput c ps)
    (h : invert env cfg cpus schedule events = .ok (some res)) :
    ∃ fp res', inputOf res = some fp ∧
      invert env (again cfg .source fp) cpus' schedule' events = .ok (some res') ∧
      res'.freq = res.freq ∧ res'.R = none ∧ res'.events = res.events ∧
      res'.nstations = res.nstations ∧ res'.v0 = res.v0 := by
  have key := invert_again (cmd := .source) (cpus' := cpus') (schedule' := schedule')
    (Q := fun r r' => r'.W = r.W ∧ r'.nstations = r.nstations ∧ r'.v0 = r.v0 ∧
      r'.error ≠ ⊤) hset (fun r r' hq => ⟨hq.1, hq.2.1, hq.2.2.1, hq.2.2.2, by simp⟩)
    hb hc hcmd (by simp) hj hj' h0 (by
      intro streams stations band o P i v hs hst hi ho hv' hP _
      obtain rfl : v = true := by simpa using hv'
      refine source_again (w := bandWCfg cfg { fix := false, sites := false } band)
        (inv := { cfg.inv with fix := false, fixParams := (none, none) }) (v0 := v0) hwls hG
        (hpairs _ hs) hc rfl rfl hv ?_ ?_ ?_ ho
      · intro v0 ps hacc hne
        exact hx i _ ps ⟨{ fix := false, sites := false }, streams, band, v0, by
          unfold bandArgs; rw [hcmd], hs, hi, hacc, rfl⟩ hne
      · rintro sta ⟨s, hm, rfl⟩
        rw [hP rfl, Invert.valuesOf, if_pos (hsta _ _ hs hst s hm)]
      · intro sta _
        rw [hP rfl, Invert.valuesOf]
        split
        · exact Or.inr rfl
        · exact Or.inl rfl) h
  obtain ⟨fp, res', a1, a2, a3, a4, a5, a6, -, -, -, a7⟩ := key
  exact ⟨fp, res', a1, a2, a3, a7 rfl, a4, a5, a6⟩

end Qopen
