import Verif.Props.AgainExample

/-!
# Pairs which are left out have no influence (C132)
-/

namespace Qopen

open Real Spec Util Tr Energy InvertFb Window

section

variable {lib : Lib} {wls : List ℝ → List (List ℝ) → List ℝ → List ℝ × ℝ} {G : Greens}
  {minimize : (ℝ → Py (WithTop ℝ)) → Py ℝ} {cfg : WCfg} {inv : InvertFb.Cfg} {v0 : ℝ}
  {streams : List Stream}

namespace Spec

/-- No energy is used for the pair of `s`: the sampling rate is too low, the site response is not
known, the energy cannot be calculated or the noise cannot be removed. -/
def NoEnergy (lib : Lib) (cfg : WCfg) (s : Stream) : Prop := energies lib cfg [s] = .ok []

/-- The pair of `s` is left out: there is no energy or the energy fails one of the checks
(`Accepts`). -/
def LeftOut (lib : Lib) (cfg : WCfg) (v0 : ℝ) (s : Stream) : Prop :=
  ∀ tr, energies lib cfg [s] = .ok [tr] → ∀ p, ¬ Accepts lib cfg v0 tr p

end Spec

namespace Rejected

/-- The energies are calculated for each stream on its own. -/
theorem energies_cons {s : Stream} {l : List Stream} {trs : List Trace} :
    energies lib cfg (s :: l) = .ok trs ↔
      ∃ a b, energies lib cfg [s] = .ok a ∧ energies lib cfg l = .ok b ∧ trs = a ++ b := by
  unfold energies
  cases h1 : Window.energyOf lib cfg s with
  | error e => simp [mapExc, h1, bind, Except.bind]
  | ok o =>
    cases h2 : mapExc (Window.energyOf lib cfg) l with
    | error e => simp [mapExc, h1, h2, bind, Except.bind]
    | ok os =>
      cases o with
      | none =>
        cases h3 : mapExc (noiseStep lib cfg) (os.filterMap id) <;>
          simp [mapExc, h1, h2, h3, bind, Except.bind, pure, Except.pure, eq_comm]
      | some t =>
        cases h4 : noiseStep lib cfg t with
        | error e => simp [mapExc, h1, h2, h4, bind, Except.bind, pure, Except.pure]
        | ok o' =>
          cases h3 : mapExc (noiseStep lib cfg) (os.filterMap id) with
          | error e =>
            have h3' : mapExc (noiseStep lib cfg) (os.filterMap (fun x => x)) = .error e := h3
            simp [mapExc, h1, h2, h3', h4, bind, Except.bind, pure, Except.pure]
          | ok os' =>
            have h3' : mapExc (noiseStep lib cfg) (os.filterMap (fun x => x)) = .ok os' := h3
            cases o' <;>
              simp [mapExc, h1, h2, h3', h4, bind, Except.bind, pure, Except.pure, eq_comm]

/-- One stream gives at most one energy. -/
theorem energies_one {s : Stream} {a : List Trace} (h : energies lib cfg [s] = .ok a) :
    a = [] ∨ ∃ tr, a = [tr] := by
  have := (energies_pairs h).length_le
  simp only [List.length_map, List.length_cons, List.length_nil] at this
  rcases Nat.le_one_iff_eq_zero_or_eq_one.1 this with h | h
  · exact Or.inl (List.length_eq_zero_iff.1 h)
  · exact Or.inr (List.length_eq_one_iff.1 h)

theorem energies_filter (keep : Stream → Bool) {trs : List Trace}
    (h : energies lib cfg streams = .ok trs) :
    ∃ trs', energies lib cfg (streams.filter keep) = .ok trs' ∧ trs'.Sublist trs ∧
      (∀ tr ∈ trs, tr ∉ trs' → ∃ s ∈ streams, keep s = false ∧ energies lib cfg [s] = .ok [tr]) ∧
      ((∀ s ∈ streams, keep s = false → NoEnergy lib cfg s) → trs' = trs) := by
  induction streams generalizing trs with
  | nil => exact ⟨trs, h, List.Sublist.refl _, fun tr h1 h2 => absurd h1 h2, fun _ => rfl⟩
  | cons s l ih =>
    obtain ⟨a, b, h1, h2, rfl⟩ := energies_cons.1 h
    obtain ⟨b', k1, k2, k3, k4⟩ := ih h2
    cases hs : keep s with
    | true =>
      refine ⟨a ++ b', ?_, List.Sublist.append (List.Sublist.refl _) k2, ?_, ?_⟩
      · rw [List.filter_cons, if_pos hs]
        exact energies_cons.2 ⟨a, b', h1, k1, rfl⟩
      · intro tr ht hn
        rw [List.mem_append, not_or] at hn
        obtain ⟨s', e1, e2, e3⟩ := k3 tr ((List.mem_append.1 ht).resolve_left hn.1) hn.2
        exact ⟨s', by simp [e1], e2, e3⟩
      · intro hall
        rw [k4 (fun s' hs' => hall s' (by simp [hs']))]
    | false =>
      refine ⟨b', ?_, k2.trans (List.sublist_append_right _ _), ?_, ?_⟩
      · rw [List.filter_cons, if_neg (by simp [hs])]
        exact k1
      · intro tr ht hn
        rcases List.mem_append.1 ht with ht | ht
        · rcases energies_one h1 with rfl | ⟨t, rfl⟩
          · simp at ht
          · obtain rfl := List.mem_singleton.1 ht
            exact ⟨s, by simp, hs, h1⟩
        · obtain ⟨s', e1, e2, e3⟩ := k3 tr ht hn
          exact ⟨s', by simp [e1], e2, e3⟩
      · intro hall
        rw [k4 (fun s' hs' => hall s' (by simp [hs']))]
        have := hall s (by simp) hs
        unfold NoEnergy at this
        rw [this] at h1
        rw [← Except.ok.inj h1]
        rfl

/-! ## The loop over the energies does not depend on the other pairs -/

theorem collect_any {st st1 : WState} {tr : Trace} {bulk : Option Bulk} {w : ℝ × ℝ}
    (h : collect cfg v0 st tr bulk w = .ok st1) (st0 : WState) :
    ∃ st2, collect cfg v0 st0 tr bulk w = .ok st2 := by
  unfold collect at h ⊢
  split
  · exact ⟨_, rfl⟩
  · rename_i esl hs
    rw [hs] at h
    cases bulk with
    | none => exact ⟨_, rfl⟩
    | some b =>
      obtain ⟨u, hu, h⟩ := bind_ok.1 h
      simp only [hu, bind, Except.bind]
      exact ⟨_, rfl⟩

theorem checkMaximum_any {st st1 : WState} {tr : Trace} {bulk : Option Bulk} {w : ℝ × ℝ}
    (h : checkMaximum lib cfg v0 st tr bulk w = .ok st1) (st0 : WState) :
    ∃ st2, checkMaximum lib cfg v0 st0 tr bulk w = .ok st2 := by
  unfold checkMaximum at h ⊢
  split
  · rename_i hs
    rw [hs] at h
    exact collect_any h st0
  · rename_i mw hs
    rw [hs] at h
    obtain ⟨m, hm, h⟩ := bind_ok.1 h
    obtain ⟨i, hi, h⟩ := bind_ok.1 h
    simp only [hm, hi, bind, Except.bind]
    split
    · rename_i hc
      simp only at h
      rw [if_pos hc] at h
      exact collect_any h st0
    · exact ⟨_, rfl⟩

theorem cutCoda_any {st st1 : WState} {tr : Trace} {bulk : Option Bulk} {w : ℝ × ℝ}
    (h : cutCoda lib cfg v0 st tr bulk w = .ok st1) (st0 : WState) :
    ∃ st2, cutCoda lib cfg v0 st0 tr bulk w = .ok st2 := by
  unfold cutCoda at h ⊢
  split
  · rename_i hs
    rw [hs] at h
    exact checkMaximum_any h st0
  · rename_i c hs
    rw [hs] at h
    simp only at h
    split
    · exact ⟨_, rfl⟩
    · rename_i esl he
      rw [he] at h
      simp only at h ⊢
      split
      · exact ⟨_, rfl⟩
      · rename_i hc
        rw [if_neg hc] at h
        exact checkMaximum_any h st0

theorem codaPart_any {st st1 : WState} {tr : Trace} {bulk : Option Bulk}
    (h : codaPart lib cfg v0 st tr bulk = .ok st1) (st0 : WState) :
    ∃ st2, codaPart lib cfg v0 st0 tr bulk = .ok st2 := by
  unfold codaPart at h ⊢
  obtain ⟨t, ht, h⟩ := bind_ok.1 h
  obtain ⟨w, hw, h⟩ := bind_ok.1 h
  simp only [ht, hw, bind, Except.bind]
  split
  · exact ⟨_, rfl⟩
  · rename_i hc
    rw [if_neg hc] at h
    exact cutCoda_any h st0

theorem step_any {st st1 : WState} {tr : Trace} (h : step lib cfg v0 st tr = .ok st1)
    (st0 : WState) : ∃ st2, step lib cfg v0 st0 tr = .ok st2 := by
  unfold step at h ⊢
  simp only at h ⊢
  split
  · rename_i hb
    rw [hb] at h
    exact codaPart_any h _
  · rename_i bw hb
    rw [hb] at h
    obtain ⟨w, hw, h⟩ := bind_ok.1 h
    simp only [hw, bind, Except.bind]
    split
    · exact ⟨_, rfl⟩
    · rename_i esl he
      rw [he] at h
      simp only at h
      split
      · rename_i hc
        rw [if_pos hc] at h
        simp at h
      rename_i hc
      rw [if_neg hc] at h
      split
      · rename_i hc
        rw [if_pos hc] at h
        simp at h
      rename_i hc
      rw [if_neg hc] at h
      exact codaPart_any h _

theorem loop_any {trs trs' : List Trace} (hs : trs'.Sublist trs) {st st1 : WState}
    (h : trs.foldlM (step lib cfg v0) st = .ok st1) (st0 : WState) :
    ∃ st2, trs'.foldlM (step lib cfg v0) st0 = .ok st2 := by
  induction hs generalizing st st0 with
  | slnil => exact ⟨st0, rfl⟩
  | cons a _ ih =>
    rw [List.foldlM_cons] at h
    obtain ⟨s1, _, h⟩ := bind_ok.1 h
    exact ih h st0
  | cons_cons a _ ih =>
    rw [List.foldlM_cons] at h
    obtain ⟨s1, h1, h⟩ := bind_ok.1 h
    obtain ⟨s2, h2⟩ := step_any h1 st0
    obtain ⟨s3, h3⟩ := ih h s2
    exact ⟨s3, by rw [List.foldlM_cons, h2]; exact h3⟩

theorem sublist_of_subset {α : Type} [DecidableEq α] {l l1 l2 : List α} (hnd : l.Nodup)
    (h1 : l1.Sublist l) (h2 : l2.Sublist l) (h : ∀ a ∈ l1, a ∈ l2) : l1.Sublist l2 := by
  have e : l.filter (fun a => decide (a ∈ l2)) = l2 := by
    symm
    have hs : l2.Sublist (l.filter (fun a => decide (a ∈ l2))) := by
      have := h2.filter (fun a => decide (a ∈ l2))
      rwa [List.filter_eq_self.2 (fun a ha => by simpa using ha)] at this
    refine hs.eq_of_length_le ?_
    apply List.Subperm.length_le
    apply List.subperm_of_subset (hnd.filter _)
    intro a ha
    rw [List.mem_filter] at ha
    simpa using ha.2
  have := h1.filter (fun a => decide (a ∈ l2))
  rwa [e, List.filter_eq_self.2 (fun a ha => by simpa using h a ha)] at this

open Classical in
/-- The outcome of a band in terms of the accepted pairs. -/
theorem invertFb_eq (hne : streams ≠ [])
    (hnd : (streams.map (fun s => (s.event, s.station))).Nodup)
    {trs : List Trace} {st : WState} (he : energies lib cfg streams = .ok trs)
    (hv : velocity cfg trs = some v0) (hw : windows lib cfg v0 trs = .ok st) :
    ∃ ps, AcceptedPairs lib cfg streams v0 ps ∧ invertFb lib wls G minimize cfg inv streams =
      if ps.length = 0 ∨ (ps.length : ℝ) < cfg.numPairs then .ok none
      else solveBand wls G minimize (fullCfg cfg inv v0) (bandOf cfg.bulkWindow.isSome ps) := by
  have hnd' : (trs.map Trace.pair).Nodup := hnd.sublist (energies_pairs he)
  obtain ⟨sel, b1, b2, b3, -, -, c3, -⟩ := C18_windows_belong_to_pairs hnd' hw
  have hacc : AcceptedPairs lib cfg streams v0 (sel.map Prod.snd) :=
    ⟨trs, sel, he, hv, b1, b2, b3, rfl⟩
  have hlen : st.Ecoda.length = (sel.map Prod.snd).length := by rw [c3]; simp [bandOf]
  by_cases hc : st.Ecoda.length = 0 ∨ (st.Ecoda.length : ℝ) < cfg.numPairs
  · refine ⟨_, hacc, ?_⟩
    rw [← hlen, if_pos hc]
    unfold invertFb
    rw [if_neg hne, he]
    simp only [bind, Except.bind, hv, hw]
    rw [if_pos hc]
    rfl
  · obtain ⟨ps, h1, h2⟩ := invertFb_accepted (wls := wls) (G := G) (minimize := minimize)
      (inv := inv) hnd he hv hw hc
    obtain rfl := (acceptedPairs_unique hnd h1 hacc).2
    refine ⟨_, h1, ?_⟩
    rw [h2, ← hlen, if_neg hc]

theorem filter_same (keep : Stream → Bool)
    (hnd : (streams.map (fun s => (s.event, s.station))).Nodup)
    {trs trs' : List Trace} (he : energies lib cfg streams = .ok trs)
    (he' : energies lib cfg (streams.filter keep) = .ok trs') (hsub : trs'.Sublist trs)
    (hv : velocity cfg trs = some v0) (hv' : velocity cfg trs' = some v0)
    (hout : ∀ tr ∈ trs, tr ∉ trs' → ∀ p, ¬ Accepts lib cfg v0 tr p) {r : Option BandResult}
    (h : invertFb lib wls G minimize cfg inv streams = .ok r) :
    invertFb lib wls G minimize cfg inv (streams.filter keep) = .ok r := by
  classical
  have hnd2 : ((streams.filter keep).map (fun s => (s.event, s.station))).Nodup :=
    hnd.sublist (List.filter_sublist.map _)
  by_cases hne : streams = []
  · subst hne
    exact h
  have hw : ∃ st, windows lib cfg v0 trs = .ok st := by
    unfold invertFb at h
    rw [if_neg hne, he] at h
    simp only [bind, Except.bind, hv] at h
    cases hst : windows lib cfg v0 trs with
    | error e => rw [hst] at h; simp at h
    | ok st => exact ⟨st, rfl⟩
  obtain ⟨st, hw⟩ := hw
  obtain ⟨ps, k1, k2⟩ := invertFb_eq (wls := wls) (G := G) (minimize := minimize) (inv := inv)
    hne hnd he hv hw
  have k1' := k1
  obtain ⟨trs2, sel, a1, a2, a3, a4, a5, rfl⟩ := k1
  obtain rfl : trs = trs2 := by rw [he] at a1; exact Except.ok.inj a1
  have hndt : trs.Nodup := (hnd.sublist (energies_pairs he)).of_map _
  have hin : ∀ tr ∈ sel.map Prod.fst, tr ∈ trs' := by
    intro tr ht
    by_contra hn
    obtain ⟨q, hq, rfl⟩ := List.mem_map.1 ht
    exact hout _ (a3.subset ht) hn _ (a4 q hq)
  have hacc : AcceptedPairs lib cfg (streams.filter keep) v0 (sel.map Prod.snd) :=
    ⟨trs', sel, he', hv', sublist_of_subset hndt a3 hsub hin, a4,
      fun tr ht hn => a5 tr (hsub.subset ht) hn, rfl⟩
  by_cases hne' : streams.filter keep = []
  · rw [hne'] at he' ⊢
    have : trs' = [] := by
      simp only [energies, mapExc, bind, Except.bind, pure, Except.pure, List.filterMap_nil,
        Except.ok.injEq] at he'
      exact he'.symm
    subst this
    have hsel : sel = [] := by
      cases sel with
      | nil => rfl
      | cons q l => exact absurd (hin q.1 (by simp)) (by simp)
    subst hsel
    rw [h] at k2
    simp only [List.map_nil, List.length_nil, true_or, if_true] at k2
    rw [k2]
    unfold invertFb
    rw [if_pos rfl]
  · obtain ⟨st', hw'⟩ := loop_any hsub hw { energies := trs'.map Trace.pair }
    obtain ⟨ps', m1, m2⟩ := invertFb_eq (wls := wls) (G := G) (minimize := minimize) (inv := inv)
      hne' hnd2 he' hv' hw'
    obtain rfl := (acceptedPairs_unique hnd2 m1 hacc).2
    rw [m2, ← k2, h]

end Rejected

open Rejected

/-- **C132**: pairs without energy (`NoEnergy`) have no influence on the outcome of a band: without
their streams the outcome is the same. -/
theorem C132_no_energy (keep : Stream → Bool)
    (hnd : (streams.map (fun s => (s.event, s.station))).Nodup)
    (hk : ∀ s ∈ streams, keep s = false → NoEnergy lib cfg s) {r : Option BandResult}
    (h : invertFb lib wls G minimize cfg inv streams = .ok r) :
    invertFb lib wls G minimize cfg inv (streams.filter keep) = .ok r := by
  by_cases hne : streams = []
  · subst hne
    exact h
  have he : ∃ trs, energies lib cfg streams = .ok trs := by
    unfold invertFb at h
    rw [if_neg hne] at h
    obtain ⟨trs, he, -⟩ := bind_ok.1 h
    exact ⟨trs, he⟩
  obtain ⟨trs, he⟩ := he
  obtain ⟨trs', he', -, -, hall⟩ := energies_filter keep he
  obtain rfl := hall hk
  cases hv : velocity cfg trs' with
  | some v =>
    exact filter_same keep hnd he he' (List.Sublist.refl _) hv hv
      (fun tr h1 h2 => absurd h1 h2) h
  | none =>
    unfold invertFb at h ⊢
    rw [if_neg hne, he] at h
    simp only [bind, Except.bind, hv, pure, Except.pure] at h
    split
    · exact h
    · rw [he']
      simp only [bind, Except.bind, hv, pure, Except.pure]
      exact h

/-- **C132**: if the velocity is given, pairs which are left out for any reason (`LeftOut`) have no
influence on the outcome of a band: without their streams the outcome is the same.

Missing: the velocity is not given; `C132_counterexample` shows that the claim is false then. -/
theorem C132_left_out_partial (keep : Stream → Bool) (hv : cfg.v0 = some v0)
    (hnd : (streams.map (fun s => (s.event, s.station))).Nodup)
    (hk : ∀ s ∈ streams, keep s = false → LeftOut lib cfg v0 s) {r : Option BandResult}
    (h : invertFb lib wls G minimize cfg inv streams = .ok r) :
    invertFb lib wls G minimize cfg inv (streams.filter keep) = .ok r := by
  by_cases hne : streams = []
  · subst hne
    exact h
  have he : ∃ trs, energies lib cfg streams = .ok trs := by
    unfold invertFb at h
    rw [if_neg hne] at h
    obtain ⟨trs, he, -⟩ := bind_ok.1 h
    exact ⟨trs, he⟩
  obtain ⟨trs, he⟩ := he
  obtain ⟨trs', he', hsub, hmem, -⟩ := energies_filter keep he
  have hvel : ∀ l, velocity cfg l = some v0 := by
    intro l
    unfold velocity
    rw [hv]
  refine filter_same keep hnd he he' hsub (hvel _) (hvel _) ?_ h
  intro tr ht hn
  obtain ⟨s, h1, h2, h3⟩ := hmem tr ht hn
  exact hk s h1 h2 tr h3

end

namespace RejectedExample

open AgainExample Rejected

theorem energies_A : energies lib w [sA] = .ok [tA] := by
  obtain ⟨a, b, h1, h2, h3⟩ := energies_cons.1 two_energies
  obtain ⟨b', c, h4, h5, rfl⟩ := energies_cons.1 h2
  rcases energies_one h1 with rfl | ⟨t, rfl⟩
  · rcases energies_one h4 with rfl | ⟨t, rfl⟩ <;>
      simp [energies, mapExc, bind, Except.bind, pure, Except.pure] at h5 <;> subst h5 <;> simp at h3
  · simp at h3
    rw [h1, h3.1]

theorem energies_B : energies lib w [sB] = .ok [tB] := by
  obtain ⟨a, b, h1, h2, h3⟩ := energies_cons.1 two_energies
  rw [energies_A] at h1
  obtain rfl := Except.ok.inj h1
  simp at h3
  rw [h2, h3]

/-- The same with given velocity. -/
noncomputable def wv : WCfg := { w with v0 := some 2 }

theorem left_out : LeftOut lib wv 2 sB := by
  intro tr h p hp
  have e : energies lib wv [sB] = .ok [tB] := energies_B
  rw [e] at h
  simp only [Except.ok.injEq, List.cons.injEq, and_true] at h
  subst h
  exact rejects_B 2 p hp

/-- The result of a band in which the windows of station A are accepted. -/
theorem solved (v : ℝ) : ∃ r, solveBand InvertExample.rankWls G (fun _ => .ok 1) (fullCfg w inv v)
    (bandOf false [pair v]) = .ok (some r) ∧ r.v0 = v := by
  obtain ⟨r, R, W, k1, -⟩ := C125_band InvertExample.rankWls_spec one_value rfl
    rfl (fun _ => by norm_num) (fun _ => by positivity) (exact_windows v)
  obtain ⟨f, g0, bFix, hf, hrep, hb⟩ := solveBand_ok k1
  obtain ⟨-, -, -, -, -, -, -, r7⟩ := report_some hrep
  exact ⟨r, k1, r7⟩

/-- Outcome with both stations. -/
theorem both : ∃ r, invertFb lib InvertExample.rankWls G (fun _ => .ok 1) w inv [sA, sB] = .ok (some r) ∧
    r.v0 = 2 ∧ invertFb lib InvertExample.rankWls G (fun _ => .ok 1) wv inv [sA, sB] = .ok (some r) := by
  obtain ⟨r, h1, h2⟩ := solved 2
  obtain ⟨st, hst, hl⟩ := windows_two 2
  have hc : ¬ (st.Ecoda.length = 0 ∨ (st.Ecoda.length : ℝ) < w.numPairs) := by
    rw [hl]; norm_num [w]
  have hacc : AcceptedPairs lib w [sA, sB] 2 [pair 2] := by
    refine ⟨[tA, tB], [(tA, pair 2)], two_energies, velocity_two, by simp, ?_, ?_, rfl⟩
    · intro x hx
      obtain rfl := List.mem_singleton.1 hx
      exact accepts_A 2
    · intro tr htr hn
      rcases List.mem_cons.1 htr with rfl | htr
      · simp at hn
      · obtain rfl := List.mem_singleton.1 htr
        exact rejects_B 2
  obtain ⟨ps, c1, c2⟩ := invertFb_accepted (wls := InvertExample.rankWls) (G := AgainExample.G)
    (minimize := fun _ => .ok 1) (inv := inv) pairs_nodup two_energies velocity_two hst hc
  obtain rfl := (acceptedPairs_unique pairs_nodup c1 hacc).2
  refine ⟨r, c2.trans h1, h2, ?_⟩
  have e : energies lib wv [sA, sB] = .ok [tA, tB] := two_energies
  have ev : velocity wv [tA, tB] = some 2 := rfl
  have ew : windows lib wv 2 [tA, tB] = .ok st := hst
  obtain ⟨ps, d1, d2⟩ := invertFb_accepted (wls := InvertExample.rankWls) (G := AgainExample.G)
    (minimize := fun _ => .ok 1) (inv := inv) pairs_nodup e ev ew hc
  have hacc' : AcceptedPairs lib wv [sA, sB] 2 [pair 2] := by
    obtain ⟨trs, sel, a1, a2, a3, a4, a5, a6⟩ := hacc
    refine ⟨trs, sel, a1, rfl, a3, a4, a5, a6⟩
  obtain rfl := (acceptedPairs_unique pairs_nodup d1 hacc').2
  exact d2.trans h1

/-- Outcome of station A alone if the velocity is not given. -/
theorem alone : ∃ r, invertFb lib InvertExample.rankWls G (fun _ => .ok 1) w inv [sA] = .ok (some r) ∧
    r.v0 = 1 := by
  obtain ⟨r, h1, h2⟩ := solved 1
  obtain ⟨st, hst, hl⟩ := windows_one 1
  have hv : velocity w [tA] = some 1 := by
    simp [velocity, w, InvertFb.mean, tA, trace]
  have hacc : AcceptedPairs lib w [sA] 1 [pair 1] := by
    refine ⟨[tA], [(tA, pair 1)], energies_A, hv, by simp, ?_, ?_, rfl⟩
    · intro x hx
      obtain rfl := List.mem_singleton.1 hx
      exact accepts_A 1
    · intro tr htr hn
      exact absurd htr (by simpa using hn)
  have hnd : (([sA] : List Stream).map (fun s => (s.event, s.station))).Nodup := by simp
  obtain ⟨ps, c1, c2⟩ := invertFb_accepted (wls := InvertExample.rankWls) (G := AgainExample.G)
    (minimize := fun _ => .ok 1) (inv := inv) hnd energies_A hv hst (by rw [hl]; norm_num [w])
  obtain rfl := (acceptedPairs_unique hnd c1 hacc).2
  exact ⟨r, c2.trans h1, h2⟩

/-- Keep station A. -/
def keepA (s : Stream) : Bool := s.station == "A"

theorem keep_A : ([sA, sB] : List Stream).filter keepA = [sA] := by
  simp [keepA, sA, sB, stream]

/-- The maximum of station B is outside of the allowed window; its record can be omitted. -/
example : ∃ r, invertFb lib InvertExample.rankWls G (fun _ => .ok 1) wv inv [sA, sB] = .ok (some r) ∧
    invertFb lib InvertExample.rankWls G (fun _ => .ok 1) wv inv [sA] = .ok (some r) := by
  obtain ⟨r, -, -, h⟩ := both
  refine ⟨r, h, ?_⟩
  rw [← keep_A]
  refine C132_left_out_partial (v0 := 2) keepA rfl pairs_nodup ?_ h
  intro s hs hk
  rcases List.mem_cons.1 hs with rfl | hs
  · simp [keepA, sA, stream] at hk
  · obtain rfl := List.mem_singleton.1 hs
    exact left_out

/-- Station B with fewer samples per second than needed. -/
noncomputable def sC : Stream := { sB with station := "C", sr := 0.4 }

theorem no_energy : NoEnergy lib w sC := by
  unfold NoEnergy energies
  have : Window.energyOf lib w sC = .ok none := by
    unfold Window.energyOf
    rw [if_pos (by norm_num [w, sC])]
  simp [mapExc, this, bind, Except.bind, pure, Except.pure]

example : ∃ r, invertFb lib InvertExample.rankWls G (fun _ => .ok 1) w inv [sA] = .ok (some r) ∧
    ∀ r', invertFb lib InvertExample.rankWls G (fun _ => .ok 1) w inv [sA, sC] = .ok (some r') →
      r' = r := by
  obtain ⟨r, h, -⟩ := alone
  refine ⟨r, h, fun r' h' => ?_⟩
  have := C132_no_energy (streams := [sA, sC]) keepA (by simp [sA, sC, sB, stream]) ?_ h'
  · have e : ([sA, sC] : List Stream).filter keepA = [sA] := by
      simp [keepA, sA, sC, sB, stream]
    rw [e, h] at this
    simpa using this.symm
  · intro s hs hk
    rcases List.mem_cons.1 hs with rfl | hs
    · simp [keepA, sA, stream] at hk
    · obtain rfl := List.mem_singleton.1 hs
      exact no_energy

end RejectedExample

open AgainExample RejectedExample in
/-- **C132** (counterexample): if the velocity is not given, a pair which is left out changes the
result: the velocity is the mean over all pairs with energies, before the checks
(core.py:640-643). -/
theorem C132_counterexample : ∃ (lib : Lib) (wls : List ℝ → List (List ℝ) → List ℝ → List ℝ × ℝ)
    (rank : List ℝ → List (List ℝ) → ℕ) (G : Greens) (minimize : (ℝ → Py (WithTop ℝ)) → Py ℝ)
    (cfg : WCfg) (inv : InvertFb.Cfg) (streams : List Stream) (keep : Stream → Bool)
    (r r' : BandResult), IsWls rank wls ∧ cfg.v0 = none ∧
    (streams.map (fun s => (s.event, s.station))).Nodup ∧
    (∀ s ∈ streams, keep s = false → ∀ v0, LeftOut lib cfg v0 s) ∧
    invertFb lib wls G minimize cfg inv streams = .ok (some r) ∧
    invertFb lib wls G minimize cfg inv (streams.filter keep) = .ok (some r') ∧
    r.v0 = 2 ∧ r'.v0 = 1 := by
  obtain ⟨r, h1, h2, -⟩ := both
  obtain ⟨r', h3, h4⟩ := alone
  refine ⟨lib, _, _, AgainExample.G, fun _ => .ok 1, w, inv, [sA, sB], keepA, r, r',
    InvertExample.rankWls_spec, rfl, pairs_nodup, ?_, h1, by rw [keep_A]; exact h3, h2, h4⟩
  intro s hs hk v0 tr h p hp
  rcases List.mem_cons.1 hs with rfl | hs
  · simp [keepA, sA, stream] at hk
  · obtain rfl := List.mem_singleton.1 hs
    rw [energies_B] at h
    simp only [Except.ok.injEq, List.cons.injEq, and_true] at h
    subst h
    exact rejects_B v0 p hp

end Qopen
