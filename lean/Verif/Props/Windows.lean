import Verif.Lemmas.Window
import Verif.Props.Invert

/-!
# Windows of the pairs: C18, C29
-/

namespace Qopen

open Real Util Tr Energy Spec InvertFb Window

variable {lib : Lib} {wls : List ℝ → List (List ℝ) → List ℝ → List ℝ × ℝ} {G : Greens}
  {minimize : (ℝ → Py (WithTop ℝ)) → Py ℝ} {cfg : WCfg} {inv : Cfg} {v0 : ℝ}

namespace Window

theorem mapExc_congr {α β : Type} {f g : α → Py β} {l : List α} (h : ∀ a ∈ l, f a = g a) :
    mapExc f l = mapExc g l := by
  induction l with
  | nil => rfl
  | cons a l ih =>
    rw [mapExc, mapExc, h a (by simp), ih (fun b hb => h b (by simp [hb]))]

/-- The inversion looks up distances and bulk windows of the pairs only. -/
theorem solveBand_congr {c : Cfg} {b b' : Band} (h1 : b.pairs = b'.pairs) (h2 : b.tcoda = b'.tcoda)
    (h3 : b.Ecoda = b'.Ecoda) (h4 : b.tbulk = b'.tbulk) (h5 : b.Ebulk = b'.Ebulk)
    (h6 : b.weightsBulk = b'.weightsBulk)
    (h7 : ∀ k ∈ b.pairs, b.distances.get? k = b'.distances.get? k)
    (h8 : c.bulk = true → ∀ k ∈ b.pairs, b.tbulkWindow.get? k = b'.tbulkWindow.get? k) :
    solveBand wls G minimize c b = solveBand wls G minimize c b' := by
  have hg : ∀ g0, greensAll G c b g0 = greensAll G c b' g0 := by
    intro g0
    unfold greensAll
    rw [← h1]
    rw [mapExc_congr (g := greensOfPair G c b' g0)]
    rintro ⟨k, i⟩ hk
    have hkm : k ∈ b.pairs := by
      have := List.fst_mem_of_mem_zipIdx hk
      exact this
    unfold greensOfPair dictGet
    simp only [h2, h3, h7 k hkm]
    cases hb : c.bulk with
    | false => simp
    | true => simp only [h8 hb k hkm]
  have hst : stations b = stations b' := by unfold stations; rw [h1]
  have hev : eventids b = eventids b' := by unfold eventids; rw [h1]
  have hbl : blockLengths b = blockLengths b' := by unfold blockLengths; rw [h3, h5]
  have hbp : blockPair b = blockPair b' := by unfold blockPair; rw [h1]
  have hper : ∀ {α : Type} (f : String × String → α), perSample b f = perSample b' f := by
    intro α f; unfold perSample; rw [hbl, hbp]
  have htimes : times b = times b' := by unfold times; rw [h2, h4]
  have hobs : energiesObs b = energiesObs b' := by unfold energiesObs; rw [h3, h5]
  have hbase : baseRow c b = baseRow c b' := by
    unfold baseRow freeRow sourceRow; rw [hst, hev]
  have hdes : design c b = design c b' := by unfold design; rw [hper, hbase, htimes]
  have hw : weights c b = weights c b' := by unfold weights; rw [h6]
  have hsr : siteRefs c b = siteRefs c b' := by unfold siteRefs; rw [hper]
  have hsrs : siteRefsShort c b = siteRefsShort c b' := by
    unfold siteRefsShort; rw [hbl, hbp, hst]
  have hrhs : rhs b = rhs b' := by unfold rhs moveB; rw [htimes]
  have hfit : fitOf c b = fitOf c b' := by unfold fitOf decode; rw [hst, hev]
  have hl : lstsq wls G c b = lstsq wls G c b' := by
    funext g0 bf fs
    unfold lstsq
    rw [hsr, hsrs, hg, hobs, hrhs, hfit, hw, hdes]
  have hobj : objective wls G c b = objective wls G c b' := by unfold objective; rw [hl]
  have hbf : bandFit wls G minimize c b = bandFit wls G minimize c b' := by
    unfold bandFit; rw [hl, hobj]
  have hrep : report c b = report c b' := by unfold report; rw [hst, hev]
  unfold solveBand
  rw [hbf, hrep]

theorem filter_of_sublist {m l : List (String × String)} (hs : m.Sublist l)
    (hnd : l.Nodup) : l.filter (fun k => decide (k ∉ l ∨ k ∈ m)) = m := by
  have e1 : l.filter (fun k => decide (k ∉ l ∨ k ∈ m)) = l.filter (fun k => decide (k ∈ m)) := by
    apply List.filter_congr
    intro k hk
    simp [hk]
  rw [e1]
  clear e1
  induction hs with
  | slnil => simp
  | @cons m l a hs ih =>
    rw [List.nodup_cons] at hnd
    have ha : a ∉ m := fun hm => hnd.1 (hs.subset hm)
    rw [List.filter_cons, if_neg (by simpa using ha)]
    exact ih hnd.2
  | @cons_cons m l a hs ih =>
    rw [List.nodup_cons] at hnd
    rw [List.filter_cons, if_pos (by simp)]
    congr 1
    refine Eq.trans ?_ (ih hnd.2)
    apply List.filter_congr
    intro k hk
    have hka : k ≠ a := fun e => hnd.1 (e ▸ hk)
    simp [hka]

theorem noiseStep_pair {tr tr' : Trace} (h : noiseStep lib cfg tr = .ok (some tr')) :
    tr'.pair = tr.pair := by
  have hadj : ∀ {t t' : Trace}, adjust lib cfg t = .ok t' → t'.pair = t.pair := by
    intro t t' h
    unfold adjust at h
    split at h
    · simp only [Except.ok.injEq] at h; rw [h]
    · obtain ⟨_, _, h⟩ := bind_ok.1 h
      obtain ⟨_, _, h⟩ := bind_ok.1 h
      obtain ⟨_, _, h⟩ := bind_ok.1 h
      simp only [pure, Except.pure, Except.ok.injEq] at h
      subst h
      rfl
  unfold noiseStep at h
  obtain ⟨levels, _, h⟩ := bind_ok.1 h
  simp only at h
  split at h
  · split at h
    · simp [pure, Except.pure] at h
    · obtain ⟨t, ht, h⟩ := bind_ok.1 h
      simp only [pure, Except.pure, Except.ok.injEq, Option.some.injEq] at h
      subst h
      exact hadj ht
  · obtain ⟨t, ht, h⟩ := bind_ok.1 h
    simp only [pure, Except.pure, Except.ok.injEq, Option.some.injEq] at h
    subst h
    rw [hadj ht]
    split <;> rfl

theorem energyOf_pair {s : Stream} {tr : Trace} (h : energyOf lib cfg s = .ok (some tr)) :
    tr.pair = (s.event, s.station) := by
  unfold energyOf at h
  split at h
  · simp at h
  split at h
  · simp at h
  simp only at h
  split at h
  · next t ht =>
    simp only [Except.ok.injEq, Option.some.injEq] at h
    subst h
    unfold observedEnergy at ht
    simp only at ht
    split at ht
    · simp at ht
    split at ht
    · simp at ht
    split at ht
    · simp only [Except.ok.injEq] at ht; rw [← ht]; rfl
    · unfold normalise at ht
      obtain ⟨_, _, ht⟩ := bind_ok.1 ht
      simp only at ht
      split at ht
      · simp at ht
      · simp only [Except.ok.injEq] at ht; rw [← ht]; rfl
  · simp at h
  · simp at h

theorem mapExc_filter_sublist {α β γ : Type} {f : α → Py (Option β)} {l : List α}
    {m : List (Option β)} (h : mapExc f l = .ok m) (u : α → γ) (v : β → γ)
    (huv : ∀ a b, f a = .ok (some b) → v b = u a) :
    ((m.filterMap id).map v).Sublist (l.map u) := by
  have := mapExc_ok.1 h
  clear h
  induction this with
  | nil => simp
  | @cons a ob l m h1 _ ih =>
    cases ob with
    | none =>
      simp only [List.filterMap_cons, id_eq, List.map_cons]
      exact ih.trans (List.sublist_cons_self _ _)
    | some b =>
      simp only [List.filterMap_cons, id_eq, List.map_cons]
      rw [huv a b h1]
      exact ih.cons_cons _

/-- The energies belong to a subset of the streams, in the same order. -/
theorem energies_pairs {streams : List Stream} {trs : List Trace}
    (h : energies lib cfg streams = .ok trs) :
    (trs.map Trace.pair).Sublist (streams.map (fun s => (s.event, s.station))) := by
  unfold energies at h
  obtain ⟨e1, h1, h⟩ := bind_ok.1 h
  obtain ⟨e2, h2, h⟩ := bind_ok.1 h
  simp only [pure, Except.pure, Except.ok.injEq] at h
  subst h
  exact (mapExc_filter_sublist h2 Trace.pair Trace.pair (fun _ _ => noiseStep_pair)).trans
    (mapExc_filter_sublist h1 _ Trace.pair (fun _ _ => energyOf_pair))

end Window

/-- **C18**: windows are not misattributed.  After all rejections the lists of coda times, coda
energies, bulk times, bulk energies and weights, and the list of pairs, are those of one list of
accepted pairs in the original order; every accepted pair passed all checks and its windows are taken
from its own trace (`Accepts`), every other pair failed a check.  Distances and bulk windows looked up
later for an accepted pair are those of this pair. -/
theorem C18_windows_belong_to_pairs {trs : List Trace} {st : WState}
    (hnd : (trs.map Trace.pair).Nodup) (h : windows lib cfg v0 trs = .ok st) :
    ∃ sel : List (Trace × PairData),
      (sel.map Prod.fst).Sublist trs ∧
      (∀ q ∈ sel, Accepts lib cfg v0 q.1 q.2) ∧
      (∀ tr ∈ trs, tr ∉ sel.map Prod.fst → ∀ p, ¬ Accepts lib cfg v0 tr p) ∧
      let B := bandOf cfg.bulkWindow.isSome (sel.map Prod.snd)
      st.energies = B.pairs ∧ st.tcoda = B.tcoda ∧ st.Ecoda = B.Ecoda ∧
      st.tbulk = B.tbulk ∧ st.Ebulk = B.Ebulk ∧ st.weightsBulk = B.weightsBulk ∧
      ∀ q ∈ sel, st.distances.get? q.2.pair = some q.2.distance ∧
        (cfg.bulkWindow.isSome → st.tbulkWindow.get? q.2.pair = some (q.2.bulkStart, q.2.bulkEnd)) := by
  obtain ⟨sel, b1, b2, b3, b4, b5, b6, b7, b8, b9, b10, b11, b12⟩ :=
    loop_outcome trs hnd _ st (fun tr htr => List.mem_map.2 ⟨tr, htr, rfl⟩) hnd h
  have hpair : ∀ q ∈ sel, q.2.pair = q.1.pair := by
    intro q hq
    obtain ⟨e1, e2, _⟩ := b2 q hq
    unfold PairData.pair Trace.pair
    rw [e1, e2]
  refine ⟨sel, b1, b2, b3, ?_, ?_, ?_, ?_, ?_, ?_, ?_⟩
  · refine (b4.trans (filter_of_sublist (b1.map _) hnd)).trans ?_
    simp only [bandOf, List.map_map]
    apply List.map_congr_left
    intro q hq
    simp only [Function.comp_apply]
    rw [hpair q hq]
  · simp only [b5, bandOf, List.map_map, List.nil_append]; rfl
  · simp only [b6, bandOf, List.map_map, List.nil_append]; rfl
  · simp only [b7, bandOf, List.map_map, List.nil_append]; rfl
  · simp only [b8, bandOf, List.map_map, List.nil_append]; rfl
  · simp only [b9, bandOf, List.map_map, List.nil_append]; rfl
  · intro q hq
    rw [hpair q hq]
    obtain ⟨e1, e2, e3, _⟩ := b2 q hq
    refine ⟨?_, fun hb => b12 hb q hq⟩
    rw [b10 q.1 (b1.subset (List.mem_map.2 ⟨q, hq, rfl⟩)), e3]

/-- **C18**: the result of a band is the result of the inversion with the windows of the accepted
pairs.  Together with C13-C19 (theorems on `solveBand` of `bandOf`) this describes the result in terms
of the observed data. -/
theorem C18_inversion_of_accepted_pairs {streams : List Stream} {res : BandResult}
    (hnd : (streams.map (fun s => (s.event, s.station))).Nodup)
    (h : invertFb lib wls G minimize cfg inv streams = .ok (some res)) :
    ∃ (trs : List Trace) (v0 : ℝ) (sel : List (Trace × PairData)),
      energies lib cfg streams = .ok trs ∧ velocity cfg trs = some v0 ∧
      (trs.map Trace.pair).Sublist (streams.map (fun s => (s.event, s.station))) ∧
      (sel.map Prod.fst).Sublist trs ∧
      (∀ q ∈ sel, Accepts lib cfg v0 q.1 q.2) ∧
      (∀ tr ∈ trs, tr ∉ sel.map Prod.fst → ∀ p, ¬ Accepts lib cfg v0 tr p) ∧
      sel ≠ [] ∧ ((sel.map Prod.snd).map PairData.pair).Nodup ∧
      solveBand wls G minimize (fullCfg cfg inv v0) (bandOf cfg.bulkWindow.isSome (sel.map Prod.snd))
        = .ok (some res) := by
  unfold invertFb at h
  split at h
  · simp at h
  obtain ⟨trs, htrs, h⟩ := bind_ok.1 h
  have hsub := energies_pairs htrs
  cases hv : velocity cfg trs with
  | none => rw [hv] at h; simp [pure, Except.pure] at h
  | some v0 =>
    rw [hv] at h
    obtain ⟨st, hst, h⟩ := bind_ok.1 h
    have hnd' : (trs.map Trace.pair).Nodup := hnd.sublist hsub
    obtain ⟨sel, b1, b2, b3, c1, c2, c3, c4, c5, c6, c7⟩ := C18_windows_belong_to_pairs hnd' hst
    by_cases hc : st.Ecoda.length = 0 ∨ (st.Ecoda.length : ℝ) < cfg.numPairs
    · rw [if_pos hc] at h; simp [pure, Except.pure] at h
    rw [if_neg hc] at h
    have hpair : ∀ q ∈ sel, q.2.pair = q.1.pair := by
      intro q hq
      obtain ⟨e1, e2, _⟩ := b2 q hq
      unfold PairData.pair Trace.pair
      rw [e1, e2]
    have hpairs : (sel.map Prod.snd).map PairData.pair = (sel.map Prod.fst).map Trace.pair := by
      rw [List.map_map, List.map_map]
      exact List.map_congr_left hpair
    have hndp : ((sel.map Prod.snd).map PairData.pair).Nodup := by
      rw [hpairs]; exact hnd'.sublist (b1.map _)
    refine ⟨trs, v0, sel, htrs, hv, hsub, b1, b2, b3, ?_, hndp, ?_⟩
    · rintro rfl
      apply hc
      left
      rw [c3]
      rfl
    · rw [← h]
      symm
      apply solveBand_congr
      · exact c1
      · exact c2
      · exact c3
      · exact c4
      · exact c5
      · exact c6
      · intro k hk
        have hk' : k ∈ (sel.map Prod.snd).map PairData.pair := by
          have e : st.band.pairs = st.energies := rfl
          rw [e, c1] at hk
          exact hk
        obtain ⟨p, hp, rfl⟩ := List.mem_map.1 hk'
        obtain ⟨q, hq, rfl⟩ := List.mem_map.1 hp
        refine (c7 q hq).1.trans ?_
        symm
        exact get?_map_pair hndp (fun p => p.distance) hp
      · intro hb k hk
        have hb' : cfg.bulkWindow.isSome = true := hb
        have hk' : k ∈ (sel.map Prod.snd).map PairData.pair := by
          have e : st.band.pairs = st.energies := rfl
          rw [e, c1] at hk
          exact hk
        obtain ⟨p, hp, rfl⟩ := List.mem_map.1 hk'
        obtain ⟨q, hq, rfl⟩ := List.mem_map.1 hp
        refine ((c7 q hq).2 hb').trans ?_
        symm
        simp only [bandOf, hb', if_true]
        exact get?_map_pair hndp (fun p => (p.bulkStart, p.bulkEnd)) hp

end Qopen
