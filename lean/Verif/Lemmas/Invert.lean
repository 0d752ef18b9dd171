import Verif.Spec.Invert
import Mathlib.Data.List.Sort

/-!
# Lemmas about the selection of pairs
-/

namespace Qopen.Invert

open Real Catalog Energy

/-! ## Loops which remove elements of the list -/

theorem erase_filter {α : Type} [BEq α] [LawfulBEq α] [DecidableEq α] {l : List α} (hn : l.Nodup)
    (a : α) (p : α → Bool) :
    (l.erase a).filter p = l.filter (fun x => p x && decide (x ≠ a)) := by
  rw [hn.erase_eq_filter, List.filter_filter]
  apply List.filter_congr
  intro x _
  by_cases h : x = a <;> simp [h]

theorem originsOf_spec {events : List Event} {d d' : Dict String Origin}
    (hn : (events.map getEventid).Nodup)
    (h : events.foldlM (fun d ev => do
      let o ← getOrigin ev
      return Dict.set d (getEventid ev) o) d = .ok d') (hd : ∀ ev ∈ events, getEventid ev ∉ d.keys) :
    (∀ ev ∈ events, ∃ o, getOrigin ev = .ok o ∧ d'.get? (getEventid ev) = some o) ∧
    d'.keys = d.keys ++ events.map getEventid ∧
    (∀ k, k ∈ d.keys → d'.get? k = d.get? k) := by
  induction events generalizing d with
  | nil =>
    simp only [List.foldlM_nil, pure, Except.pure, Except.ok.injEq] at h
    subst h
    simp
  | cons ev events ih =>
    rw [List.foldlM_cons] at h
    obtain ⟨m, hm, h⟩ := bind_ok.1 h
    obtain ⟨o, ho, hm⟩ := bind_ok.1 hm
    simp only [pure, Except.pure, Except.ok.injEq] at hm
    subst hm
    rw [List.map_cons, List.nodup_cons] at hn
    have hnm : getEventid ev ∉ d.keys := hd ev (by simp)
    have hset : (d.set (getEventid ev) o) = d ++ [(getEventid ev, o)] := Dict.keys_set_of_not_mem _ hnm
    have hk : Dict.keys (d.set (getEventid ev) o) = d.keys ++ [getEventid ev] := by
      rw [hset]; simp [Dict.keys]
    obtain ⟨h1, h2, h3⟩ := ih hn.2 h (by
      intro e he
      rw [hk]
      simp only [List.mem_append, List.mem_singleton, not_or]
      refine ⟨hd e (by simp [he]), ?_⟩
      intro heq
      exact hn.1 (heq ▸ List.mem_map.2 ⟨e, he, rfl⟩))
    refine ⟨?_, ?_, ?_⟩
    · intro e he
      rcases List.mem_cons.1 he with rfl | he
      · exact ⟨o, ho, by rw [h3 _ (by rw [hk]; simp), Dict.get?_set_self]⟩
      · exact h1 e he
    · rw [h2, hk]; simp
    · intro k hkm
      rw [h3 k (by rw [hk]; simp [hkm]), Dict.get?_set_ne]
      rintro rfl
      exact hnm hkm

theorem arrivalsOf_spec {events : List Event} {d d' : Dict String (List Arrival)}
    (hn : (events.map getEventid).Nodup)
    (h : events.foldlM (fun d ev => do
      let ar ← getArrivals ev
      return match ar with
        | some l => Dict.set d (getEventid ev) l
        | none => d) d = .ok d') (hd : ∀ ev ∈ events, getEventid ev ∉ d.keys) :
    (∀ ev ∈ events, ∃ o, getArrivals ev = .ok o ∧ d'.get? (getEventid ev) = o) ∧
    (∀ k, k ∉ events.map getEventid → d'.get? k = d.get? k) := by
  induction events generalizing d with
  | nil =>
    simp only [List.foldlM_nil, pure, Except.pure, Except.ok.injEq] at h
    subst h
    simp
  | cons ev events ih =>
    rw [List.foldlM_cons] at h
    obtain ⟨m, hm, h⟩ := bind_ok.1 h
    obtain ⟨o, ho, hm⟩ := bind_ok.1 hm
    simp only [pure, Except.pure, Except.ok.injEq] at hm
    rw [List.map_cons, List.nodup_cons] at hn
    have hnm : getEventid ev ∉ d.keys := hd ev (by simp)
    have hm1 : m.get? (getEventid ev) = o := by
      cases o with
      | none => simp only at hm; rw [← hm]; exact (Dict.get?_eq_none _ _).2 hnm
      | some l => simp only at hm; rw [← hm]; simp
    have hm2 : ∀ k, k ≠ getEventid ev → m.get? k = d.get? k := by
      intro k hk
      cases o with
      | none => simp only at hm; rw [← hm]
      | some l => simp only at hm; rw [← hm, Dict.get?_set_ne _ _ hk.symm]
    obtain ⟨h1, h2⟩ := ih hn.2 h (by
      intro e he
      rw [← Dict.get?_eq_none, hm2, Dict.get?_eq_none]
      · exact hd e (by simp [he])
      · intro heq
        exact hn.1 (heq ▸ List.mem_map.2 ⟨e, he, rfl⟩))
    refine ⟨?_, ?_⟩
    · intro e he
      rcases List.mem_cons.1 he with rfl | he
      · exact ⟨o, ho, by rw [h2 _ hn.1, hm1]⟩
      · exact h1 e he
    · intro k hk
      simp only [List.map_cons, List.mem_cons, not_or] at hk
      rw [h2 k hk.2, hm2 k hk.1]

variable {env : Env} {cfg : InvCfg} {origins : Dict String Origin}

/-- The pair has a distance and is not too far away. -/
noncomputable def near (env : Env) (cfg : InvCfg) (origins : Dict String Origin)
    (pair : String × String) : Bool :=
  match distance env cfg (originAt origins pair.1) pair.2 with
  | none => false
  | some d => !tooFar cfg d

theorem distStep_pairs (st : DistState) (pair : String × String) :
    (distStep env cfg origins st pair).pairs =
      if near env cfg origins pair then st.pairs else st.pairs.erase pair := by
  unfold distStep near
  cases distance env cfg (originAt origins pair.1) pair.2 with
  | none => simp
  | some d =>
    simp only
    by_cases h : tooFar cfg d = true <;> simp [h]

theorem distStep_distances (st : DistState) (pair k : String × String) :
    (distStep env cfg origins st pair).distances.get? k =
      if pair = k then (distance env cfg (originAt origins pair.1) pair.2).or (st.distances.get? k)
      else st.distances.get? k := by
  unfold distStep
  cases hd : distance env cfg (originAt origins pair.1) pair.2 with
  | none => simp
  | some d =>
    simp only
    split <;> simp only [Dict.get?_set] <;> split <;> simp

theorem distLoop_aux (l : List (String × String)) (st : DistState) (hn : st.pairs.Nodup) :
    (l.foldl (distStep env cfg origins) st).pairs =
      st.pairs.filter (fun x => near env cfg origins x || decide (x ∉ l)) ∧
    ∀ k, k ∉ l → (l.foldl (distStep env cfg origins) st).distances.get? k = st.distances.get? k := by
  induction l generalizing st with
  | nil => simp
  | cons a l ih =>
    have hn' : (distStep env cfg origins st a).pairs.Nodup := by
      rw [distStep_pairs]; split
      · exact hn
      · exact hn.erase a
    obtain ⟨h1, h2⟩ := ih _ hn'
    rw [List.foldl_cons]
    constructor
    · rw [h1, distStep_pairs]
      by_cases hk : near env cfg origins a = true
      · rw [if_pos hk]
        apply List.filter_congr
        intro x _
        by_cases hx : x = a
        · subst hx; simp [hk]
        · simp [hx]
      · rw [if_neg hk, erase_filter hn]
        apply List.filter_congr
        intro x _
        by_cases hx : x = a
        · subst hx; simp [hk]
        · simp [hx]
    · intro k hk
      simp only [List.mem_cons, not_or] at hk
      rw [h2 k hk.2, distStep_distances, if_neg (Ne.symm hk.1)]

theorem distLoop_dist (l : List (String × String)) (st : DistState) {k : String × String} {d : ℝ}
    (hk : k ∈ l) (hd : distance env cfg (originAt origins k.1) k.2 = some d) :
    (l.foldl (distStep env cfg origins) st).distances.get? k = some d := by
  induction l using List.reverseRecOn with
  | nil => simp at hk
  | append_singleton l a ih =>
    rw [List.foldl_append, List.foldl_cons, List.foldl_nil, distStep_distances]
    by_cases ha : a = k
    · subst ha; simp [hd]
    · rw [if_neg ha]
      apply ih
      rcases List.mem_append.1 hk with h | h
      · exact h
      · simp only [List.mem_singleton] at h; exact absurd h.symm ha

section Onset
variable {arrivals : Dict String (List Arrival)} {distances : Dict (String × String) ℝ}

/-- The pair has both onsets. -/
noncomputable def hasOnsets (cfg : InvCfg) (arrivals : Dict String (List Arrival))
    (origins : Dict String Origin) (distances : Dict (String × String) ℝ)
    (pair : String × String) : Bool :=
  match onsets cfg arrivals (originAt origins pair.1) (distAt distances pair) pair with
  | .ok (some _, some _) => true
  | _ => false

theorem onsetStep_spec {st st' : OnsetState} {pair : String × String}
    (h : onsetStep cfg arrivals origins distances st pair = .ok st') :
    st'.pairs = (if hasOnsets cfg arrivals origins distances pair then st.pairs
      else st.pairs.erase pair) ∧
    (∀ k, k ≠ pair → st'.ponset.get? k = st.ponset.get? k ∧ st'.sonset.get? k = st.sonset.get? k) ∧
    (∀ p s, onsets cfg arrivals (originAt origins pair.1) (distAt distances pair) pair =
      .ok (some p, some s) → st'.ponset.get? pair = some p ∧ st'.sonset.get? pair = some s) := by
  unfold onsetStep at h
  obtain ⟨ps, hps, h⟩ := bind_ok.1 h
  unfold hasOnsets
  rw [hps]
  obtain ⟨p, s⟩ := ps
  cases p with
  | none =>
    simp only [pure, Except.pure, Except.ok.injEq] at h
    subst h
    simp
  | some p =>
    cases s with
    | none =>
      simp only [pure, Except.pure, Except.ok.injEq] at h
      subst h
      refine ⟨by simp, ?_, by simp⟩
      intro k hk
      exact ⟨Dict.get?_set_ne _ _ hk.symm, rfl⟩
    | some s =>
      simp only [pure, Except.pure, Except.ok.injEq] at h
      subst h
      refine ⟨by simp, ?_, ?_⟩
      · intro k hk
        exact ⟨Dict.get?_set_ne _ _ hk.symm, Dict.get?_set_ne _ _ hk.symm⟩
      · intro p' s' he
        simp only [Except.ok.injEq, Prod.mk.injEq, Option.some.injEq] at he
        simp [he.1, he.2]

theorem onsetLoop_spec {l : List (String × String)} {st st' : OnsetState} (hn : st.pairs.Nodup)
    (hl : l.Nodup)
    (h : l.foldlM (onsetStep cfg arrivals origins distances) st = .ok st') :
    st'.pairs = st.pairs.filter (fun x => hasOnsets cfg arrivals origins distances x ||
      decide (x ∉ l)) ∧
    (∀ k, k ∉ l → st'.ponset.get? k = st.ponset.get? k ∧ st'.sonset.get? k = st.sonset.get? k) ∧
    (∀ k ∈ l, ∀ p s, onsets cfg arrivals (originAt origins k.1) (distAt distances k) k =
      .ok (some p, some s) → st'.ponset.get? k = some p ∧ st'.sonset.get? k = some s) := by
  induction l generalizing st with
  | nil =>
    simp only [List.foldlM_nil, pure, Except.pure, Except.ok.injEq] at h
    subst h
    simp
  | cons a l ih =>
    rw [List.foldlM_cons] at h
    obtain ⟨m, hm, h⟩ := bind_ok.1 h
    obtain ⟨a1, a2, a3⟩ := onsetStep_spec hm
    rw [List.nodup_cons] at hl
    have hn' : m.pairs.Nodup := by
      rw [a1]; split
      · exact hn
      · exact hn.erase a
    obtain ⟨b1, b2, b3⟩ := ih hn' hl.2 h
    refine ⟨?_, ?_, ?_⟩
    · rw [b1, a1]
      by_cases hk : hasOnsets cfg arrivals origins distances a = true
      · rw [if_pos hk]
        apply List.filter_congr
        intro x _
        by_cases hx : x = a
        · subst hx; simp [hk]
        · simp [hx]
      · rw [if_neg hk, erase_filter hn]
        apply List.filter_congr
        intro x _
        by_cases hx : x = a
        · subst hx; simp [hk]
        · simp [hx]
    · intro k hk
      simp only [List.mem_cons, not_or] at hk
      obtain ⟨c1, c2⟩ := b2 k hk.2
      obtain ⟨d1, d2⟩ := a2 k hk.1
      exact ⟨c1.trans d1, c2.trans d2⟩
    · intro k hk p s hps
      rcases List.mem_cons.1 hk with rfl | hk
      · obtain ⟨c1, c2⟩ := b2 k hl.1
        obtain ⟨d1, d2⟩ := a3 p s hps
        exact ⟨c1.trans d1, c2.trans d2⟩
      · exact b3 k hk p s hps

end Onset

theorem distance_spec (ori : Origin) (sta : String) (d : ℝ) :
    distance env cfg ori sta = some d ↔ Spec.HypoDistance env cfg ori sta d := by
  unfold distance Spec.HypoDistance
  cases hc : env.coords (oneChannel env sta) ori.time with
  | none => simp
  | some c =>
    simp only
    cases hg : env.gps c.latitude c.longitude ori.latitude ori.longitude with
    | none => simp [hg]
    | some h =>
      simp only
      cases hd : ori.depth with
      | none => simp
      | some depth =>
      simp only [Option.some.injEq]
      have key : (depth + (if cfg.subtractLocalDepth = true then c.elevation else
          c.elevation + c.localDepth) * (if cfg.correctForElevation = true then 1 else 0) -
          c.localDepth) = depth - c.localDepth + (if cfg.correctForElevation = true then
          (if cfg.subtractLocalDepth = true then c.elevation else c.elevation + c.localDepth) else 0) := by
        by_cases hh : cfg.correctForElevation = true <;> simp [hh] <;> ring
      rw [key]
      constructor
      · rintro rfl
        exact ⟨c, h, depth, rfl, hg, rfl, rfl⟩
      · rintro ⟨c', h', depth', rfl, hg', rfl, rfl⟩
        rw [hg] at hg'
        cases hg'
        rfl

theorem tooFar_spec (d : ℝ) :
    tooFar cfg d = false ↔ ∀ v, cfg.skipDistance = some v → v ≠ 0 → d / 1000 ≤ v := by
  unfold tooFar
  cases h : cfg.skipDistance with
  | none => simp
  | some v =>
    simp only [decide_eq_false_iff_not, Option.some.injEq, forall_eq']
    constructor
    · intro h hv
      by_contra hc
      exact h ⟨hv, by push Not at hc; exact hc⟩
    · rintro h ⟨hv, hc⟩
      exact absurd (h hv) (by push Not; exact hc)

theorem onsets_spec {cfg : InvCfg} {arrivals : Dict String (List Arrival)} {ev : Event}
    {ori : Origin} {d : ℝ} {sta : String} {x : Option ℝ × Option ℝ}
    (har : cfg.usePicks = true → ∃ o, getArrivals ev = .ok o ∧ arrivals.get? (getEventid ev) = o)
    (hx : onsets cfg arrivals ori d (getEventid ev, sta) = .ok x) (p s : ℝ) :
    x = (some p, some s) ↔ Spec.Onsets cfg ev ori d sta p s := by
  unfold onsets at hx
  obtain ⟨ps, hps, hx⟩ := bind_ok.1 hx
  unfold firstOnsets at hps
  unfold Spec.Onsets
  by_cases hu : cfg.usePicks = true
  · rw [if_pos hu] at hps
    obtain ⟨o, ho, hg⟩ := har hu
    rw [hg] at hps
    cases o with
    | none => simp at hps
    | some ar =>
      simp only at hps
      obtain ⟨picks, hp, hps⟩ := bind_ok.1 hps
      simp only [pure, Except.pure, Except.ok.injEq] at hps
      have hP := C38_picks (letter := 'P') (Or.inl rfl) hp
      have hS := C38_picks (letter := 'S') (Or.inr rfl) hp
      simp only [hu, ho, true_and, Except.ok.injEq, Option.some.injEq, exists_eq_left',
        Bool.true_eq_false, false_and, or_false]
      simp only [← hP, ← hS]
      subst hps
      simp only at hx
      cases hpp : picks.get? ['P'] with
      | some t =>
        rw [hpp] at hx
        simp only [pure, Except.pure, Except.ok.injEq] at hx
        rw [← hx]
        simp only [Prod.mk.injEq, Option.some.injEq, exists_eq', not_true_eq_false, false_and,
          or_false]
        exact and_comm
      | none =>
        rw [hpp] at hx
        cases hss : picks.get? ['S'] with
        | none =>
          rw [hss] at hx
          simp only [pure, Except.pure, Except.ok.injEq] at hx
          rw [← hx]
          simp
        | some t =>
          rw [hss] at hx
          cases hv : cfg.vp with
          | none =>
            rw [hv] at hx
            simp only [pure, Except.pure, Except.ok.injEq] at hx
            rw [← hx]
            simp
          | some vp =>
            rw [hv] at hx
            simp only at hx
            by_cases h0 : vp = 0
            · rw [if_pos h0] at hx; simp at hx
            · rw [if_neg h0] at hx
              simp only [pure, Except.pure, Except.ok.injEq] at hx
              rw [← hx]
              simp only [Prod.mk.injEq, Option.some.injEq, reduceCtorEq, exists_false,
                not_false_eq_true, true_and, exists_eq_left', false_or]
              constructor
              · rintro ⟨rfl, rfl⟩; exact ⟨rfl, rfl⟩
              · rintro ⟨rfl, rfl⟩; exact ⟨rfl, rfl⟩
  · rw [if_neg hu] at hps
    simp only [hu, false_and, false_or]
    simp only [Bool.not_eq_true] at hu
    cases hvs : cfg.vs with
    | none => rw [hvs] at hps; simp at hps
    | some vs =>
      rw [hvs] at hps
      simp only at hps
      by_cases h0 : vs = 0
      · rw [if_pos h0] at hps; simp at hps
      · rw [if_neg h0] at hps
        simp only [Except.ok.injEq] at hps
        subst hps
        simp only at hx
        cases hv : cfg.vp with
        | none =>
          rw [hv] at hx
          simp only [pure, Except.pure, Except.ok.injEq] at hx
          rw [← hx]
          simp
        | some vp =>
          rw [hv] at hx
          simp only at hx
          by_cases h0 : vp = 0
          · rw [if_pos h0] at hx; simp at hx
          · rw [if_neg h0] at hx
            simp only [pure, Except.pure, Except.ok.injEq] at hx
            rw [← hx]
            simp only [Prod.mk.injEq, Option.some.injEq, true_and]
            constructor
            · rintro ⟨rfl, rfl⟩; exact Or.inr ⟨vp, vs, rfl, rfl, rfl, rfl⟩
            · rintro (⟨hf, _⟩ | ⟨_, _, rfl, rfl, rfl, rfl⟩)
              · exact absurd hf (by simp)
              · exact ⟨rfl, rfl⟩

theorem covers_spec (tol t1 t2 : ℝ) (tr : RawTrace) :
    covers tol t1 t2 tr = true ↔ Spec.Covers tol t1 t2 tr := by
  unfold covers Spec.Covers
  simp only [decide_eq_true_eq]
  constructor
  · rintro ⟨h1, h2⟩; constructor <;> linarith
  · rintro ⟨h1, h2⟩; constructor <;> linarith

theorem checkData_spec {t1 t2 : ℝ} {raw : Option (List RawTrace)} {traces : List RawTrace} :
    (checkData env cfg t1 t2 raw = some traces ∧ traces.length = 3) ↔
    ∃ l, raw = some l ∧ l ≠ [] ∧ env.numGaps l = 0 ∧ traces = env.merge l ∧ traces.length = 3 ∧
      ∀ tr ∈ traces, Spec.Covers cfg.tolerance t1 t2 tr := by
  cases raw with
  | none => simp [checkData]
  | some l =>
    cases l with
    | nil =>
      simp only [checkData, Option.some.injEq, exists_eq_left', ne_eq, not_true_eq_false, false_and,
        iff_false, not_and, exists_false]
      rintro rfl; simp
    | cons a l =>
      simp only [checkData, Option.some.injEq, exists_eq_left', ne_eq, reduceCtorEq,
        not_false_eq_true, true_and]
      by_cases hg : env.numGaps (a :: l) > 0
      · rw [if_pos hg]
        constructor
        · rintro ⟨h, _⟩; simp at h
        · rintro ⟨h, _⟩; omega
      · rw [if_neg hg]
        have hg0 : env.numGaps (a :: l) = 0 := by omega
        by_cases hc : (env.merge (a :: l)).all (covers cfg.tolerance t1 t2) = true
        · rw [if_pos hc]
          simp only [Option.some.injEq]
          constructor
          · rintro ⟨rfl, h3⟩
            refine ⟨hg0, rfl, h3, ?_⟩
            intro tr htr
            exact (covers_spec _ _ _ _).1 (List.all_eq_true.1 hc tr htr)
          · rintro ⟨_, rfl, h3, _⟩; exact ⟨rfl, h3⟩
        · rw [if_neg hc]
          constructor
          · rintro ⟨h, _⟩; simp at h
          · rintro ⟨_, rfl, _, h⟩
            exfalso
            apply hc
            rw [List.all_eq_true]
            intro tr htr
            exact (covers_spec _ _ _ _).2 (h tr htr)

end Qopen.Invert
