import Verif.Lemmas.JoinAreas
import Verif.Spec.JoinAreas

/-!
# Lemmas for the joining of unconnected areas: coordinates, hulls and distances at the start
-/

namespace Qopen.Join

open Spec

variable {K : Type} [Field K] [LinearOrder K] {geo : Geo K} {coords : Dict String (K × K)}

omit [Field K] in
theorem byCoordinate_fold (c : K × K) : ∀ (l : Dict String (K × K)) (acc : Dict (K × K) String),
    (∀ s, Dict.get? (l.foldl (fun d p => Dict.set d p.2 p.1) acc) c = some s →
      (s, c) ∈ l ∨ Dict.get? acc c = some s) ∧
    ((∃ s, (s, c) ∈ l) ∨ (Dict.get? acc c).isSome →
      (Dict.get? (l.foldl (fun d p => Dict.set d p.2 p.1) acc) c).isSome) := by
  intro l
  induction l with
  | nil => intro acc; simp
  | cons a l ih =>
    intro acc
    obtain ⟨s0, c0⟩ := a
    obtain ⟨h1, h2⟩ := ih (Dict.set acc c0 s0)
    rw [List.foldl_cons]
    constructor
    · intro s hs
      rcases h1 s hs with h | h
      · exact .inl (by simp [h])
      · rw [Dict.get?_set] at h
        split at h
        · next e => subst e; obtain rfl := Option.some.inj h; exact .inl (by simp)
        · exact .inr h
    · intro h
      apply h2
      by_cases e : c0 = c
      · subst e; right; simp
      · rcases h with ⟨s, h⟩ | h
        · rcases List.mem_cons.1 h with h | h
          · simp only [Prod.mk.injEq] at h; exact absurd h.2.symm e
          · exact .inl ⟨s, h⟩
        · right; rw [Dict.get?_set_ne _ _ e]; exact h

omit [Field K] in
theorem byCoordinate_get (hw : Dict.WF coords)
    (hd : ∀ s s' c, Dict.get? coords s = some c → Dict.get? coords s' = some c → s = s')
    {c : K × K} {s : String} :
    Dict.get? (byCoordinate coords) c = some s ↔ Dict.get? coords s = some c := by
  obtain ⟨h1, h2⟩ := byCoordinate_fold c coords []
  constructor
  · intro h
    rcases h1 s h with h | h
    · exact Dict.get?_of_mem hw h
    · simp at h
  · intro h
    obtain ⟨s', hs'⟩ := Option.isSome_iff_exists.1 (h2 (.inl ⟨s, Dict.mem_of_get? h⟩))
    rcases h1 s' hs' with h' | h'
    · rw [hd s s' c h (Dict.get?_of_mem hw h')]; exact hs'
    · simp at h'

theorem mapExc_lookup {κ α : Type} [DecidableEq κ] {d : Dict κ α} {l : List κ} {l' : List α}
    (h : mapExc (lookup d) l = .ok l') :
    l' = l.filterMap (Dict.get? d) ∧ ∀ k ∈ l, ∃ v, Dict.get? d k = some v := by
  rw [mapExc_ok] at h
  induction h with
  | nil => simp
  | cons h1 _ ih =>
    rw [lookup_ok] at h1
    refine ⟨by simp [h1, ih.1], ?_⟩
    intro k hk
    rcases List.mem_cons.1 hk with rfl | hk
    · exact ⟨_, h1⟩
    · exact ih.2 k hk

theorem mapExc_lookup_ok {κ α : Type} [DecidableEq κ] {d : Dict κ α} {l : List κ}
    (h : ∀ k ∈ l, ∃ v, Dict.get? d k = some v) :
    mapExc (lookup d) l = .ok (l.filterMap (Dict.get? d)) := by
  induction l with
  | nil => rfl
  | cons k l ih =>
    obtain ⟨v, hv⟩ := h k (by simp)
    simp only [mapExc, lookup_ok.2 hv, ih (fun k hk => h k (by simp [hk])), bind, Except.bind, pure,
      Except.pure, List.filterMap_cons, hv]

theorem hullOf_corner (hg : GoodGeo geo coords) (hw : Dict.WF coords) {X H : Finset String}
    (h : hullOf geo coords X = .ok H) :
    H.Nonempty ∧ (∀ s, s ∈ H ↔ ∃ c, Corner geo coords X s c) := by
  unfold hullOf at h
  rw [bind_ok] at h
  obtain ⟨pts, h1, h⟩ := h
  rw [bind_ok] at h
  obtain ⟨cs, h2, h⟩ := h
  rw [bind_ok] at h
  obtain ⟨names, h3, h⟩ := h
  simp only [Except.ok.injEq] at h
  subst h
  obtain ⟨e1, k1⟩ := mapExc_lookup h1
  obtain ⟨e3, k3⟩ := mapExc_lookup h3
  obtain ⟨hne, hsub⟩ := hg.hull _ _ h2
  have hmem : ∀ s, s ∈ names.toFinset ↔ ∃ c, Corner geo coords X s c := by
    intro s
    rw [List.mem_toFinset, e3, List.mem_filterMap]
    constructor
    · rintro ⟨c, hc, hs⟩
      rw [byCoordinate_get hw hg.distinct] at hs
      refine ⟨c, ?_, hs, cs, by rw [← e1]; exact h2, hc⟩
      have := hsub c hc
      rw [e1, List.mem_filterMap] at this
      obtain ⟨s', hs', hc'⟩ := this
      rw [hg.distinct s s' c hs hc']
      exact (hg.iter _ _).1 hs'
    · rintro ⟨c, -, hs, cs', h2', hc⟩
      rw [← e1, h2, Except.ok.injEq] at h2'
      subst h2'
      exact ⟨c, hc, (byCoordinate_get hw hg.distinct).2 hs⟩
  refine ⟨?_, hmem⟩
  obtain ⟨c, hc⟩ := List.exists_mem_of_ne_nil _ hne
  obtain ⟨s, hs⟩ := k3 c hc
  exact ⟨s, List.mem_toFinset.2 (by rw [e3, List.mem_filterMap]; exact ⟨c, hc, hs⟩)⟩

theorem hullOf_ok (hg : GoodGeo geo coords) (hw : Dict.WF coords) {X : Finset String}
    (hX : ∀ s ∈ X, s ∈ Dict.keys coords)
    (hh : ∃ cs, geo.hull ((geo.iter X).filterMap (Dict.get? coords)) = .ok cs) :
    ∃ H, hullOf geo coords X = .ok H := by
  obtain ⟨cs, hcs⟩ := hh
  have h1 := mapExc_lookup_ok (d := coords) (l := geo.iter X) (fun k hk =>
    Option.isSome_iff_exists.1 ((Dict.get?_isSome _ _).2 (hX k ((hg.iter _ _).1 hk))))
  have h3 := mapExc_lookup_ok (d := byCoordinate coords) (l := cs) (fun c hc => by
    obtain ⟨s, -, hs⟩ := List.mem_filterMap.1 ((hg.hull _ _ hcs).2 c hc)
    exact ⟨s, (byCoordinate_get hw hg.distinct).2 hs⟩)
  exact ⟨(cs.filterMap (Dict.get? (byCoordinate coords))).toFinset, by
    simp only [hullOf, h1, hcs, h3, bind, Except.bind]⟩

omit [Field K] in
theorem hullsOf_get {A hulls : Dict String (Finset String)} (h : hullsOf geo coords A = .ok hulls) :
    Dict.keys hulls = Dict.keys A ∧
    ∀ a X, Dict.get? A a = some X →
      ∃ H, Dict.get? hulls a = some H ∧ hullOf geo coords X = .ok H := by
  induction A generalizing hulls with
  | nil =>
    simp only [hullsOf, Except.ok.injEq] at h
    subst h
    simp
  | cons p A ih =>
    obtain ⟨n, X0⟩ := p
    rw [hullsOf, bind_ok] at h
    obtain ⟨H0, h0, h⟩ := h
    rw [bind_ok] at h
    obtain ⟨r, hr, h⟩ := h
    simp only [Except.ok.injEq] at h
    subst h
    obtain ⟨k, ih⟩ := ih hr
    refine ⟨by simp [k], ?_⟩
    intro a X hX
    rw [Dict.get?_cons] at hX ⊢
    split at hX
    · obtain rfl := Option.some.inj hX
      exact ⟨H0, by simp_all, h0⟩
    · next hn =>
      obtain ⟨H, h1, h2⟩ := ih a X hX
      exact ⟨H, by simp [hn, h1], h2⟩

omit [Field K] in
theorem hullsOf_ok {A : Dict String (Finset String)}
    (h : ∀ a X, (a, X) ∈ A → ∃ H, hullOf geo coords X = .ok H) :
    ∃ hulls, hullsOf geo coords A = .ok hulls := by
  induction A with
  | nil => exact ⟨[], rfl⟩
  | cons p A ih =>
    obtain ⟨n, X0⟩ := p
    obtain ⟨H, hH⟩ := h n X0 (by simp)
    obtain ⟨r, hr⟩ := ih (fun a X hX => h a X (by simp [hX]))
    exact ⟨(n, H) :: r, by simp only [hullsOf, hH, hr, bind, Except.bind]⟩

section
variable [IsStrictOrderedRing K]

theorem nearest_spec (hi : ∀ X s, s ∈ geo.iter X ↔ s ∈ X) {H1 H2 : Finset String} {e : Entry K}
    (h : nearest geo coords H1 H2 = .ok e) :
    e.2.1 ∈ H1 ∧ e.2.2 ∈ H2 ∧
    (∃ c1 c2, Dict.get? coords e.2.1 = some c1 ∧ Dict.get? coords e.2.2 = some c2 ∧
      e.1 = geo.dist c1 c2 / 1000) ∧
    ∀ s ∈ H1, ∀ s' ∈ H2, ∀ c c', Dict.get? coords s = some c → Dict.get? coords s' = some c' →
      e.1 ≤ geo.dist c c' / 1000 := by
  unfold nearest at h
  rw [bind_ok] at h
  obtain ⟨dists, h1, h⟩ := h
  split at h
  · cases h
  · next mink d hm =>
    simp only [Except.ok.injEq] at h
    subst h
    have hmem := minItem_mem hm
    have hmin := minItem_le hm
    have h1' := mapExc_ok.1 h1
    have hall : ∀ q ∈ dists, q.1.1 ∈ H1 ∧ q.1.2 ∈ H2 ∧ ∃ c1 c2, Dict.get? coords q.1.1 = some c1 ∧
        Dict.get? coords q.1.2 = some c2 ∧ q.2 = geo.dist c1 c2 := by
      intro q hq
      obtain ⟨i, hi', hqi⟩ := List.mem_iff_getElem.1 hq
      obtain ⟨hlen, hf⟩ := List.forall₂_iff_get.1 h1'
      have := hf i (by omega) hi'
      simp only [List.get_eq_getElem, hqi] at this
      generalize hp : ((geo.iter H1).flatMap (fun s1 => (geo.iter H2).map
        (fun s2 => (s1, s2))))[i]'(by omega) = p at this
      have hpm : p ∈ (geo.iter H1).flatMap (fun s1 => (geo.iter H2).map (fun s2 => (s1, s2))) := by
        rw [← hp]; exact List.getElem_mem _
      rw [stationDist, bind_ok] at this
      obtain ⟨c1, hc1, this⟩ := this
      rw [bind_ok] at this
      obtain ⟨c2, hc2, this⟩ := this
      simp only [Except.ok.injEq] at this
      subst this
      simp only [List.mem_flatMap, List.mem_map] at hpm
      obtain ⟨s1, hs1, s2, hs2, rfl⟩ := hpm
      exact ⟨(hi _ _).1 hs1, (hi _ _).1 hs2, c1, c2, lookup_ok.1 hc1, lookup_ok.1 hc2, rfl⟩
    obtain ⟨m1, m2, c1, c2, g1, g2, hd⟩ := hall _ hmem
    refine ⟨m1, m2, ⟨c1, c2, g1, g2, by simp only at hd ⊢; rw [hd]⟩, ?_⟩
    intro s hs s' hs' c c' hc hc'
    have : ((s, s'), geo.dist c c') ∈ dists := by
      have hp : (s, s') ∈ (geo.iter H1).flatMap
          (fun s1 => (geo.iter H2).map (fun s2 => (s1, s2))) := by
        simp only [List.mem_flatMap, List.mem_map]
        exact ⟨s, (hi _ _).2 hs, s', (hi _ _).2 hs', rfl⟩
      obtain ⟨i, hi', hpi⟩ := List.mem_iff_getElem.1 hp
      obtain ⟨hlen, hf⟩ := List.forall₂_iff_get.1 h1'
      have := hf i hi' (by omega)
      simp only [List.get_eq_getElem, hpi, stationDist, lookup_ok.2 hc, lookup_ok.2 hc', bind,
        Except.bind, Except.ok.injEq] at this
      rw [this]
      exact List.getElem_mem _
    exact div_le_div_of_nonneg_right (hmin _ this) (by norm_num)

theorem nearest_ok (hi : ∀ X s, s ∈ geo.iter X ↔ s ∈ X) {H1 H2 : Finset String}
    (n1 : H1.Nonempty) (n2 : H2.Nonempty) (g1 : ∀ s ∈ H1, ∃ c, Dict.get? coords s = some c)
    (g2 : ∀ s ∈ H2, ∃ c, Dict.get? coords s = some c) :
    ∃ e, nearest geo coords H1 H2 = .ok e := by
  have : ∃ dists, mapExc (stationDist geo coords)
      ((geo.iter H1).flatMap (fun s1 => (geo.iter H2).map (fun s2 => (s1, s2)))) = .ok dists := by
    have key : ∀ l : List (String × String), (∀ p ∈ l, p.1 ∈ H1 ∧ p.2 ∈ H2) →
        ∃ dists, mapExc (stationDist geo coords) l = .ok dists := by
      intro l hl
      induction l with
      | nil => exact ⟨[], rfl⟩
      | cons p l ih =>
        obtain ⟨d, hd⟩ := ih (fun p hp => hl p (by simp [hp]))
        obtain ⟨p1, p2⟩ := hl p (by simp)
        obtain ⟨c1, hc1⟩ := g1 _ p1
        obtain ⟨c2, hc2⟩ := g2 _ p2
        exact ⟨_, by simp only [mapExc, stationDist, lookup_ok.2 hc1, lookup_ok.2 hc2, hd, bind,
          Except.bind, pure, Except.pure]; rfl⟩
    apply key
    intro p hp
    simp only [List.mem_flatMap, List.mem_map] at hp
    obtain ⟨s1, hs1, s2, hs2, rfl⟩ := hp
    exact ⟨(hi _ _).1 hs1, (hi _ _).1 hs2⟩
  obtain ⟨dists, hd⟩ := this
  have hne : dists ≠ [] := by
    rintro rfl
    have := mapExc_length hd
    obtain ⟨s1, hs1⟩ := n1
    obtain ⟨s2, hs2⟩ := n2
    have hp : (s1, s2) ∈ (geo.iter H1).flatMap
        (fun s1 => (geo.iter H2).map (fun s2 => (s1, s2))) := by
      simp only [List.mem_flatMap, List.mem_map]
      exact ⟨s1, (hi _ _).2 hs1, s2, (hi _ _).2 hs2, rfl⟩
    rw [List.eq_nil_of_length_eq_zero this.symm] at hp
    simp at hp
  have : ∃ m, minItem (fun x y => decide (x < y)) dists = some m := by
    rw [← Option.ne_none_iff_exists']
    rw [Ne, minItem_none]
    exact hne
  obtain ⟨m, hm⟩ := this
  exact ⟨(m.2 / 1000, m.1), by simp only [nearest, hd, bind, Except.bind, hm]⟩

end

theorem distances_spec {hulls : Dict String (Finset String)} {l : List (String × String)} :
    ∀ {d d' : Dict (Sym2 String) (Entry K)}, distances geo coords hulls d l = .ok d' →
    (Dict.WF d → Dict.WF d') ∧
    (∀ p e, Dict.get? d' p = some e → Dict.get? d p = some e ∨
      ∃ a1 a2 H1 H2, (a1, a2) ∈ l ∧ a1 ≠ a2 ∧ p = s(a1, a2) ∧ Dict.get? hulls a1 = some H1 ∧
        Dict.get? hulls a2 = some H2 ∧ nearest geo coords H1 H2 = .ok e) ∧
    (∀ a1 a2, (a1, a2) ∈ l → a1 ≠ a2 → (Dict.get? d' s(a1, a2)).isSome) ∧
    ∀ p, (Dict.get? d p).isSome → (Dict.get? d' p).isSome := by
  induction l with
  | nil =>
    intro d d' h
    simp only [distances, Except.ok.injEq] at h
    subst h
    exact ⟨id, fun p e h => .inl h, by simp, fun p h => h⟩
  | cons q l ih =>
    obtain ⟨b1, b2⟩ := q
    intro d d' h
    rw [distances] at h
    split at h
    · next hc =>
      obtain ⟨h1, h2, h3, h4⟩ := ih h
      refine ⟨h1, ?_, ?_, h4⟩
      · intro p e he
        rcases h2 p e he with h | ⟨a1, a2, H1, H2, hm, r⟩
        · exact .inl h
        · exact .inr ⟨a1, a2, H1, H2, by simp [hm], r⟩
      · intro a1 a2 hm hne
        rcases List.mem_cons.1 hm with hm | hm
        · simp only [Prod.mk.injEq] at hm
          obtain ⟨rfl, rfl⟩ := hm
          exact h4 _ (hc.resolve_right hne)
        · exact h3 a1 a2 hm hne
    · next hc =>
      rw [not_or] at hc
      rw [bind_ok] at h
      obtain ⟨H1, hH1, h⟩ := h
      rw [bind_ok] at h
      obtain ⟨H2, hH2, h⟩ := h
      rw [bind_ok] at h
      obtain ⟨e0, he0, h⟩ := h
      obtain ⟨h1, h2, h3, h4⟩ := ih h
      refine ⟨fun hw => h1 (Dict.WF_set hw _ _), ?_, ?_, ?_⟩
      · intro p e he
        rcases h2 p e he with h | ⟨a1, a2, G1, G2, hm, r⟩
        · rw [Dict.get?_set] at h
          split at h
          · next hp =>
            obtain rfl := Option.some.inj h
            exact .inr ⟨b1, b2, H1, H2, by simp, hc.2, hp.symm, lookup_ok.1 hH1, lookup_ok.1 hH2, he0⟩
          · exact .inl h
        · exact .inr ⟨a1, a2, G1, G2, by simp [hm], r⟩
      · intro a1 a2 hm hne
        rcases List.mem_cons.1 hm with hm | hm
        · simp only [Prod.mk.injEq] at hm
          obtain ⟨rfl, rfl⟩ := hm
          exact h4 _ (by simp)
        · exact h3 a1 a2 hm hne
      · intro p hp
        apply h4
        rw [Dict.get?_set]
        split
        · rfl
        · exact hp

theorem distances_ok {hulls : Dict String (Finset String)} {l : List (String × String)}
    (h : ∀ a1 a2, (a1, a2) ∈ l → ∃ H1 H2 e, Dict.get? hulls a1 = some H1 ∧
      Dict.get? hulls a2 = some H2 ∧ nearest geo coords H1 H2 = .ok e) :
    ∀ d, ∃ d', distances geo coords hulls d l = .ok d' := by
  induction l with
  | nil => intro d; exact ⟨d, rfl⟩
  | cons q l ih =>
    obtain ⟨b1, b2⟩ := q
    intro d
    rw [distances]
    split
    · exact ih (fun a1 a2 hm => h a1 a2 (by simp [hm])) d
    · obtain ⟨H1, H2, e, h1, h2, h3⟩ := h b1 b2 (by simp)
      obtain ⟨d', hd'⟩ := ih (fun a1 a2 hm => h a1 a2 (by simp [hm])) (Dict.set d s(b1, b2) e)
      exact ⟨d', by simp only [lookup_ok.2 h1, lookup_ok.2 h2, h3, bind, Except.bind]; exact hd'⟩

theorem addStations_WF {net : String} {l : List (InvSta K)} : ∀ {d d' : Dict String (K × K)},
    Dict.WF d → addStations net d l = .ok d' → Dict.WF d' := by
  induction l with
  | nil => intro d d' hd h; simp only [addStations, Except.ok.injEq] at h; rw [← h]; exact hd
  | cons s l ih =>
    intro d d' hd h
    rw [addStations, bind_ok] at h
    obtain ⟨d1, h1, h⟩ := h
    refine ih ?_ h
    unfold addStation at h1
    split at h1
    · cases h1
    · simp only [Except.ok.injEq] at h1
      rw [← h1]; exact Dict.WF_set hd _ _

theorem collectCoordinates_WF {l : List (InvNet K)} : ∀ {d d' : Dict String (K × K)},
    Dict.WF d → collectCoordinates d l = .ok d' → Dict.WF d' := by
  induction l with
  | nil => intro d d' hd h; simp only [collectCoordinates, Except.ok.injEq] at h; rw [← h]; exact hd
  | cons s l ih =>
    intro d d' hd h
    rw [collectCoordinates, bind_ok] at h
    obtain ⟨d1, h1, h⟩ := h
    exact ih (addStations_WF hd h1) h

end Qopen.Join
