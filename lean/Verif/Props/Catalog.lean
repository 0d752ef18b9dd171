import Verif.Model.Catalog
import Mathlib.Data.List.TakeWhile
import Mathlib.Data.List.Induction

/-!
# Station names, event ids, origins, magnitudes, arrivals and picks (C37, C38)
-/

namespace Qopen

open Catalog

namespace Spec

/-- A SEED id `NET.STA.LOC.CHA`. -/
def seedId (net sta loc cha : List Char) : String :=
  String.ofList (net ++ '.' :: (sta ++ '.' :: (loc ++ '.' :: cha)))

/-- The station name: `NET.STA`, or `STA` for an empty network. -/
def stationName (net sta : List Char) : String :=
  if net = [] then String.ofList sta else String.ofList (net ++ '.' :: sta)

/-- The arrival is of the phase with the given letter, e.g. `p`, `P`, `Pg`, `PG`. -/
def IsPhase (letter : Char) (a : Arrival) : Prop :=
  a.phase.toList.map Char.toUpper = [letter] ∨ a.phase.toList.map Char.toUpper = [letter, 'G']

/-- `t` is the time of the last pick of the phase at the station. -/
def LastPick (letter : Char) (arrivals : List Arrival) (station : String) (t : ℝ) : Prop :=
  ∃ pre a p post, arrivals = pre ++ a :: post ∧ IsPhase letter a ∧ a.pick = some p ∧
    getStation p.seedid = station ∧ t = p.time ∧
    ∀ a' ∈ post, IsPhase letter a' → ∀ p', a'.pick = some p' → getStation p'.seedid ≠ station

end Spec

namespace Catalog

theorem rcut_append (sep : Char) (s t : List Char) (h : sep ∉ t) :
    rcut sep (s ++ sep :: t) = s := by
  unfold rcut
  rw [if_pos (by simp)]
  have hd : (s ++ sep :: t).reverse = t.reverse ++ sep :: s.reverse := by simp
  rw [hd, List.dropWhile_append_of_pos]
  · simp
  · intro a ha
    simp only [List.mem_reverse] at ha
    simp only [decide_eq_true_eq]
    rintro rfl
    exact h ha

theorem rcut_of_not_mem (sep : Char) (s : List Char) (h : sep ∉ s) : rcut sep s = s := by
  unfold rcut; rw [if_neg h]

theorem lastPart_append (sep : Char) (s t : List Char) (h : sep ∉ t) :
    lastPart sep (s ++ sep :: t) = t := by
  unfold lastPart
  have hd : (s ++ sep :: t).reverse = t.reverse ++ sep :: s.reverse := by simp
  rw [hd, List.takeWhile_append_of_pos]
  · simp
  · intro a ha
    simp only [List.mem_reverse] at ha
    simp only [decide_eq_true_eq]
    rintro rfl
    exact h ha

theorem lastPart_of_not_mem (sep : Char) (s : List Char) (h : sep ∉ s) : lastPart sep s = s := by
  unfold lastPart
  rw [List.takeWhile_eq_self_iff.2, List.reverse_reverse]
  intro a ha
  simp only [List.mem_reverse] at ha
  simp only [decide_eq_true_eq]
  rintro rfl
  exact h ha

theorem last_split {sep : Char} {s : List Char} (h : sep ∈ s) :
    ∃ pre t, s = pre ++ sep :: t ∧ sep ∉ t := by
  obtain ⟨as, bs, h1, h2⟩ := List.eq_append_cons_of_mem (List.mem_reverse.2 h)
  refine ⟨bs.reverse, as.reverse, ?_, by simpa using h2⟩
  have := congrArg List.reverse h1
  simpa using this

end Catalog

/-! ## C37 -/

/-- **C37**: The station name of the SEED id `NET.STA.LOC.CHA` is `NET.STA` (`STA` for an empty
network), whatever location and channel are. -/
theorem C37_station_name (net sta loc cha : List Char) (hn : '.' ∉ net)
    (hl : '.' ∉ loc) (hc : '.' ∉ cha) :
    getStation (Spec.seedId net sta loc cha) = Spec.stationName net sta := by
  unfold getStation Spec.seedId Spec.stationName
  simp only [String.toList_ofList]
  have e : net ++ '.' :: (sta ++ '.' :: (loc ++ '.' :: cha)) =
      ((net ++ '.' :: sta) ++ '.' :: loc) ++ '.' :: cha := by simp
  rw [e, rcut_append _ _ _ hc, rcut_append _ _ _ hl]
  cases net with
  | nil => simp
  | cons a l =>
    have : a ≠ '.' := fun h => hn (by simp [h])
    simp [this]

example : getStation (Spec.seedId "GR".toList "BFO".toList "00".toList "BHZ".toList) = "GR.BFO" := by
  rw [C37_station_name _ _ _ _ (by decide) (by decide) (by decide)]
  decide

example : getStation (Spec.seedId [] "BFO".toList [] "BHZ".toList) = "BFO" := by
  rw [C37_station_name _ _ _ _ (by decide) (by decide) (by decide)]
  decide

/-- **C37**: Different stations have different names, the same station has the same name in all of
its channels. -/
theorem C37_station_name_injective {net sta loc cha net' sta' loc' cha' : List Char}
    (hn : '.' ∉ net) (hs : '.' ∉ sta) (hl : '.' ∉ loc) (hc : '.' ∉ cha)
    (hn' : '.' ∉ net') (hs' : '.' ∉ sta') (hl' : '.' ∉ loc') (hc' : '.' ∉ cha') :
    getStation (Spec.seedId net sta loc cha) = getStation (Spec.seedId net' sta' loc' cha') ↔
      net = net' ∧ sta = sta' := by
  rw [C37_station_name _ _ _ _ hn hl hc, C37_station_name _ _ _ _ hn' hl' hc']
  constructor
  · intro h
    unfold Spec.stationName at h
    have key : ∀ {a b c : List Char}, '.' ∉ a → a ≠ b ++ '.' :: c := by
      rintro a b c h1 rfl
      exact h1 (by simp)
    split at h <;> split at h
    · next h1 h2 => exact ⟨h1.trans h2.symm, String.ofList_injective h⟩
    · exact absurd (String.ofList_injective h) (key hs)
    · exact absurd (String.ofList_injective h).symm (key hs')
    · have h := String.ofList_injective h
      have h2 := congrArg (rcut '.') h
      rw [rcut_append _ _ _ hs, rcut_append _ _ _ hs'] at h2
      subst h2
      simpa using h
  · rintro ⟨rfl, rfl⟩; rfl

/-- **C37**: The event id is the part of the resource id after the last slash. -/
theorem C37_event_id (ev : Event) (id : List Char) (h : '/' ∉ id) :
    getEventid ev = String.ofList id ↔
      ev.resourceId = String.ofList id ∨ ∃ pre, ev.resourceId = String.ofList (pre ++ '/' :: id) := by
  unfold getEventid
  constructor
  · intro he
    have he := String.ofList_injective he
    by_cases hm : '/' ∈ ev.resourceId.toList
    · right
      obtain ⟨pre, t, hpt, ht⟩ := last_split hm
      exact ⟨pre, by
        rw [hpt, lastPart_append _ _ _ ht] at he
        rw [← he, ← hpt, String.ofList_toList]⟩
    · left
      rw [lastPart_of_not_mem _ _ hm] at he
      rw [← he, String.ofList_toList]
  · rintro (he | ⟨pre, he⟩)
    · rw [he, String.toList_ofList, lastPart_of_not_mem _ _ h]
    · rw [he, String.toList_ofList, lastPart_append _ _ _ h]

example : getEventid ⟨"quakeml:x/y/2012abc", none, [], none, []⟩ = "2012abc" :=
  (C37_event_id _ "2012abc".toList (by decide)).2 (Or.inr ⟨"quakeml:x/y".toList, by decide⟩)

/-! ## C38 -/

/-- **C38**: The origin is the preferred one, else the first one, else there is an `IndexError`. -/
theorem C38_origin (ev : Event) :
    (∀ o, ev.preferredOrigin = some o → getOrigin ev = .ok o) ∧
    (∀ o l, ev.preferredOrigin = none → ev.origins = o :: l → getOrigin ev = .ok o) ∧
    (ev.preferredOrigin = none → ev.origins = [] → getOrigin ev = .error .indexError) := by
  refine ⟨?_, ?_, ?_⟩
  · intro o h; simp [getOrigin, h]
  · intro o l h h'; simp [getOrigin, h, h', pyGet]
  · intro h h'; simp [getOrigin, h, h', pyGet]

/-- **C38**: The magnitude is the preferred one, else the first one, else none. -/
theorem C38_magnitude (ev : Event) :
    (∀ m, ev.preferredMagnitude = some m → getMagnitude ev = some m) ∧
    (∀ m l, ev.preferredMagnitude = none → ev.magnitudes = m :: l → getMagnitude ev = some m) ∧
    (ev.preferredMagnitude = none → ev.magnitudes = [] → getMagnitude ev = none) := by
  refine ⟨?_, ?_, ?_⟩
  · intro o h; simp [getMagnitude, h]
  · intro o l h h'; simp [getMagnitude, h, h']
  · intro h h'; simp [getMagnitude, h, h']

/-- **C38**: The arrivals are those of the origin; if it has none, those of the first origin; if
this has none, those of the only origin with arrivals. Otherwise there are none. -/
theorem C38_arrivals {ev : Event} {o o1 : Origin} {rest : List Origin}
    (ho : getOrigin ev = .ok o) (h1 : ev.origins = o1 :: rest) :
    (o.arrivals ≠ [] → getArrivals ev = .ok (some o.arrivals)) ∧
    (o.arrivals = [] → o1.arrivals ≠ [] → getArrivals ev = .ok (some o1.arrivals)) ∧
    (∀ pre o2 post, o.arrivals = [] → o1.arrivals = [] → rest = pre ++ o2 :: post →
      o2.arrivals ≠ [] → (∀ o' ∈ pre ++ post, o'.arrivals = []) →
      getArrivals ev = .ok (some o2.arrivals)) ∧
    (∀ pre o2 mid o3 post, o.arrivals = [] → o1.arrivals = [] →
      rest = pre ++ o2 :: (mid ++ o3 :: post) → o2.arrivals ≠ [] → o3.arrivals ≠ [] →
      getArrivals ev = .ok none) ∧
    (o.arrivals = [] → (∀ o' ∈ ev.origins, o'.arrivals = []) → getArrivals ev = .ok none) := by
  have hg : pyGet ev.origins 0 = .ok o1 := by simp [h1, pyGet]
  have hz : ∀ (l : List Origin), (∀ o' ∈ l, o'.arrivals = []) →
      (l.map Origin.arrivals).filter (fun a => decide (a.length > 0)) = [] := by
    intro l hl
    rw [List.filter_eq_nil_iff]
    intro a ha
    obtain ⟨o', ho', rfl⟩ := List.mem_map.1 ha
    simp [hl o' ho']
  refine ⟨?_, ?_, ?_, ?_, ?_⟩
  · intro h
    unfold getArrivals
    simp only [ho, bind, Except.bind]
    rw [if_pos (List.length_pos_iff.2 h)]
    rfl
  · intro h h'
    unfold getArrivals
    simp only [ho, hg, bind, Except.bind]
    rw [if_neg (by simp [h]), if_pos (List.length_pos_iff.2 h')]
    rfl
  · intro pre o2 post h h' hr h2 hall
    unfold getArrivals
    simp only [ho, hg, bind, Except.bind]
    rw [if_neg (by simp [h]), if_neg (by simp [h'])]
    have e : (ev.origins.map Origin.arrivals).filter (fun a => decide (a.length > 0)) =
        [o2.arrivals] := by
      rw [h1, hr, List.map_cons, List.map_append, List.map_cons, List.filter_cons_of_neg (by simp [h']),
        List.filter_append, List.filter_cons_of_pos (by simpa using List.length_pos_iff.2 h2),
        hz pre (fun o' ho' => hall o' (by simp [ho'])),
        hz post (fun o' ho' => hall o' (by simp [ho']))]
      rfl
    rw [e]
    rfl
  · intro pre o2 mid o3 post h h' hr h2 h3
    unfold getArrivals
    simp only [ho, hg, bind, Except.bind]
    rw [if_neg (by simp [h]), if_neg (by simp [h'])]
    have e : 2 ≤ ((ev.origins.map Origin.arrivals).filter (fun a => decide (a.length > 0))).length := by
      rw [h1, hr, List.map_cons, List.map_append, List.map_cons, List.map_append, List.map_cons,
        List.filter_cons_of_neg (by simp [h']),
        List.filter_append, List.filter_cons_of_pos (by simpa using List.length_pos_iff.2 h2),
        List.filter_append, List.filter_cons_of_pos (by simpa using List.length_pos_iff.2 h3)]
      simp only [List.length_append, List.length_cons]
      omega
    generalize (ev.origins.map Origin.arrivals).filter (fun a => decide (a.length > 0)) = l at e
    match l, e with
    | [], e => simp at e
    | [a], e => simp at e
    | a :: b :: l, _ => rfl
  · intro h hall
    unfold getArrivals
    simp only [ho, hg, bind, Except.bind]
    rw [if_neg (by simp [h]), if_neg (by simp [hall o1 (by simp [h1])]), hz _ hall]
    rfl

namespace Catalog

theorem inPS_eq (ph : List Char) : inPS ph = true ↔ ph = [] ∨ ph = ['P'] ∨ ph = ['S'] ∨ ph = ['P', 'S'] := by
  constructor
  · intro h
    simp only [inPS, List.tails, List.any_cons, List.any_nil, Bool.or_false, Bool.or_eq_true,
      List.isPrefixOf_iff_prefix] at h
    rcases h with h | h | h
    · rcases ph with _ | ⟨a, _ | ⟨b, _ | ⟨c, l⟩⟩⟩
      · simp
      · simp [List.cons_prefix_cons] at h; simp [h]
      · simp [List.cons_prefix_cons] at h; simp [h]
      · simp [List.cons_prefix_cons] at h
    · rcases ph with _ | ⟨a, _ | ⟨b, l⟩⟩
      · simp
      · simp [List.cons_prefix_cons] at h; simp [h]
      · simp [List.cons_prefix_cons] at h
    · simp at h; simp [h]
  · rintro (rfl | rfl | rfl | rfl) <;> decide

theorem phaseName_eq (letter : Char) (hl : letter = 'P' ∨ letter = 'S') (a : Arrival) :
    phaseName a.phase = [letter] ↔ Spec.IsPhase letter a := by
  unfold phaseName Spec.IsPhase upper
  rcases hl with rfl | rfl
  · split
    · next h =>
      rcases h with h | h <;> simp [h]
    · next h =>
      push Not at h
      simp [h.1]
  · split
    · next h =>
      rcases h with h | h <;> simp [h]
    · next h =>
      push Not at h
      simp [h.2]

end Catalog

/-- **C38**: The P- and S-picks of a station are the last picks of the phases P, Pg and S, Sg (in
upper or lower case) at this station; there is none if there is no such pick. -/
theorem C38_picks {letter : Char} (hl : letter = 'P' ∨ letter = 'S') {arrivals : List Arrival}
    {station : String} {picks : Dict (List Char) ℝ} (h : getPicks arrivals station = .ok picks)
    (t : ℝ) :
    picks.get? [letter] = some t ↔ Spec.LastPick letter arrivals station t := by
  have hps : inPS [letter] = true := by rcases hl with rfl | rfl <;> decide
  induction arrivals using List.reverseRecOn generalizing picks with
  | nil =>
    unfold getPicks at h
    simp only [List.foldlM_nil, pure, Except.pure, Except.ok.injEq] at h
    subst h
    constructor
    · intro h; simp at h
    · rintro ⟨pre, a, p, post, h, _⟩; simp at h
  | append_singleton l a ih =>
    unfold getPicks at h
    rw [List.foldlM_append] at h
    obtain ⟨d, hd, h⟩ := bind_ok.1 h
    simp only [List.foldlM_cons, List.foldlM_nil] at h
    obtain ⟨d', hd', h⟩ := bind_ok.1 h
    simp only [pure, Except.pure, Except.ok.injEq] at h
    subst h
    have ih := ih hd
    -- the new arrival counts
    by_cases hm : Spec.IsPhase letter a ∧ ∃ p, a.pick = some p ∧ getStation p.seedid = station
    · obtain ⟨hp, p, hpk, hst⟩ := hm
      have hn := (phaseName_eq letter hl a).2 hp
      unfold pickStep at hd'
      rw [hn, if_pos hps] at hd'
      simp only [hpk, hst.symm, if_true, Except.ok.injEq] at hd'
      subst hd'
      rw [Dict.get?_set_self]
      constructor
      · intro ht
        exact ⟨l, a, p, [], rfl, hp, hpk, hst, (Option.some.inj ht).symm, by simp⟩
      · rintro ⟨pre, a', p', post, he, hp', hpk', hst', rfl, hpost⟩
        rcases List.eq_nil_or_concat post with rfl | ⟨post', b, rfl⟩
        · obtain ⟨_, h2⟩ := List.append_inj' he rfl
          simp only [List.cons.injEq, and_true] at h2
          subst h2
          rw [hpk] at hpk'
          rw [Option.some.inj hpk']
        · exfalso
          have he' : l ++ [a] = (pre ++ a' :: post') ++ [b] := by simpa using he
          obtain ⟨_, h2⟩ := List.append_inj' he' rfl
          simp only [List.cons.injEq, and_true] at h2
          subst h2
          exact hpost a (by simp) hp p hpk hst
    · have hsame : d'.get? [letter] = d.get? [letter] := by
        unfold pickStep at hd'
        by_cases hin : inPS (phaseName a.phase) = true
        · rw [if_pos hin] at hd'
          cases hpk : a.pick with
          | none => rw [hpk] at hd'; simp at hd'
          | some p =>
            rw [hpk] at hd'
            simp only at hd'
            by_cases hst : station = getStation p.seedid
            · rw [if_pos hst] at hd'
              simp only [Except.ok.injEq] at hd'
              subst hd'
              apply Dict.get?_set_ne
              intro hn
              exact hm ⟨(phaseName_eq letter hl a).1 hn, p, hpk, hst.symm⟩
            · rw [if_neg hst] at hd'
              simp only [Except.ok.injEq] at hd'
              rw [hd']
        · rw [if_neg hin] at hd'
          simp only [Except.ok.injEq] at hd'
          rw [hd']
      rw [hsame]
      refine Iff.trans ih ?_
      constructor
      · rintro ⟨pre, a', p', post, he, hp', hpk', hst', ht, hpost⟩
        refine ⟨pre, a', p', post ++ [a], by simp [he], hp', hpk', hst', ht, ?_⟩
        intro b hb hbp pb hpb
        rcases List.mem_append.1 hb with hb | hb
        · exact hpost b hb hbp pb hpb
        · simp only [List.mem_singleton] at hb
          subst hb
          exact fun hst => hm ⟨hbp, pb, hpb, hst⟩
      · rintro ⟨pre, a', p', post, he, hp', hpk', hst', ht, hpost⟩
        rcases List.eq_nil_or_concat post with rfl | ⟨post', b, rfl⟩
        · exfalso
          obtain ⟨_, h2⟩ := List.append_inj' he rfl
          simp only [List.cons.injEq, and_true] at h2
          subst h2
          exact hm ⟨hp', p', hpk', hst'⟩
        · have he' : l ++ [a] = (pre ++ a' :: post') ++ [b] := by simpa using he
          obtain ⟨h1, h2⟩ := List.append_inj' he' rfl
          exact ⟨pre, a', p', post', h1, hp', hpk', hst', ht,
            fun c hc => hpost c (by simp [hc])⟩

/-- **C38**: Picks can be determined if the picks of all P- and S-arrivals exist. -/
theorem C38_picks_total (arrivals : List Arrival) (station : String)
    (h : ∀ a ∈ arrivals, a.pick.isSome = true) : ∃ picks, getPicks arrivals station = .ok picks := by
  induction arrivals using List.reverseRecOn with
  | nil => exact ⟨[], rfl⟩
  | append_singleton l a ih =>
    obtain ⟨d, hd⟩ := ih (fun b hb => h b (by simp [hb]))
    obtain ⟨p, hp⟩ := Option.isSome_iff_exists.1 (h a (by simp))
    unfold getPicks at hd ⊢
    have : ∃ d', pickStep station d a = .ok d' := by
      unfold pickStep
      rw [hp]
      simp only
      split
      · split <;> exact ⟨_, rfl⟩
      · exact ⟨_, rfl⟩
    obtain ⟨d', hd'⟩ := this
    refine ⟨d', ?_⟩
    rw [List.foldlM_append, hd]
    simp [bind, Except.bind, pure, Except.pure, hd']

/-- Arrivals with two P-picks, other phases and another station. -/
noncomputable def exArrivals : List Arrival :=
  [⟨"P", some ⟨"GR.BFO.00.BHZ", 1⟩⟩, ⟨"pg", some ⟨"GR.BFO.00.BHZ", 2⟩⟩,
   ⟨"Pn", some ⟨"GR.BFO.00.BHZ", 3⟩⟩, ⟨"P", some ⟨"GR.CLZ.00.BHZ", 4⟩⟩,
   ⟨"S", some ⟨"GR.CLZ.00.BHN", 5⟩⟩]

example : ∃ picks, getPicks exArrivals "GR.BFO" = .ok picks ∧ picks.get? ['P'] = some 2 ∧
    picks.get? ['S'] = none := by
  obtain ⟨picks, h⟩ := C38_picks_total exArrivals "GR.BFO" (by simp [exArrivals])
  refine ⟨picks, h, (C38_picks (Or.inl rfl) h 2).2 ?_, ?_⟩
  · refine ⟨[⟨"P", some ⟨"GR.BFO.00.BHZ", 1⟩⟩], _, ⟨"GR.BFO.00.BHZ", 2⟩, _, rfl, Or.inr (by decide), rfl,
      by decide, rfl, ?_⟩
    intro a ha hp p hpk
    simp only [List.mem_cons, List.not_mem_nil, or_false] at ha
    rcases ha with rfl | rfl | rfl
    · exfalso; revert hp; unfold Spec.IsPhase; decide
    · simp only [Option.some.injEq] at hpk; subst hpk; decide
    · simp only [Option.some.injEq] at hpk; subst hpk; decide
  · cases hg : picks.get? ['S'] with
    | none => rfl
    | some t =>
      exfalso
      obtain ⟨pre, a, p, post, he, hp, hpk, hst, _⟩ := (C38_picks (Or.inr rfl) h t).1 hg
      have ha : a ∈ exArrivals := by rw [he]; simp
      simp only [exArrivals, List.mem_cons, List.not_mem_nil, or_false] at ha
      rcases ha with rfl | rfl | rfl | rfl | rfl
      · revert hp; unfold Spec.IsPhase; decide
      · revert hp; unfold Spec.IsPhase; decide
      · revert hp; unfold Spec.IsPhase; decide
      · revert hp; unfold Spec.IsPhase; decide
      · simp only [Option.some.injEq] at hpk; subst hpk; revert hst; decide

end Qopen
