import Verif.Lemmas.SiteAlign

/-!
# One run of the alignment: facts used by the property theorems
-/

namespace Qopen.Site

open Real Spec Source

variable {orc : Oracle} {rlm : List ℝ → ℝ × ℝ}
  {solve : Bool → ℕ → List (List ℝ) → List ℝ → List ℝ} {results out : Results}
  {sel : StationSel} {response : Response} {us : Bool} {smm : Option Method} {smo : Option Opts}
  {ignore : Option (List String)}

/-- Events of a run related by id. -/
theorem evrel_get {P : ℕ → EvRes → EvRes → Prop} {a b : Dict String EvRes} (h : EvRel P a b)
    (hw : a.WF) {id : String} {ev ev' : EvRes} (h1 : (id, ev) ∈ a) (h2 : (id, ev') ∈ b) :
    ∃ k : ℕ, a[k]? = some (id, ev) ∧ b[k]? = some (id, ev') ∧ P k ev ev' := by
  obtain ⟨k, hk, e1⟩ := List.getElem_of_mem h1
  obtain ⟨n, hn, e2⟩ := List.getElem_of_mem h2
  have hn' : n < List.length a := by rw [h.1]; exact hn
  have e3 : a[n]? = some a[n] := List.getElem?_eq_getElem hn'
  have e4 : b[n]? = some (id, ev') := by rw [List.getElem?_eq_getElem hn, e2]
  obtain ⟨g1, g2⟩ := h.2 n _ _ e3 e4
  simp only at g1
  have hkn : k = n := by
    unfold Dict.WF Dict.keys at hw
    have := List.Nodup.getElem_inj_iff hw (i := k) (j := n) (hi := by simpa using hk)
      (hj := by simpa using hn')
    rw [← this]
    simp only [List.getElem_map, e1, ← g1]
  subst hkn
  have e5 : a[k] = (id, ev) := e1
  rw [e5] at e3 g2
  exact ⟨k, e3, e4, g2⟩

theorem evrel_left {P : ℕ → EvRes → EvRes → Prop} {a b : Dict String EvRes} (h : EvRel P a b)
    {id : String} {ev' : EvRes} (h2 : (id, ev') ∈ b) : ∃ ev, (id, ev) ∈ a := by
  obtain ⟨n, hn, e2⟩ := List.getElem_of_mem h2
  have hn' : n < List.length a := by rw [h.1]; exact hn
  have e4 : b[n]? = some (id, ev') := by rw [List.getElem?_eq_getElem hn, e2]
  have g1 := (h.2 n _ _ (List.getElem?_eq_getElem hn') e4).1
  exact ⟨a[n].2, by
    have : (id, a[n].2) = a[n] := Prod.ext g1 rfl
    rw [this]; exact List.getElem_mem hn'⟩

theorem evrel_keys {P : ℕ → EvRes → EvRes → Prop} {a b : Dict String EvRes} (h : EvRel P a b) :
    b.map Prod.fst = a.map Prod.fst := by
  apply List.ext_getElem
  · simp [h.1]
  · intro n h1 h2
    simp only [List.length_map] at h1 h2
    simp only [List.getElem_map]
    exact (h.2 n _ _ (List.getElem?_eq_getElem h2) (List.getElem?_eq_getElem h1)).1

theorem proper_rwf (hp : ProperResults results.events) : RWF (sortedEvents results.events) :=
  fun e he => hp.stations e (mem_sortedEvents.1 he)

theorem sorted_WF {d : Dict String (Option EvRes)} (h : d.WF) : (sortedEvents d).WF := by
  have h1 := resultsOf_nodup h
  have h2 := (sortedEvents_spec d).1
  unfold Dict.WF Dict.keys at h1 ⊢
  exact (h2.map Prod.fst).nodup_iff.2 h1

theorem linked_perm {a b : Dict String EvRes} (h : ∀ e, e ∈ a ↔ e ∈ b) (i : ℕ)
    (ok : String → Prop) : Linked a i ok = Linked b i ok := by
  have : ShareEvent a i ok = ShareEvent b i ok := by
    funext s t
    simp only [ShareEvent, h]
  unfold Linked
  rw [this]

theorem mem_stationsWith {events : Dict String EvRes} {i : ℕ} {s : String} :
    s ∈ stationsWith events i ↔ ∃ e ∈ events, (respOf e.2 s i).isSome := by
  unfold stationsWith
  rw [List.mem_toFinset, List.mem_flatMap]
  constructor
  · rintro ⟨e, he, h⟩
    exact ⟨e, he, (List.mem_filter.1 h).2⟩
  · rintro ⟨e, he, h⟩
    refine ⟨e, he, List.mem_filter.2 ⟨?_, h⟩⟩
    unfold respOf at h
    cases hg : e.2.R.get? s with
    | none => simp [hg] at h
    | some l => exact List.mem_map.2 ⟨_, Dict.mem_of_get? hg, rfl⟩

/-- Everything about band `i` of a run. -/
structure BandRun (solve : Bool → ℕ → List (List ℝ) → List ℝ → List ℝ) (us : Bool)
    (sel : StationSel) (response : Response) (ignore : Option (List String)) (i : ℕ)
    (events events' : Dict String EvRes) (bands : List (Option (Finset String) × List ℝ))
    (a : Finset String) (x : List ℝ) (r : ℝ) : Prop where
  rel : EvRel (AlignedEv 0 bands) events events'
  band : bands[i]? = some (some a, x.map exp)
  area : IsArea events i (notIgnored ignore) a
  largest : largest (findAreas events i ignore) = some a
  resp : responseAt response i = .ok r
  pinned : (pinned a sel).Nonempty
  solver : IsLsqSolver (solve us) → x.length = events.length ∧
    IsMin events i a sel r (fun k => x.getD k 0)

theorem band_run {events events' : Dict String EvRes} {Nf : ℕ}
    {bands : List (Option (Finset String) × List ℝ)} (hR : RWF events)
    (hb : bands.length = Nf) (hrel : EvRel (AlignedEv 0 bands) events events')
    (hW : ∀ e ∈ events, e.2.W.length = Nf)
    (hband : ∀ i bf, bands[i]? = some bf →
      alignBand solve us events i sel response ignore = .ok bf) {i : ℕ}
    (hdata : ∃ e ∈ events, ∃ s, (respOf e.2 s i).isSome ∧ (energyOf e.2 i).isSome) :
    ∃ a x r, BandRun solve us sel response ignore i events events' bands a x r := by
  obtain ⟨e, he, s, hs, hw⟩ := hdata
  have hi : i < bands.length := by
    obtain ⟨w, hw'⟩ := Option.isSome_iff_exists.1 hw
    have := lt_of_numAt hw'
    rw [hW e he] at this
    omega
  have hbi : bands[i]? = some bands[i] := List.getElem?_eq_getElem hi
  rcases alignBand_ok hR (hband i _ hbi) with ⟨_, hbf⟩ | ⟨a, x, r, hbf, ha, hl, hr, hp, hsol⟩
  · exfalso
    obtain ⟨k, hk, rfl⟩ := List.getElem_of_mem he
    have hk' : k < List.length events' := by rw [← hrel.1]; exact hk
    obtain ⟨_, hal⟩ := hrel.2 k _ _ (List.getElem?_eq_getElem hk) (List.getElem?_eq_getElem hk')
    have hst := hal.band i _ hbi
    rw [Nat.zero_add] at hst
    obtain ⟨w, hw'⟩ := Option.isSome_iff_exists.1 hw
    have := hst.noArea w hw' (by rw [hbf]) s
    simp [this] at hs
  · exact ⟨a, x, r, hrel, by rw [hbi, hbf], ha, hl, hr, hp, hsol⟩

end Qopen.Site
