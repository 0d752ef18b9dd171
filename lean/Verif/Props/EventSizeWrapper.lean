import Verif.Props.EventSize
import Verif.Props.Returns

namespace Qopen

open Real Spec Util Tr Energy InvertFb Window Catalog Freqs Source Invert Move Wrapper Collect Total

namespace Spec

/-- The results of an event whose amplitudes were multiplied by `a`. -/
structure ScaledEntry (a : ℝ) (e e' : Dict String RVal) : Prop where
  energies : ∀ W, e.get? "W" = some (.row W) → e'.get? "W" = some (.row (W.map (Cell.scale (a ^ 2))))
  spectrum : ∀ L, e.get? "sds" = some (.row L) → e'.get? "sds" = some (.row (L.map (Cell.scale |a|)))
  moment : ∀ M, e.get? "M0" = some (.cell (.num M)) → e'.get? "M0" = some (.cell (.num (|a| * M)))
  magnitude : ∀ M, e.get? "M0" = some (.cell (.num M)) → ∃ mw, e.get? "Mw" = some (.cell (.num mw)) ∧
    e'.get? "Mw" = some (.cell (.num (mw + 2 / 3 * (log |a| / log 10))))
  no_moment : (∀ M, e.get? "M0" ≠ some (.cell (.num M))) → e'.get? "M0" = e.get? "M0" ∧
    e'.get? "Mw" = e.get? "Mw"
  other : ∀ key ∈ ["g0", "b", "error", "nstations", "v0", "R", "Mcat", "fc", "n", "gamma", "fit_error"],
    e'.get? key = e.get? key

/-- The result of separate inversions of events whose amplitudes were multiplied by `a`: the means over
all events are the same. -/
structure SameMeans (a : String → ℝ) (w w' : WrapRes) : Prop where
  freq : w'.freq = w.freq
  g0 : w'.g0 = w.g0
  b : w'.b = w.b
  error : w'.error = w.error
  R : w'.R = w.R
  events : List.Forall₂ (fun x y => x.1 = y.1 ∧ ScaledEntry (a x.1) x.2 y.2) w.events w'.events

end Spec

/-- The entry of an event. -/
theorem scaledEntry {a : String → ℝ} {r r' : InvRes} {id : String} {e e' : Dict String RVal}
    (hs : SameButSize a r r') (hid : id ∈ r.events.keys) (h : EventResult r id e) (h' : EventResult r' id e') :
    ScaledEntry (a id) e e' := by
  rw [← Dict.get?_isSome] at hid
  obtain ⟨x, hx⟩ := Option.isSome_iff_exists.1 hid
  obtain ⟨x', hx', hW, -, hS⟩ := hs.events _ _ hx
  have h1 : ∀ k ∈ ["sds", "M0", "Mw", "Mcat", "fc", "n", "gamma", "fit_error"],
      e.get? k = (x.extra.get? k).map ofVal := by
    intro k hk
    rw [h.source k hk, hx]; rfl
  have h2 : ∀ k ∈ ["sds", "M0", "Mw", "Mcat", "fc", "n", "gamma", "fit_error"],
      e'.get? k = (x'.extra.get? k).map ofVal := by
    intro k hk
    rw [h'.source k hk, hx']; rfl
  have hcell : ∀ {o : Option Val} {c : Cell}, o.map ofVal = some (.cell c) → o = some (.cell c) := by
    intro o c ho
    cases o with
    | none => simp at ho
    | some v => cases v <;> simp [ofVal] at ho; rw [ho]
  have hM : ∀ M, e.get? "M0" = some (.cell (.num M)) → x.extra.get? "M0" = some (.cell (.num M)) := by
    intro M hM
    rw [h1 _ (by simp)] at hM
    exact hcell hM
  refine ⟨?_, ?_, ?_, ?_, ?_, ?_⟩
  · intro W hW'
    rw [h.W, hx] at hW'
    simp only [Option.map_some, Option.some.injEq, RVal.row.injEq] at hW'
    rw [h'.W, hx', ← hW', ← hW]
    rfl
  · intro L hL
    rw [h1 _ (by simp)] at hL
    rw [h2 _ (by simp)]
    cases hv : x.extra.get? "sds" with
    | none => rw [hv] at hL; simp at hL
    | some v =>
      rw [hv] at hL
      cases v with
      | cell c => simp [ofVal] at hL
      | cells l =>
        simp only [Option.map_some, ofVal, Option.some.injEq, RVal.row.injEq] at hL
        rw [hS.sds l hv, ← hL]
        rfl
  · intro M hM0
    rw [h2 _ (by simp), hS.moment M (hM M hM0)]
    rfl
  · intro M hM0
    obtain ⟨mw, k1, k2⟩ := hS.magnitude M (hM M hM0)
    exact ⟨mw, by rw [h1 _ (by simp), k1]; rfl, by rw [h2 _ (by simp), k2]; rfl⟩
  · intro hno
    obtain ⟨k1, k2⟩ := hS.without (by
      intro M hM0
      apply hno M
      rw [h1 _ (by simp), hM0]
      rfl)
    exact ⟨by rw [h1 _ (by simp), h2 _ (by simp), k1], by rw [h1 _ (by simp), h2 _ (by simp), k2]⟩
  · intro key hkey
    simp only [List.mem_cons, List.not_mem_nil, or_false] at hkey
    rcases hkey with rfl | rfl | rfl | rfl | rfl | rfl | rfl | rfl | rfl | rfl | rfl
    · rw [h.g0, h'.g0, hs.g0]
    · rw [h.b, h'.b, hs.b]
    · rw [h.error, h'.error, hs.error]
    · rw [h.nstations, h'.nstations, hs.nstations]
    · rw [h.v0, h'.v0, hs.v0]
    · rw [h.R, h'.R, hs.R]
    all_goals rw [h1 _ (by simp), h2 _ (by simp), hS.other _ (by decide) (by decide) (by decide)]

namespace Wrapper

theorem set_forall₂ {α β : Type} {P : String → α → β → Prop} {d : Dict String α} {d' : Dict String β}
    (h : List.Forall₂ (fun x y => x.1 = y.1 ∧ P x.1 x.2 y.2) d d') {k : String} {v : α} {v' : β} (hv : P k v v') :
    List.Forall₂ (fun x y => x.1 = y.1 ∧ P x.1 x.2 y.2) (d.set k v) (d'.set k v') := by
  induction h with
  | nil => exact .cons ⟨rfl, hv⟩ .nil
  | @cons x y l l' hxy hl ih =>
    unfold Dict.set
    by_cases hk : x.1 = k
    · rw [if_pos hk, if_pos (hxy.1 ▸ hk)]
      exact .cons ⟨hxy.1, by simpa [hk] using hv⟩ hl
    · rw [if_neg hk, if_neg (hxy.1 ▸ hk)]
      exact .cons hxy ih

/-- Two loops over the same events. -/
theorem loop_rel {inv inv' : List Event → Py (Option InvRes)} {cn : Bool}
    {P : String → Dict String RVal → Dict String RVal → Prop} {l : List Event} {st st' s s' : LoopState}
    (h : ∀ ev ∈ l, ∀ o o', inv [ev] = .ok o → inv' [ev] = .ok o' → Option.Rel (fun r r' => r'.freq = r.freq ∧
      ∀ e e', eventEntry cn (getEventid ev) r = .ok e → eventEntry cn (getEventid ev) r' = .ok e' →
        P (getEventid ev) e e') o o')
    (hf : st'.freq = st.freq)
    (he : List.Forall₂ (fun x y => x.1 = y.1 ∧ P x.1 x.2 y.2) st.events st'.events)
    (h1 : l.foldlM (loopStep inv cn) st = .ok s) (h2 : l.foldlM (loopStep inv' cn) st' = .ok s') :
    s'.freq = s.freq ∧ List.Forall₂ (fun x y => x.1 = y.1 ∧ P x.1 x.2 y.2) s.events s'.events := by
  induction l generalizing st st' with
  | nil =>
    simp only [List.foldlM_nil, pure, Except.pure, Except.ok.injEq] at h1 h2
    subst h1 h2
    exact ⟨hf, he⟩
  | cons ev l ih =>
    rw [List.foldlM_cons] at h1 h2
    obtain ⟨t, ht, h1⟩ := bind_ok.1 h1
    obtain ⟨t', ht', h2⟩ := bind_ok.1 h2
    unfold loopStep at ht ht'
    obtain ⟨_, -, ht⟩ := bind_ok.1 ht
    obtain ⟨_, -, ht'⟩ := bind_ok.1 ht'
    obtain ⟨o, ho, ht⟩ := bind_ok.1 ht
    obtain ⟨o', ho', ht'⟩ := bind_ok.1 ht'
    have hrel := h ev List.mem_cons_self o o' ho ho'
    cases hrel with
    | none =>
      simp only [pure, Except.pure, Except.ok.injEq] at ht ht'
      subst ht ht'
      exact ih (fun ev hev => h ev (List.mem_cons_of_mem _ hev)) hf he h1 h2
    | some hr =>
      obtain ⟨hr1, hr2⟩ := hr
      simp only at ht ht'
      obtain ⟨e, hee, ht⟩ := bind_ok.1 ht
      obtain ⟨e', hee', ht'⟩ := bind_ok.1 ht'
      simp only [pure, Except.pure, Except.ok.injEq] at ht ht'
      subst ht ht'
      exact ih (fun ev hev => h ev (List.mem_cons_of_mem _ hev)) (by simp [hr1])
        (set_forall₂ he (hr2 e e' hee hee')) h1 h2

theorem collectEvent_congr {only : List String} {id : String} {e e' : Dict String RVal}
    (h : ∀ k ∈ only, e'.get? k = e.get? k) (col : Dict String ColVal) :
    collectEvent none only col (id, some e') = collectEvent none only col (id, some e) := by
  unfold collectEvent
  simp only
  induction only generalizing col with
  | nil => rfl
  | cons k l ih =>
    rw [List.foldlM_cons, List.foldlM_cons]
    have : collectKey none id e' col k = collectKey none id e col k := by
      unfold collectKey
      rw [h k List.mem_cons_self]
    rw [this]
    congr 1
    funext c
    exact ih (fun k hk => h k (List.mem_cons_of_mem _ hk)) c

theorem collect_congr {only : List String} {d d' : Dict String (Dict String RVal)}
    (h : List.Forall₂ (fun x y => x.1 = y.1 ∧ ∀ k ∈ only, y.2.get? k = x.2.get? k) d d') :
    collectResults (d'.mapVals some) only = collectResults (d.mapVals some) only := by
  unfold collectResults
  simp only
  congr 1
  generalize (if "R" ∈ only then [("R", ColVal.sites [])] else [] : Dict String ColVal) = col
  induction h generalizing col with
  | nil => rfl
  | @cons x y l l' hxy hl ih =>
    have e1 : Dict.mapVals some (y :: l') = (y.1, some y.2) :: Dict.mapVals some l' := rfl
    have e2 : Dict.mapVals some (x :: l) = (x.1, some x.2) :: Dict.mapVals some l := rfl
    rw [e1, e2, List.foldlM_cons, List.foldlM_cons, ← hxy.1, collectEvent_congr hxy.2]
    congr 1
    funext c
    exact ih c

theorem means_congr {rlm : List ℝ → ℝ × ℝ} {mean : Mean} {freq : List ℝ}
    {d d' : Dict String (Dict String RVal)}
    (h : List.Forall₂ (fun x y => x.1 = y.1 ∧ ∀ k ∈ ["g0", "b", "error", "R"], y.2.get? k = x.2.get? k) d d') :
    means rlm mean freq d' = (means rlm mean freq d).map (Option.map (fun w => { w with events := d' })) := by
  unfold means
  rw [collect_congr h]
  cases collectResults (d.mapVals some) ["g0", "b", "error", "R"] with
  | error e => rfl
  | ok col =>
    simp only [bind, Except.bind]
    cases arrayOf col "g0" with
    | error e => rfl
    | ok g0 =>
      simp only
      split
      · rfl
      · cases arrayOf col "b" with
        | error e => rfl
        | ok b =>
          simp only
          cases arrayOf col "error" with
          | error e => rfl
          | ok errs =>
            simp only
            cases errs with
            | none => rfl
            | some errs =>
              simp only
              split
              · rfl
              · cases meanIf rlm mean errs g0 with
                | error e => rfl
                | ok g0m =>
                  simp only
                  cases meanIf rlm mean errs b with
                  | error e => rfl
                  | ok bm =>
                    simp only
                    cases tableMean rlm mean errs errs with
                    | error e => rfl
                    | ok em =>
                      simp only
                      cases sitesArray col with
                      | error e => rfl
                      | ok sites =>
                        simp only
                        split <;> rfl

end Wrapper

section

variable {rank : List ℝ → List (List ℝ) → ℕ} {env : Env} {cfg : InvCfg} {cpus : ℕ}
  {schedule : List Event → List ℕ} {events : List Event} {bands : Dict ℝ (ℝ × ℝ)} {a : String → ℝ}
  {rlm : List ℝ → ℝ × ℝ} {mean : Mean} {out : Option WrapRes}

/-- Separate inversions of events with other amplitudes. -/
theorem separate_louder (hset : IsSetOrder env.setOrder) (hc : cfg.codaNorm = none)
    (hn : (events.map getEventid).Nodup) (hb : getFreqs cfg.freqs = .ok bands)
    (hs : ∀ evs, Schedule cfg (bands.map Prod.snd) cpus (schedule evs))
    (hone : ∀ ev ∈ events, ∀ r, invert env cfg cpus (schedule [ev]) [ev] = .ok r →
      ∃ r', invert (louder a env) cfg cpus (schedule [ev]) [ev] = .ok r' ∧ Option.Rel (SameButSize a) r r')
    (h : invertWrapper rlm (fun evs => invert env cfg cpus (schedule evs) evs) false false mean events = .ok out) :
    ∃ out', invertWrapper rlm (fun evs => invert (louder a env) cfg cpus (schedule evs) evs) false false mean
      events = .ok out' ∧ Option.Rel (SameMeans a) out out' := by
  have hne : events.Nodup := hn.of_map _
  obtain ⟨t1, t2, t3⟩ := separate_only_if hne h
  have hcn : cfg.codaNorm.isSome = false := by rw [hc]; rfl
  obtain ⟨out', h', -⟩ := separate_total (env := louder a env) (rlm := rlm) (mean := mean) (cfg := cfg)
    (cpus := cpus) (schedule := schedule) hset hne hb hs rfl t1 t2 (by
      intro ev hev ho
      obtain ⟨k1, o, k2⟩ := t3 ev hev ho
      obtain ⟨r', k3, -⟩ := hone ev hev o k2
      exact ⟨k1, r', k3⟩)
  rw [hcn] at h'
  refine ⟨out', h', ?_⟩
  obtain ⟨order, hord, h⟩ := bind_ok.1 h
  obtain ⟨order', hord', h'⟩ := bind_ok.1 h'
  rw [hord] at hord'
  obtain rfl := Except.ok.inj hord'
  obtain ⟨hp, -⟩ := orderEvents_ok hord
  have hmem : ∀ ev ∈ order, ev ∈ events := fun ev hev =>
    (List.mem_filter.1 (hp.perm.mem_iff.1 hev)).1
  rw [if_neg (by simp)] at h h'
  unfold separately at h h'
  obtain ⟨st, hst, h⟩ := bind_ok.1 h
  obtain ⟨st', hst', h'⟩ := bind_ok.1 h'
  obtain ⟨l1, l2⟩ := loop_rel (P := fun id => ScaledEntry (a id)) (by
    intro ev hev o o' ho ho'
    obtain ⟨r', k1, k2⟩ := hone ev (hmem ev hev) o ho
    rw [k1, Except.ok.injEq] at ho'
    subst ho'
    cases k2 with
    | none => exact .none
    | @some r r' k2 =>
      refine .some ⟨k2.freq, ?_⟩
      intro e e' he he'
      obtain ⟨x, hx, -⟩ := invert_insert (by simp) hc ho (List.mem_singleton_self ev)
      have hid : getEventid ev ∈ r.events.keys := by rw [← Dict.get?_isSome, hx]; rfl
      obtain ⟨y, y1, -, -, y2⟩ := C40_results_have_known_keys ho (Or.inl hid)
      obtain ⟨z, z1, -, -, z2⟩ := C40_results_have_known_keys k1 (Or.inl (k2.keys ▸ hid))
      rw [hcn] at y1 z1
      rw [y1, Except.ok.injEq] at he
      rw [z1, Except.ok.injEq] at he'
      subst he he'
      exact scaledEntry k2 hid y2 z2) rfl .nil hst hst'
  have hlen : st'.events.length = st.events.length := l2.length_eq.symm
  rw [hlen, l1] at h'
  by_cases h0 : st.events.length = 0
  · rw [if_pos h0] at h h'
    simp only [pure, Except.pure, Except.ok.injEq] at h h'
    subst h h'
    exact .none
  · rw [if_neg h0] at h h'
    rw [means_congr (d := st.events) (l2.imp (fun x y hxy => ⟨hxy.1, fun k hk => hxy.2.other k (by
      simp only [List.mem_cons, List.not_mem_nil, or_false] at hk ⊢
      tauto)⟩)), h] at h'
    simp only [Except.map, Except.ok.injEq] at h'
    subst h'
    cases out with
    | none => exact .none
    | some w =>
      refine .some ⟨rfl, rfl, rfl, rfl, rfl, ?_⟩
      obtain ⟨_, _, _, _, _, _, _, _, _, _, _, _, _, _, _, _, hw, _⟩ := means_some h
      rw [hw]
      exact l2

/-- **C145**: events which are inverted separately: if the amplitudes of each event are multiplied by a
factor, scattering coefficient, attenuation, site responses and all means over the events are the same, and
the results of each event follow its factor. -/
theorem C145_separate (hwls : IsWls rank env.wls) (hrk : FullRank rank) (hG : OneValuePerTime env.G)
    (hl : Linear env.lib) (hnoise : Homogeneous cfg.wcfg.noiseFunc) (hi : LinearInput env)
    (hset : IsSetOrder env.setOrder) (hs : cfg.smm ≠ none → IsSearch env.orc)
    (h1 : cfg.smm ≠ none → IsOls env.orc.ols)
    (h2 : cfg.smm = some .robustFit → FollowsShift env.orc.rlm) (hc : cfg.codaNorm = none)
    (ha : ∀ e, a e ≠ 0) (hn : (events.map getEventid).Nodup)
    (hb : getFreqs cfg.freqs = .ok bands) (hj : ∀ evs, OwnCopies cfg bands cpus (schedule evs))
    (hx : ∀ ev ∈ events, if cfg.cmd = .source then SourceData env cfg bands [ev] else Solvable env cfg bands [ev])
    (hready : ∀ ev ∈ events, ∀ res, invert env cfg cpus (schedule [ev]) [ev] = .ok (some res) →
      SourceReady cfg res)
    (h : invertWrapper rlm (fun evs => invert env cfg cpus (schedule evs) evs) false false mean events = .ok out) :
    ∃ out', invertWrapper rlm (fun evs => invert (louder a env) cfg cpus (schedule evs) evs) false false mean
      events = .ok out' ∧ Option.Rel (SameMeans a) out out' := by
  refine separate_louder hset hc hn hb (fun evs => (hj evs).1) ?_ h
  intro ev hev r hr
  have hxe := hx ev hev
  have hre : ∀ res, r = some res → SourceReady cfg res := by
    rintro res rfl
    exact hready ev hev res hr
  by_cases hcmd : cfg.cmd = .source
  · rw [if_pos hcmd] at hxe
    exact C145_source hwls hrk hG hl hnoise hi hs h1 h2 hc hcmd ha (by simp) hb (hj _) hxe hre hr
  · rw [if_neg hcmd] at hxe
    exact C145_inversion hwls hrk hG hl hnoise hi hs h1 h2 hc hcmd ha (by simp) hb (hj _) hxe hre hr

end

namespace EventSizeExample

open JobsExample TablesExample TruthChainExample

/-- The separate inversion of an event with amplitudes multiplied by -2: the energy is four times as
large. -/
example (rlm : List ℝ → ℝ × ℝ) : ∃ w w' : WrapRes,
    invertWrapper rlm (fun evs => invert env cfg 1 [] evs) false false .plain [exEvent] = .ok (some w) ∧
    invertWrapper rlm (fun evs => invert (louder (fun _ => -2) env) cfg 1 [] evs) false false .plain [exEvent] =
      .ok (some w') ∧ SameMeans (fun _ => -2) w w' ∧ w.events ≠ [] := by
  obtain ⟨w, h⟩ := TruthChainExample.separate rlm
  obtain ⟨out', k1, k2⟩ := C145_separate (schedule := fun _ => []) (a := fun _ => -2)
    InvertExample.rankWls_spec InvertExample.someRank_full one_value linear_lib
    (fun k _ l => by simp [cfg, JobsExample.exCfg]) (linear_input env.orc) set_order
    (by simp [cfg, JobsExample.exCfg]) (by simp [cfg, JobsExample.exCfg]) (by simp [cfg, JobsExample.exCfg]) rfl
    (fun _ => by norm_num) (by simp) freqs (fun _ => own [])
    (by
      intro ev hev
      rw [List.mem_singleton.1 hev, if_neg (by simp [cfg, JobsExample.exCfg])]
      exact solvable)
    (by
      intro ev hev res hr
      rw [List.mem_singleton.1 hev] at hr
      refine ⟨by norm_num [cfg, JobsExample.exCfg], fun v hv => ?_, by simp [cfg, JobsExample.exCfg]⟩
      rw [(given_velocity (v := 1) (by simp) freqs (own []) exact_data.pairs rfl hr).1] at hv
      rw [← Option.some.inj hv]
      norm_num) h
  cases k2 with
  | some k2 =>
    refine ⟨w, _, h, k1, k2, ?_⟩
    obtain ⟨r, hr⟩ := invert_one'
    rcases entry_of_event (by simp) h (List.mem_singleton_self exEvent) rfl with ⟨h1, -⟩ | ⟨r, d, -, -, h3⟩
    · simp only [hr] at h1
      simp at h1
    · intro h0
      rw [h0] at h3
      simp [Dict.get?] at h3

end EventSizeExample

end Qopen
