import Verif.Model.Data
import Mathlib.Data.List.TakeWhile

/-!
# Initialisation of the data source and cache of waveforms (C100, C101)
-/

namespace Qopen

open Run Data

namespace Spec

/-- Blanks around the names in option `plugin`. -/
def Blank (s : List Char) : Prop := ∀ c ∈ s, c = ' ' ∨ c = '\t'

/-- No blanks at the ends. -/
def Trimmed (s : List Char) : Prop :=
  (∀ c, s.head? = some c → c ≠ ' ' ∧ c ≠ '\t') ∧ ∀ c, s.getLast? = some c → c ≠ ' ' ∧ c ≠ '\t'

/-- Option `plugin` reads `module : func`, with or without blanks. -/
def PluginName (plugin : String) (module_ func : String) : Prop :=
  ∃ a b c d : List Char, Blank a ∧ Blank b ∧ Blank c ∧ Blank d ∧
    plugin.toList = (a ++ module_.toList ++ b) ++ ':' :: (c ++ func.toList ++ d) ∧
    ':' ∉ module_.toList ∧ ':' ∉ func.toList ∧ Trimmed module_.toList ∧ Trimmed func.toList

/-- The part of a stream which was asked for. -/
def part {σ δ : Type} (env : Data.Env σ δ) (st : δ) (q : Query) : δ :=
  env.slice (env.select st q.network q.station q.location q.channel) q.starttime q.endtime

/-- Where the waveforms come from according to the example configuration: a function handed over
takes precedence, then option `data` is the name of a client of ObsPy, `plugin`, or else the name of a
file or a stream. -/
inductive Delivers {σ δ : Type} (env : Data.Env σ δ) (path : List String) (o : Opts σ δ) :
    Fn σ δ → Prop
  | given {f} : o.getWaveforms = some f → Delivers env path o f
  | client {s m new c} : o.getWaveforms = none → o.data = .text s → env.clients s = some m →
      m.client = some new → new (o.clientOptions.getD (.dict [])) = .ok c →
      Delivers env path o (fun w r => c w r.query)
  | plugin {p mo fu functions f} : o.getWaveforms = none → o.data = .text "plugin" →
      env.clients "plugin" = none → o.plugin = some p → PluginName p mo fu →
      env.modules (path ++ ["."]) mo = .ok functions → functions fu = some f → Delivers env path o f
  | file {s st} : o.getWaveforms = none → o.data = .text s → s ≠ "plugin" → env.clients s = none →
      env.read s = .ok st → Delivers env path o (fun _ r => .ok (some (part env st r.query)))
  | stream {st} : o.getWaveforms = none → o.data = .stream st →
      Delivers env path o (fun _ r => .ok (some (part env st r.query)))
  | nothing : o.getWaveforms = none → o.data = .missing →
      Delivers env path o (fun _ _ => .error .exception)

/-- The waveforms are cached in this directory: option `cache_waveforms` is set, joblib is installed
and the waveforms come from a web service, or option `data` is `plugin`. -/
def CachedIn {σ δ : Type} (env : Data.Env σ δ) (o : Opts σ δ) (dir : String) : Prop :=
  o.cacheWaveforms = some dir ∧ dir ≠ "" ∧ env.joblib = true ∧
    (o.data = .text "plugin" ∨
      o.getWaveforms = none ∧ ∃ s m, o.data = .text s ∧ env.clients s = some m)

/-- The answer of the source itself: data, or `None` if it fails. -/
def Plain {σ δ : Type} (g : Getter σ δ) (s : σ) (r : Request) (a : Except Raised (Option δ)) : Prop :=
  (∀ d, a = .ok d ↔ g.fn s r = .ok d ∨ (d = none ∧ g.fn s r = .error .exception)) ∧
  ∀ e, a = .error e ↔ g.fn s r = .error e ∧ e ≠ .exception

/-- Entry `e` was answered from the source and is the first one in `h` which completed request `r`
with this cache. -/
def FirstCompleted {σ δ : Type} (h : List (Entry σ δ)) (dir : String) (r : Request) (e : Entry σ δ)
    (d : Option δ) : Prop :=
  ∃ h1 h2, h = h1 ++ e :: h2 ∧ e.getter.cache = some dir ∧ e.request = r ∧
    Plain e.getter e.world r (.ok d) ∧
    ∀ e' ∈ h1, e'.getter.cache = some dir → e'.request = r →
      ∀ d', ¬ Plain e'.getter e'.world r (.ok d')

end Spec

/-! ## Names of plugins -/

theorem splitColon_eq (s : List Char) (m : List Char) (l : List (List Char))
    (h : splitColon s = (m, l)) : ':' ∉ m ∧ (l = [] → s = m) ∧
      ∀ f l', l = f :: l' → ∃ s', s = m ++ ':' :: s' ∧ splitColon s' = (f, l') := by
  induction s generalizing m l with
  | nil =>
    simp only [splitColon, Prod.mk.injEq] at h
    obtain ⟨rfl, rfl⟩ := h
    simp
  | cons c cs ih =>
    unfold splitColon at h
    simp only at h
    split_ifs at h with hc
    · simp only [Prod.mk.injEq] at h
      obtain ⟨rfl, rfl⟩ := h
      subst hc
      refine ⟨by simp, by simp, ?_⟩
      intro f l' e
      simp only [List.cons.injEq] at e
      exact ⟨cs, rfl, by rw [← e.1, ← e.2]⟩
    · simp only [Prod.mk.injEq] at h
      obtain ⟨rfl, rfl⟩ := h
      obtain ⟨h1, h2, h3⟩ := ih _ _ rfl
      refine ⟨by simp [h1, Ne.symm hc], fun e => by rw [← h2 e], fun f l' e => ?_⟩
      obtain ⟨s', e1, e2⟩ := h3 f l' e
      exact ⟨s', by rw [List.cons_append, ← e1], e2⟩

theorem splitColon_none (s : List Char) (h : ':' ∉ s) : splitColon s = (s, []) := by
  induction s with
  | nil => rfl
  | cons c cs ih =>
    simp only [List.mem_cons, not_or] at h
    unfold splitColon
    simp only [ih h.2, Ne.symm h.1, if_false]

theorem splitColon_append (m s : List Char) (h : ':' ∉ m) :
    splitColon (m ++ ':' :: s) = (m, (splitColon s).1 :: (splitColon s).2) := by
  induction m with
  | nil => simp [splitColon]
  | cons c cs ih =>
    simp only [List.mem_cons, not_or] at h
    rw [List.cons_append]
    conv_lhs => unfold splitColon
    simp only [ih h.2, Ne.symm h.1, if_false]

theorem pluginParts_ok {p : String} {m f : List Char} :
    pluginParts p = .ok (m, f) ↔ p.toList = m ++ ':' :: f ∧ ':' ∉ m ∧ ':' ∉ f := by
  unfold pluginParts
  constructor
  · intro h
    split at h
    · rename_i m' f' e
      simp only [Except.ok.injEq, Prod.mk.injEq] at h
      obtain ⟨rfl, rfl⟩ := h
      obtain ⟨h1, -, h3⟩ := splitColon_eq _ _ _ e
      obtain ⟨s', e1, e2⟩ := h3 _ _ rfl
      obtain ⟨h4, h5, -⟩ := splitColon_eq _ _ _ e2
      have h5 := h5 rfl
      subst h5
      exact ⟨e1, h1, h4⟩
    · simp at h
  · rintro ⟨e, hm, hf⟩
    rw [e, splitColon_append _ _ hm, splitColon_none _ hf]

theorem dropWhile_blank {a t : List Char} (ha : Spec.Blank a)
    (ht : ∀ c, t.head? = some c → c ≠ ' ' ∧ c ≠ '\t') :
    (a ++ t).dropWhile (fun c => c = ' ' || c = '\t') = t := by
  rw [List.dropWhile_append_of_pos (by simpa [Spec.Blank] using ha)]
  cases t with
  | nil => rfl
  | cons c cs =>
    have := ht c rfl
    rw [List.dropWhile_cons_of_neg (by simpa using this)]

theorem blank_takeWhile (s : List Char) :
    Spec.Blank (s.takeWhile (fun c => c = ' ' || c = '\t')) := by
  intro c hc
  simpa using List.mem_takeWhile_imp hc

theorem head_dropWhile {s : List Char} {c : Char}
    (h : (s.dropWhile (fun c => c = ' ' || c = '\t')).head? = some c) : c ≠ ' ' ∧ c ≠ '\t' := by
  have := List.head?_dropWhile_not (fun c => decide (c = ' ') || decide (c = '\t')) s
  rw [h] at this
  simpa using this

theorem strip_eq {s t : List Char} : strip s = t ↔
    Spec.Trimmed t ∧ ∃ a b, Spec.Blank a ∧ Spec.Blank b ∧ s = a ++ t ++ b := by
  constructor
  · rintro rfl
    unfold strip
    set u := s.dropWhile (fun c => c = ' ' || c = '\t') with hu
    set v := u.reverse.dropWhile (fun c => c = ' ' || c = '\t') with hv
    have e1 : s = s.takeWhile (fun c => c = ' ' || c = '\t') ++ u := (List.takeWhile_append_dropWhile).symm
    have e2 : u = v.reverse ++ (u.reverse.takeWhile (fun c => c = ' ' || c = '\t')).reverse := by
      have := (List.takeWhile_append_dropWhile (p := fun c => c = ' ' || c = '\t') (l := u.reverse)).symm
      rw [← hv] at this
      have := congrArg List.reverse this
      simpa using this
    refine ⟨⟨fun c hc => ?_, fun c hc => ?_⟩, s.takeWhile (fun c => c = ' ' || c = '\t'),
      (u.reverse.takeWhile (fun c => c = ' ' || c = '\t')).reverse, blank_takeWhile _, ?_, ?_⟩
    · have : u.head? = some c := by
        rw [e2, List.head?_append, hc]; rfl
      exact head_dropWhile this
    · rw [List.getLast?_reverse] at hc
      exact head_dropWhile hc
    · intro c hc
      exact blank_takeWhile _ c (List.mem_reverse.1 hc)
    · rw [List.append_assoc, ← e2, ← e1]
  · rintro ⟨ht, a, b, ha, hb, rfl⟩
    unfold strip
    by_cases h : t = []
    · subst h
      have : (a ++ [] ++ b).dropWhile (fun c => c = ' ' || c = '\t') = [] := by
        have := dropWhile_blank (a := a ++ [] ++ b) (t := []) (by
          intro c hc
          simp only [List.append_nil, List.mem_append] at hc
          exact hc.elim (ha c) (hb c)) (by simp)
        simpa using this
      rw [this]; rfl
    · rw [List.append_assoc, dropWhile_blank ha, List.reverse_append, dropWhile_blank, List.reverse_reverse]
      · intro c hc; exact hb c (List.mem_reverse.1 hc)
      · intro c hc
        rw [List.head?_reverse] at hc
        exact ht.2 c hc
      · intro c hc
        rw [List.head?_append_of_ne_nil _ h] at hc
        exact ht.1 c hc

theorem blank_colon {s : List Char} (h : Spec.Blank s) : ':' ∉ s := by
  intro hc
  rcases h _ hc with h | h <;> simp at h

theorem pluginName_iff {p mo fu : String} : Spec.PluginName p mo fu ↔
    ∃ m f, pluginParts p = .ok (m, f) ∧ String.ofList (strip m) = mo ∧
      String.ofList (strip f) = fu := by
  constructor
  · rintro ⟨a, b, c, d, ha, hb, hc, hd, e, hm, hf, tm, tf⟩
    refine ⟨_, _, pluginParts_ok.2 ⟨e, ?_, ?_⟩, ?_, ?_⟩
    · simp [hm, blank_colon ha, blank_colon hb]
    · simp [hf, blank_colon hc, blank_colon hd]
    · rw [strip_eq.2 ⟨tm, a, b, ha, hb, rfl⟩, String.ofList_toList]
    · rw [strip_eq.2 ⟨tf, c, d, hc, hd, rfl⟩, String.ofList_toList]
  · rintro ⟨m, f, e, rfl, rfl⟩
    obtain ⟨e, hm, hf⟩ := pluginParts_ok.1 e
    obtain ⟨tm, a, b, ha, hb, em⟩ := strip_eq.1 (rfl : strip m = strip m)
    obtain ⟨tf, c, d, hc, hd, ef⟩ := strip_eq.1 (rfl : strip f = strip f)
    refine ⟨a, b, c, d, ha, hb, hc, hd, ?_, ?_, ?_, ?_, ?_⟩
    · rw [String.toList_ofList, String.toList_ofList, ← em, ← ef, e]
    · rw [String.toList_ofList]; intro h; exact hm (by rw [em]; simp [h])
    · rw [String.toList_ofList]; intro h; exact hf (by rw [ef]; simp [h])
    · rwa [String.toList_ofList]
    · rwa [String.toList_ofList]

theorem loadFunc_ok {σ δ : Type} {env : Data.Env σ δ} {path : List String} {plugin : Option String}
    {fn : Fn σ δ} : (loadFunc env path plugin).1 = .ok fn ↔
      ∃ p mo fu functions, plugin = some p ∧ Spec.PluginName p mo fu ∧
        env.modules (path ++ ["."]) mo = .ok functions ∧ functions fu = some fn := by
  unfold loadFunc
  cases plugin with
  | none => simp
  | some p =>
    simp only [pluginName_iff]
    cases hp : pluginParts p with
    | error e => simp [hp]
    | ok mf =>
      obtain ⟨m, f⟩ := mf
      simp only
      cases hm : env.modules (path ++ ["."]) (String.ofList (strip m)) with
      | error e =>
        simp only [reduceCtorEq, false_iff]
        rintro ⟨p', mo, fu, fs, rfl', ⟨m', f', e1, rfl, rfl⟩, h3, h4⟩
        simp only [Option.some.injEq] at rfl'
        subst rfl'
        rw [hp] at e1
        simp only [Except.ok.injEq, Prod.mk.injEq] at e1
        rw [← e1.1, hm] at h3
        simp at h3
      | ok fs =>
        simp only
        constructor
        · intro h
          refine ⟨p, _, _, fs, rfl, ⟨m, f, hp, rfl, rfl⟩, hm, ?_⟩
          split at h
          · rename_i fn' hfn
            simp only [Except.ok.injEq] at h
            rw [hfn, h]
          · simp at h
        · rintro ⟨p', mo, fu, fs', rfl', ⟨m', f', e1, rfl, rfl⟩, h3, h4⟩
          simp only [Option.some.injEq] at rfl'
          subst rfl'
          rw [hp] at e1
          simp only [Except.ok.injEq, Prod.mk.injEq] at e1
          obtain ⟨rfl, rfl⟩ := e1
          rw [hm] at h3
          simp only [Except.ok.injEq] at h3
          subst h3
          rw [h4]

theorem chooseFn_ok {σ δ : Type} {env : Data.Env σ δ} {path : List String} {o : Opts σ δ}
    {fn : Fn σ δ} : (chooseFn env path o).1 = .ok fn ↔ Spec.Delivers env path o fn := by
  constructor
  · intro h
    unfold chooseFn at h
    split at h
    · rename_i f hf
      simp only [Except.ok.injEq] at h
      subst h
      exact .given hf
    · rename_i hg
      split at h
      · rename_i m hm
        unfold clientModule at hm
        split at hm
        · rename_i s _ hs
          unfold fromClient at h
          split at h
          · simp at h
          · rename_i new hnew
            obtain ⟨c, hc, h⟩ := bind_ok.1 h
            simp only [pure, Except.pure, Except.ok.injEq] at h
            subst h
            exact .client hg hs hm hnew hc
        · simp at hm
      · rename_i hm
        have hcl : ∀ s, o.data = .text s → env.clients s = none := by
          intro s hs
          unfold clientModule at hm
          rw [hg, hs] at hm
          exact hm
        split_ifs at h with hp
        · unfold isPlugin at hp
          split at hp
          · rename_i s hs
            simp only [decide_eq_true_eq] at hp
            subst hp
            obtain ⟨p, mo, fu, fs, h1, h2, h3, h4⟩ := loadFunc_ok.1 h
            exact .plugin hg hs (hcl _ hs) h1 h2 h3 h4
          · simp at hp
        · simp only [fromData] at h
          split at h
          · rename_i s hs
            obtain ⟨st, hst, h⟩ := bind_ok.1 h
            simp only [pure, Except.pure, Except.ok.injEq] at h
            subst h
            refine .file hg hs ?_ (hcl _ hs) hst
            rintro rfl
            simp [isPlugin, hs] at hp
          · rename_i st hs
            simp only [Except.ok.injEq] at h
            subst h
            exact .stream hg hs
          · rename_i hs
            simp only [Except.ok.injEq] at h
            subst h
            exact .nothing hg hs
  · intro h
    cases h with
    | given hf => simp [chooseFn, hf]
    | client hg hd hm hnew hc => simp [chooseFn, hg, clientModule, hd, hm, fromClient, hnew, hc, bind, Except.bind, pure, Except.pure]
    | plugin hg hd hcl hp hn hmo hfu =>
      simp only [chooseFn, hg, clientModule, hd, hcl, isPlugin, decide_true, if_true]
      exact loadFunc_ok.2 ⟨_, _, _, _, hp, hn, hmo, hfu⟩
    | file hg hd hs hcl hr =>
      simp only [chooseFn, hg, clientModule, hd, hcl, isPlugin, hs, decide_false, fromData, hr, bind,
        Except.bind, pure, Except.pure]
      rfl
    | stream hg hd => simp only [chooseFn, hg, clientModule, hd, isPlugin, fromData]; rfl
    | nothing hg hd => simp only [chooseFn, hg, clientModule, hd, isPlugin, fromData]; rfl

theorem cacheDir_some {σ δ : Type} {env : Data.Env σ δ} {o : Opts σ δ} {dir : String} :
    cacheDir env o = some dir ↔ Spec.CachedIn env o dir := by
  unfold cacheDir Spec.CachedIn
  have hc : (clientModule env o).isSome = true ↔
      o.getWaveforms = none ∧ ∃ s m, o.data = .text s ∧ env.clients s = some m := by
    unfold clientModule
    cases hg : o.getWaveforms <;> cases hd : o.data <;> simp [Option.isSome_iff_exists]
  have hp : isPlugin o.data = true ↔ o.data = .text "plugin" := by
    unfold isPlugin
    cases hd : o.data <;> simp
  split_ifs with h
  · simp only [Bool.and_eq_true, Bool.or_eq_true, hc, hp] at h
    simp only [Option.filter_eq_some_iff, decide_eq_true_eq]
    constructor
    · rintro ⟨h1, h2⟩; exact ⟨h1, h2, h.2, h.1.symm⟩
    · rintro ⟨h1, h2, -, -⟩; exact ⟨h1, h2⟩
  · simp only [Bool.and_eq_true, Bool.or_eq_true, hc, hp] at h
    simp only [reduceCtorEq, false_iff]
    rintro ⟨-, -, h3, h4⟩
    exact h ⟨h4.symm, h3⟩

/-- **C100**: the function returned by `init_data` takes the waveforms from the documented source and
caches them exactly under the documented circumstances; it fails exactly if this source cannot be
initialised. -/
theorem C100_source {σ δ : Type} (env : Data.Env σ δ) (path : List String) (o : Opts σ δ)
    (g : Getter σ δ) : (initData env path o).1 = .ok g ↔
      Spec.Delivers env path o g.fn ∧ ∀ dir, g.cache = some dir ↔ Spec.CachedIn env o dir := by
  unfold initData
  simp only
  rw [← chooseFn_ok]
  constructor
  · intro h
    cases hc : (chooseFn env path o).1 with
    | error e => rw [hc] at h; simp [Except.map] at h
    | ok fn =>
      rw [hc] at h
      simp only [Except.map, Except.ok.injEq] at h
      subst h
      exact ⟨rfl, fun dir => cacheDir_some⟩
  · rintro ⟨h, hd⟩
    rw [h]
    simp only [Except.map, Except.ok.injEq]
    have : cacheDir env o = g.cache := by
      apply Option.ext
      intro dir
      simp only [cacheDir_some, hd]
    rw [this]

/-! ## Histories of requests -/

theorem plain_wrapper {σ δ : Type} (g : Getter σ δ) (s : σ) (r : Request) :
    Spec.Plain g s r (wrapper g s r) := by
  unfold Spec.Plain wrapper
  rcases g.fn s r with e | d
  · cases e <;> simp [waveformWrapper, eq_comm] <;> (intro e h; subst h; simp)
  · simp [waveformWrapper]

theorem wrapper_plain {σ δ : Type} (g : Getter σ δ) (s : σ) (r : Request)
    (a : Except Raised (Option δ)) : Spec.Plain g s r a ↔ wrapper g s r = a := by
  constructor
  · intro h
    have hw := plain_wrapper g s r
    cases a with
    | ok d => exact (hw.1 d).2 ((h.1 d).1 rfl)
    | error e => exact (hw.2 e).2 ((h.2 e).1 rfl)
  · rintro rfl
    exact plain_wrapper g s r

/-- The first value in a history which was returned from the source for this request. -/
def firstValue {σ δ : Type} (h : List (Entry σ δ)) (dir : String) (r : Request) : Option (Option δ) :=
  h.findSome? (fun e => if e.getter.cache = some dir ∧ e.request = r then
    (wrapper e.getter e.world r).toOption else none)

theorem storeAfter_get {σ δ : Type} (h : List (Entry σ δ)) (st : Store δ) (dir : String)
    (r : Request) : (storeAfter st h).get? (dir, r) = (st.get? (dir, r)).or (firstValue h dir r) := by
  induction h generalizing st with
  | nil => simp [storeAfter, firstValue]
  | cons e h ih =>
    unfold storeAfter
    rw [ih]
    unfold firstValue
    rw [List.findSome?_cons]
    unfold call
    cases hc : e.getter.cache with
    | none => simp
    | some dir' =>
      simp only [Option.some.injEq]
      by_cases hk : dir' = dir ∧ e.request = r
      · obtain ⟨rfl, rfl⟩ := hk
        simp only [and_self, if_true]
        cases hs : st.get? (dir', e.request) with
        | some d => simp [hs]
        | none =>
          cases hw : wrapper e.getter e.world e.request with
          | ok d => simp [Except.toOption]
          | error e' => simp [Except.toOption, hs]
      · simp only [hk, if_false]
        have hne : (dir', e.request) ≠ (dir, r) := by
          intro h; simp only [Prod.mk.injEq] at h; exact hk h
        cases hs : st.get? (dir', e.request) with
        | some d => rfl
        | none =>
          cases hw : wrapper e.getter e.world e.request with
          | ok d => simp only; rw [Dict.get?_set_ne _ _ hne]
          | error e' => rfl

theorem answers_append {σ δ : Type} (h1 h2 : List (Entry σ δ)) (st : Store δ) :
    answers st (h1 ++ h2) = answers st h1 ++ answers (storeAfter st h1) h2 := by
  induction h1 generalizing st with
  | nil => rfl
  | cons e h ih => simp [answers, storeAfter, ih]

theorem answers_length {σ δ : Type} (h : List (Entry σ δ)) (st : Store δ) :
    (answers st h).length = h.length := by
  induction h generalizing st with
  | nil => rfl
  | cons e h ih => simp [answers, ih]

theorem answers_at {σ δ : Type} (h1 h2 : List (Entry σ δ)) (e : Entry σ δ) (st : Store δ) :
    (answers st (h1 ++ e :: h2))[h1.length]? =
      some (call e.getter (storeAfter st h1) e.world e.request).1 := by
  rw [answers_append, List.getElem?_append_right (by rw [answers_length]), answers_length]
  simp [answers]

/-- **C100**: without cache every request of every history is answered with what the source delivers
at that moment, `None` if it fails. -/
theorem C100_uncached {σ δ : Type} (st : Store δ) (h1 h2 : List (Entry σ δ)) (e : Entry σ δ)
    (hc : e.getter.cache = none) :
    ∃ a, (answers st (h1 ++ e :: h2))[h1.length]? = some a ∧
      Spec.Plain e.getter e.world e.request a := by
  refine ⟨_, answers_at h1 h2 e st, ?_⟩
  rw [wrapper_plain]
  simp [call, hc]

theorem firstValue_some {σ δ : Type} {h : List (Entry σ δ)} {dir : String} {r : Request}
    {d : Option δ} : firstValue h dir r = some d ↔ ∃ e, Spec.FirstCompleted h dir r e d := by
  unfold firstValue
  constructor
  · intro hf
    obtain ⟨h1, e, h2, rfl, he, hn⟩ := List.findSome?_eq_some_iff.1 hf
    split_ifs at he with hk
    refine ⟨e, h1, h2, rfl, hk.1, hk.2, ?_, ?_⟩
    · rw [wrapper_plain]
      revert he
      cases wrapper e.getter e.world r <;> simp [Except.toOption]
    · intro e' he' hc hr d' hp
      have := hn e' he'
      rw [if_pos ⟨hc, hr⟩, (wrapper_plain _ _ _ _).1 hp] at this
      simp [Except.toOption] at this
  · rintro ⟨e, h1, h2, rfl, hc, hr, hp, hn⟩
    refine List.findSome?_eq_some_iff.2 ⟨h1, e, h2, rfl, ?_, ?_⟩
    · rw [if_pos ⟨hc, hr⟩, (wrapper_plain _ _ _ _).1 hp]
      rfl
    · intro e' he'
      split_ifs with hk
      · cases hw : wrapper e'.getter e'.world r with
        | ok d' => exact absurd ((wrapper_plain _ _ _ _).2 hw) (hn e' he' hk.1 hk.2 d')
        | error e'' => rfl
      · rfl

/-- **C100**: with a cache, which was empty in the beginning, every request is answered with what was
delivered when this request was completed for the first time, in whichever run that was; only if it
never was completed before the source is asked. -/
theorem C100_cached {σ δ : Type} (h1 h2 : List (Entry σ δ)) (e : Entry σ δ) {dir : String}
    (hc : e.getter.cache = some dir) :
    ∃ a, (answers [] (h1 ++ e :: h2))[h1.length]? = some a ∧
      ((∃ e0 d, Spec.FirstCompleted h1 dir e.request e0 d ∧ a = .ok d) ∨
       ((∀ e0 d, ¬ Spec.FirstCompleted h1 dir e.request e0 d) ∧
          Spec.Plain e.getter e.world e.request a)) := by
  refine ⟨_, answers_at h1 h2 e [], ?_⟩
  unfold call
  rw [hc]
  simp only [storeAfter_get, Dict.get?_nil, Option.none_or]
  cases hf : firstValue h1 dir e.request with
  | some d =>
    left
    obtain ⟨e0, h0⟩ := firstValue_some.1 hf
    exact ⟨e0, d, h0, rfl⟩
  | none =>
    right
    refine ⟨fun e0 d h0 => ?_, ?_⟩
    · rw [firstValue_some.2 ⟨e0, h0⟩] at hf
      simp at hf
    · rw [wrapper_plain]
      simp only
      cases wrapper e.getter e.world e.request <;> rfl

/-- **C100**: the cache changes nothing if all requests with the same arguments which share a directory
are answered in the same way by their sources, and the sources do not fail.  Missing: sources which fail
or change, see the counterexamples. -/
theorem C100_transparent_partial {σ δ : Type} (h1 h2 : List (Entry σ δ)) (e : Entry σ δ)
    (hs : ∀ e0 ∈ h1, e0.getter.cache = e.getter.cache → e0.request = e.request →
      e0.getter.fn e0.world e0.request = e.getter.fn e.world e.request) :
    ∃ a, (answers [] (h1 ++ e :: h2))[h1.length]? = some a ∧
      Spec.Plain e.getter e.world e.request a := by
  cases hc : e.getter.cache with
  | none => exact C100_uncached [] h1 h2 e hc
  | some dir =>
    obtain ⟨a, ha, h | h⟩ := C100_cached h1 h2 e hc
    · obtain ⟨e0, d, ⟨g1, g2, rfl, hc0, hr0, hp0, -⟩, rfl⟩ := h
      refine ⟨_, ha, ?_⟩
      have := hs e0 (by simp) (by rw [hc0, hc]) hr0
      rw [hr0] at this
      unfold Spec.Plain at hp0 ⊢
      rw [← this]
      exact hp0
    · exact ⟨a, ha, h.2⟩

/-- **C100**: the source is asked for a request at most once per directory if it is not interrupted:
after the first time the answer does not depend on the state of the world or the source any more. -/
theorem C100_once {σ δ : Type} (h1 h2 h3 : List (Entry σ δ)) (e e' : Entry σ δ) {dir : String}
    (hc : e.getter.cache = some dir) (hc' : e'.getter.cache = some dir) (hr : e'.request = e.request)
    {d : Option δ} (ha : (answers [] (h1 ++ e :: (h2 ++ e' :: h3)))[h1.length]? = some (.ok d)) :
    (answers [] (h1 ++ e :: (h2 ++ e' :: h3)))[h1.length + 1 + h2.length]? = some (.ok d) := by
  have e1 : h1 ++ e :: (h2 ++ e' :: h3) = (h1 ++ e :: h2) ++ e' :: h3 := by simp
  have hl : h1.length + 1 + h2.length = (h1 ++ e :: h2).length := by simp; omega
  rw [answers_at] at ha
  rw [e1, hl, answers_at]
  have hst : (storeAfter [] (h1 ++ e :: h2)).get? (dir, e.request) = some d := by
    have key : ∀ (l l' : List (Entry σ δ)) (s : Store δ),
        storeAfter s (l ++ l') = storeAfter (storeAfter s l) l' := by
      intro l
      induction l with
      | nil => intros; rfl
      | cons x l ih => intro l' s; simp only [List.cons_append, storeAfter, ih]
    rw [key, storeAfter, storeAfter_get]
    have : (call e.getter (storeAfter [] h1) e.world e.request).2.get? (dir, e.request) = some d := by
      revert ha
      unfold call
      rw [hc]
      simp only
      cases hs : (storeAfter [] h1).get? (dir, e.request) with
      | some d' => simp [hs]
      | none =>
        cases hw : wrapper e.getter e.world e.request with
        | ok d' => simp
        | error e' => simp
    rw [this]
    rfl
  unfold call
  rw [hc', hr]
  simp only [hst]

namespace DataExample

/-- A request. -/
def request : Request := ⟨⟨"GR", "BFO", "", "HH?", 0, 100⟩, "event1"⟩

/-- Web services which deliver data if they are available (`true`). -/
def env : Data.Env Bool ℕ where
  clients := fun s => if s = "fdsn" then some ⟨some (fun o => match o with
    | .dict d => .ok (fun up _ => if up then .ok (some d.length) else .error .exception)
    | _ => .error .typeError)⟩ else none
  modules := fun path m => if m = "module" ∧ "." ∈ path then
      .ok (fun f => if f = "func" then some (fun _ _ => .ok (some 42)) else none)
    else .error .other
  read := fun s => if s = "data.mseed" then .ok 7 else .error .other
  select := fun st _ _ _ _ => st
  slice := fun st _ _ => st
  joblib := true

/-- Configuration with a web service. -/
def fdsn : Opts Bool ℕ := { data := .text "fdsn", cacheWaveforms := some "cache" }

/-- Configuration with a plugin. -/
def plugin : Opts Bool ℕ :=
  { data := .text "plugin", plugin := some "module : func", cacheWaveforms := some "cache" }

/-- What is returned for the web service. -/
def fdsnGetter : Getter Bool ℕ :=
  ⟨fun up _ => if up then .ok (some 0) else .error .exception, some "cache"⟩

/-- What is returned for the plugin. -/
def pluginGetter : Getter Bool ℕ := ⟨fun _ _ => .ok (some 42), some "cache"⟩

theorem fdsn_ok (path : List String) : (initData env path fdsn).1 = .ok fdsnGetter := rfl

theorem plugin_ok (path : List String) : (initData env path plugin).1 = .ok pluginGetter := by
  rw [C100_source]
  refine ⟨.plugin (p := "module : func") (mo := "module") (fu := "func") rfl rfl rfl rfl ?_
    (functions := fun f => if f = "func" then some (fun _ _ => .ok (some 42)) else none) ?_ rfl, ?_⟩
  · refine ⟨[], [' '], [' '], [], by simp [Spec.Blank], by simp [Spec.Blank], by simp [Spec.Blank],
      by simp [Spec.Blank], by decide, by decide, by decide, ?_, ?_⟩ <;>
    · simp [Spec.Trimmed]
  · simp [env]
  · intro dir
    simp only [pluginGetter, Spec.CachedIn, plugin, Option.some.injEq, env]
    constructor
    · rintro rfl; exact ⟨rfl, by decide, trivial, Or.inl trivial⟩
    · exact fun h => h.1

end DataExample

open DataExample

/-- **C100** does not hold for all sources: a failure of a web service is stored in the cache; the
request is answered with `None` for ever, in this and all other runs, although the service delivers
data again. -/
theorem C100_failure_counterexample (path : List String) :
    ∃ g, (initData env path fdsn).1 = .ok g ∧ g.fn true request = .ok (some 0) ∧
      ∀ h : List (Entry Bool ℕ), ∀ e : Entry Bool ℕ, e.getter = g → e.world = true →
        e.request = request →
        (answers [] (⟨g, false, request⟩ :: (h ++ [e])))[h.length + 1]? = some (.ok none) := by
  refine ⟨_, fdsn_ok path, rfl, ?_⟩
  intro h e hg hw hr
  have := C100_once [] h [] ⟨fdsnGetter, false, request⟩ e (dir := "cache") rfl (by rw [hg]; rfl) hr
    (d := none) rfl
  simp only [List.nil_append, List.length_nil, Nat.zero_add] at this
  rw [Nat.add_comm]
  exact this

/-- **C100** does not hold for all configurations: a second source which uses the same directory is
not asked, the data of the first source are returned. -/
theorem C100_directory_counterexample (path : List String) :
    ∃ g g', (initData env path fdsn).1 = .ok g ∧ (initData env path plugin).1 = .ok g' ∧
      g'.fn true request = .ok (some 42) ∧
      answers [] [⟨g, true, request⟩, ⟨g', true, request⟩] = [.ok (some 0), .ok (some 0)] :=
  ⟨_, _, fdsn_ok path, plugin_ok path, rfl, rfl⟩

/-- **C100** does not hold without option `data`: this is not reported when the data source is
initialised, but all requests are answered with `None`. -/
theorem C100_missing_counterexample {σ δ : Type} (env : Data.Env σ δ) (path : List String) :
    ∃ g, (initData env path { data := .missing }).1 = .ok g ∧
      ∀ (h : List (Entry σ δ)), (∀ e ∈ h, e.getter = g) →
        answers [] h = List.replicate h.length (.ok none) := by
  refine ⟨⟨fun _ _ => .error .exception, none⟩, rfl, ?_⟩
  intro h hh
  generalize ([] : Store δ) = st
  induction h generalizing st with
  | nil => rfl
  | cons e h ih =>
    have he := hh e (by simp)
    unfold answers
    have hc : call e.getter st e.world e.request = (.ok none, st) := by
      rw [he]; rfl
    rw [hc]
    simp only [List.length_cons, List.replicate_succ]
    rw [ih (fun e' h' => hh e' (by simp [h']))]

/-- The hypotheses of C100 can be met: two requests with cache, the second one is answered although
the service is down. -/
example : Spec.CachedIn env fdsn "cache" ∧
    answers [] [⟨fdsnGetter, true, request⟩, ⟨fdsnGetter, false, request⟩] =
      [.ok (some 0), .ok (some 0)] :=
  ⟨⟨rfl, by decide, rfl, Or.inr ⟨rfl, _, _, rfl, rfl⟩⟩, rfl⟩

/-- The hypothesis of `C100_transparent_partial` can be met: the service is available all the time. -/
example : ∀ e0 ∈ [(⟨fdsnGetter, true, request⟩ : Entry Bool ℕ), ⟨pluginGetter, true,
      { request with event := "event2" }⟩],
    e0.getter.cache = fdsnGetter.cache → e0.request = request →
      e0.getter.fn e0.world e0.request = fdsnGetter.fn true request := by
  intro e0 h0 _ hr
  simp only [List.mem_cons, List.not_mem_nil, or_false] at h0
  rcases h0 with rfl | rfl
  · rfl
  · simp [request] at hr

/-! ## Search path of modules -/

/-- **C101**: loading a function which can be loaded leaves the search path as it was.  Missing:
functions which cannot be loaded, see the counterexample. -/
theorem C101_path_partial {σ δ : Type} (env : Data.Env σ δ) (path : List String)
    (plugin : Option String) {fn : Fn σ δ} (h : (loadFunc env path plugin).1 = .ok fn) :
    (loadFunc env path plugin).2 = path := by
  unfold loadFunc at h ⊢
  cases plugin with
  | none => simp at h
  | some p =>
    simp only at h ⊢
    cases hp : pluginParts p with
    | error e => rw [hp] at h; simp at h
    | ok mf =>
      obtain ⟨m, f⟩ := mf
      rw [hp] at h
      simp only at h ⊢
      cases hm : env.modules (path ++ ["."]) (String.ofList (strip m)) with
      | error e => rw [hm] at h; simp at h
      | ok fs =>
        rw [hm] at h
        simp only at h ⊢
        cases hf : fs (String.ofList (strip f)) with
        | none => rw [hf] at h; simp at h
        | some fn' => simp

/-- **C101**: the same holds for the data source as a whole. -/
theorem C101_init_partial {σ δ : Type} (env : Data.Env σ δ) (path : List String) (o : Opts σ δ)
    {g : Getter σ δ} (h : (initData env path o).1 = .ok g) : (initData env path o).2 = path := by
  unfold initData at h ⊢
  simp only at h ⊢
  cases hc : (chooseFn env path o).1 with
  | error e => rw [hc] at h; simp [Except.map] at h
  | ok fn =>
    unfold chooseFn at hc ⊢
    split
    · rfl
    · rename_i hg
      rw [hg] at hc
      simp only at hc
      split
      · rfl
      · rename_i hm
        rw [hm] at hc
        simp only at hc
        split_ifs at hc ⊢
        · exact C101_path_partial env path _ hc
        · rfl

/-- **C101** does not hold for a module which cannot be imported: the current directory stays in the
search path, once more with every attempt. -/
theorem C101_path_counterexample (path : List String) :
    (∃ e, (initData env path { plugin with plugin := some "modul : func" }).1 = .error e) ∧
    (initData env path { plugin with plugin := some "modul : func" }).2 = path ++ ["."] := by
  have hp : pluginParts "modul : func" = .ok ("modul ".toList, " func".toList) := rfl
  have hs : String.ofList (strip "modul ".toList) = "modul" := rfl
  have hl : loadFunc env path (some "modul : func") = (.error .other, path ++ ["."]) := by
    unfold loadFunc
    simp only
    rw [hp]
    simp only [hs]
    have : env.modules (path ++ ["."]) "modul" = .error .other := by simp [env]
    rw [this]
  have : chooseFn env path { plugin with plugin := some "modul : func" } =
      loadFunc env path (some "modul : func") := rfl
  unfold initData
  rw [this, hl]
  exact ⟨⟨_, rfl⟩, rfl⟩

/-- The hypotheses of C101 can be met. -/
example (path : List String) : ∃ g, (initData env path plugin).1 = .ok g := ⟨_, plugin_ok path⟩

end Qopen
