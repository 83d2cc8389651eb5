import Verif.Lemmas.Process
import Mathlib.Data.List.Sort

/-!
# C63 — variable selection of `BinningProcess`

`selection_criteria` are applied to the metrics of the binning tables: a variable which is not fixed is selected only if
it is within the bounds, "top" keeps the best ones, fixed variables are always selected.
-/
set_option linter.unusedSectionVars false
namespace OptBinning
open Spec

section
variable {χ V μ : Type*} [Field V] [LinearOrder V] [IsStrictOrderedRing V]

theorem procFit_parts {argsort : List V → List ℕ} {cfg : ProcCfg V μ} {njobs : ℕ} {fitVar : FitVar χ V μ} {t : TargetType}
    {X : Frame χ} {st0 st : ProcState χ V μ} (h : procFit argsort cfg njobs fitVar t X st0 = .ok st) :
    (cfg.criteria.all fun c => checkCriteria t c) = true ∧ X.width = cfg.names.length ∧
    ∃ d, fitVariables njobs fitVar X cfg.names st0.binned = .ok d ∧
      selectionCriteria argsort cfg { st0 with target := t, binned := d } = .ok st := by
  unfold procFit at h
  by_cases h1 : (cfg.criteria.all fun c => checkCriteria t c) = false
  · rw [if_pos h1] at h; simp at h
  · rw [if_neg h1] at h
    by_cases h2 : X.width ≠ cfg.names.length
    · rw [if_pos h2] at h; simp at h
    · rw [if_neg h2] at h
      refine ⟨by simpa using h1, by simpa using h2, ?_⟩
      cases h3 : fitVariables njobs fitVar X cfg.names st0.binned with
      | error e => rw [h3] at h; simp at h
      | ok d => rw [h3] at h; exact ⟨d, rfl, h⟩

theorem criteria_metric {t : TargetType} {crit : PDict (Criterion V)} (h : checkCriteria t crit = true) {m : String}
    {c : Criterion V} (hm : crit.get m = some c) : m ∈ targetMetrics t ∧ checkCriterion m c = true := by
  unfold PDict.get at hm
  rw [Option.map_eq_some_iff] at hm
  obtain ⟨p, hp, rfl⟩ := hm
  have h1 := List.find?_some hp
  have h2 := List.mem_of_find?_eq_some hp
  unfold checkCriteria at h
  have h3 := List.all_eq_true.1 h p h2
  rw [beq_iff_eq] at h1
  rw [Bool.and_eq_true, h1] at h3
  exact ⟨by simpa using h3.1, h3.2⟩

/-- Which metrics may be used in a criterion: exactly these are accepted for the type of target. -/
theorem C63_metrics (t : TargetType) (m : String) (c : Criterion V) (hc : checkCriterion m c = true) :
    checkCriteria t [(m, c)] = true ↔
      m = "quality_score" ∨ (t = .binary ∧ (m = "iv" ∨ m = "js" ∨ m = "gini")) ∨ (t = .multiclass ∧ m = "js") ∨
        (t = .continuous ∧ m = "woe") := by
  unfold checkCriteria
  cases t <;> simp [targetMetrics, hc] <;> tauto

variable {argsort : List V → List ℕ} {cfg : ProcCfg V μ} {njobs : ℕ} {fitVar : FitVar χ V μ} {t : TargetType}
  {X : Frame χ} {st : ProcState χ V μ}

/-- After the first fit the mask of `get_support` is the selection asked for, computed from the metrics of the binning
tables. -/
theorem C63_selection (ha : ArgsortOk argsort) (hnd : cfg.names.Nodup)
    (h : procFit argsort cfg njobs fitVar t X (.fresh t) = .ok st) :
    Selected cfg.names (targetMetrics t) (cfg.criteria.map fun c => c.get) (cfg.fixed.getD [])
      (metricValue cfg.names st.binned) st.support := by
  obtain ⟨_, _, d, _, hs⟩ := procFit_parts h
  have := selectionCriteria_selected ha hnd (Or.inl rfl) hs
  have ht : st.target = t := this.2.2.2.1
  rw [ht] at this
  exact this.1

theorem metricValue_eq {names : List String} {binned : PDict (BinObj χ V μ)} {i : ℕ} {n : String} {ob : BinObj χ V μ}
    (hn : names[i]? = some n) (hob : binned.get n = some ob) (m : String) : metricValue names binned m i = ob.metric m := by
  simp [metricValue, hn, hob]

/-- A selected variable that is not fixed is within the bounds of every criterion. -/
theorem C63_bounds (ha : ArgsortOk argsort) (hnd : cfg.names.Nodup)
    (h : procFit argsort cfg njobs fitVar t X (.fresh t) = .ok st) {i : ℕ} {n : String} {ob : BinObj χ V μ}
    (hn : cfg.names[i]? = some n) (hob : st.binned.get n = some ob) (hsel : st.support[i]? = some true)
    (hfix : n ∉ cfg.fixed.getD []) {crit : PDict (Criterion V)} (hcrit : cfg.criteria = some crit) {m : String}
    {c : Criterion V} (hc : crit.get m = some c) : InBounds c (ob.metric m) := by
  have hS := C63_selection ha hnd h
  obtain ⟨hch, _⟩ := procFit_parts h
  rw [hcrit] at hch hS
  obtain ⟨_, T, hT, hiff⟩ := hS
  have hi : i < cfg.names.length := by
    by_contra hc'
    rw [List.getElem?_eq_none (by omega)] at hn; simp at hn
  have hm := (criteria_metric (by simpa using hch) hc).1
  rcases (hiff i hi).1 hsel with hiT | ⟨f, hf, hnf⟩
  · rw [← metricValue_eq hn hob m]
    exact hT.bounds hm hc hiT
  · rw [hn] at hnf
    simp only [Option.some.injEq] at hnf
    subst hnf
    exact absurd hf hfix

/-- Fixed variables are selected, whatever the criteria. -/
theorem C63_fixed_selected (ha : ArgsortOk argsort) (hnd : cfg.names.Nodup)
    (h : procFit argsort cfg njobs fitVar t X (.fresh t) = .ok st) {i : ℕ} {f : String}
    (hn : cfg.names[i]? = some f) (hfix : f ∈ cfg.fixed.getD []) : st.support[i]? = some true := by
  have hS := C63_selection ha hnd h
  have hi : i < cfg.names.length := by
    by_contra hc'
    rw [List.getElem?_eq_none (by omega)] at hn; simp at hn
  cases hcrit : cfg.criteria with
  | none =>
    rw [hcrit] at hS
    obtain ⟨hl, hall⟩ := hS
    rw [List.getElem?_eq_getElem (by omega), hall _ (List.getElem_mem (by omega))]
  | some crit =>
    rw [hcrit] at hS
    obtain ⟨_, T, _, hiff⟩ := hS
    exact (hiff i hi).2 (Or.inr ⟨f, hfix, hn⟩)

/-- Without criteria every variable is selected. -/
theorem C63_no_criteria (ha : ArgsortOk argsort) (hnd : cfg.names.Nodup) (hc : cfg.criteria = none)
    (h : procFit argsort cfg njobs fitVar t X (.fresh t) = .ok st) {i : ℕ} (hi : i < cfg.names.length) :
    st.support[i]? = some true := by
  have hS := C63_selection ha hnd h
  rw [hc] at hS
  obtain ⟨hl, hall⟩ := hS
  rw [List.getElem?_eq_getElem (by omega), hall _ (List.getElem_mem (by omega))]

/-- If only bounds are given, a variable that is not fixed is selected exactly when it is within all bounds. -/
theorem C63_bounds_exact (ha : ArgsortOk argsort) (hnd : cfg.names.Nodup)
    (h : procFit argsort cfg njobs fitVar t X (.fresh t) = .ok st) {i : ℕ} {n : String} {ob : BinObj χ V μ}
    (hn : cfg.names[i]? = some n) (hob : st.binned.get n = some ob)
    (hfix : n ∉ cfg.fixed.getD []) {crit : PDict (Criterion V)} (hcrit : cfg.criteria = some crit)
    (htop : ∀ m c, crit.get m = some c → c.strategy = none ∨ c.top = none) :
    st.support[i]? = some true ↔ ∀ m c, crit.get m = some c → InBounds c (ob.metric m) := by
  have hS := C63_selection ha hnd h
  obtain ⟨hch, _⟩ := procFit_parts h
  rw [hcrit] at hch hS
  obtain ⟨_, T, hT, hiff⟩ := hS
  have hi : i < cfg.names.length := by
    by_contra hc'
    rw [List.getElem?_eq_none (by omega)] at hn; simp at hn
  have hT' := hT.exact htop i
  rw [hiff i hi]
  constructor
  · rintro (hiT | ⟨f, hf, hnf⟩) m c hc
    · rw [← metricValue_eq hn hob m]
      exact (hT'.1 hiT).2 m (criteria_metric (by simpa using hch) hc).1 c hc
    · rw [hn] at hnf
      simp only [Option.some.injEq] at hnf
      subst hnf
      exact absurd hf hfix
  · intro hb
    refine Or.inl (hT'.2 ⟨Finset.mem_range.2 hi, fun m _ c hc => ?_⟩)
    rw [metricValue_eq hn hob m]
    exact hb m c hc

/-- "top" limits the number of selected variables that are not fixed. -/
theorem C63_top_number (ha : ArgsortOk argsort) (hnd : cfg.names.Nodup)
    (h : procFit argsort cfg njobs fitVar t X (.fresh t) = .ok st) {crit : PDict (Criterion V)}
    (hcrit : cfg.criteria = some crit) {m : String} {c : Criterion V} (hc : crit.get m = some c) {s : Strategy} {k : Top}
    (hs : c.strategy = some s) (hk : c.top = some k) :
    ((Finset.range cfg.names.length).filter fun i => st.support[i]? = some true ∧
      cfg.names.getD i "" ∉ cfg.fixed.getD []).card ≤ topNumber k cfg.names.length := by
  have hS := C63_selection ha hnd h
  obtain ⟨hch, _⟩ := procFit_parts h
  rw [hcrit] at hch hS
  obtain ⟨_, T, hT, hiff⟩ := hS
  have h1 := hT.top (criteria_metric (by simpa using hch) hc).1 hc hs hk
  rw [Finset.card_range] at h1
  refine le_trans (Finset.card_le_card ?_) h1
  intro i hi
  rw [Finset.mem_filter, Finset.mem_range] at hi
  obtain ⟨hi, hsel, hnf⟩ := hi
  rcases (hiff i hi).1 hsel with hT | ⟨f, hf, hn⟩
  · exact hT
  · rw [List.getD_eq_getElem?_getD, hn] at hnf
    exact absurd hf hnf

/-- One criterion, no fixed variables: the numbers of variables within the bounds and of selected ones are as "top"
says, and every selected variable is at least as good as every other variable within the bounds. -/
theorem C63_best (ha : ArgsortOk argsort) (hnd : cfg.names.Nodup)
    (h : procFit argsort cfg njobs fitVar t X (.fresh t) = .ok st) {m : String} {c : Criterion V}
    (hcrit : cfg.criteria = some [(m, c)]) (hfix : cfg.fixed = none) {s : Strategy} {k : Top}
    (hs : c.strategy = some s) (hk : c.top = some k) :
    (∃ W : Finset ℕ, (∀ i, i ∈ W ↔ i < cfg.names.length ∧ InBounds c (metricValue cfg.names st.binned m i)) ∧
      ((Finset.range cfg.names.length).filter fun i => st.support[i]? = some true).card = topNumber k W.card) ∧
    ∀ (i j : ℕ) ni nj oi oj, cfg.names[i]? = some ni → cfg.names[j]? = some nj → st.binned.get ni = some oi →
      st.binned.get nj = some oj → st.support[i]? = some true → st.support[j]? ≠ some true → InBounds c (oj.metric m) →
      AtLeastAsGood s (oi.metric m) (oj.metric m) := by
  classical
  have hS := C63_selection ha hnd h
  obtain ⟨hch, _⟩ := procFit_parts h
  rw [hcrit] at hch hS
  obtain ⟨_, T, hT, hiff⟩ := hS
  have hget : PDict.get [(m, c)] m = some c := by simp [PDict.get]
  have hget' : ∀ m', m' ≠ m → PDict.get [(m, c)] m' = none := by
    intro m' hm'
    simp [PDict.get, List.find?_cons, Ne.symm hm']
  have hm := (criteria_metric (by simpa using hch) hget).1
  have hdup : (targetMetrics t).Nodup := by cases t <;> decide
  -- the chain has one step
  have hstep : ∀ (ms : List String) (S : Finset ℕ), ms.Nodup →
      SelectChain (metricValue cfg.names st.binned) (PDict.get [(m, c)]) ms S T →
      (m ∈ ms → SelectStep (metricValue cfg.names st.binned m) c S T) ∧ (m ∉ ms → T = S) := by
    intro ms
    induction ms with
    | nil => intro S _ hSC; exact ⟨by simp, fun _ => hSC⟩
    | cons m' ms ih =>
      intro S hnd' hSC
      rw [List.nodup_cons] at hnd'
      obtain ⟨U, hU, hUT⟩ := hSC
      obtain ⟨ih1, ih2⟩ := ih U hnd'.2 hUT
      by_cases hmm : m' = m
      · subst hmm
        rw [hget] at hU
        refine ⟨fun _ => ?_, by simp⟩
        rw [ih2 hnd'.1]; exact hU
      · rw [hget' m' hmm] at hU
        have hU' : U = S := hU
        subst hU'
        refine ⟨fun hmem => ih1 ?_, fun hnm => ih2 ?_⟩
        · rcases List.mem_cons.1 hmem with hq | hq
          · exact absurd hq.symm hmm
          · exact hq
        · intro hc'; exact hnm (List.mem_cons_of_mem _ hc')
  have hst := (hstep _ _ hdup hT).1 hm
  simp only [SelectStep, hs, hk] at hst
  obtain ⟨hsub, hcard, hbest⟩ := hst
  have hiff' : ∀ i < cfg.names.length, st.support[i]? = some true ↔ i ∈ T := by
    intro i hi
    rw [hiff i hi, hfix]; simp
  have hTeq : ((Finset.range cfg.names.length).filter fun i => st.support[i]? = some true) = T := by
    ext i
    rw [Finset.mem_filter, Finset.mem_range]
    constructor
    · rintro ⟨h1, h2⟩; exact (hiff' i h1).1 h2
    · intro hiT
      have h1 := Finset.mem_range.1 (Finset.mem_filter.1 (hsub hiT)).1
      exact ⟨h1, (hiff' i h1).2 hiT⟩
  refine ⟨⟨_, fun i => ?_, by rw [hTeq]; exact hcard⟩, ?_⟩
  · rw [Finset.mem_filter, Finset.mem_range]
  · intro i j ni nj oi oj hni hnj hoi hoj hi hj hb
    have hil : i < cfg.names.length := by
      by_contra hc'
      rw [List.getElem?_eq_none (by omega)] at hni; simp at hni
    have hjl : j < cfg.names.length := by
      by_contra hc'
      rw [List.getElem?_eq_none (by omega)] at hnj; simp at hnj
    have := hbest i ((hiff' i hil).1 hi) j (Finset.mem_filter.2 ⟨Finset.mem_range.2 hjl, by
      rw [metricValue_eq hnj hoj]; exact hb⟩) (fun hc' => hj ((hiff' j hjl).2 hc'))
    rwa [metricValue_eq hni hoi, metricValue_eq hnj hoj] at this

/-- An accepted "top" never leaves nothing: if some variable is within the bounds of the only criterion, a variable is
selected. -/
theorem C63_not_empty (ha : ArgsortOk argsort) (hnd : cfg.names.Nodup)
    (h : procFit argsort cfg njobs fitVar t X (.fresh t) = .ok st) {m : String} {c : Criterion V}
    (hcrit : cfg.criteria = some [(m, c)]) (hfix : cfg.fixed = none) {j : ℕ} {nj : String} {oj : BinObj χ V μ}
    (hnj : cfg.names[j]? = some nj) (hoj : st.binned.get nj = some oj) (hb : InBounds c (oj.metric m)) :
    ∃ i : ℕ, st.support[i]? = some true := by
  have hjl : j < cfg.names.length := by
    by_contra hc'
    rw [List.getElem?_eq_none (by omega)] at hnj; simp at hnj
  have hget : ∀ m' c', PDict.get [(m, c)] m' = some c' → m' = m ∧ c' = c := by
    intro m' c' hg
    by_cases hmm : m' = m
    · subst hmm
      have : PDict.get [(m', c)] m' = some c := by simp [PDict.get]
      rw [this] at hg
      exact ⟨rfl, (Option.some.inj hg).symm⟩
    · have : PDict.get [(m, c)] m' = none := by simp [PDict.get, List.find?_cons, Ne.symm hmm]
      rw [this] at hg; simp at hg
  by_cases hst : c.strategy = none ∨ c.top = none
  · refine ⟨j, (C63_bounds_exact ha hnd h hnj hoj (by simp [hfix]) hcrit ?_).2 ?_⟩
    · intro m' c' hg; rw [(hget m' c' hg).2]; exact hst
    · intro m' c' hg
      obtain ⟨h1, h2⟩ := hget m' c' hg
      subst h1; subst h2; exact hb
  · rw [not_or] at hst
    obtain ⟨s, hs⟩ := Option.ne_none_iff_exists'.1 hst.1
    obtain ⟨k, hk⟩ := Option.ne_none_iff_exists'.1 hst.2
    obtain ⟨⟨W, hW, hcard⟩, _⟩ := C63_best ha hnd h hcrit hfix hs hk
    have hjW : j ∈ W := (hW j).2 ⟨hjl, by rw [metricValue_eq hnj hoj]; exact hb⟩
    have hpos : 0 < W.card := Finset.card_pos.2 ⟨j, hjW⟩
    have hchk : checkCriterion m c = true := by
      obtain ⟨hch, _⟩ := procFit_parts h
      rw [hcrit] at hch
      exact (criteria_metric (by simpa using hch) (by simp [PDict.get])).2
    have htop : 0 < topNumber k W.card := by
      unfold checkCriterion at hchk
      rw [hk] at hchk
      cases k with
      | count k =>
        simp only [Bool.and_eq_true, decide_eq_true_eq] at hchk
        simp only [topNumber]; omega
      | frac q =>
        simp only [Bool.and_eq_true, decide_eq_true_eq] at hchk
        have : 0 < ⌈((W.card : ℕ) : ℚ) * q⌉ := Int.ceil_pos.2 (mul_pos (by exact_mod_cast hpos) hchk.2.1)
        simp only [topNumber]; omega
    rw [← hcard] at htop
    obtain ⟨i, hi⟩ := Finset.card_pos.1 htop
    exact ⟨i, (Finset.mem_filter.1 hi).2⟩

/-- The order of the keys of `selection_criteria` is irrelevant: the criteria are applied in a fixed order of the metrics. -/
theorem C63_key_order {crit crit' : PDict (Criterion V)} (hp : crit.Perm crit') (hk : crit.keys.Nodup)
    {st0 : ProcState χ V μ} (hcrit : cfg.criteria = some crit) :
    procFit argsort { cfg with criteria := some crit' } njobs fitVar t X st0 = procFit argsort cfg njobs fitVar t X st0 := by
  have hk' : crit'.keys.Nodup := (hp.map Prod.fst).nodup_iff.1 hk
  have hget : ∀ m, crit.get m = crit'.get m := by
    intro m
    cases h1 : crit.get m with
    | none =>
      have : ¬ (crit.get m).isSome := by simp [h1]
      rw [PDict.get_isSome_iff] at this
      have h2 : m ∉ crit'.keys := fun hc => this ((hp.map Prod.fst).mem_iff.2 hc)
      rw [← PDict.get_isSome_iff] at h2
      simpa using Eq.symm (Option.not_isSome_iff_eq_none.1 h2)
    | some c =>
      have hmem : (m, c) ∈ crit := by
        unfold PDict.get at h1
        rw [Option.map_eq_some_iff] at h1
        obtain ⟨p, hp1, hp2⟩ := h1
        have e1 := List.find?_some hp1
        rw [beq_iff_eq] at e1
        have : p = (m, c) := by rw [← e1, ← hp2]
        rw [← this]; exact List.mem_of_find?_eq_some hp1
      obtain ⟨i, hi, hie⟩ := List.getElem_of_mem (hp.mem_iff.1 hmem)
      have := PDict.get_getElem crit' hk' i hi
      rw [hie] at this
      exact this.symm
  have hchk : checkCriteria t crit' = checkCriteria t crit := by
    unfold checkCriteria
    rw [Bool.eq_iff_iff, List.all_eq_true, List.all_eq_true]
    exact ⟨fun hh p hp' => hh p (hp.mem_iff.1 hp'), fun hh p hp' => hh p (hp.mem_iff.2 hp')⟩
  have hany : (crit'.any fun p => (targetMetrics t).contains p.1) = crit.any fun p => (targetMetrics t).contains p.1 := by
    rw [Bool.eq_iff_iff, List.any_eq_true, List.any_eq_true]
    exact ⟨fun ⟨p, hp', hh⟩ => ⟨p, hp.mem_iff.2 hp', hh⟩, fun ⟨p, hp', hh⟩ => ⟨p, hp.mem_iff.1 hp', hh⟩⟩
  have hsm : ∀ (rows : List (String → V)) (ms : List String) (s : List Bool),
      selectMetrics argsort crit' rows ms s = selectMetrics argsort crit rows ms s := by
    intro rows ms
    induction ms with
    | nil => intro s; rfl
    | cons m ms ih => intro s; simp only [selectMetrics]; rw [ih, hget m]
  have hsup : ∀ stats, supportOf argsort { cfg with criteria := some crit' } t stats = supportOf argsort cfg t stats := by
    intro stats
    unfold supportOf
    rw [hcrit]
    simp only [hany, hsm]
  unfold procFit selectionCriteria
  rw [hcrit]
  simp only [Option.all_some, hchk, hsup]

/-- "top" without "strategy" (or the converse) has no effect. -/
theorem C63_top_alone_ignored (c : Criterion V) (hc : c.strategy = none ∨ c.top = none) (vals : List V)
    (support : List Bool) :
    selectMetric argsort c vals support = selectMetric argsort { c with strategy := none, top := none } vals support := by
  rw [selectMetric_def, selectMetric_def]
  rcases hc with h | h
  · rw [h]; rfl
  · rw [h]; cases c.strategy <;> rfl

/-- With criteria, a fixed variable which is not a variable of the process makes the fit fail. -/
theorem C63_unknown_fixed {f : String} {fs : List String} (hfix : cfg.fixed = some fs) (hf : f ∈ fs)
    (hn : f ∉ cfg.names) {crit : PDict (Criterion V)} (hcrit : cfg.criteria = some crit) {st0 : ProcState χ V μ} :
    procFit argsort cfg njobs fitVar t X st0 ≠ .ok st := by
  intro h
  obtain ⟨_, _, d, _, hs⟩ := procFit_parts h
  have hfail : ∀ (l : List String) (s s' : List Bool), f ∈ l → fixVariables cfg.names l s ≠ .ok s' := by
    intro l
    induction l with
    | nil => simp
    | cons g l ih =>
      intro s s' hm
      simp only [fixVariables]
      split
      · rename_i hg
        rcases List.mem_cons.1 hm with rfl | hm
        · exact absurd (by simpa using hg) hn
        · exact ih _ _ hm
      · simp
  unfold selectionCriteria at hs
  cases h1 : computeStats d cfg.names st0.stats with
  | error e => simp only [h1] at hs; simp at hs
  | ok stats =>
    simp only [h1] at hs
    cases h2 : supportOf argsort cfg t stats with
    | error e => rw [h2] at hs; simp at hs
    | ok s =>
      unfold supportOf at h2
      rw [hcrit] at h2
      simp only at h2
      split at h2
      · simp at h2
      · rw [hfix] at h2
        exact hfail _ _ _ hf h2

end

/-! ### the hypotheses can be met -/

/-- A sorting permutation of rational numbers. -/
def argsortQ (l : List ℚ) : List ℕ := (List.range l.length).insertionSort fun a b => l.getD a 0 ≤ l.getD b 0

theorem argsortQ_ok : ArgsortOk argsortQ := by
  intro l
  refine ⟨List.perm_insertionSort _ _, ?_⟩
  intro a b x y hab hx hy
  have hsorted : ((List.range l.length).insertionSort fun a b => l.getD a 0 ≤ l.getD b 0).Pairwise
      (fun a b => l.getD a 0 ≤ l.getD b 0) :=
    List.pairwise_insertionSort (r := fun a b => l.getD a 0 ≤ l.getD b 0)
      (l := List.range l.length)
  rw [Option.bind_eq_some_iff] at hx hy
  obtain ⟨p, hp, hpx⟩ := hx
  obtain ⟨q, hq, hqy⟩ := hy
  obtain ⟨ha', hpe⟩ := List.getElem?_eq_some_iff.1 hp
  obtain ⟨hb', hqe⟩ := List.getElem?_eq_some_iff.1 hq
  have := List.pairwise_iff_getElem.1 hsorted a b ha' hb' hab
  change l.getD ((argsortQ l)[a]) 0 ≤ l.getD ((argsortQ l)[b]) 0 at this
  rw [hpe, hqe, List.getD_eq_getElem?_getD, List.getD_eq_getElem?_getD, hpx, hqy] at this
  simpa using this

/-- An object with the metric "iv" equal to the first entry of its column. -/
def exFitVar : FitVar ℚ ℚ ℚ := fun n x =>
  .ok ⟨n, .optimal, fun m => if m = "iv" then x.headD 0 else 1 / 2, fun a v => if a.metric = some "bins" then .str "b" else
    if a.metric = some "indices" then .num ((⌊v⌋ : ℤ) : ℚ) else .num (v + a.missing)⟩

/-- Four variables, the two of highest IV among those of IV at least 1/10, and a fixed one. -/
def exProc : ProcCfg ℚ ℚ where
  names := ["a", "b", "c", "d"]
  criteria := some [("iv", { min := some (1 / 10), strategy := some .highest, top := some (.count 2) })]
  fixed := some ["a"]

def exFrame : Frame ℚ := .array [[1 / 20, 1], [3 / 10, 2], [2 / 10, 3], [4 / 10, 4]]

example : exProc.names.Nodup := by decide

/-- The selection of `exProc` on `exFrame`, with one worker and with three. -/
example : ((procFit argsortQ exProc 1 exFitVar .binary exFrame (.fresh .binary)).toOption.map ProcState.support) =
    some [true, true, false, true] := by decide +kernel

example : ((procFit argsortQ exProc 3 exFitVar .binary exFrame (.fresh .binary)).toOption.map ProcState.support) =
    some [true, true, false, true] := by decide +kernel

/-- A proportion: half of the three variables within the bounds, rounded up. -/
example : ((procFit argsortQ ⟨["a", "b", "c", "d"],
      some [("iv", ⟨some (1 / 10), none, some .lowest, some (.frac (1 / 2))⟩)], none, none⟩
    2 exFitVar .binary exFrame (.fresh .binary)).toOption.map ProcState.support) = some [false, true, true, false] := by
  decide +kernel

end OptBinning
