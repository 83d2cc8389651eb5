import Verif.Spec.ParamsM
import Verif.Props.MulticlassTable
import Verif.Props.TrendRows
import Verif.Props.ParamsC

/-!
# C107: the constructor arguments of `MulticlassOptimalBinning`
-/
namespace OptBinning
open Finset Spec

/-- C107: arguments in the documented ranges are accepted; accepted arguments are in the documented ranges, except that
`time_limit` may also be NaN or infinite; all others are refused with `ValueError`. -/
theorem C107_checks (p : ParamsM) :
    (ValidParamsM p → checkParametersM p = .ok ()) ∧
    (checkParametersM p = .ok () → (∀ t, p.timeLimit = .num t → ValidParamsM p) ∧ ∀ t, ValidParamsM { p with timeLimit := .num |t| }) ∧
    (checkParametersM p = .ok () ∨ checkParametersM p = .error "ValueError") := by
  have key : checkParametersM p = .ok () ↔ (1 < p.maxPrebins ∧ (NumIn p.minPrebinSize fun q => 0 < q ∧ q ≤ 1 / 2) ∧
      PositiveIfGiven p.minBins ∧ PositiveIfGiven p.maxBins ∧ OrderedIfGiven p.minBins p.maxBins ∧
      (∀ v, p.minBinSize = some v → NumIn v fun q => 0 < q ∧ q ≤ 1 / 2) ∧
      (∀ v, p.maxBinSize = some v → NumIn v fun q => 0 < q ∧ q ≤ 1) ∧
      (∀ a b, p.minBinSize = some (.num a) → p.maxBinSize = some (.num b) → a ≤ b) ∧
      (∀ a, p.trend = .str a → a = .auto ∨ a = .autoHeuristic ∨ a = .autoAscDesc) ∧
      (NumIn p.minRateDiff fun q => 0 ≤ q ∧ q ≤ 1) ∧
      (∀ v, p.maxPvalue = some v → NumIn v fun q => 0 < q ∧ q ≤ 1) ∧
      (∀ d, p.splitDigits = some d → 0 ≤ d ∧ d ≤ 8) ∧ p.timeLimit.below 0 = false) := by
    have hopt : ∀ (o : Option XQ) (b : ℚ), ¬ (o.any fun v => !(v.above 0 && v.atMost b)) = true ↔
        ∀ v, o = some v → NumIn v fun q => 0 < q ∧ q ≤ b := by
      intro o b
      cases o with
      | none => simp
      | some v =>
        rw [Option.any_some, Bool.not_eq_true', Bool.not_eq_false, open_closed]
        simp
    have hord : ¬ (p.minBinSize.any fun v => p.maxBinSize.any fun w => v.greater w) = true ↔
        ∀ a b, p.minBinSize = some (.num a) → p.maxBinSize = some (.num b) → a ≤ b := by
      cases p.minBinSize with
      | none => simp
      | some v =>
        cases p.maxBinSize with
        | none => simp
        | some w => cases v <;> cases w <;> simp [XQ.greater]
    have hd : ¬ (p.splitDigits.any fun d => !(decide (0 ≤ d) && decide (d ≤ 8))) = true ↔ ∀ d, p.splitDigits = some d → 0 ≤ d ∧ d ≤ 8 := by
      cases p.splitDigits with
      | none => simp
      | some d => simp
    have ht : badTrends p.trend = false ↔ ∀ a, p.trend = .str a → a = .auto ∨ a = .autoHeuristic ∨ a = .autoAscDesc := by
      cases p.trend with
      | none => simp [badTrends]
      | list l => simp [badTrends]
      | str a => cases a <;> simp [badTrends]
    unfold checkParametersM
    have ite_ok : ∀ (b : Prop) [Decidable b] (x : Except String Unit), (if b then Except.error "ValueError" else x) = .ok () ↔ ¬ b ∧ x = .ok () := by
      intro b _ x
      by_cases hb : b <;> simp [hb]
    have hn : ∀ b : Bool, ¬ (!b) = true ↔ b = true := by intro b; cases b <;> simp
    simp only [ite_ok, hopt, hord, hd, hn, open_closed, closed_closed, Bool.not_eq_true, badCount_false, badOrder_false, not_le, and_true, ht]
  refine ⟨fun h => key.2 ⟨h.1, h.2, h.3, h.4, h.5, h.6, h.7, h.8, h.9, h.10, h.11, h.12, ?_⟩, ?_, ?_⟩
  · obtain ⟨q, hq, h0⟩ := h.13; rw [hq]; simp [XQ.below, h0]
  · intro h
    obtain ⟨h1, h2, h3, h4, h5, h6, h7, h8, h9, h10, h11, h12, h13⟩ := key.1 h
    refine ⟨fun t ht => ⟨h1, h2, h3, h4, h5, h6, h7, h8, h9, h10, h11, h12, ⟨t, ht, ?_⟩⟩,
      fun t => ⟨h1, h2, h3, h4, h5, h6, h7, h8, h9, h10, h11, h12, ⟨_, rfl, abs_nonneg t⟩⟩⟩
    rw [ht] at h13; simpa [XQ.below] using h13
  · unfold checkParametersM
    have ite_or : ∀ (b : Prop) [Decidable b] (x : Except String Unit), (x = .ok () ∨ x = .error "ValueError") →
        ((if b then Except.error "ValueError" else x) = .ok () ∨ (if b then Except.error "ValueError" else x) = .error "ValueError") := by
      intro b _ x hx
      by_cases hb : b <;> simp [hb, hx]
    repeat refine ite_or _ _ ?_
    exact Or.inl rfl

/-- The default arguments are valid; so is a list. -/
example : ValidParamsM {} ∧ ValidParamsM { trend := .list [.ascending, .peakHeuristic] } := by
  have h : checkParametersM {} = .ok () := by decide +kernel
  have h' : checkParametersM { trend := .list [.ascending, .peakHeuristic] } = .ok () := by decide +kernel
  exact ⟨((C107_checks _).2.1 h).1 _ rfl, ((C107_checks _).2.1 h').1 _ rfl⟩

/-- Finding: unlike `OptimalBinning`, a plain string "ascending" is refused: a list is needed. -/
example : checkParametersM { trend := .str .ascending } = .error "ValueError" := by decide +kernel

/-! ### the trends of the classes -/

theorem resolveEach_ok {fs : List (List ℕ → List ℕ → Except String Trend)} {nevs evs : List (List ℕ)} (h1 : nevs.length = fs.length)
    (h2 : evs.length = fs.length) (hok : ∀ i < fs.length, ∃ t, (fs.getD i fun _ _ => .error "") (nevs.getD i []) (evs.getD i []) = .ok t) :
    ∃ ts, resolveEach fs nevs evs = .ok ts ∧ ts.length = fs.length ∧
      ∀ i < fs.length, (fs.getD i fun _ _ => .error "") (nevs.getD i []) (evs.getD i []) = .ok (ts.getD i .unconstrained) := by
  induction fs generalizing nevs evs with
  | nil => exact ⟨[], by cases nevs <;> cases evs <;> rfl, rfl, fun i hi => by simp at hi⟩
  | cons g fs ih =>
    cases nevs with
    | nil => simp at h1
    | cons nev nevs =>
      cases evs with
      | nil => simp at h2
      | cons ev evs =>
        obtain ⟨t, ht⟩ := hok 0 (by simp)
        simp only [List.getD_cons_zero] at ht
        obtain ⟨ts, e1, e2, e3⟩ := ih (nevs := nevs) (evs := evs) (by simpa using h1) (by simpa using h2) fun i hi => by
          have := hok (i + 1) (by simpa using hi)
          simpa only [List.getD_cons_succ] using this
        refine ⟨t :: ts, by simp [resolveEach, ht, e1], by simp [e2], fun i hi => ?_⟩
        cases i with
        | zero => simpa only [List.getD_cons_zero] using ht
        | succ i =>
          simp only [List.getD_cons_succ]
          exact e3 i (by simpa using hi)

theorem resolveEntry_ok (hull : List ℚ → Option ℚ) {nev ev : List ℕ} (h : 2 ≤ nev.length) (hl : ev.length = nev.length) (a : TrendArg) :
    ∃ t, resolveEntry hull a nev ev = .ok t ∧ MayResolve a t := by
  have : ∃ t, resolveTrend hull nev ev a = .ok t := by
    cases a with
    | auto => obtain ⟨t', -, ht'⟩ := C30_auto hull nev ev h; exact ⟨t', ht'⟩
    | autoAscDesc => obtain ⟨t', -, ht'⟩ := C30_auto_asc_desc hull nev ev h; exact ⟨t', ht'⟩
    | autoHeuristic => obtain ⟨t', ht', -⟩ := C30_auto_heuristic hull nev ev h hl; exact ⟨t', ht'⟩
    | _ => exact ⟨_, rfl⟩
  obtain ⟨t, ht⟩ := this
  exact ⟨t, ht, mayResolve hull nev ev h hl a t ht⟩

theorem resolveString_ok (hull : List ℚ → Option ℚ) {nev ev : List ℕ} (h : 2 ≤ nev.length) {a : TrendArg}
    (ha : a = .auto ∨ a = .autoHeuristic ∨ a = .autoAscDesc) :
    ∃ t, resolveString hull a nev ev = .ok t ∧ MayResolve (if a = .autoHeuristic then .auto else a) t := by
  obtain ⟨d, hd⟩ : ∃ d, autoData hull nev ev = .ok d := by
    unfold autoData
    simp only
    rw [if_neg (by omega), if_neg (by omega)]
    exact ⟨_, rfl⟩
  unfold resolveString
  rw [hd]
  rcases ha with rfl | rfl | rfl
  · rcases trendName_cases d with e | e | e | e <;> refine ⟨_, rfl, ?_⟩ <;> simp [decide', e, MayResolve, trendOfName]
  · rcases trendName_cases d with e | e | e | e <;> refine ⟨_, rfl, ?_⟩ <;> simp [decide', e, MayResolve, trendOfName]
  · rcases ascDesc_cases d with e | e <;> refine ⟨_, rfl, ?_⟩ <;> simp [decide', e, MayResolve, trendOfName]

theorem optionsM_ok (p : ParamsM) (hull : List ℚ → Option ℚ) (hp : checkParametersM p = .ok ()) {n : ℕ} {nev ev : List (List ℕ)}
    (h2 : 2 ≤ n) (hlen : nev.length = ev.length) (hn : ∀ l ∈ nev, l.length = n) (he : ∀ l ∈ ev, l.length = n)
    (hl : ∀ l, p.trend = .list l → l.length = ev.length) :
    ∃ ts, p.options hull nev ev = .ok { trends := ts, minBins := p.minBins, maxBins := p.maxBins } ∧ ts.length = ev.length ∧
      ∀ i < ev.length, EnforcedM p.trend (asked p.trend i) →
        MayResolve (if asked p.trend i = .autoHeuristic then .auto else asked p.trend i) (ts.getD i .unconstrained) := by
  have hcol : ∀ i < ev.length, (nev.getD i []).length = n ∧ (ev.getD i []).length = n := fun i hi => by
    constructor
    · rw [List.getD_eq_getElem _ _ (by omega)]; exact hn _ (List.getElem_mem _)
    · rw [List.getD_eq_getElem _ _ hi]; exact he _ (List.getElem_mem _)
  unfold ParamsM.options resolveTrendsM
  cases ht : p.trend with
  | none =>
    refine ⟨_, rfl, by simp, fun i hi _ => ?_⟩
    simp [asked, MayResolve, List.getD_replicate, hi]
  | str a =>
    have ha := (((C107_checks p).2.1 hp).2 0).trend a ht
    have hg : ∀ i < ev.length, ∀ d, (List.replicate ev.length (resolveString hull a)).getD i d = resolveString hull a := fun i hi d => by
      simp [List.getD_replicate, hi]
    obtain ⟨ts, e1, e2, e3⟩ := resolveEach_ok (fs := List.replicate ev.length (resolveString hull a)) (nevs := nev) (evs := ev)
      (by simp [hlen]) (by simp) (fun i hi => by
        rw [List.length_replicate] at hi
        rw [hg i hi]
        obtain ⟨t, ht, -⟩ := resolveString_ok hull (nev := nev.getD i []) (ev := ev.getD i []) (by rw [(hcol i hi).1]; exact h2) ha
        exact ⟨t, ht⟩)
    simp only [e1]
    refine ⟨ts, rfl, by simpa using e2, fun i hi _ => ?_⟩
    have := e3 i (by simpa using hi)
    rw [hg i hi] at this
    obtain ⟨t, ht, hm⟩ := resolveString_ok hull (nev := nev.getD i []) (ev := ev.getD i []) (by rw [(hcol i hi).1]; exact h2) ha
    rw [ht] at this
    rw [← Except.ok.inj this]
    exact hm
  | list l =>
    have hll := hl l ht
    have hg : ∀ i < ev.length, ∀ d, (l.map (resolveEntry hull)).getD i d = resolveEntry hull (l.getD i .none) := fun i hi d => by
      rw [List.getD_eq_getElem _ _ (by simp; omega), List.getD_eq_getElem _ _ (by omega), List.getElem_map]
    obtain ⟨ts, e1, e2, e3⟩ := resolveEach_ok (fs := l.map (resolveEntry hull)) (nevs := nev) (evs := ev)
      (by simp [hlen, hll]) (by simp [hll]) (fun i hi => by
        rw [List.length_map, hll] at hi
        rw [hg i hi]
        obtain ⟨t, ht, -⟩ := resolveEntry_ok hull (nev := nev.getD i []) (ev := ev.getD i []) (by rw [(hcol i hi).1]; exact h2)
          (by rw [(hcol i hi).1, (hcol i hi).2]) (l.getD i .none)
        exact ⟨t, ht⟩)
    simp only [ne_eq, hll, not_true_eq_false, if_false, e1]
    refine ⟨ts, rfl, by simpa [hll] using e2, fun i hi henf => ?_⟩
    have := e3 i (by simpa [hll] using hi)
    rw [hg i hi] at this
    obtain ⟨t, ht, hm⟩ := resolveEntry_ok hull (nev := nev.getD i []) (ev := ev.getD i []) (by rw [(hcol i hi).1]; exact h2)
          (by rw [(hcol i hi).1, (hcol i hi).2]) (l.getD i .none)
    rw [ht] at this
    rw [← Except.ok.inj this]
    have hne : asked (.list l) i ≠ .autoHeuristic := fun hc => by rw [hc] at henf; simp [EnforcedM] at henf
    rw [if_neg hne]
    exact hm

theorem resolveEach_length {fs : List (List ℕ → List ℕ → Except String Trend)} {nevs evs : List (List ℕ)} {ts : List Trend}
    (h : resolveEach fs nevs evs = .ok ts) : ts.length = fs.length := by
  induction fs generalizing nevs evs ts with
  | nil => cases nevs <;> cases evs <;> simp_all [resolveEach] <;> subst h <;> rfl
  | cons g fs ih =>
    cases nevs with
    | nil => cases evs <;> simp [resolveEach] at h
    | cons nev nevs =>
      cases evs with
      | nil => simp [resolveEach] at h
      | cons ev evs =>
        simp only [resolveEach] at h
        split at h
        · cases h
        · split at h
          · cases h
          · rename_i e
            rw [← Except.ok.inj h, List.length_cons, List.length_cons, ih e]

theorem cfgM_len (p : ParamsM) (hull : List ℚ → Option ℚ) (pv : ℕ → ℕ → ℕ → ℕ → ℝ) (n : ℕ) (nev ev : List (List ℕ)) :
    ((p.cfg hull pv).opts n nev ev).trends.length = ev.length := by
  show (match p.options hull nev ev with
    | .ok o => o
    | .error _ => { trends := List.replicate ev.length .unconstrained }).trends.length = _
  split
  · rename_i o ho
    unfold ParamsM.options at ho
    split at ho
    · cases ho
    · rename_i ts hts
      rw [← Except.ok.inj ho]
      show ts.length = _
      unfold resolveTrendsM at hts
      split at hts
      · rw [← Except.ok.inj hts]; simp
      · rw [resolveEach_length hts]; simp
      · split_ifs at hts with hl
        rw [resolveEach_length hts]
        simpa using hl
  · simp

section
variable {α κ : Type*} [LinearOrder α] [LinearOrder κ]

theorem fitParamsM_fit {p : ParamsM} {hull : List ℚ → Option ℚ} {sc : SpecialCodes α} {det : Option (List (RecM α κ) → List Bool)}
    {prebin : List (RecM α κ) → List α} {solver : SolverM} {recs : List (RecM α κ)} {f : FittedM α κ}
    (h : fitParamsM p hull sc det prebin solver recs = .ok f) :
    checkParametersM p = .ok () ∧ fitNumericalM sc det prebin solver recs = .ok f ∧
      (f.splits ≠ [] → ∀ l, p.trend = .list l → l.length = f.classes.length) := by
  unfold fitParamsM at h
  split at h
  · cases h
  rename_i hc
  refine ⟨hc, ?_⟩
  simp only at h
  split_ifs at h with h100
  split at h
  · cases h
  rename_i pb hpb
  have hcls : ∀ f' : FittedM α κ, fitNumericalM sc det prebin solver recs = .ok f' →
      f'.classes = classesM (splitDataM sc det recs).clean ∧ f'.splits = (fitOptimizerM solver pb).splits := by
    intro f' hf'
    obtain ⟨st', hf⟩ := fitNumericalM_from hf'
    unfold fitFromM at hf
    simp only [if_neg h100, hpb, Except.ok.injEq, Prod.mk.injEq] at hf
    obtain ⟨-, rfl⟩ := hf
    exact ⟨rfl, rfl⟩
  obtain ⟨-, hcase⟩ := computePrebinsM_spec _ _ _ _ _ hpb
  split_ifs at h with h0
  · refine ⟨h, fun hne => absurd ?_ hne⟩
    rcases hcase with ⟨h1, h2, h3, h4⟩ | ⟨h1, h2, -⟩
    · rw [(hcls f h).2]
      simp [fitOptimizerM, h1, h2]
    · omega
  · split at h
    · cases h
    rename_i o ho
    refine ⟨h, fun _ l hl => ?_⟩
    rcases hcase with ⟨h1, h2, h3, h4⟩ | ⟨h1, h2, h3, h4, -⟩
    · exact absurd h2 h0
    · unfold ParamsM.options resolveTrendsM at ho
      rw [hl] at ho
      simp only at ho
      rw [(hcls f h).1]
      by_cases hll : l.length = pb.event.length
      · rw [hll, h4]; simp
      · simp [hll] at ho

/-- A fit with at least two bins was solved. -/
theorem solvedM_of_splits {sc : SpecialCodes α} {det : Option (List (RecM α κ) → List Bool)}
    {prebin : List (RecM α κ) → List α} {solver : SolverM} {recs : List (RecM α κ)} {f : FittedM α κ} {c : SolverCfgM}
    (hr : RespectsM c solver) (h : fitNumericalM sc det prebin solver recs = .ok f) (hne : f.splits ≠ []) : f.Solved := by
  obtain ⟨st', hf⟩ := fitNumericalM_from h
  obtain ⟨n, nev, ev, h1, h2, h3, h4, h5, -, h6, h7, h8⟩ := fitFromM_bins hr.ends (fun r hr => (splitM_clean hr).2.2.1) hf hne
  have hpos : 0 < f.splits.length := List.length_pos_iff.2 hne
  unfold FittedM.Solved
  rw [h6]
  cases hs : solver n nev ev with
  | optimal a => exact Or.inl rfl
  | feasible a => exact Or.inr rfl
  | other m =>
    exfalso
    rw [hs] at h7
    simp only [solve] at h7
    have : ∀ n m : ℕ, ((List.range n).map fun i => i == m).count true ≤ 1 := by
      intro n m
      rw [List.count_eq_countP, List.countP_map]
      have e : (List.range n).countP ((fun x => x == true) ∘ fun i => i == m) = (List.range n).count m := by
        rw [List.count_eq_countP]
        congr 1
        funext i
        simp
      rw [e]
      exact List.nodup_iff_count_le_one.1 List.nodup_range m
    have := this n (n - 1)
    omega

theorem rowsFollow_trend {R : Type*} [CommRing R] [LinearOrder R] [IsStrictOrderedRing R] {m : ℕ} {r : ℕ → R} {a : TrendArg} {t : Trend}
    (ha : a = .none ∨ a = .auto ∨ a = .autoAscDesc ∨ a = .ascending ∨ a = .descending ∨ a = .peak ∨ a = .valley)
    (hm : MayResolve a t) (h : RowsTrend r m t) : RowsFollow (m + 1) r a := by
  have hasc : t = .ascending → Rising r 0 (m + 1) := fun e => by
    rw [e] at h; exact fun j k _ hjk hk => h j k hjk (by omega)
  have hdesc : t = .descending → Falling r 0 (m + 1) := fun e => by
    rw [e] at h; exact fun j k _ hjk hk => h j k hjk (by omega)
  have hpeak : t = .peak → RisesThenFalls (m + 1) r := fun e => by
    rw [e] at h
    obtain ⟨c, h1, h2⟩ := h
    exact ⟨min c (m + 1), by omega, fun j k _ hjk hk => h1 j k hjk (by omega) (by omega), fun j k hj hjk hk => h2 j k hjk (by omega) (by omega)⟩
  have hvalley : t = .valley → FallsThenRises (m + 1) r := fun e => by
    rw [e] at h
    obtain ⟨c, h1, h2⟩ := h
    exact ⟨min c (m + 1), by omega, fun j k _ hjk hk => h1 j k hjk (by omega) (by omega), fun j k hj hjk hk => h2 j k hjk (by omega) (by omega)⟩
  rcases ha with rfl | rfl | rfl | rfl | rfl | rfl | rfl
  · trivial
  · rcases hm with e | e | e | e
    · exact Or.inl ⟨m + 1, le_rfl, hasc e, fun j k hj hjk hk => by omega⟩
    · exact Or.inr ⟨m + 1, le_rfl, hdesc e, fun j k hj hjk hk => by omega⟩
    · exact Or.inl (hpeak e)
    · exact Or.inr (hvalley e)
  · exact hm.imp hasc hdesc
  · exact hasc hm
  · exact hdesc hm
  · exact hpeak hm
  · exact hvalley hm

theorem rowsFollow_one {R : Type*} [CommRing R] [LinearOrder R] [IsStrictOrderedRing R] (r : ℕ → R) (a : TrendArg) :
    RowsFollow (([] : List α).length + 1) r a := by
  have hu : Rising r 0 1 := fun j k _ hjk hk => by omega
  have hd : Falling r 0 1 := fun j k _ hjk hk => by omega
  have hrf : RisesThenFalls 1 r := ⟨1, le_rfl, hu, fun j k hj hjk hk => by omega⟩
  have hfr : FallsThenRises 1 r := ⟨1, le_rfl, hd, fun j k hj hjk hk => by omega⟩
  cases a
  · trivial
  all_goals first
    | exact hu | exact hd | exact hrf | exact hfr | exact Or.inl hu | exact Or.inl hrf
    | (intro i j k h1 h2 h3; simp only [List.length_nil] at h3; omega)

theorem rowsFollow_asked {R : Type*} [CommRing R] [LinearOrder R] [IsStrictOrderedRing R] {p : ParamsM} (hp : checkParametersM p = .ok ()) {m i : ℕ}
    {r : ℕ → R} {t : Trend} (henf : EnforcedM p.trend (asked p.trend i))
    (hm : MayResolve (if asked p.trend i = .autoHeuristic then .auto else asked p.trend i) t) (h : RowsTrend r m t) :
    RowsFollow (m + 1) r (asked p.trend i) := by
  by_cases hh : asked p.trend i = .autoHeuristic
  · rw [if_pos hh] at hm
    rw [hh]
    exact rowsFollow_trend (a := .auto) (by simp) hm h
  · rw [if_neg hh] at hm
    refine rowsFollow_trend ?_ hm h
    cases ht : p.trend with
    | none => exact Or.inl rfl
    | str a =>
      have ha := (((C107_checks p).2.1 hp).2 0).trend a ht
      rw [ht] at hh
      change a ≠ _ at hh
      change a = _ ∨ _
      tauto
    | list l => rw [ht] at henf; exact henf

/-- C107: the trend asked for class number `i`, `solver="mip"`: the column "Event_rate_c" follows it, for every string and for the enforced entries of a list. -/
theorem C107_trend_mip (p : ParamsM) (hull : List ℚ → Option ℚ) (pv : ℕ → ℕ → ℕ → ℕ → ℝ) (sc : SpecialCodes α)
    (det : Option (List (RecM α κ) → List Bool)) (prebin : List (RecM α κ) → List α) (solver : SolverM)
    (recs : List (RecM α κ)) (f : FittedM α κ)
    (hr : ∀ n nev ev, (solver n nev ev).Valid (acceptsMultiMIP ((p.cfg hull pv).opts n nev ev) ((p.cfg hull pv).input n nev ev))
      (objectiveMultiMIP ((p.cfg hull pv).opts n nev ev) ((p.cfg hull pv).input n nev ev)))
    (h : fitParamsM p hull sc det prebin solver recs = .ok f) {i : ℕ} (hi : i < f.classes.length)
    (henf : EnforcedM p.trend (asked p.trend i)) :
    RowsFollow (f.splits.length + 1) (fun k => rateM f.event k i) (asked p.trend i) := by
  obtain ⟨hp, hfit, hl⟩ := fitParamsM_fit h
  by_cases hne : f.splits = []
  · rw [hne]
    exact rowsFollow_one _ _
  have hs := solvedM_of_splits (Or.inr hr) hfit hne
  obtain ⟨n, nev, ev, hw, hc, hn, hT⟩ := trend_mip_at hr (fun n nev ev _ => cfgM_len p hull pv n nev ev) hfit hs hi hne
  have hpos : 0 < f.splits.length := List.length_pos_iff.2 hne
  obtain ⟨ts, e1, e2, e3⟩ := optionsM_ok p hull hp (n := n) (nev := nev) (ev := ev) (by omega) hw.nclasses hw.ne hw.ev
    (fun l hle => by rw [hc]; exact hl hne l hle)
  have ho : (p.cfg hull pv).opts n nev ev = { trends := ts, minBins := p.minBins, maxBins := p.maxBins } := by
    show (match p.options hull nev ev with
      | .ok o => o
      | .error _ => { trends := List.replicate ev.length .unconstrained }) = _
    rw [e1]
  rw [ho] at hT
  exact rowsFollow_asked hp henf (e3 i (by rw [hc]; exact hi) henf) hT

/-- C107: the trend asked for class number `i`, `solver="cp"`: the column "Event_rate_c", cut off after six decimals, follows it, for
every string and for the enforced entries of a list. -/
theorem C107_trend_cp (p : ParamsM) (hull : List ℚ → Option ℚ) (pv : ℕ → ℕ → ℕ → ℕ → ℝ) (sc : SpecialCodes α)
    (det : Option (List (RecM α κ) → List Bool)) (prebin : List (RecM α κ) → List α) (solver : SolverM)
    (recs : List (RecM α κ)) (f : FittedM α κ)
    (hr : ∀ n nev ev, (solver n nev ev).Valid (acceptsMultiCP ((p.cfg hull pv).opts n nev ev) ((p.cfg hull pv).input n nev ev))
      (objectiveMultiCP ((p.cfg hull pv).opts n nev ev) ((p.cfg hull pv).input n nev ev)))
    (h : fitParamsM p hull sc det prebin solver recs = .ok f) {i : ℕ} (hi : i < f.classes.length)
    (henf : EnforcedM p.trend (asked p.trend i)) :
    RowsFollow (f.splits.length + 1) (fun k => ⌊rateM f.event k i * 1000000⌋) (asked p.trend i) := by
  obtain ⟨hp, hfit, hl⟩ := fitParamsM_fit h
  by_cases hne : f.splits = []
  · rw [hne]
    exact rowsFollow_one _ _
  have hs := solvedM_of_splits (Or.inl hr) hfit hne
  obtain ⟨n, nev, ev, hw, hc, hn, hT⟩ := trend_cp_at hr (fun n nev ev _ => cfgM_len p hull pv n nev ev) hfit hs hi hne
  have hpos : 0 < f.splits.length := List.length_pos_iff.2 hne
  obtain ⟨ts, e1, e2, e3⟩ := optionsM_ok p hull hp (n := n) (nev := nev) (ev := ev) (by omega) hw.nclasses hw.ne hw.ev
    (fun l hle => by rw [hc]; exact hl hne l hle)
  have ho : (p.cfg hull pv).opts n nev ev = { trends := ts, minBins := p.minBins, maxBins := p.maxBins } := by
    show (match p.options hull nev ev with
      | .ok o => o
      | .error _ => { trends := List.replicate ev.length .unconstrained }) = _
    rw [e1]
  rw [ho] at hT
  exact rowsFollow_asked hp henf (e3 i (by rw [hc]; exact hi) henf) hT

/-- C107: `min_n_bins`, `max_n_bins`: a fit with at least two bins meets the limits. -/
theorem C107_limits (p : ParamsM) (hull : List ℚ → Option ℚ) (pv : ℕ → ℕ → ℕ → ℕ → ℝ) (sc : SpecialCodes α)
    (det : Option (List (RecM α κ) → List Bool)) (prebin : List (RecM α κ) → List α) (solver : SolverM)
    (recs : List (RecM α κ)) (f : FittedM α κ) (hr : RespectsM (p.cfg hull pv) solver)
    (h : fitParamsM p hull sc det prebin solver recs = .ok f) (hne : f.splits ≠ []) (hcl : f.classes ≠ []) :
    (∀ b, p.minBins = some b → b ≤ f.splits.length + 1) ∧ (∀ b, p.maxBins = some b → (f.splits.length : ℤ) + 1 ≤ b) := by
  obtain ⟨hp, hfit, hl⟩ := fitParamsM_fit h
  have hs := solvedM_of_splits hr hfit hne
  have hlen := fun n nev ev (_ : ev.length = f.classes.length) => cfgM_len p hull pv n nev ev
  obtain ⟨n, nev, ev, hw, hc, hsol, hn, hrow⟩ := rowsM_bins hr.ends hlen hfit hs hne hcl
  have hpos : 0 < f.splits.length := List.length_pos_iff.2 hne
  have hge : f.splits.length + 1 ≤ n := by
    rw [← hn]
    exact le_trans (Finset.card_filter_le _ _) (by simp)
  obtain ⟨ts, e1, e2, e3⟩ := optionsM_ok p hull hp (n := n) (nev := nev) (ev := ev) (by omega) hw.nclasses hw.ne hw.ev
    (fun l hle => by rw [hl hne l hle]; exact hc.symm)
  have ho : (p.cfg hull pv).opts n nev ev = { trends := ts, minBins := p.minBins, maxBins := p.maxBins } := by
    show (match p.options hull nev ev with
      | .ok o => o
      | .error _ => { trends := List.replicate ev.length .unconstrained }) = _
    rw [e1]
  have key : AtLeast ((p.cfg hull pv).opts n nev ev).minBins (numBins n (((p.cfg hull pv).input n nev ev).sol (solver n nev ev))) ∧
      AtMost ((p.cfg hull pv).opts n nev ev).maxBins (numBins n (((p.cfg hull pv).input n nev ev).sol (solver n nev ev))) := by
    rcases hr with hr | hr
    · obtain ⟨-, h1, h2, -⟩ := C54_limits_cp hw (hr n nev ev) hsol
      exact ⟨h1, h2⟩
    · obtain ⟨-, h1, h2, -⟩ := C54_limits_mip hw (hr n nev ev) hsol
      exact ⟨h1, h2⟩
  rw [hn, ho] at key
  exact ⟨fun b hb => by have := key.1 b hb; push_cast at this; exact this, fun b hb => by have := key.2 b hb; push_cast at this; exact this⟩

/-- C107: `min_event_rate_diff`: for every class the event rates of neighbouring bins differ at least by this much (up to 2e-6 with
`solver="cp"`). -/
theorem C107_min_event_rate_diff (p : ParamsM) (hull : List ℚ → Option ℚ) (pv : ℕ → ℕ → ℕ → ℕ → ℝ) (sc : SpecialCodes α)
    (det : Option (List (RecM α κ) → List Bool)) (prebin : List (RecM α κ) → List α) (solver : SolverM)
    (recs : List (RecM α κ)) (f : FittedM α κ) (hr : RespectsM (p.cfg hull pv) solver)
    (h : fitParamsM p hull sc det prebin solver recs = .ok f) (v : ℚ) (hv : p.minRateDiff = .num v) {i k : ℕ}
    (hi : i < f.classes.length) (hk : k + 1 ≤ f.splits.length) :
    v - 2 / 1000000 < |rateM f.event k i - rateM f.event (k + 1) i| ∧
    ((∀ n nev ev, (solver n nev ev).Valid (acceptsMultiMIP ((p.cfg hull pv).opts n nev ev) ((p.cfg hull pv).input n nev ev))
      (objectiveMultiMIP ((p.cfg hull pv).opts n nev ev) ((p.cfg hull pv).input n nev ev))) →
      v ≤ |rateM f.event k i - rateM f.event (k + 1) i|) := by
  obtain ⟨hp, hfit, hl⟩ := fitParamsM_fit h
  have hne : f.splits ≠ [] := fun hc => by rw [hc] at hk; simp at hk
  have := C54_table_min_event_rate_diff hr (fun n nev ev _ => cfgM_len p hull pv n nev ev) hfit (solvedM_of_splits hr hfit hne) hi hk
  have hd : (p.cfg hull pv).minDiff = v := by
    show p.minRateDiff.value = v
    rw [hv]; rfl
  rwa [hd] at this

/-- C107: `max_pvalue`: for every class the p-value of the Z-test of two neighbouring bins (any two bins with policy "all"), computed
from the counts shown in the table, is at most `max_pvalue`. -/
theorem C107_pvalues (p : ParamsM) (hull : List ℚ → Option ℚ) (pv : ℕ → ℕ → ℕ → ℕ → ℝ) (sc : SpecialCodes α)
    (det : Option (List (RecM α κ) → List Bool)) (prebin : List (RecM α κ) → List α) (solver : SolverM)
    (recs : List (RecM α κ)) (f : FittedM α κ) (hr : RespectsM (p.cfg hull pv) solver)
    (h : fitParamsM p hull sc det prebin solver recs = .ok f) (v : ℚ) (hv : p.maxPvalue = some (.num v)) {i j k : ℕ}
    (hi : i < f.classes.length) (hjk : j < k) (hk : k ≤ f.splits.length) (hpol : p.policy = .consecutive → k = j + 1) :
    pv (cellM f.event j i) (rowRecords f.event j - cellM f.event j i) (cellM f.event k i)
      (rowRecords f.event k - cellM f.event k i) ≤ (v : ℝ) := by
  obtain ⟨hp, hfit, hl⟩ := fitParamsM_fit h
  have hne : f.splits ≠ [] := fun hc => by rw [hc] at hk; simp at hk; omega
  have := C54_table_max_pvalue hr (fun n nev ev _ => cfgM_len p hull pv n nev ev) hfit (solvedM_of_splits hr hfit hne)
    (t := fun a b c d => decide ((v : ℝ) < pv a b c d)) (by
      show p.maxPvalue.map _ = _
      rw [hv]; rfl) hi hjk hk hpol
  rwa [decide_eq_false_iff_not, not_lt] at this

/-- C107: a list of trends of the wrong length never leads to a binning with two or more bins: `fit` raises, unless there is nothing
to optimise. -/
theorem C107_list_length (p : ParamsM) (hull : List ℚ → Option ℚ) (sc : SpecialCodes α)
    (det : Option (List (RecM α κ) → List Bool)) (prebin : List (RecM α κ) → List α) (solver : SolverM)
    (recs : List (RecM α κ)) (f : FittedM α κ) (h : fitParamsM p hull sc det prebin solver recs = .ok f) (l : List TrendArg)
    (hl : p.trend = .list l) (hne : f.splits ≠ []) : l.length = f.classes.length := (fitParamsM_fit h).2.2 hne l hl

/-- C107: with valid arguments, a list of the right length (if a list is given) and at most 100 classes `fit` succeeds, and the
result is that of the fit with these options. -/
theorem C107_succeeds (p : ParamsM) (hull : List ℚ → Option ℚ) (sc : SpecialCodes α)
    (det : Option (List (RecM α κ) → List Bool)) (prebin : List (RecM α κ) → List α) (solver : SolverM)
    (recs : List (RecM α κ)) (hp : ValidParamsM p) (h100 : (classesM (splitDataM sc det recs).clean).length ≤ 100)
    (hl : ∀ l, p.trend = .list l → l.length = (classesM (splitDataM sc det recs).clean).length) :
    ∃ f, fitParamsM p hull sc det prebin solver recs = .ok f := by
  obtain ⟨f, hf⟩ := (C56_fit_succeeds sc det prebin solver recs).2 h100
  refine ⟨f, ?_⟩
  have hc := (C107_checks p).1 hp
  unfold fitParamsM
  rw [hc]
  simp only
  rw [if_neg (by omega)]
  obtain ⟨pb, hpb⟩ := computePrebinsM_ok (classesM (splitDataM sc det recs).clean) (splitDataM sc det recs).clean {}
      (prebin (splitDataM sc det recs).clean) rfl
  simp only [hpb]
  split_ifs with h0
  · exact hf
  · obtain ⟨-, hcase⟩ := computePrebinsM_spec _ _ _ _ _ hpb
    rcases hcase with ⟨h1, h2, h3, h4⟩ | ⟨h1, h2, h3, h4, -⟩
    · exact absurd h2 h0
    · have hpos : 0 < pb.splits.length := List.length_pos_iff.2 h1
      obtain ⟨ts, e1, -⟩ := optionsM_ok p hull hc (n := pb.nb) (nev := pb.nonevent) (ev := pb.event) (by omega) (by rw [h3, h4]; simp)
        (by
          intro l hl
          rw [h3, List.mem_map] at hl
          obtain ⟨cl, -, rfl⟩ := hl
          simp [prebinRest, h2])
        (by
          intro l hl
          rw [h4, List.mem_map] at hl
          obtain ⟨cl, -, rfl⟩ := hl
          simp [prebinEvent, h2])
        (fun l hle => by rw [hl l hle, h4]; simp)
      rw [e1]
      exact hf

/-- C107: arguments outside the documented ranges make `fit` raise `ValueError`, whatever the data. -/
theorem C107_refused (p : ParamsM) (hull : List ℚ → Option ℚ) (sc : SpecialCodes α)
    (det : Option (List (RecM α κ) → List Bool)) (prebin : List (RecM α κ) → List α) (solver : SolverM) (recs : List (RecM α κ))
    (hbad : (∀ t, ¬ ValidParamsM { p with timeLimit := .num |t| }) ∨ ∃ t, p.timeLimit = .num t ∧ ¬ ValidParamsM p) :
    fitParamsM p hull sc det prebin solver recs = .error "ValueError" := by
  unfold fitParamsM
  obtain ⟨-, h2, h3⟩ := C107_checks p
  rcases h3 with h3 | h3
  · rcases hbad with hbad | ⟨t, ht, hbad⟩
    · exact absurd ((h2 h3).2 0) (hbad 0)
    · exact absurd ((h2 h3).1 t ht) hbad
  · rw [h3]

end

/-- The entries of a list which have no effect (finding 24): "concave", "convex", "peak_heuristic" and "valley_heuristic" are
accepted but build the same solver model as None. -/
theorem C107_ignored (p : ParamsM) (hull : List ℚ → Option ℚ) (pv : ℕ → ℕ → ℕ → ℕ → ℝ) (l : List TrendArg) (hl : p.trend = .list l)
    (hi : ∀ a ∈ l, a = .none ∨ a = .concave ∨ a = .convex ∨ a = .peakHeuristic ∨ a = .valleyHeuristic) (n : ℕ) (nev ev : List (List ℕ))
    (h1 : nev.length = l.length) (h2 : ev.length = l.length) (a : Assign) :
    let c := p.cfg hull pv
    let c' := ({ p with trend := .none } : ParamsM).cfg hull pv
    (acceptsMultiCP (c.opts n nev ev) (c.input n nev ev) a ↔ acceptsMultiCP (c'.opts n nev ev) (c'.input n nev ev) a) ∧
    (acceptsMultiMIP (c.opts n nev ev) (c.input n nev ev) a ↔ acceptsMultiMIP (c'.opts n nev ev) (c'.input n nev ev) a) := by
  intro c c'
  have key : ∀ (l : List TrendArg) (nev ev : List (List ℕ)), nev.length = l.length → ev.length = l.length →
      (∀ a ∈ l, a = .none ∨ a = .concave ∨ a = .convex ∨ a = .peakHeuristic ∨ a = .valleyHeuristic) →
      ∃ ts, resolveEach (l.map (resolveEntry hull)) nev ev = .ok ts ∧ ts.map Trend.enforced = List.replicate l.length .unconstrained := by
    intro l
    induction l with
    | nil => intro nev ev h1 h2 _; exact ⟨[], by cases nev <;> cases ev <;> rfl, rfl⟩
    | cons b l ih =>
      intro nev ev h1 h2 h
      cases nev with
      | nil => simp at h1
      | cons nv nev =>
        cases ev with
        | nil => simp at h2
        | cons e ev =>
          obtain ⟨ts, e1, e2⟩ := ih nev ev (by simpa using h1) (by simpa using h2) fun a ha => h a (by simp [ha])
          simp only [List.map_cons, resolveEach, e1]
          rcases h b (by simp) with rfl | rfl | rfl | rfl | rfl <;>
            exact ⟨_ :: ts, rfl, by rw [List.map_cons, e2]; rfl⟩
  obtain ⟨ts, e1, e2⟩ := key l nev ev h1 h2 hi
  have ho : c.opts n nev ev = { trends := ts, minBins := p.minBins, maxBins := p.maxBins } := by
    show (match p.options hull nev ev with
      | .ok o => o
      | .error _ => { trends := List.replicate ev.length .unconstrained }) = _
    unfold ParamsM.options resolveTrendsM
    simp only [hl, h2, ne_eq, not_true_eq_false, if_false, e1]
  have ho' : c'.opts n nev ev = { c.opts n nev ev with trends := (c.opts n nev ev).trends.map Trend.enforced } := by
    rw [ho]
    simp only [e2, ← h2]
    rfl
  have hin : c'.input n nev ev = c.input n nev ev := rfl
  rw [ho', hin]
  exact ⟨(C54_other_trends_ignored _ _ a).1.symm, (C54_other_trends_ignored _ _ a).2.symm⟩

/-! ### a concrete fit -/

/-- A peak for the first class, nothing for the others. -/
def exParamsM : ParamsM := { trend := .list [.peak, .none, .none] }

/-- The solver of `Props/MulticlassTable.lean` on the pre-bins below, giving up on others. -/
noncomputable def exSolverP : SolverM := fun n nev ev =>
  if n = 3 ∧ nev = exNevM ∧ ev = exEvM then exSolverM n nev ev else .other "UNKNOWN"

theorem exSolverP_cp (hull : List ℚ → Option ℚ) (pv : ℕ → ℕ → ℕ → ℕ → ℝ) (n : ℕ) (nev ev : List (List ℕ)) :
    (exSolverP n nev ev).Valid (acceptsMultiCP ((exParamsM.cfg hull pv).opts n nev ev) ((exParamsM.cfg hull pv).input n nev ev))
      (objectiveMultiCP ((exParamsM.cfg hull pv).opts n nev ev) ((exParamsM.cfg hull pv).input n nev ev)) := by
  unfold exSolverP
  split_ifs with h
  · obtain ⟨rfl, rfl, rfl⟩ := h
    exact exSolverM_cp 3 exNevM exEvM
  · exact ⟨by decide, by decide⟩

theorem exFitP (hull : List ℚ → Option ℚ) :
    fitParamsM exParamsM hull (.list [some 99]) none (fun _ => [3, 7]) exSolverP exRecsM = .ok exFittedM := by
  have hcl : classesM (splitDataM (.list [some 99]) none exRecsM).clean = [0, 1, 2] := by decide +kernel
  have hpb : computePrebinsM [0, 1, 2] (splitDataM (.list [some 99]) none exRecsM).clean {} [3, 7] =
      .ok ⟨{}, [3, 7], 3, exNevM, exEvM⟩ := by
    rw [computePrebinsM]
    have h1 : [0, 1, 2].map (prebinRest [3, 7] (splitDataM (.list [some 99]) none exRecsM).clean) = exNevM := by
      decide +kernel
    have h2 : [0, 1, 2].map (prebinEvent [3, 7] (splitDataM (.list [some 99]) none exRecsM).clean) = exEvM := by
      decide +kernel
    simp only [h1, h2]
    rw [dif_neg (by decide), dif_neg (by decide +kernel)]
    rfl
  have hfit : fitNumericalM (.list [some 99]) none (fun _ => [3, 7]) exSolverP exRecsM = .ok exFittedM := by
    rw [← exFitM]
    unfold fitNumericalM fitFromM
    simp only [hcl, hpb, fitOptimizerM]
    rw [if_neg (by decide), if_neg (by decide)]
    have : exSolverP 3 exNevM exEvM = exSolverM 3 exNevM exEvM := if_pos ⟨rfl, rfl, rfl⟩
    rw [this]
    rfl
  unfold fitParamsM
  rw [show checkParametersM exParamsM = .ok () by decide +kernel]
  simp only [hcl, hpb]
  rw [if_neg (by decide), if_neg (by decide), hfit]
  rfl

/-- Non-vacuity of C107: the fit above meets the hypotheses. -/
example : RisesThenFalls 3 (fun k => ⌊rateM exFittedM.event k 0 * 1000000⌋) :=
  C107_trend_cp exParamsM (fun _ => none) (fun _ _ _ _ => 0) _ none _ exSolverP exRecsM exFittedM (exSolverP_cp _ _)
    (exFitP _) (i := 0) (by decide) (by simp [EnforcedM, asked, exParamsM])

example : exFittedM.splits ≠ [] ∧ exFittedM.classes ≠ [] ∧ RespectsM (exParamsM.cfg (fun _ => none) (fun _ _ _ _ => 0)) exSolverP :=
  ⟨by decide, by decide, Or.inl (exSolverP_cp _ _)⟩

/-- Finding: with nothing to optimise (no pre-bin split survives) a list of the wrong length is accepted. -/
theorem C107_wrong_length_accepted : ∃ f : FittedM ℕ ℕ, f.classes.length = 3 ∧
    fitParamsM { trend := .list [.peak] } (fun _ => none) (.list [some 99]) none (fun _ => []) exSolverP exRecsM = .ok f := by
  have hcl : classesM (splitDataM (.list [some 99]) none exRecsM).clean = [0, 1, 2] := by decide +kernel
  refine ⟨⟨"OPTIMAL", [], [0, 1, 2], [[6, 1, 0], [3, 0, 1], [4, 0, 0]]⟩, rfl, ?_⟩
  have hpb : computePrebinsM [0, 1, 2] (splitDataM (.list [some 99]) none exRecsM).clean {} [] = .ok ⟨{}, [], 0, [], []⟩ := by
    rw [computePrebinsM]; rfl
  unfold fitParamsM
  rw [show checkParametersM { trend := .list [.peak] } = .ok () by decide +kernel]
  simp only [hcl, hpb]
  rw [if_neg (by decide), if_pos trivial]
  unfold fitNumericalM fitFromM
  simp only [hcl, hpb, fitOptimizerM]
  rw [if_neg (by decide)]
  simp only [Except.map, Except.ok.injEq]
  congr 1

end OptBinning
