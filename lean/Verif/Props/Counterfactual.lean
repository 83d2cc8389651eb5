import Verif.Lemmas.Counterfactual
import Mathlib.Data.List.GetD

/-! # C41, C42: counterfactual explanations -/
namespace OptBinning

open Finset Spec

/-! ## C41: what a generated counterfactual satisfies -/

/-- C41: whatever the objectives are, each counterfactual that is reported for a solution of the model changes at most `max_changes`
features, none of the non-actionable ones, and each changed feature gets exactly one of its bins; the reported score is the score of the
linear model for the changed features. -/
theorem C41_changes {d : CFData} {c : CFCfg} {o : CFOutcome} {m : CFMulti} (h : cfModel d c o m) {k : ℕ} (hk : k < c.K) :
    ∃ prop : Proposal, prop.IsValid d.explained ∧
      (∀ i < d.p, (cfReport d (cfSolution d m k)).1 i = ((prop i).map Prod.fst).toList) ∧
      (cfReport d (cfSolution d m k)).2 = prop.score d.explained ∧
      ((prop.changed d.p).card : ℤ) ≤ c.maxChanges ∧ ∀ i ∈ c.nonActionable, prop i = none := by
  obtain ⟨hb, -, -, hm, ha, -⟩ := h.1 k hk
  obtain ⟨pos, hp⟩ := exists_pos hb hm
  exact ⟨d.proposal pos, hp.valid, fun i hi => hp.indices hi, hp.report_score, by rw [hp.card]; exact hm.2, fun i hi => hp.non (ha i hi)⟩

/-- The reported score is the activation of the model if `"proximity"` is one of the objectives. -/
theorem report_activation {d : CFData} {c : CFCfg} {o : CFOutcome} {m : CFMulti} (h : cfModel d c o m) (hprox : c.proximity.isSome)
    {k : ℕ} (hk : k < c.K) : (cfReport d (cfSolution d m k)).2 = cfActivation d (m.v k) := by
  obtain ⟨hb, hx, -, hm, ha, -⟩ := h.1 k hk
  obtain ⟨pos, hp⟩ := exists_pos hb hm
  rw [hp.report_score, hp.activation (hx hprox)]

/-- C41: if `"proximity"` is one of the objectives (it is by default), every reported counterfactual has the desired class: positive score
and probability above 1/2 for `y = 1`, score at most 0 and probability at most 1/2 for `y = 0`. -/
theorem C41_outcome_binary {d : CFData} {c : CFCfg} {y : Bool} {m : CFMulti} (h : cfModel d c (.binary y) m) (hprox : c.proximity.isSome)
    {k : ℕ} (hk : k < c.K) :
    let score := (cfReport d (cfSolution d m k)).2
    (y = true → 0 < score ∧ 1 / 2 < probability score) ∧ (y = false → score ≤ 0 ∧ probability score ≤ 1 / 2) := by
  intro score
  have hs : score = cfActivation d (m.v k) := report_activation h hprox hk
  obtain ⟨-, -, -, -, -, ho⟩ := h.1 k hk
  unfold cfOutcome cfOpposite at ho
  constructor
  · rintro rfl
    simp only [if_true] at ho
    have hpos : 0 < score := by rw [hs]; linarith [show (0 : ℝ) < 1 / 10 ^ 6 by norm_num]
    refine ⟨hpos, ?_⟩
    unfold probability
    have h1 : Real.exp (-score) < 1 := by rw [Real.exp_lt_one_iff]; linarith
    have h2 := Real.exp_pos (-score)
    rw [div_lt_div_iff₀ (by norm_num) (by linarith)]; linarith
  · rintro rfl
    simp only [Bool.false_eq_true, if_false] at ho
    have hneg : score ≤ 0 := by rw [hs]; exact ho
    refine ⟨hneg, ?_⟩
    unfold probability
    have h1 : 1 ≤ Real.exp (-score) := by rw [Real.one_le_exp_iff]; linarith
    rw [div_le_div_iff₀ (by linarith) (by norm_num)]; linarith

/-- C41: for a continuous target the hard constraints `min_outcome` and `max_outcome` hold for every reported counterfactual. -/
theorem C41_outcome_continuous {d : CFData} {c : CFCfg} {y : ℝ} {m : CFMulti} (h : cfModel d c (.continuous y) m)
    (hprox : c.proximity.isSome) {k : ℕ} (hk : k < c.K) :
    (c.minOutcome → y ≤ (cfReport d (cfSolution d m k)).2) ∧ (c.maxOutcome → (cfReport d (cfSolution d m k)).2 ≤ y) := by
  rw [report_activation h hprox hk]
  obtain ⟨-, -, -, -, -, ho⟩ := h.1 k hk
  exact ⟨fun hm => ho.1 hm, fun hm => ho.2.1 hm⟩

/-- C41: for outcome type "probability" the hard constraints hold for the probability of the reported counterfactual up to the error `ε` of the
piecewise linear approximation of the logistic function. -/
theorem C41_outcome_probability {d : CFData} {c : CFCfg} {y ε : ℝ} {pieces : List (ℝ × ℝ × ℝ × ℝ)} {m : CFMulti}
    (h : cfModel d c (.probability y pieces) m) (hprox : c.proximity.isSome) {k : ℕ} (hk : k < c.K)
    (happ : ∀ q ∈ pieces, ∀ s, q.1 ≤ s → s ≤ q.2.1 → |q.2.2.2 * s + q.2.2.1 - probability s| ≤ ε) :
    (c.minOutcome → y - ε ≤ probability (cfReport d (cfSolution d m k)).2) ∧
    (c.maxOutcome → probability (cfReport d (cfSolution d m k)).2 ≤ y + ε) := by
  rw [report_activation h hprox hk]
  obtain ⟨hb, -, -, -, -, ho⟩ := h.1 k hk
  obtain ⟨hsum, hf, hs1, hseg, hmin, hmax, -⟩ := ho
  obtain ⟨r0, hlt, hz, hcount⟩ := row_choice (n := pieces.length) (z := (m.v k).s) (fun j _ => hb.2.2.2.2.2 j) hs1.le
  cases r0 with
  | none => rw [hs1] at hcount; simp at hcount
  | some r =>
    have hr := hlt r rfl
    have hh : ∀ l < pieces.length, l ≠ r → (m.v k).h l = 0 := by
      intro l hl hlr
      have := hseg l hl
      rw [hz l hl, if_neg (by intro h'; injection h' with h'; exact hlr h'.symm)] at this
      simp only [Int.cast_zero, mul_zero] at this
      linarith [this.1, this.2]
    have hsr : (m.v k).s r = 1 := by rw [hz r hr, if_pos rfl]
    rw [sum_eq_single r (fun l hl hlr => hh l (mem_range.mp hl) hlr) (fun h' => absurd (mem_range.mpr hr) h')] at hsum
    rw [sum_eq_single r] at hf
    · have hq := hseg r hr
      rw [hsr] at hq hf
      simp only [Int.cast_one, mul_one] at hq hf
      have hmem : pieces.getD r (0, 0, 0, 0) ∈ pieces := by
        rw [List.getD, List.getElem?_eq_getElem hr]; simp
      have := happ _ hmem _ hq.1 hq.2
      rw [hf, hsum, abs_le] at this
      exact ⟨fun hm' => by have := hmin hm'; linarith [this], fun hm' => by have := hmax hm'; linarith [this]⟩
    · intro l hl hlr
      have hl' := mem_range.mp hl
      rw [hh l hl' hlr, hz l hl', if_neg (by intro h'; injection h' with h'; exact hlr h'.symm)]; simp
    · intro h'; exact absurd (mem_range.mpr hr) h'

/-- What the diversity variables of a solution are. -/
theorem diversity_sound {d : CFData} {c : CFCfg} {m : CFMulti} {k l : ℕ} (hd : cfDiversity d c m k l) {pk pl : ℕ → Option ℕ}
    (hk : CFPos d (m.v k) pk) (hl : CFPos d (m.v l) pl) :
    (∀ i < d.p, m.u k l i = if (pk i).isSome ≠ (pl i).isSome then 1 else 0) ∧
    (∀ i < d.p, ∑ j ∈ range (d.nbins i), m.d k l i j = if pk i = pl i then 0 else ((pk i).toList.length + (pl i).toList.length : ℕ)) := by
  refine ⟨fun i hi => ?_, fun i hi => ?_⟩
  · obtain ⟨h0, h1, h2, h3, h4, -⟩ := hd.1 i hi
    rw [hk.a i hi, hl.a i hi] at h1 h2 h3 h4
    cases hx : pk i <;> cases hy : pl i <;> simp only [hx, hy] at h1 h2 h3 h4 <;> simp at h1 h2 h3 h4 ⊢ <;> omega
  · obtain ⟨-, -, -, -, -, hj, -⟩ := hd.1 i hi
    have hval : ∀ j ∈ range (d.nbins i), m.d k l i j = (if pk i = some j then 1 else 0) + (if pl i = some j then 1 else 0) -
        2 * (if pk i = some j ∧ pl i = some j then 1 else 0) := by
      intro j hjr
      have hjr := mem_range.mp hjr
      obtain ⟨h0, h1, h2, h3, h4⟩ := hj j hjr
      rw [hk.z i hi j hjr, hl.z i hi j hjr] at h1 h2 h3 h4
      by_cases ha : pk i = some j <;> by_cases hb : pl i = some j <;> simp only [ha, hb] at h1 h2 h3 h4 ⊢ <;> simp at h1 h2 h3 h4 ⊢ <;> omega
    rw [sum_congr rfl hval, sum_sub_distrib, sum_add_distrib, ← mul_sum]
    have hone : ∀ (q : Option ℕ), (∀ j, q = some j → j < d.nbins i) → ∑ j ∈ range (d.nbins i), (if q = some j then (1 : ℤ) else 0) = (q.toList.length : ℕ) := by
      intro q hq
      cases q with
      | none => simp
      | some j =>
        rw [sum_eq_single j]
        · simp
        · intro b _ hb; rw [if_neg]; intro h; injection h with h; exact hb h.symm
        · intro h; exact absurd (mem_range.mpr (hq j rfl)) h
    rw [hone _ (hk.lt i hi), hone _ (hl.lt i hi)]
    split_ifs with heq
    · have : ∑ j ∈ range (d.nbins i), (if pk i = some j ∧ pl i = some j then (1 : ℤ) else 0) = ((pk i).toList.length : ℕ) := by
        rw [← hone _ (hk.lt i hi)]
        refine sum_congr rfl fun j _ => ?_
        simp only [← heq, and_self]
      rw [this, ← heq]; ring
    · rw [sum_eq_zero (f := fun j => if pk i = some j ∧ pl i = some j then (1 : ℤ) else 0)]
      · push_cast; ring
      · intro j _
        rw [if_neg]; rintro ⟨h1, h2⟩; exact heq (h1.trans h2.symm)

/-- C41: with the hard constraint `diversity_features` any two reported counterfactuals change different sets of features; with
`diversity_values` they never propose the same bin (of the candidate list) for the same feature. -/
theorem C41_diversity {d : CFData} {c : CFCfg} {o : CFOutcome} {m : CFMulti} (h : cfModel d c o m)
    (hnd : ∀ i < d.p, ((d.cands i).map Prod.fst).Nodup) {k l : ℕ} (hkl : k < l) (hl : l < c.K) :
    (c.hardFeatures → ∃ i < d.p, ((cfReport d (cfSolution d m k)).1 i = []) ≠ ((cfReport d (cfSolution d m l)).1 i = [])) ∧
    (c.hardValues → ∀ i < d.p, (cfReport d (cfSolution d m k)).1 i = (cfReport d (cfSolution d m l)).1 i →
      (cfReport d (cfSolution d m k)).1 i = []) := by
  obtain ⟨hbk, -, -, hmk, -, -⟩ := h.1 k (by omega)
  obtain ⟨hbl, -, -, hml, -, -⟩ := h.1 l hl
  obtain ⟨pk, hpk⟩ := exists_pos hbk hmk
  obtain ⟨pl, hpl⟩ := exists_pos hbl hml
  have hd := h.2 k (by omega) l hkl hl
  obtain ⟨hu, hdd⟩ := diversity_sound hd hpk hpl
  refine ⟨fun hf => ?_, fun hv i hi heq => ?_⟩
  · by_contra hcon
    push Not at hcon
    have := hd.2 hf
    rw [sum_eq_zero] at this
    · omega
    · intro i hi
      have hi := mem_range.mp hi
      have := hcon i hi
      rw [hpk.indices hi, hpl.indices hi] at this
      rw [hu i hi, if_neg]
      unfold CFData.proposal at this
      cases hx : pk i <;> cases hy : pl i <;> simp [hx, hy] at this ⊢
  · rw [hpk.indices hi, hpl.indices hi] at heq
    rw [hpk.indices hi]
    unfold CFData.proposal at heq ⊢
    cases hx : pk i with
    | none => simp
    | some a =>
      exfalso
      cases hy : pl i with
      | none => rw [hx, hy] at heq; simp at heq
      | some b =>
        have ha := hpk.lt i hi a hx
        have hb := hpl.lt i hi b hy
        rw [hx, hy] at heq
        simp only [Option.map_some, Option.toList_some, List.cons.injEq, and_true] at heq
        unfold CFData.nbins at ha hb
        have hab : a = b := by
          rw [List.getD, List.getD, List.getElem?_eq_getElem ha, List.getElem?_eq_getElem hb] at heq
          simp only [Option.getD_some] at heq
          have := (List.nodup_iff_injective_getElem.mp (hnd i hi)) (a₁ := ⟨a, by simpa using ha⟩) (a₂ := ⟨b, by simpa using hb⟩)
            (by simpa using heq)
          simpa using this
        have h5 := (hd.1 i hi).2.2.2.2.2.2 hv
        rw [hdd i hi, hpk.a i hi, hpl.a i hi, hx, hy, if_pos (by rw [hab])] at h5
        simp at h5

/-- C41: the candidate bins of a variable are rows of its table (without the last two rows, unless `special_missing`), each one at most once, and
none has the value of the query: a feature that is changed gets a different value. -/
theorem C41_candidates (values : List ℝ) (x : ℝ) (sm : Bool) :
    ((cfModelData values x sm).map Prod.fst).Nodup ∧
    ∀ (j : ℕ) (v : ℝ), (j, v) ∈ cfModelData values x sm ↔ values[j]? = some v ∧ v ≠ x ∧ (sm = true ∨ j + 2 < values.length) := by
  have hmem : ∀ (j : ℕ) (v : ℝ), (j, v) ∈ cfModelData values x sm ↔ values[j]? = some v ∧ v ≠ x ∧ (sm = true ∨ j + 2 < values.length) := by
    intro j v
    unfold cfModelData
    simp only [List.mem_filterMap]
    constructor
    · rintro ⟨⟨a, b⟩, hab, hq⟩
      split_ifs at hq with hne
      simp only [Option.some.injEq, Prod.mk.injEq] at hq
      obtain ⟨rfl, rfl⟩ := hq
      have := List.mem_zipIdx_iff_getElem?.mp hab
      simp only at this
      cases sm with
      | true => simp only [if_true] at this; exact ⟨this, hne, .inl rfl⟩
      | false =>
        simp only [Bool.false_eq_true, if_false] at this
        rw [List.getElem?_take] at this
        split_ifs at this with hlt
        exact ⟨this, hne, .inr (by omega)⟩
    · rintro ⟨hv, hne, hs⟩
      refine ⟨(v, j), List.mem_zipIdx_iff_getElem?.mpr ?_, by simp [hne]⟩
      simp only
      cases sm with
      | true => simpa using hv
      | false =>
        simp only [Bool.false_eq_true, false_or] at hs
        simp only [Bool.false_eq_true, if_false]
        rw [List.getElem?_take, if_pos (by omega)]; exact hv
  refine ⟨?_, hmem⟩
  unfold cfModelData
  have : ∀ (l : List ℝ) (n : ℕ), (((l.zipIdx n).filterMap fun q => if q.1 ≠ x then some (q.2, q.1) else none).map Prod.fst).Pairwise (· < ·) ∧
      ∀ a ∈ ((l.zipIdx n).filterMap fun q => if q.1 ≠ x then some (q.2, q.1) else none).map Prod.fst, n ≤ a := by
    intro l
    induction l with
    | nil => intro n; simp
    | cons a l ih =>
      intro n
      obtain ⟨h1, h2⟩ := ih (n + 1)
      rw [List.zipIdx_cons, List.filterMap_cons]
      by_cases ha : a = x
      · simp only [ha, ne_eq, not_true_eq_false, if_false]
        exact ⟨h1, fun b hb => by have := h2 b hb; omega⟩
      · simp only [ne_eq, ha, not_false_eq_true, if_true, List.map_cons, List.pairwise_cons, List.mem_cons]
        exact ⟨⟨fun b hb => by have := h2 b hb; omega, h1⟩, fun b hb => by rcases hb with rfl | hb; exact le_rfl; have := h2 b hb; omega⟩
  exact (this _ 0).1.imp fun h => h.ne

/-! ## Findings -/

/-- One feature with value 0 and one other bin (number 1, value 1), `score = value`, data centred at 5. -/
noncomputable def exCF : CFData :=
  { p := 1, x := fun _ => 0, cands := fun _ => [(1, 1)], intercept := 0, coef := fun _ => 1, wrange := fun _ => 1, F := fun _ _ => 1, mu := fun _ => 5 }

/-- A solution for `exCF` that changes nothing: the variable `x_p` is 5. -/
noncomputable def exFree : CFMulti :=
  { v := fun _ => { xp := fun _ => 5, a := fun _ => 0, z := fun _ _ => 0, tp := fun _ => 0, tm := fun _ => 0, mp := fun _ => 0, mm := fun _ => 0,
                    qp := 0, qm := 0, f := 0, h := fun _ => 0, s := fun _ => 0 }
    u := fun _ _ _ => 0, d := fun _ _ _ _ => 0 }

/-- C41 finding: without `"proximity"` among the objectives (`objectives={"closeness": 1}` is accepted) the new values `x_p` are not tied to the
chosen bins.  Here the class 1 is asked for; an optimal solution of the model changes nothing, and the reported counterfactual, the query
itself, has score 0, that is class 0, although changing the feature to its other bin would give class 1. -/
theorem C41_no_proximity :
    let c : CFCfg := { proximity := none, maxChanges := 1 }
    cfModel exCF c (.binary true) exFree ∧ (∀ m, cfModel exCF c (.binary true) m → cfObjective exCF c exFree ≤ cfObjective exCF c m) ∧
    (cfReport exCF (cfSolution exCF exFree 0)).2 = 0 ∧ (cfReport exCF (cfSolution exCF exFree 0)).1 0 = [] ∧
    Proposal.score (fun _ => some (1, 1)) exCF.explained = 1 := by
  intro c
  refine ⟨⟨?_, ?_⟩, ?_, ?_, ?_, ?_⟩
  · intro k hk
    refine ⟨?_, by simp [c], fun _ => ?_, ?_, by simp [cfActionable, c], ?_⟩
    · refine ⟨fun i hi => ?_, by simp [exFree], by simp [exFree], by simp [exFree], by simp [exFree], by simp [exFree]⟩
      simp [exFree]
    · intro i hi
      have : i = 0 := by simp only [exCF] at hi; omega
      subst this
      simp [exFree, exCF]
    · refine ⟨fun i hi => by simp [exFree], by simp [exFree, c]⟩
    · simp only [cfOutcome, cfOpposite, if_true, cfActivation, exCF, exFree]
      norm_num
  · intro k hk l hkl hl
    have hK : c.K = 1 := rfl
    omega
  · intro m hm
    have h0 : cfObjective exCF c exFree = 0 := by simp [cfObjective, cfComponent, exFree, exCF, c]
    have h1 : cfObjective exCF c m = (m.v 0).mp 0 + (m.v 0).mm 0 := by simp [cfObjective, cfComponent, exCF, c]
    rw [h0, h1]
    have := (hm.1 0 (by show 0 < 1; norm_num)).1.1 0 (by simp [exCF])
    linarith [this.2.2.2.2.2.1, this.2.2.2.2.2.2]
  · simp [cfReport, exCF, cfSolution, exFree, CFData.nbins]
  · simp [cfReport, exCF, cfSolution, exFree, CFData.nbins, List.range_succ]
  · simp [Proposal.score, CFData.explained, exCF, Proposal.value]

/-- C41 finding: `special_missing=False` removes exactly the last two rows of the table.  With a dictionary of two special groups (rows 2 and
3, missing in row 4) the first special row is still a candidate. -/
theorem C41_special_row_is_candidate : (2, 7) ∈ cfModelData [1, 2, 7, 8, 9] 1 false :=
  ((C41_candidates _ _ _).2 _ _).mpr ⟨rfl, by norm_num, .inr (by decide)⟩

/-- C41 finding: for a scorecard with one variable the default `max_changes` is 0; then no counterfactual changes anything. -/
theorem C41_default_max_changes {d : CFData} {c : CFCfg} {o : CFOutcome} {m : CFMulti} (h : cfModel d c o m) (hp : d.p = 1)
    (hm : c.maxChanges = cfDefaultMaxChanges d.p) {k : ℕ} (hk : k < c.K) : (cfReport d (cfSolution d m k)).1 0 = [] := by
  obtain ⟨prop, -, h1, -, h3, -⟩ := C41_changes h hk
  rw [h1 0 (by omega)]
  have : (prop.changed d.p).card = 0 := by
    have h0 : cfDefaultMaxChanges 1 = 0 := by decide
    rw [hm, hp, h0] at h3
    rw [hp]; omega
  rw [card_eq_zero] at this
  have hn : 0 ∉ prop.changed d.p := by rw [this]; simp
  unfold Proposal.changed at hn
  simp only [mem_filter, mem_range, not_and] at hn
  have := hn (by omega)
  cases hx : prop 0 with
  | none => rfl
  | some b => rw [hx] at this; simp at this

end OptBinning
