import Verif.Props.ScenarioSolver
import Mathlib.Data.List.GetD

/-!
# C114: the order of the scenarios does not matter; one scenario
-/
set_option linter.unusedSectionVars false
namespace OptBinning
open Finset Spec

/-- What the optimiser knows about a scenario: the counts per pre-bin, the number of records and the weight. -/
structure Spec.ScenCol where
  nonevent : List ℕ
  event : List ℕ
  size : ℕ
  weight : ℝ

namespace ScenOrder

noncomputable def dflt : ScenCol := ⟨[], [], 0, 0⟩

noncomputable def clsOf (c : ScenCfg) (t : ScenCol) : BinaryInput where
  nonevent := t.nonevent
  event := t.event
  div := jeffrey
  test := c.test
  policy := c.policy
  minDiff := c.minDiff

theorem getD_map {β γ : Type*} (f : β → γ) (l : List β) (s : ℕ) (d : β) (d' : γ) (h : f d = d') : (l.map f).getD s d' = f (l.getD s d) := by
  subst h
  rw [List.getD_map]

theorem all_iff {β : Type*} (l : List β) (d : β) (P : β → Prop) : (∀ s < l.length, P (l.getD s d)) ↔ ∀ t ∈ l, P t := by
  constructor
  · intro h t ht
    obtain ⟨s, hs, rfl⟩ := List.getElem_of_mem ht
    have := h s hs
    rwa [List.getD_eq_getElem _ _ hs] at this
  · intro h s hs
    rw [List.getD_eq_getElem _ _ hs]
    exact h _ (List.getElem_mem _)

def perScen (c : ScenCfg) (n : ℕ) (a : Assign) (t : ScenCol) : Prop :=
  (∀ i < n, (∀ q, c.minSize = some q → rowTotal (clsOf c t).dataCP.records a.x i ≥ ⌈q * (t.size : ℚ)⌉ * a.x i i) ∧
    (∀ q, c.maxSize = some q → rowTotal (clsOf c t).dataCP.records a.x i ≤ ⌈q * (t.size : ℚ)⌉ * a.x i i)) ∧
  (match c.trend with
  | .ascending => monoAscending ((c.opts [] none).base (decide (c.minDiff = 0))) (1000000 : ℤ) n (clsOf c t).rateCP a.x
  | .descending => monoDescending ((c.opts [] none).base (decide (c.minDiff = 0))) (1000000 : ℤ) n (clsOf c t).rateCP a.x
  | .concave => monoConcave (1000000 : ℤ) n (clsOf c t).rateCP a.x
  | .convex => monoConvex (1000000 : ℤ) n (clsOf c t).rateCP a.x
  | .peak => monoPeak (1000000 : ℤ) n (clsOf c t).rateCP a.x a.y
  | .valley => monoValley (1000000 : ℤ) n (clsOf c t).rateCP a.x a.y
  | _ => True) ∧
  violationCP a.x (clsOf c t).dataCP.pvalueViol ∧ violationCP a.x (clsOf c t).dataCP.minDiffViol

def common (c : ScenCfg) (n : ℕ) (fixed : Option (List Bool)) (a : Assign) : Prop :=
  domains ((c.opts [] fixed).base (decide (c.minDiff = 0))) n a ∧ uniqueAssignment n a.x ∧ continuity n a.x ∧
  minMaxBins ((c.opts [] fixed).base (decide (c.minDiff = 0))) n a.x a.d ∧
  fixedSplits ((c.opts [] fixed).base (decide (c.minDiff = 0))) n a.x ∧ (c.trend = .peak ∨ c.trend = .valley → changePoint n a.y a.t)

theorem acceptsScen_iff (c : ScenCfg) (n : ℕ) (fixed : Option (List Bool)) (L : List ScenCol) (a : Assign) :
    acceptsScen (c.opts (L.map ScenCol.size) fixed) (c.input n (L.map ScenCol.nonevent) (L.map ScenCol.event)) a ↔
    common c n fixed a ∧ ∀ t ∈ L, perScen c n a t := by
  have hcls : ∀ s, (c.input n (L.map ScenCol.nonevent) (L.map ScenCol.event)).cls s = clsOf c (L.getD s dflt) := by
    intro s
    unfold MultiInput.cls clsOf ScenCfg.input
    simp only
    rw [getD_map ScenCol.nonevent L s dflt [] rfl, getD_map ScenCol.event L s dflt [] rfl]
  have hlen : (c.input n (L.map ScenCol.nonevent) (L.map ScenCol.event)).classes = L.length := by
    unfold MultiInput.classes ScenCfg.input; simp
  have hsz : ∀ (q : ℚ) (s : ℕ), ((L.map ScenCol.size).map fun m : ℕ => ⌈q * (m : ℚ)⌉).getD s 0 = ⌈q * ((L.getD s dflt).size : ℚ)⌉ := by
    intro q s
    rw [getD_map (fun m : ℕ => ⌈q * (m : ℚ)⌉) _ s 0 0 (by simp), getD_map ScenCol.size L s dflt 0 rfl]
  have hsizes : binSizeScenarios (c.opts (L.map ScenCol.size) fixed) (c.input n (L.map ScenCol.nonevent) (L.map ScenCol.event)) a.x ↔
      ∀ t ∈ L, ∀ i < n, (∀ q, c.minSize = some q → rowTotal (clsOf c t).dataCP.records a.x i ≥ ⌈q * (t.size : ℚ)⌉ * a.x i i) ∧
    (∀ q, c.maxSize = some q → rowTotal (clsOf c t).dataCP.records a.x i ≤ ⌈q * (t.size : ℚ)⌉ * a.x i i) := by
    rw [← all_iff L dflt]
    unfold binSizeScenarios
    rw [hlen]
    refine forall_congr' fun s => forall_congr' fun hs => forall_congr' fun i => forall_congr' fun hi => ?_
    rw [hcls]
    unfold ScenCfg.opts
    simp only [Option.map_eq_some_iff, forall_exists_index, and_imp, forall_apply_eq_imp_iff₂]
    simp only [hsz]
  unfold acceptsScen
  simp only
  rw [hsizes, hlen]
  simp only [hcls]
  rw [all_iff L dflt (fun t => violationCP a.x (clsOf c t).dataCP.pvalueViol), all_iff L dflt (fun t => violationCP a.x (clsOf c t).dataCP.minDiffViol)]
  have htr : trendScenarios (c.opts (L.map ScenCol.size) fixed) (c.input n (L.map ScenCol.nonevent) (L.map ScenCol.event)) a ↔
      (c.trend = .peak ∨ c.trend = .valley → changePoint n a.y a.t) ∧ ∀ t ∈ L, (match c.trend with
  | .ascending => monoAscending ((c.opts [] none).base (decide (c.minDiff = 0))) (1000000 : ℤ) n (clsOf c t).rateCP a.x
  | .descending => monoDescending ((c.opts [] none).base (decide (c.minDiff = 0))) (1000000 : ℤ) n (clsOf c t).rateCP a.x
  | .concave => monoConcave (1000000 : ℤ) n (clsOf c t).rateCP a.x
  | .convex => monoConvex (1000000 : ℤ) n (clsOf c t).rateCP a.x
  | .peak => monoPeak (1000000 : ℤ) n (clsOf c t).rateCP a.x a.y
  | .valley => monoValley (1000000 : ℤ) n (clsOf c t).rateCP a.x a.y
  | _ => True) := by
    unfold trendScenarios
    rw [hlen]
    simp only [hcls]
    have ht : (c.opts (L.map ScenCol.size) fixed).trend = c.trend := rfl
    rw [ht]
    cases hc : c.trend with
    | ascending =>
      have h0 := all_iff L dflt (fun t => monoAscending ((c.opts [] none).base (decide (c.minDiff = 0))) (1000000 : ℤ) n (clsOf c t).rateCP a.x)
      exact ⟨fun h => ⟨by simp, h0.1 h⟩, fun h => h0.2 h.2⟩
    | descending =>
      have h0 := all_iff L dflt (fun t => monoDescending ((c.opts [] none).base (decide (c.minDiff = 0))) (1000000 : ℤ) n (clsOf c t).rateCP a.x)
      exact ⟨fun h => ⟨by simp, h0.1 h⟩, fun h => h0.2 h.2⟩
    | concave =>
      have h0 := all_iff L dflt (fun t => monoConcave (1000000 : ℤ) n (clsOf c t).rateCP a.x)
      exact ⟨fun h => ⟨by simp, h0.1 h⟩, fun h => h0.2 h.2⟩
    | convex =>
      have h0 := all_iff L dflt (fun t => monoConvex (1000000 : ℤ) n (clsOf c t).rateCP a.x)
      exact ⟨fun h => ⟨by simp, h0.1 h⟩, fun h => h0.2 h.2⟩
    | peak =>
      have h0 := all_iff L dflt (fun t => monoPeak (1000000 : ℤ) n (clsOf c t).rateCP a.x a.y)
      exact ⟨fun h => ⟨fun _ => h.1, h0.1 h.2⟩, fun h => ⟨h.1 (by simp), h0.2 h.2⟩⟩
    | valley =>
      have h0 := all_iff L dflt (fun t => monoValley (1000000 : ℤ) n (clsOf c t).rateCP a.x a.y)
      exact ⟨fun h => ⟨fun _ => h.1, h0.1 h.2⟩, fun h => ⟨h.1 (by simp), h0.2 h.2⟩⟩
    | _ => simp
  rw [htr]
  unfold common perScen
  constructor
  · rintro ⟨h1, h2, h3, h4, h5, ⟨h6, h7⟩, h8, h9, h10⟩
    exact ⟨⟨h1, h2, h3, h4, h10, h6⟩, fun t ht => ⟨h5 t ht, h7 t ht, h8 t ht, h9 t ht⟩⟩
  · rintro ⟨⟨h1, h2, h3, h4, h10, h6⟩, h⟩
    exact ⟨h1, h2, h3, h4, fun t ht => (h t ht).1, ⟨h6, fun t ht => (h t ht).2.1⟩, fun t ht => (h t ht).2.2.1, fun t ht => (h t ht).2.2.2, h10⟩

theorem sum_getD {β : Type*} (l : List β) (d : β) (f : β → ℤ) : ∑ s ∈ range l.length, f (l.getD s d) = (l.map f).sum := by
  induction l with
  | nil => simp
  | cons t l ih =>
    rw [List.length_cons, Finset.sum_range_succ', List.map_cons, List.sum_cons, ← ih, add_comm]
    simp

theorem objectiveScen_sum (c : ScenCfg) (n : ℕ) (L : List ScenCol) (a : Assign) :
    objectiveScen (L.map ScenCol.weight) (c.input n (L.map ScenCol.nonevent) (L.map ScenCol.event)) a =
    (L.map fun t => truncReal (t.weight * weightScale (L.map ScenCol.weight)) * objective (clsOf c t).dataCP a.x).sum := by
  have hlen : (c.input n (L.map ScenCol.nonevent) (L.map ScenCol.event)).classes = L.length := by
    unfold MultiInput.classes ScenCfg.input; simp
  have hcls : ∀ s, (c.input n (L.map ScenCol.nonevent) (L.map ScenCol.event)).cls s = clsOf c (L.getD s dflt) := by
    intro s
    unfold MultiInput.cls clsOf ScenCfg.input
    simp only
    rw [getD_map ScenCol.nonevent L s dflt [] rfl, getD_map ScenCol.event L s dflt [] rfl]
  unfold objectiveScen
  rw [hlen]
  simp only [hcls]
  unfold intWeight
  simp only [fun s => getD_map ScenCol.weight L s dflt (0 : ℝ) rfl]
  generalize hW : weightScale (L.map ScenCol.weight) = W
  clear hW hlen hcls
  exact sum_getD L dflt fun t => truncReal (t.weight * W) * objective (clsOf c t).dataCP a.x

theorem weightScale_perm {w w' : List ℝ} (h : w.Perm w') : weightScale w = weightScale w' := by
  unfold weightScale
  have : w.min? = w'.min? := by
    cases hm : w.min? with
    | none =>
      rw [List.min?_eq_none_iff] at hm
      subst hm
      rw [List.nil_perm.1 h]; rfl
    | some m =>
      rw [List.min?_eq_some_iff] at hm
      symm
      rw [List.min?_eq_some_iff]
      exact ⟨h.mem_iff.1 hm.1, fun b hb => hm.2 b (h.mem_iff.2 hb)⟩
  rw [this]

theorem accepts_perm (c : ScenCfg) (n : ℕ) (fixed : Option (List Bool)) {L L' : List ScenCol} (h : L.Perm L') (a : Assign) :
    acceptsScen (c.opts (L.map ScenCol.size) fixed) (c.input n (L.map ScenCol.nonevent) (L.map ScenCol.event)) a ↔
    acceptsScen (c.opts (L'.map ScenCol.size) fixed) (c.input n (L'.map ScenCol.nonevent) (L'.map ScenCol.event)) a := by
  rw [acceptsScen_iff, acceptsScen_iff]
  exact and_congr_right fun _ => ⟨fun h1 t ht => h1 t (h.mem_iff.2 ht), fun h1 t ht => h1 t (h.mem_iff.1 ht)⟩

theorem objective_perm (c : ScenCfg) (n : ℕ) {L L' : List ScenCol} (h : L.Perm L') (a : Assign) :
    objectiveScen (L.map ScenCol.weight) (c.input n (L.map ScenCol.nonevent) (L.map ScenCol.event)) a =
    objectiveScen (L'.map ScenCol.weight) (c.input n (L'.map ScenCol.nonevent) (L'.map ScenCol.event)) a := by
  rw [objectiveScen_sum, objectiveScen_sum, weightScale_perm (h.map ScenCol.weight)]
  exact (h.map _).sum_eq

theorem valid_congr {ok ok' : Assign → Prop} {obj obj' : Assign → ℤ} (ho : ∀ a, ok a ↔ ok' a) (hb : ∀ a, obj a = obj' a) {ans : SolverAnswer}
    (hv : ans.Valid ok obj) : ans.Valid ok' obj' := by
  have e1 : ok = ok' := funext fun a => propext (ho a)
  have e2 : obj = obj' := funext hb
  rw [← e1, ← e2]
  exact hv

theorem valid_perm (c : ScenCfg) (n : ℕ) (fixed : Option (List Bool)) {L L' : List ScenCol} (h : L.Perm L') (ans : SolverAnswer)
    (hv : ans.Valid (acceptsScen (c.opts (L.map ScenCol.size) fixed) (c.input n (L.map ScenCol.nonevent) (L.map ScenCol.event)))
      (objectiveScen (L.map ScenCol.weight) (c.input n (L.map ScenCol.nonevent) (L.map ScenCol.event)))) :
    ans.Valid (acceptsScen (c.opts (L'.map ScenCol.size) fixed) (c.input n (L'.map ScenCol.nonevent) (L'.map ScenCol.event)))
      (objectiveScen (L'.map ScenCol.weight) (c.input n (L'.map ScenCol.nonevent) (L'.map ScenCol.event))) := by
  exact valid_congr (accepts_perm c n fixed h) (objective_perm c n h) hv

variable {α : Type*} [LinearOrder α]

theorem pureMask_perm {clean clean' : List (Scen α)} (h : clean.Perm clean') (nb : ℕ) (g g' : Scen α → List ℕ) :
    pureMaskM nb (clean.map g) (clean.map g') = pureMaskM nb (clean'.map g) (clean'.map g') := by
  unfold pureMaskM
  refine List.map_congr_left fun i _ => ?_
  rw [List.zip_map', List.zip_map', Bool.eq_iff_iff, List.any_eq_true, List.any_eq_true]
  constructor
  · rintro ⟨x, hx, h1⟩
    exact ⟨x, (h.map _).mem_iff.1 hx, h1⟩
  · rintro ⟨x, hx, h1⟩
    exact ⟨x, (h.map _).mem_iff.2 hx, h1⟩

theorem prebins_perm {clean clean' : List (Scen α)} (h : clean.Perm clean') (st : ScenState α) (splits : List α) :
    (computePrebinsS clean st splits).map (fun p => (p.splits, p.nb)) = (computePrebinsS clean' st splits).map (fun p => (p.splits, p.nb)) := by
  induction hl : splits.length using Nat.strong_induction_on generalizing st splits with
  | _ n ih =>
    subst hl
    rw [computePrebinsS, computePrebinsS]
    by_cases h0 : splits.length = 0
    · rw [dif_pos h0, dif_pos h0]
    · rw [dif_neg h0, dif_neg h0]
      simp only
      have hm := pureMask_perm h (splits.length + 1) (prebinNonevent splits) (prebinEventS splits)
      rw [hm]
      by_cases hany : (pureMaskM (splits.length + 1) (clean'.map (prebinNonevent splits)) (clean'.map (prebinEventS splits))).any id = true
      · rw [dif_pos hany, dif_pos hany]
        have hlt := maskSplits_any (c := false) (rm := pureMaskM (splits.length + 1) (clean'.map (prebinNonevent splits)) (clean'.map (prebinEventS splits)))
          (n := splits.length) (by omega) (by simp [pureMaskM]) hany
        have hlen := length_select_lt hlt.1 hlt.2
        cases hf : st.fixed with
        | none => exact ih _ hlen _ _ rfl
        | some fx =>
          simp only
          split_ifs with h2
          · rfl
          · exact ih _ hlen _ _ rfl
      · rw [dif_neg hany, dif_neg hany]
        rfl

end ScenOrder

end OptBinning
