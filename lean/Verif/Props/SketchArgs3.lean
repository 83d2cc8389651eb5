import Verif.Props.SketchArgs2
import Verif.Props.CatStream2

/-!
# C74 (continued): when `solve()` of a categorical streaming object completes
-/
set_option linter.unusedSectionVars false
namespace OptBinning
open Finset Spec
variable {κ : Type} [LinearOrder κ]

section
variable {cfg : CatStreamCfg} {sc : SpecialCodes κ} {solver : Solver} {c : SolverCfg} {ops : List (SkOp (Rec κ))}
  {s : List (Option (List (Rec κ)))} {i : ℕ} {rows : List (Rec κ)} {f : CatStreamFit κ}

theorem classCount_pos_iff (ev : Bool) (rows : List (Rec κ)) : 0 < classCount ev rows ↔ ∃ r ∈ rows, r.y = some ev := by
  unfold classCount
  rw [List.countP_pos_iff]
  simp

theorem row_head_mixed {ne e : List ℕ} (h1 : 0 < ne.getD 0 0) (h2 : 0 < e.getD 0 0) : (rowsOf ne e).any Spec.Row.mixed = true := by
  cases ne with
  | nil => simp at h1
  | cons x ne =>
    cases e with
    | nil => simp at h2
    | cons y e =>
      simp only [List.getD_cons_zero] at h1 h2
      simp [rowsOf, Spec.Row.mixed]
      left; omega

theorem sum_pos_of_mixed {ne e : List ℕ} (h : (rowsOf ne e).any Spec.Row.mixed = true) : 0 < ne.sum ∧ 0 < e.sum := by
  obtain ⟨r, h1, h2⟩ := List.any_eq_true.1 h
  unfold rowsOf at h1
  simp [Spec.Row.mixed] at h2
  obtain ⟨k, hk, rfl⟩ := List.getElem_of_mem h1
  rw [List.length_zipWith] at hk
  rw [List.getElem_zipWith] at h2
  exact ⟨lt_of_lt_of_le h2.2 (List.single_le_sum (fun _ _ => Nat.zero_le _) _ (List.getElem_mem _)),
    lt_of_lt_of_le h2.1 (List.single_le_sum (fun _ _ => Nat.zero_le _) _ (List.getElem_mem _))⟩

/-- C74: when `solve()` completes: without a category to bin, if records of both classes were added; else if each class has a record whose category
is binned.  Finding: without a category to bin and with one class only, the object is marked as solved and then `ValueError` is raised. -/
theorem C74_completes (hm : 0 < cfg.maxPrebins) (hsc : ¬ IsSpecialValue sc none) (hr : Respects c solver)
    (hs : ownedAll (fun _ _ => true) ops = some s) (hi : s[i]? = some (some rows)) (hk : (cfg.keepPure && cfg.heur) = false) :
    ((∃ f, (CWorld.run sc ops).solveCall cfg solver i = .ok f) ↔
      ((∀ v, ¬ IsMainCategory cfg sc rows v) ∧ ∀ ev, ∃ r ∈ rows, r.y = some ev) ∨
      ∀ ev, ∃ r ∈ rows, r.y = some ev ∧ ∃ v, r.x = some v ∧ IsMainCategory cfg sc rows v) ∧
    ((CWorld.run sc ops).solveCall cfg solver i = .error "ValueError" ↔
      (∀ v, ¬ IsMainCategory cfg sc rows v) ∧ ∃ ev, ∀ r ∈ rows, r.y ≠ some ev) ∧
    (∀ f, (CWorld.run sc ops).solveCall cfg solver i = .ok f → (CWorld.run sc ops).solve cfg solver i = .ok f) := by
  obtain ⟨hsolv, herr⟩ := C74_solvable (solver := solver) hm hsc hs hi hk
  have hdef : (CWorld.run sc ops).solveCall cfg solver i = match (CWorld.run sc ops).solve cfg solver i with
    | .error e => .error e
    | .ok f => if (rowsOf f.table.nonevent f.table.event).any Spec.Row.mixed then .ok f else .error "ValueError" := rfl
  cases hres : (CWorld.run sc ops).solve cfg solver i with
  | error e =>
    have hno : ¬ ∃ f, (CWorld.run sc ops).solve cfg solver i = .ok f := by
      rintro ⟨f, hf⟩; rw [hres] at hf; cases hf
    have he := herr fun f hf => hno ⟨f, hf⟩
    rw [hres] at he
    rw [hsolv, not_or] at hno
    rw [hdef, hres]
    simp only
    rw [he]
    refine ⟨⟨fun ⟨f, hf⟩ => (by cases hf), ?_⟩, ⟨fun h => (by simp at h), fun h => absurd h.1 hno.1⟩, fun f hf => (by cases hf)⟩
    rintro (h | h)
    · exact absurd h.1 hno.1
    · exact absurd h hno.2
  | ok f =>
    have hS := hsolv.1 ⟨f, hres⟩
    have hboth : (rowsOf f.table.nonevent f.table.event).any Spec.Row.mixed = true ↔ ∀ ev, 0 < classCount ev rows := by
      obtain ⟨S, h⟩ := catStream_spec hm hsc hs hi hres
      have hn := h.nPrebins
      constructor
      · intro hmix ev
        by_contra hc
        have hcol : (f.table.column ev).sum = 0 := by
          by_cases h2 : 1 < f.nPrebins
          · rw [C73_total hm hsc hr hs hi hres h2 ev]; omega
          · obtain ⟨-, -, h3⟩ := C73_single_prebin hm hsc hs hi hres (by omega) ev
            have h4 : groupCount f.table.others ev rows ≤ classCount ev rows :=
              List.countP_mono_left fun r _ hr => by simp at hr ⊢; exact hr.1
            have h5 : specialCount sc ev rows ≤ classCount ev rows :=
              List.countP_mono_left fun r _ hr => by simp at hr ⊢; exact hr.1
            have h6 : missingCount ev rows ≤ classCount ev rows :=
              List.countP_mono_left fun r _ hr => by simp at hr ⊢; exact hr.1
            omega
        have hp := sum_pos_of_mixed hmix
        cases ev
        · have : (f.table.column false).sum = f.table.nonevent.sum := rfl
          omega
        · have : (f.table.column true).sum = f.table.event.sum := rfl
          omega
      · intro hcl
        have hrow : ∀ ev, 0 < (f.table.column ev).getD 0 0 := by
          intro ev
          by_cases h2 : 1 < f.nPrebins
          · exact C73_mixed hm hsc hr hs hi hres h2 (Nat.zero_le _) ev
          · rw [(C73_single_prebin hm hsc hs hi hres (by omega) ev).2.1]; exact hcl ev
        exact row_head_mixed (hrow false) (hrow true)
    simp only [classCount_pos_iff] at hboth
    rw [hdef, hres]
    simp only
    by_cases hmix : (rowsOf f.table.nonevent f.table.event).any Spec.Row.mixed = true
    · rw [if_pos hmix]
      have hb := hboth.1 hmix
      refine ⟨⟨fun _ => ?_, fun _ => ⟨f, rfl⟩⟩, ⟨fun h => (by cases h), ?_⟩, fun g hg => hg⟩
      · rcases hS with h | h
        · exact Or.inl ⟨h, hb⟩
        · exact Or.inr h
      · rintro ⟨-, ev, h⟩
        obtain ⟨r, h1, h2⟩ := hb ev
        exact absurd h2 (h r h1)
    · rw [if_neg hmix]
      rw [hboth] at hmix
      have hS' : ∀ v, ¬ IsMainCategory cfg sc rows v := by
        rcases hS with h | h
        · exact h
        · exact absurd (fun ev => (h ev).imp fun r hr => ⟨hr.1, hr.2.1⟩) hmix
      refine ⟨⟨fun ⟨f, hf⟩ => (by cases hf), ?_⟩, ⟨fun _ => ⟨hS', ?_⟩, fun _ => rfl⟩, fun g hg => (by cases hg)⟩
      · rintro (h | h)
        · exact absurd h.2 hmix
        · exact absurd (fun ev => (h ev).imp fun r hr => ⟨hr.1, hr.2.1⟩) hmix
      · push Not at hmix
        obtain ⟨ev, h⟩ := hmix
        exact ⟨ev, h⟩
end
end OptBinning
