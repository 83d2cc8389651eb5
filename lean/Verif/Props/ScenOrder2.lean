import Verif.Props.ScenOrder
import Verif.Props.ScenarioFixed

/-!
# C114: `SBOptimalBinning.fit` does not depend on the order of the scenarios
-/
set_option linter.unusedSectionVars false
namespace OptBinning
open Finset Spec

variable {α : Type*} [LinearOrder α]

namespace ScenOrder

/-- The scenario as the optimiser sees it. -/
def col (sc : SpecialCodes α) (S : List α) (p : Scen α × ℝ) : ScenCol :=
  ⟨prebinNonevent S (splitDataM sc none p.1).clean, prebinEventS S (splitDataM sc none p.1).clean, p.1.length, p.2⟩

/-- The table of a scenario. -/
def tab (sc : SpecialCodes α) (S : List α) (sol : List Bool) (s : Scen α) : List ℕ × List ℕ :=
  (binInfo sol (prebinNonevent S (splitDataM sc none s).clean) none [countClass false (splitDataM sc none s).special]
      (countClass false (splitDataM sc none s).missing),
    binInfo sol (prebinEventS S (splitDataM sc none s).clean) none [countRest false (splitDataM sc none s).special]
      (countRest false (splitDataM sc none s).missing))

theorem zipIdx_map_getD {β γ δ : Type*} (l : List β) (g : β → γ) (d : γ) (F : β → γ → δ) :
    (l.zipIdx.map fun p => F p.1 ((l.map g).getD p.2 d)) = l.map fun x => F x (g x) := by
  apply List.ext_getElem
  · simp
  · intro i h1 h2
    have hi : i < l.length := by simpa using h2
    simp [List.getD, hi]

theorem fitFrom_eq {c : ScenCfg} {sc : SpecialCodes α} {solver : SolverS} {L : List (Scen α × ℝ)} {st : ScenState α} {splits : List α}
    (hd : sc.isDict = false) (hL : L ≠ []) {pb : PrebinsM α}
    (hpb : computePrebinsS (L.map fun p => (splitDataM sc none p.1).clean) st splits = .ok pb) (hne : pb.splits ≠ []) :
    fitFromS c sc solver (L.map Prod.fst) st splits =
      .ok ⟨(solve pb.nb (solver (c.opts ((L.map (col sc pb.splits)).map ScenCol.size) st.fixed)
            (c.input pb.nb ((L.map (col sc pb.splits)).map ScenCol.nonevent) ((L.map (col sc pb.splits)).map ScenCol.event)))).1,
          select pb.splits (solve pb.nb (solver (c.opts ((L.map (col sc pb.splits)).map ScenCol.size) st.fixed)
            (c.input pb.nb ((L.map (col sc pb.splits)).map ScenCol.nonevent) ((L.map (col sc pb.splits)).map ScenCol.event)))).2.dropLast,
          L.map fun p => (tab sc pb.splits (solve pb.nb (solver (c.opts ((L.map (col sc pb.splits)).map ScenCol.size) st.fixed)
            (c.input pb.nb ((L.map (col sc pb.splits)).map ScenCol.nonevent) ((L.map (col sc pb.splits)).map ScenCol.event)))).2 p.1).1,
          L.map fun p => (tab sc pb.splits (solve pb.nb (solver (c.opts ((L.map (col sc pb.splits)).map ScenCol.size) st.fixed)
            (c.input pb.nb ((L.map (col sc pb.splits)).map ScenCol.nonevent) ((L.map (col sc pb.splits)).map ScenCol.event)))).2 p.1).2⟩ := by
  obtain ⟨-, hcase⟩ := computePrebinsS_spec _ _ _ _ hpb
  rcases hcase with ⟨h0, -⟩ | ⟨-, hnb, hn, he, -⟩
  · exact absurd h0 hne
  unfold fitFromS
  simp only [hd, Bool.false_eq_true, if_false, List.length_map]
  rw [if_neg (by rw [List.length_eq_zero_iff]; exact hL)]
  have e0 : ((L.map Prod.fst).map (splitDataM sc none)).map SplitM.clean = L.map fun p => (splitDataM sc none p.1).clean := by
    simp [List.map_map, Function.comp_def]
  rw [e0, hpb]
  simp only
  rw [if_neg (by rw [List.length_eq_zero_iff]; exact hne)]
  have e1 : (L.map Prod.fst).map List.length = (L.map (col sc pb.splits)).map ScenCol.size := by
    simp [List.map_map, Function.comp_def, col]
  have e2 : pb.nonevent = (L.map (col sc pb.splits)).map ScenCol.nonevent := by
    rw [hn]; simp [List.map_map, Function.comp_def, col]
  have e3 : pb.event = (L.map (col sc pb.splits)).map ScenCol.event := by
    rw [he]; simp [List.map_map, Function.comp_def, col]
  rw [e1, ← e2, ← e3]
  generalize solve pb.nb _ = r
  have z1 := zipIdx_map_getD ((L.map Prod.fst).map (splitDataM sc none)) (fun d => prebinNonevent pb.splits d.clean) []
    (fun d b => binInfo r.2 b none [countClass false d.special] (countClass false d.missing))
  have z2 := zipIdx_map_getD ((L.map Prod.fst).map (splitDataM sc none)) (fun d => prebinEventS pb.splits d.clean) []
    (fun d b => binInfo r.2 b none [countRest false d.special] (countRest false d.missing))
  have e4 : pb.nonevent = ((L.map Prod.fst).map (splitDataM sc none)).map (fun d => prebinNonevent pb.splits d.clean) := by
    rw [hn]; simp [List.map_map, Function.comp_def]
  have e5 : pb.event = ((L.map Prod.fst).map (splitDataM sc none)).map (fun d => prebinEventS pb.splits d.clean) := by
    rw [he]; simp [List.map_map, Function.comp_def]
  rw [← e4] at z1
  rw [← e5] at z2
  rw [z1, z2]
  simp [List.map_map, Function.comp_def, tab]

theorem fitFrom_inv {c : ScenCfg} {sc : SpecialCodes α} {solver : SolverS} {L : List (Scen α × ℝ)} {st : ScenState α} {splits : List α}
    {f : FittedS α} (h : fitFromS c sc solver (L.map Prod.fst) st splits = .ok f) :
    sc.isDict = false ∧ L ≠ [] ∧ ∃ pb : PrebinsM α,
      computePrebinsS (L.map fun p => (splitDataM sc none p.1).clean) st splits = .ok pb ∧ pb.splits ≠ [] := by
  unfold fitFromS at h
  have e0 : ((L.map Prod.fst).map (splitDataM sc none)).map SplitM.clean = L.map fun p => (splitDataM sc none p.1).clean := by
    simp [List.map_map, Function.comp_def]
  simp only [e0, List.length_map] at h
  split_ifs at h with h1 h2
  cases hpb : computePrebinsS (L.map fun p => (splitDataM sc none p.1).clean) st splits with
  | error e => rw [hpb] at h; cases h
  | ok pb =>
    rw [hpb] at h
    simp only at h
    split_ifs at h with h3
    refine ⟨by simpa using h1, fun hL => h2 (by simp [hL]), pb, rfl, fun h4 => h3 (by simp [h4])⟩

theorem fitFrom_perm {c : ScenCfg} {sc : SpecialCodes α} {solver : SolverS} {L L' : List (Scen α × ℝ)} (hp : L.Perm L')
    {st : ScenState α} {splits : List α} {f : FittedS α} (hr : RespectsS (L.map Prod.snd) solver)
    (h : fitFromS c sc solver (L.map Prod.fst) st splits = .ok f) :
    ∃ solver', RespectsS (L'.map Prod.snd) solver' ∧ ∃ f', fitFromS c sc solver' (L'.map Prod.fst) st splits = .ok f' ∧
      f'.status = f.status ∧ f'.splits = f.splits ∧
      ((L'.map Prod.fst).zip (f'.nonevent.zip f'.event)).Perm ((L.map Prod.fst).zip (f.nonevent.zip f.event)) := by
  classical
  obtain ⟨hd, hL, pb, hpb, hne⟩ := fitFrom_inv h
  have hL' : L' ≠ [] := fun h0 => hL (by rw [h0] at hp; exact hp.eq_nil)
  have hpp := prebins_perm (hp.map fun p => (splitDataM sc none p.1).clean) st splits
  rw [hpb] at hpp
  cases hpb' : computePrebinsS (L'.map fun p => (splitDataM sc none p.1).clean) st splits with
  | error e => rw [hpb'] at hpp; cases hpp
  | ok pb' =>
    rw [hpb'] at hpp
    simp only [Except.map, Except.ok.injEq, Prod.mk.injEq] at hpp
    obtain ⟨es, en⟩ := hpp
    have h1 := fitFrom_eq (c := c) (solver := solver) hd hL hpb hne
    rw [h] at h1
    simp only [Except.ok.injEq] at h1
    set o := c.opts ((L.map (col sc pb.splits)).map ScenCol.size) st.fixed with ho
    set inp := c.input pb.nb ((L.map (col sc pb.splits)).map ScenCol.nonevent) ((L.map (col sc pb.splits)).map ScenCol.event) with hinp
    set o' := c.opts ((L'.map (col sc pb.splits)).map ScenCol.size) st.fixed with ho'
    set inp' := c.input pb.nb ((L'.map (col sc pb.splits)).map ScenCol.nonevent) ((L'.map (col sc pb.splits)).map ScenCol.event) with hinp'
    have hw : L.map Prod.snd = (L.map (col sc pb.splits)).map ScenCol.weight := by
      simp [List.map_map, Function.comp_def, col]
    have hw' : L'.map Prod.snd = (L'.map (col sc pb.splits)).map ScenCol.weight := by
      simp [List.map_map, Function.comp_def, col]
    refine ⟨fun q i => if q = o' ∧ i = inp' then solver o inp else exSolverS (fun _ _ => true) q i, ?_, ?_⟩
    · intro q i
      simp only
      split_ifs with hqi
      · obtain ⟨rfl, rfl⟩ := hqi
        have hv := hr o inp
        rw [hw] at hv
        rw [hw']
        exact valid_perm c pb.nb st.fixed (hp.map (col sc pb.splits)) _ hv
      · exact exSolverS_respects _ _ q i
    · have h2 := fitFrom_eq (c := c) (solver := fun q i => if q = o' ∧ i = inp' then solver o inp else exSolverS (fun _ _ => true) q i)
        hd hL' hpb' (es ▸ hne)
      refine ⟨_, h2, ?_⟩
      rw [← es, ← en, ← ho', ← hinp']
      simp only [and_self, if_true]
      subst h1
      refine ⟨rfl, rfl, ?_⟩
      simp only [List.zip_map']
      exact (hp.symm.map _)

theorem fitFrom_perm_error {c : ScenCfg} {sc : SpecialCodes α} {solver solver' : SolverS} {L L' : List (Scen α × ℝ)} (hp : L.Perm L')
    {st : ScenState α} {splits : List α} {e : String}
    (h : fitFromS c sc solver (L.map Prod.fst) st splits = .error e) : fitFromS c sc solver' (L'.map Prod.fst) st splits = .error e := by
  unfold fitFromS at h ⊢
  have e0 : ∀ M : List (Scen α × ℝ), ((M.map Prod.fst).map (splitDataM sc none)).map SplitM.clean = M.map fun p => (splitDataM sc none p.1).clean := by
    intro M; simp [List.map_map, Function.comp_def]
  have hpp := prebins_perm (hp.map fun p => (splitDataM sc none p.1).clean) st splits
  simp only [e0, List.length_map] at h ⊢
  rw [← hp.length_eq]
  split_ifs at h ⊢ with h1 h2
  · exact h
  · exact h
  · cases hpb : computePrebinsS (L.map fun p => (splitDataM sc none p.1).clean) st splits with
    | error e1 =>
      rw [hpb] at h hpp
      cases hpb' : computePrebinsS (L'.map fun p => (splitDataM sc none p.1).clean) st splits with
      | error e2 =>
        rw [hpb'] at hpp
        simp only [Except.map, Except.error.injEq] at hpp h
        rw [← hpp, h]
      | ok pb' => rw [hpb'] at hpp; cases hpp
    | ok pb =>
      rw [hpb] at h hpp
      simp only at h
      split_ifs at h with h3
      cases hpb' : computePrebinsS (L'.map fun p => (splitDataM sc none p.1).clean) st splits with
      | error e2 => rw [hpb'] at hpp; cases hpp
      | ok pb' =>
        rw [hpb'] at hpp
        simp only [Except.map, Except.ok.injEq, Prod.mk.injEq] at hpp
        simp only
        rw [if_pos (by rw [← hpp.1]; exact h3)]
        exact h

end ScenOrder

end OptBinning
