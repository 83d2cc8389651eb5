import Verif.Props.StreamHistory

/-! # C72: objects that collect other objects -/
namespace OptBinning
open Finset
open Spec (usedValues specialCount missingCount classCount IsSpecialValue)
variable {α : Type*} [LinearOrder α]

/-- The sketch `k` was filled with `vs` by additions and merges. -/
def FilledM (eps : ℚ) (k : GK α) (vs : List α) : Prop := ∃ ops, k = GK.runMerge eps ops ∧ collectedValues ops = vs

theorem runMerge_snoc (eps : ℚ) (ops : List (MergeOp α)) (o : MergeOp α) : GK.runMerge eps (ops ++ [o]) = (GK.runMerge eps ops).mergeStep o := by
  unfold GK.runMerge; rw [List.foldl_append]; rfl

theorem collectedValues_append (a b : List (MergeOp α)) : collectedValues (a ++ b) = collectedValues a ++ collectedValues b := by
  simp [collectedValues]

theorem FilledM.new (eps : ℚ) : FilledM eps ({ eps := eps } : GK α) [] := ⟨[], rfl, rfl⟩

theorem Filled.toM {eps : ℚ} {k : GK α} {vs : List α} (h : Filled eps k vs) : FilledM eps k vs := by
  obtain ⟨ops, rfl, rfl⟩ := h
  refine ⟨ops.map .op, ?_, ?_⟩
  · unfold GK.run GK.runMerge; rw [List.foldl_map]; rfl
  · induction ops with
    | nil => rfl
    | cons o ops ih =>
      have e1 : collectedValues (MergeOp.op o :: ops.map .op) = addedValues [o] ++ collectedValues (ops.map .op) := by
        simp [collectedValues]
      have e2 : addedValues (o :: ops) = addedValues [o] ++ addedValues ops := by
        rw [← addedValues_append]; rfl
      rw [List.map_cons, e1, e2, ih]

theorem FilledM.op {eps : ℚ} {k : GK α} {vs : List α} (h : FilledM eps k vs) (o : GKOp α) : FilledM eps (k.step o) (vs ++ addedValues [o]) := by
  obtain ⟨ops, rfl, rfl⟩ := h
  refine ⟨ops ++ [.op o], by rw [runMerge_snoc]; rfl, ?_⟩
  rw [collectedValues_append]; simp [collectedValues]

theorem FilledM.addAll {eps : ℚ} {k : GK α} {vs : List α} (h : FilledM eps k vs) (ws : List α) : FilledM eps (k.addAll ws) (vs ++ ws) := by
  induction ws generalizing k vs with
  | nil => rw [List.append_nil]; exact h
  | cons w ws ih =>
    have := ih (h.op (.add w))
    rw [show vs ++ w :: ws = vs ++ addedValues [GKOp.add w] ++ ws by simp [addedValues]]
    exact this

theorem FilledM.flush {eps : ℚ} {k : GK α} {vs : List α} (h : FilledM eps k vs) : FilledM eps k.flush vs := by
  have := h.op .len
  rw [show addedValues [GKOp.len (α := α)] = [] from rfl, List.append_nil] at this
  exact this

theorem FilledM.compress {eps : ℚ} {k : GK α} {vs : List α} (h : FilledM eps k vs) : FilledM eps (k.mergeCompress []) vs := by
  have := h.op .compress
  rw [show addedValues [GKOp.compress (α := α)] = [] from rfl, List.append_nil] at this
  exact this

theorem FilledM.eps {eps : ℚ} (heps : 0 < eps) {k : GK α} {vs : List α} (h : FilledM eps k vs) : k.eps = eps ∧ k.count = vs.length := by
  obtain ⟨ops, rfl, rfl⟩ := h
  obtain ⟨he, E, -, -, hC⟩ := collects_run eps heps ops
  exact ⟨he, hC.count⟩

theorem FilledM.merge {eps : ℚ} (heps : 0 < eps) {a b : GK α} {va vb : List α} (ha : FilledM eps a va) (hb : Filled eps b vb) :
    ∃ r, a.merge b = .ok r ∧ FilledM eps r.1 (va ++ vb) := by
  have hea := (ha.eps heps).1
  have heb := (hb.eps heps).1
  obtain ⟨r, hr, -⟩ := merge_count (a := a) (b := b) (by rw [hea, heb])
  refine ⟨r, hr, ?_⟩
  obtain ⟨oa, rfl, rfl⟩ := ha
  obtain ⟨ob, hob, rfl⟩ := hb
  refine ⟨oa ++ [.merge ob], ?_, ?_⟩
  · rw [runMerge_snoc]
    simp only [GK.mergeStep, hea]
    rw [← hob, hr]
  · rw [collectedValues_append]; simp [collectedValues]

theorem FilledM.weighted {eps : ℚ} (heps : 0 < eps) {k : GK α} {vs : List α} (h : FilledM eps k vs) : Weighted k := by
  obtain ⟨ops, rfl, rfl⟩ := h
  obtain ⟨he, E, -, -, hC⟩ := collects_run eps heps ops
  obtain ⟨hF, -⟩ := hC.flush
  obtain ⟨T0, -, hs⟩ := hF.parts
  exact hs.pos

theorem FilledM.counts_sum {eps : ℚ} (heps : 0 < eps) {k : GK α} {vs : List α} (h : FilledM eps k vs) (splits : List α) :
    vs.length ≤ (k.counts splits).sum ∧ (((k.counts splits).sum : ℕ) : ℚ) ≤ vs.length + 2 * eps * ((vs.length - 1 : ℕ) : ℚ) := by
  have h1 := OptBinning.counts_sum (h.weighted heps) splits
  obtain ⟨ops, rfl, rfl⟩ := h
  have h2 := C26_bins_total_merged eps heps ops splits
  rw [bins_sum, ← h1] at h2
  generalize ((GK.runMerge eps ops).counts splits).sum = N at h2
  exact ⟨by exact_mod_cast h2.1, by exact_mod_cast h2.2⟩

/-! ## histories with merges -/

/-- Does a list of calls add data? -/
def addsData (ops : List (StreamOp α)) : Bool := ops.any fun | .add _ => true | .solve _ => false

/-- The records an object has received from its own calls of `add` and from the objects merged into it; `started` tells whether it already has data.  A
merge in which one of the two objects has no data raises and has no effect. -/
def collectedRecs : Bool → List (StreamMOp α) → List (Rec α)
  | _, [] => []
  | _, .op (.add recs) :: ops => recs ++ collectedRecs true ops
  | st, .op (.solve _) :: ops => collectedRecs st ops
  | st, .merge o :: ops => (if st && addsData o then streamed o else []) ++ collectedRecs st ops

/-- The object holds the used values of `recs`. -/
structure Stream.HoldingM (cfg : StreamCfg α) (s : Stream α) (recs : List (Rec α)) : Prop where
  e : FilledM cfg.eps s.e (usedValues cfg.sc true recs)
  ne : FilledM cfg.eps s.ne (usedValues cfg.sc false recs)

theorem mergeSketches_state {cfg : StreamCfg α} {s : Stream α} (hee : s.e.eps = cfg.eps) (hne : s.ne.eps = cfg.eps) :
    ∃ all ne', s.mergeSketches cfg = .ok (all, { s with ne := ne' }) ∧ (ne' = s.ne ∨ ne' = s.ne.mergeCompress []) := by
  obtain ⟨r1, hr1, h1e, -, -, -⟩ := merge_count (a := ({ eps := cfg.eps } : GK α)) (b := s.e) hee.symm
  have h1e' : r1.1.eps = s.ne.eps := by rw [h1e, hne]
  obtain ⟨r2, hr2, -, -, -, -⟩ := merge_count h1e'
  have hr12 : r1.2 = s.e := by
    unfold GK.merge at hr1
    rw [if_neg (by simp [hee])] at hr1
    by_cases h0 : s.e.count = 0
    · rw [if_pos h0, Except.ok.injEq] at hr1; rw [← hr1]
    · rw [if_neg h0, if_pos (by rfl), Except.ok.injEq] at hr1; rw [← hr1]
  refine ⟨r2.1, r2.2, ?_, ?_⟩
  · unfold Stream.mergeSketches
    simp only [hr1, bind, Except.bind, hr2, pure, Except.pure, hr12]
  · unfold GK.merge at hr2
    rw [if_neg (by simp [h1e'])] at hr2
    by_cases h0 : s.ne.count = 0
    · rw [if_pos h0, Except.ok.injEq] at hr2; left; rw [← hr2]
    · rw [if_neg h0] at hr2
      by_cases h1 : r1.1.count = 0
      · rw [if_pos h1, Except.ok.injEq] at hr2; left; rw [← hr2]
      · rw [if_neg h1, Except.ok.injEq] at hr2; right; rw [← hr2]

theorem Stream.HoldingM.solve {cfg : StreamCfg α} (heps : 0 < cfg.eps) {s : Stream α} {recs : List (Rec α)} (h : s.HoldingM cfg recs)
    (solver : Solver) : (s.solve cfg solver).2.HoldingM cfg recs ∧ (s.solve cfg solver).2.nAdd = s.nAdd := by
  unfold Stream.solve
  by_cases h0 : s.nAdd = 0
  · rw [if_pos h0]; exact ⟨h, rfl⟩
  rw [if_neg h0]
  obtain ⟨all, ne', hm, hne'⟩ := mergeSketches_state (cfg := cfg) (h.e.eps heps).1 (h.ne.eps heps).1
  have hF : FilledM cfg.eps ne' (usedValues cfg.sc false recs) := by
    rcases hne' with rfl | rfl
    · exact h.ne
    · exact h.ne.compress
  simp only [hm]
  cases all.quantiles (percentiles cfg.maxPrebins) with
  | error m => exact ⟨⟨h.e, hF⟩, rfl⟩
  | ok splits =>
    simp only
    cases streamPrebins cfg.keepPure s.e ne' splits with
    | error m => exact ⟨⟨h.e.flush, hF.flush⟩, rfl⟩
    | ok pb => exact ⟨⟨h.e.flush, hF.flush⟩, rfl⟩

theorem Stream.HoldingM.add {cfg : StreamCfg α} {s : Stream α} {recs : List (Rec α)} (h : s.HoldingM cfg recs) (new : List (Rec α)) :
    (s.add cfg new).HoldingM cfg (recs ++ new) := by
  refine ⟨?_, ?_⟩
  · rw [usedValues_append]; simp only [Stream.add, cleanValues_eq]; exact h.e.addAll _
  · rw [usedValues_append]; simp only [Stream.add, cleanValues_eq]; exact h.ne.addAll _

omit [LinearOrder α] in
theorem addsData_iff (ops : List (StreamOp α)) : addsData ops = false ↔ ∀ recs, StreamOp.add recs ∉ ops := by
  unfold addsData
  rw [List.any_eq_false]
  constructor
  · intro h recs hr; simpa using h _ hr
  · intro h o ho
    cases o with
    | add recs => exact absurd ho (h recs)
    | solve => simp

theorem Stream.HoldingM.merge {cfg : StreamCfg α} (heps : 0 < cfg.eps) {a : Stream α} {ra : List (Rec α)} (ha : a.HoldingM cfg ra)
    (ops : List (StreamOp α)) (h0 : a.nAdd ≠ 0) (hb : addsData ops = true) :
    ∃ r, a.merge (Stream.run cfg ops) = .ok r ∧ r.HoldingM cfg (ra ++ streamed ops) ∧ r.nAdd = a.nAdd := by
  obtain ⟨hH, hn⟩ := holding_run cfg heps ops
  have hb0 : (Stream.run cfg ops).nAdd ≠ 0 := by
    intro hc
    have := (addsData_iff ops).2 (hn.1 hc)
    rw [hb] at this; simp at this
  generalize Stream.run cfg ops = b at *
  have c1 := (hH.e.eps heps).2
  have c2 := (hH.ne.eps heps).2
  have c3 := (ha.e.eps heps).2
  have c4 := (ha.ne.eps heps).2
  unfold Stream.merge
  rw [if_neg (by tauto)]
  by_cases h1 : b.e.count = 0 ∧ b.ne.count = 0
  · rw [if_pos h1]
    rw [c1, c2, List.length_eq_zero_iff, List.length_eq_zero_iff] at h1
    refine ⟨a, rfl, ⟨?_, ?_⟩, rfl⟩
    · rw [usedValues_append, h1.1, List.append_nil]; exact ha.e
    · rw [usedValues_append, h1.2, List.append_nil]; exact ha.ne
  · rw [if_neg h1]
    by_cases h2 : a.e.count = 0 ∧ a.ne.count = 0
    · rw [if_pos h2]
      rw [c3, c4, List.length_eq_zero_iff, List.length_eq_zero_iff] at h2
      refine ⟨_, rfl, ⟨?_, ?_⟩, rfl⟩
      · rw [usedValues_append, h2.1, List.nil_append]; exact hH.e.toM
      · rw [usedValues_append, h2.2, List.nil_append]; exact hH.ne.toM
    · rw [if_neg h2]
      obtain ⟨re, e1, e2⟩ := ha.e.merge heps hH.e
      obtain ⟨rn, n1, n2⟩ := ha.ne.merge heps hH.ne
      rw [e1, n1]
      refine ⟨_, rfl, ⟨?_, ?_⟩, rfl⟩
      · rw [usedValues_append]; exact e2
      · rw [usedValues_append]; exact n2

theorem holdingM_fold (cfg : StreamCfg α) (heps : 0 < cfg.eps) (ops : List (StreamMOp α)) (s : Stream α) (recs : List (Rec α))
    (h : s.HoldingM cfg recs) :
    (ops.foldl (Stream.mergeStep cfg) s).HoldingM cfg (recs ++ collectedRecs (decide (s.nAdd ≠ 0)) ops) := by
  induction ops generalizing s recs with
  | nil => simpa [collectedRecs] using h
  | cons o ops ih =>
    rw [List.foldl_cons]
    rcases o with (add | solver) | mops
    · have := ih _ _ (h.add add)
      simp only [Stream.mergeStep, Stream.step, collectedRecs]
      rw [← List.append_assoc]
      simpa [Stream.add] using this
    · obtain ⟨h1, h2⟩ := h.solve heps solver
      have := ih _ _ h1
      rw [h2] at this
      simpa only [Stream.mergeStep, Stream.step, collectedRecs] using this
    · simp only [Stream.mergeStep, collectedRecs]
      by_cases hs : s.nAdd ≠ 0 ∧ addsData mops = true
      · obtain ⟨r, e1, e2, e3⟩ := h.merge heps mops hs.1 hs.2
        rw [e1]
        simp only
        have := ih _ _ e2
        rw [e3] at this
        rw [if_pos (by simpa using hs), ← List.append_assoc]
        exact this
      · have he : s.merge (Stream.run cfg mops) = .error "AttributeError" := by
          unfold Stream.merge
          rw [if_pos]
          rcases not_and_or.1 hs with hs | hs
          · left; simpa using hs
          · right
            exact (holding_run cfg heps mops).2.2 ((addsData_iff mops).1 (by simpa using hs))
        rw [he]
        simp only
        rw [if_neg (by simpa using hs), List.nil_append]
        exact ih _ _ h

section
variable {cfg : StreamCfg α} {c : SolverCfg} {solver : Solver} {ops : List (StreamMOp α)} {f : StreamFit α}

/-- C72: an object that also collects others: with more than one pre-bin the regular rows of a class add up to at least the number of its used
records, and exceed it by at most `2 * eps * (n - 1)`. -/
theorem C72_merged_total_partial (heps : 0 < cfg.eps) (hr : Respects c solver)
    (hf : ((Stream.runMerge cfg ops).solve cfg solver).1 = .ok f) (h2 : 1 < f.nPrebins) (ev : Bool) (n : ℕ)
    (hn : n = (usedValues cfg.sc ev (collectedRecs false ops)).length) :
    n ≤ (f.table.regular ev).sum ∧ (((f.table.regular ev).sum : ℕ) : ℚ) ≤ n + 2 * cfg.eps * ((n - 1 : ℕ) : ℚ) := by
  subst hn
  have h : (Stream.runMerge cfg ops).HoldingM cfg (collectedRecs false ops) := by
    have := holdingM_fold cfg heps ops (.new cfg) [] ⟨FilledM.new _, FilledM.new _⟩
    rwa [List.nil_append, show decide ((Stream.new cfg).nAdd ≠ 0) = false from rfl] at this
  generalize Stream.runMerge cfg ops = s at *
  generalize collectedRecs false ops = recs at *
  unfold Stream.solve at hf
  by_cases h0 : s.nAdd = 0
  · rw [if_pos h0] at hf; simp at hf
  rw [if_neg h0] at hf
  obtain ⟨all, ne', hm, hne'⟩ := mergeSketches_state (cfg := cfg) (h.e.eps heps).1 (h.ne.eps heps).1
  have hF : FilledM cfg.eps ne' (usedValues cfg.sc false recs) := by
    rcases hne' with rfl | rfl
    · exact h.ne
    · exact h.ne.compress
  rw [hm] at hf
  simp only at hf
  cases hq : all.quantiles (percentiles cfg.maxPrebins) with
  | error e => rw [hq] at hf; simp at hf
  | ok cand =>
    rw [hq] at hf
    simp only at hf
    cases hp : streamPrebins cfg.keepPure s.e ne' cand with
    | error e => rw [hp] at hf; simp at hf
    | ok pb =>
      rw [hp] at hf
      simp only [Except.ok.injEq] at hf
      obtain ⟨p1, p2, p3, p4, p5, p6⟩ := streamPrebins_spec hp
      have hl1 : pb.nonevent.length = pb.splits.length + 1 := by rw [p2, length_counts]
      have hl2 : pb.event.length = pb.splits.length + 1 := by rw [p3, length_counts]
      have hpos : 0 < pb.splits.length := by rw [← hf] at h2; simpa using h2
      have hn2 : ¬ pb.nonevent.length ≤ 1 := by omega
      have hlast := hr.last pb.nonevent pb.event (by omega)
      have hsl := solve_length pb.nonevent.length (solver pb.nonevent pb.event)
      generalize hsol : (solve pb.nonevent.length (solver pb.nonevent pb.event)) = R at hlast hsl
      have hopt : fitOptimizer false solver pb.splits pb.nonevent pb.event = ⟨R.1, select pb.splits R.2.dropLast, R.2⟩ := by
        simp [fitOptimizer, hn2, hsol]
      rw [hopt] at hf
      have hRl : R.2.length ≠ 0 := by omega
      have hcount : R.2.count true = (select pb.splits R.2.dropLast).length + 1 := by
        rw [length_select _ _ (by simp [hsl, hl1])]
        obtain ⟨l, hl⟩ := List.getLast?_eq_some_iff.1 hlast
        rw [hl]; simp
      have hsum : ∀ cs : List ℕ, cs.length = pb.splits.length + 1 →
          (accumBins R.2 cs 0).length = (select pb.splits R.2.dropLast).length + 1 ∧ (accumBins R.2 cs 0).sum = cs.sum := by
        intro cs hcs
        refine ⟨by rw [accumBins_length _ _ _ (by omega), hcount], ?_⟩
        rw [accumBins_sum _ _ _ (by omega) (Or.inr hlast), Nat.zero_add]
      have hreg : (f.table.regular ev).sum = (if ev then s.e.counts pb.splits else ne'.counts pb.splits).sum := by
        rw [← hf]
        cases ev
        · simp only [Fitted.regular, Fitted.column, streamColumn, binInfo, hRl, if_false, Bool.false_eq_true,
            show pb.splits.length ≠ 0 by omega, Option.toList, List.append_nil, List.append_assoc]
          rw [List.take_left' (hsum _ hl1).1, (hsum _ hl1).2, p2]
        · simp only [Fitted.regular, Fitted.column, streamColumn, binInfo, hRl, if_false, if_true,
            show pb.splits.length ≠ 0 by omega, Option.toList, List.append_nil, List.append_assoc]
          rw [List.take_left' (hsum _ hl2).1, (hsum _ hl2).2, p3]
      rw [hreg]
      cases ev
      · exact hF.counts_sum heps _
      · exact h.e.counts_sum heps _

/-- C72 finding: merging raises if one of the two objects has not received data yet (its sketch does not exist). -/
theorem C72_merge_without_data (a b : Stream α) (h : a.nAdd = 0 ∨ b.nAdd = 0) : a.merge b = .error "AttributeError" := by
  unfold Stream.merge; rw [if_pos h]

end

/-- Non-vacuity of `C72_merged_total_partial`: an object with three records collects one with eight. -/
example : ∃ f, ((Stream.runMerge exStreamCfg ([.op (.add [⟨some 4, some true, 1⟩, ⟨some 3, some false, 1⟩, ⟨some 2, some true, 1⟩]),
      .merge [.add (exStream ++ exStream)]] : List (StreamMOp ℕ))).solve exStreamCfg (exSolver fun _ _ => 0)).1 = .ok f ∧ 1 < f.nPrebins := by
  have hn : ((Stream.runMerge exStreamCfg ([.op (.add [⟨some 4, some true, 1⟩, ⟨some 3, some false, 1⟩, ⟨some 2, some true, 1⟩]),
      .merge [.add (exStream ++ exStream)]] : List (StreamMOp ℕ))).solve exStreamCfg (exSolver fun _ _ => 0)).1.map StreamFit.nPrebins = .ok 2 := by
    rw [(solve_indep _ _ exGiveUp).1]; decide +kernel
  cases hf : ((Stream.runMerge exStreamCfg ([.op (.add [⟨some 4, some true, 1⟩, ⟨some 3, some false, 1⟩, ⟨some 2, some true, 1⟩]),
      .merge [.add (exStream ++ exStream)]] : List (StreamMOp ℕ))).solve exStreamCfg (exSolver fun _ _ => 0)).1 with
  | error m => rw [hf] at hn; simp [Except.map] at hn
  | ok f =>
    rw [hf] at hn
    simp only [Except.map, Except.ok.injEq] at hn
    exact ⟨f, rfl, by omega⟩

end OptBinning
