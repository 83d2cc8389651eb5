import Verif.Props.StreamMerge

/-! # C72: the special and missing rows of an object that collects other objects -/
namespace OptBinning
open Finset
open Spec (usedValues specialCount missingCount classCount IsSpecialValue)
variable {α : Type*} [LinearOrder α]

/-- Is some record used, i.e. neither missing nor special? -/
def Spec.anyUsed (sc : SpecialCodes α) (recs : List (Rec α)) : Bool := decide (usedValues sc true recs ≠ [] ∨ usedValues sc false recs ≠ [])

/-- The records an object accounts for.  A merge with an object without data raises; a merge with an object whose records are all missing or
special has no effect; a merge into such an object replaces its records. -/
def Spec.accounted (sc : SpecialCodes α) : Bool → List (Rec α) → List (StreamMOp α) → List (Rec α)
  | _, acc, [] => acc
  | _, acc, .op (.add recs) :: ops => accounted sc true (acc ++ recs) ops
  | st, acc, .op (.solve _) :: ops => accounted sc st acc ops
  | st, acc, .merge o :: ops =>
    accounted sc st (if !(st && addsData o) || !anyUsed sc (streamed o) then acc else if !anyUsed sc acc then streamed o else acc ++ streamed o) ops

/-- Every merge joins two objects with at least one used record each. -/
def Spec.MergesUsed (sc : SpecialCodes α) : List (Rec α) → List (StreamMOp α) → Prop
  | _, [] => True
  | acc, .op (.add recs) :: ops => MergesUsed sc (acc ++ recs) ops
  | acc, .op (.solve _) :: ops => MergesUsed sc acc ops
  | acc, .merge o :: ops => anyUsed sc acc = true ∧ anyUsed sc (streamed o) = true ∧ MergesUsed sc (acc ++ streamed o) ops

open Spec (anyUsed accounted MergesUsed)

/-- The object holds the used values of `recs` and counts its missing and special records. -/
structure Stream.HoldingA (cfg : StreamCfg α) (s : Stream α) (recs : List (Rec α)) : Prop extends s.HoldingM cfg recs where
  missE : s.missE = missingCount true recs
  missNe : s.missNe = missingCount false recs
  specE : s.specE = specialCount cfg.sc true recs
  specNe : s.specNe = specialCount cfg.sc false recs

theorem Stream.solve_counts (cfg : StreamCfg α) (s : Stream α) (solver : Solver) (hee : s.e.eps = cfg.eps) (hne : s.ne.eps = cfg.eps) :
    (s.solve cfg solver).2.missE = s.missE ∧ (s.solve cfg solver).2.missNe = s.missNe ∧ (s.solve cfg solver).2.specE = s.specE ∧
      (s.solve cfg solver).2.specNe = s.specNe := by
  unfold Stream.solve
  by_cases h0 : s.nAdd = 0
  · rw [if_pos h0]; exact ⟨rfl, rfl, rfl, rfl⟩
  rw [if_neg h0]
  obtain ⟨all, ne', hm, -⟩ := mergeSketches_state (cfg := cfg) hee hne
  simp only [hm]
  cases all.quantiles (percentiles cfg.maxPrebins) with
  | error m => exact ⟨rfl, rfl, rfl, rfl⟩
  | ok splits =>
    simp only
    cases streamPrebins cfg.keepPure s.e ne' splits with
    | error m => exact ⟨rfl, rfl, rfl, rfl⟩
    | ok pb => exact ⟨rfl, rfl, rfl, rfl⟩

theorem missingCount_append (ev : Bool) (a b : List (Rec α)) : missingCount ev (a ++ b) = missingCount ev a + missingCount ev b := by
  simp [missingCount]

theorem specialCount_append (sc : SpecialCodes α) (ev : Bool) (a b : List (Rec α)) :
    specialCount sc ev (a ++ b) = specialCount sc ev a + specialCount sc ev b := by
  simp [specialCount]

theorem Stream.HoldingA.add {cfg : StreamCfg α} {s : Stream α} {recs : List (Rec α)} (h : s.HoldingA cfg recs) (new : List (Rec α)) :
    (s.add cfg new).HoldingA cfg (recs ++ new) := by
  have hm : ∀ ev, (splitData cfg.sc {} new).missing.countP (fun r => r.y == some ev) = missingCount ev new := fun ev =>
    missN_eq cfg.sc ev new
  have hs : ∀ ev, (splitData cfg.sc {} new).special.countP (fun r => r.y == some ev) = specialCount cfg.sc ev new := fun ev =>
    specN_eq cfg.sc ev new
  refine ⟨h.toHoldingM.add new, ?_, ?_, ?_, ?_⟩
  · rw [missingCount_append]; simp only [Stream.add, hm, h.missE]
  · rw [missingCount_append]; simp only [Stream.add, hm, h.missNe]
  · rw [specialCount_append]; simp only [Stream.add, hs, h.specE]
  · rw [specialCount_append]; simp only [Stream.add, hs, h.specNe]

theorem anyUsed_false {sc : SpecialCodes α} {recs : List (Rec α)} :
    anyUsed sc recs = false ↔ usedValues sc true recs = [] ∧ usedValues sc false recs = [] := by
  unfold anyUsed; simp

theorem Stream.HoldingA.merge {cfg : StreamCfg α} (heps : 0 < cfg.eps) {a : Stream α} {ra : List (Rec α)} (ha : a.HoldingA cfg ra)
    (ops : List (StreamOp α)) (h0 : a.nAdd ≠ 0) (hb : addsData ops = true) :
    ∃ r, a.merge (Stream.run cfg ops) = .ok r ∧ r.HoldingA cfg (if !anyUsed cfg.sc (streamed ops) then ra else if !anyUsed cfg.sc ra
      then streamed ops else ra ++ streamed ops) ∧ r.nAdd = a.nAdd := by
  obtain ⟨hH, hn⟩ := holding_run cfg heps ops
  have hb0 : (Stream.run cfg ops).nAdd ≠ 0 := by
    intro hc
    have := (addsData_iff ops).2 (hn.1 hc)
    rw [hb] at this; simp at this
  generalize Stream.run cfg ops = b at *
  have c1 := (hH.e.eps heps).2
  have c2 := (hH.ne.eps heps).2
  have c3 := (ha.e.eps heps).2
  have c4 := (ha.ne.eps heps).2
  have i1 : (b.e.count = 0 ∧ b.ne.count = 0) ↔ anyUsed cfg.sc (streamed ops) = false := by
    rw [c1, c2, anyUsed_false, List.length_eq_zero_iff, List.length_eq_zero_iff]
  have i2 : (a.e.count = 0 ∧ a.ne.count = 0) ↔ anyUsed cfg.sc ra = false := by
    rw [c3, c4, anyUsed_false, List.length_eq_zero_iff, List.length_eq_zero_iff]
  unfold Stream.merge
  rw [if_neg (by tauto)]
  by_cases h1 : b.e.count = 0 ∧ b.ne.count = 0
  · rw [if_pos h1, if_pos (by rw [i1.1 h1]; rfl)]
    exact ⟨a, rfl, ha, rfl⟩
  · have h1' : anyUsed cfg.sc (streamed ops) = true := by
      rw [i1] at h1; simpa using h1
    rw [if_neg h1, if_neg (c := (!anyUsed cfg.sc (streamed ops)) = true) (by rw [h1']; simp)]
    by_cases h2 : a.e.count = 0 ∧ a.ne.count = 0
    · rw [if_pos h2, if_pos (c := (!anyUsed cfg.sc ra) = true) (by rw [i2.1 h2]; rfl)]
      exact ⟨_, rfl, ⟨⟨hH.e.toM, hH.ne.toM⟩, hH.missE, hH.missNe, hH.specE, hH.specNe⟩, rfl⟩
    · have h2' : anyUsed cfg.sc ra = true := by
        rw [i2] at h2; simpa using h2
      rw [if_neg h2, if_neg (c := (!anyUsed cfg.sc ra) = true) (by rw [h2']; simp)]
      obtain ⟨re, e1, e2⟩ := ha.e.merge heps hH.e
      obtain ⟨rn, n1, n2⟩ := ha.ne.merge heps hH.ne
      rw [e1, n1]
      refine ⟨_, rfl, ⟨⟨?_, ?_⟩, ?_, ?_, ?_, ?_⟩, rfl⟩
      · rw [usedValues_append]; exact e2
      · rw [usedValues_append]; exact n2
      · rw [missingCount_append, ← ha.missE, ← hH.missE]
      · rw [missingCount_append, ← ha.missNe, ← hH.missNe]
      · rw [specialCount_append, ← ha.specE, ← hH.specE]
      · rw [specialCount_append, ← ha.specNe, ← hH.specNe]

theorem holdingA_fold (cfg : StreamCfg α) (heps : 0 < cfg.eps) (ops : List (StreamMOp α)) (s : Stream α) (acc : List (Rec α))
    (h : s.HoldingA cfg acc) :
    (ops.foldl (Stream.mergeStep cfg) s).HoldingA cfg (accounted cfg.sc (decide (s.nAdd ≠ 0)) acc ops) := by
  induction ops generalizing s acc with
  | nil => simpa [accounted] using h
  | cons o ops ih =>
    rw [List.foldl_cons]
    rcases o with (add | solver) | mops
    · have := ih _ _ (h.add add)
      simp only [Stream.mergeStep, Stream.step, accounted]
      simpa [Stream.add] using this
    · obtain ⟨h1, h2⟩ := h.toHoldingM.solve heps solver
      obtain ⟨g1, g2, g3, g4⟩ := s.solve_counts cfg solver (h.e.eps heps).1 (h.ne.eps heps).1
      have := ih _ acc ⟨h1, by rw [g1, h.missE], by rw [g2, h.missNe], by rw [g3, h.specE], by rw [g4, h.specNe]⟩
      rw [h2] at this
      simpa only [Stream.mergeStep, Stream.step, accounted] using this
    · simp only [Stream.mergeStep, accounted]
      by_cases hs : s.nAdd ≠ 0 ∧ addsData mops = true
      · obtain ⟨r, e1, e2, e3⟩ := h.merge heps mops hs.1 hs.2
        rw [e1]
        simp only
        have := ih _ _ e2
        rw [e3] at this
        have hd : (decide (s.nAdd ≠ 0) && addsData mops) = true := by simpa using hs
        rw [hd]
        simpa only [Bool.not_true, Bool.false_or] using this
      · have he : s.merge (Stream.run cfg mops) = .error "AttributeError" := by
          unfold Stream.merge
          rw [if_pos]
          rcases not_and_or.1 hs with hs | hs
          · left; simpa using hs
          · right
            exact (holding_run cfg heps mops).2.2 ((addsData_iff mops).1 (by simpa using hs))
        rw [he]
        simp only
        have hd : (decide (s.nAdd ≠ 0) && addsData mops) = false := by
          rw [Bool.eq_false_iff]; simpa using hs
        rw [hd]
        simpa only [Bool.not_false, Bool.true_or, if_true] using ih _ _ h

theorem holdingA_run (cfg : StreamCfg α) (heps : 0 < cfg.eps) (ops : List (StreamMOp α)) :
    (Stream.runMerge cfg ops).HoldingA cfg (accounted cfg.sc false [] ops) := by
  have := holdingA_fold cfg heps ops (.new cfg) [] ⟨⟨FilledM.new _, FilledM.new _⟩, rfl, rfl, rfl, rfl⟩
  rwa [show decide ((Stream.new cfg).nAdd ≠ 0) = false from rfl] at this

theorem addsData_of_anyUsed {sc : SpecialCodes α} {o : List (StreamOp α)} (h : anyUsed sc (streamed o) = true) : addsData o = true := by
  by_contra hc
  rw [Bool.not_eq_true] at hc
  have : streamed o = [] := by
    have h1 := (addsData_iff o).1 hc
    unfold streamed
    rw [List.flatMap_eq_nil_iff]
    intro x hx
    cases x with
    | add recs => exact absurd hx (h1 recs)
    | solve => rfl
  rw [this] at h
  simp [anyUsed, usedValues] at h

/-- C72: if every merge joins two objects with used records, nothing is lost. -/
theorem C72_accounted_all (sc : SpecialCodes α) (st : Bool) (acc : List (Rec α)) (hst : st = false → acc = []) (ops : List (StreamMOp α))
    (h : MergesUsed sc acc ops) : accounted sc st acc ops = acc ++ collectedRecs st ops := by
  induction ops generalizing st acc with
  | nil => simp [accounted, collectedRecs]
  | cons o ops ih =>
    rcases o with (add | solver) | mops
    · simp only [accounted, collectedRecs]
      rw [ih true _ (by simp) h, List.append_assoc]
    · simp only [accounted, collectedRecs]
      exact ih st acc hst h
    · obtain ⟨h1, h2, h3⟩ := h
      have hs : st = true := by
        by_contra hc
        rw [Bool.not_eq_true] at hc
        rw [hst hc] at h1
        simp [anyUsed, usedValues] at h1
      simp only [accounted, collectedRecs]
      rw [hs, addsData_of_anyUsed h2, h1, h2]
      simp only [Bool.and_self, Bool.not_true, Bool.or_self, Bool.false_eq_true, if_false, if_true]
      rw [← hs, ih st _ (by rw [hs]; simp) h3, List.append_assoc]

section
variable {cfg : StreamCfg α} {c : SolverCfg} {solver : Solver} {ops : List (StreamMOp α)} {f : StreamFit α}

/-- C72: the last two rows of the table of an object that collects others count the special and the missing records it accounts for. -/
theorem C72_merged_special_missing (heps : 0 < cfg.eps) (hr : Respects c solver)
    (hf : ((Stream.runMerge cfg ops).solve cfg solver).1 = .ok f) (ev : Bool) :
    f.table.column ev = f.table.regular ev ++
      [specialCount cfg.sc ev (accounted cfg.sc false [] ops), missingCount ev (accounted cfg.sc false [] ops)] ∧
    (f.table.regular ev).length = f.table.splits.length + 1 := by
  have h := holdingA_run cfg heps ops
  generalize Stream.runMerge cfg ops = s at *
  generalize accounted cfg.sc false [] ops = recs at *
  unfold Stream.solve at hf
  by_cases h0 : s.nAdd = 0
  · rw [if_pos h0] at hf; simp at hf
  rw [if_neg h0] at hf
  obtain ⟨all, ne', hm, hne'⟩ := mergeSketches_state (cfg := cfg) (h.e.eps heps).1 (h.ne.eps heps).1
  rw [hm] at hf
  simp only at hf
  cases hq : all.quantiles (percentiles cfg.maxPrebins) with
  | error e => rw [hq] at hf; simp at hf
  | ok cand =>
    rw [hq] at hf
    simp only at hf
    cases hp : streamPrebins cfg.keepPure s.e ne' cand with
    | error e => rw [hp] at hf; simp at hf
    | ok pb =>
      rw [hp] at hf
      simp only [Except.ok.injEq] at hf
      obtain ⟨p1, p2, p3, p4, p5, p6⟩ := streamPrebins_spec hp
      have hl1 : pb.nonevent.length = pb.splits.length + 1 := by rw [p2, length_counts]
      have hl2 : pb.event.length = pb.splits.length + 1 := by rw [p3, length_counts]
      have hc : ∃ reg : List ℕ, reg.length = f.table.splits.length + 1 ∧ f.table.column ev =
          reg ++ [specialCount cfg.sc ev recs, missingCount ev recs] := by
        rcases Nat.eq_zero_or_pos pb.splits.length with hz | hpos
        · have hopt : fitOptimizer false solver pb.splits pb.nonevent pb.event = ⟨"OPTIMAL", pb.splits, []⟩ := by
            rw [fitOptimizer, if_pos (by omega), hz]; rfl
          rw [hopt] at hf
          rw [← hf]
          cases ev
          · refine ⟨[s.ne.count + s.missNe + s.specNe], by simp [hz], ?_⟩
            simp [Fitted.column, streamColumn, binInfo, accumBins, hz, h.specNe, h.missNe]
          · refine ⟨[s.e.count + s.missE + s.specE], by simp [hz], ?_⟩
            simp [Fitted.column, streamColumn, binInfo, accumBins, hz, h.specE, h.missE]
        · have hn2 : ¬ pb.nonevent.length ≤ 1 := by omega
          have hlast := hr.last pb.nonevent pb.event (by omega)
          have hsl := solve_length pb.nonevent.length (solver pb.nonevent pb.event)
          generalize hsol : (solve pb.nonevent.length (solver pb.nonevent pb.event)) = R at hlast hsl
          have hopt : fitOptimizer false solver pb.splits pb.nonevent pb.event = ⟨R.1, select pb.splits R.2.dropLast, R.2⟩ := by
            simp [fitOptimizer, hn2, hsol]
          rw [hopt] at hf
          have hRl : R.2.length ≠ 0 := by omega
          have hcount : R.2.count true = (select pb.splits R.2.dropLast).length + 1 := by
            rw [length_select _ _ (by simp [hsl, hl1])]
            obtain ⟨l, hl⟩ := List.getLast?_eq_some_iff.1 hlast
            rw [hl]; simp
          rw [← hf]
          cases ev
          · refine ⟨accumBins R.2 pb.nonevent 0, by rw [accumBins_length _ _ _ (by omega), hcount], ?_⟩
            simp only [Fitted.column, streamColumn, binInfo, hRl, if_false, Bool.false_eq_true,
              show pb.splits.length ≠ 0 by omega, Option.toList, List.append_nil, List.append_assoc, h.specNe, h.missNe]
            rfl
          · refine ⟨accumBins R.2 pb.event 0, by rw [accumBins_length _ _ _ (by omega), hcount], ?_⟩
            simp only [Fitted.column, streamColumn, binInfo, hRl, if_false, if_true,
              show pb.splits.length ≠ 0 by omega, Option.toList, List.append_nil, List.append_assoc, h.specE, h.missE]
            rfl
      obtain ⟨reg, r1, r2⟩ := hc
      unfold Fitted.regular
      rw [r2, List.take_left' r1]
      exact ⟨rfl, r1⟩

end

/-- C72 finding: merging an object whose records are all missing loses them; merging into such an object loses its own. -/
theorem C72_merge_loses :
    accounted (.none : SpecialCodes ℕ) false [] [.op (.add [⟨some 1, some true, 1⟩]), .merge [.add [⟨none, some true, 1⟩]]] = [⟨some 1, some true, 1⟩] ∧
    accounted (.none : SpecialCodes ℕ) false [] [.op (.add [⟨none, some true, 1⟩]), .merge [.add [⟨some 1, some true, 1⟩]]] = [⟨some 1, some true, 1⟩] := by
  decide +kernel

/-- The finding on the object itself: one missing event was given to each of the two objects, none is counted. -/
theorem C72_merge_loses_object :
    (Stream.runMerge exStreamCfg ([.op (.add [⟨some 1, some true, 1⟩]), .merge [.add [⟨none, some true, 1⟩]]] : List (StreamMOp ℕ))).missE = 0 ∧
    (Stream.runMerge exStreamCfg ([.op (.add [⟨none, some true, 1⟩]), .merge [.add [⟨some 1, some true, 1⟩]]] : List (StreamMOp ℕ))).missE = 0 := by
  decide +kernel

/-- Non-vacuity: a program whose merges all join objects with used records, with a missing record on each side. -/
example : MergesUsed (.none : SpecialCodes ℕ) [] [.op (.add [⟨some 4, some true, 1⟩, ⟨none, some false, 1⟩]), .merge [.add ([⟨none, some true, 1⟩] ++ exStream)]] :=
  ⟨by decide +kernel, by decide +kernel, trivial⟩

end OptBinning
