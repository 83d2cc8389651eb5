import Verif.Props.ProcessSketch
import Verif.Props.StreamMerge2
import Verif.Model.ProcessStream
import Verif.Lemmas.ProcessTransform

/-! # C76, C79: transformation, and processes of numerical variables -/
set_option linter.unusedSectionVars false
namespace OptBinning
open Spec

section transform
variable {Ω χ υ V μ : Type*} [Field V] [LinearOrder V] [FloorRing V] {K : VarClass Ω χ υ V μ} {cfg : SkProcCfg V μ}

theorem procCol_none (c : List (OutCell V)) :
    procCol none c = .ok c ∧ (∀ x ∈ c, ∃ v, x = .num v) ∨
    procCol none c = .error "ValueError: could not convert string to float" ∧ ∃ s, OutCell.str s ∈ c := by
  unfold procCol
  induction c with
  | nil => left; exact ⟨rfl, by simp⟩
  | cons x c ih =>
    cases x with
    | str s => right; exact ⟨by rw [List.mapM_cons]; simp [procCell, bind, Except.bind], s, by simp⟩
    | num v =>
      rcases ih with ⟨h1, h2⟩ | ⟨h1, s, h2⟩
      · left
        refine ⟨by rw [List.mapM_cons, h1]; simp [procCell, bind, Except.bind, pure, Except.pure], fun x hx => ?_⟩
        rcases List.mem_cons.1 hx with rfl | hx
        · exact ⟨v, rfl⟩
        · exact h2 x hx
      · right
        exact ⟨by rw [List.mapM_cons, h1]; simp [procCell, bind, Except.bind], s, by simp [h2]⟩

/-- The arguments the object of the variable at position `j` should see: its own `metric` or the one of the call, and the last
`metric_special` and `metric_missing` given for a variable up to this one. -/
def Spec.sketchArgs (p : String → VParams μ) (ns : List String) (metric : String) (sp mi : μ) (j : ℕ) : TArgs μ :=
  ⟨((p (ns.getD j "")).metric).getD (some metric), lastGiven p VParams.special (ns.take (j + 1)) sp, lastGiven p VParams.missing (ns.take (j + 1)) mi⟩

theorem transformCols_ok (p : SkProc Ω V) (X : List (String × List χ)) (metric : String) (ns : List String) (sp mi : μ) (cs : List (List (OutCell V))) :
    p.transformCols K cfg X metric ns sp mi = .ok cs ↔ cs.length = ns.length ∧ ∀ j (hj : j < ns.length), ∃ o x,
      p.objs.get ns[j] = some o ∧ PDict.get X ns[j] = some x ∧
      K.transform o (sketchArgs (paramsOf cfg.tparams) ns metric sp mi j) x = .ok (cs.getD j []) ∧ ∀ c ∈ cs.getD j [], ∃ v, c = .num v := by
  induction ns generalizing sp mi cs with
  | nil =>
    simp only [SkProc.transformCols, Except.ok.injEq, List.length_nil, List.length_eq_zero_iff]
    constructor
    · rintro rfl; exact ⟨rfl, fun j hj => absurd hj (by omega)⟩
    · rintro ⟨rfl, -⟩; rfl
  | cons n ns ih =>
    have hargs : ∀ j, sketchArgs (paramsOf cfg.tparams) (n :: ns) metric sp mi (j + 1) =
        sketchArgs (paramsOf cfg.tparams) ns metric (skArgs cfg.tparams metric n sp mi).special (skArgs cfg.tparams metric n sp mi).missing j := by
      intro j
      simp [sketchArgs, List.take_succ_cons, lastGiven_cons, skArgs]
    have hargs0 : sketchArgs (paramsOf cfg.tparams) (n :: ns) metric sp mi 0 = skArgs cfg.tparams metric n sp mi := by
      simp [sketchArgs, lastGiven, skArgs]
    unfold SkProc.transformCols
    have hfail : ∀ {P : Prop}, ((cs.length = (n :: ns).length ∧ ∀ j (hj : j < (n :: ns).length), ∃ o x,
      p.objs.get (n :: ns)[j] = some o ∧ PDict.get X (n :: ns)[j] = some x ∧
      K.transform o (sketchArgs (paramsOf cfg.tparams) (n :: ns) metric sp mi j) x = .ok (cs.getD j []) ∧ ∀ c ∈ cs.getD j [], ∃ v, c = .num v) →
      (∀ o x, p.objs.get n = some o → PDict.get X n = some x → K.transform o (skArgs cfg.tparams metric n sp mi) x = .ok (cs.getD 0 []) →
        (∀ c ∈ cs.getD 0 [], ∃ v, c = .num v) → P) → P) := by
      rintro P ⟨-, h⟩ hP
      obtain ⟨o, x, h1, h2, h3, h4⟩ := h 0 (by simp)
      rw [hargs0] at h3
      exact hP o x (by simpa using h1) (by simpa using h2) h3 h4
    cases ho : p.objs.get n with
    | none =>
      simp only [reduceCtorEq, false_iff]
      exact fun h => hfail h fun o x h1 => by rw [ho] at h1; simp at h1
    | some o =>
      cases hx : PDict.get X n with
      | none =>
        simp only [reduceCtorEq, false_iff]
        exact fun h => hfail h fun o x _ h1 => by rw [hx] at h1; simp at h1
      | some x =>
        simp only
        cases ht : K.transform o (skArgs cfg.tparams metric n sp mi) x with
        | error e =>
          simp only [reduceCtorEq, false_iff]
          exact fun h => hfail h fun o' x' h1 h2 h3 => by
            rw [ho, Option.some.injEq] at h1; rw [hx, Option.some.injEq] at h2; subst h1 h2; rw [ht] at h3; simp at h3
        | ok c =>
          simp only
          rcases procCol_none c with ⟨h1, h2⟩ | ⟨h1, s, h2⟩
          · rw [h1]
            simp only
            have ih' := ih (skArgs cfg.tparams metric n sp mi).special (skArgs cfg.tparams metric n sp mi).missing
            constructor
            · intro h
              cases hr : p.transformCols K cfg X metric ns (skArgs cfg.tparams metric n sp mi).special (skArgs cfg.tparams metric n sp mi).missing with
              | error e => rw [hr] at h; simp at h
              | ok cs' =>
                rw [hr] at h
                simp only [Except.ok.injEq] at h
                subst h
                obtain ⟨g1, g2⟩ := (ih' cs').1 hr
                refine ⟨by simp [g1], fun j hj => ?_⟩
                cases j with
                | zero => exact ⟨o, x, ho, hx, by rw [hargs0]; exact ht, h2⟩
                | succ j =>
                  obtain ⟨o', x', k1, k2, k3, k4⟩ := g2 j (by simpa using hj)
                  exact ⟨o', x', by simpa using k1, by simpa using k2, by rw [hargs]; simpa using k3, by simpa using k4⟩
            · rintro ⟨g1, g2⟩
              cases cs with
              | nil => simp at g1
              | cons c' cs' =>
                have hc : c' = c := by
                  obtain ⟨o', x', k1, k2, k3, k4⟩ := g2 0 (by simp)
                  rw [List.getElem_cons_zero, ho, Option.some.injEq] at k1
                  rw [List.getElem_cons_zero, hx, Option.some.injEq] at k2
                  subst k1 k2
                  rw [hargs0, ht] at k3
                  simpa using k3.symm
                subst hc
                have := (ih' cs').2 ⟨by simpa using g1, fun j hj => by
                  obtain ⟨o', x', k1, k2, k3, k4⟩ := g2 (j + 1) (by simpa using hj)
                  rw [hargs] at k3
                  exact ⟨o', x', by simpa using k1, by simpa using k2, by simpa using k3, by simpa using k4⟩⟩
                rw [this]
          · rw [h1]
            simp only [reduceCtorEq, false_iff]
            refine fun h => hfail h fun o' x' k1 k2 k3 k4 => ?_
            rw [ho, Option.some.injEq] at k1; rw [hx, Option.some.injEq] at k2
            subst k1 k2
            rw [ht, Except.ok.injEq] at k3
            subst k3
            obtain ⟨v, hv⟩ := k4 _ h2
            simp at hv

/-- C79: after any history, `transform` returns exactly if the process is solved, the metric is `event_rate` or `woe`, all variables are columns of the
data frame and all of them are transformed to numbers; the result then has one column per variable, in the order of the variables and with
their names, and each column is the one that the object of this variable gives alone with the metric of its parameters (or of the call) and the
last `metric_special` and `metric_missing` given up to this variable. -/
theorem C79_transform (ops : List (SkProcOp Ω χ υ V)) (hne : cfg.names ≠ []) (X : List (String × List χ)) (metric : String) (sp mi : μ) (names : List String)
    (cols : List (List (OutCell V))) :
    (SkProc.run K cfg ops).transform K cfg X metric sp mi = .ok (names, cols) ↔
      (SkProc.run K cfg ops).solved = true ∧ (metric = "event_rate" ∨ metric = "woe") ∧ names = cfg.names ∧ cols.length = cfg.names.length ∧
      ∀ j (hj : j < cfg.names.length), ∃ o x, (SkProc.run K cfg ops).objs.get cfg.names[j] = some o ∧ PDict.get X cfg.names[j] = some x ∧
        K.transform o (sketchArgs (paramsOf cfg.tparams) cfg.names metric sp mi j) x = .ok (cols.getD j []) ∧ ∀ c ∈ cols.getD j [], ∃ v, c = .num v := by
  unfold SkProc.transform
  by_cases hs : (SkProc.run K cfg ops).solved = true
  swap
  · rw [if_pos (by simpa using hs)]
    simp [hs]
  obtain ⟨hsup, hsel⟩ := C77_support ops hs
  rw [if_neg (by simp [hs])]
  by_cases hm : metric = "event_rate" ∨ metric = "woe"
  swap
  · rw [if_pos (by tauto)]
    simp [hm]
  rw [if_neg (by tauto), hsel, if_neg ?_]
  swap
  · rw [hsup]
    cases hn : cfg.names with
    | nil => exact absurd hn hne
    | cons a l => simp [List.replicate_succ]
  by_cases hX : (cfg.names.all fun n => (PDict.get X n).isSome) = false
  · rw [if_pos hX]
    simp only [reduceCtorEq, false_iff]
    rintro ⟨-, -, -, -, h⟩
    rw [List.all_eq_false] at hX
    obtain ⟨n, h1, h2⟩ := hX
    obtain ⟨j, hj, rfl⟩ := List.getElem_of_mem h1
    obtain ⟨o, x, -, h3, -⟩ := h j hj
    simp [h3] at h2
  · rw [if_neg hX]
    have key := transformCols_ok (K := K) (cfg := cfg) (SkProc.run K cfg ops) X metric cfg.names sp mi cols
    cases hr : (SkProc.run K cfg ops).transformCols K cfg X metric cfg.names sp mi with
    | error e =>
      rw [hr] at key
      simp only [reduceCtorEq, false_iff] at key ⊢
      rintro ⟨-, -, -, h1, h2⟩
      exact key ⟨h1, h2⟩
    | ok cs =>
      rw [hr] at key
      simp only [Except.ok.injEq, Prod.mk.injEq] at key ⊢
      rw [key]
      simp only [hs, hm, true_and]
      constructor
      · rintro ⟨h1, h2⟩; exact ⟨h1.symm, h2⟩
      · rintro ⟨h1, h2⟩; exact ⟨h1.symm, h2⟩

/-- C79: every metric other than `event_rate` and `woe` is rejected once the process is solved. -/
theorem C79_metric_rejected (p : SkProc Ω V) (hs : p.solved = true) (X : List (String × List χ)) {metric : String} (h1 : metric ≠ "event_rate")
    (h2 : metric ≠ "woe") (sp mi : μ) : p.transform K cfg X metric sp mi = .error "ValueError: Invalid value for metric." := by
  unfold SkProc.transform
  rw [if_neg (by simp [hs]), if_pos ⟨h1, h2⟩]

/-- C79: a process that is not solved, in particular every process with `selection_criteria`, transforms nothing. -/
theorem C79_not_solved (p : SkProc Ω V) (hs : p.solved = false) (X : List (String × List χ)) (metric : String) (sp mi : μ) :
    p.transform K cfg X metric sp mi = .error "NotSolvedError" := by
  unfold SkProc.transform
  rw [if_pos hs]

/-- C79: if all or none of the variables are given a `metric_special`, and likewise for `metric_missing`, every variable sees its own. -/
theorem C79_no_leak (p : String → VParams μ) (ns : List String) (metric : String) (sp mi : μ) (j : ℕ) (hj : j < ns.length)
    (h1 : (∀ n ∈ ns, (p n).special.isSome) ∨ ∀ n ∈ ns, (p n).special = none) (h2 : (∀ n ∈ ns, (p n).missing.isSome) ∨ ∀ n ∈ ns, (p n).missing = none) :
    sketchArgs p ns metric sp mi j = ⟨((p ns[j]).metric).getD (some metric), ((p ns[j]).special).getD sp, ((p ns[j]).missing).getD mi⟩ := by
  have key : ∀ (f : VParams μ → Option μ) (d : μ), ((∀ n ∈ ns, (f (p n)).isSome) ∨ ∀ n ∈ ns, f (p n) = none) →
      lastGiven p f (ns.take (j + 1)) d = (f (p ns[j])).getD d := by
    intro f d h
    unfold lastGiven
    rw [List.take_add_one, List.getElem?_eq_getElem hj]
    simp only [Option.toList_some, List.reverse_append, List.reverse_cons, List.reverse_nil, List.nil_append, List.singleton_append, List.findSome?_cons]
    rcases h with h | h
    · obtain ⟨v, hv⟩ := Option.isSome_iff_exists.1 (h _ (List.getElem_mem hj))
      rw [hv]
    · rw [h _ (List.getElem_mem hj)]
      have : List.findSome? (fun n => f (p n)) (ns.take j).reverse = none := by
        rw [List.findSome?_eq_none_iff]
        intro n hn
        exact h n (List.mem_of_mem_take (List.mem_reverse.1 hn))
      simp [this]
  unfold sketchArgs
  rw [key _ _ h1, key _ _ h2, List.getD_eq_getElem _ _ hj]

/-- C79 finding: a `metric_special` given for one variable is also used for all variables after it that have none, although the call asked for another
value. -/
theorem C79_leak : ∃ (p : String → VParams ℕ) (ns : List String), (p "b").special = none ∧ ns = ["a", "b"] ∧
    (sketchArgs p ns "woe" 0 0 1).special = 7 := by
  refine ⟨fun n => if n = "a" then { special := some 7 } else {}, ["a", "b"], by decide, rfl, by decide⟩

end transform

/-! ## C76 for numerical variables -/

section stream
variable {α V μ : Type*} [LinearOrder α] [Field V] [LinearOrder V]

/-- A call on a process other than a merge. -/
inductive Spec.SkCall (α : Type*)
  | add (c : Chunk (Option α) (Option Bool))
  | solve

/-- A call on a process; merges are given by the history of the other process. -/
inductive Spec.SkHist (α : Type*)
  | call (o : SkCall α)
  | merge (os : List (SkCall α))

/-- The records of a column: its `i`-th value with the `i`-th target of the chunk, weight 1. -/
def Spec.pairRecords (x : List (Option α)) (y : List (Option Bool)) : List (Rec α) := List.zipWith (fun v t => ⟨v, t, 1⟩) x y

theorem recordsOf_eq (x : List (Option α)) (y : List (Option Bool)) : recordsOf x y = pairRecords x y := by
  simp [recordsOf, pairRecords, List.zip, List.map_zipWith]

/-- The calls for variable `n`: its columns with the targets of their chunks. -/
def Spec.varCalls (solver : Solver) (n : String) : List (SkCall α) → List (StreamOp α)
  | [] => []
  | .add c :: os => (match PDict.get c.cols n with | some x => [.add (pairRecords x c.y)] | none => []) ++ varCalls solver n os
  | .solve :: os => .solve solver :: varCalls solver n os

/-- The calls and merges for variable `n`. -/
def Spec.histCalls (solver : Solver) (n : String) (h : List (SkHist α)) : List (StreamMOp α) :=
  h.flatMap fun
    | .call o => (varCalls solver n [o]).map .op
    | .merge os => [.merge (varCalls solver n os)]

/-- The call on the model. -/
def Spec.SkCall.toOp : SkCall α → SkProcOp (StreamVar α) (Option α) (Option Bool) V
  | .add c => .add c
  | .solve => .solve

/-- The call on the model; the other process has gone through its own history. -/
def Spec.SkHist.toOp (K : VarClass (StreamVar α) (Option α) (Option Bool) V μ) (cfg : SkProcCfg V μ) : SkHist α → SkProcOp (StreamVar α) (Option α) (Option Bool) V
  | .call o => o.toOp
  | .merge os => .merge (SkProc.run K cfg (os.map SkCall.toOp))

variable {cfgOf : String → StreamCfg α} {solverOf : String → Solver} {metrics : StreamFit α → Except String (String → V)}
  {tr : StreamFit α → TArgs μ → List (Option α) → Except String (List (OutCell V))} {cfg : SkProcCfg V μ}

/-- The calls for variable `n` as calls on its object. -/
theorem foldl_varCalls (n : String) (os : List (SkCall α)) (o : StreamVar α)
    (hq : VarQuiet (streamClass cfgOf solverOf metrics tr) o (callsFor (V := V) n (os.map SkCall.toOp))) :
    ∃ o', (callsFor (V := V) n (os.map SkCall.toOp)).foldl (varStep (streamClass cfgOf solverOf metrics tr)) o = o' ∧
      o'.cfg = o.cfg ∧ o'.solver = o.solver ∧ o'.s = (varCalls o.solver n os).foldl (Stream.step o.cfg) o.s := by
  induction os generalizing o with
  | nil => exact ⟨o, rfl, rfl, rfl, rfl⟩
  | cons c os ih =>
    cases c with
    | add c =>
      simp only [List.map_cons, SkCall.toOp, callsFor, varCalls] at hq ⊢
      cases hx : PDict.get c.cols n with
      | none =>
        rw [hx] at hq
        simp only [List.nil_append] at hq ⊢
        exact ih o hq
      | some x =>
        rw [hx] at hq
        simp only [List.singleton_append, List.foldl_cons] at hq ⊢
        have hl : x.length = c.y.length := by
          by_contra hc
          have := hq.1
          simp only [varCall, streamClass, StreamVar.add, if_neg hc] at this
          simp at this
        have hstep : varStep (streamClass cfgOf solverOf metrics tr) o (.add x c.y) = { o with s := o.s.add o.cfg (pairRecords x c.y) } := by
          rw [← recordsOf_eq]
          simp [varStep, varCall, streamClass, StreamVar.add, hl]
        have h2 := hq.2
        rw [hstep] at h2 ⊢
        obtain ⟨o', g1, g2, g3, g4⟩ := ih _ h2
        exact ⟨o', g1, g2, g3, g4⟩
    | solve =>
      simp only [List.map_cons, SkCall.toOp, callsFor, varCalls, List.foldl_cons] at hq ⊢
      have h2 := hq.2
      obtain ⟨o', g1, g2, g3, g4⟩ := ih _ h2
      have hstep : (varStep (streamClass cfgOf solverOf metrics tr) o .solve).cfg = o.cfg ∧
          (varStep (streamClass cfgOf solverOf metrics tr) o .solve).solver = o.solver ∧
          (varStep (streamClass cfgOf solverOf metrics tr) o .solve).s = (o.s.solve o.cfg o.solver).2 := by
        simp only [varStep, varCall, streamClass, StreamVar.solve]
        rcases o.s.solve o.cfg o.solver with ⟨_ | _, _⟩ <;> exact ⟨rfl, rfl, rfl⟩
      obtain ⟨k1, k2, k3⟩ := hstep
      refine ⟨o', g1, by rw [g2, k1], by rw [g3, k2], ?_⟩
      rw [g4, k1, k2, k3]
      rfl

/-- The history of a process, and of every process merged into it, raises nothing, and the columns of all chunks have distinct names. -/
structure Spec.CleanHistory (K : VarClass (StreamVar α) (Option α) (Option Bool) V μ) (cfg : SkProcCfg V μ) (h : List (SkHist α)) : Prop where
  quiet : Quiet K cfg {} (h.map (SkHist.toOp K cfg))
  distinct : DistinctColumns (h.map (SkHist.toOp K cfg))
  merged : ∀ os, SkHist.merge os ∈ h → Quiet K cfg {} (os.map SkCall.toOp) ∧ DistinctColumns (Ω := StreamVar α) (V := V) (os.map SkCall.toOp)

theorem foldl_histCalls (hn : cfg.names.Nodup) {n : String} (hmem : n ∈ cfg.names) (h : List (SkHist α)) (o : StreamVar α) (hcfg : o.cfg = cfgOf n)
    (hsol : o.solver = solverOf n)
    (hm : ∀ os, SkHist.merge os ∈ h → Quiet (streamClass cfgOf solverOf metrics tr) cfg {} (os.map SkCall.toOp) ∧ DistinctColumns (Ω := StreamVar α) (V := V) (os.map SkCall.toOp))
    (hex : ∀ os, SkHist.merge os ∈ h → os ≠ [])
    (hq : VarQuiet (streamClass cfgOf solverOf metrics tr) o (callsFor n (h.map (SkHist.toOp (streamClass cfgOf solverOf metrics tr) cfg)))) :
    ∃ o', (callsFor n (h.map (SkHist.toOp (streamClass cfgOf solverOf metrics tr) cfg))).foldl (varStep (streamClass cfgOf solverOf metrics tr)) o = o' ∧
      o'.cfg = cfgOf n ∧ o'.solver = solverOf n ∧ o'.s = (histCalls (solverOf n) n h).foldl (Stream.mergeStep (cfgOf n)) o.s := by
  induction h generalizing o with
  | nil => exact ⟨o, rfl, hcfg, hsol, rfl⟩
  | cons c h ih =>
    rw [List.map_cons, callsFor_cons] at hq ⊢
    have hsplit : ∀ (a b : List (VarOp (StreamVar α) (Option α) (Option Bool))) (o : StreamVar α), VarQuiet (streamClass cfgOf solverOf metrics tr) o (a ++ b) →
        VarQuiet (streamClass cfgOf solverOf metrics tr) o a ∧
        VarQuiet (streamClass cfgOf solverOf metrics tr) (a.foldl (varStep (streamClass cfgOf solverOf metrics tr)) o) b := by
      intro a
      induction a with
      | nil => intro b o h; exact ⟨trivial, h⟩
      | cons x a iha => intro b o h; exact ⟨⟨h.1, (iha b _ h.2).1⟩, (iha b _ h.2).2⟩
    obtain ⟨hq1, hq2⟩ := hsplit _ _ _ hq
    have ih' := fun o (a : o.cfg = cfgOf n) (b : o.solver = solverOf n) => ih o a b (fun os ho => hm os (List.mem_cons_of_mem _ ho)) (fun os ho => hex os (List.mem_cons_of_mem _ ho))
    rw [List.foldl_append]
    cases c with
    | call c =>
      obtain ⟨o1, g1, g2, g3, g4⟩ := foldl_varCalls n [c] o hq1
      change (callsFor n [SkHist.toOp (streamClass cfgOf solverOf metrics tr) cfg (.call c)]).foldl _ o = o1 at g1
      rw [g1] at hq2 ⊢
      obtain ⟨o', k1, k2, k3, k4⟩ := ih' o1 (g2.trans hcfg) (g3.trans hsol) hq2
      refine ⟨o', k1, k2, k3, ?_⟩
      rw [k4, g4, hcfg, hsol]
      simp only [histCalls, List.flatMap_cons, List.foldl_append]
      congr 1
      rw [List.foldl_map]
      rfl
    | merge os =>
      obtain ⟨m1, m2⟩ := hm os (by simp)
      have hos := hex os (by simp)
      obtain ⟨q0, hq0, hget, hvq⟩ := C76_routing hn hmem (by simpa using hos) m1 m2
      obtain ⟨q1, j1, j2, j3, j4⟩ := foldl_varCalls n os q0 hvq
      have hq0' : q0 = { cfg := cfgOf n, solver := solverOf n, s := .new (cfgOf n) } := by
        simpa [streamClass] using hq0.symm
      rw [j1] at hget
      have hcalls : callsFor n [SkHist.toOp (streamClass cfgOf solverOf metrics tr) cfg (.merge os)] = [.merge q1] := by
        simp [callsFor, SkHist.toOp, hget]
      rw [hcalls] at hq1 hq2 ⊢
      simp only [List.foldl_cons, List.foldl_nil] at hq2 ⊢
      have hs1 : q1.s = Stream.run (cfgOf n) (varCalls (solverOf n) n os) := by rw [j4, hq0']; rfl
      have he := hq1.1
      simp only [varCall, streamClass, StreamVar.merge] at he
      cases hmg : o.s.merge q1.s with
      | error e => rw [hmg] at he; simp at he
      | ok r =>
        have hstep : varStep (streamClass cfgOf solverOf metrics tr) o (.merge q1) = { o with s := r } := by
          simp [varStep, varCall, streamClass, StreamVar.merge, hmg]
        rw [hstep] at hq2 ⊢
        obtain ⟨o', k1, k2, k3, k4⟩ := ih' { o with s := r } hcfg hsol hq2
        refine ⟨o', k1, k2, k3, ?_⟩
        rw [k4]
        simp only [histCalls, List.flatMap_cons, List.foldl_append, List.foldl_cons, List.foldl_nil, Stream.mergeStep]
        rw [← hs1, hmg]

/-- C76 for numerical variables: the data held for a variable are those of a single object that received its columns, its merges and the calls of
`solve` (so that C68–C72 describe its table). -/
theorem C76_stream_data (hn : cfg.names.Nodup) {n : String} (hmem : n ∈ cfg.names) {h : List (SkHist α)} (hne : h ≠ [])
    (hc : CleanHistory (streamClass cfgOf solverOf metrics tr) cfg h) :
    ∃ o, (SkProc.run (streamClass cfgOf solverOf metrics tr) cfg (h.map (SkHist.toOp (streamClass cfgOf solverOf metrics tr) cfg))).objs.get n = some o ∧
      o.cfg = cfgOf n ∧ o.solver = solverOf n ∧ o.s = Stream.runMerge (cfgOf n) (histCalls (solverOf n) n h) := by
  obtain ⟨o0, h1, h2, h3⟩ := C76_routing hn hmem (by simpa using hne) hc.quiet hc.distinct
  have ho : o0 = { cfg := cfgOf n, solver := solverOf n, s := .new (cfgOf n) } := by simpa [streamClass] using h1.symm
  have hex : ∀ os, SkHist.merge os ∈ h → os ≠ [] := by
    have key : ∀ (l : List (SkHist α)) (p : SkProc (StreamVar α) V), Quiet (streamClass cfgOf solverOf metrics tr) cfg p (l.map (SkHist.toOp (streamClass cfgOf solverOf metrics tr) cfg)) →
        ∀ os, SkHist.merge os ∈ l → os ≠ [] := by
      intro l
      induction l with
      | nil => simp
      | cons c l ih =>
        intro p hq os hos
        rcases List.mem_cons.1 hos with rfl | hos
        · rintro rfl
          have := hq.1
          simp only [SkHist.toOp, List.map_nil, SkProc.run, List.foldl_nil, SkProc.step, SkProc.merge] at this
          cases hnm : cfg.names with
          | nil => rw [hnm] at hmem; simp at hmem
          | cons m ms =>
            rw [hnm] at this
            simp only [mergeObjs] at this
            rcases p.objs.get m with _ | a <;> simp [PDict.get] at this
        · exact ih _ hq.2 os hos
    exact key h {} hc.quiet
  obtain ⟨o', k1, k2, k3, k4⟩ := foldl_histCalls hn hmem h o0 (by rw [ho]) (by rw [ho]) hc.merged hex h3
  refine ⟨o', by rw [h2, k1], k2, k3, ?_⟩
  rw [k4, ho]
  rfl

theorem Quiet_append (K : VarClass (StreamVar α) (Option α) (Option Bool) V μ) (p : SkProc (StreamVar α) V)
    (a b : List (SkProcOp (StreamVar α) (Option α) (Option Bool) V)) :
    Quiet K cfg p (a ++ b) ↔ Quiet K cfg p a ∧ Quiet K cfg (a.foldl (fun p o => (p.step K cfg o).1) p) b := by
  induction a generalizing p with
  | nil => simp [Quiet]
  | cons o a ih => simp only [List.cons_append, Quiet, ih, List.foldl_cons, and_assoc]

/-- C76 for numerical variables: after a successful `solve` the table of a variable is the one a single object with the same history would have. -/
theorem C76_stream_table (hn : cfg.names.Nodup) {n : String} (hmem : n ∈ cfg.names) {h : List (SkHist α)}
    (hc : CleanHistory (streamClass cfgOf solverOf metrics tr) cfg (h ++ [.call .solve])) :
    ∃ o f, (SkProc.run (streamClass cfgOf solverOf metrics tr) cfg ((h ++ [SkHist.call SkCall.solve]).map (SkHist.toOp (streamClass cfgOf solverOf metrics tr) cfg))).objs.get n = some o ∧
      o.fit = some f ∧ ((Stream.runMerge (cfgOf n) (histCalls (solverOf n) n h)).solve (cfgOf n) (solverOf n)).1 = .ok f := by
  have hq := hc.quiet
  rw [List.map_append, Quiet_append] at hq
  have hne : h ≠ [] := by
    rintro rfl
    have := hq.2.1
    simp [SkHist.toOp, SkCall.toOp, SkProc.step, SkProc.solve] at this
  have hc' : CleanHistory (streamClass cfgOf solverOf metrics tr) cfg h :=
    ⟨hq.1, fun c hcc => hc.distinct c (by rw [List.map_append]; exact List.mem_append_left _ hcc), fun os hos => hc.merged os (List.mem_append_left _ hos)⟩
  obtain ⟨o, h1, h2, h3, h4⟩ := C76_stream_data hn hmem hne hc'
  unfold SkProc.run at h1 ⊢
  rw [List.map_append, List.foldl_append]
  have h5 := hq.2.1
  generalize (h.map (SkHist.toOp (streamClass cfgOf solverOf metrics tr) cfg)).foldl (fun (p : SkProc (StreamVar α) V) o => (p.step (streamClass cfgOf solverOf metrics tr) cfg o).1) {} = p at h1 h5 ⊢
  simp only [List.map_cons, List.map_nil, List.foldl_cons, List.foldl_nil, SkHist.toOp, SkCall.toOp, SkProc.step] at h5 ⊢
  obtain ⟨g1, g2, g3⟩ := (C77_solve_ok hn p).1 h5
  obtain ⟨⟨err, r1, r2⟩, -⟩ := C78_solve_crash (K := streamClass cfgOf solverOf metrics tr) hn p g1
  have herr : err = none := by
    by_contra hce
    exact hce ((r2 hce).symm.trans h5)
  subst herr
  obtain ⟨a, a', k1, k2, k3⟩ := r1.all.1 n hmem
  rw [h1, Option.some.injEq] at k1
  subst k1
  have k2' : o.solve = (a', none) := k2
  unfold StreamVar.solve at k2'
  rw [h2, h3, h4] at k2'
  rcases hsv : (Stream.runMerge (cfgOf n) (histCalls (solverOf n) n h)).solve (cfgOf n) (solverOf n) with ⟨e | f, s'⟩
  · rw [hsv] at k2'; simp at k2'
  · rw [hsv] at k2'
    simp only [Prod.mk.injEq, and_true] at k2'
    exact ⟨a', f, k3, by rw [← k2'], rfl⟩

theorem varCalls_unseen (solver : Solver) (n : String) (os : List (SkCall α)) (h : ∀ c, SkCall.add c ∈ os → PDict.get c.cols n = none) :
    ∀ o ∈ varCalls solver n os, o = .solve solver := by
  induction os with
  | nil => simp [varCalls]
  | cons c os ih =>
    have ih' := ih fun c hc => h c (List.mem_cons_of_mem _ hc)
    cases c with
    | add c => simpa [varCalls, h c (by simp)] using ih'
    | solve => simpa [varCalls] using ih'

/-- C77: a process cannot be solved as long as one of its variables was in no chunk, whatever else was added or merged. -/
theorem C77_variable_without_data (hn : cfg.names.Nodup) {n : String} (hmem : n ∈ cfg.names) {h : List (SkHist α)}
    (hc : CleanHistory (streamClass cfgOf solverOf metrics tr) cfg h) (hun : ∀ c, SkHist.call (.add c) ∈ h → PDict.get c.cols n = none) :
    ((SkProc.run (streamClass cfgOf solverOf metrics tr) cfg (h.map (SkHist.toOp (streamClass cfgOf solverOf metrics tr) cfg))).solve
      (streamClass cfgOf solverOf metrics tr) cfg).2 ≠ none := by
  intro hok
  obtain ⟨g1, g2, g3⟩ := (C77_solve_ok hn _).1 hok
  by_cases hne : h = []
  · subst hne; exact g1 rfl
  obtain ⟨o, h1, h2, h3, h4⟩ := C76_stream_data hn hmem hne hc
  obtain ⟨o1, o', m, k1, k2, -⟩ := g3 n hmem
  rw [h1, Option.some.injEq] at k1
  subst k1
  have hz : ∀ (l : List (SkHist α)) (s : Stream α), (∀ c, SkHist.call (.add c) ∈ l → PDict.get c.cols n = none) → s.nAdd = 0 →
      ((histCalls (solverOf n) n l).foldl (Stream.mergeStep (cfgOf n)) s).nAdd = 0 := by
    intro l
    induction l with
    | nil => intro s _ hs; exact hs
    | cons c l ih =>
      intro s hl hs
      simp only [histCalls, List.flatMap_cons, List.foldl_append]
      refine ih _ (fun c hc => hl c (List.mem_cons_of_mem _ hc)) ?_
      cases c with
      | call c =>
        cases c with
        | add c => simpa [varCalls, hl c (by simp)] using hs
        | solve => simp [varCalls, Stream.mergeStep, Stream.step, Stream.solve, hs]
      | merge os => simp [Stream.mergeStep, Stream.merge, hs]
  have hs0 : o.s.nAdd = 0 := by rw [h4]; exact hz h _ hun rfl
  have k2' : o.solve = (o', none) := k2
  simp [StreamVar.solve, Stream.solve, hs0] at k2'

end stream
end OptBinning
