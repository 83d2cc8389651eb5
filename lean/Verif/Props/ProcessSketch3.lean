import Verif.Props.ProcessSketch2
import Verif.Props.StreamHistory

/-! # C76–C79: examples and findings on concrete processes -/
namespace OptBinning
open Spec

/-- Numerical variables of natural numbers; the statistics and the transformation return zeros. -/
def exSkClass : VarClass (StreamVar ℕ) (Option ℕ) (Option Bool) ℚ ℚ :=
  streamClass (fun _ => exStreamCfg) (fun _ => exGiveUp) (fun _ => .ok fun _ => 0) (fun _ _ x => .ok (x.map fun _ => .num 0))

def exSkCfg : SkProcCfg ℚ ℚ := { names := ["a", "b"] }

/-- Two columns of the variables in another order, and a column that is not a variable. -/
def exSkChunk : Chunk (Option ℕ) (Option Bool) :=
  { cols := [("b", [some 6, some 5, some 6, some 1, some 2]), ("z", [none, none, none, none, none]), ("a", [some 1, some 1, some 1, some 3, none])],
    y := [some true, some true, some false, some false, some false], rows := 5 }

/-- A chunk with one variable only. -/
def exSkChunkA : Chunk (Option ℕ) (Option Bool) := { cols := [("a", [some 7, some 8])], y := [some true, some false], rows := 2 }

/-- The history of the example: two chunks, `solve`, a merge, `solve`. -/
def exSkHist : List (SkHist ℕ) := [.call (.add exSkChunk), .call (.add exSkChunkA), .call .solve, .merge [.add exSkChunk, .solve], .call .solve]

theorem exSk_clean : CleanHistory exSkClass exSkCfg exSkHist := by
  refine ⟨?_, ?_, ?_⟩
  · refine ⟨?_, ?_, ?_, ?_, ?_, trivial⟩ <;> decide +kernel
  · intro c hc
    simp only [exSkHist, List.map_cons, List.map_nil, SkHist.toOp, SkCall.toOp, List.mem_cons, SkProcOp.add.injEq, reduceCtorEq, List.not_mem_nil,
      or_false, false_or] at hc
    rcases hc with rfl | rfl <;> decide
  · intro os hos
    simp only [exSkHist, List.mem_cons, SkHist.merge.injEq, reduceCtorEq, List.not_mem_nil, or_false, false_or] at hos
    subst hos
    refine ⟨⟨by decide +kernel, by decide +kernel, trivial⟩, ?_⟩
    intro c hc
    simp only [List.map_cons, List.map_nil, SkCall.toOp, List.mem_cons, SkProcOp.add.injEq, reduceCtorEq, List.not_mem_nil, or_false] at hc
    subst hc; decide

/-- Non-vacuity of C76 and C77: both variables of the example have a table, and the counters see the rows of the two chunks only. -/
example : (∀ n ∈ exSkCfg.names, ∃ o f, (SkProc.run exSkClass exSkCfg (exSkHist.map (SkHist.toOp exSkClass exSkCfg))).objs.get n = some o ∧ o.fit = some f ∧
      ((Stream.runMerge exStreamCfg (histCalls exGiveUp n exSkHist.dropLast)).solve exStreamCfg exGiveUp).1 = .ok f) ∧
    (SkProc.run exSkClass exSkCfg (exSkHist.map (SkHist.toOp exSkClass exSkCfg))).samples = 7 ∧
    (SkProc.run exSkClass exSkCfg (exSkHist.map (SkHist.toOp exSkClass exSkCfg))).solved = true ∧
    (SkProc.run exSkClass exSkCfg (exSkHist.map (SkHist.toOp exSkClass exSkCfg))).support = [true, true] := by
  refine ⟨fun n hn => ?_, ?_, ?_, ?_⟩
  · exact C76_stream_table (h := exSkHist.dropLast) (by decide) hn exSk_clean
  · rw [(C76_counters exSk_clean.quiet).1]; decide
  · decide +kernel
  · decide +kernel

/-- Non-vacuity of `C79_transform`. -/
example : (SkProc.run exSkClass exSkCfg (exSkHist.map (SkHist.toOp exSkClass exSkCfg))).transform exSkClass exSkCfg
      [("b", [some 1]), ("a", [none])] "woe" 0 0 = .ok (["a", "b"], [[.num 0], [.num 0]]) := by
  refine (C79_transform _ (by decide) _ _ _ _ _ _).2 ⟨by decide +kernel, Or.inr rfl, rfl, rfl, fun j hj => ?_⟩
  have hb : ∀ n ∈ exSkCfg.names, ∃ o, (SkProc.run exSkClass exSkCfg (exSkHist.map (SkHist.toOp exSkClass exSkCfg))).objs.get n = some o ∧ ∃ f, o.fit = some f := by
    intro n hn
    obtain ⟨o, f, h1, h2, -⟩ := C76_stream_table (h := exSkHist.dropLast) (by decide) hn exSk_clean
    exact ⟨o, h1, f, h2⟩
  obtain ⟨o, h1, f, h2⟩ := hb _ (List.getElem_mem hj)
  obtain rfl | rfl : j = 0 ∨ j = 1 := by have hj' : j < 2 := hj; omega
  · exact ⟨o, [none], h1, rfl, by simp [exSkClass, streamClass, h2], by simp⟩
  · exact ⟨o, [some 1], h1, rfl, by simp [exSkClass, streamClass, h2], by simp⟩

/-- Number of records of the variable that are held in the sketches. -/
def heldBy (p : SkProc (StreamVar ℕ) ℚ) (n : String) : Option ℕ := (p.objs.get n).map fun o => o.s.e.count + o.s.ne.count

/-- C78 finding: merging a process in which the second variable was never seen raises, but only after the first variable has been merged; a caller who catches the
exception and tries again counts the records of the first variable twice, although no call ever succeeded. -/
theorem C78_merge_retry : ∃ p q : SkProc (StreamVar ℕ) ℚ, p = SkProc.run exSkClass exSkCfg [.add exSkChunk] ∧ q = SkProc.run exSkClass exSkCfg [.add exSkChunkA] ∧
    (p.merge exSkClass exSkCfg q).2 = some "AttributeError" ∧ ((p.merge exSkClass exSkCfg q).1.merge exSkClass exSkCfg q).2 = some "AttributeError" ∧
    heldBy p "a" = some 4 ∧ heldBy (p.merge exSkClass exSkCfg q).1 "a" = some 6 ∧
    heldBy ((p.merge exSkClass exSkCfg q).1.merge exSkClass exSkCfg q).1 "a" = some 8 := by
  refine ⟨_, _, rfl, rfl, ?_⟩
  decide +kernel

/-- C76 finding: the first call on a process cannot be a merge. -/
theorem C76_merge_first {Ω χ υ V μ : Type*} [Field V] [LinearOrder V] (K : VarClass Ω χ υ V μ) (cfg : SkProcCfg V μ) (hne : cfg.names ≠ []) (q : SkProc Ω V) :
    (SkProc.merge K cfg {} q).2 = some "KeyError" := by
  cases hn : cfg.names with
  | nil => exact absurd hn hne
  | cons m ms => simp [SkProc.merge, hn, mergeObjs, PDict.get]

end OptBinning
