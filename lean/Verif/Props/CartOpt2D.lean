import Verif.Props.Cart2D
import Verif.Props.Optimal2D

/-!
# C94: two-dimensional binning with `strategy="cart"` — optimality
-/
namespace OptBinning

open Spec

set_option linter.unusedSectionVars false

variable {α β : Type} [DecidableEq α] [DecidableEq β] {R : Type} [CommRing R] [LinearOrder R] [IsStrictOrderedRing R]

/-- All blocks are unions of at least two leaves. -/
def OfLeaves (t : CartTree) (m n : ℕ) (T : Finset Block) : Prop := ∀ b ∈ T, UnionOfLeaves t m n b ∧ TwoLeaves t b

/-- The divergence computed from the rows of the binning table (bins only). -/
def CartJob2D.tableDivergence (j : CartJob2D α β R) : R :=
  let tE := ((j.fitCart.event.take j.fitCart.boxes.length).sum : ℕ)
  let tNE := ((j.fitCart.nonevent.take j.fitCart.boxes.length).sum : ℕ)
  ∑ i ∈ Finset.range j.fitCart.boxes.length,
    j.coef (((j.fitCart.event.getD i 0 : ℕ) : ℚ) / (tE : ℚ)) (((j.fitCart.nonevent.getD i 0 : ℕ) : ℚ) / (tNE : ℚ))

theorem cart_tableDivergence (j : CartJob2D α β R) {s : Opts2D → Prog2D R → Answer2D R} {st : String} {rf : ℕ} {sel : List Rect}
    (hf : Facts2D (j.grid s).scx (j.grid s).scy (j.grid s).opts (j.grid s).recs (j.grid s).prepared (j.grid s).fit sel)
    (e : j.fitCart = { (j.grid s).fit with status := st, refinements := rf }) :
    j.tableDivergence = j.toJob2D.divergence (sel.map Rect.block).toFinset := by
  have := tableDivergence_eq hf
  rw [CartJob2D.tableDivergence, e]
  exact this

/-- **C94.** Without `gamma`: when the solver reports OPTIMAL, no allowed binning of the grid into unions of at least two
leaves has a larger divergence than the binning returned. -/
theorem C94_optimal (j : CartJob2D α β R) (h : j.Succeeds) (hs : j.fitCart.status = "OPTIMAL") (hg : j.gamma = false)
    {T : Finset Block} (hT : j.toJob2D.Allowed T) (hl : OfLeaves j.theTree j.prepared.m j.prepared.n T) :
    j.toJob2D.divergence T ≤ j.tableDivergence := by
  obtain ⟨cands, a, sel, hc, ha, hopt, hset, s, _, hf, st, rf, e⟩ := j.found h
  obtain ⟨sp, hsp⟩ := exists_spread (fun b => b.total j.prepared.events + b.total j.prepared.nonevents)
    (tiling_nonempty (Nat.succ_pos _) (Nat.succ_pos _) hT.tiling)
  obtain ⟨a', ha', hch, _⟩ := hc.complete hT.tiling hT.number hT.trends (fun b hb => ⟨(hl b hb).1, (hl b hb).2,
    (hT.mixed _ hb).1, (hT.mixed _ hb).2, hT.size _ hb, hT.events _ hb, hT.nonevents _ hb⟩) hsp
  have key := hopt hs a' ha'
  rw [hc.objective ha', hc.objective ha, hch, ← hset] at key
  rw [cart_tableDivergence j hf e, divergence_eq, divergence_eq]
  simpa [hg] using key

/-- The weight of the spread in the objective: `total_records` is the sum of the sizes of all candidates. -/
def CartJob2D.weight (j : CartJob2D α β R) : R := j.program.2.reg

/-- **C94.** With `gamma`: when the solver reports OPTIMAL, the binning returned maximises the divergence minus the weighted
difference between the largest and the smallest bin. -/
theorem C94_optimal_gamma (j : CartJob2D α β R) (h : j.Succeeds) (hs : j.fitCart.status = "OPTIMAL") (hg : j.gamma = true)
    (hw : 0 ≤ j.weight) :
    ∃ s : ℕ, (∃ a < j.fitCart.boxes.length, ∃ b < j.fitCart.boxes.length,
        (∀ i < j.fitCart.boxes.length, j.fitCart.count b ≤ j.fitCart.count i ∧ j.fitCart.count i ≤ j.fitCart.count a) ∧
          j.fitCart.count b + s = j.fitCart.count a) ∧
      ∀ T, j.toJob2D.Allowed T → OfLeaves j.theTree j.prepared.m j.prepared.n T → ∀ t, IsSpread j.size T t →
        j.toJob2D.divergence T - j.weight * (t : R) ≤ j.tableDivergence - j.weight * (s : R) := by
  obtain ⟨cands, a, sel, hc, ha, hopt, hset, sv, _, hf, st, rf, e⟩ := j.found h
  have hl : j.fitCart.boxes.length = sel.length := by
    rw [e]; show (j.grid sv).fit.boxes.length = _; rw [hf.boxes]; simp
  obtain ⟨s, hsp⟩ := exists_spread j.size (tiling_nonempty (Nat.succ_pos _) (Nat.succ_pos _) hf.admissible.tiling)
  have hsize : ∀ (i : ℕ) (hi : i < sel.length), j.fitCart.count i = j.size sel[i].block := by
    intro i hi
    obtain ⟨e1, e2⟩ := hf.row hi
    rw [e]
    show (j.grid sv).fit.count i = _
    rw [Fitted2D.count, e1, e2, Job2D.size]
    rfl
  have mem : ∀ b ∈ (sel.map Rect.block).toFinset, ∃ (i : ℕ) (hi : i < sel.length), sel[i].block = b := by
    intro b hb
    rw [List.mem_toFinset, List.mem_map] at hb
    obtain ⟨t, ht, rfl⟩ := hb
    obtain ⟨i, hi, rfl⟩ := List.getElem_of_mem ht
    exact ⟨i, hi, rfl⟩
  have mem' : ∀ (i : ℕ) (hi : i < sel.length), sel[i].block ∈ (sel.map Rect.block).toFinset := by
    intro i hi
    rw [List.mem_toFinset]
    exact List.mem_map_of_mem (List.getElem_mem hi)
  refine ⟨s, ?_, ?_⟩
  · obtain ⟨big, hbig, small, hsmall, hall, hs⟩ := hsp
    obtain ⟨k, hk, rfl⟩ := mem _ hbig
    obtain ⟨l, hl', rfl⟩ := mem _ hsmall
    refine ⟨k, by omega, l, by omega, fun i hi => ?_, ?_⟩
    · rw [hsize i (by omega), hsize k hk, hsize l hl']
      exact hall _ (mem' i (by omega))
    · rw [hsize k hk, hsize l hl']
      exact hs
  · intro T hT hlv t ht
    obtain ⟨a', ha', hch, hd⟩ := hc.complete hT.tiling hT.number hT.trends (fun b hb => ⟨(hlv b hb).1, (hlv b hb).2,
      (hT.mixed _ hb).1, (hT.mixed _ hb).2, hT.size _ hb, hT.events _ hb, hT.nonevents _ hb⟩) ht
    have key := hopt hs a' ha'
    rw [hc.objective ha', hc.objective ha, hch, ← hset, hd] at key
    have hle : (s : R) ≤ a.pmax - a.pmin := by
      rw [hset] at hsp
      have ha2 := ha
      rw [hc.program, hg] at ha2
      exact spread_le (size := j.size) hc.records (cart_feasible hc.sub ha2) hsp
    rw [cart_tableDivergence j hf e, divergence_eq, divergence_eq]
    simp only [hg, if_true] at key
    have hm : j.weight * (s : R) ≤ j.weight * (a.pmax - a.pmin) := mul_le_mul_of_nonneg_left hle hw
    simp only [CartJob2D.weight] at hm ⊢
    linarith

theorem no_feasible {o : Opts2D} {p : Prog2D R} {ans : Answer2D R} (hv : ans.Valid o p) (hs : ans.status = "INFEASIBLE")
    {a : Assign2D R} : ¬ Feasible2D o p a := by
  cases ans with
  | optimal a' => exact absurd hs (by simp [Answer2D.status])
  | feasible a' => exact absurd hs (by simp [Answer2D.status])
  | failed s => exact hv.2.2 hs a

/-- **C94.** When the solver reports INFEASIBLE, no binning of the grid into unions of at least two leaves respects the
options. -/
theorem C94_infeasible (j : CartJob2D α β R) (ht : j.theTree.WellFormed) (hv : ∀ p, (j.solver j.opts p).Valid j.opts p)
    (hs : j.fitCart.status = "INFEASIBLE") (T : Finset Block) :
    ¬ (j.toJob2D.Allowed T ∧ OfLeaves j.theTree j.prepared.m j.prepared.n T) := by
  rintro ⟨hT, hl⟩
  obtain ⟨cands, hc⟩ := cart_binary (o := j.opts) (m := j.prepared.m) (n := j.prepared.n) (init := j.initA) ht
    j.prepared.nonevents j.prepared.events j.coef j.gamma j.reg
  obtain ⟨sp, hsp⟩ := exists_spread (fun b => b.total j.prepared.events + b.total j.prepared.nonevents)
    (tiling_nonempty (Nat.succ_pos _) (Nat.succ_pos _) hT.tiling)
  obtain ⟨a', ha', _, _⟩ := hc.complete hT.tiling hT.number hT.trends (fun b hb => ⟨(hl b hb).1, (hl b hb).2,
    (hT.mixed _ hb).1, (hT.mixed _ hb).2, hT.size _ hb, hT.events _ hb, hT.nonevents _ hb⟩) hsp
  exact no_feasible (hv j.program.2) hs ha'

/-- **C94.** The binning returned is, apart from the trend in `x`, one of those allowed. -/
theorem C94_allowed (j : CartJob2D α β R) (h : j.Succeeds) :
    ∃ sel : List Block, sel.Nodup ∧
      Admissible2D { j.opts with trendX := none } j.prepared.m j.prepared.n j.prepared.nonevents j.prepared.events sel.toFinset ∧
      OfLeaves j.theTree j.prepared.m j.prepared.n sel.toFinset ∧
      j.fitCart.boxes = sel.map (boxOf j.prepared.splitsX j.prepared.splitsY) ∧
      j.tableDivergence = j.toJob2D.divergence sel.toFinset := by
  obtain ⟨cands, a, sel, hc, ha, hopt, hset, s, _, hf, st, rf, e⟩ := j.found h
  refine ⟨sel.map Rect.block, hf.covers.nodup.map Rect.block_injective, hf.admissible, ?_, ?_, cart_tableDivergence j hf e⟩
  · intro b hb
    rw [hset] at hb
    have := (hc.sound ha).2.2.2 b hb
    exact ⟨this.1, this.2.1⟩
  · rw [e]
    show (j.grid s).fit.boxes = _
    rw [hf.boxes, List.map_map]
    rfl

/-! ### continuous target -/

/-- The mean of the targets of bin `i`. -/
noncomputable def CartJobC2D.binMean (j : CartJobC2D α β R) (i : ℕ) : ℚ :=
  if hi : i < j.fitCart.boxes.length then Spec.mean (j.binTargets i hi) else 0

/-- The value of the bins returned. -/
noncomputable def CartJobC2D.fitValue (j : CartJobC2D α β R) : R :=
  ∑ i ∈ Finset.range j.fitCart.boxes.length, j.coef |j.binMean i - j.overallMean|

theorem cart_fitValue (j : CartJobC2D α β R) {s : Opts2D → Prog2D R → Answer2D R} {st : String} {rf : ℕ} {sel : List Rect}
    (hw : j.prepared.WellFormed)
    (hf : FactsC2D (j.grid s).scx (j.grid s).scy (j.grid s).opts (j.grid s).recs (j.grid s).init (j.grid s).prepared
      (j.grid s).fit sel)
    (e : j.fitCart = { (j.grid s).fit with status := st, refinements := rf }) :
    j.fitValue = j.toJobC2D.value (sel.map Rect.block).toFinset := by
  have h1 := fitValue_eq (j := j.grid s) hw hf
  have hl : j.fitCart.boxes.length = (j.grid s).fit.boxes.length := by rw [e]
  refine Eq.trans ?_ h1
  rw [CartJobC2D.fitValue, JobC2D.fitValue, hl]
  refine Finset.sum_congr rfl fun i hi => ?_
  have hi' := Finset.mem_range.1 hi
  have hi2 : i < j.fitCart.boxes.length := by omega
  rw [CartJobC2D.binMean, dif_pos hi2, j.binTargets_eq e i hi2 hi', JobC2D.binMean, dif_pos hi']
  rfl

/-- **C94.** Without `gamma`: when the solver reports OPTIMAL, no allowed binning of the grid into unions of at least two
leaves has a larger value than the binning returned. -/
theorem C94_optimal_continuous (j : CartJobC2D α β R) (h : j.Succeeds) (hs : j.fitCart.status = "OPTIMAL")
    (hg : j.gamma = false) {T : Finset Block} (hT : j.toJobC2D.Allowed T)
    (hl : OfLeaves j.theTree j.prepared.m j.prepared.n T) : j.toJobC2D.value T ≤ j.fitValue := by
  obtain ⟨cands, a, sel, hc, ha, hopt, hset, s, _, hf, st, rf, e⟩ := j.found h
  obtain ⟨sp, hsp⟩ := exists_spread (fun b => b.total j.prepared.records)
    (tiling_nonempty (Nat.succ_pos _) (Nat.succ_pos _) hT.tiling)
  obtain ⟨a', ha', hch, _⟩ := hc.complete hT.tiling hT.number hT.trends (fun b hb => ⟨(hl b hb).1, (hl b hb).2,
    hT.nonempty _ hb, hT.size _ hb⟩) hsp
  have key := hopt hs a' ha'
  rw [hc.objective ha', hc.objective ha, hch, ← hset] at key
  rw [cart_fitValue j h.wellFormed hf e, JobC2D.value, JobC2D.value]
  simpa [hg, gridMean_eq] using key

/-- **C94.** When the solver reports INFEASIBLE, no binning of the grid into unions of at least two leaves respects the
options. -/
theorem C94_infeasible_continuous (j : CartJobC2D α β R) (ht : j.theTree.WellFormed)
    (hv : ∀ p, (j.solver j.opts p).Valid j.opts p) (hs : j.fitCart.status = "INFEASIBLE") (T : Finset Block) :
    ¬ (j.toJobC2D.Allowed T ∧ OfLeaves j.theTree j.prepared.m j.prepared.n T) := by
  rintro ⟨hT, hl⟩
  obtain ⟨cands, hc⟩ := cart_continuous (o := j.opts) (m := j.prepared.m) (n := j.prepared.n) (init := j.initA) ht
    j.prepared.records j.prepared.sums j.coef j.gamma j.reg
  obtain ⟨sp, hsp⟩ := exists_spread (fun b => b.total j.prepared.records)
    (tiling_nonempty (Nat.succ_pos _) (Nat.succ_pos _) hT.tiling)
  obtain ⟨a', ha', _, _⟩ := hc.complete hT.tiling hT.number hT.trends (fun b hb => ⟨(hl b hb).1, (hl b hb).2,
    hT.nonempty _ hb, hT.size _ hb⟩) hsp
  exact no_feasible (hv j.program.2) hs ha'

end OptBinning
