import Verif.Lemmas.CartFit
import Verif.Props.Pairs2D

/-!
# C93: two-dimensional binning with `strategy="cart"` — bins, transform, table, limits, trends
-/
namespace OptBinning

open Spec

set_option linter.unusedSectionVars false

variable {α β : Type} [DecidableEq α] [DecidableEq β] {R : Type} [CommRing R] [LinearOrder R] [IsStrictOrderedRing R] {γ : Type}

theorem CartJob2D.transfer (j : CartJob2D α β R) (h : j.Succeeds) :
    ∃ s, (j.grid s).Succeeds ∧ ∃ st rf, j.fitCart = { (j.grid s).fit with status := st, refinements := rf } := by
  obtain ⟨_, _, _, _, _, _, _, s, h1, _, h2⟩ := j.found h
  exact ⟨s, h1, h2⟩

theorem CartJobC2D.transfer (j : CartJobC2D α β R) (h : j.Succeeds) :
    ∃ s, (j.grid s).Succeeds ∧ ∃ st rf, j.fitCart = { (j.grid s).fit with status := st, refinements := rf } := by
  obtain ⟨_, _, _, _, _, _, _, s, h1, _, h2⟩ := j.found h
  exact ⟨s, h1, h2⟩

/-! ### binary target -/

/-- **C93.** After a successful fit every pair of known values lies in exactly one of the bins. -/
theorem C93_partition (j : CartJob2D α β R) (h : j.Succeeds) {u : α} {v : β} (hu : Known j.fitCart.axisX u)
    (hv : Known j.fitCart.axisY v) :
    ∃! i, ∃ hi : i < j.fitCart.boxes.length, InBox j.fitCart.axisX j.fitCart.axisY j.fitCart.boxes[i] u v := by
  obtain ⟨s, hs, st, rf, e⟩ := j.transfer h
  rw [e] at hu hv ⊢
  exact C43_partition (j.grid s) hs hu hv

/-- **C93.** `transform` with the metric `indices` returns `i` exactly for the pairs in bin `i`. -/
theorem C93_transform_indices (j : CartJob2D α β R) (h : j.Succeeds) {u : α} {v : β} (hu : Known j.fitCart.axisX u)
    (hv : Known j.fitCart.axisY v) (hx : ¬ IsCode j.scx (some u)) (hy : ¬ IsCode j.scy (some v)) (ms mm : Option ℤ) {i : ℕ}
    (hi : i < j.fitCart.boxes.length) :
    j.fitCart.indices j.scx j.scy ms mm (some u) (some v) = (i : ℤ) ↔
      InBox j.fitCart.axisX j.fitCart.axisY j.fitCart.boxes[i] u v := by
  obtain ⟨s, hs, st, rf, e⟩ := j.transfer h
  revert hu hv hi
  rw [e]
  intro hu hv hi
  exact C43_transform_indices (j.grid s) hs hu hv hx hy ms mm hi

/-- **C93.** `transform` with the metric `event_rate` returns the event rate of the bin of the pair. -/
theorem C93_transform_event_rate (j : CartJob2D α β R) (h : j.Succeeds) {u : α} {v : β} (hu : Known j.fitCart.axisX u)
    (hv : Known j.fitCart.axisY v) (hx : ¬ IsCode j.scx (some u)) (hy : ¬ IsCode j.scy (some v)) (ms mm : Option ℚ) {i : ℕ}
    (hi : i < j.fitCart.boxes.length) (hb : InBox j.fitCart.axisX j.fitCart.axisY j.fitCart.boxes[i] u v) :
    j.fitCart.eventRate j.scx j.scy ms mm (some u) (some v) = j.fitCart.rate i := by
  obtain ⟨s, hs, st, rf, e⟩ := j.transfer h
  revert hu hv hi
  rw [e]
  intro hu hv hi hb
  exact C43_transform_event_rate (j.grid s) hs hu hv hx hy ms mm hi hb

/-- **C93.** `transform` with the metric `woe` returns the weight of evidence of the bin of the pair. -/
theorem C93_transform_woe (j : CartJob2D α β R) (h : j.Succeeds) {u : α} {v : β} (hu : Known j.fitCart.axisX u)
    (hv : Known j.fitCart.axisY v) (hx : ¬ IsCode j.scx (some u)) (hy : ¬ IsCode j.scy (some v)) (ms mm : Option ℝ) {i : ℕ}
    (hi : i < j.fitCart.boxes.length) (hb : InBox j.fitCart.axisX j.fitCart.axisY j.fitCart.boxes[i] u v) :
    j.fitCart.woe j.scx j.scy ms mm (some u) (some v) =
      Real.log (((j.fitCart.nonevent.getD i 0 : ℕ) : ℝ) / ((j.fitCart.nonevent.sum : ℕ) : ℝ) /
        (((j.fitCart.event.getD i 0 : ℕ) : ℝ) / ((j.fitCart.event.sum : ℕ) : ℝ))) := by
  obtain ⟨s, hs, st, rf, e⟩ := j.transfer h
  revert hu hv hi
  rw [e]
  intro hu hv hi hb
  exact C43_transform_woe (j.grid s) hs hu hv hx hy ms mm hi hb

/-- The record is neither missing nor special and its pair of values lies in bin `i`. -/
def CartJob2D.InBin (j : CartJob2D α β R) (i : ℕ) (r : Rec2 α β Bool) : Prop :=
  ∃ hi : i < j.fitCart.boxes.length, RecInBox j.scx j.scy j.fitCart.axisX j.fitCart.axisY j.fitCart.boxes[i] r

theorem inBin2D_iff (j : Job2D α β R) (i : ℕ) (r : Rec2 α β Bool) :
    InBin2D j i r ↔ ∃ hi : i < j.fit.boxes.length, RecInBox j.scx j.scy j.fit.axisX j.fit.axisY j.fit.boxes[i] r := by
  unfold InBin2D RecInBox RecMissing RecSpecial
  constructor
  · rintro ⟨u, v, hi, h1, h2, h3, h4, h5, h6⟩
    exact ⟨hi, by simp [h1, h2, h3], by simp [h4, h5], u, v, h1, h2, h6⟩
  · rintro ⟨hi, h1, h2, u, v, h3, h4, h5⟩
    exact ⟨u, v, hi, h3, h4, by tauto, by tauto, by tauto, h5⟩

theorem CartJob2D.inBin_iff (j : CartJob2D α β R) {s : Opts2D → Prog2D R → Answer2D R} {st : String} {rf : ℕ}
    (e : j.fitCart = { (j.grid s).fit with status := st, refinements := rf }) (i : ℕ) (r : Rec2 α β Bool) :
    j.InBin i r ↔ InBin2D (j.grid s) i r := by
  rw [inBin2D_iff, CartJob2D.InBin]
  rw [e]
  rfl

open Classical in
/-- **C93.** Row `i` of the binning table counts exactly the clean training records in bin `i`, by target. -/
theorem C93_rows (j : CartJob2D α β R) (h : j.Succeeds) {i : ℕ} (hi : i < j.fitCart.boxes.length) :
    j.fitCart.event.getD i 0 = (j.recs.countP fun r => decide (j.InBin i r ∧ r.z = some true)) ∧
    j.fitCart.nonevent.getD i 0 = (j.recs.countP fun r => decide (j.InBin i r ∧ r.z = some false)) := by
  obtain ⟨s, hs, st, rf, e⟩ := j.transfer h
  simp only [j.inBin_iff e]
  rw [e] at hi ⊢
  exact C44_rows (j.grid s) hs hi

open Classical in
/-- **C93.** The rows "Special" and "Missing" count the special and the missing records. -/
theorem C93_special_missing_rows (j : CartJob2D α β R) (h : j.Succeeds) :
    j.fitCart.event.length = j.fitCart.boxes.length + 2 ∧ j.fitCart.nonevent.length = j.fitCart.boxes.length + 2 ∧
    j.fitCart.nonevent.getD j.fitCart.boxes.length 0 =
      (j.recs.countP fun r => decide ((IsCode j.scx r.x ∨ IsCode j.scy r.y) ∧ r.z = some false)) ∧
    j.fitCart.event.getD j.fitCart.boxes.length 0 =
      (j.recs.countP fun r => decide ((IsCode j.scx r.x ∨ IsCode j.scy r.y) ∧ r.z ≠ some false)) ∧
    j.fitCart.nonevent.getD (j.fitCart.boxes.length + 1) 0 =
      (j.recs.countP fun r => decide ((r.x = none ∨ r.y = none ∨ r.z = none) ∧ r.z = some false)) ∧
    j.fitCart.event.getD (j.fitCart.boxes.length + 1) 0 =
      (j.recs.countP fun r => decide ((r.x = none ∨ r.y = none ∨ r.z = none) ∧ r.z ≠ some false)) := by
  obtain ⟨s, hs, st, rf, e⟩ := j.transfer h
  rw [e]
  exact C44_special_missing_rows (j.grid s) hs

open Classical in
/-- **C93.** The table counts every record once, except that a record which is both missing and special counts twice. -/
theorem C93_totals (j : CartJob2D α β R) (h : j.Succeeds) :
    j.fitCart.event.sum + j.fitCart.nonevent.sum = j.recs.length +
      j.recs.countP fun r => decide ((r.x = none ∨ r.y = none ∨ r.z = none) ∧ (IsCode j.scx r.x ∨ IsCode j.scy r.y)) := by
  obtain ⟨s, hs, st, rf, e⟩ := j.transfer h
  rw [e]
  exact C44_totals (j.grid s) hs

/-- **C93.** Every bin has both target classes and respects the limits on its records, events and non-events, and the
number of bins respects its limits. -/
theorem C93_limits (j : CartJob2D α β R) (h : j.Succeeds) :
    (∀ i < j.fitCart.boxes.length,
      0 < j.fitCart.event.getD i 0 ∧ 0 < j.fitCart.nonevent.getD i 0 ∧
      (∀ q, j.minBinSize = some q → q * j.recs.length ≤ j.fitCart.count i) ∧
      (∀ q, j.maxBinSize = some q → (j.fitCart.count i : ℚ) < q * j.recs.length + 1) ∧
      Within j.o.minEvent j.o.maxEvent (j.fitCart.event.getD i 0 : ℕ) ∧
      Within j.o.minNonevent j.o.maxNonevent (j.fitCart.nonevent.getD i 0 : ℕ)) ∧
    Within j.o.minBins j.o.maxBins (j.fitCart.boxes.length : ℕ) := by
  obtain ⟨s, hs, st, rf, e⟩ := j.transfer h
  rw [e]
  exact C45_limits (j.grid s) hs

/-- **C93.** The trend in `y` holds between neighbouring bins. (That in `x` need not: `C93_trend_x_not_enforced`.) -/
theorem C93_neighbours_y (j : CartJob2D α β R) (h : j.Succeeds) {i k : ℕ} (hi : i < j.fitCart.boxes.length)
    (hk : k < j.fitCart.boxes.length) (hn : BoxNextY j.fitCart.boxes[i] j.fitCart.boxes[k]) :
    StepOK j.o.trendY j.o.minDiffY (j.fitCart.rate i) (j.fitCart.rate k) := by
  obtain ⟨s, hs, st, rf, e⟩ := j.transfer h
  revert hi hk
  rw [e]
  intro hi hk hn
  exact (C46_neighbours (j.grid s) hs hi hk).2 hn

/-- **C93.** With a trend in `y`, the event rate is monotone along every vertical line. -/
theorem C93_along_columns (j : CartJob2D α β R) (h : j.Succeeds) {u : α} {v v' : β} (hu : Known j.fitCart.axisX u)
    (hv : Known j.fitCart.axisY v) (hv' : Known j.fitCart.axisY v') {i k : ℕ}
    (hi : i < j.fitCart.boxes.length) (hk : k < j.fitCart.boxes.length)
    (hib : InBox j.fitCart.axisX j.fitCart.axisY j.fitCart.boxes[i] u v)
    (hkb : InBox j.fitCart.axisX j.fitCart.axisY j.fitCart.boxes[k] u v')
    (hle : j.fitCart.axisY.code v ≤ j.fitCart.axisY.code v') (hd : 0 ≤ j.o.minDiffY) :
    (j.o.trendY = some .ascending → j.fitCart.rate i ≤ j.fitCart.rate k) ∧
    (j.o.trendY = some .descending → j.fitCart.rate k ≤ j.fitCart.rate i) := by
  obtain ⟨s, hs, st, rf, e⟩ := j.transfer h
  revert hu hv hv' hi hk hle
  rw [e]
  intro hu hv hv' hi hk hib hkb hle
  exact (C46_along_lines (j.grid s) hs hu hu hv hv' hi hk hib hkb).2 rfl hle hd

/-- **C93.** `analysis` tests exactly the pairs of neighbouring bins, in lexicographic order. -/
theorem C93_pairs (j : CartJob2D α β R) (h : j.Succeeds) (test : ℕ → ℕ → ℕ → ℕ → γ) :
    LexSorted (testedPairs (j.fitCart.tests test)) ∧
    ∀ a b, (a, b) ∈ testedPairs (j.fitCart.tests test) ↔ ∃ (ha : a < j.fitCart.boxes.length) (hb : b < j.fitCart.boxes.length),
      BoxNextX j.fitCart.boxes[a] j.fitCart.boxes[b] ∨ BoxNextY j.fitCart.boxes[a] j.fitCart.boxes[b] := by
  obtain ⟨s, hs, st, rf, e⟩ := j.transfer h
  rw [e]
  exact C91_pairs (j.grid s) hs test

/-- The cell of a pair of values, as a row and a column of the grid of pre-bins. -/
def CartJob2D.cell (j : CartJob2D α β R) (u : α) (v : β) : ℕ × ℕ := (j.prepared.row v, j.prepared.col u)

/-- **C93.** The bins are unions of leaves of the tree: pairs of values which arrive at the same leaf are in the same bin. -/
theorem C93_same_leaf_same_bin (j : CartJob2D α β R) (h : j.Succeeds) {u u' : α} {v v' : β} (hu : Known j.fitCart.axisX u)
    (hv : Known j.fitCart.axisY v) (hu' : Known j.fitCart.axisX u') (hv' : Known j.fitCart.axisY v')
    (hl : SameLeaf j.theTree (j.cell u v).1 (j.cell u v).2 (j.cell u' v').1 (j.cell u' v').2) {i : ℕ}
    (hi : i < j.fitCart.boxes.length) (hb : InBox j.fitCart.axisX j.fitCart.axisY j.fitCart.boxes[i] u v) :
    InBox j.fitCart.axisX j.fitCart.axisY j.fitCart.boxes[i] u' v' := by
  obtain ⟨cands, a, sel, hc, ha, _, hset, s, hs, hf, st, rf, e⟩ := j.found h
  revert hu hv hu' hv' hi
  rw [e]
  intro hu hv hu' hv' hi hb
  have hl2 : (j.grid s).fit.boxes.length = sel.length := by rw [hf.boxes]; simp
  have hi' : i < sel.length := by rw [← hl2]; exact hi
  have h1 := (hf.inBox hs.wellFormed hu hv hi hi').1 hb
  refine (hf.inBox hs.wellFormed hu' hv' hi hi').2 ?_
  have hm : sel[i].block ∈ chosen cands a.x := by
    rw [← hset, List.mem_toFinset]; exact List.mem_map_of_mem (List.getElem_mem hi')
  exact ((hc.sound ha).2.2.2 _ hm).1 _ _ _ _ (j.prepared.row_lt v) (j.prepared.col_lt u) (j.prepared.row_lt v')
    (j.prepared.col_lt u') hl h1

theorem leaves_bound {m n : ℕ} {t : CartTree} (hw : t.WellFormed) {T : Finset Block} (ht : IsTiling m n T)
    (hT : ∀ b ∈ T, UnionOfLeaves t m n b ∧ TwoLeaves t b) : 2 * T.card ≤ t.leaves.length := by
  classical
  choose f hf using fun b (hb : b ∈ T) => exists_rect (ht.1 b hb)
  let P : Block → Finset ℕ := fun b => if hb : b ∈ T then cartPath (t.matrix fun _ _ => 0) (f b hb) else ∅
  have hP : ∀ b (hb : b ∈ T), P b = cartPath (t.matrix fun _ _ => 0) (f b hb) := fun b hb => by simp [P, hb]
  have hmem : ∀ b (hb : b ∈ T) l, l ∈ P b ↔ ∃ r c, b.Mem r c ∧ t.matrix (fun _ _ => 0) r c = l := by
    intro b hb l
    rw [hP b hb, mem_cartPath, (hf b hb).2]
  have hin : ∀ b ∈ T, ∀ r c, b.Mem r c → r < m ∧ c < n := by
    intro b hb r c h
    have := ht.1 b hb
    simp only [Block.Inside, Block.Mem] at this h
    omega
  have hcard : ∀ b ∈ T, 2 ≤ (P b).card := by
    intro b hb
    have := (twoLeaves_iff hw (fun _ _ => 0) (s := f b hb)).2 (by rw [(hf b hb).2]; exact (hT b hb).2)
    rw [hP b hb]; omega
  have hdis : (T : Set Block).PairwiseDisjoint P := by
    intro a ha b hb hab
    rw [Function.onFun, Finset.disjoint_left]
    intro l h1 h2
    obtain ⟨r, c, hm, e1⟩ := (hmem a ha l).1 h1
    obtain ⟨r', c', hm', e2⟩ := (hmem b hb l).1 h2
    obtain ⟨i1, i2⟩ := hin a ha r c hm
    obtain ⟨i3, i4⟩ := hin b hb r' c' hm'
    have hm2 := (hT a ha).1 r c r' c' i1 i2 i3 i4 ((matrix_eq_iff hw _).1 (e1.trans e2.symm)) hm
    obtain ⟨x, _, hx⟩ := ht.2 r' i3 c' i4
    exact hab ((hx a ⟨ha, hm2⟩).trans (hx b ⟨hb, hm'⟩).symm)
  have hsub : T.biUnion P ⊆ Finset.range t.leaves.length := by
    intro l hl
    obtain ⟨b, hb, hlb⟩ := Finset.mem_biUnion.1 hl
    obtain ⟨r, c, _, e⟩ := (hmem b hb l).1 hlb
    exact Finset.mem_range.2 ((matrix_iff hw _).1 e).1
  calc 2 * T.card = ∑ _b ∈ T, 2 := by simp [Nat.mul_comm]
    _ ≤ ∑ b ∈ T, (P b).card := Finset.sum_le_sum hcard
    _ = (T.biUnion P).card := (Finset.card_biUnion hdis).symm
    _ ≤ t.leaves.length := by simpa using Finset.card_le_card hsub

/-- **C93.** Every bin consists of at least two leaves: there are at most half as many bins as leaves. -/
theorem C93_number_of_bins (j : CartJob2D α β R) (h : j.Succeeds) : 2 * j.fitCart.boxes.length ≤ j.theTree.leaves.length := by
  obtain ⟨cands, a, sel, hc, ha, _, hset, s, hs, hf, st, rf, e⟩ := j.found h
  obtain ⟨h1, _, _, h2⟩ := hc.sound ha
  have hb := leaves_bound h.tree h1 fun b hb => ⟨(h2 b hb).1, (h2 b hb).2.1⟩
  rw [← hset, List.toFinset_card_of_nodup (hf.covers.nodup.map Rect.block_injective), List.length_map] at hb
  have hl : j.fitCart.boxes.length = sel.length := by
    rw [e]; show (j.grid s).fit.boxes.length = _; rw [hf.boxes]; simp
  omega

/-! ### continuous target -/

/-- **C93.** After a successful fit every pair of known values lies in exactly one of the bins. -/
theorem C93_partition_continuous (j : CartJobC2D α β R) (h : j.Succeeds) {u : α} {v : β} (hu : Known j.fitCart.axisX u)
    (hv : Known j.fitCart.axisY v) :
    ∃! i, ∃ hi : i < j.fitCart.boxes.length, InBox j.fitCart.axisX j.fitCart.axisY j.fitCart.boxes[i] u v := by
  obtain ⟨s, hs, st, rf, e⟩ := j.transfer h
  rw [e] at hu hv ⊢
  exact C87_partition (j.grid s) hs hu hv

/-- **C93.** `transform` with the metric `indices` returns `i` exactly for the pairs in bin `i`. -/
theorem C93_transform_indices_continuous (j : CartJobC2D α β R) (h : j.Succeeds) {u : α} {v : β}
    (hu : Known j.fitCart.axisX u) (hv : Known j.fitCart.axisY v) (hx : ¬ IsCode j.scx (some u))
    (hy : ¬ IsCode j.scy (some v)) (ms mm : Option ℤ) {i : ℕ} (hi : i < j.fitCart.boxes.length) :
    j.fitCart.indices j.scx j.scy ms mm (some u) (some v) = (i : ℤ) ↔
      InBox j.fitCart.axisX j.fitCart.axisY j.fitCart.boxes[i] u v := by
  obtain ⟨s, hs, st, rf, e⟩ := j.transfer h
  revert hu hv hi
  rw [e]
  intro hu hv hi
  exact C87_transform_indices (j.grid s) hs hu hv hx hy ms mm hi

/-- The targets of the training records in bin `i`. -/
noncomputable def CartJobC2D.binTargets (j : CartJobC2D α β R) (i : ℕ) (hi : i < j.fitCart.boxes.length) : List ℚ :=
  knownTargets j.recs (RecInBox j.scx j.scy j.fitCart.axisX j.fitCart.axisY j.fitCart.boxes[i])

theorem CartJobC2D.binTargets_eq (j : CartJobC2D α β R) {s : Opts2D → Prog2D R → Answer2D R} {st : String} {rf : ℕ}
    (e : j.fitCart = { (j.grid s).fit with status := st, refinements := rf }) (i : ℕ) (hi : i < j.fitCart.boxes.length)
    (hi' : i < (j.grid s).fit.boxes.length) : j.binTargets i hi = (j.grid s).binTargets i hi' := by
  unfold CartJobC2D.binTargets JobC2D.binTargets
  revert hi
  rw [e]
  intro hi
  rfl

/-- **C93.** `transform` with the metric `mean` returns the mean of the targets of the training records in the bin. -/
theorem C93_transform_mean (j : CartJobC2D α β R) (h : j.Succeeds) {u : α} {v : β} (hu : Known j.fitCart.axisX u)
    (hv : Known j.fitCart.axisY v) (hx : ¬ IsCode j.scx (some u)) (hy : ¬ IsCode j.scy (some v)) (ms mm : Option ℚ) {i : ℕ}
    (hi : i < j.fitCart.boxes.length) (hb : InBox j.fitCart.axisX j.fitCart.axisY j.fitCart.boxes[i] u v) :
    j.fitCart.mean j.scx j.scy ms mm (some u) (some v) = some (Spec.mean (j.binTargets i hi)) := by
  obtain ⟨s, hs, st, rf, e⟩ := j.transfer h
  have hi' : i < (j.grid s).fit.boxes.length := by have := hi; rw [e] at this; exact this
  rw [j.binTargets_eq e i hi hi']
  revert hu hv hi
  rw [e]
  intro hu hv hi hb
  exact C87_transform_mean (j.grid s) hs hu hv hx hy ms mm hi' hb

/-- **C93.** Row `i` of the table holds number, sum, mean and variance of the targets in bin `i`. -/
theorem C93_rows_continuous (j : CartJobC2D α β R) (h : j.Succeeds) {i : ℕ} (hi : i < j.fitCart.boxes.length) :
    ∃ r : Row2C, j.fitCart.rows[i]? = some r ∧ j.binTargets i hi ≠ [] ∧ Describes (j.binTargets i hi) r.cnt r.sum r.var ∧
      r.mean = some (Spec.mean (j.binTargets i hi)) := by
  obtain ⟨s, hs, st, rf, e⟩ := j.transfer h
  have hi' : i < (j.grid s).fit.boxes.length := by have := hi; rw [e] at this; exact this
  rw [j.binTargets_eq e i hi hi', e]
  exact C88_rows (j.grid s) hs hi'

open Classical in
/-- **C93.** The table counts every record once, except that a record which is both missing and special counts twice. -/
theorem C93_totals_continuous (j : CartJobC2D α β R) (h : j.Succeeds) :
    tRecords2 j.fitCart.rows = j.recs.length + j.recs.countP (fun r => decide (RecMissing r ∧ RecSpecial j.scx j.scy r)) := by
  obtain ⟨s, hs, st, rf, e⟩ := j.transfer h
  rw [e]
  exact (C88_totals (j.grid s) hs).1

/-- **C93.** No bin is empty, every bin respects the limits on its size, and so does the number of bins. -/
theorem C93_limits_continuous (j : CartJobC2D α β R) (h : j.Succeeds) :
    (∀ i (hi : i < j.fitCart.boxes.length),
      0 < (j.binTargets i hi).length ∧
      (∀ q, j.minBinSize = some q → q * j.recs.length ≤ (j.binTargets i hi).length) ∧
      (∀ q, j.maxBinSize = some q → ((j.binTargets i hi).length : ℚ) < q * j.recs.length + 1)) ∧
    Within j.o.minBins j.o.maxBins (j.fitCart.boxes.length : ℕ) := by
  obtain ⟨s, hs, st, rf, e⟩ := j.transfer h
  obtain ⟨h1, h2⟩ := C89_limits (j.grid s) hs
  refine ⟨fun i hi => ?_, ?_⟩
  · have hi' : i < (j.grid s).fit.boxes.length := by have := hi; rw [e] at this; exact this
    rw [j.binTargets_eq e i hi hi']
    exact h1 i hi'
  · rw [e]
    exact h2

/-- **C93.** The trend in `y` holds between the means of neighbouring bins. -/
theorem C93_neighbours_y_continuous (j : CartJobC2D α β R) (h : j.Succeeds) {i k : ℕ} (hi : i < j.fitCart.boxes.length)
    (hk : k < j.fitCart.boxes.length) (hn : BoxNextY j.fitCart.boxes[i] j.fitCart.boxes[k]) :
    StepOK j.o.trendY j.o.minDiffY (Spec.mean (j.binTargets i hi)) (Spec.mean (j.binTargets k hk)) := by
  obtain ⟨s, hs, st, rf, e⟩ := j.transfer h
  have hi' : i < (j.grid s).fit.boxes.length := by have := hi; rw [e] at this; exact this
  have hk' : k < (j.grid s).fit.boxes.length := by have := hk; rw [e] at this; exact this
  have hn' : BoxNextY (j.grid s).fit.boxes[i] (j.grid s).fit.boxes[k] := by
    revert hi hk
    rw [e]
    intro hi hk hn
    exact hn
  have := (C89_neighbours (j.grid s) hs hi' hk').2 hn'
  rw [j.binTargets_eq e i hi hi', j.binTargets_eq e k hk hk']
  simp only [JobC2D.binMean, hi', hk', dif_pos] at this
  exact this

/-- **C93.** `analysis` tests exactly the pairs of neighbouring bins, in lexicographic order. -/
theorem C93_pairs_continuous (j : CartJobC2D α β R) (h : j.Succeeds)
    (test : Option ℚ → Option ℚ → ℕ → Option ℚ → Option ℚ → ℕ → γ) :
    LexSorted (testedPairs (j.fitCart.tests test)) ∧
    ∀ a b, (a, b) ∈ testedPairs (j.fitCart.tests test) ↔ ∃ (ha : a < j.fitCart.boxes.length) (hb : b < j.fitCart.boxes.length),
      BoxNextX j.fitCart.boxes[a] j.fitCart.boxes[b] ∨ BoxNextY j.fitCart.boxes[a] j.fitCart.boxes[b] := by
  obtain ⟨s, hs, st, rf, e⟩ := j.transfer h
  rw [e]
  exact C91_pairs_continuous (j.grid s) hs test

/-- **C93.** The bins are unions of leaves of the tree: pairs of values which arrive at the same leaf are in the same bin. -/
theorem C93_same_leaf_same_bin_continuous (j : CartJobC2D α β R) (h : j.Succeeds) {u u' : α} {v v' : β}
    (hu : Known j.fitCart.axisX u) (hv : Known j.fitCart.axisY v) (hu' : Known j.fitCart.axisX u')
    (hv' : Known j.fitCart.axisY v')
    (hl : SameLeaf j.theTree (j.prepared.row v) (j.prepared.col u) (j.prepared.row v') (j.prepared.col u')) {i : ℕ}
    (hi : i < j.fitCart.boxes.length) (hb : InBox j.fitCart.axisX j.fitCart.axisY j.fitCart.boxes[i] u v) :
    InBox j.fitCart.axisX j.fitCart.axisY j.fitCart.boxes[i] u' v' := by
  obtain ⟨cands, a, sel, hc, ha, _, hset, s, hs, hf, st, rf, e⟩ := j.found h
  revert hu hv hu' hv' hi
  rw [e]
  intro hu hv hu' hv' hi hb
  have hi' : i < sel.length := by rw [← hf.geo.length]; exact hi
  have h1 := (hf.geo.inBox hs.wellFormed hu hv hi hi').1 hb
  refine (hf.geo.inBox hs.wellFormed hu' hv' hi hi').2 ?_
  have hm : sel[i].block ∈ chosen cands a.x := by
    rw [← hset, List.mem_toFinset]; exact List.mem_map_of_mem (List.getElem_mem hi')
  exact ((hc.sound ha).2.2.2 _ hm).1 _ _ _ _ (j.prepared.row_lt v) (j.prepared.col_lt u) (j.prepared.row_lt v')
    (j.prepared.col_lt u') hl h1

/-- **C93.** Every bin consists of at least two leaves: there are at most half as many bins as leaves. -/
theorem C93_number_of_bins_continuous (j : CartJobC2D α β R) (h : j.Succeeds) :
    2 * j.fitCart.boxes.length ≤ j.theTree.leaves.length := by
  obtain ⟨cands, a, sel, hc, ha, _, hset, s, hs, hf, st, rf, e⟩ := j.found h
  obtain ⟨h1, _, _, h2⟩ := hc.sound ha
  have hb := leaves_bound h.tree h1 fun b hb => ⟨(h2 b hb).1, (h2 b hb).2.1⟩
  rw [← hset, List.toFinset_card_of_nodup (hf.geo.covers.nodup.map Rect.block_injective), List.length_map] at hb
  have hl : j.fitCart.boxes.length = sel.length := by
    rw [e]; exact hf.geo.length
  omega

end OptBinning
