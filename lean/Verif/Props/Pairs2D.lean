import Verif.Props.Continuous2D
import Verif.Lemmas.Pairs2D

/-!
# C91: the tests of `analysis` for two-dimensional tables
-/
namespace OptBinning

open Spec

set_option linter.unusedSectionVars false

variable {α β Q γ : Type} [DecidableEq α] [DecidableEq β] [CommRing Q] [LinearOrder Q] [IsStrictOrderedRing Q]

/-- The pairs "Bin A", "Bin B" of a list of tests. -/
def Spec.testedPairs (l : List (ℕ × ℕ × γ)) : List (ℕ × ℕ) := l.map fun t => (t.1, t.2.1)

/-- The pairs come in strictly increasing lexicographic order; in particular no pair comes twice. -/
def Spec.LexSorted (l : List (ℕ × ℕ)) : Prop := l.Pairwise fun a b => a.1 < b.1 ∨ (a.1 = b.1 ∧ a.2 < b.2)

/-- **C91.** `analysis` of the table of a continuous target tests exactly the pairs of bins which are neighbours in `x` or in
`y`, each once, in lexicographic order. -/
theorem C91_pairs_continuous (j : JobC2D α β Q) (h : j.Succeeds) (test : Option ℚ → Option ℚ → ℕ → Option ℚ → Option ℚ → ℕ → γ) :
    LexSorted (testedPairs (j.fit.tests test)) ∧
    ∀ a b, (a, b) ∈ testedPairs (j.fit.tests test) ↔ ∃ (ha : a < j.fit.boxes.length) (hb : b < j.fit.boxes.length),
      BoxNextX j.fit.boxes[a] j.fit.boxes[b] ∨ BoxNextY j.fit.boxes[a] j.fit.boxes[b] := by
  obtain ⟨sel, hf⟩ := j.facts h
  have e : testedPairs (j.fit.tests test) = getPairs (getPaths j.prepared.m j.prepared.n (pMatrix j.prepared.n j.init sel)).1
      (getPaths j.prepared.m j.prepared.n (pMatrix j.prepared.n j.init sel)).2 := by
    simp only [testedPairs, FittedC2D.tests, List.map_map, hf.m, hf.n, hf.P]
    exact List.map_id _
  rw [e]
  exact ⟨sorted_getPairs _ _, hf.geo.pairs h.wellFormed j.init⟩

/-- **C91.** Each test is made from mean, variance and number of the targets of the records in the two bins. -/
theorem C91_statistics_continuous (j : JobC2D α β Q) (h : j.Succeeds)
    (test : Option ℚ → Option ℚ → ℕ → Option ℚ → Option ℚ → ℕ → γ) {a b : ℕ} {s : γ} (ht : (a, b, s) ∈ j.fit.tests test) :
    ∃ (ha : a < j.fit.boxes.length) (hb : b < j.fit.boxes.length),
      s = test (some (Spec.mean (j.binTargets a ha))) (some (variance (j.binTargets a ha))) (j.binTargets a ha).length
        (some (Spec.mean (j.binTargets b hb))) (some (variance (j.binTargets b hb))) (j.binTargets b hb).length := by
  have hmem : (a, b) ∈ testedPairs (j.fit.tests test) := List.mem_map.2 ⟨_, ht, rfl⟩
  obtain ⟨ha, hb, _⟩ := ((C91_pairs_continuous j h test).2 a b).1 hmem
  refine ⟨ha, hb, ?_⟩
  have hl := (C88_special_missing_rows j h).1
  have hrow : ∀ i (hi : i < j.fit.boxes.length),
      ((j.fit.rows.take (j.fit.rows.length - 2)).getD i ⟨0, none, none⟩).mean = some (Spec.mean (j.binTargets i hi)) ∧
      ((j.fit.rows.take (j.fit.rows.length - 2)).getD i ⟨0, none, none⟩).var = some (variance (j.binTargets i hi)) ∧
      ((j.fit.rows.take (j.fit.rows.length - 2)).getD i ⟨0, none, none⟩).cnt = (j.binTargets i hi).length := by
    intro i hi
    obtain ⟨r, hr, hne, hd, hm⟩ := C88_rows j h hi
    have e : (j.fit.rows.take (j.fit.rows.length - 2)).getD i ⟨0, none, none⟩ = r := by
      rw [List.getD_eq_getElem?_getD, List.getElem?_take_of_lt (by omega), hr]; rfl
    rw [e]
    exact ⟨hm, hd.2.2 hne, hd.1⟩
  simp only [FittedC2D.tests, List.mem_map, Prod.mk.injEq] at ht
  obtain ⟨t, _, rfl, rfl, rfl⟩ := ht
  obtain ⟨a1, a2, a3⟩ := hrow _ ha
  obtain ⟨b1, b2, b3⟩ := hrow _ hb
  rw [a1, a2, a3, b1, b2, b3]

variable {R : Type} [CommRing R] [LinearOrder R] [IsStrictOrderedRing R]

/-- **C91.** The same for a binary target. -/
theorem C91_pairs (j : Job2D α β R) (h : j.Succeeds) (test : ℕ → ℕ → ℕ → ℕ → γ) :
    LexSorted (testedPairs (j.fit.tests test)) ∧
    ∀ a b, (a, b) ∈ testedPairs (j.fit.tests test) ↔ ∃ (ha : a < j.fit.boxes.length) (hb : b < j.fit.boxes.length),
      BoxNextX j.fit.boxes[a] j.fit.boxes[b] ∨ BoxNextY j.fit.boxes[a] j.fit.boxes[b] := by
  obtain ⟨sel, hf⟩ := j.facts h
  obtain ⟨init, hP⟩ := hf.P
  have e : testedPairs (j.fit.tests test) = getPairs (getPaths j.prepared.m j.prepared.n (pMatrix j.prepared.n init sel)).1
      (getPaths j.prepared.m j.prepared.n (pMatrix j.prepared.n init sel)).2 := by
    simp only [testedPairs, Fitted2D.tests, List.map_map, hf.m, hf.n, hP]
    exact List.map_id _
  rw [e]
  have g : Geo j.prepared j.fit.axisX j.fit.axisY j.fit.boxes sel := ⟨hf.axisX, hf.axisY, hf.covers, hf.boxes⟩
  exact ⟨sorted_getPairs _ _, g.pairs h.wellFormed init⟩

open Classical in
/-- **C91.** Each test is made from the numbers of non-events and events among the records in the two bins. -/
theorem C91_statistics (j : Job2D α β R) (h : j.Succeeds) (test : ℕ → ℕ → ℕ → ℕ → γ) {a b : ℕ} {s : γ}
    (ht : (a, b, s) ∈ j.fit.tests test) :
    s = test (j.recs.countP fun r => decide (InBin2D j a r ∧ r.z = some false))
      (j.recs.countP fun r => decide (InBin2D j b r ∧ r.z = some false))
      (j.recs.countP fun r => decide (InBin2D j a r ∧ r.z = some true))
      (j.recs.countP fun r => decide (InBin2D j b r ∧ r.z = some true)) := by
  have hmem : (a, b) ∈ testedPairs (j.fit.tests test) := List.mem_map.2 ⟨_, ht, rfl⟩
  obtain ⟨ha, hb, _⟩ := ((C91_pairs j h test).2 a b).1 hmem
  obtain ⟨sel, hf⟩ := j.facts h
  have hl : j.fit.boxes.length = sel.length := by rw [hf.boxes]; simp
  have h1 : j.fit.nonevent.length = j.fit.boxes.length + 2 := by rw [hf.nonevent, hl]; simp
  have h2 : j.fit.event.length = j.fit.boxes.length + 2 := by rw [hf.event, hl]; simp
  have hrow : ∀ i, i < j.fit.boxes.length →
      (j.fit.nonevent.take (j.fit.nonevent.length - 2)).getD i 0 = j.fit.nonevent.getD i 0 ∧
      (j.fit.event.take (j.fit.event.length - 2)).getD i 0 = j.fit.event.getD i 0 := by
    intro i hi
    simp only [List.getD_eq_getElem?_getD]
    rw [List.getElem?_take_of_lt (by omega), List.getElem?_take_of_lt (by omega)]
    exact ⟨rfl, rfl⟩
  simp only [Fitted2D.tests, List.mem_map, Prod.mk.injEq] at ht
  obtain ⟨t, _, rfl, rfl, rfl⟩ := ht
  rw [(hrow _ ha).1, (hrow _ ha).2, (hrow _ hb).1, (hrow _ hb).2, (C44_rows j h ha).1, (C44_rows j h ha).2,
    (C44_rows j h hb).1, (C44_rows j h hb).2]

end OptBinning
