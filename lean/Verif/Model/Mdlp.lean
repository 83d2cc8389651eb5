import Verif.Model.Metrics
import Verif.Model.Outlier

/-! # Model of `binning/mdlp.py` (binary target; exact arithmetic: values are rational numbers, entropies are real numbers)

`check_array` (only finite numbers are accepted), the recursion limit of Python and the unused argument `id` are not modelled. -/
namespace OptBinning

/-- `MDLP.__init__`, mdlp.py:70-75. -/
structure MdlpCfg where
  minSplit : ℕ := 2
  minLeaf : ℕ := 2
  maxCand : ℕ := 32

/-- mdlp.py:18-31, `_check_parameters` (for integers that are not negative). -/
def MdlpCfg.valid (c : MdlpCfg) : Bool := decide (2 ≤ c.minSplit) && decide (1 ≤ c.minLeaf) && decide (1 ≤ c.maxCand)

/-- `np.unique` of numbers. -/
def uniqueQ (l : List ℚ) : List ℚ := (sortQ l).dedup

/-- mdlp.py:132: the midpoints of neighbours with different targets. -/
def mdlpMidpoints (xs : List (ℚ × Bool)) : List ℚ :=
  uniqueQ (((xs.zip xs.tail).filter fun p => p.1.2 != p.2.2).map fun p => (p.2.1 + p.1.1) / 2)

/-- mdlp.py:132-138: the candidate splits; `np.linspace(1, 100, m)` has the entries `1 + 99 i / (m - 1)`. -/
def mdlpCandidates (c : MdlpCfg) (xs : List (ℚ × Bool)) : List ℚ :=
  let u := mdlpMidpoints xs
  if u.length > c.maxCand then
    (List.range c.maxCand).map fun i => quantileSorted u ((1 + 99 * ((i : ℕ) : ℚ) / ((c.maxCand - 1 : ℕ) : ℚ)) / 100)
  else u

/-- `np.searchsorted(x, split, side="right")` for sorted `x`, mdlp.py:124, 143. -/
def searchRight (xs : List (ℚ × Bool)) (s : ℚ) : ℕ := xs.countP fun r => decide (r.1 ≤ s)

/-- `_entropy`, mdlp.py:156-161. -/
noncomputable def mdlpEntropy (ys : List Bool) : ℝ :=
  let n : ℝ := ((ys.length : ℕ) : ℝ)
  let ns1 : ℝ := ((ys.count true : ℕ) : ℝ)
  entropy [(n - ns1) / n, ns1 / n]

/-- `_entropy_gain(y, y[:t], y[t:])`, mdlp.py:163-170. -/
noncomputable def mdlpGain (ys : List Bool) (t : ℕ) : ℝ :=
  let n : ℝ := ((ys.length : ℕ) : ℝ)
  let n1 : ℝ := (((ys.take t).length : ℕ) : ℝ)
  let n2 : ℝ := n - n1
  mdlpEntropy ys - (n1 * mdlpEntropy (ys.take t) + n2 * mdlpEntropy (ys.drop t)) / n

/-- `len(np.bincount(y))`, mdlp.py:118, 183-185. -/
def bincountLen (ys : List Bool) : ℕ := if ys = [] then 0 else if true ∈ ys then 2 else 1

/-- One step of the loop of `_find_split`, mdlp.py:144-152; the state is `(max_entropy_gain, best_split)`. -/
noncomputable def mdlpStep (c : MdlpCfg) (xs : List (ℚ × Bool)) (acc : ℝ × Option ℚ) (s : ℚ) : ℝ × Option ℚ :=
  let t := searchRight xs s
  if c.minLeaf ≤ t ∧ c.minLeaf ≤ xs.length - t then
    if acc.1 < mdlpGain (xs.map Prod.snd) t then (mdlpGain (xs.map Prod.snd) t, some s) else acc
  else acc

/-- `_find_split`, mdlp.py:130-154. -/
noncomputable def mdlpFindSplit (c : MdlpCfg) (xs : List (ℚ × Bool)) : Option ℚ :=
  ((mdlpCandidates c xs).foldl (mdlpStep c xs) (0, none)).2

/-- `_terminate`, mdlp.py:172-193, with `n_x`, `n_y` of `_recurse` (mdlp.py:116-118). -/
def mdlpTerminate (c : MdlpCfg) (xs : List (ℚ × Bool)) (t : ℕ) : Prop :=
  let ys := xs.map Prod.snd
  let y1 := ys.take t
  let y2 := ys.drop t
  let splittable := c.minSplit ≤ (uniqueQ (xs.map Prod.fst)).length ∧ 2 ≤ bincountLen ys
  let k := bincountLen ys
  let t0 := Real.log (3 ^ k - 2)
  let delta := t0 - ((k : ℝ) * mdlpEntropy ys - (bincountLen y1 : ℝ) * mdlpEntropy y1 - (bincountLen y2 : ℝ) * mdlpEntropy y2)
  mdlpGain ys t ≤ (Real.log ((ys.length : ℝ) - 1) + delta) / (ys.length : ℝ) ∨ ¬ splittable

/-- What is known about a split returned by `_find_split` (needed for the termination of `_recurse`). -/
theorem mdlpFold_spec (c : MdlpCfg) (xs : List (ℚ × Bool)) (l : List ℚ) (acc : ℝ × Option ℚ) :
    (l.foldl (mdlpStep c xs) acc = acc ∨ ∃ s ∈ l, (l.foldl (mdlpStep c xs) acc) = (mdlpGain (xs.map Prod.snd) (searchRight xs s), some s) ∧
      acc.1 < mdlpGain (xs.map Prod.snd) (searchRight xs s) ∧
      c.minLeaf ≤ searchRight xs s ∧ c.minLeaf ≤ xs.length - searchRight xs s) ∧
    acc.1 ≤ (l.foldl (mdlpStep c xs) acc).1 ∧
    ∀ s ∈ l, c.minLeaf ≤ searchRight xs s → c.minLeaf ≤ xs.length - searchRight xs s →
      mdlpGain (xs.map Prod.snd) (searchRight xs s) ≤ (l.foldl (mdlpStep c xs) acc).1 := by
  induction l generalizing acc with
  | nil => simp
  | cons s l ih =>
    rw [List.foldl_cons]
    obtain ⟨h1, h2, h3⟩ := ih (mdlpStep c xs acc s)
    have hstep : (mdlpStep c xs acc s = acc ∧ ((c.minLeaf ≤ searchRight xs s ∧ c.minLeaf ≤ xs.length - searchRight xs s) →
        mdlpGain (xs.map Prod.snd) (searchRight xs s) ≤ acc.1)) ∨
        (mdlpStep c xs acc s = (mdlpGain (xs.map Prod.snd) (searchRight xs s), some s) ∧
          acc.1 < mdlpGain (xs.map Prod.snd) (searchRight xs s) ∧
          c.minLeaf ≤ searchRight xs s ∧ c.minLeaf ≤ xs.length - searchRight xs s) := by
      simp only [mdlpStep]
      split_ifs with ha hb
      · exact .inr ⟨rfl, hb, ha.1, ha.2⟩
      · exact .inl ⟨rfl, fun _ => not_lt.mp hb⟩
      · exact .inl ⟨rfl, fun h => absurd h ha⟩
    rcases hstep with ⟨he, hb⟩ | ⟨he, hlt, hl, hr⟩
    · rw [he] at h1 h2 h3 ⊢
      refine ⟨?_, h2, ?_⟩
      · rcases h1 with h1 | ⟨s', hs', h⟩
        · exact .inl h1
        · exact .inr ⟨s', List.mem_cons_of_mem _ hs', h⟩
      · intro s' hs' ha hb'
        rcases List.mem_cons.mp hs' with rfl | hs'
        · exact (hb ⟨ha, hb'⟩).trans h2
        · exact h3 s' hs' ha hb'
    · have h1' : (mdlpStep c xs acc s).1 = mdlpGain (xs.map Prod.snd) (searchRight xs s) := by rw [he]
      refine ⟨.inr ?_, ?_, ?_⟩
      · rcases h1 with h1 | ⟨s', hs', h⟩
        · exact ⟨s, List.mem_cons_self, by rw [h1, he], hlt, hl, hr⟩
        · exact ⟨s', List.mem_cons_of_mem _ hs', h.1, (hlt.trans (h1' ▸ h.2.1)), h.2.2⟩
      · rw [h1'] at h2; exact hlt.le.trans h2
      · intro s' hs' ha hb'
        rcases List.mem_cons.mp hs' with rfl | hs'
        · rw [h1'] at h2; exact h2
        · exact h3 s' hs' ha hb'

theorem mdlpFindSplit_spec {c : MdlpCfg} {xs : List (ℚ × Bool)} {s : ℚ} (h : mdlpFindSplit c xs = some s) :
    s ∈ mdlpCandidates c xs ∧ c.minLeaf ≤ searchRight xs s ∧ c.minLeaf ≤ xs.length - searchRight xs s ∧
    0 < mdlpGain (xs.map Prod.snd) (searchRight xs s) ∧
    ∀ s' ∈ mdlpCandidates c xs, c.minLeaf ≤ searchRight xs s' → c.minLeaf ≤ xs.length - searchRight xs s' →
      mdlpGain (xs.map Prod.snd) (searchRight xs s') ≤ mdlpGain (xs.map Prod.snd) (searchRight xs s) := by
  obtain ⟨h1, h2, h3⟩ := mdlpFold_spec c xs (mdlpCandidates c xs) (0, none)
  unfold mdlpFindSplit at h
  rcases h1 with h1 | ⟨s', hs', he, hlt, hl, hr⟩
  · rw [h1] at h; simp at h
  · rw [he] at h h3
    simp only [Option.some.injEq] at h
    subst h
    exact ⟨hs', hl, hr, hlt, h3⟩

open Classical in
/-- `_recurse`, mdlp.py:115-128: the splits in the order in which they are appended to `self._splits`. -/
noncomputable def mdlpRecurse (c : MdlpCfg) (hl : 1 ≤ c.minLeaf) (xs : List (ℚ × Bool)) : List ℚ :=
  match _h : mdlpFindSplit c xs with
  | none => []
  | some s =>
    let t := searchRight xs s
    s :: if mdlpTerminate c xs t then [] else mdlpRecurse c hl (xs.take t) ++ mdlpRecurse c hl (xs.drop t)
termination_by xs.length
decreasing_by
  all_goals
    obtain ⟨-, h1, h2, -⟩ := mdlpFindSplit_spec _h
    simp only [List.length_take, List.length_drop]
    omega

/-- `MDLP.fit`, mdlp.py:97-113, for the records in the order of `np.argsort` (`xs` is sorted by value, ties in any order); `old` is
`self._splits` before the call, the result is `self._splits` after it. -/
noncomputable def mdlpFit (c : MdlpCfg) (old : List ℚ) (xs : List (ℚ × Bool)) : Except String (List ℚ) :=
  if h : c.valid then
    .ok (old ++ mdlpRecurse c (by unfold MdlpCfg.valid at h; simp only [Bool.and_eq_true, decide_eq_true_eq] at h; exact h.1.2) xs)
  else .error "ValueError"

/-- The property `splits`, mdlp.py:196-208. -/
def mdlpSplits (st : List ℚ) : List ℚ := sortQ st

end OptBinning
