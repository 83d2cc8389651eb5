import Verif.Spec.Outlier
import Verif.Model.Outlier
import Verif.Props.Trend
import Mathlib.Tactic.Linarith
import Mathlib.Tactic.Ring
import Mathlib.Tactic.NormNum
import Mathlib.Tactic.FieldSimp
import Mathlib.Tactic.Positivity
import Mathlib.Algebra.Order.Floor.Ring

/-! # C35: outlier detectors -/
namespace OptBinning
open Spec (FlagsOutside kept)

theorem sortQ_perm (x : List ℚ) : (sortQ x).Perm x := List.perm_insertionSort _ _
theorem sortQ_sorted (x : List ℚ) : (sortQ x).Pairwise (· ≤ ·) := List.pairwise_insertionSort _ _
theorem sortQ_length (x : List ℚ) : (sortQ x).length = x.length := (sortQ_perm x).length_eq

theorem sortQ_congr {x y : List ℚ} (h : x.Perm y) : sortQ x = sortQ y :=
  List.Perm.eq_of_pairwise (fun _ _ _ _ h1 h2 => le_antisymm h1 h2) (sortQ_sorted x) (sortQ_sorted y)
    ((sortQ_perm x).trans (h.trans (sortQ_perm y).symm))

theorem sorted_getElem_le {s : List ℚ} (hs : s.Pairwise (· ≤ ·)) {i j : ℕ} (hij : i ≤ j) (hj : j < s.length) :
    s[i]'(by omega) ≤ s[j] := by
  rcases Nat.eq_or_lt_of_le hij with rfl | h
  · exact le_rfl
  · exact List.pairwise_iff_getElem.mp hs i j (by omega) hj h

/-! ## The two bounds -/

theorem rangeFlag_iff (k : ℚ) (b : ℚ × ℚ) (v : ℚ) :
    rangeFlag k b v = decide (v < b.1 - k * (b.2 - b.1) ∨ b.2 + k * (b.2 - b.1) < v) := by
  unfold rangeFlag
  rw [Bool.eq_iff_iff]; simp [or_comm]

/-- C35: a `RangeDetector` flags exactly the values outside one interval, so that a value between two unflagged values is not
flagged; the interval depends on the values but not on their order. -/
theorem C35_range_interval (len k : ℚ) (hdi : Bool) (x : List ℚ) (flags : List Bool) (h : rangeDetector len k hdi x = .ok flags) :
    ∃ lo hi : ℚ, FlagsOutside x flags lo hi ∧
      ∀ y, x.Perm y → ∃ flags', rangeDetector len k hdi y = .ok flags' ∧ FlagsOutside y flags' lo hi := by
  unfold rangeDetector at *
  by_cases h1 : 0 ≤ len ∧ len ≤ 1
  · rw [if_neg (by tauto)] at h
    by_cases h2 : x.length = 0
    · rw [if_pos h2] at h; simp at h
    · rw [if_neg h2] at h
      cases hdi
      · simp only [Bool.false_eq_true, if_false, Except.ok.injEq] at h
        subst h
        refine ⟨((etiBounds len x).1 - k * ((etiBounds len x).2 - (etiBounds len x).1)), ((etiBounds len x).2 + k * ((etiBounds len x).2 - (etiBounds len x).1)), ?_, fun y hy => ?_⟩
        · exact List.map_congr_left fun v _ => rangeFlag_iff k _ v
        · rw [if_neg (by tauto), if_neg (by rw [← hy.length_eq]; exact h2)]
          have : etiBounds len y = etiBounds len x := by unfold etiBounds; rw [sortQ_congr hy]
          refine ⟨_, by simp only [Bool.false_eq_true, if_false]; rfl, ?_⟩
          rw [this]
          exact List.map_congr_left fun v _ => rangeFlag_iff k _ v
      · simp only [if_true] at h
        cases hb : hdiBounds len x with
        | none => rw [hb] at h; simp at h
        | some b =>
          rw [hb] at h
          simp only [Except.ok.injEq] at h
          subst h
          refine ⟨b.1 - k * (b.2 - b.1), b.2 + k * (b.2 - b.1), List.map_congr_left fun v _ => rangeFlag_iff k b v, fun y hy => ?_⟩
          rw [if_neg (by tauto), if_neg (by rw [← hy.length_eq]; exact h2)]
          have : hdiBounds len y = some b := by rw [← hb]; unfold hdiBounds; rw [sortQ_congr hy, hy.length_eq]
          rw [this]
          exact ⟨_, by simp only [if_true], List.map_congr_left fun v _ => rangeFlag_iff k b v⟩
  · rw [if_pos (by tauto)] at h; simp at h

theorem C35_between_unflagged {x : List ℚ} {flags : List Bool} {lo hi : ℚ} (h : FlagsOutside x flags lo hi)
    {i j l : ℕ} (hi' : i < x.length) (hj : j < x.length) (hl : l < x.length)
    (hfi : flags[i]? = some false) (hfl : flags[l]? = some false) (h1 : x[i] ≤ x[j]) (h2 : x[j] ≤ x[l]) : flags[j]? = some false := by
  unfold FlagsOutside at h
  subst h
  simp only [List.getElem?_map, List.getElem?_eq_getElem hi', List.getElem?_eq_getElem hj, List.getElem?_eq_getElem hl,
    Option.map_some, Option.some.injEq, decide_eq_false_iff_not, not_or, not_lt] at *
  exact ⟨hfi.1.trans h1, h2.trans hfl.2⟩

/-! ## How many records are kept -/

theorem kept_flags {x : List ℚ} {flags : List Bool} {lo hi : ℚ} (h : FlagsOutside x flags lo hi) :
    kept flags = x.countP fun v => decide (lo ≤ v ∧ v ≤ hi) := by
  unfold FlagsOutside at h
  subst h
  unfold kept
  rw [List.count_eq_countP, List.countP_map]
  congr 1
  funext v
  rw [Bool.eq_iff_iff]; simp

/-- In sorted data at least `j - i + 1` values lie between the `i`-th and the `j`-th. -/
theorem count_between {x : List ℚ} {i j : ℕ} (hj : j < x.length) (lo hi : ℚ)
    (hlo : lo ≤ (sortQ x).getD i 0) (hhi : (sortQ x).getD j 0 ≤ hi) :
    j + 1 - i ≤ x.countP fun v => decide (lo ≤ v ∧ v ≤ hi) := by
  have hlen := sortQ_length x
  rw [← (sortQ_perm x).countP_eq]
  by_cases hij : i ≤ j
  · set s := sortQ x with hs
    have hsorted := sortQ_sorted x
    rw [← hs] at hsorted
    have hsub : ((s.drop i).take (j + 1 - i)).Sublist s := (List.take_sublist _ _).trans (List.drop_sublist _ _)
    have hall : ((s.drop i).take (j + 1 - i)).countP (fun v => decide (lo ≤ v ∧ v ≤ hi)) = j + 1 - i := by
      rw [List.countP_eq_length.mpr]
      · simp; omega
      · intro a ha
        obtain ⟨m, hm, rfl⟩ := List.mem_iff_getElem.mp ha
        have hm' : m < j + 1 - i := by simp at hm; omega
        rw [List.getElem_take, List.getElem_drop]
        rw [List.getD_eq_getElem _ _ (by omega)] at hlo hhi
        have e1 := sorted_getElem_le hsorted (i := i) (j := i + m) (by omega) (by omega)
        have e2 := sorted_getElem_le hsorted (i := i + m) (j := j) (by omega) (by omega)
        simp only [decide_eq_true_eq]
        exact ⟨hlo.trans e1, e2.trans hhi⟩
    rw [← hall]
    exact hsub.countP_le
  · omega

/-- C35 (HDI): with `k ≥ 0` more than the requested share of the records is kept. -/
theorem C35_hdi_keeps_share (len k : ℚ) (hk : 0 ≤ k) (x : List ℚ) (flags : List Bool) (h : rangeDetector len k true x = .ok flags) :
    len * ((x.length : ℕ) : ℚ) + 1 ≤ ((kept flags : ℕ) : ℚ) := by
  unfold rangeDetector at h
  by_cases h1 : 0 ≤ len ∧ len ≤ 1
  swap
  · rw [if_pos (by tauto)] at h; simp at h
  rw [if_neg (by tauto)] at h
  by_cases h2 : x.length = 0
  · rw [if_pos h2] at h; simp at h
  rw [if_neg h2] at h
  simp only [if_true] at h
  cases hb : hdiBounds len x with
  | none => rw [hb] at h; simp at h
  | some b =>
    rw [hb] at h
    simp only [Except.ok.injEq] at h
    unfold hdiBounds at hb
    simp only at hb
    set s := sortQ x with hs
    set m := ⌈len * ((x.length : ℕ) : ℚ)⌉.toNat with hm
    have hslen : s.length = x.length := sortQ_length x
    split_ifs at hb with hc
    simp only [Option.some.injEq] at hb
    set ci := List.zipWith (fun b a => b - a) (s.drop m) (s.take (x.length - m)) with hci
    have hcilen : ci.length = x.length - m := by rw [hci]; simp; omega
    obtain ⟨hj, -, -⟩ := argmin_spec (x := ci) (by rw [← List.length_pos_iff_ne_nil]; omega)
    set j := argminIdx ci with hjdef
    have hjm : j + m < x.length := by omega
    have hfl : FlagsOutside x flags (b.1 - k * (b.2 - b.1)) (b.2 + k * (b.2 - b.1)) := by
      unfold FlagsOutside; rw [← h]; exact List.map_congr_left fun v _ => rangeFlag_iff k b v
    have hb1 : b.1 = s.getD j 0 := by rw [← hb]
    have hb2 : b.2 = s.getD (j + m) 0 := by rw [← hb]
    have hle : b.1 ≤ b.2 := by
      rw [hb1, hb2, List.getD_eq_getElem _ _ (by omega), List.getD_eq_getElem _ _ (by omega)]
      exact sorted_getElem_le (sortQ_sorted x) (by omega) (by rw [sortQ_length]; omega)
    have hprod : 0 ≤ k * (b.2 - b.1) := mul_nonneg hk (by linarith)
    have hcnt := count_between (x := x) (i := j) (j := j + m) hjm (b.1 - k * (b.2 - b.1)) (b.2 + k * (b.2 - b.1))
      (by rw [← hs, ← hb1]; linarith) (by rw [← hs, ← hb2]; linarith)
    rw [← kept_flags hfl] at hcnt
    have h3 : m + 1 ≤ kept flags := by omega
    have h4 : ((m + 1 : ℕ) : ℚ) ≤ ((kept flags : ℕ) : ℚ) := by exact_mod_cast h3
    have h5 : len * ((x.length : ℕ) : ℚ) ≤ ((m : ℕ) : ℚ) := by
      have h6 := Int.le_ceil (len * ((x.length : ℕ) : ℚ))
      have h7 : ⌈len * ((x.length : ℕ) : ℚ)⌉ ≤ (m : ℤ) := by rw [hm]; exact Int.self_le_toNat _
      have h8 : ((⌈len * ((x.length : ℕ) : ℚ)⌉ : ℤ) : ℚ) ≤ ((m : ℕ) : ℚ) := by exact_mod_cast h7
      linarith
    push_cast at h4
    linarith

theorem quantileSorted_bounds {s : List ℚ} (hs : s.Pairwise (· ≤ ·)) (hne : 0 < s.length) {f : ℚ} (h0 : 0 ≤ f) (h1 : f ≤ 1) :
    (∀ i (hi : i < s.length), f * ((s.length - 1 : ℕ) : ℚ) ≤ ((i : ℕ) : ℚ) → quantileSorted s f ≤ s[i]) ∧
    (∀ i (hi : i < s.length), ((i : ℕ) : ℚ) ≤ f * ((s.length - 1 : ℕ) : ℚ) → s[i] ≤ quantileSorted s f) := by
  set pos := f * ((s.length - 1 : ℕ) : ℚ) with hpos
  have hp0 : 0 ≤ pos := by positivity
  have hp1 : pos ≤ ((s.length - 1 : ℕ) : ℚ) := by
    rw [hpos]; exact mul_le_of_le_one_left (by positivity) h1
  set a := ⌊pos⌋.toNat with ha
  have hfl : ((a : ℕ) : ℤ) = ⌊pos⌋ := by rw [ha]; exact Int.toNat_of_nonneg (Int.floor_nonneg.mpr hp0)
  have hfq : ((a : ℕ) : ℚ) = ((⌊pos⌋ : ℤ) : ℚ) := by exact_mod_cast congrArg (fun z : ℤ => (z : ℚ)) hfl
  have ha1 : ((a : ℕ) : ℚ) ≤ pos := by rw [hfq]; exact Int.floor_le pos
  have ha2 : pos < ((a : ℕ) : ℚ) + 1 := by rw [hfq]; exact Int.lt_floor_add_one pos
  have halt : a < s.length := by
    have : ((a : ℕ) : ℚ) ≤ ((s.length - 1 : ℕ) : ℚ) := ha1.trans hp1
    have : a ≤ s.length - 1 := by exact_mod_cast this
    omega
  set c := min (a + 1) (s.length - 1) with hcdef
  have hclt : c < s.length := by omega
  have hval : quantileSorted s f = s[a] * (1 - (pos - ((a : ℕ) : ℚ))) + s[c] * (pos - ((a : ℕ) : ℚ)) := by
    unfold quantileSorted
    simp only [← hpos, ← ha, ← hcdef]
    rw [List.getD_eq_getElem _ _ halt, List.getD_eq_getElem _ _ hclt]
  have hac : s[a] ≤ s[c] := sorted_getElem_le hs (by omega) hclt
  have ht0 : 0 ≤ pos - ((a : ℕ) : ℚ) := by linarith
  have ht1 : pos - ((a : ℕ) : ℚ) ≤ 1 := by linarith
  rw [hval]
  refine ⟨fun i hi hle => ?_, fun i hi hle => ?_⟩
  · rcases eq_or_lt_of_le ha1 with he | hl
    · rw [← he, sub_self]
      have : a ≤ i := by have : ((a : ℕ) : ℚ) ≤ ((i : ℕ) : ℚ) := by linarith
                         exact_mod_cast this
      have := sorted_getElem_le hs this hi
      linarith
    · have hai : a < i := by
        have : ((a : ℕ) : ℚ) < ((i : ℕ) : ℚ) := by linarith
        exact_mod_cast this
      have hci : s[c] ≤ s[i] := sorted_getElem_le hs (by omega) hi
      nlinarith
  · have hia : i ≤ a := by
      have : ((i : ℕ) : ℚ) < ((a : ℕ) : ℚ) + 1 := by linarith
      have : i < a + 1 := by exact_mod_cast this
      omega
    have hia' : s[i] ≤ s[a] := sorted_getElem_le hs hia halt
    nlinarith

/-- C35 (ETI): with `k ≥ 0` all but about a share `1 - interval_length` of the records is kept: at least
`interval_length · (n - 1) - 1` of `n`. -/
theorem C35_eti_keeps_share (len k : ℚ) (hk : 0 ≤ k) (x : List ℚ) (flags : List Bool) (h : rangeDetector len k false x = .ok flags) :
    len * (((x.length - 1 : ℕ)) : ℚ) - 1 ≤ ((kept flags : ℕ) : ℚ) := by
  unfold rangeDetector at h
  by_cases h1 : 0 ≤ len ∧ len ≤ 1
  swap
  · rw [if_pos (by tauto)] at h; simp at h
  rw [if_neg (by tauto)] at h
  by_cases h2 : x.length = 0
  · rw [if_pos h2] at h; simp at h
  rw [if_neg h2] at h
  simp only [Bool.false_eq_true, if_false, Except.ok.injEq] at h
  set s := sortQ x with hs
  have hslen : s.length = x.length := sortQ_length x
  have hfl : FlagsOutside x flags
      ((etiBounds len x).1 - k * ((etiBounds len x).2 - (etiBounds len x).1)) ((etiBounds len x).2 + k * ((etiBounds len x).2 - (etiBounds len x).1)) := by
    unfold FlagsOutside; rw [← h]; exact List.map_congr_left fun v _ => rangeFlag_iff k (etiBounds len x) v
  set b := etiBounds len x with hb
  have hb1 : b.1 = quantileSorted s ((1 - len) / 2) := rfl
  have hb2 : b.2 = quantileSorted s ((1 + len) / 2) := rfl
  obtain ⟨l1, l2⟩ := quantileSorted_bounds (sortQ_sorted x) (by rw [sortQ_length]; omega) (f := (1 - len) / 2) (by linarith) (by linarith)
  obtain ⟨u1, u2⟩ := quantileSorted_bounds (sortQ_sorted x) (by rw [sortQ_length]; omega) (f := (1 + len) / 2) (by linarith) (by linarith)
  rw [← hs] at l1 l2 u1 u2
  set N : ℚ := ((x.length - 1 : ℕ) : ℚ) with hN
  have hN0 : 0 ≤ N := by positivity
  simp only [hslen, ← hN] at l1 l2 u1 u2
  -- integer positions
  set i := ⌈(1 - len) / 2 * N⌉.toNat with hi
  set j := ⌊(1 + len) / 2 * N⌋.toNat with hj
  have hpl : 0 ≤ (1 - len) / 2 * N := mul_nonneg (by linarith) hN0
  have hpu : 0 ≤ (1 + len) / 2 * N := mul_nonneg (by linarith) hN0
  have hi1 : ((i : ℕ) : ℚ) = ((⌈(1 - len) / 2 * N⌉ : ℤ) : ℚ) := by
    have : ((i : ℕ) : ℤ) = ⌈(1 - len) / 2 * N⌉ := by rw [hi]; exact Int.toNat_of_nonneg (Int.ceil_nonneg hpl)
    exact_mod_cast congrArg (fun z : ℤ => (z : ℚ)) this
  have hj1 : ((j : ℕ) : ℚ) = ((⌊(1 + len) / 2 * N⌋ : ℤ) : ℚ) := by
    have : ((j : ℕ) : ℤ) = ⌊(1 + len) / 2 * N⌋ := by rw [hj]; exact Int.toNat_of_nonneg (Int.floor_nonneg.mpr hpu)
    exact_mod_cast congrArg (fun z : ℤ => (z : ℚ)) this
  have hib := Int.le_ceil ((1 - len) / 2 * N)
  have hib' := Int.ceil_lt_add_one ((1 - len) / 2 * N)
  have hjb := Int.floor_le ((1 + len) / 2 * N)
  have hjb' := Int.lt_floor_add_one ((1 + len) / 2 * N)
  rw [← hi1] at hib hib'
  rw [← hj1] at hjb hjb'
  have hjlt : j < x.length := by
    have : ((j : ℕ) : ℚ) ≤ N := by nlinarith
    rw [hN] at this
    have : j ≤ x.length - 1 := by exact_mod_cast this
    omega
  have hilt : i < x.length := by
    have : ((i : ℕ) : ℚ) < N + 1 := by nlinarith
    rw [hN] at this
    have : i < x.length - 1 + 1 := by exact_mod_cast this
    omega
  have e1 := l1 i (by omega) hib
  have e2 := u2 j (by omega) hjb
  have hle : b.1 ≤ b.2 := by
    rw [hb1, hb2]
    by_cases hp : ∃ m : ℕ, (1 - len) / 2 * N ≤ m ∧ (m : ℚ) ≤ (1 + len) / 2 * N
    · obtain ⟨m, hm1, hm2⟩ := hp
      have hml : m < x.length := by
        have : ((m : ℕ) : ℚ) ≤ N := by nlinarith
        rw [hN] at this
        have : m ≤ x.length - 1 := by exact_mod_cast this
        omega
      exact (l1 m hml hm1).trans (u2 m hml hm2)
    · -- both positions inside one gap: compare the interpolations
      have hgap : (⌊(1 - len) / 2 * N⌋ : ℤ) = ⌊(1 + len) / 2 * N⌋ := by
        apply le_antisymm
        · apply Int.floor_mono; nlinarith
        · by_contra hc
          push Not at hc
          apply hp
          refine ⟨j, ?_, hjb⟩
          have : ((⌊(1 - len) / 2 * N⌋ : ℤ) : ℚ) + 1 ≤ ((⌊(1 + len) / 2 * N⌋ : ℤ) : ℚ) := by exact_mod_cast hc
          have h3 := Int.lt_floor_add_one ((1 - len) / 2 * N)
          rw [hj1]; linarith
      unfold quantileSorted
      simp only [hslen, ← hN, hgap, ← hj]
      have hac : s.getD j 0 ≤ s.getD (min (j + 1) (x.length - 1)) 0 := by
        rw [List.getD_eq_getElem _ _ (by omega), List.getD_eq_getElem _ _ (by omega)]
        exact sorted_getElem_le (sortQ_sorted x) (by omega) (by rw [sortQ_length]; omega)
      have hd : (1 - len) / 2 * N ≤ (1 + len) / 2 * N := by nlinarith
      nlinarith
  have hprod : 0 ≤ k * (b.2 - b.1) := mul_nonneg hk (by linarith)
  have hcnt := count_between (x := x) (i := i) (j := j) hjlt (b.1 - k * (b.2 - b.1)) (b.2 + k * (b.2 - b.1))
    (by rw [← hs, List.getD_eq_getElem _ _ (by omega)]; rw [← hb1] at e1; linarith)
    (by rw [← hs, List.getD_eq_getElem _ _ (by omega)]; rw [← hb2] at e2; linarith)
  rw [← kept_flags hfl] at hcnt
  have h3 : j + 1 ≤ kept flags + i := by omega
  have h4 : ((j : ℕ) : ℚ) + 1 ≤ ((kept flags : ℕ) : ℚ) + ((i : ℕ) : ℚ) := by exact_mod_cast h3
  nlinarith

/-! ## Modified z-score -/

theorem median_congr {x y : List ℚ} (h : x.Perm y) : medianQ x = medianQ y := by unfold medianQ; rw [sortQ_congr h]

/-- At least half of the values are at most the median. -/
theorem half_le_median (x : List ℚ) (hne : x ≠ []) : x.length ≤ 2 * x.countP fun v => decide (v ≤ medianQ x) := by
  have hpos := List.length_pos_iff_ne_nil.mpr hne
  have hlen := sortQ_length x
  set s := sortQ x with hs
  have hsorted : s.Pairwise (· ≤ ·) := sortQ_sorted x
  set m := (x.length + 1) / 2 with hm
  have hle : ∀ i (hi : i < s.length), i < m → s[i] ≤ medianQ x := by
    intro i hi him
    unfold medianQ
    simp only [← hs, hlen]
    split_ifs with hodd
    · rw [List.getD_eq_getElem _ _ (by omega)]
      exact sorted_getElem_le hsorted (by omega) (by omega)
    · rw [List.getD_eq_getElem _ _ (by omega), List.getD_eq_getElem _ _ (by omega)]
      have e1 : s[i] ≤ s[x.length / 2 - 1]'(by omega) := sorted_getElem_le hsorted (by omega) (by omega)
      have e2 : s[x.length / 2 - 1]'(by omega) ≤ s[x.length / 2]'(by omega) := sorted_getElem_le hsorted (by omega) (by omega)
      linarith
  rw [← (sortQ_perm x).countP_eq, ← hs]
  have hsub : (s.take m).countP (fun v => decide (v ≤ medianQ x)) ≤ s.countP fun v => decide (v ≤ medianQ x) :=
    (List.take_sublist _ _).countP_le
  have hall : (s.take m).countP (fun v => decide (v ≤ medianQ x)) = m := by
    rw [List.countP_eq_length.mpr]
    · simp; omega
    · intro a ha
      obtain ⟨i, hi, rfl⟩ := List.mem_iff_getElem.mp ha
      have hi' : i < m ∧ i < s.length := by simpa using hi
      rw [List.getElem_take]
      simpa using hle i hi'.2 hi'.1
  omega

theorem median_nonneg {x : List ℚ} (h : ∀ a ∈ x, 0 ≤ a) : 0 ≤ medianQ x := by
  have hget : ∀ i, 0 ≤ (sortQ x).getD i 0 := by
    intro i
    by_cases hi : i < (sortQ x).length
    · rw [List.getD_eq_getElem _ _ hi]; exact h _ ((sortQ_perm x).subset (List.getElem_mem hi))
    · rw [List.getD_eq_default _ _ (by omega)]
  unfold medianQ
  simp only
  split_ifs
  · exact hget _
  · have := hget ((sortQ x).length / 2 - 1); have := hget ((sortQ x).length / 2); linarith

theorem zscoreFlag_iff (t : ℚ) (x : List ℚ) (v : ℚ) :
    zscoreFlag t x v = decide (t * medianQ (x.map fun a => |a - medianQ x|) < 0.6745 * |v - medianQ x|) := by
  unfold zscoreFlag
  simp only
  have hmad : 0 ≤ medianQ (x.map fun a => |a - medianQ x|) := by
    apply median_nonneg
    intro a ha
    obtain ⟨b, -, rfl⟩ := List.mem_map.mp ha
    exact abs_nonneg _
  set mad := medianQ (x.map fun a => |a - medianQ x|) with hm
  by_cases h0 : mad = 0
  · rw [if_pos h0, h0, mul_zero, decide_eq_decide]
    constructor
    · intro hne
      have := abs_pos.mpr (sub_ne_zero.mpr hne)
      positivity
    · rintro hlt rfl
      simp at hlt
  · have hpos : 0 < mad := lt_of_le_of_ne hmad (Ne.symm h0)
    rw [if_neg h0, decide_eq_decide, abs_div, abs_mul, abs_of_pos hpos, gt_iff_lt, lt_div_iff₀ hpos]
    rw [abs_of_pos (by norm_num : (0 : ℚ) < 0.6745)]

/-- C35 (modified z-score): exactly the values further than `threshold · MAD / 0.6745` from the median are flagged (also when the
median absolute deviation MAD is 0), so the unflagged values form an interval of the sorted data. -/
theorem C35_zscore_interval (t : ℚ) (x : List ℚ) (flags : List Bool) (h : zscoreDetector t x = .ok flags) :
    ∃ r : ℚ, 0.6745 * r = t * medianQ (x.map fun a => |a - medianQ x|) ∧ FlagsOutside x flags (medianQ x - r) (medianQ x + r) := by
  unfold zscoreDetector at h
  split_ifs at h with ht
  push Not at ht
  simp only [Except.ok.injEq] at h
  refine ⟨t * medianQ (x.map fun a => |a - medianQ x|) / 0.6745, by field_simp, ?_⟩
  unfold FlagsOutside
  rw [← h]
  apply List.map_congr_left
  intro v _
  rw [zscoreFlag_iff t, decide_eq_decide, mul_comm (0.6745 : ℚ), ← div_lt_iff₀ (by norm_num), lt_abs]
  constructor
  · rintro (h | h)
    · right; linarith
    · left; linarith
  · rintro (h | h)
    · right; linarith
    · left; linarith

/-- C35 (modified z-score): with a threshold of at least 0.6745 (default 3.5) at least half of the records is kept. -/
theorem C35_zscore_keeps_half (t : ℚ) (ht : 0.6745 ≤ t) (x : List ℚ) (flags : List Bool) (h : zscoreDetector t x = .ok flags) :
    x.length ≤ 2 * kept flags := by
  by_cases hne : x = []
  · simp [hne]
  have ht0 : (0 : ℚ) ≤ t := le_trans (by norm_num) ht
  unfold zscoreDetector at h
  rw [if_neg (by push Not; exact ht0)] at h
  simp only [Except.ok.injEq] at h
  set dev := x.map fun a => |a - medianQ x| with hdev
  have hhalf := half_le_median dev (by rw [hdev]; simpa using hne)
  have hl : dev.length = x.length := by rw [hdev]; simp
  have hmad : 0 ≤ medianQ dev := by
    apply median_nonneg
    intro a ha
    obtain ⟨b, -, rfl⟩ := List.mem_map.mp ha
    exact abs_nonneg _
  have hcount : dev.countP (fun v => decide (v ≤ medianQ dev)) ≤ kept flags := by
    unfold kept
    rw [← h, List.count_eq_countP, List.countP_map, hdev, List.countP_map]
    apply List.countP_mono_left
    intro v _ hv
    simp only [Function.comp_apply, decide_eq_true_eq] at hv
    simp only [Function.comp_apply, beq_iff_eq]
    rw [zscoreFlag_iff t, decide_eq_false_iff_not, not_lt, ← hdev]
    rw [← hdev] at hv
    nlinarith
  omega

/-- C35: within `YQuantileDetector` the flag of a record depends on the records of its quantile bin only. -/
theorem C35_yquantile_local (t : ℚ) (splits : List ℚ) (recs recs' : List (ℚ × ℚ)) (r : ℚ × ℚ)
    (hsame : ((recs.filter fun q => digitize false splits (some q.1) == digitize false splits (some r.1)).map Prod.snd).Perm
      ((recs'.filter fun q => digitize false splits (some q.1) == digitize false splits (some r.1)).map Prod.snd))
    (i j : ℕ) (hi : recs[i]? = some r) (hj : recs'[j]? = some r) :
    (yQuantileZscore t splits recs)[i]? = (yQuantileZscore t splits recs')[j]? := by
  unfold yQuantileZscore
  rw [List.getElem?_map, List.getElem?_map, hi, hj]
  simp only [Option.map_some, Option.some.injEq]
  unfold zscoreFlag
  simp only
  rw [median_congr hsame, median_congr (hsame.map fun a => |a - _|)]

/-- C35, finding: `interval_length=0` is accepted and can flag every record (even number of records). -/
theorem C35_eti_flags_all : rangeDetector 0 (3 / 2) false [0, 1] = .ok [true, true] := by decide +kernel

/-- C35, finding: `method="HDI"` with the accepted `interval_length=1` always raises. -/
theorem C35_hdi_full_length_raises (k : ℚ) (x : List ℚ) : ∃ e, rangeDetector 1 k true x = .error e := by
  unfold rangeDetector
  rw [if_neg (by norm_num)]
  by_cases h : x.length = 0
  · rw [if_pos h]; exact ⟨_, rfl⟩
  · rw [if_neg h]
    have : hdiBounds 1 x = none := by
      unfold hdiBounds
      simp
    simp only [if_true, this]
    exact ⟨_, rfl⟩

/-- C35, finding: when more than half of the values are equal, every other value is flagged, whatever the threshold. -/
theorem C35_zscore_zero_mad (t : ℚ) (ht : 0 ≤ t) : zscoreDetector t [1, 1, 1, 1001 / 1000] = .ok [false, false, false, true] := by
  unfold zscoreDetector
  rw [if_neg (by push Not; exact ht)]
  have hm : medianQ [1, 1, 1, 1001 / 1000] = 1 := by decide +kernel
  have hd : medianQ (([1, 1, 1, 1001 / 1000] : List ℚ).map fun a => |a - 1|) = 0 := by decide +kernel
  have hall : ∀ v : ℚ, zscoreFlag t [1, 1, 1, 1001 / 1000] v = decide (v ≠ 1) := by
    intro v
    unfold zscoreFlag
    simp only [hm]
    rw [if_pos hd]
  simp only [List.map_cons, List.map_nil, hall]
  norm_num

/-- Non-vacuity: data with an outlier under each detector. -/
example : rangeDetector (1 / 2) (3 / 2) false [1, 2, 3, 4, 100] = .ok [false, false, false, false, true] ∧
    rangeDetector (1 / 2) (3 / 2) true [1, 2, 3, 4, 100] = .ok [false, false, false, false, true] ∧
    zscoreDetector (7 / 2) [1, 2, 3, 4, 100] = .ok [false, false, false, false, true] := by
  refine ⟨by decide +kernel, by decide +kernel, by decide +kernel⟩

end OptBinning
