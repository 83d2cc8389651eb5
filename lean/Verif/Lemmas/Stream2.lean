import Verif.Lemmas.Stream

/-! # Lemmas about streaming binning: quantiles and pre-bins -/
namespace OptBinning
open Finset
open Spec (usedValues specialCount missingCount classCount IsSpecialValue numLe numLt HasRankWithin)
variable {α : Type*} [LinearOrder α]

/-! ## quantiles -/

theorem flush_flush (k : GK α) : k.flush.flush = k.flush := by
  have : k.flush.incoming.length = 0 := by
    unfold GK.flush; split_ifs with h
    · exact h
    · rfl
  generalize k.flush = k' at this
  unfold GK.flush
  rw [if_pos this]

theorem quantile_flush (k : GK α) (q : ℚ) : k.flush.quantile q = k.quantile q := by
  unfold GK.quantile
  rw [flush_flush, (eps_flush k).2.1]

theorem quantile_state {k k' : GK α} {q : ℚ} {v : Option α} (h : k.quantile q = .ok (k', v)) : k' = k.flush := by
  unfold GK.quantile at h
  split_ifs at h
  simp only [Except.ok.injEq, Prod.mk.injEq] at h
  exact h.1.symm

theorem quantiles_flush (k : GK α) (qs : List ℚ) : k.flush.quantiles qs = k.quantiles qs := by
  cases qs with
  | nil => rfl
  | cons q qs => unfold GK.quantiles; rw [quantile_flush]

theorem quantiles_spec (k : GK α) (qs : List ℚ) (h : ∀ q ∈ qs, ∃ k' v, k.quantile q = .ok (k', some v)) :
    ∃ vs, k.quantiles qs = .ok vs ∧ List.Forall₂ (fun q v => k.quantile q = .ok (k.flush, some v)) qs vs := by
  induction qs with
  | nil => exact ⟨[], rfl, .nil⟩
  | cons q qs ih =>
    obtain ⟨k', v, hq⟩ := h q (by simp)
    obtain ⟨vs, h1, h2⟩ := ih fun q hq => h q (List.mem_cons_of_mem _ hq)
    have hk := quantile_state hq
    subst hk
    refine ⟨v :: vs, ?_, .cons hq h2⟩
    unfold GK.quantiles
    simp only [hq, quantiles_flush, h1]

omit [LinearOrder α] in
/-- Searching with a start value: the fallback is the start value. -/
theorem search_or (bound A : ℤ) (m : α) (es : List (Entry α)) :
    (searchEntries bound A none es).or (some m) = searchEntries bound A (some m) es := by
  cases es with
  | nil => rfl
  | cons e es =>
    unfold searchEntries
    split_ifs
    · rfl
    · have : ∀ (es : List (Entry α)) (A : ℤ) (p : α), ∃ v, searchEntries bound A (some p) es = some v := by
        intro es
        induction es with
        | nil => intro A p; exact ⟨p, rfl⟩
        | cons e es ih =>
          intro A p; unfold searchEntries; split_ifs
          · exact ⟨p, rfl⟩
          · exact ih _ _
      obtain ⟨v, hv⟩ := this es (A + e.g) e.value
      rw [hv]; rfl

theorem search_mono {b b' : ℤ} (hb : b ≤ b') : ∀ (es : List (Entry α)) (A : ℤ) (p : α), Sorted es → (∀ e ∈ es, p ≤ e.value) →
    ∃ v v', searchEntries b A (some p) es = some v ∧ searchEntries b' A (some p) es = some v' ∧ v ≤ v' ∧ p ≤ v := by
  intro es
  induction es with
  | nil => intro A p _ _; exact ⟨p, p, rfl, rfl, le_rfl, le_rfl⟩
  | cons e es ih =>
    intro A p hs hp
    have hpe := hp e (by simp)
    obtain ⟨v, v', h1, h2, h3, h4⟩ := ih (A + e.g) e.value (List.pairwise_cons.mp hs).2 (List.pairwise_cons.mp hs).1
    unfold searchEntries
    by_cases h : A + e.g + e.delta > b
    · rw [if_pos h]
      by_cases h' : A + e.g + e.delta > b'
      · rw [if_pos h']; exact ⟨p, p, rfl, rfl, le_rfl, le_rfl⟩
      · rw [if_neg h']; exact ⟨p, v', rfl, h2, hpe.trans (h4.trans h3), le_rfl⟩
    · have h' : ¬ A + e.g + e.delta > b' := by omega
      rw [if_neg h, if_neg h']
      exact ⟨v, v', h1, h2, h3, hpe.trans h4⟩

/-- Larger probabilities give larger quantiles. -/
theorem quantile_mono {S : List α} {E : ℤ} {k k1 k2 : GK α} (h : Collects S E k) (hne : S ≠ []) {q q' : ℚ} (hqq : q ≤ q') {v v' : α}
    (h1 : k.quantile q = .ok (k1, some v)) (h2 : k.quantile q' = .ok (k2, some v')) : v ≤ v' := by
  obtain ⟨hF, hinc⟩ := h.flush
  obtain ⟨T, ha, hs⟩ := hF.parts
  rw [hinc, List.append_nil] at ha
  rcases hF.mn with ⟨h0, -⟩ | ⟨m, hm, hmin⟩
  · exact absurd h0 hne
  have hlen : 0 < S.length := List.length_pos_iff_ne_nil.mpr hne
  have hn1 : (0 : ℚ) ≤ ((k.flush.count : ℕ) : ℚ) - 1 := by
    rw [hF.count]
    have : (1 : ℚ) ≤ (S.length : ℚ) := by exact_mod_cast hlen
    linarith
  unfold GK.quantile at h1 h2
  split_ifs at h1 h2
  simp only [Except.ok.injEq, Prod.mk.injEq, hm, search_or] at h1 h2
  have hb : ⌊q * ((k.flush.count : ℚ) - 1) + 1⌋ + ⌊k.flush.eps * ((k.flush.count : ℚ) - 1)⌋ ≤
      ⌊q' * ((k.flush.count : ℚ) - 1) + 1⌋ + ⌊k.flush.eps * ((k.flush.count : ℚ) - 1)⌋ := by
    have : ⌊q * ((k.flush.count : ℚ) - 1) + 1⌋ ≤ ⌊q' * ((k.flush.count : ℚ) - 1) + 1⌋ := by
      apply Int.floor_le_floor
      have := mul_le_mul_of_nonneg_right hqq hn1
      linarith
    omega
  obtain ⟨w, w', e1, e2, hle, -⟩ := search_mono hb k.flush.entries 0 m hs.sorted fun e he => hmin.2 _ (ha.mem _ (hs.mem e he))
  rw [h1.2] at e1; rw [h2.2] at e2
  simp only [Option.some.injEq] at e1 e2
  rw [e1, e2]; exact hle

theorem percentiles_sorted (m : ℕ) : (percentiles m).Pairwise (· ≤ ·) := by
  unfold percentiles
  rw [List.pairwise_map]
  refine List.Pairwise.imp ?_ List.pairwise_lt_range
  intro i j hij
  apply div_le_div_of_nonneg_right _ (by positivity)
  exact_mod_cast (by omega : i + 1 ≤ j + 1)

theorem percentiles_range (m : ℕ) : ∀ q ∈ percentiles m, 0 ≤ q ∧ q ≤ 1 := by
  intro q hq
  simp only [percentiles, List.mem_map, List.mem_range] at hq
  obtain ⟨i, hi, rfl⟩ := hq
  have hm : (0 : ℚ) < (m : ℚ) := by exact_mod_cast (by omega : 0 < m)
  refine ⟨by positivity, ?_⟩
  rw [div_le_one hm]
  exact_mod_cast (by omega : i + 1 ≤ m)

theorem forall₂_sorted {S : List α} {E : ℤ} {k : GK α} (h : Collects S E k) (hne : S ≠ []) {qs : List ℚ} {vs : List α}
    (hq : qs.Pairwise (· ≤ ·)) (hf : List.Forall₂ (fun q v => k.quantile q = .ok (k.flush, some v)) qs vs) : vs.Pairwise (· ≤ ·) := by
  induction hf with
  | nil => exact .nil
  | @cons q v qs vs h1 h2 ih =>
    rw [List.pairwise_cons] at hq ⊢
    refine ⟨fun w hw => ?_, ih hq.2⟩
    clear ih
    induction h2 with
    | nil => simp at hw
    | @cons q' v' qs' vs' h3 h4 ih' =>
      rcases List.mem_cons.mp hw with rfl | hw
      · exact quantile_mono h hne (hq.1 q' (by simp)) h1 h3
      · exact ih' ⟨fun x hx => hq.1 x (List.mem_cons_of_mem _ hx), (List.pairwise_cons.mp hq.2).2⟩ hw

/-- The candidate splits of a sketch with values. -/
theorem splits_spec {eps : ℚ} (heps : 0 < eps) (ops : List (MergeOp α)) (hne : collectedValues ops ≠ []) (m : ℕ) :
    ∃ vs, (GK.runMerge eps ops).quantiles (percentiles m) = .ok vs ∧ vs.length = m - 1 ∧ vs.Pairwise (· ≤ ·) ∧
      ∀ (i : ℕ) (hi : i < vs.length), HasRankWithin (collectedValues ops) vs[i]
        (⌊((i + 1 : ℕ) : ℚ) / m * (((collectedValues ops).length : ℚ) - 1)⌋ + 1) ⌊3 * eps * (((collectedValues ops).length : ℚ) - 1)⌋ := by
  obtain ⟨he, E, hE0, hE, hC⟩ := collects_run eps heps ops
  have hex : ∀ q ∈ percentiles m, ∃ k' v, (GK.runMerge eps ops).quantile q = .ok (k', some v) := by
    intro q hq
    obtain ⟨h0, h1⟩ := percentiles_range m q hq
    obtain ⟨k', v, h, -⟩ := C26_merged_quantile eps heps ops q h0 h1 hne
    exact ⟨k', v, h⟩
  obtain ⟨vs, h1, h2⟩ := quantiles_spec _ _ hex
  have hl : vs.length = m - 1 := by rw [← h2.length_eq]; simp [percentiles]
  refine ⟨vs, h1, hl, forall₂_sorted hC hne (percentiles_sorted m) h2, fun i hi => ?_⟩
  have hq : i < (percentiles m).length := by simp [percentiles]; omega
  have h3 := List.forall₂_iff_get.mp h2 |>.2 i hq hi
  simp only [List.get_eq_getElem] at h3
  have hpi : (percentiles m)[i] = ((i + 1 : ℕ) : ℚ) / m := by simp [percentiles]
  rw [hpi] at h3
  have hmem : ((i + 1 : ℕ) : ℚ) / m ∈ percentiles m := by rw [← hpi]; exact List.getElem_mem _
  obtain ⟨h0, h1'⟩ := percentiles_range m _ hmem
  obtain ⟨k', v, h, hr⟩ := C26_merged_quantile eps heps ops _ h0 h1' hne
  rw [h3] at h
  simp only [Except.ok.injEq, Prod.mk.injEq, Option.some.injEq] at h
  rw [h.2]; exact hr

/-- Without values the first call of `quantile` raises. -/
theorem splits_empty {k : GK α} (h : k.count = 0) {m : ℕ} (hm : 2 ≤ m) : k.quantiles (percentiles m) = .error "ValueError" := by
  obtain ⟨n, rfl⟩ : ∃ n, m = n + 2 := ⟨m - 2, by omega⟩
  have : percentiles (n + 2) = (((0 + 1 : ℕ) : ℚ) / ((n + 2 : ℕ) : ℚ)) :: ((List.range n).map fun i => ((i + 1 + 1 : ℕ) : ℚ) / ((n + 2 : ℕ) : ℚ)) := by
    unfold percentiles
    rw [show n + 2 - 1 = n + 1 from rfl, List.range_succ_eq_map, List.map_cons, List.map_map]
    rfl
  rw [this]
  unfold GK.quantiles GK.quantile
  rw [if_neg, if_pos h]
  have h1 : (0 : ℚ) < ((n + 2 : ℕ) : ℚ) := by positivity
  push Not
  refine ⟨by positivity, ?_⟩
  rw [div_le_one h1]
  exact_mod_cast (by omega : 0 + 1 ≤ n + 2)

/-! ## pre-bins -/

theorem length_counts (k : GK α) (splits : List α) : (k.counts splits).length = splits.length + 1 := by simp [GK.counts, GK.bins]

/-- All weights of the sketch are positive. -/
def Weighted (k : GK α) : Prop := ∀ e ∈ k.flush.entries, 0 < e.g

theorem Filled.weighted {eps : ℚ} (heps : 0 < eps) {k : GK α} {vs : List α} (h : Filled eps k vs) : Weighted k := by
  obtain ⟨ops, rfl, rfl⟩ := h
  exact (describes_run eps heps ops).1.flush.1.entries_pos

theorem counts_getD {k : GK α} (hk : Weighted k) (splits : List α) {i : ℕ} (hi : i < splits.length + 1) :
    (((k.counts splits).getD i 0 : ℕ) : ℤ) =
      ((k.flush.entries.filter fun e => splits.countP (fun s => decide (s < e.value)) == i).map Entry.g).sum := by
  unfold GK.counts GK.bins
  rw [List.map_map, List.getD_eq_getElem?_getD, List.getElem?_map, List.getElem?_range hi]
  simp only [Option.map_some, Option.getD_some, Function.comp]
  rw [Int.toNat_of_nonneg]
  apply List.sum_nonneg
  intro x hx
  obtain ⟨e, he, rfl⟩ := List.mem_map.mp hx
  exact (hk e (List.mem_of_mem_filter he)).le

theorem counts_sum {k : GK α} (hk : Weighted k) (splits : List α) :
    (((k.counts splits).sum : ℕ) : ℤ) = (k.flush.entries.map Entry.g).sum := by
  rw [← bins_sum k splits]
  have hnn : ∀ x ∈ k.bins splits, 0 ≤ x := by
    intro x hx
    simp only [GK.bins, List.mem_map] at hx
    obtain ⟨i, -, rfl⟩ := hx
    apply List.sum_nonneg
    intro y hy
    obtain ⟨e, he, rfl⟩ := List.mem_map.mp hy
    exact (hk e (List.mem_of_mem_filter he)).le
  unfold GK.counts
  generalize k.bins splits = l at hnn
  induction l with
  | nil => rfl
  | cons a l ih =>
    have := ih fun x hx => hnn x (List.mem_cons_of_mem _ hx)
    have ha := hnn a (by simp)
    simp only [List.map_cons, List.sum_cons, Nat.cast_add, this]
    omega

theorem Filled.counts_sum {eps : ℚ} (heps : 0 < eps) {k : GK α} {vs : List α} (h : Filled eps k vs) (splits : List α) :
    (k.counts splits).sum = vs.length := by
  have h1 := OptBinning.counts_sum (h.weighted heps) splits
  obtain ⟨ops, rfl, rfl⟩ := h
  have h2 := C26_bins_total eps heps ops splits
  rw [bins_sum] at h2
  rw [h2] at h1
  exact_mod_cast h1

theorem streamPrebins_spec {keepPure : Bool} {e ne : GK α} {splits : List α} {pb : StreamPrebins α}
    (h : streamPrebins keepPure e ne splits = .ok pb) :
    pb.splits.Sublist splits ∧ pb.nonevent = ne.counts pb.splits ∧ pb.event = e.counts pb.splits ∧ pb.refinements = 0 ∧
      (keepPure = false → (pureMask pb.nonevent pb.event).any id = false) ∧ (keepPure = true → pb.splits = splits) := by
  induction hn : splits.length using Nat.strong_induction_on generalizing splits with
  | _ n ih =>
    rw [streamPrebins] at h
    by_cases h1 : (pureMask (ne.counts splits) (e.counts splits)).any id = true
    · rw [dif_pos h1] at h
      cases keepPure with
      | true =>
        rw [if_pos rfl] at h
        split_ifs at h with h3
        rw [Except.ok.injEq] at h
        subst h
        exact ⟨List.Sublist.refl _, rfl, rfl, rfl, by simp, by simp⟩
      | false =>
        rw [if_neg (by simp)] at h
        by_cases h2 : splits.length = 0
        · rw [dif_pos h2] at h; simp at h
        · rw [dif_neg h2] at h
          have hm := maskSplits_any (c := false) (rm := pureMask (ne.counts splits) (e.counts splits)) (n := splits.length) (by omega)
            (by simp [pureMask, length_counts]) h1
          have hlt := length_select_lt hm.1 hm.2
          obtain ⟨a, b⟩ := ih _ (by rw [← hn]; exact hlt) h rfl
          exact ⟨a.trans (select_sublist _ _), b.1, b.2.1, b.2.2.1, b.2.2.2.1, by simp⟩
    · rw [dif_neg h1, Except.ok.injEq] at h
      subst h
      exact ⟨List.Sublist.refl _, rfl, rfl, rfl, fun _ => by simpa using h1, fun _ => rfl⟩

theorem pureMask_false {nev ev : List ℕ} (hl : nev.length = ev.length) (h : (pureMask nev ev).any id = false) :
    (∀ x ∈ nev, 0 < x) ∧ ∀ x ∈ ev, 0 < x := by
  induction nev generalizing ev with
  | nil => cases ev with
    | nil => simp
    | cons => simp at hl
  | cons a nev ih =>
    cases ev with
    | nil => simp at hl
    | cons b ev =>
      simp only [pureMask, List.zip_cons_cons, List.map_cons, List.any_cons, id, Bool.or_eq_false_iff, beq_eq_false_iff_ne] at h
      obtain ⟨h1, h2⟩ := ih (ev := ev) (by simpa using hl) h.2
      exact ⟨by intro x hx; rcases List.mem_cons.mp hx with rfl | hx; exacts [Nat.pos_of_ne_zero h.1.1, h1 x hx],
        by intro x hx; rcases List.mem_cons.mp hx with rfl | hx; exacts [Nat.pos_of_ne_zero h.1.2, h2 x hx]⟩

/-- The refinement succeeds exactly if it may keep pure pre-bins or both classes have weight. -/
theorem streamPrebins_ok {eps : ℚ} (heps : 0 < eps) {e ne : GK α} {ve vn : List α} (he : Filled eps e ve) (hn : Filled eps ne vn)
    (splits : List α) : (∃ pb, streamPrebins false e ne splits = .ok pb) ↔ ve ≠ [] ∧ vn ≠ [] := by
  constructor
  · rintro ⟨pb, h⟩
    obtain ⟨-, h1, h2, -, h3, -⟩ := streamPrebins_spec h
    have hl : pb.nonevent.length = pb.event.length := by rw [h1, h2, length_counts, length_counts]
    obtain ⟨a, b⟩ := pureMask_false hl (h3 rfl)
    constructor
    · rintro rfl
      have := he.counts_sum heps pb.splits
      rw [← h2] at this
      have hpos : 0 < pb.event.length := by rw [h2, length_counts]; omega
      obtain ⟨x, hx⟩ := List.exists_mem_of_length_pos hpos
      have := (List.sum_eq_zero_iff.mp this) x hx
      have := b x hx
      omega
    · rintro rfl
      have := hn.counts_sum heps pb.splits
      rw [← h1] at this
      have hpos : 0 < pb.nonevent.length := by rw [h1, length_counts]; omega
      obtain ⟨x, hx⟩ := List.exists_mem_of_length_pos hpos
      have := (List.sum_eq_zero_iff.mp this) x hx
      have := a x hx
      omega
  · rintro ⟨h1, h2⟩
    induction hm : splits.length using Nat.strong_induction_on generalizing splits with
    | _ n ih =>
      rw [streamPrebins]
      by_cases hp : (pureMask (ne.counts splits) (e.counts splits)).any id = true
      · rw [dif_pos hp, if_neg (by simp)]
        have h0 : ¬ splits.length = 0 := by
          intro h0
          have hs : splits = [] := List.length_eq_zero_iff.mp h0
          subst hs
          have a := he.counts_sum heps []
          have b := hn.counts_sum heps []
          have la := length_counts e ([] : List α)
          have lb := length_counts ne ([] : List α)
          obtain ⟨x, hx⟩ := List.length_eq_one_iff.mp la
          obtain ⟨y, hy⟩ := List.length_eq_one_iff.mp lb
          rw [hx] at a; rw [hy] at b
          have pa : 0 < ve.length := List.length_pos_iff_ne_nil.mpr h1
          have pb : 0 < vn.length := List.length_pos_iff_ne_nil.mpr h2
          simp only [List.sum_cons, List.sum_nil, add_zero] at a b
          rw [hx, hy] at hp
          simp only [pureMask, List.zip_cons_cons, List.zip_nil_right, List.map_cons, List.map_nil, List.any_cons, List.any_nil, id,
            Bool.or_false, Bool.or_eq_true, beq_iff_eq] at hp
          omega
        rw [dif_neg h0]
        have hmk := maskSplits_any (c := false) (rm := pureMask (ne.counts splits) (e.counts splits)) (n := splits.length) (by omega)
          (by simp [pureMask, length_counts]) hp
        exact ih _ (by rw [← hm]; exact length_select_lt hmk.1 hmk.2) _ rfl
      · rw [dif_neg hp]; exact ⟨_, rfl⟩

theorem streamPrebins_keep {eps : ℚ} (heps : 0 < eps) {e ne : GK α} {ve vn : List α} (he : Filled eps e ve) (hn : Filled eps ne vn)
    (splits : List α) (hs : splits ≠ []) :
    (∃ pb, streamPrebins true e ne splits = .ok pb) ↔ ve ≠ [] ∧ vn ≠ [] := by
  have hl : splits.length ≠ 0 := fun h => hs (List.length_eq_zero_iff.1 h)
  rw [streamPrebins]
  by_cases hp : (pureMask (ne.counts splits) (e.counts splits)).any id = true
  · rw [dif_pos hp, if_pos rfl, he.counts_sum heps, hn.counts_sum heps]
    simp only [ne_eq, hl, not_false_eq_true, true_and, List.length_eq_zero_iff]
    split_ifs with h
    · simp only [exists_false, false_iff, not_and_or, not_not]
      exact h.symm
    · rw [not_or] at h
      exact ⟨fun _ => ⟨h.2, h.1⟩, fun _ => ⟨_, rfl⟩⟩
  · rw [dif_neg hp]
    refine ⟨fun _ => ?_, fun _ => ⟨_, rfl⟩⟩
    obtain ⟨h1, h2⟩ := pureMask_false (nev := ne.counts splits) (ev := e.counts splits) (by rw [length_counts, length_counts]) (by simpa using hp)
    constructor
    · rintro rfl
      have := he.counts_sum heps splits
      cases hc : e.counts splits with
      | nil => have h3 := length_counts e splits; rw [hc] at h3; simp at h3
      | cons x xs => rw [hc] at this h2; have := h2 x (by simp); simp at *; omega
    · rintro rfl
      have := hn.counts_sum heps splits
      cases hc : ne.counts splits with
      | nil => have h3 := length_counts ne splits; rw [hc] at h3; simp at h3
      | cons x xs => rw [hc] at this h1; have := h1 x (by simp); simp at *; omega

/-- Joining pre-bins gives the counts for the remaining splits. -/
theorem accum_counts {k : GK α} (hk : Weighted k) {splits : List α} (hs : splits.Pairwise (· ≤ ·)) {sol : List Bool}
    (hl : sol.length = splits.length + 1) (hlast : sol.getLast? = some true) :
    accumBins sol (k.counts splits) 0 = k.counts (select splits sol.dropLast) := by
  have hcount : sol.count true = (select splits sol.dropLast).length + 1 := by
    rw [length_select _ _ (by simp [hl])]
    obtain ⟨l, hl⟩ := List.getLast?_eq_some_iff.1 hlast
    rw [hl]; simp
  apply List.ext_getElem
  · rw [accumBins_length _ _ _ (by rw [hl, length_counts]), length_counts, hcount]
  · intro j h1 h2
    have g1 : (accumBins sol (k.counts splits) 0)[j] = (accumBins sol (k.counts splits) 0).getD j 0 := by
      rw [List.getD_eq_getElem?_getD, List.getElem?_eq_getElem h1]; rfl
    have g2 : (k.counts (select splits sol.dropLast))[j] = (k.counts (select splits sol.dropLast)).getD j 0 := by
      rw [List.getD_eq_getElem?_getD, List.getElem?_eq_getElem h2]; rfl
    rw [g1, g2]
    rw [length_counts] at h2
    apply Int.natCast_inj.mp
    rw [counts_getD hk _ h2, accumBins_getD _ _ _ _ (by rw [hl, length_counts]) (Or.inr hlast)]
    simp only [ite_self, zero_add]
    push_cast
    have hsum : ∀ L : List (Entry α), (∑ i ∈ range sol.length, if binOf sol i = j then
        ((L.filter fun e => splits.countP (fun s => decide (s < e.value)) == i).map Entry.g).sum else 0) =
        ((L.filter fun e => (select splits sol.dropLast).countP (fun s => decide (s < e.value)) == j).map Entry.g).sum := by
      intro L
      induction L with
      | nil => simp
      | cons e L ih =>
        have hc : splits.countP (fun s => decide (s < e.value)) < sol.length := by
          have := List.countP_le_length (l := splits) (p := fun s => decide (s < e.value)); omega
        have hb : (select splits sol.dropLast).countP (fun s => decide (s < e.value)) =
            binOf sol (splits.countP (fun s => decide (s < e.value))) := by
          rw [countP_select_lt hs (by simp [hl]) e.value]
          exact binOf_dropLast sol (by omega)
        have hstep : ∀ (p : Entry α → Bool), (((e :: L).filter p).map Entry.g).sum = (if p e then e.g else 0) + ((L.filter p).map Entry.g).sum := by
          intro p
          by_cases hp : p e
          · rw [List.filter_cons_of_pos hp]; simp [hp]
          · rw [List.filter_cons_of_neg hp]; simp [hp]
        simp only [hstep]
        rw [← ih, hb]
        have : ∀ i, (if binOf sol i = j then (if (splits.countP (fun s => decide (s < e.value)) == i) = true then e.g else 0) +
              ((L.filter fun e => splits.countP (fun s => decide (s < e.value)) == i).map Entry.g).sum else 0) =
            (if i = splits.countP (fun s => decide (s < e.value)) then (if binOf sol i = j then e.g else 0) else 0) +
              (if binOf sol i = j then ((L.filter fun e => splits.countP (fun s => decide (s < e.value)) == i).map Entry.g).sum else 0) := by
          intro i
          by_cases h1 : binOf sol i = j
          · by_cases h2 : splits.countP (fun s => decide (s < e.value)) = i
            · simp [h1, h2]
            · simp [h1, h2, Ne.symm h2]
          · simp [h1]
        rw [sum_congr rfl fun i _ => this i, sum_add_distrib, sum_ite_eq']
        simp [hc]
    rw [← hsum]
    apply sum_congr rfl
    intro i hi
    split_ifs with h
    · rw [counts_getD hk _ (by have := mem_range.mp hi; omega)]
    · rfl

end OptBinning
