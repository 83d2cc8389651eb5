import Verif.Lemmas.CatStream2

/-! # What `_compute_cat_prebins` returns -/
namespace OptBinning
open Finset

/-- The splits `S` with the counts between them, all groups mixed. -/
structure GoodCatPrebins (nev ev : List ℕ) (S : List ℕ) : Prop where
  sorted : S.Pairwise (· < ·)
  range : ∀ s ∈ S, 1 ≤ s ∧ s < nev.length
  mixed : ∀ i ≤ S.length, MixedG (cnt S) nev ev i

/-- The value of `_compute_cat_prebins` for the splits `S`. -/
def catPrebinsOf (S nev ev : List ℕ) : CatPrebins :=
  ⟨S.map half, groupSums (cnt S) S.length nev, groupSums (cnt S) S.length ev⟩

theorem size_bound {a : ℕ → ℕ} {k N m : ℕ} (hm : 0 < m) (h : ∀ g < k, N ≤ m * a g) (hl : 0 < a k) (hs : ∑ g ∈ Finset.range (k + 1), a g ≤ N) : k < m := by
  by_contra hc
  have h1 : ∑ g ∈ Finset.range k, N ≤ ∑ g ∈ Finset.range k, m * a g := Finset.sum_le_sum fun g hg => h g (by simpa using hg)
  rw [Finset.sum_const, Finset.card_range, ← Finset.mul_sum, smul_eq_mul] at h1
  rw [Finset.sum_range_succ] at hs
  have h2 : m * (∑ g ∈ Finset.range k, a g) < m * N := Nat.mul_lt_mul_of_pos_left (by omega) hm
  have : m * N ≤ k * N := Nat.mul_le_mul_right _ (by omega)
  omega

theorem sizeMask_getD {cfg : CatStreamCfg} (hm : 0 < cfg.maxPrebins) {N : ℕ} {nev ev : List ℕ} {i : ℕ} (h1 : i < nev.length) (h2 : i < ev.length) :
    (cfg.sizeMask N nev ev).getD i false = decide (cfg.maxPrebins * (nev.getD i 0 + ev.getD i 0) < N) := by
  unfold CatStreamCfg.sizeMask
  rw [List.getD_eq_getElem _ _ (by simp; omega), List.getD_eq_getElem _ _ h1, List.getD_eq_getElem _ _ h2]
  simp only [List.getElem_map, List.getElem_zip]
  congr 1
  rw [lt_div_iff₀ (by exact_mod_cast hm), eq_iff_iff]
  rw [mul_comm]
  exact_mod_cast Iff.rfl

theorem length_sizeMask {cfg : CatStreamCfg} {N : ℕ} {nev ev : List ℕ} (hl : nev.length = ev.length) :
    (cfg.sizeMask N nev ev).length = nev.length := by simp [CatStreamCfg.sizeMask, hl]

theorem length_removeMask {cfg : CatStreamCfg} {N : ℕ} {nev ev : List ℕ} (hl : nev.length = ev.length) :
    (cfg.removeMask N nev ev).length = nev.length := by
  unfold CatStreamCfg.removeMask
  split_ifs <;> simp [CatStreamCfg.sizeMask, pureMask, hl]

theorem removeMask_getD {cfg : CatStreamCfg} (hm : 0 < cfg.maxPrebins) {N : ℕ} {nev ev : List ℕ} {i : ℕ} (h1 : i < nev.length) (h2 : i < ev.length) :
    (cfg.removeMask N nev ev).getD i false = ((nev.getD i 0 == 0 || ev.getD i 0 == 0) ||
      (cfg.big nev && decide (cfg.maxPrebins * (nev.getD i 0 + ev.getD i 0) < N))) := by
  unfold CatStreamCfg.removeMask
  by_cases hb : cfg.big nev = true
  · rw [if_pos hb, hb, Bool.true_and, ← getD_pureMask h1 h2, ← sizeMask_getD hm h1 h2]
    have l1 : i < (pureMask nev ev).length := by simp [pureMask]; omega
    have l2 : i < (cfg.sizeMask N nev ev).length := by simp [CatStreamCfg.sizeMask]; omega
    rw [List.getD_eq_getElem _ _ (by simp; omega), List.getD_eq_getElem _ _ l1, List.getD_eq_getElem _ _ l2]
    simp
  · rw [if_neg hb, getD_pureMask h1 h2]
    simp at hb
    simp [hb]

theorem getD_range_succ {n t : ℕ} (h : t < n) : ((List.range n).map (· + 1)).getD t 0 = t + 1 := by
  rw [List.getD_eq_getElem _ _ (by simpa using h)]; simp

theorem sorted_range_succ (n : ℕ) : ((List.range n).map (· + 1)).Pairwise (· < ·) := by
  rw [List.pairwise_map]
  exact List.pairwise_lt_range.imp fun h => by omega

theorem cnt_range_succ (n j : ℕ) : cnt ((List.range n).map (· + 1)) j = min j n := by
  have key : ∀ t, t < cnt ((List.range n).map (· + 1)) j ↔ t < min j n := by
    intro t
    rw [lt_cnt (sorted_range_succ n)]
    simp only [List.length_map, List.length_range]
    constructor
    · rintro ⟨h1, h2⟩; rw [getD_range_succ h1] at h2; omega
    · intro h; exact ⟨by omega, by rw [getD_range_succ (by omega)]; omega⟩
  apply Nat.le_antisymm
  · by_contra hc; have := (key _).1 (not_le.1 hc); omega
  · by_contra hc; have := (key _).2 (not_le.1 hc); omega

/-- The state after the first round. -/
theorem round_one {nev ev : List ℕ} {rm : List Bool} {N : ℕ} (hl : nev.length = ev.length) (hn : 2 ≤ nev.length) (hrl : rm.length = nev.length)
    (hpos : ∀ i < nev.length, 0 < nev.getD i 0 + ev.getD i 0) (hN : nev.sum + ev.sum ≤ N) :
    ∃ S : List ℕ, select (catSplits nev.length) ((maskSplits false rm).map (!·)) = S.map half ∧ S.Pairwise (· < ·) ∧
      (∀ s ∈ S, 1 ≤ s ∧ s < nev.length) ∧
      (∀ g < S.length, ∃ i < nev.length, rm.getD i false = false ∧ cnt S i = g) ∧
      (∀ m, 0 < m → (∀ i < nev.length, rm.getD i false = false → N ≤ m * (nev.getD i 0 + ev.getD i 0)) → S.length < m) := by
  set n := nev.length with hnn
  set S0 := (List.range (n - 1)).map (· + 1) with hS0
  set S := select S0 ((maskSplits false rm).map (!·)) with hS
  have hsub : S.Sublist S0 := select_sublist _ _
  have hsort : S.Pairwise (· < ·) := (sorted_range_succ _).sublist hsub
  have hrange : ∀ s ∈ S, 1 ≤ s ∧ s < n := by
    intro s hs
    have := hsub.subset hs
    rw [hS0, List.mem_map] at this
    obtain ⟨a, ha, rfl⟩ := this
    simp at ha; omega
  have hml : (maskSplits false rm).length = n - 1 := length_maskSplits (by omega) (by omega)
  have hgrp : ∀ g < S.length, ∃ i < n, rm.getD i false = false ∧ cnt S i = g := by
    intro g hg
    have hmem : S.getD g 0 ∈ S := by rw [List.getD_eq_getElem _ _ hg]; exact List.getElem_mem _
    obtain ⟨i, hi1, hi2, hi3⟩ := exists_of_mem_select hmem
    have hi1' : i < n - 1 := by simpa [hS0] using hi1
    have hval : S.getD g 0 = i + 1 := by
      rw [hS0] at hi2
      simp [hi1'] at hi2
      exact hi2.symm
    rw [List.getD_eq_getElem _ _ (by rw [List.length_map]; omega), List.getElem_map, ← List.getD_eq_getElem _ false,
      getD_maskSplits (k := n - 1) (by omega) hi1'] at hi3
    refine ⟨i, by omega, ?_, ?_⟩
    · split_ifs at hi3
      · simp at hi3; exact hi3.1
      · simpa using hi3
    · have key : ∀ t, t < cnt S i ↔ t < g := by
        intro t
        rw [lt_cnt hsort]
        constructor
        · rintro ⟨h1, h2⟩
          by_contra hc
          rcases Nat.eq_or_lt_of_le (not_lt.1 hc) with h3 | h3
          · subst h3; omega
          · have := getD_lt hsort h3 h1; omega
        · intro h1
          have := getD_lt hsort h1 hg
          exact ⟨by omega, by omega⟩
      apply Nat.le_antisymm
      · by_contra hc; have := (key _).1 (not_le.1 hc); omega
      · by_contra hc; have := (key _).2 (not_le.1 hc); omega
  refine ⟨S, by rw [catSplits_eq, select_map], hsort, hrange, hgrp, ?_⟩
  intro m hm0 hm
  have hcl : ∀ j < nev.length, cnt S j ≤ S.length := fun j _ => cnt_le_length _ _
  have hcl' : ∀ j < ev.length, cnt S j ≤ S.length := fun j _ => cnt_le_length _ _
  refine size_bound (a := fun g => grpSum (cnt S) nev g + grpSum (cnt S) ev g) (N := N) hm0 ?_ ?_ ?_
  · intro g hg
    obtain ⟨i, hi, hr, hc⟩ := hgrp g hg
    have h1 := hm i hi hr
    have h2 := grpSum_le (φ := cnt S) (cs := nev) (i := g) (j := i) (by omega) hc
    have h3 := grpSum_le (φ := cnt S) (cs := ev) (i := g) (j := i) (by omega) hc
    exact le_trans h1 (Nat.mul_le_mul_left _ (by omega))
  · have hlast : cnt S (n - 1) = S.length := by
      unfold cnt
      rw [List.countP_eq_length]
      intro s hs
      have := (hrange s hs).2
      simp; omega
    have h2 := grpSum_le (φ := cnt S) (cs := nev) (i := S.length) (j := n - 1) (by omega) hlast
    have h3 := grpSum_le (φ := cnt S) (cs := ev) (i := S.length) (j := n - 1) (by omega) hlast
    have := hpos (n - 1) (by omega)
    show 0 < grpSum (cnt S) nev S.length + grpSum (cnt S) ev S.length
    omega
  · rw [Finset.sum_add_distrib]
    have h1 := sum_groupSums hcl
    have h2 := sum_groupSums hcl'
    rw [sum_eq_range, length_groupSums] at h1 h2
    rw [Finset.sum_congr rfl (fun g hg => getD_groupSums (cnt S) S.length nev (by simp at hg; omega))] at h1
    rw [Finset.sum_congr rfl (fun g hg => getD_groupSums (cnt S) S.length ev (by simp at hg; omega))] at h2
    rw [h1, h2]; exact hN

theorem catPrebins_one {cfg : CatStreamCfg} {N : ℕ} {nev ev S : List ℕ} (hsort : S.Pairwise (· < ·))
    (hrange : ∀ s ∈ S, 1 ≤ s ∧ s < nev.length)
    (hb : cfg.heur = false ∨ S.length + 1 ≤ cfg.maxPrebins) (hany : (pureMask (groupSums (cnt S) S.length nev) (groupSums (cnt S) S.length ev)).any id = false) :
    catPrebins cfg N (S.map half) (groupSums (cnt S) S.length nev) (groupSums (cnt S) S.length ev) = .ok (catPrebinsOf S nev ev) ∧
    GoodCatPrebins nev ev S := by
  obtain ⟨-, hrm⟩ := removeMask_eq (cfg := cfg) (n := N) (a := groupSums (cnt S) S.length nev) (b := groupSums (cnt S) S.length ev)
    (by rw [length_groupSums]; exact hb)
  constructor
  · rw [catPrebins, hrm, if_neg (by rw [hany]; decide)]; rfl
  · refine ⟨hsort, hrange, fun i hi => ?_⟩
    by_contra hc
    have : (pureMask (groupSums (cnt S) S.length nev) (groupSums (cnt S) S.length ev)).any id = true := by
      rw [any_pureMask (by simp)]
      refine ⟨i, by simp; omega, ?_⟩
      rw [getD_groupSums _ _ _ hi, getD_groupSums _ _ _ hi]
      unfold MixedG at hc; omega
    rw [hany] at this; exact absurd this (by decide)

/-- All outcomes of `_compute_cat_prebins` on the categories of a sketch. -/
theorem catPrebins_main {cfg : CatStreamCfg} {N : ℕ} {nev ev : List ℕ} (hm : 0 < cfg.maxPrebins) (hl : nev.length = ev.length)
    (hn : 1 ≤ nev.length) (hpos : ∀ i < nev.length, 0 < nev.getD i 0 + ev.getD i 0) (hN : nev.sum + ev.sum ≤ N) :
    (∃ S, catPrebins cfg N (catSplits nev.length) nev ev = .ok (catPrebinsOf S nev ev) ∧ GoodCatPrebins nev ev S) ∨
    ((cfg.keepPure && cfg.heur) = false ∧ catPrebins cfg N (catSplits nev.length) nev ev = .error "IndexError" ∧ (nev.sum = 0 ∨ ev.sum = 0)) ∨
    ((cfg.keepPure && cfg.heur) = true ∧ catPrebins cfg N (catSplits nev.length) nev ev = .error "UnboundLocalError") := by
  by_cases hany : (cfg.removeMask N nev ev).any id = true
  swap
  · -- nothing to remove
    left
    refine ⟨(List.range (nev.length - 1)).map (· + 1), ?_, sorted_range_succ _, ?_, ?_⟩
    · rw [catPrebins, if_neg hany, catPrebinsOf]
      have e : ∀ cs : List ℕ, cs.length = nev.length → groupSums (cnt ((List.range (nev.length - 1)).map (· + 1))) ((List.range (nev.length - 1)).map (· + 1)).length cs = cs := by
        intro cs hcs
        rw [groupSums_congr (ψ := id), groupSums_id]
        · simp; omega
        · intro j hj; rw [cnt_range_succ]; simp only [id]; omega
      rw [e _ rfl, e _ hl.symm, catSplits_eq]
    · intro s hs
      simp only [List.mem_map, List.mem_range] at hs
      obtain ⟨a, h1, h2⟩ := hs
      omega
    · intro i hi
      simp only [List.length_map, List.length_range] at hi
      have hr : (cfg.removeMask N nev ev).getD i false = false := by
        by_contra hc
        apply hany
        rw [List.any_eq_true]
        have hlt : i < (cfg.removeMask N nev ev).length := by rw [length_removeMask hl]; omega
        rw [List.getD_eq_getElem _ _ hlt] at hc
        exact ⟨_, List.getElem_mem _, by simpa using hc⟩
      rw [removeMask_getD hm (by omega) (by omega)] at hr
      simp only [Bool.or_eq_false_iff, beq_eq_false_iff_ne] at hr
      have hc : cnt ((List.range (nev.length - 1)).map (· + 1)) i = i := by rw [cnt_range_succ]; omega
      exact ⟨grpSum_pos (j := i) (by omega) hc (by omega), grpSum_pos (j := i) (by omega) hc (by omega)⟩
  have hexists : ∃ i < nev.length, (cfg.removeMask N nev ev).getD i false = true := by
    rw [List.any_eq_true] at hany
    obtain ⟨b, hb, hbt⟩ := hany
    obtain ⟨i, hi, rfl⟩ := List.getElem_of_mem hb
    refine ⟨i, by rw [← length_removeMask hl]; exact hi, ?_⟩
    rw [List.getD_eq_getElem _ _ hi]; simpa using hbt
  have hspl : (catSplits nev.length).length = nev.length - 1 := by simp [catSplits]
  by_cases hkh : (cfg.keepPure && cfg.heur) = true
  · -- hellinger, triangular with the heuristic
    by_cases hbig : cfg.big nev = true
    swap
    · right; right
      refine ⟨hkh, ?_⟩
      simp at hbig
      rw [catPrebins, if_pos hany, if_pos (by rw [hkh, hbig]; rfl)]
    have hlen : cfg.maxPrebins < nev.length := by
      unfold CatStreamCfg.big at hbig
      simp at hbig; exact hbig.2
    have hsz : (cfg.sizeMask N nev ev).any id = true := by
      by_contra hc
      have hall : ∀ i < nev.length, N ≤ cfg.maxPrebins * (nev.getD i 0 + ev.getD i 0) := by
        intro i hi
        by_contra hlt
        apply hc
        rw [List.any_eq_true]
        have h1 := sizeMask_getD (cfg := cfg) hm (N := N) (nev := nev) (ev := ev) (i := i) hi (by omega)
        rw [List.getD_eq_getElem _ _ (by rw [length_sizeMask hl]; exact hi)] at h1
        exact ⟨_, List.getElem_mem _, by simp only [id]; rw [h1]; simpa using hlt⟩
      have hb := size_bound (a := fun g => nev.getD g 0 + ev.getD g 0) (k := nev.length - 1) (N := N) (m := cfg.maxPrebins) hm
        (fun g hg => hall g (by omega)) (hpos _ (by omega)) (by
          rw [Finset.sum_add_distrib]
          have h1 := sum_eq_range nev
          have h2 := sum_eq_range ev
          rw [show nev.length - 1 + 1 = nev.length by omega, ← h1, hl, ← h2]; exact hN)
      omega
    obtain ⟨S, hsel, hsort, hrange, hgrp, hsize⟩ := round_one (rm := cfg.sizeMask N nev ev) (N := N) hl (by omega) (length_sizeMask hl) hpos hN
    have hSm : S.length + 1 ≤ cfg.maxPrebins := hsize _ hm fun i hi hr => by
      rw [sizeMask_getD hm hi (by omega)] at hr
      simpa using hr
    have hstep : catPrebins cfg N (catSplits nev.length) nev ev =
        catPrebins cfg N (S.map half) (groupSums (cnt S) S.length nev) (groupSums (cnt S) S.length ev) := by
      conv_lhs => rw [catPrebins]
      rw [if_pos hany, if_neg (by rw [hbig]; simp)]
      simp only [hkh, if_true]
      rw [if_neg (by rw [length_sizeMask hl]; omega), dif_pos ⟨by rw [length_sizeMask hl, hspl]; omega, by rw [hspl]; omega, hsz⟩]
      rw [hsel, regroupCounts_eq, regroupCounts_eq]
    rw [hstep]
    by_cases hp : (pureMask (groupSums (cnt S) S.length nev) (groupSums (cnt S) S.length ev)).any id = true
    · right; right
      refine ⟨hkh, ?_⟩
      obtain ⟨hb', hrm⟩ := removeMask_eq (cfg := cfg) (n := N) (a := groupSums (cnt S) S.length nev) (b := groupSums (cnt S) S.length ev)
        (by rw [length_groupSums]; exact .inr hSm)
      rw [catPrebins, hrm, if_pos hp, if_pos (by rw [hkh, hb']; rfl)]
    · left
      simp only [Bool.not_eq_true] at hp
      exact ⟨S, catPrebins_one hsort hrange (.inr hSm) hp⟩
  · -- the other cases
    simp only [Bool.not_eq_true] at hkh
    by_cases hn1 : nev.length = 1
    · right; left
      refine ⟨hkh, ?_, ?_⟩
      · rw [catPrebins, if_pos hany, if_neg (by rw [hkh]; simp)]
        simp only [hkh, Bool.false_eq_true, if_false]
        rw [if_pos (by rw [length_removeMask hl]; omega)]
      · obtain ⟨i, hi, hr⟩ := hexists
        have hbig : cfg.big nev = false := by
          unfold CatStreamCfg.big
          have : decide (cfg.maxPrebins < nev.length) = false := by simp; omega
          simp [this]
        rw [removeMask_getD hm hi (by omega), hbig] at hr
        have hi0 : i = 0 := by omega
        subst hi0
        simp only [Bool.or_eq_true, beq_iff_eq, Bool.false_and, Bool.false_eq_true, or_false] at hr
        rw [sum_eq_range, sum_eq_range, ← hl, hn1]
        simpa using hr
    obtain ⟨S, hsel, hsort, hrange, hgrp, hsize⟩ := round_one (rm := cfg.removeMask N nev ev) (N := N) hl (by omega) (length_removeMask hl) hpos hN
    have hSm : cfg.heur = false ∨ S.length + 1 ≤ cfg.maxPrebins := by
      by_cases hh : cfg.heur = true
      swap
      · left; simpa using hh
      right
      by_cases hbig : cfg.big nev = true
      · refine hsize _ hm fun i hi hr => ?_
        rw [removeMask_getD hm hi (by omega), hbig] at hr
        simp only [Bool.or_eq_false_iff, Bool.true_and, decide_eq_false_iff_not, not_lt] at hr
        exact hr.2
      · have h1 : nev.length ≤ cfg.maxPrebins := by
          unfold CatStreamCfg.big at hbig
          rw [hh] at hbig
          simpa using hbig
        have h2 : S.length ≤ nev.length - 1 := by
          have h3 : (S.map half).length ≤ (catSplits nev.length).length := by rw [← hsel]; exact (select_sublist _ _).length_le
          rw [hspl] at h3
          simpa using h3
        omega
    have hstep : catPrebins cfg N (catSplits nev.length) nev ev =
        catPrebins cfg N (S.map half) (groupSums (cnt S) S.length nev) (groupSums (cnt S) S.length ev) := by
      conv_lhs => rw [catPrebins]
      rw [if_pos hany, if_neg (by rw [hkh]; simp)]
      simp only [hkh, Bool.false_eq_true, if_false]
      rw [if_neg (by rw [length_removeMask hl]; omega), dif_pos ⟨by rw [length_removeMask hl, hspl]; omega, by rw [hspl]; omega, hany⟩]
      rw [hsel, regroupCounts_eq, regroupCounts_eq]
    rw [hstep]
    by_cases hp : (pureMask (groupSums (cnt S) S.length nev) (groupSums (cnt S) S.length ev)).any id = true
    swap
    · left
      simp only [Bool.not_eq_true] at hp
      exact ⟨S, catPrebins_one hsort hrange hSm hp⟩
    obtain ⟨u, hu, hpre, hpost⟩ := exists_prefix hsort (fun s hs => (hrange s hs).1)
    set nev1 := groupSums (cnt S) S.length nev with hnev1
    set ev1 := groupSums (cnt S) S.length ev with hev1
    have hmix : ∀ g < S.length, 0 < nev1.getD g 0 ∧ 0 < ev1.getD g 0 := by
      intro g hg
      obtain ⟨i, hi, hr, hc⟩ := hgrp g hg
      rw [removeMask_getD hm hi (by omega)] at hr
      simp only [Bool.or_eq_false_iff, beq_eq_false_iff_ne] at hr
      rw [hnev1, hev1, getD_groupSums _ _ _ (by omega), getD_groupSums _ _ _ (by omega)]
      exact ⟨grpSum_pos (j := i) (by omega) hc (by omega), grpSum_pos (j := i) (by omega) hc (by omega)⟩
    have hctx : LoopCtx S u nev1 ev1 :=
      ⟨hsort, by simp [hnev1], by simp [hev1], le_getD hsort (fun s hs => (hrange s hs).1), hpre, hpost, hu, hmix⟩
    have hl1 : nev1.length = S.length + 1 := by simp [hnev1]
    have hl2 : ev1.length = S.length + 1 := by simp [hev1]
    have hid : ∀ cs : List ℕ, cs.length = S.length + 1 → ∀ i ≤ S.length, grpSum id cs i = cs.getD i 0 := by
      intro cs hcs i hi
      rw [← getD_groupSums id S.length cs hi, groupSums_id hcs]
    have hbad : LoopBad nev1 ev1 S.length id S.length := by
      refine ⟨le_refl _, ?_, by intro i h1 h2; omega, ?_⟩
      · intro i hi
        unfold MixedG
        rw [hid _ hl1 _ (by omega), hid _ hl2 _ (by omega)]
        exact hmix i hi
      · intro _
        rw [any_pureMask (by rw [hl1, hl2])] at hp
        obtain ⟨i, hi, hz⟩ := hp
        unfold MixedG
        rw [hid _ hl1 _ (le_refl _), hid _ hl2 _ (le_refl _)]
        rcases Nat.lt_or_ge i S.length with h1 | h1
        · have := hmix i h1; omega
        · have : i = S.length := by omega
          subst this; omega
    have hmain := loop_bad (cfg := cfg) (n := N) hctx hSm hkh S.length id S.length
      ⟨le_refl _, fun j hj => hj, fun j hj => rfl⟩ hbad
    rw [List.take_length, groupSums_id hl1, groupSums_id hl2] at hmain
    have hcl : ∀ j < nev.length, cnt S j ≤ S.length := fun j _ => cnt_le_length _ _
    have hcl' : ∀ j < ev.length, cnt S j ≤ S.length := fun j _ => cnt_le_length _ _
    rcases hmain with ⟨h1, h2⟩ | ⟨k', hk', h1, h2⟩
    · right; left
      refine ⟨hkh, h1, ?_⟩
      rw [hnev1, hev1, sum_groupSums hcl, sum_groupSums hcl'] at h2
      exact h2
    · left
      have hlen' : (S.take k').length = k' := by simp; omega
      have hce : ∀ cs : List ℕ, groupSums (min · k') k' (groupSums (cnt S) S.length cs) = groupSums (cnt (S.take k')) k' cs := by
        intro cs
        rw [groupSums_comp _ _ _ _ _ (fun j _ => cnt_le_length _ _)]
        exact groupSums_congr _ fun j _ => (cnt_take_eq_min hsort hk' j).symm
      refine ⟨S.take k', ?_, hsort.sublist (List.take_sublist _ _), fun s hs => hrange s (List.mem_of_mem_take hs), ?_⟩
      · rw [h1, catPrebinsOf, hlen', hnev1, hev1, hce, hce]
      · intro i hi
        rw [hlen'] at hi
        have := h2 i hi
        unfold MixedG at this ⊢
        have e : ∀ cs : List ℕ, grpSum (min · k') (groupSums (cnt S) S.length cs) i = grpSum (cnt (S.take k')) cs i := by
          intro cs
          rw [← getD_groupSums _ _ _ hi, ← getD_groupSums (cnt (S.take k')) k' cs hi, hce]
        rw [hnev1, hev1, e, e] at this
        exact this

end OptBinning
