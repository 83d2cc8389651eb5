import Verif.Lemmas.CatStream

/-! # The refinement loop of `_compute_cat_prebins` ends with the counts of the categories between the splits -/
namespace OptBinning
open Finset

theorem getD_pureMask {nev ev : List ℕ} {i : ℕ} (h1 : i < nev.length) (h2 : i < ev.length) :
    (pureMask nev ev).getD i false = (nev.getD i 0 == 0 || ev.getD i 0 == 0) := by
  unfold pureMask
  rw [List.getD_eq_getElem _ _ (by simp; omega), List.getD_eq_getElem _ _ h1, List.getD_eq_getElem _ _ h2]
  simp

theorem any_pureMask {nev ev : List ℕ} (hl : nev.length = ev.length) :
    (pureMask nev ev).any id = true ↔ ∃ i < nev.length, nev.getD i 0 = 0 ∨ ev.getD i 0 = 0 := by
  have hlen : (pureMask nev ev).length = nev.length := by simp [pureMask, hl]
  rw [List.any_eq_true]
  constructor
  · rintro ⟨b, hb, hbt⟩
    obtain ⟨i, hi, rfl⟩ := List.getElem_of_mem hb
    have h := getD_pureMask (nev := nev) (ev := ev) (i := i) (by omega) (by omega)
    rw [List.getD_eq_getElem _ _ hi] at h
    simp only [id] at hbt
    rw [hbt] at h
    exact ⟨i, by omega, by simpa using h.symm⟩
  · rintro ⟨i, hi, h⟩
    have h' := getD_pureMask (nev := nev) (ev := ev) (i := i) (by omega) (by omega)
    rw [List.getD_eq_getElem _ _ (by omega)] at h'
    exact ⟨_, List.getElem_mem _, by simp only [id]; rw [h']; simpa using h⟩

section Loop
variable {S : List ℕ} {u : ℕ} {nev ev : List ℕ} {cfg : CatStreamCfg} {n : ℕ}

/-- Group `i` has records of both classes. -/
def MixedG (φ : ℕ → ℕ) (nev ev : List ℕ) (i : ℕ) : Prop := 0 < grpSum φ nev i ∧ 0 < grpSum φ ev i

instance (φ : ℕ → ℕ) (nev ev : List ℕ) (i : ℕ) : Decidable (MixedG φ nev ev i) := by unfold MixedG; infer_instance

/-- The state after the first round: `S` are the splits that were kept, `nev`, `ev` the counts of the groups. -/
structure LoopCtx (S : List ℕ) (u : ℕ) (nev ev : List ℕ) : Prop where
  sorted : S.Pairwise (· < ·)
  len : nev.length = S.length + 1
  lenE : ev.length = S.length + 1
  low : ∀ i < S.length, i + 1 ≤ S.getD i 0
  pre : ∀ i < u, S.getD i 0 = i + 1
  post : ∀ i, u ≤ i → i < S.length → i + 2 ≤ S.getD i 0
  ule : u ≤ S.length
  mixed : ∀ g < S.length, 0 < nev.getD g 0 ∧ 0 < ev.getD g 0

/-- The invariant of the later rounds. -/
structure LoopInv (S : List ℕ) (u : ℕ) (nev ev : List ℕ) (k : ℕ) (φ : ℕ → ℕ) : Prop where
  kle : k ≤ S.length
  le : ∀ j ≤ S.length, φ j ≤ k
  trunc : ∀ j ≤ S.length, min (φ j) (min k u) = min j (min k u)

/-- The last group is not mixed, in a particular way. -/
structure LoopBad (nev ev : List ℕ) (k : ℕ) (φ : ℕ → ℕ) (x : ℕ) : Prop where
  xle : x ≤ k
  before : ∀ i < x, MixedG φ nev ev i
  after : ∀ i, x < i → i ≤ k → grpSum φ nev i = 0 ∧ grpSum φ ev i = 0
  last : x = k → ¬ MixedG φ nev ev k

theorem cnt_take_zero (h : LoopCtx S u nev ev) {k : ℕ} (hk : k ≤ S.length) : cnt (S.take k) 0 = 0 := by
  by_contra hc
  have h1 := (lt_cnt_take h.sorted hk 0 0).1 (by omega)
  have h2 := h.low 0 (by omega)
  omega

theorem cnt_take_le (h : LoopCtx S u nev ev) {k : ℕ} (hk : k ≤ S.length) (g : ℕ) : cnt (S.take k) g ≤ g := by
  by_contra hc
  have h1 := (lt_cnt_take h.sorted hk g g).1 (by omega)
  have h2 := h.low g (by omega)
  omega

theorem cnt_take_mono (h : LoopCtx S u nev ev) {k : ℕ} (hk : k ≤ S.length) {g g' : ℕ} (hg : g ≤ g') :
    cnt (S.take k) g ≤ cnt (S.take k) g' := by
  by_contra hc
  have h1 := (lt_cnt_take h.sorted hk (cnt (S.take k) g') g).1 (by omega)
  have h2 := (lt_cnt_take h.sorted hk (cnt (S.take k) g') g').2 ⟨h1.1, by omega⟩
  omega

theorem cnt_take_succ (h : LoopCtx S u nev ev) {k : ℕ} (hk : k ≤ S.length) (g : ℕ) :
    cnt (S.take k) (g + 1) ≤ cnt (S.take k) g + 1 := by
  by_contra hc
  have h1 := (lt_cnt_take h.sorted hk (cnt (S.take k) g + 1) (g + 1)).1 (by omega)
  have h2 := getD_lt h.sorted (Nat.lt_succ_self (cnt (S.take k) g)) (by omega)
  have h3 := (lt_cnt_take h.sorted hk (cnt (S.take k) g) g).2 ⟨by omega, by
    have := h1.2
    have h4 : S.getD (cnt (S.take k) g) 0 < S.getD (cnt (S.take k) g + 1) 0 := h2
    omega⟩
  omega

theorem cnt_take_attained (h : LoopCtx S u nev ev) {k : ℕ} (hk : k ≤ S.length) {x i : ℕ} (hi : i < cnt (S.take k) x) :
    ∃ g < x, cnt (S.take k) g = i := by
  induction x with
  | zero => rw [cnt_take_zero h hk] at hi; omega
  | succ x ih =>
    by_cases h1 : i < cnt (S.take k) x
    · obtain ⟨g, h2, h3⟩ := ih h1; exact ⟨g, by omega, h3⟩
    · have := cnt_take_succ h hk x
      exact ⟨x, by omega, by omega⟩

theorem cnt_take_trunc (h : LoopCtx S u nev ev) {k : ℕ} (hk : k ≤ S.length) (g : ℕ) :
    min (cnt (S.take k) g) (min k u) = min g (min k u) := by
  have key : ∀ t < min k u, (t < cnt (S.take k) g ↔ t < g) := by
    intro t ht
    rw [lt_cnt_take h.sorted hk, h.pre t (by omega)]
    omega
  apply Nat.le_antisymm
  · by_contra hc
    have := (key (min g (min k u)) (by omega)).1 (by omega)
    omega
  · by_contra hc
    have := (key (min (cnt (S.take k) g) (min k u)) (by omega)).2 (by omega)
    omega

theorem cnt_take_shift (h : LoopCtx S u nev ev) {k : ℕ} (hk : k ≤ S.length) {g : ℕ} (hg : u < g) :
    cnt (S.take k) g ≤ g - 1 := by
  by_contra hc
  have h1 := (lt_cnt_take h.sorted hk (g - 1) g).1 (by omega)
  have h2 := h.post (g - 1) (by omega) (by omega)
  omega

theorem removeMask_eq {a b : List ℕ} (hb : cfg.heur = false ∨ a.length ≤ cfg.maxPrebins) :
    cfg.big a = false ∧ cfg.removeMask n a b = pureMask a b := by
  have : cfg.big a = false := by
    unfold CatStreamCfg.big
    rcases hb with h | h
    · simp [h]
    · have : decide (cfg.maxPrebins < a.length) = false := by simpa using h
      simp [this]
  exact ⟨this, by simp [CatStreamCfg.removeMask, this]⟩

/-- The loop from a state whose last group is not mixed. -/
theorem loop_bad (h : LoopCtx S u nev ev) (hb : cfg.heur = false ∨ S.length + 1 ≤ cfg.maxPrebins)
    (hkp : (cfg.keepPure && cfg.heur) = false) (k : ℕ) : ∀ (φ : ℕ → ℕ) (x : ℕ), LoopInv S u nev ev k φ → LoopBad nev ev k φ x →
    (catPrebins cfg n ((S.take k).map half) (groupSums φ k nev) (groupSums φ k ev) = .error "IndexError" ∧ (nev.sum = 0 ∨ ev.sum = 0)) ∨
    ∃ k' ≤ S.length, catPrebins cfg n ((S.take k).map half) (groupSums φ k nev) (groupSums φ k ev) =
        .ok ⟨(S.take k').map half, groupSums (min · k') k' nev, groupSums (min · k') k' ev⟩ ∧
      ∀ i ≤ k', MixedG (min · k') nev ev i := by
  induction k using Nat.strong_induction_on with
  | _ k ih =>
  intro φ x hi hx
  have hkS := hi.kle
  have htl : (S.take k).length = k := by simp; omega
  obtain ⟨hbig, hrm⟩ := removeMask_eq (cfg := cfg) (n := n) (a := groupSums φ k nev) (b := groupSums φ k ev)
    (by rw [length_groupSums]; rcases hb with hb | hb; exacts [.inl hb, .inr (by omega)])
  have hpure : ∀ i ≤ k, (pureMask (groupSums φ k nev) (groupSums φ k ev)).getD i false = decide (¬ MixedG φ nev ev i) := by
    intro i hik
    rw [getD_pureMask (by simp; omega) (by simp; omega), getD_groupSums _ _ _ hik, getD_groupSums _ _ _ hik]
    unfold MixedG
    rw [Bool.eq_iff_iff]
    simp only [Bool.or_eq_true, beq_iff_eq, decide_eq_true_eq]
    omega
  have hlastbad : ¬ MixedG φ nev ev k := by
    rcases Nat.lt_or_ge x k with h1 | h1
    · have := hx.after k h1 (le_refl _)
      unfold MixedG; omega
    · exact hx.last (by have := hx.xle; omega)
  have hany : (pureMask (groupSums φ k nev) (groupSums φ k ev)).any id = true := by
    rw [any_pureMask (by simp)]
    refine ⟨k, by simp, ?_⟩
    rw [getD_groupSums _ _ _ (le_refl _), getD_groupSums _ _ _ (le_refl _)]
    unfold MixedG at hlastbad; omega
  have hlen : (pureMask (groupSums φ k nev) (groupSums φ k ev)).length = k + 1 := by simp [pureMask]
  rw [catPrebins]
  simp only [hrm, hany, if_true, hkp, Bool.false_and, Bool.false_eq_true, if_false, hlen, List.length_map, htl]
  by_cases hk0 : k = 0
  · left
    rw [if_pos (by omega)]
    refine ⟨rfl, ?_⟩
    have h0 : ∀ j ≤ S.length, φ j = 0 := fun j hj => by have := hi.le j hj; omega
    have h1 := grpSum_all (φ := φ) (cs := nev) (i := 0) (fun j hj => h0 j (by have := h.len; omega))
    have h2 := grpSum_all (φ := φ) (cs := ev) (i := 0) (fun j hj => h0 j (by have := h.lenE; omega))
    rw [hk0] at hlastbad
    unfold MixedG at hlastbad
    omega
  rw [if_neg (by omega), dif_pos ⟨trivial, by omega, trivial⟩]
  -- the next state
  have hmask : ∃ k', k' < k ∧ (k' = k - 1 ∨ x ≤ k') ∧ (k' ≤ x + 1) ∧ (select (S.take k) ((maskSplits false (pureMask (groupSums φ k nev) (groupSums φ k ev))).map (!·))) = S.take k' := by
    set p := if MixedG φ nev ev x then x + 1 else x with hp
    have hpx : x ≤ p ∧ p ≤ x + 1 := by rw [hp]; split_ifs <;> omega
    refine ⟨min p (k - 1), by omega, by omega, by omega, ?_⟩
    rw [select_prefix (p := min p (k - 1)), List.take_take]
    · congr 1; omega
    · rw [List.length_map, length_maskSplits hlen (by omega), htl]
    · intro i hil
      rw [htl] at hil
      rw [List.getD_eq_getElem _ _ (by rw [List.length_map, length_maskSplits hlen (by omega)]; exact hil), List.getElem_map,
        ← List.getD_eq_getElem _ false, getD_maskSplits hlen hil]
      by_cases hik : i + 1 = k
      · rw [if_pos hik, hik, hpure k (le_refl _)]
        have : decide (i < min p (k - 1)) = false := by simp; omega
        rw [this]
        simp [hlastbad]
      · rw [if_neg hik, hpure i (by omega)]
        rw [Bool.eq_iff_iff]
        simp only [Bool.not_eq_true', decide_eq_false_iff_not, not_not, decide_eq_true_eq]
        constructor
        · intro hm
          have hix : i ≤ x := by
            by_contra hc
            have := hx.after i (by omega) (by omega)
            unfold MixedG at hm; omega
          rcases Nat.lt_or_ge i x with h1 | h1
          · omega
          · have : i = x := by omega
            subst this
            rw [hp, if_pos hm]; omega
        · intro hm
          rcases Nat.lt_or_ge i x with h1 | h1
          · exact hx.before i h1
          · have : i = x := by omega
            subst this
            by_contra hc
            rw [hp, if_neg hc] at hm; omega
  obtain ⟨k', hk'k, hk'x, hk'x1, hsel⟩ := hmask
  rw [select_map, hsel, regroupCounts_eq, regroupCounts_eq]
  have htl' : (S.take k').length = k' := by simp; omega
  have hle1 : ∀ j < nev.length, φ j ≤ k := fun j hj => hi.le j (by have := h.len; omega)
  have hle2 : ∀ j < ev.length, φ j ≤ k := fun j hj => hi.le j (by have := h.lenE; omega)
  rw [htl', groupSums_comp _ _ _ _ _ hle1, groupSums_comp _ _ _ _ _ hle2]
  set c := cnt (S.take k') with hc
  have hcle : ∀ g, c g ≤ k' := fun g => by have := cnt_le_length (S.take k') g; rw [htl'] at this; exact this
  have hi' : LoopInv S u nev ev k' (fun j => c (φ j)) := by
    refine ⟨by omega, fun j _ => hcle _, fun j hj => ?_⟩
    have h1 := cnt_take_trunc h (k := k') (by omega) (φ j)
    have h2 := hi.trunc j hj
    simp only [← hc] at h1
    omega
  by_cases hku : k' ≤ u
  · -- unshifted: terminal
    right
    have hmin : ∀ j ≤ S.length, c (φ j) = min j k' := by
      intro j hj
      have h1 := hi'.trunc j hj
      have h2 := hcle (φ j)
      omega
    have e1 : groupSums (fun j => c (φ j)) k' nev = groupSums (min · k') k' nev :=
      groupSums_congr _ fun j hj => hmin j (by have := h.len; omega)
    have e2 : groupSums (fun j => c (φ j)) k' ev = groupSums (min · k') k' ev :=
      groupSums_congr _ fun j hj => hmin j (by have := h.lenE; omega)
    rw [e1, e2]
    have hmix : ∀ i ≤ k', MixedG (min · k') nev ev i := by
      intro i hik
      have := h.mixed i (by omega)
      exact ⟨grpSum_pos (j := i) (by have := h.len; omega) (by omega) this.1, grpSum_pos (j := i) (by have := h.lenE; omega) (by omega) this.2⟩
    refine ⟨k', by omega, ?_, hmix⟩
    obtain ⟨-, hrm'⟩ := removeMask_eq (cfg := cfg) (n := n) (a := groupSums (min · k') k' nev) (b := groupSums (min · k') k' ev)
      (by rw [length_groupSums]; rcases hb with hb | hb; exacts [.inl hb, .inr (by omega)])
    rw [catPrebins, if_neg]
    rw [hrm', any_pureMask (by simp)]
    rintro ⟨i, hil, hz⟩
    rw [length_groupSums] at hil
    rw [getD_groupSums _ _ _ (by omega), getD_groupSums _ _ _ (by omega)] at hz
    have := hmix i (by omega)
    unfold MixedG at this; omega
  · -- shifted: again bad
    have hk'S : k' ≤ S.length := by omega
    have hcomp1 : ∀ i, grpSum (fun j => c (φ j)) nev i = grpSum c (groupSums φ k nev) i := fun i => (grpSum_comp _ _ _ _ hle1 i).symm
    have hcomp2 : ∀ i, grpSum (fun j => c (φ j)) ev i = grpSum c (groupSums φ k ev) i := fun i => (grpSum_comp _ _ _ _ hle2 i).symm
    refine ih k' hk'k (fun j => c (φ j)) (c x) hi' ⟨hcle _, ?_, ?_, ?_⟩
    · intro i hix
      obtain ⟨g, hg, hgi⟩ := cnt_take_attained h hk'S hix
      have hm := hx.before g hg
      have hxk := hx.xle
      refine ⟨?_, ?_⟩
      · rw [hcomp1]
        exact grpSum_pos (j := g) (by simp; omega) hgi (by rw [getD_groupSums _ _ _ (by omega)]; exact hm.1)
      · rw [hcomp2]
        exact grpSum_pos (j := g) (by simp; omega) hgi (by rw [getD_groupSums _ _ _ (by omega)]; exact hm.2)
    · intro i hxi hik
      have key : ∀ g ≤ k, c g = i → x < g := by
        intro g hg hgi
        by_contra hcon
        have := cnt_take_mono h hk'S (g := g) (g' := x) (by omega)
        simp only [← hc] at this
        omega
      rw [hcomp1, hcomp2]
      constructor
      · refine grpSum_zero fun g hg hgi => ?_
        rw [length_groupSums] at hg
        rw [getD_groupSums _ _ _ (by omega)]
        exact (hx.after g (key g (by omega) hgi) (by omega)).1
      · refine grpSum_zero fun g hg hgi => ?_
        rw [length_groupSums] at hg
        rw [getD_groupSums _ _ _ (by omega)]
        exact (hx.after g (key g (by omega) hgi) (by omega)).2
    · intro hxk
      have h1 := cnt_take_le h hk'S x
      have h2 := cnt_take_shift h hk'S (g := x) (by simp only [← hc] at h1; omega)
      simp only [← hc] at h1 h2
      have hxk' : x = k := by have := hx.xle; omega
      have hk1 : k' = k - 1 := by omega
      have only : ∀ g ≤ k, c g = k' → g = k := by
        intro g hg hgi
        have h3 := cnt_take_le h hk'S g
        simp only [← hc] at h3
        have h4 := cnt_take_shift h hk'S (g := g) (by omega)
        simp only [← hc] at h4
        omega
      have hsum : ∀ cs : List ℕ, grpSum c (groupSums φ k cs) k' = grpSum φ cs k := by
        intro cs
        unfold grpSum
        rw [length_groupSums]
        have hset : ((range (k + 1)).filter fun g => c g = k') = {k} := by
          ext g
          simp only [mem_filter, mem_range, mem_singleton]
          constructor
          · rintro ⟨hg1, hg2⟩; exact only g (by omega) hg2
          · rintro rfl; exact ⟨by omega, by rw [← hxk', hxk]⟩
        rw [hset, Finset.sum_singleton, getD_groupSums _ _ _ (le_refl _)]
        rfl
      have hold := hx.last hxk'
      unfold MixedG at hold ⊢
      rw [hcomp1, hcomp2, hsum, hsum]
      exact hold

end Loop
end OptBinning
