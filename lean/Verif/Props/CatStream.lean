import Verif.Lemmas.CatStream4
import Verif.Lemmas.Table

/-!
# C73: the table of a categorical streaming object

`ops` is any program of creations, chunks and merges in which no sketch is used after it was merged into another one (`ownedAll`, as in C27);
`rows` are the records of the `i`-th object: those given to `add` and those of the objects merged into it.
-/
set_option linter.unusedSectionVars false
namespace OptBinning
open Finset Spec
variable {κ : Type} [LinearOrder κ]

section
variable {cfg : CatStreamCfg} {sc : SpecialCodes κ} {solver : Solver} {c : SolverCfg} {ops : List (SkOp (Rec κ))}
  {s : List (Option (List (Rec κ)))} {i : ℕ} {rows : List (Rec κ)} {f : CatStreamFit κ}

theorem catStream_spec (hm : 0 < cfg.maxPrebins) (hsc : ¬ IsSpecialValue sc none) (hs : ownedAll (fun _ _ => true) ops = some s)
    (hi : s[i]? = some (some rows)) (hf : (CWorld.run sc ops).solve cfg solver i = .ok f) : ∃ S, CatStreamSpec cfg sc solver rows f S := by
  rcases catStream_unpack (solver := solver) hm hsc hs hi with ⟨f', S, h1, h2⟩ | ⟨_, _, -, -, -, -, ⟨-, h, -⟩ | ⟨-, h⟩⟩
  · rw [hf, Except.ok.injEq] at h1; exact ⟨S, h1 ▸ h2⟩
  · rw [hf] at h; simp at h
  · rw [hf] at h; simp at h

/-- The bins of the solution in terms of the categories. -/
theorem catStream_bins (hr : Respects c solver) {S : List ℕ} (h : CatStreamSpec cfg sc solver rows f S) (hS : S ≠ []) :
    ∃ sol : List Bool, sol.length = S.length + 1 ∧ sol.getLast? = some true ∧ sol.count true = f.table.splits.length + 1 ∧
      (∀ j : ℕ, digitize false (f.table.splits.map Int.ceil) (some ((j : ℕ) : ℤ)) = binOf sol (cnt S j)) ∧
      sol = (solve (S.length + 1) (solver (groupSums (cnt S) S.length (catCounts sc rows f.table.categories false))
        (groupSums (cnt S) S.length (catCounts sc rows f.table.categories true)))).2 ∧
      f.table.status = (solve (S.length + 1) (solver (groupSums (cnt S) S.length (catCounts sc rows f.table.categories false))
        (groupSums (cnt S) S.length (catCounts sc rows f.table.categories true)))).1 ∧
      ∀ ev, f.table.column ev = accumBins sol (groupSums (cnt S) S.length (catCounts sc rows f.table.categories ev)) 0 ++
        othersRow f.table.others ev rows ++ [specialCount sc ev rows] ++ [missingCount ev rows] := by
  obtain ⟨h1, h2, h3⟩ := h.solved hS
  have hne : f.table.categories ≠ [] := fun hc => hS (h.empty hc)
  have hsort := (h.good hne).sorted
  have hlast := hr.last (groupSums (cnt S) S.length (catCounts sc rows f.table.categories false))
    (groupSums (cnt S) S.length (catCounts sc rows f.table.categories true)) (by simp)
  rw [length_groupSums] at hlast
  have hsl := solve_length (S.length + 1) (solver (groupSums (cnt S) S.length (catCounts sc rows f.table.categories false))
    (groupSums (cnt S) S.length (catCounts sc rows f.table.categories true)))
  refine ⟨_, hsl, hlast, ?_, ?_, rfl, h2, h3⟩
  · rw [h1, length_select _ _ (by simp [hsl])]
    obtain ⟨l, hl⟩ := List.getLast?_eq_some_iff.1 hlast
    rw [hl]; simp
  · intro j
    rw [h1, digitize_ceil]
    have hs2 : (S.map half).Pairwise (· ≤ ·) := by
      rw [List.pairwise_map]; exact hsort.imp fun h => (half_strictMono h).le
    have h5 := countP_select (s := S.map half) (m := (solve (S.length + 1) (solver (groupSums (cnt S) S.length (catCounts sc rows f.table.categories false))
      (groupSums (cnt S) S.length (catCounts sc rows f.table.categories true)))).2.dropLast) hs2 (by simp [hsl]) (j : ℚ)
    have h6 : (S.map half).countP (fun t => decide (t ≤ (j : ℚ))) = cnt S j := by
      rw [← digitize_half S j, digitize_ceil]; simp [digitize]
    rw [h6] at h5
    have h7 : ∀ l : List ℚ, digitize false l (some (j : ℚ)) = l.countP fun t => decide (t ≤ (j : ℚ)) := fun l => by simp [digitize]
    rw [h7, h5, ← binOf_dropLast _ (by rw [hsl]; exact cnt_le_length _ _)]
    rfl

/-- The categories of a bin are those whose position has that bin index. -/
theorem bins_getD_sum (t : CatFitted κ) (g : κ → ℕ) {k : ℕ} (hk : k ≤ t.splits.length) :
    ((t.bins.getD k []).map g).sum =
      grpSum (fun j => digitize false (t.splits.map Int.ceil) (some (j : ℤ))) (t.categories.map g) k := by
  have h1 : t.bins.getD k [] = (t.categories.zipIdx.filter fun p => digitize false (t.splits.map Int.ceil) (some (p.2 : ℤ)) == k).map Prod.fst := by
    unfold CatFitted.bins
    rw [List.getD_append _ _ _ _ (by rw [length_groupCodes]; omega), List.getD_eq_getElem _ _ (by rw [length_groupCodes]; omega)]
    simp [groupCodes]
  have h2 := sum_zipIdx_filter (t.categories.map g) (fun j => digitize false (t.splits.map Int.ceil) (some (j : ℤ)) == k) 0
  rw [h1, grpSum]
  have h3 : (((t.categories.zipIdx.filter fun p => digitize false (t.splits.map Int.ceil) (some (p.2 : ℤ)) == k).map Prod.fst).map g) =
      (((t.categories.map g).zipIdx.filter fun p => digitize false (t.splits.map Int.ceil) (some (p.2 : ℤ)) == k).map Prod.fst) := by
    rw [List.zipIdx_map, List.filter_map, List.map_map, List.map_map]
    rfl
  rw [h3, h2]
  simp

/-- Groups of categories have no duplicates. -/
theorem bins_getD_nodup {t : CatFitted κ} (hn : t.categories.Nodup) (ho : t.others.Nodup) (k : ℕ) : (t.bins.getD k []).Nodup := by
  unfold CatFitted.bins
  rcases Nat.lt_or_ge k (t.splits.length + 1) with hk | hk
  · rw [List.getD_append _ _ _ _ (by rw [length_groupCodes]; omega), List.getD_eq_getElem _ _ (by rw [length_groupCodes]; omega)]
    simp only [groupCodes, List.getElem_map, List.getElem_range]
    refine List.Nodup.sublist ?_ hn
    have h1 := (List.filter_sublist (l := t.categories.zipIdx)
      (p := fun p => digitize false (t.splits.map Int.ceil) (some (p.2 : ℤ)) == k)).map Prod.fst
    rwa [List.zipIdx_map_fst] at h1
  · rw [List.getD_append_right _ _ _ _ (by rw [length_groupCodes]; omega)]
    split_ifs
    · simp
    · rcases Nat.eq_zero_or_pos (k - (groupCodes false (t.splits.length + 1) (t.splits.map Int.ceil) t.categories).length) with h0 | h0
      · rw [h0]; simpa using ho
      · obtain ⟨m, hm⟩ := Nat.exists_eq_succ_of_ne_zero h0.ne'
        rw [hm]; simp

/-- The regular rows of the table. -/
theorem catStream_regular (hr : Respects c solver) {S : List ℕ} (h : CatStreamSpec cfg sc solver rows f S) (hS : S ≠ []) (ev : Bool) :
    ∃ reg : List ℕ, reg.length = f.table.splits.length + 1 ∧
      f.table.column ev = reg ++ othersRow f.table.others ev rows ++ [specialCount sc ev rows] ++ [missingCount ev rows] ∧
      ∀ k ≤ f.table.splits.length, reg.getD k 0 = groupCount (f.table.bins.getD k []) ev rows := by
  obtain ⟨sol, s1, s2, s3, s4, -, -, s5⟩ := catStream_bins hr h hS
  refine ⟨_, by rw [accumBins_length _ _ _ (by simp [s1]), s3], s5 ev, fun k hk => ?_⟩
  rw [accumBins_getD _ _ _ _ (by simp [s1]) (.inr s2)]
  have hnd := bins_getD_nodup h.nodup h.nodupOthers k
  rw [groupCount_eq_sum sc hnd ?_, bins_getD_sum _ _ hk]
  · have e1 : grpSum (fun j => digitize false (f.table.splits.map Int.ceil) (some (j : ℤ))) (f.table.categories.map fun c => catTarget sc rows c ev) k =
        grpSum (binOf sol) (groupSums (cnt S) S.length (catCounts sc rows f.table.categories ev)) k := by
      rw [grpSum_comp _ _ _ _ (fun j _ => cnt_le_length _ _)]
      exact grpSum_congr (fun j _ => s4 j) k
    rw [e1, grpSum, Finset.sum_filter, length_groupSums, s1]
    simp
  · intro v hv
    refine ((h.mem v).1 ?_).1
    rcases (mem_bins h.nodup _ _).1 hv with ⟨-, h1, -⟩ | ⟨-, h1⟩
    · exact .inl h1
    · exact .inr h1

theorem catStream_S (hr : 1 < f.nPrebins) {S : List ℕ} (h : CatStreamSpec cfg sc solver rows f S) : S ≠ [] := by
  rintro rfl
  have := h.nPrebins
  simp at this; omega

/-- C73: the groups of categories shown in the table partition the categories of the records. -/
theorem C73_partition (hm : 0 < cfg.maxPrebins) (hsc : ¬ IsSpecialValue sc none) (hs : ownedAll (fun _ _ => true) ops = some s)
    (hi : s[i]? = some (some rows)) (hf : (CWorld.run sc ops).solve cfg solver i = .ok f) :
    Partitions f.table.bins (IsTrainCategory sc rows) := by
  obtain ⟨S, h⟩ := catStream_spec hm hsc hs hi hf
  constructor
  · intro v hv
    obtain ⟨k, h1, h2, h3⟩ := bin_unique h.nodup h.disj v ((h.mem v).2 hv)
    exact ⟨k, ⟨h1, h2⟩, fun j hj => h3 j hj.2⟩
  · intro v hv b hb hvb
    obtain ⟨k, hk, rfl⟩ := List.getElem_of_mem hb
    rw [← List.getD_eq_getElem _ []] at hvb
    rcases (mem_bins h.nodup _ _).1 hvb with ⟨-, h1, -⟩ | ⟨-, h1⟩
    · exact hv ((h.mem v).1 (.inl h1))
    · exact hv ((h.mem v).1 (.inr h1))

/-- C73: with more than one pre-bin, every row of the table counts exactly the records of the categories shown in that row, the last two rows
the special and the missing records. -/
theorem C73_rows (hm : 0 < cfg.maxPrebins) (hsc : ¬ IsSpecialValue sc none) (hr : Respects c solver)
    (hs : ownedAll (fun _ _ => true) ops = some s) (hi : s[i]? = some (some rows))
    (hf : (CWorld.run sc ops).solve cfg solver i = .ok f) (h2 : 1 < f.nPrebins) (ev : Bool) :
    (f.table.column ev).length = f.table.bins.length + 2 ∧
    (∀ k < f.table.bins.length, (f.table.column ev).getD k 0 = groupCount (f.table.bins.getD k []) ev rows) ∧
    (f.table.column ev).getD f.table.bins.length 0 = specialCount sc ev rows ∧
    (f.table.column ev).getD (f.table.bins.length + 1) 0 = missingCount ev rows := by
  obtain ⟨S, h⟩ := catStream_spec hm hsc hs hi hf
  obtain ⟨reg, r1, r2, r3⟩ := catStream_regular hr h (catStream_S h2 h) ev
  have hbl := bins_length f.table
  have hol : (othersRow f.table.others ev rows).length = if f.table.others.length = 0 then 0 else 1 := by
    unfold othersRow; split_ifs <;> rfl
  have hrl : (reg ++ othersRow f.table.others ev rows).length = f.table.bins.length := by
    rw [List.length_append, r1, hol, hbl]
  have hx : (reg ++ othersRow f.table.others ev rows ++ [specialCount sc ev rows]).length = f.table.bins.length + 1 := by
    rw [List.length_append, hrl]; rfl
  rw [r2]
  refine ⟨by rw [List.length_append, hx]; rfl, fun k hk => ?_, ?_, ?_⟩
  · rw [List.getD_append _ _ _ _ (by omega), List.getD_append _ _ _ _ (by omega)]
    rcases Nat.lt_or_ge k (f.table.splits.length + 1) with h1 | h1
    · rw [List.getD_append _ _ _ _ (by omega), r3 k (by omega)]
    · rw [List.getD_append_right _ _ _ _ (by omega)]
      have h0 : ¬ f.table.others.length = 0 := by intro h0; rw [hbl, if_pos h0] at hk; omega
      rw [hbl, if_neg h0] at hk
      have hkk : k = f.table.splits.length + 1 := by omega
      subst hkk
      have hb : f.table.bins.getD (f.table.splits.length + 1) [] = f.table.others := by
        unfold CatFitted.bins
        rw [List.getD_append_right _ _ _ _ (by rw [length_groupCodes]), length_groupCodes, if_neg h0]
        simp
      rw [hb, othersRow, if_neg h0, r1]
      simp
  · rw [List.getD_append _ _ _ _ (by omega), List.getD_append_right _ _ _ _ (by omega), hrl]; simp
  · rw [List.getD_append_right _ _ _ _ (by omega), hx]; simp

/-- C73: with more than one pre-bin, the rows of a class add up to its number of records. -/
theorem C73_total (hm : 0 < cfg.maxPrebins) (hsc : ¬ IsSpecialValue sc none) (hr : Respects c solver)
    (hs : ownedAll (fun _ _ => true) ops = some s) (hi : s[i]? = some (some rows))
    (hf : (CWorld.run sc ops).solve cfg solver i = .ok f) (h2 : 1 < f.nPrebins) (ev : Bool) :
    (f.table.column ev).sum = classCount ev rows := by
  obtain ⟨S, h⟩ := catStream_spec hm hsc hs hi hf
  obtain ⟨sol, s1, s2, -, -, -, -, s5⟩ := catStream_bins hr h (catStream_S h2 h)
  have ho : (othersRow f.table.others ev rows).sum = groupCount f.table.others ev rows := by
    unfold othersRow
    split_ifs with h0
    · rw [List.length_eq_zero_iff.1 h0, groupCount_nil]; rfl
    · simp
  rw [s5 ev]
  simp only [List.sum_append, List.sum_singleton]
  rw [accumBins_sum _ _ _ (by simp [s1]) (.inr s2), ho, sum_groupSums (fun j _ => cnt_le_length _ _), ← h.total ev]
  omega

/-- C73: the groups are ordered by event rate: no category of a row has a higher event rate than a category of a later row. -/
theorem C73_ordered (hm : 0 < cfg.maxPrebins) (hsc : ¬ IsSpecialValue sc none) (hs : ownedAll (fun _ _ => true) ops = some s)
    (hi : s[i]? = some (some rows)) (hf : (CWorld.run sc ops).solve cfg solver i = .ok f) {k k' : ℕ} (hkk : k < k')
    (hk' : k' ≤ f.table.splits.length) {a b : κ} (ha : a ∈ f.table.bins.getD k []) (hb : b ∈ f.table.bins.getD k' []) :
    groupRate [a] rows ≤ groupRate [b] rows := by
  obtain ⟨S, h⟩ := catStream_spec hm hsc hs hi hf
  rcases (mem_bins h.nodup _ _).1 ha with ⟨-, a1, a2⟩ | ⟨a1, -⟩
  swap
  · omega
  rcases (mem_bins h.nodup _ _).1 hb with ⟨-, b1, b2⟩ | ⟨b1, -⟩
  swap
  · omega
  have hlt : f.table.categories.idxOf a < f.table.categories.idxOf b := by
    by_contra hc
    have hle : ((f.table.categories.idxOf b : ℕ) : ℚ) ≤ ((f.table.categories.idxOf a : ℕ) : ℚ) := by exact_mod_cast not_lt.1 hc
    have : digitize false f.table.splits (some ((f.table.categories.idxOf b : ℕ) : ℚ)) ≤
        digitize false f.table.splits (some ((f.table.categories.idxOf a : ℕ) : ℚ)) := by
      simp only [digitize, Bool.false_eq_true, if_false]
      refine List.countP_mono_left fun t _ ht => ?_
      simp only [decide_eq_true_eq] at ht ⊢
      exact ht.trans hle
    omega
  have := List.pairwise_iff_getElem.1 h.ordered _ _ (List.idxOf_lt_length_of_mem a1) (List.idxOf_lt_length_of_mem b1) hlt
  simpa using this

/-- C73: with more than one pre-bin, every regular row has records of both classes. -/
theorem C73_mixed (hm : 0 < cfg.maxPrebins) (hsc : ¬ IsSpecialValue sc none) (hr : Respects c solver)
    (hs : ownedAll (fun _ _ => true) ops = some s) (hi : s[i]? = some (some rows))
    (hf : (CWorld.run sc ops).solve cfg solver i = .ok f) (h2 : 1 < f.nPrebins) {k : ℕ} (hk : k ≤ f.table.splits.length) (ev : Bool) :
    0 < (f.table.column ev).getD k 0 := by
  obtain ⟨S, h⟩ := catStream_spec hm hsc hs hi hf
  have hS := catStream_S h2 h
  obtain ⟨sol, s1, s2, s3, -, -, -, s5⟩ := catStream_bins hr h hS
  obtain ⟨a, b, hb, -, hacc⟩ := accumBins_bin sol s2 (k := k) (by omega)
  have hg := h.good fun hc => hS (h.empty hc)
  rw [s5 ev, List.append_assoc, List.append_assoc, List.getD_append _ _ _ _ (by rw [accumBins_length _ _ _ (by simp [s1])]; omega),
    hacc _ (by simp [s1])]
  have hab : a ≤ b ∧ b < sol.length := ⟨hb.1, hb.2.1⟩
  have hmix := hg.mixed b (by omega)
  have hle := Finset.single_le_sum (s := Icc a b) (f := fun i => (groupSums (cnt S) S.length (catCounts sc rows f.table.categories ev)).getD i 0)
    (fun _ _ => Nat.zero_le _) (a := b) (by simp [hab.1])
  have hpos : 0 < (groupSums (cnt S) S.length (catCounts sc rows f.table.categories ev)).getD b 0 := by
    rw [getD_groupSums _ _ _ (by omega)]
    cases ev
    · exact hmix.1
    · exact hmix.2
  exact lt_of_lt_of_le hpos hle

/-- C73: the categories of row "others" are exactly those whose share of all records is below the cut-off. -/
theorem C73_others (hm : 0 < cfg.maxPrebins) (hsc : ¬ IsSpecialValue sc none) (hs : ownedAll (fun _ _ => true) ops = some s)
    (hi : s[i]? = some (some rows)) (hf : (CWorld.run sc ops).solve cfg solver i = .ok f) (v : κ) :
    v ∈ f.table.others ↔ IsTrainCategory sc rows v ∧ ∃ q, cfg.cutoff = some q ∧
      ((groupCount [v] false rows + groupCount [v] true rows : ℕ) : ℚ) / ((classCount false rows + classCount true rows : ℕ) : ℚ) < q := by
  obtain ⟨S, h⟩ := catStream_spec hm hsc hs hi hf
  exact h.others v

/-- C73: `transform(metric="indices")` sends a category to the row of the table that shows it. -/
theorem C73_transform (hm : 0 < cfg.maxPrebins) (hsc : ¬ IsSpecialValue sc none) (hs : ownedAll (fun _ _ => true) ops = some s)
    (hi : s[i]? = some (some rows)) (hf : (CWorld.run sc ops).solve cfg solver i = .ok f) {v : κ} {k : ℕ}
    (hv : v ∈ f.table.bins.getD k []) (cu : Option ℤ) (ms mm : MetricOpt) :
    transformCatIndices f.table.bins sc cu ms mm [some v] = [(k : ℤ)] := by
  obtain ⟨S, h⟩ := catStream_spec hm hsc hs hi hf
  have hmem : v ∈ f.table.categories ∨ v ∈ f.table.others := by
    rcases (mem_bins h.nodup _ _).1 hv with ⟨-, h1, -⟩ | ⟨-, h1⟩
    · exact .inl h1
    · exact .inr h1
  obtain ⟨k', h1, h2, h3⟩ := bin_unique h.nodup h.disj v hmem
  have hk : k = k' := h3 k hv
  subst hk
  simp only [transformCatIndices, List.map_cons, List.map_nil, transformCat]
  rw [assign_clean _ _ _ _ _ _ _ ((h.mem v).1 hmem).1, transformCatClean_known _ _ _ _ h1 h2 h3]

/-- C73 finding: with a single pre-bin the only regular row counts *all* records of the class, and the others, special and missing records
are counted again in their own rows. -/
theorem C73_single_prebin (hm : 0 < cfg.maxPrebins) (hsc : ¬ IsSpecialValue sc none) (hs : ownedAll (fun _ _ => true) ops = some s)
    (hi : s[i]? = some (some rows)) (hf : (CWorld.run sc ops).solve cfg solver i = .ok f) (h1 : f.nPrebins = 1) (ev : Bool) :
    f.table.splits = [] ∧ (f.table.column ev).getD 0 0 = classCount ev rows ∧
    (f.table.column ev).sum = classCount ev rows + groupCount f.table.others ev rows + specialCount sc ev rows + missingCount ev rows := by
  obtain ⟨S, h⟩ := catStream_spec hm hsc hs hi hf
  have hS : S = [] := by have := h.nPrebins; rw [h1] at this; exact List.length_eq_zero_iff.1 (by omega)
  obtain ⟨s1, -, s3⟩ := h.single hS
  have ho : (othersRow f.table.others ev rows).sum = groupCount f.table.others ev rows := by
    unfold othersRow
    split_ifs with h0
    · rw [List.length_eq_zero_iff.1 h0, groupCount_nil]; rfl
    · simp
  refine ⟨s1, by rw [s3 ev]; simp, ?_⟩
  rw [s3 ev]
  simp only [List.sum_append, List.sum_singleton, ho]

/-- The categories that are not moved to "others". -/
def Spec.IsMainCategory (cfg : CatStreamCfg) (sc : SpecialCodes κ) (rows : List (Rec κ)) (v : κ) : Prop :=
  IsTrainCategory sc rows v ∧ ∀ q, cfg.cutoff = some q →
    q ≤ ((groupCount [v] false rows + groupCount [v] true rows : ℕ) : ℚ) / ((classCount false rows + classCount true rows : ℕ) : ℚ)

theorem groupCount_pos_iff (g : List κ) (ev : Bool) (rows : List (Rec κ)) :
    0 < groupCount g ev rows ↔ ∃ r ∈ rows, r.y = some ev ∧ ∃ v ∈ g, r.x = some v := by
  unfold groupCount
  rw [List.countP_pos_iff]
  simp

theorem main_iff {cats others : List κ} (hd : ∀ v ∈ cats, v ∉ others) (h1 : ∀ v, (v ∈ cats ∨ v ∈ others) ↔ IsTrainCategory sc rows v)
    (h2 : ∀ v, v ∈ others ↔ IsTrainCategory sc rows v ∧ ∃ q, cfg.cutoff = some q ∧
      ((groupCount [v] false rows + groupCount [v] true rows : ℕ) : ℚ) / ((classCount false rows + classCount true rows : ℕ) : ℚ) < q) (v : κ) :
    v ∈ cats ↔ Spec.IsMainCategory cfg sc rows v := by
  unfold Spec.IsMainCategory
  constructor
  · intro hv
    have ht := (h1 v).1 (.inl hv)
    refine ⟨ht, fun q hq => ?_⟩
    by_contra hc
    exact hd v hv ((h2 v).2 ⟨ht, q, hq, not_le.1 hc⟩)
  · rintro ⟨ht, hq⟩
    rcases (h1 v).2 ht with h | h
    · exact h
    · obtain ⟨-, q, hq1, hq2⟩ := (h2 v).1 h
      exact absurd (hq q hq1) (not_le.2 hq2)

end
end OptBinning
