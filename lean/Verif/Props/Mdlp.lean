import Verif.Spec.Mdlp
import Verif.Model.Mdlp
import Verif.Props.Outlier

/-! # C28: MDLP discretisation -/
namespace OptBinning

open Spec

/-! ## Sorted lists -/

theorem take_searchRight {xs : List (ℚ × Bool)} (hs : xs.Pairwise fun a b => a.1 ≤ b.1) (s : ℚ) :
    xs.take (searchRight xs s) = xs.filter (fun r => decide (r.1 ≤ s)) ∧
    xs.drop (searchRight xs s) = xs.filter (fun r => !decide (r.1 ≤ s)) := by
  unfold searchRight
  induction xs with
  | nil => simp
  | cons a l ih =>
    rw [List.pairwise_cons] at hs
    by_cases ha : a.1 ≤ s
    · obtain ⟨h1, h2⟩ := ih hs.2
      simp [ha, h1, h2]
    · have hall : ∀ b ∈ l, ¬ b.1 ≤ s := fun b hb h => ha ((hs.1 b hb).trans h)
      have hz : l.countP (fun r => decide (r.1 ≤ s)) = 0 := by
        rw [List.countP_eq_zero]; intro b hb; simpa using hall b hb
      have hf : l.filter (fun r => decide (r.1 ≤ s)) = [] := by
        rw [List.filter_eq_nil_iff]; intro b hb; simpa using hall b hb
      have hg : l.filter (fun r => !decide (r.1 ≤ s)) = l := by
        rw [List.filter_eq_self]; intro b hb; simpa using hall b hb
      simp only [List.countP_cons, hz, ha, decide_false, List.filter_cons, hf, hg]
      simp

theorem searchRight_le (xs : List (ℚ × Bool)) (s : ℚ) : searchRight xs s ≤ xs.length := List.countP_le_length

theorem searchRight_perm {xs ys : List (ℚ × Bool)} (h : xs.Perm ys) (s : ℚ) : searchRight xs s = searchRight ys s := h.countP_eq _

/-- The values of the two parts of a node. -/
theorem parts_values {xs : List (ℚ × Bool)} (hs : xs.Pairwise fun a b => a.1 ≤ b.1) (s : ℚ) :
    (∀ r ∈ xs.take (searchRight xs s), r.1 ≤ s) ∧ (∀ r ∈ xs.drop (searchRight xs s), s < r.1) := by
  obtain ⟨h1, h2⟩ := take_searchRight hs s
  rw [h1, h2]
  constructor <;> intro r hr <;> simpa using (List.mem_filter.mp hr).2

/-! ## Structure of the recursion -/

variable {c : MdlpCfg} {hl : 1 ≤ c.minLeaf}

/-- Every split of the recursion is found by a node whose splits all lie strictly inside the range of its values. -/
theorem recurse_range (hl : 1 ≤ c.minLeaf) : ∀ (n : ℕ) (xs : List (ℚ × Bool)), xs.length ≤ n →
    ∀ s ∈ mdlpRecurse c hl xs, (∃ a ∈ xs, a.1 ≤ s) ∧ ∃ b ∈ xs, s < b.1 := by
  intro n
  induction n with
  | zero =>
    intro xs hn s hs
    have : xs = [] := List.length_eq_zero_iff.mp (by omega)
    subst this
    rw [mdlpRecurse] at hs
    split at hs
    · simp at hs
    · rename_i s' h
      obtain ⟨-, h1, -⟩ := mdlpFindSplit_spec h
      simp [searchRight] at h1; omega
  | succ n ih =>
    intro xs hn s hs
    rw [mdlpRecurse] at hs
    split at hs
    · simp at hs
    · rename_i s' h
      obtain ⟨-, h1, h2, -⟩ := mdlpFindSplit_spec h
      have hle := searchRight_le xs s'
      rcases List.mem_cons.mp hs with rfl | hs
      · constructor
        · have : 0 < searchRight xs s := by omega
          obtain ⟨a, ha, hp⟩ := List.countP_pos_iff.mp this
          exact ⟨a, ha, by simpa using hp⟩
        · by_contra hcon
          push Not at hcon
          have : searchRight xs s = xs.length := by
            unfold searchRight
            rw [List.countP_eq_length]
            intro a ha; simpa using hcon a ha
          omega
      · split_ifs at hs with ht
        · simp at hs
        · rcases List.mem_append.mp hs with hs | hs
          · obtain ⟨⟨a, ha, h3⟩, b, hb, h4⟩ := ih (xs.take (searchRight xs s')) (by simp only [List.length_take]; omega) s hs
            exact ⟨⟨a, List.mem_of_mem_take ha, h3⟩, b, List.mem_of_mem_take hb, h4⟩
          · obtain ⟨⟨a, ha, h3⟩, b, hb, h4⟩ := ih (xs.drop (searchRight xs s')) (by simp only [List.length_drop]; omega) s hs
            exact ⟨⟨a, List.mem_of_mem_drop ha, h3⟩, b, List.mem_of_mem_drop hb, h4⟩

/-- The unfolding of the recursion with what is known about the parts. -/
theorem recurse_cases (hl : 1 ≤ c.minLeaf) {xs : List (ℚ × Bool)} (hs : xs.Pairwise fun a b => a.1 ≤ b.1) :
    (mdlpFindSplit c xs = none ∧ mdlpRecurse c hl xs = []) ∨
    ∃ s, mdlpFindSplit c xs = some s ∧ ∃ L R, mdlpRecurse c hl xs = s :: (L ++ R) ∧
      (∀ a ∈ L, a < s) ∧ (∀ b ∈ R, s < b) ∧
      c.minLeaf ≤ (xs.take (searchRight xs s)).length ∧ c.minLeaf ≤ (xs.drop (searchRight xs s)).length ∧
      (xs.take (searchRight xs s)).length < xs.length ∧ (xs.drop (searchRight xs s)).length < xs.length ∧
      ((mdlpTerminate c xs (searchRight xs s) ∧ L = [] ∧ R = []) ∨
       (¬ mdlpTerminate c xs (searchRight xs s) ∧ L = mdlpRecurse c hl (xs.take (searchRight xs s)) ∧
        R = mdlpRecurse c hl (xs.drop (searchRight xs s)))) := by
  rw [mdlpRecurse]
  split
  · rename_i h; exact .inl ⟨h, rfl⟩
  · rename_i s h
    refine .inr ⟨s, h, ?_⟩
    obtain ⟨-, h1, h2, -⟩ := mdlpFindSplit_spec h
    have hle := searchRight_le xs s
    have hlen : c.minLeaf ≤ (xs.take (searchRight xs s)).length ∧ c.minLeaf ≤ (xs.drop (searchRight xs s)).length ∧
      (xs.take (searchRight xs s)).length < xs.length ∧ (xs.drop (searchRight xs s)).length < xs.length := by
      simp only [List.length_take, List.length_drop]; omega
    obtain ⟨hv1, hv2⟩ := parts_values hs s
    by_cases ht : mdlpTerminate c xs (searchRight xs s)
    · exact ⟨[], [], by simp [ht], by simp, by simp, hlen.1, hlen.2.1, hlen.2.2.1, hlen.2.2.2, .inl ⟨ht, rfl, rfl⟩⟩
    · refine ⟨_, _, by simp only [ht, if_false], ?_, ?_, hlen.1, hlen.2.1, hlen.2.2.1, hlen.2.2.2, .inr ⟨ht, rfl, rfl⟩⟩
      · intro a ha
        obtain ⟨-, b, hb, h4⟩ := recurse_range hl _ _ le_rfl a ha
        exact h4.trans_le (hv1 b hb)
      · intro b hb
        obtain ⟨⟨a, ha, h3⟩, -⟩ := recurse_range hl _ _ le_rfl b hb
        exact (hv2 a ha).trans_le h3

theorem recurse_nodup (hl : 1 ≤ c.minLeaf) : ∀ (n : ℕ) (xs : List (ℚ × Bool)), xs.length ≤ n →
    xs.Pairwise (fun a b => a.1 ≤ b.1) → (mdlpRecurse c hl xs).Nodup := by
  intro n
  induction n with
  | zero =>
    intro xs hn hs
    rcases recurse_cases hl hs with ⟨-, h⟩ | ⟨s, -, L, R, h, -, -, -, -, h3, -⟩
    · rw [h]; exact List.nodup_nil
    · omega
  | succ n ih =>
    intro xs hn hs
    rcases recurse_cases hl hs with ⟨-, h⟩ | ⟨s, -, L, R, h, hL, hR, -, -, h3, h4, h5⟩
    · rw [h]; exact List.nodup_nil
    · rw [h]
      have hLR : L.Nodup ∧ R.Nodup := by
        rcases h5 with ⟨-, rfl, rfl⟩ | ⟨-, rfl, rfl⟩
        · simp
        · exact ⟨ih _ (by omega) (hs.sublist (List.take_sublist _ _)), ih _ (by omega) (hs.sublist (List.drop_sublist _ _))⟩
      rw [List.nodup_cons, List.nodup_append]
      refine ⟨?_, hLR.1, hLR.2, ?_⟩
      · rw [List.mem_append]
        rintro (h | h)
        · exact absurd (hL _ h) (lt_irrefl _)
        · exact absurd (hR _ h) (lt_irrefl _)
      · intro a ha b hb hab
        have := (hL a ha).trans (hR b hb)
        exact absurd hab this.ne

/-- Bin sizes, for the splits in any order. -/
theorem recurse_sizes (hl : 1 ≤ c.minLeaf) : ∀ (n : ℕ) (xs : List (ℚ × Bool)), xs.length ≤ n →
    xs.Pairwise (fun a b => a.1 ≤ b.1) → c.minLeaf ≤ xs.length → ∀ i ≤ (mdlpRecurse c hl xs).length,
    c.minLeaf ≤ recordsIn (rightClosedBin (mdlpRecurse c hl xs)) xs i := by
  intro n
  induction n with
  | zero => intro xs hn hs hleaf; omega
  | succ n ih =>
    intro xs hn hs hleaf i hi
    have hone : ∀ (ys : List (ℚ × Bool)) (j : ℕ), j ≤ 0 → recordsIn (rightClosedBin []) ys j = ys.length := by
      intro ys j hj
      have : j = 0 := by omega
      subst this
      unfold recordsIn rightClosedBin
      rw [List.countP_eq_length]; simp
    rcases recurse_cases hl hs with ⟨-, h⟩ | ⟨s, -, L, R, h, hL, hR, h1, h2, h3, h4, h5⟩
    · rw [h] at hi ⊢
      rw [hone xs i (by simpa using hi)]; exact hleaf
    · rw [h] at hi ⊢
      obtain ⟨hv1, hv2⟩ := parts_values hs s
      set t := searchRight xs s with ht
      have hsz : (∀ j ≤ L.length, c.minLeaf ≤ recordsIn (rightClosedBin L) (xs.take t) j) ∧
          (∀ j ≤ R.length, c.minLeaf ≤ recordsIn (rightClosedBin R) (xs.drop t) j) := by
        rcases h5 with ⟨-, rfl, rfl⟩ | ⟨-, rfl, rfl⟩
        · constructor <;> intro j hj <;> rw [hone _ j (by simpa using hj)] <;> assumption
        · exact ⟨ih _ (by omega) (hs.sublist (List.take_sublist _ _)) h1, ih _ (by omega) (hs.sublist (List.drop_sublist _ _)) h2⟩
      have hbl : ∀ r ∈ xs.take t, rightClosedBin (s :: (L ++ R)) r.1 = rightClosedBin L r.1 := by
        intro r hr
        have hrs := hv1 r hr
        unfold rightClosedBin
        rw [List.countP_cons_of_neg (by simpa using hrs), List.countP_append]
        have : R.countP (fun s => decide (s < r.1)) = 0 := by
          rw [List.countP_eq_zero]; intro b hb
          have := hR b hb
          simpa using hrs.trans this.le
        omega
      have hbr : ∀ r ∈ xs.drop t, rightClosedBin (s :: (L ++ R)) r.1 = L.length + 1 + rightClosedBin R r.1 := by
        intro r hr
        have hrs := hv2 r hr
        unfold rightClosedBin
        rw [List.countP_cons_of_pos (by simpa using hrs), List.countP_append]
        have : L.countP (fun s => decide (s < r.1)) = L.length := by
          rw [List.countP_eq_length]; intro b hb
          have := hL b hb
          simpa using this.trans hrs
        omega
      have hsplit : recordsIn (rightClosedBin (s :: (L ++ R))) xs i =
          recordsIn (rightClosedBin (s :: (L ++ R))) (xs.take t) i + recordsIn (rightClosedBin (s :: (L ++ R))) (xs.drop t) i := by
        unfold recordsIn
        rw [← List.countP_append, List.take_append_drop]
      rw [hsplit]
      by_cases hiL : i ≤ L.length
      · have : recordsIn (rightClosedBin (s :: (L ++ R))) (xs.take t) i = recordsIn (rightClosedBin L) (xs.take t) i := by
          unfold recordsIn
          exact List.countP_congr (fun r hr => by rw [hbl r hr])
        have := hsz.1 i hiL
        omega
      · have : recordsIn (rightClosedBin (s :: (L ++ R))) (xs.drop t) i = recordsIn (rightClosedBin R) (xs.drop t) (i - (L.length + 1)) := by
          unfold recordsIn
          refine List.countP_congr (fun r hr => ?_)
          rw [hbr r hr]
          simp only [beq_iff_eq]; omega
        have h6 := hsz.2 (i - (L.length + 1)) (by simp only [List.length_cons, List.length_append] at hi; omega)
        omega

/-! ## The splits of a new object -/

theorem valid_leaf {c : MdlpCfg} (hv : c.valid) : 1 ≤ c.minLeaf := by
  unfold MdlpCfg.valid at hv; simp only [Bool.and_eq_true, decide_eq_true_eq] at hv; exact hv.1.2

theorem mdlpFit_ok {c : MdlpCfg} (hv : c.valid) (old : List ℚ) (xs : List (ℚ × Bool)) :
    mdlpFit c old xs = .ok (old ++ mdlpRecurse c (valid_leaf hv) xs) := by
  unfold mdlpFit; rw [dif_pos hv]

theorem sortQ_lt {l : List ℚ} (h : l.Nodup) : (sortQ l).Pairwise (· < ·) := by
  have h1 := sortQ_sorted l
  have h2 : (sortQ l).Nodup := (sortQ_perm l).nodup_iff.mpr h
  exact (h1.and h2).imp fun ⟨a, b⟩ => lt_of_le_of_ne a b

theorem rightClosedBin_perm {l l' : List ℚ} (h : l.Perm l') : rightClosedBin l = rightClosedBin l' := by
  funext v; exact h.countP_eq _

/-- C28: `fit` of a new object succeeds for all data and all valid parameters; the split points are strictly increasing, each one separates
records, and every bin between consecutive split points holds at least `min_samples_leaf` records.  `xs` are the records in the order of
`np.argsort`. -/
theorem C28_splits {c : MdlpCfg} (hv : c.valid) {data xs : List (ℚ × Bool)} (hp : xs.Perm data)
    (hs : xs.Pairwise fun a b => a.1 ≤ b.1) :
    ∃ st, mdlpFit c [] xs = .ok st ∧ (mdlpSplits st).Pairwise (· < ·) ∧
      (∀ s ∈ mdlpSplits st, (∃ a ∈ data, a.1 ≤ s) ∧ ∃ b ∈ data, s < b.1) ∧
      (c.minLeaf ≤ data.length → ∀ i ≤ (mdlpSplits st).length, c.minLeaf ≤ recordsIn (rightClosedBin (mdlpSplits st)) data i) := by
  have hl := valid_leaf hv
  refine ⟨_, mdlpFit_ok hv [] xs, ?_, ?_, ?_⟩
  · exact sortQ_lt (recurse_nodup hl _ xs le_rfl hs)
  · intro s h
    obtain ⟨⟨a, ha, h1⟩, b, hb, h2⟩ := recurse_range hl _ xs le_rfl s ((sortQ_perm _).mem_iff.mp h)
    exact ⟨⟨a, hp.mem_iff.mp ha, h1⟩, b, hp.mem_iff.mp hb, h2⟩
  · intro hn i hi
    have hlen : (mdlpSplits ([] ++ mdlpRecurse c hl xs)).length = (mdlpRecurse c hl xs).length := (sortQ_perm _).length_eq
    have := recurse_sizes hl _ xs le_rfl hs (by rw [hp.length_eq]; exact hn) i (by rw [← hlen]; exact hi)
    unfold mdlpSplits
    rw [rightClosedBin_perm (sortQ_perm _)]
    unfold recordsIn at this ⊢
    rw [← hp.countP_eq]; exact this

theorem recordsIn_sum (bin : ℚ → ℕ) (data : List (ℚ × Bool)) (k : ℕ) (hb : ∀ r ∈ data, bin r.1 ≤ k) :
    ((List.range (k + 1)).map (recordsIn bin data)).sum = data.length := by
  have hcount : ∀ (a : ℕ) (l : List ℕ), (l.map fun i => if a = i then 1 else 0).sum = l.count a := by
    intro a l
    induction l with
    | nil => simp
    | cons b l ih => rw [List.map_cons, List.sum_cons, ih, List.count_cons]; simp only [beq_iff_eq, eq_comm (a := a)]; omega
  induction data with
  | nil =>
    have : recordsIn bin [] = fun _ => 0 := by funext i; rfl
    rw [this]; simp
  | cons r l ih =>
    have h1 : ∀ i, recordsIn bin (r :: l) i = recordsIn bin l i + if bin r.1 = i then 1 else 0 := by
      intro i; unfold recordsIn; rw [List.countP_cons]; simp
    rw [List.map_congr_left (fun i _ => h1 i), List.sum_map_add, ih (fun q hq => hb q (List.mem_cons_of_mem _ hq)), List.length_cons]
    have hr := hb r List.mem_cons_self
    have : ((List.range (k + 1)).map fun i => if bin r.1 = i then 1 else 0).sum = 1 := by
      rw [hcount, List.count_eq_one_of_mem List.nodup_range (List.mem_range.mpr (by omega))]
    rw [this]

/-- C28: the number of bins is at most the number of records divided by `min_samples_leaf`. -/
theorem C28_number_of_bins {c : MdlpCfg} (hv : c.valid) {data xs : List (ℚ × Bool)} (hp : xs.Perm data)
    (hs : xs.Pairwise fun a b => a.1 ≤ b.1) (hn : c.minLeaf ≤ data.length) :
    ∃ st, mdlpFit c [] xs = .ok st ∧ ((mdlpSplits st).length + 1) * c.minLeaf ≤ data.length := by
  obtain ⟨st, h, -, -, h3⟩ := C28_splits hv hp hs
  refine ⟨st, h, ?_⟩
  have h4 := recordsIn_sum (rightClosedBin (mdlpSplits st)) data (mdlpSplits st).length (fun r _ => List.countP_le_length)
  rw [← h4]
  have : ((List.range ((mdlpSplits st).length + 1)).map fun _ => c.minLeaf).sum ≤
      ((List.range ((mdlpSplits st).length + 1)).map (recordsIn (rightClosedBin (mdlpSplits st)) data)).sum := by
    apply List.sum_le_sum
    intro i hi
    exact h3 hn i (by rw [List.mem_range] at hi; omega)
  simpa using this

/-! ## The split maximises the information gain -/

theorem mdlpEntropy_eq {ys : List Bool} (h : ys ≠ []) : mdlpEntropy ys = targetEntropy ys := by
  have hn : ((ys.length : ℕ) : ℝ) ≠ 0 := by simpa using h
  unfold mdlpEntropy targetEntropy entropy xlogy Real.binEntropy
  have h1 : (((ys.length : ℕ) : ℝ) - ((ys.count true : ℕ) : ℝ)) / ((ys.length : ℕ) : ℝ) =
      1 - ((ys.count true : ℕ) : ℝ) / ((ys.length : ℕ) : ℝ) := by field_simp
  simp only [h1, List.map_cons, List.map_nil, List.sum_cons, List.sum_nil, Real.log_inv]
  split_ifs with ha hb hb
  · rw [ha, hb]; ring
  · rw [ha]; ring
  · rw [hb]; ring
  · ring

theorem mdlpGain_eq {xs : List (ℚ × Bool)} (hs : xs.Pairwise fun a b => a.1 ≤ b.1) {s : ℚ} (h1 : 0 < searchRight xs s)
    (h2 : 0 < xs.length - searchRight xs s) : mdlpGain (xs.map Prod.snd) (searchRight xs s) = infoGain xs s := by
  obtain ⟨ht, hd⟩ := take_searchRight hs s
  have hle := searchRight_le xs s
  have hn : (0 : ℝ) < (xs.length : ℝ) := by exact_mod_cast (by omega : 0 < xs.length)
  unfold mdlpGain infoGain
  simp only
  rw [← List.map_take, ← List.map_drop, mdlpEntropy_eq (ys := xs.map Prod.snd), mdlpEntropy_eq (ys := (xs.take _).map Prod.snd),
    mdlpEntropy_eq (ys := (xs.drop _).map Prod.snd), ← ht, ← hd]
  · simp only [List.length_map]
    have : ((xs.drop (searchRight xs s)).length : ℝ) = (xs.length : ℝ) - ((xs.take (searchRight xs s)).length : ℝ) := by
      rw [List.length_drop, List.length_take, min_eq_left hle, Nat.cast_sub hle]
    rw [this]
    field_simp
  · rw [Ne, List.map_eq_nil_iff]; intro h; have := congrArg List.length h; simp only [List.length_drop, List.length_nil] at this; omega
  · rw [Ne, List.map_eq_nil_iff]; intro h; have := congrArg List.length h; simp only [List.length_take, List.length_nil] at this; omega
  · rw [Ne, List.map_eq_nil_iff]; rintro rfl; simp at hn

/-- C28: the first split of a node with at most `max_candidates` candidates has positive information gain, and no cut at the midpoint of two
neighbours with different targets that leaves `min_samples_leaf` records on both sides has a larger one. -/
theorem C28_best_split {c : MdlpCfg} (hv : c.valid) {xs : List (ℚ × Bool)} (hs : xs.Pairwise fun a b => a.1 ≤ b.1)
    (hcand : (mdlpMidpoints xs).length ≤ c.maxCand) {s : ℚ} {rest : List ℚ} (h : mdlpFit c [] xs = .ok (s :: rest)) :
    0 < infoGain xs s ∧
    ∀ (i : ℕ) (a b : ℚ × Bool), xs[i]? = some a → xs[i + 1]? = some b → a.2 ≠ b.2 →
      c.minLeaf ≤ xs.countP (fun r => decide (r.1 ≤ (a.1 + b.1) / 2)) → c.minLeaf ≤ xs.countP (fun r => decide ((a.1 + b.1) / 2 < r.1)) →
      infoGain xs ((a.1 + b.1) / 2) ≤ infoGain xs s := by
  have hl := valid_leaf hv
  rw [mdlpFit_ok hv, List.nil_append] at h
  injection h with h
  rcases recurse_cases hl hs with ⟨-, h'⟩ | ⟨s', hf, L, R, h', -⟩
  · rw [h'] at h; simp at h
  rw [h'] at h
  injection h with h0 h1
  subst h0
  obtain ⟨-, h1, h2, h3, h4⟩ := mdlpFindSplit_spec hf
  rw [mdlpGain_eq hs (by omega) (by omega)] at h3 h4
  refine ⟨h3, ?_⟩
  intro i a b ha hb hab hleft hright
  have hm : (a.1 + b.1) / 2 ∈ mdlpCandidates c xs := by
    unfold mdlpCandidates
    rw [if_neg (by omega)]
    unfold mdlpMidpoints uniqueQ
    rw [List.mem_dedup, (sortQ_perm _).mem_iff, List.mem_map]
    refine ⟨(a, b), List.mem_filter.mpr ⟨?_, by simpa using hab⟩, by simp only; ring⟩
    rw [List.mem_iff_getElem?]
    refine ⟨i, ?_⟩
    rw [List.getElem?_zip_eq_some, List.getElem?_tail]
    exact ⟨ha, hb⟩
  have hsum : searchRight xs ((a.1 + b.1) / 2) + xs.countP (fun r => decide ((a.1 + b.1) / 2 < r.1)) = xs.length := by
    unfold searchRight
    rw [List.length_eq_countP_add_countP (fun r : ℚ × Bool => decide (r.1 ≤ (a.1 + b.1) / 2))]
    congr 1
    refine List.countP_congr (fun r _ => ?_)
    simp
  have := h4 _ hm hleft (by omega)
  have hl' : c.minLeaf ≤ searchRight xs ((a.1 + b.1) / 2) := hleft
  rwa [mdlpGain_eq hs (by omega) (by omega)] at this

/-! ## Agreement with the bins of `OptimalBinning` -/

theorem midpoints_between {xs : List (ℚ × Bool)} (hs : xs.Pairwise fun a b => a.1 < b.1) {m : ℚ} (hm : m ∈ mdlpMidpoints xs) :
    ∀ r ∈ xs, r.1 ≠ m := by
  unfold mdlpMidpoints uniqueQ at hm
  rw [List.mem_dedup, (sortQ_perm _).mem_iff, List.mem_map] at hm
  obtain ⟨⟨a, b⟩, hab, rfl⟩ := hm
  have hab := (List.mem_filter.mp hab).1
  rw [List.mem_iff_getElem?] at hab
  obtain ⟨i, hi⟩ := hab
  rw [List.getElem?_zip_eq_some, List.getElem?_tail] at hi
  obtain ⟨ha, hb⟩ := hi
  rw [List.getElem?_eq_some_iff] at ha hb
  obtain ⟨hi1, ha⟩ := ha
  obtain ⟨hi2, hb⟩ := hb
  have hlt : a.1 < b.1 := by
    have := List.pairwise_iff_getElem.mp hs i (i + 1) hi1 hi2 (by omega)
    rwa [ha, hb] at this
  intro r hr
  obtain ⟨j, hj, rfl⟩ := List.getElem_of_mem hr
  simp only
  rcases Nat.lt_or_ge i j with h | h
  · have : b.1 ≤ xs[j].1 := by
      rcases Nat.lt_or_ge (i + 1) j with h' | h'
      · have := List.pairwise_iff_getElem.mp hs (i + 1) j hi2 hj h'
        rw [hb] at this; exact this.le
      · have : j = i + 1 := by omega
        subst this; rw [hb]
    intro h; linarith
  · have : xs[j].1 ≤ a.1 := by
      rcases Nat.lt_or_ge j i with h' | h'
      · have := List.pairwise_iff_getElem.mp hs j i hj hi1 h'
        rw [ha] at this; exact this.le
      · have : j = i := by omega
        subst this; rw [ha]
    intro h; linarith

theorem midpoints_length (xs : List (ℚ × Bool)) : (mdlpMidpoints xs).length ≤ xs.length - 1 := by
  unfold mdlpMidpoints uniqueQ
  refine (List.dedup_sublist _).length_le.trans ?_
  rw [(sortQ_perm _).length_eq, List.length_map]
  refine (List.filter_sublist).length_le.trans ?_
  simp

theorem recurse_avoids (hl : 1 ≤ c.minLeaf) : ∀ (n : ℕ) (xs : List (ℚ × Bool)), xs.length ≤ n →
    xs.Pairwise (fun a b => a.1 < b.1) → xs.length ≤ c.maxCand + 1 → ∀ s ∈ mdlpRecurse c hl xs, ∀ r ∈ xs, r.1 ≠ s := by
  intro n
  induction n with
  | zero =>
    intro xs hn _ _ s _ r hr
    have : xs = [] := List.length_eq_zero_iff.mp (by omega)
    subst this; simp at hr
  | succ n ih =>
    intro xs hn hs hm s hsm r hr
    have hs' : xs.Pairwise fun a b => a.1 ≤ b.1 := hs.imp le_of_lt
    rcases recurse_cases hl hs' with ⟨-, h⟩ | ⟨s', hf, L, R, h, hL, hR, h1, h2, h3, h4, h5⟩
    · rw [h] at hsm; simp at hsm
    · rw [h] at hsm
      obtain ⟨hv1, hv2⟩ := parts_values hs' s'
      have hr' : r ∈ xs.take (searchRight xs s') ∨ r ∈ xs.drop (searchRight xs s') := by
        rw [← List.mem_append, List.take_append_drop]; exact hr
      rcases List.mem_cons.mp hsm with rfl | hsm
      · obtain ⟨hc, -⟩ := mdlpFindSplit_spec hf
        unfold mdlpCandidates at hc
        simp only at hc
        rw [if_neg (by have := midpoints_length xs; omega)] at hc
        exact midpoints_between hs hc r hr
      · rcases h5 with ⟨-, rfl, rfl⟩ | ⟨-, rfl, rfl⟩
        · simp at hsm
        · rcases List.mem_append.mp hsm with hsm | hsm
          · rcases hr' with hr' | hr'
            · exact ih _ (by omega) (hs.sublist (List.take_sublist _ _)) (by omega) s hsm r hr'
            · have := hL s hsm; have := hv2 r hr'; intro h; linarith
          · rcases hr' with hr' | hr'
            · have := hR s hsm; have := hv1 r hr'; intro h; linarith
            · exact ih _ (by omega) (hs.sublist (List.drop_sublist _ _)) (by omega) s hsm r hr'

/-- C28: for distinct values and at most `max_candidates + 1` records, no split point is a value of the data, so that the bins of `MDLP`
(closed on the right) and those of `OptimalBinning` (closed on the left) hold the same records: at least `min_samples_leaf` each. -/
theorem C28_distinct_values {c : MdlpCfg} (hv : c.valid) {data xs : List (ℚ × Bool)} (hp : xs.Perm data)
    (hs : xs.Pairwise fun a b => a.1 ≤ b.1) (hd : (data.map Prod.fst).Nodup) (hn : data.length ≤ c.maxCand + 1) :
    ∃ st, mdlpFit c [] xs = .ok st ∧ (∀ r ∈ data, leftClosedBin (mdlpSplits st) r.1 = rightClosedBin (mdlpSplits st) r.1) ∧
      (c.minLeaf ≤ data.length → ∀ i ≤ (mdlpSplits st).length, c.minLeaf ≤ recordsIn (leftClosedBin (mdlpSplits st)) data i) := by
  obtain ⟨st, h, -, -, h3⟩ := C28_splits hv hp hs
  have hs' : xs.Pairwise fun a b => a.1 < b.1 := by
    have hnd : (xs.map Prod.fst).Nodup := (hp.map _).nodup_iff.mpr hd
    have := List.pairwise_map.mp hnd
    exact (hs.and this).imp fun ⟨a, b⟩ => lt_of_le_of_ne a b
  have heq : ∀ r ∈ data, leftClosedBin (mdlpSplits st) r.1 = rightClosedBin (mdlpSplits st) r.1 := by
    intro r hr
    rw [mdlpFit_ok hv, List.nil_append] at h
    injection h with h
    unfold leftClosedBin rightClosedBin
    refine List.countP_congr (fun s hsm => ?_)
    have := recurse_avoids (valid_leaf hv) _ xs le_rfl hs' (by rw [hp.length_eq]; exact hn) s
      (by rw [h]; exact (sortQ_perm _).mem_iff.mp hsm) r (hp.mem_iff.mpr hr)
    simp only [decide_eq_true_eq]
    constructor
    · intro hle; exact lt_of_le_of_ne hle (Ne.symm this)
    · exact le_of_lt
  refine ⟨st, h, heq, fun hn' i hi => ?_⟩
  have := h3 hn' i hi
  unfold recordsIn at this ⊢
  rwa [List.countP_congr (q := fun r => rightClosedBin (mdlpSplits st) r.1 == i)
    (fun r hr => by rw [heq r hr])]

/-- C28: for distinct values the result does not depend on the order in which the records are given. -/
theorem C28_order_irrelevant (c : MdlpCfg) {data data' xs xs' : List (ℚ × Bool)} (hd : (data.map Prod.fst).Nodup) (hdd : data.Perm data')
    (hp : xs.Perm data) (hs : xs.Pairwise fun a b => a.1 ≤ b.1) (hp' : xs'.Perm data') (hs' : xs'.Pairwise fun a b => a.1 ≤ b.1) (old : List ℚ) :
    mdlpFit c old xs = mdlpFit c old xs' := by
  have hnd : (xs.map Prod.fst).Nodup := (hp.map _).nodup_iff.mpr hd
  have hnd' : (xs'.map Prod.fst).Nodup := (hp'.map _).nodup_iff.mpr ((hdd.map _).nodup_iff.mp hd)
  have h1 : xs.Pairwise fun a b => a.1 < b.1 := (hs.and (List.pairwise_map.mp hnd)).imp fun ⟨a, b⟩ => lt_of_le_of_ne a b
  have h2 : xs'.Pairwise fun a b => a.1 < b.1 := (hs'.and (List.pairwise_map.mp hnd')).imp fun ⟨a, b⟩ => lt_of_le_of_ne a b
  have hperm : xs.Perm xs' := hp.trans (hdd.trans hp'.symm)
  have : xs = xs' := hperm.eq_of_pairwise (fun a b _ _ hab hba => absurd hab (not_lt.mpr hba.le)) h1 h2
  rw [this]

/-! ## Findings -/

/-- C28 finding: `_splits` is not cleared by `fit`.  After a second `fit` (of the same or of other data) the splits of the first one are
still there; for the same data every split point appears twice, so that the result is no longer strictly increasing. -/
theorem C28_refit_accumulates {c : MdlpCfg} {xs ys : List (ℚ × Bool)} {st st2 : List ℚ} (h : mdlpFit c [] xs = .ok st)
    (h2 : mdlpFit c st ys = .ok st2) :
    (∀ s, s ∈ mdlpSplits st → s ∈ mdlpSplits st2) ∧
    (ys = xs → (∀ s, (mdlpSplits st2).count s = 2 * (mdlpSplits st).count s) ∧
      (mdlpSplits st ≠ [] → mdlpSplits st2 ≠ mdlpSplits st ∧ ¬ (mdlpSplits st2).Pairwise (· < ·))) := by
  have hv : c.valid := by
    unfold mdlpFit at h; split_ifs at h with hv; exact hv
  rw [mdlpFit_ok hv, List.nil_append] at h
  rw [mdlpFit_ok hv] at h2
  injection h with h
  injection h2 with h2
  refine ⟨?_, ?_⟩
  · intro s hs
    unfold mdlpSplits at hs ⊢
    rw [(sortQ_perm _).mem_iff] at hs ⊢
    rw [← h2]; exact List.mem_append_left _ hs
  · rintro rfl
    have hcount : ∀ s, (mdlpSplits st2).count s = 2 * (mdlpSplits st).count s := by
      intro s
      unfold mdlpSplits
      rw [(sortQ_perm _).count_eq, (sortQ_perm _).count_eq, ← h2, h, List.count_append]; omega
    refine ⟨hcount, fun hne => ?_⟩
    obtain ⟨s, hs⟩ := List.exists_mem_of_ne_nil _ hne
    have hpos := List.count_pos_iff.mpr hs
    refine ⟨fun he => ?_, fun hpw => ?_⟩
    · have := hcount s; rw [he] at this; omega
    · have hnd : (mdlpSplits st2).Nodup := hpw.imp fun h => h.ne
      have := List.nodup_iff_count_le_one.mp hnd s
      have := hcount s; omega

/-- C28 finding: the split of a node is kept before the MDL criterion and `min_samples_split` are evaluated: a split that both reject is
part of the result, for every data set. -/
theorem C28_rejected_split_kept {c : MdlpCfg} (hv : c.valid) {xs : List (ℚ × Bool)} {s : ℚ} (h : mdlpFindSplit c xs = some s)
    (hrej : mdlpTerminate c xs (searchRight xs s)) : mdlpFit c [] xs = .ok [s] := by
  rw [mdlpFit_ok hv, List.nil_append, mdlpRecurse]
  split
  · rename_i h'; rw [h] at h'; simp at h'
  · rename_i s' h'
    rw [h] at h'; injection h' with h'; subst h'
    simp [hrej]

/-! ## Concrete data

`exTie`: the values 1 and 2 three times each; target 1 for one of the records with value 1 and for all records with value 2. -/

/-- Records with ties. -/
def exTie : List (ℚ × Bool) := [(1, false), (1, true), (1, false), (2, true), (2, true), (2, true)]

theorem exTie_sorted : exTie.Pairwise fun a b => a.1 ≤ b.1 := by decide +kernel

theorem exTie_gain : 0 < infoGain exTie 1 := by
  have h1 : exTie.filter (fun r => decide (r.1 ≤ 1)) = [(1, false), (1, true), (1, false)] := by decide +kernel
  have h2 : exTie.filter (fun r => !decide (r.1 ≤ 1)) = [(2, true), (2, true), (2, true)] := by decide +kernel
  unfold infoGain targetEntropy
  simp only [h1, h2]
  have e1 : (((exTie.map Prod.snd).count true : ℕ) : ℝ) / (((exTie.map Prod.snd).length : ℕ) : ℝ) = 1 - 1 / 3 := by
    have : (exTie.map Prod.snd).count true = 4 := by decide
    rw [this]; norm_num [exTie]
  rw [e1, Real.binEntropy_one_sub]
  have hpos : 0 < Real.binEntropy (1 / 3 : ℝ) := Real.binEntropy_pos (by norm_num) (by norm_num)
  have e2 : Real.binEntropy 1 = 0 := Real.binEntropy_one
  norm_num [exTie, e2] at hpos ⊢
  linarith

theorem exTie_find (ms : ℕ) : mdlpFindSplit { minSplit := ms, minLeaf := 2 } exTie = some 1 := by
  have hc : mdlpCandidates { minSplit := ms, minLeaf := 2 } exTie = [1, 3 / 2] := by
    have h1 : mdlpMidpoints exTie = [1, 3 / 2] := by decide +kernel
    unfold mdlpCandidates; rw [h1]; rfl
  have t1 : searchRight exTie 1 = 3 := by decide +kernel
  have t2 : searchRight exTie (3 / 2) = 3 := by decide +kernel
  have hg : 0 < mdlpGain (exTie.map Prod.snd) 3 := by
    have := mdlpGain_eq exTie_sorted (s := 1) (by rw [t1]; decide) (by rw [t1]; decide)
    rw [t1] at this; rw [this]; exact exTie_gain
  unfold mdlpFindSplit
  rw [hc]
  simp only [List.foldl_cons, List.foldl_nil, mdlpStep, t1, t2]
  have hl : 2 ≤ 3 ∧ 2 ≤ exTie.length - 3 := by decide
  simp [hl, hg]

theorem exTie_rejected (ms : ℕ) : mdlpTerminate { minSplit := ms, minLeaf := 2 } exTie (searchRight exTie 1) := by
  have t1 : searchRight exTie 1 = 3 := by decide +kernel
  refine .inl ?_
  rw [mdlpGain_eq exTie_sorted (s := 1) (by rw [t1]; decide) (by rw [t1]; decide), t1]
  have h1 : exTie.filter (fun r => decide (r.1 ≤ 1)) = [(1, false), (1, true), (1, false)] := by decide +kernel
  have h2 : exTie.filter (fun r => !decide (r.1 ≤ 1)) = [(2, true), (2, true), (2, true)] := by decide +kernel
  have e0 : exTie.map Prod.snd = [false, true, false, true, true, true] := by decide +kernel
  have f0 : mdlpEntropy [false, true, false, true, true, true] = Real.binEntropy (1 / 3) := by
    rw [mdlpEntropy_eq (by simp)]; unfold targetEntropy; rw [← Real.binEntropy_one_sub]
    norm_num
  have f1 : mdlpEntropy [false, true, false] = Real.binEntropy (1 / 3) := by
    rw [mdlpEntropy_eq (by simp)]; unfold targetEntropy; norm_num
  have f2 : mdlpEntropy [true, true, true] = 0 := by
    rw [mdlpEntropy_eq (by simp)]; unfold targetEntropy; norm_num
  have g : infoGain exTie 1 = Real.binEntropy (1 / 3) / 2 := by
    unfold infoGain targetEntropy
    simp only [h1, h2, e0]
    have e1 : (([false, true, false, true, true, true].count true : ℕ) : ℝ) / (([false, true, false, true, true, true].length : ℕ) : ℝ) =
        1 - 1 / 3 := by norm_num
    rw [e1, Real.binEntropy_one_sub]
    norm_num [exTie]
    ring
  have b0 : bincountLen [false, true, false, true, true, true] = 2 := by decide
  have b1 : bincountLen [false, true, false] = 2 := by decide
  have b2 : bincountLen [true, true, true] = 2 := by decide
  have hb := Real.binEntropy_le_log_two (p := (1 / 3 : ℝ))
  rw [g, e0]
  simp only [List.take, List.drop, f0, f1, f2, b0, b1, b2, List.length_cons, List.length_nil]
  have h5 : Real.log 8 = 3 * Real.log 2 := by
    rw [show (8 : ℝ) = 2 ^ 3 by norm_num, Real.log_pow]; norm_num
  have h6 : Real.log 8 ≤ Real.log 5 + Real.log 7 := by
    rw [← Real.log_mul (by norm_num) (by norm_num)]
    exact Real.log_le_log (by norm_num) (by norm_num)
  norm_num at hb h6 ⊢
  linarith

/-- C28 finding: the split of `exTie` at 1 is rejected by the MDL criterion (and by `min_samples_split = 100`), but it is the result. -/
theorem C28_rejected_split_example (ms : ℕ) (hms : 2 ≤ ms) :
    mdlpTerminate { minSplit := ms, minLeaf := 2 } exTie (searchRight exTie 1) ∧
    mdlpFit { minSplit := ms, minLeaf := 2 } [] exTie = .ok [1] :=
  ⟨exTie_rejected ms, C28_rejected_split_kept (by simp [MdlpCfg.valid, hms]) (exTie_find ms) (exTie_rejected ms)⟩

/-- C28 finding: with tied values a split point can be a value of the data.  `MDLP` counts the records with this value in the bin below it
(here 3 and 3 records), `OptimalBinning` in the bin above it (here 0 and 6 records): its pre-bin below the split point is empty, the
refinement removes it and the informative split is lost.  The equally good candidate 3/2 would have separated the records. -/
theorem C28_tie_mismatch :
    mdlpFit { minLeaf := 2 } [] exTie = .ok [1] ∧
    (List.range 2).map (recordsIn (rightClosedBin [1]) exTie) = [3, 3] ∧
    (List.range 2).map (recordsIn (leftClosedBin [1]) exTie) = [0, 6] ∧
    infoGain exTie (3 / 2) = infoGain exTie 1 ∧
    (List.range 2).map (recordsIn (leftClosedBin [3 / 2]) exTie) = [3, 3] := by
  refine ⟨(C28_rejected_split_example 2 le_rfl).2, by decide +kernel, by decide +kernel, ?_, by decide +kernel⟩
  have h1 : exTie.filter (fun r => decide (r.1 ≤ 1)) = exTie.filter (fun r => decide (r.1 ≤ 3 / 2)) := by decide +kernel
  have h2 : exTie.filter (fun r => !decide (r.1 ≤ 1)) = exTie.filter (fun r => !decide (r.1 ≤ 3 / 2)) := by decide +kernel
  unfold infoGain
  rw [h1, h2]

/-- C28 finding: the result depends on the order of the records.  `a` and `b` are the same records in two orders, both sorted by value (ties
in the order in which the rows are given): the first one has no split, the second one a split at 3/2. -/
theorem C28_order_dependent :
    let a : List (ℚ × Bool) := [(1, false), (1, false), (2, false), (2, true)]
    let b : List (ℚ × Bool) := [(1, false), (1, false), (2, true), (2, false)]
    a.Perm b ∧ a.Pairwise (fun p q => p.1 ≤ q.1) ∧ b.Pairwise (fun p q => p.1 ≤ q.1) ∧
    mdlpFit {} [] a = .ok [] ∧ ∃ st, mdlpFit {} [] b = .ok st ∧ (3 / 2 : ℚ) ∈ mdlpSplits st := by
  have hv : ({} : MdlpCfg).valid := by decide
  intro a b
  have hb : b.Pairwise (fun p q => p.1 ≤ q.1) := by decide +kernel
  refine ⟨by decide +kernel, by decide +kernel, hb, ?_, ?_⟩
  · have hc : mdlpCandidates {} a = [2] := by decide +kernel
    have t : searchRight a 2 = 4 := by decide +kernel
    have hf : mdlpFindSplit {} a = none := by
      unfold mdlpFindSplit
      rw [hc]
      simp only [List.foldl_cons, List.foldl_nil, mdlpStep, t]
      rw [if_neg (by decide)]
    rw [mdlpFit_ok hv, List.nil_append, mdlpRecurse]
    split
    · rfl
    · rename_i s h; rw [hf] at h; simp at h
  · have hc : mdlpCandidates {} b = [3 / 2, 2] := by decide +kernel
    have t1 : searchRight b (3 / 2) = 2 := by decide +kernel
    have t2 : searchRight b 2 = 4 := by decide +kernel
    have hg : 0 < mdlpGain (b.map Prod.snd) 2 := by
      have := mdlpGain_eq hb (s := 3 / 2) (by rw [t1]; decide) (by rw [t1]; decide)
      rw [t1] at this; rw [this]
      have h1 : b.filter (fun r => decide (r.1 ≤ 3 / 2)) = [(1, false), (1, false)] := by decide +kernel
      have h2 : b.filter (fun r => !decide (r.1 ≤ 3 / 2)) = [(2, true), (2, false)] := by decide +kernel
      unfold infoGain targetEntropy
      simp only [h1, h2]
      have e0 : (((b.map Prod.snd).count true : ℕ) : ℝ) / (((b.map Prod.snd).length : ℕ) : ℝ) = 4⁻¹ := by
        have : (b.map Prod.snd).count true = 1 := by decide
        rw [this]; norm_num [b]
      rw [e0]
      have hlt : Real.binEntropy 2⁻¹ = Real.log 2 := Real.binEntropy_two_inv
      have h4 : Real.binEntropy (4⁻¹ : ℝ) = 2 * Real.log 2 - 3 / 4 * Real.log 3 := by
        unfold Real.binEntropy
        have h4' : Real.log 4 = 2 * Real.log 2 := by
          rw [show (4 : ℝ) = 2 ^ 2 by norm_num, Real.log_pow]; norm_num
        rw [show (1 - 4⁻¹ : ℝ)⁻¹ = 4 / 3 by norm_num, inv_inv, Real.log_div (by norm_num) (by norm_num), h4']
        ring
      have h27 : 3 * Real.log 3 < 6 * Real.log 2 := by
        have h1 : Real.log (3 ^ 3) = 3 * Real.log 3 := by rw [Real.log_pow]; norm_num
        have h2 : Real.log (2 ^ 6) = 6 * Real.log 2 := by rw [Real.log_pow]; norm_num
        rw [← h1, ← h2]; exact Real.log_lt_log (by norm_num) (by norm_num)
      rw [h4]
      norm_num [b, hlt]
      linarith
    have hf : mdlpFindSplit {} b = some (3 / 2) := by
      unfold mdlpFindSplit
      rw [hc]
      simp only [List.foldl_cons, List.foldl_nil, mdlpStep, t1, t2]
      have hl : 2 ≤ 2 ∧ 2 ≤ b.length - 2 := by decide
      have hl' : ¬ (2 ≤ 4 ∧ 2 ≤ b.length - 4) := by decide
      simp only [hl, hl', hg, and_self, if_true, if_false]
    rw [mdlpFit_ok hv, List.nil_append]
    refine ⟨_, rfl, ?_⟩
    unfold mdlpSplits
    rw [(sortQ_perm _).mem_iff]
    rcases recurse_cases (valid_leaf hv) hb with ⟨h, -⟩ | ⟨s, h, L, R, h', -⟩
    · rw [hf] at h; simp at h
    · rw [hf] at h; injection h with h; subst h
      rw [h']; exact List.mem_cons_self

/-- Non-vacuity of `C28_refit_accumulates`: `exTie` has a split, a second `fit` doubles it. -/
example : mdlpFit { minLeaf := 2 } [1] exTie = .ok [1, 1] := by
  have h := (C28_rejected_split_example 2 le_rfl).2
  have hv : MdlpCfg.valid { minLeaf := 2 } := by decide
  rw [mdlpFit_ok hv, List.nil_append] at h
  rw [mdlpFit_ok hv]
  injection h with h
  rw [h]; rfl

/-- Non-vacuity of `C28_splits`, `C28_best_split`: the hypotheses hold for `exTie`, with a split. -/
example : (mdlpMidpoints exTie).length ≤ 32 ∧ mdlpFit { minLeaf := 2 } [] exTie = .ok (1 :: []) :=
  ⟨by decide +kernel, (C28_rejected_split_example 2 le_rfl).2⟩

end OptBinning
