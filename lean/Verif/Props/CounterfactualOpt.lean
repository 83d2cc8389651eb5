import Verif.Props.Counterfactual

/-! # C42: an optimal counterfactual is the closest one -/
namespace OptBinning

open Finset Spec

/-- The response `g` of the piecewise linear approximation for outcome type "probability": the given pieces are pieces of the function `g`. -/
def CFOutcome.Response (o : CFOutcome) (g : ℝ → ℝ) : Prop :=
  match o with
  | .probability _ pieces => ∀ q ∈ pieces, ∀ s, q.1 ≤ s → s ≤ q.2.1 → q.2.2.2 * s + q.2.2.1 = g s
  | _ => True

/-- What the user asks for with the options `c` and the outcome `o`; for "probability" the probability of a score is approximated by `g`, on the
pieces. -/
def CFCfg.request (c : CFCfg) (o : CFOutcome) (g : ℝ → ℝ) : Request :=
  { K := c.K, maxChanges := c.maxChanges, nonActionable := c.nonActionable
    outcome := match o with
      | .binary true => fun s => 1 / 10 ^ 6 ≤ s
      | .binary false => fun s => s ≤ 0
      | .continuous y => fun s => (c.minOutcome → y ≤ s) ∧ (c.maxOutcome → s ≤ y)
      | .probability y pieces => fun s => (∃ q ∈ pieces, q.1 ≤ s ∧ s ≤ q.2.1) ∧ (0 ≤ g s ∧ g s ≤ 1) ∧
          (c.minOutcome → y ≤ g s) ∧ (c.maxOutcome → g s ≤ y)
    diverseFeatures := c.hardFeatures, diverseValues := c.hardValues }

/-- The weights and distances of the objective functions; `diff_outcome` is not used for outcome type "binary". -/
noncomputable def CFCfg.costData (c : CFCfg) (d : CFData) (o : CFOutcome) (g : ℝ → ℝ) : CostData :=
  { weight := fun n => (c.weight n).getD 0
    featureWeight := d.wrange, factor := d.F, mean := d.mu
    deviation := match o with
      | .continuous y => fun s => |s - y|
      | .probability y _ => fun s => |g s - y|
      | .binary _ => fun _ => 0 }

/-- The piece used by a solution for outcome type "probability". -/
theorem probability_piece {d : CFData} {c : CFCfg} {y : ℝ} {pieces : List (ℝ × ℝ × ℝ × ℝ)} {v : CFVars} (hb : cfBounds d v)
    (ho : cfProbability d c y pieces v) :
    ∃ q ∈ pieces, q.1 ≤ cfActivation d v ∧ cfActivation d v ≤ q.2.1 ∧ q.2.2.2 * cfActivation d v + q.2.2.1 = v.f := by
  obtain ⟨hsum, hf, hs1, hseg, -⟩ := ho
  obtain ⟨r0, hlt, hz, hcount⟩ := row_choice (n := pieces.length) (z := v.s) (fun j _ => hb.2.2.2.2.2 j) hs1.le
  cases r0 with
  | none => rw [hs1] at hcount; simp at hcount
  | some r =>
    have hr := hlt r rfl
    have hh : ∀ l < pieces.length, l ≠ r → v.h l = 0 := by
      intro l hl hlr
      have := hseg l hl
      rw [hz l hl, if_neg (by intro h'; injection h' with h'; exact hlr h'.symm)] at this
      simp only [Int.cast_zero, mul_zero] at this
      linarith [this.1, this.2]
    have hsr : v.s r = 1 := by rw [hz r hr, if_pos rfl]
    rw [sum_eq_single r (fun l hl hlr => hh l (mem_range.mp hl) hlr) (fun h' => absurd (mem_range.mpr hr) h')] at hsum
    rw [sum_eq_single r] at hf
    · have hq := hseg r hr
      rw [hsr] at hq hf
      simp only [Int.cast_one, mul_one] at hq hf
      have hmem : pieces.getD r (0, 0, 0, 0) ∈ pieces := by
        rw [List.getD, List.getElem?_eq_getElem hr]; simp
      rw [hsum] at hf hq
      exact ⟨_, hmem, hq.1, hq.2, hf⟩
    · intro l hl hlr
      have hl' := mem_range.mp hl
      rw [hh l hl' hlr, hz l hl', if_neg (by intro h'; injection h' with h'; exact hlr h'.symm)]; simp
    · intro h'; exact absurd (mem_range.mpr hr) h'

theorem proposal_eq_iff {d : CFData} {i : ℕ} (hnd : ((d.cands i).map Prod.fst).Nodup) {pk pl : ℕ → Option ℕ}
    (hk : ∀ j, pk i = some j → j < d.nbins i) (hl : ∀ j, pl i = some j → j < d.nbins i) :
    d.proposal pk i = d.proposal pl i ↔ pk i = pl i := by
  unfold CFData.proposal
  refine ⟨fun h => ?_, fun h => by rw [h]⟩
  cases hx : pk i with
  | none => cases hy : pl i with
    | none => rfl
    | some b => rw [hx, hy] at h; simp at h
  | some a => cases hy : pl i with
    | none => rw [hx, hy] at h; simp at h
    | some b =>
      rw [hx, hy] at h
      simp only [Option.map_some, Option.some.injEq] at h
      have ha := hk a hx
      have hb := hl b hy
      unfold CFData.nbins at ha hb
      rw [List.getD, List.getD, List.getElem?_eq_getElem ha, List.getElem?_eq_getElem hb] at h
      simp only [Option.getD_some] at h
      have := (hnd.of_map).getElem_inj_iff.mp h
      rw [this]

theorem abs_le_parts {a b s : ℝ} (ha : 0 ≤ a) (hb : 0 ≤ b) (h : a - b = s) : |s| ≤ a + b := by
  rw [← h, abs_le]; constructor <;> linarith

/-- The diversity terms of a solution. -/
theorem diversity_terms {d : CFData} {c : CFCfg} {m : CFMulti} {k l : ℕ} (hnd : ∀ i < d.p, ((d.cands i).map Prod.fst).Nodup)
    (hd : cfDiversity d c m k l) {pk pl : ℕ → Option ℕ} (hk : CFPos d (m.v k) pk) (hl : CFPos d (m.v l) pl) :
    ∑ i ∈ range d.p, (m.u k l i : ℝ) = ((featureDifferences (d.proposal pk) (d.proposal pl) d.p : ℕ) : ℝ) ∧
    ∑ i ∈ range d.p, ∑ j ∈ range (d.nbins i), (m.d k l i j : ℝ) = ((valueDifferences (d.proposal pk) (d.proposal pl) d.p : ℕ) : ℝ) := by
  obtain ⟨hu, hdd⟩ := diversity_sound hd hk hl
  constructor
  · unfold featureDifferences
    rw [card_filter]
    push_cast
    refine sum_congr rfl fun i hi => ?_
    rw [hu i (mem_range.mp hi), proposal_some, proposal_some]
    split_ifs <;> simp
  · unfold valueDifferences
    push_cast
    refine sum_congr rfl fun i hi => ?_
    have hi := mem_range.mp hi
    have := hdd i hi
    have h1 : ∑ j ∈ range (d.nbins i), (m.d k l i j : ℝ) = ((∑ j ∈ range (d.nbins i), m.d k l i j : ℤ) : ℝ) := by push_cast; rfl
    rw [h1, this]
    have hlen : ∀ p : ℕ → Option ℕ, (d.proposal p i).toList.length = (p i).toList.length := by
      intro p; unfold CFData.proposal; cases p i <;> simp
    rw [hlen, hlen]
    by_cases he : pk i = pl i
    · rw [if_pos he, if_pos ((proposal_eq_iff (hnd i hi) (hk.lt i hi) (hl.lt i hi)).mpr he)]; simp
    · rw [if_neg he, if_neg (fun h => he ((proposal_eq_iff (hnd i hi) (hk.lt i hi) (hl.lt i hi)).mp h))]; push_cast; rfl

/-- The objective values of the proposals of a solution are at most those of the decision variables. -/
theorem value_le_component {d : CFData} {c : CFCfg} {o : CFOutcome} {g : ℝ → ℝ} {m : CFMulti} (h : cfModel d c o m) (hprox : c.proximity.isSome)
    (hwr : ∀ i < d.p, 0 ≤ d.wrange i) (hg : o.Response g) (hnd : ∀ i < d.p, ((d.cands i).map Prod.fst).Nodup) {pos : ℕ → ℕ → Option ℕ}
    (hpos : ∀ k < c.K, CFPos d (m.v k) (pos k)) (n : Objective) (hn : (c.weight n).isSome) :
    objectiveValue (c.costData d o g) d.explained c.K (fun k => d.proposal (pos k)) n ≤ cfComponent d c.K m n := by
  have t4 : ∀ k ∈ range c.K, ∀ l ∈ Ico (k + 1) c.K,
      ∑ i ∈ range d.p, (m.u k l i : ℝ) = ((featureDifferences (d.proposal (pos k)) (d.proposal (pos l)) d.p : ℕ) : ℝ) ∧
      ∑ i ∈ range d.p, ∑ j ∈ range (d.nbins i), (m.d k l i j : ℝ) = ((valueDifferences (d.proposal (pos k)) (d.proposal (pos l)) d.p : ℕ) : ℝ) := by
    intro k hk l hl
    have hk := mem_range.mp hk
    have hl := mem_Ico.mp hl
    exact diversity_terms hnd (h.2 k hk l (by omega) hl.2) (hpos k hk) (hpos l hl.2)
  cases n with
  | proximity =>
    refine sum_le_sum fun k hk => ?_
    have hk := mem_range.mp hk
    obtain ⟨hb, hx, -⟩ := h.1 k hk
    refine sum_le_sum fun i hi => ?_
    have hi : i < d.p := mem_range.mp hi
    refine mul_le_mul_of_nonneg_left ?_ (hwr i hi)
    rw [← (hpos k hk).value (hx hprox) hi]
    exact abs_le_parts (hb.1 i hi).2.2.2.1 (hb.1 i hi).2.2.2.2.1 ((hx hprox) i hi).1
  | closeness =>
    refine sum_le_sum fun k hk => ?_
    have hk := mem_range.mp hk
    obtain ⟨hb, hx, hcl, -⟩ := h.1 k hk
    refine sum_le_sum fun i hi => ?_
    have hi : i < d.p := mem_range.mp hi
    have he : ∑ j ∈ Ico i d.explained.p, d.F j i * ((d.proposal (pos k)).value d.explained j - d.mu j) =
        ∑ j ∈ Ico i d.p, d.F j i * ((m.v k).xp j - d.mu j) := by
      refine sum_congr rfl fun j hj => ?_
      rw [(hpos k hk).value (hx hprox) (mem_Ico.mp hj).2]
    show |∑ j ∈ Ico i d.explained.p, d.F j i * ((d.proposal (pos k)).value d.explained j - d.mu j)| ≤ _
    rw [he]
    exact abs_le_parts (hb.1 i hi).2.2.2.2.2.1 (hb.1 i hi).2.2.2.2.2.2 ((hcl hn) i hi)
  | diffOutcome =>
    refine sum_le_sum fun k hk => ?_
    have hk := mem_range.mp hk
    obtain ⟨hb, hx, -, -, -, hout⟩ := h.1 k hk
    have hact := (hpos k hk).activation (hx hprox)
    cases o with
    | binary y => show (0 : ℝ) ≤ _; linarith [hb.2.1, hb.2.2.1]
    | continuous y =>
      show |Proposal.score _ _ - y| ≤ _
      rw [← hact]
      exact abs_le_parts hb.2.1 hb.2.2.1 (hout.2.2 hn)
    | probability y pieces =>
      show |g (Proposal.score _ _) - y| ≤ _
      rw [← hact]
      obtain ⟨q, hq, h1, h2, h3⟩ := probability_piece hb hout
      rw [← hg q hq _ h1 h2, h3]
      exact abs_le_parts hb.2.1 hb.2.2.1 (hout.2.2.2.2.2.2 hn)
  | diversityFeatures =>
    refine le_of_eq ?_
    show -_ = -_
    rw [sum_congr rfl fun k hk => sum_congr rfl fun l hl => (t4 k hk l hl).1]; rfl
  | diversityValues =>
    refine le_of_eq ?_
    show -_ = -_
    rw [sum_congr rfl fun k hk => sum_congr rfl fun l hl => (t4 k hk l hl).2]; rfl

/-- The decision variables for given proposals. -/
noncomputable def cfEncode (d : CFData) (o : CFOutcome) (g : ℝ → ℝ) (Q : ℕ → Proposal) : CFMulti := by
  classical exact
  let z : ℕ → ℕ → ℕ → ℤ := fun k i j => if (Q k i).map (fun b => (d.cands i).idxOf b) = some j then 1 else 0
  let M : ℕ → ℕ → ℝ := fun k i => ∑ j ∈ Ico i d.p, d.F j i * ((Q k).value d.explained j - d.mu j)
  let S : ℕ → ℝ := fun k => (Q k).score d.explained
  let t : ℕ → ℝ := fun k => match o with
    | .continuous y => S k - y
    | .probability y _ => g (S k) - y
    | .binary _ => 0
  let r : ℕ → Option ℕ := fun k => match o with
    | .probability _ pieces => some (pieces.findIdx fun q => decide (q.1 ≤ S k ∧ S k ≤ q.2.1))
    | _ => none
  { v := fun k =>
      { xp := fun i => (Q k).value d.explained i, a := fun i => if (Q k i).isSome then 1 else 0, z := z k
        tp := fun i => max (d.x i - (Q k).value d.explained i) 0, tm := fun i => max (-(d.x i - (Q k).value d.explained i)) 0
        mp := fun i => max (M k i) 0, mm := fun i => max (-M k i) 0
        qp := max (t k) 0, qm := max (-t k) 0
        f := if (r k).isSome then g (S k) else 0, h := fun l => if r k = some l then S k else 0
        s := fun l => if r k = some l then 1 else 0 }
    u := fun k l i => if (Q k i).isSome ≠ (Q l i).isSome then 1 else 0
    d := fun k l i j => if z k i j = z l i j then 0 else 1 }

theorem max_parts (s : ℝ) : max s 0 - max (-s) 0 = s ∧ max s 0 + max (-s) 0 = |s| := by
  rcases le_total 0 s with h | h
  · rw [max_eq_left h, max_eq_right (by linarith), abs_of_nonneg h]; constructor <;> ring
  · rw [max_eq_right h, max_eq_left (by linarith), abs_of_nonpos h]; constructor <;> ring

/-- The positions of valid proposals. -/
theorem cfEncode_pos {d : CFData} {o : CFOutcome} {g : ℝ → ℝ} {Q : ℕ → Proposal} {k : ℕ} (hv : (Q k).IsValid d.explained) :
    ∃ pos, CFPos d ((cfEncode d o g Q).v k) pos ∧ ∀ i < d.p, d.proposal pos i = Q k i ∧ pos i = (Q k i).map (fun b => (d.cands i).idxOf b) := by
  refine ⟨fun i => if i < d.p then (Q k i).map (fun b => (d.cands i).idxOf b) else none, ⟨?_, ?_, ?_, ?_⟩, ?_⟩
  · intro i hi j hj
    simp only [hi, if_true] at hj
    cases hq : Q k i with
    | none => rw [hq] at hj; simp at hj
    | some b =>
      rw [hq] at hj
      simp only [Option.map_some, Option.some.injEq] at hj
      rw [← hj]
      exact List.idxOf_lt_length_of_mem (hv i hi b hq)
  · intro i hi j hj
    simp only [hi, if_true]; rfl
  · intro i hi
    simp only [hi, if_true, Option.isSome_map]; rfl
  · intro i hi
    simp only [not_lt.mpr hi, if_false]
  · intro i hi
    refine ⟨?_, by simp only [hi, if_true]⟩
    unfold CFData.proposal
    simp only [hi, if_true]
    cases hq : Q k i with
    | none => rfl
    | some b =>
      have hm : b ∈ d.cands i := hv i hi b hq
      simp only [Option.map_some, Option.some.injEq]
      rw [List.getD, List.getElem?_eq_getElem (List.idxOf_lt_length_of_mem hm)]
      simp

/-- The encoded proposals are a solution of the model if they are what the user asked for. -/
theorem cfEncode_model {d : CFData} {c : CFCfg} {o : CFOutcome} {g : ℝ → ℝ} {Q : ℕ → Proposal} (hr : (c.request o g).MetBy d.explained Q)
    (hg : o.Response g) (hnd : ∀ i < d.p, ((d.cands i).map Prod.fst).Nodup) :
    cfModel d c o (cfEncode d o g Q) := by
  have hact : ∀ k, cfActivation d ((cfEncode d o g Q).v k) = (Q k).score d.explained := fun k => rfl
  refine ⟨fun k hk => ?_, fun k hk l hkl hl => ?_⟩
  · obtain ⟨hv, hmax, hnon, hout⟩ := hr.1 k hk
    obtain ⟨pos, hpos, hprop⟩ := cfEncode_pos (o := o) (g := g) hv
    have hrow : ∀ i < d.p, ((cfEncode d o g Q).v k).a i = ∑ j ∈ range (d.nbins i), ((cfEncode d o g Q).v k).z i j := by
      intro i hi
      rw [hpos.a i hi, sum_congr rfl (fun j hj => hpos.z i hi j (mem_range.mp hj))]
      cases hx : pos i with
      | none => simp
      | some j =>
        rw [sum_eq_single j]
        · simp
        · intro b _ hb; rw [if_neg]; intro h; injection h with h; exact hb h.symm
        · intro h; exact absurd (mem_range.mpr (hpos.lt i hi j hx)) h
    refine ⟨⟨fun i hi => ⟨?_, ?_, ?_, le_max_right _ _, le_max_right _ _, le_max_right _ _, le_max_right _ _⟩,
      le_max_right _ _, le_max_right _ _, ?_, ?_, ?_⟩, ?_, ?_, ⟨?_, ?_⟩, ?_, ?_⟩
    · rw [hpos.a i hi]; split_ifs <;> norm_num
    · rw [hpos.a i hi]
      cases hx : pos i with
      | none => simp
      | some j => have := hpos.lt i hi j hx; simp; omega
    · intro j hj; rw [hpos.z i hi j hj]; split_ifs <;> simp
    · cases o with
      | binary y => exact le_rfl
      | continuous y => exact le_rfl
      | probability y pieces => exact hout.2.1.1
    · cases o with
      | binary y => exact zero_le_one
      | continuous y => exact zero_le_one
      | probability y pieces => exact hout.2.1.2
    · intro r
      show (if _ then (1 : ℤ) else 0) = 0 ∨ (if _ then (1 : ℤ) else 0) = 1
      split_ifs
      · exact .inr rfl
      · exact .inl rfl
    · intro _ i hi
      refine ⟨(max_parts _).1, ?_⟩
      have : (Q k).value d.explained i = (d.proposal pos).value d.explained i := by
        unfold Proposal.value; rw [(hprop i hi).1]
      show (Q k).value d.explained i = _
      rw [this, ← value_sum (z := fun j => (((cfEncode d o g Q).v k).z i j : ℝ)) (hpos.lt i hi)]
      intro j hj
      rw [hpos.z i hi j hj]; split_ifs <;> simp
    · intro _ i hi
      exact (max_parts _).1
    · intro i hi
      refine ⟨hrow i hi, ?_⟩
      rw [hpos.a i hi]; split_ifs <;> norm_num
    · rw [← hpos.card]
      have : (d.proposal pos).changed d.p = (Q k).changed d.p := by
        unfold Proposal.changed
        refine filter_congr fun i hi => ?_
        rw [(hprop i (mem_range.mp hi)).1]
      rw [this]; exact hmax
    · intro i hi
      have := hnon i hi
      show (if (Q k i).isSome then (1 : ℤ) else 0) = 0
      rw [this]; simp
    · cases o with
      | continuous y =>
        refine ⟨fun hm => ?_, fun hm => ?_, fun _ => ?_⟩
        · rw [hact]; exact hout.1 hm
        · rw [hact]; exact hout.2 hm
        · rw [hact]; exact (max_parts _).1
      | binary y =>
        unfold cfOutcome cfOpposite
        simp only [hact]
        cases y
        · simp only [Bool.false_eq_true, if_false]; exact hout
        · simp only [if_true]; exact hout
      | probability y pieces =>
        classical
        obtain ⟨⟨q, hq, hq1, hq2⟩, -, hmin, hmax'⟩ := hout
        generalize hS : (Q k).score d.explained = S at hq1 hq2 hmin hmax' hact
        have hact := hact k
        rw [hS] at hact
        let r := pieces.findIdx fun q => decide (q.1 ≤ S ∧ S ≤ q.2.1)
        have hr' : r < pieces.length := List.findIdx_lt_length_of_exists ⟨q, hq, by simp [hq1, hq2]⟩
        have hin := List.findIdx_getElem (w := hr')
        simp only [decide_eq_true_eq] at hin
        have hgr := hg _ (List.getElem_mem hr') S hin.1 hin.2
        have hget : pieces.getD r (0, 0, 0, 0) = pieces[r] := by rw [List.getD, List.getElem?_eq_getElem hr']; rfl
        have hf : ((cfEncode d (.probability y pieces) g Q).v k).f = g S := by rw [← hS]; rfl
        have hh : ∀ l, ((cfEncode d (.probability y pieces) g Q).v k).h l = if l = r then S else 0 := by
          intro l
          have : ((cfEncode d (.probability y pieces) g Q).v k).h l = if some (pieces.findIdx fun q => decide (q.1 ≤ (Q k).score d.explained ∧
            (Q k).score d.explained ≤ q.2.1)) = some l then (Q k).score d.explained else 0 := rfl
          rw [this, hS]
          by_cases hl : l = r
          · rw [if_pos hl, if_pos (by rw [hl])]
          · rw [if_neg hl, if_neg]; intro h'; injection h' with h'; exact hl h'.symm
        have hs : ∀ l, ((cfEncode d (.probability y pieces) g Q).v k).s l = if l = r then 1 else 0 := by
          intro l
          have : ((cfEncode d (.probability y pieces) g Q).v k).s l = if some (pieces.findIdx fun q => decide (q.1 ≤ (Q k).score d.explained ∧
            (Q k).score d.explained ≤ q.2.1)) = some l then (1 : ℤ) else 0 := rfl
          rw [this, hS]
          by_cases hl : l = r
          · rw [if_pos hl, if_pos (by rw [hl])]
          · rw [if_neg hl, if_neg]; intro h'; injection h' with h'; exact hl h'.symm
        refine ⟨?_, ?_, ?_, ?_, fun hm => by rw [hf]; exact hmin hm, fun hm => by rw [hf]; exact hmax' hm, fun _ => ?_⟩
        · rw [hact, sum_congr rfl fun l _ => hh l, sum_ite_eq' (range pieces.length) r (fun _ => S), if_pos (mem_range.mpr hr')]
        · rw [hf, sum_eq_single r]
          · rw [hh, hs, if_pos rfl, if_pos rfl, hget]; push_cast; linarith
          · intro l _ hl; rw [hh, hs, if_neg hl, if_neg hl]; simp
          · intro h'; exact absurd (mem_range.mpr hr') h'
        · rw [sum_congr rfl fun l _ => hs l, sum_ite_eq' (range pieces.length) r (fun _ => (1 : ℤ)), if_pos (mem_range.mpr hr')]
        · intro l hl
          rw [hh, hs]
          by_cases hlr : l = r
          · rw [if_pos hlr, if_pos hlr, hlr, hget]; simp only [Int.cast_one, mul_one]; exact hin
          · rw [if_neg hlr, if_neg hlr]; simp
        · rw [hf, ← hS]; exact (max_parts _).1
  · have hk' : k < c.K := hk
    obtain ⟨pk, hpk, hqk⟩ := cfEncode_pos (o := o) (g := g) (hr.1 k hk).1
    obtain ⟨pl, hpl, hql⟩ := cfEncode_pos (o := o) (g := g) (hr.1 l hl).1
    have hu : ∀ i < d.p, (cfEncode d o g Q).u k l i = if (pk i).isSome ≠ (pl i).isSome then 1 else 0 := by
      intro i hi
      show (if (Q k i).isSome ≠ (Q l i).isSome then (1 : ℤ) else 0) = _
      rw [← (hqk i hi).1, ← (hql i hi).1, proposal_some, proposal_some]
    have hdd : ∀ i < d.p, ∀ j < d.nbins i, (cfEncode d o g Q).d k l i j = if (pk i = some j ↔ pl i = some j) then 0 else 1 := by
      intro i hi j hj
      show (if ((cfEncode d o g Q).v k).z i j = ((cfEncode d o g Q).v l).z i j then (0 : ℤ) else 1) = _
      rw [hpk.z i hi j hj, hpl.z i hi j hj]
      by_cases ha : pk i = some j <;> by_cases hb : pl i = some j <;> simp [ha, hb]
    refine ⟨fun i hi => ⟨?_, ?_, ?_, ?_, ?_, ?_, ?_⟩, ?_⟩
    · rw [hu i hi]; split_ifs <;> simp
    · rw [hu i hi, hpk.a i hi, hpl.a i hi]
      cases pk i <;> cases pl i <;> simp
    · rw [hu i hi, hpk.a i hi, hpl.a i hi]
      cases pk i <;> cases pl i <;> simp
    · rw [hu i hi, hpk.a i hi, hpl.a i hi]
      cases pk i <;> cases pl i <;> simp
    · rw [hu i hi, hpk.a i hi, hpl.a i hi]
      cases pk i <;> cases pl i <;> simp
    · intro j hj
      rw [hdd i hi j hj, hpk.z i hi j hj, hpl.z i hi j hj]
      by_cases ha : pk i = some j <;> by_cases hb : pl i = some j <;> simp [ha, hb]
    · intro hval
      rw [sum_congr rfl (fun j hj => hdd i hi j (mem_range.mp hj)), hpk.a i hi, hpl.a i hi]
      have hnn : 0 ≤ ∑ j ∈ range (d.nbins i), (if (pk i = some j ↔ pl i = some j) then (0 : ℤ) else 1) :=
        sum_nonneg fun j _ => by split_ifs <;> norm_num
      cases hx : pk i with
      | none => rw [hx] at hnn; cases hy : pl i <;> rw [hy] at hnn <;> simp at hnn ⊢ <;> omega
      | some a =>
        cases hy : pl i with
        | none => rw [hx, hy] at hnn; simp at hnn ⊢; omega
        | some b =>
          have hne : pk i ≠ pl i := by
            intro he
            have h1 := (hr.2 k hk l hkl hl).2 hval i hi (by
              rw [← (hqk i hi).1, ← (hql i hi).1]
              exact (proposal_eq_iff (hnd i hi) (hpk.lt i hi) (hpl.lt i hi)).mpr he)
            rw [← (hqk i hi).1] at h1
            unfold CFData.proposal at h1; rw [hx] at h1; simp at h1
          have ha := hpk.lt i hi a hx
          have hab : a ≠ b := by rintro rfl; exact hne (by rw [hx, hy])
          have := single_le_sum (f := fun j => if ((some a : Option ℕ) = some j ↔ (some b : Option ℕ) = some j) then (0 : ℤ) else 1)
            (fun j _ => by split_ifs <;> norm_num) (mem_range.mpr ha)
          have hfa : ¬ ((some a : Option ℕ) = some a ↔ (some b : Option ℕ) = some a) := by
            simp [Ne.symm hab]
          rw [if_neg hfa] at this
          simp only [Option.isSome_some, if_true]
          linarith
    · intro hf
      have hne := (hr.2 k hk l hkl hl).1 hf
      have : ∃ i < d.p, (Q k i).isSome ≠ (Q l i).isSome := by
        by_contra hcon
        push Not at hcon
        apply hne
        unfold Proposal.changed
        exact filter_congr fun i hi => by rw [hcon i (mem_range.mp hi)]
      obtain ⟨i, hi, hq⟩ := this
      have h1 := single_le_sum (f := fun i => (cfEncode d o g Q).u k l i) (s := range d.p)
        (fun j hj => by rw [hu j (mem_range.mp hj)]; split_ifs <;> norm_num) (mem_range.mpr hi)
      have h2 : (cfEncode d o g Q).u k l i = 1 := if_pos hq
      rw [h2] at h1; exact h1

/-- The objective values of encoded proposals. -/
theorem cfEncode_component {d : CFData} {c : CFCfg} {o : CFOutcome} {g : ℝ → ℝ} {Q : ℕ → Proposal} (hr : (c.request o g).MetBy d.explained Q)
    (hg : o.Response g) (hnd : ∀ i < d.p, ((d.cands i).map Prod.fst).Nodup) (n : Objective) :
    cfComponent d c.K (cfEncode d o g Q) n = objectiveValue (c.costData d o g) d.explained c.K Q n := by
  have hm := cfEncode_model hr hg hnd
  have ep : d.explained.p = d.p := rfl
  have t4 : ∀ k ∈ range c.K, ∀ l ∈ Ico (k + 1) c.K,
      ∑ i ∈ range d.p, ((cfEncode d o g Q).u k l i : ℝ) = ((featureDifferences (Q k) (Q l) d.p : ℕ) : ℝ) ∧
      ∑ i ∈ range d.p, ∑ j ∈ range (d.nbins i), ((cfEncode d o g Q).d k l i j : ℝ) = ((valueDifferences (Q k) (Q l) d.p : ℕ) : ℝ) := by
    intro k hk l hl
    have hk := mem_range.mp hk
    have hl := mem_Ico.mp hl
    obtain ⟨pk, hpk, hek⟩ := cfEncode_pos (o := o) (g := g) (hr.1 k hk).1
    obtain ⟨pl, hpl, hel⟩ := cfEncode_pos (o := o) (g := g) (hr.1 l hl.2).1
    have := diversity_terms hnd (hm.2 k hk l (by omega) hl.2) hpk hpl
    rw [this.1, this.2]
    constructor
    · unfold featureDifferences
      congr 2
      exact filter_congr fun i hi => by rw [(hek i (mem_range.mp hi)).1, (hel i (mem_range.mp hi)).1]
    · unfold valueDifferences
      congr 1
      exact sum_congr rfl fun i hi => by rw [(hek i (mem_range.mp hi)).1, (hel i (mem_range.mp hi)).1]
  cases n with
  | proximity =>
    refine sum_congr rfl fun k _ => sum_congr rfl fun i _ => ?_
    rw [← (max_parts (d.explained.x i - (Q k).value d.explained i)).2]; rfl
  | closeness =>
    refine sum_congr rfl fun k _ => sum_congr rfl fun i _ => ?_
    exact (max_parts _).2
  | diffOutcome =>
    refine sum_congr rfl fun k _ => ?_
    cases o with
    | binary y => show max (0 : ℝ) 0 + max (-0) 0 = 0; simp
    | continuous y => exact (max_parts _).2
    | probability y pieces => exact (max_parts _).2
  | diversityFeatures =>
    show -_ = -_
    rw [sum_congr rfl fun k hk => sum_congr rfl fun l hl => (t4 k hk l hl).1]; rfl
  | diversityValues =>
    show -_ = -_
    rw [sum_congr rfl fun k hk => sum_congr rfl fun l hl => (t4 k hk l hl).2]; rfl

/-- The proposals of a solution are what the user asked for. -/
theorem solution_met {d : CFData} {c : CFCfg} {o : CFOutcome} {g : ℝ → ℝ} {m : CFMulti} (h : cfModel d c o m) (hprox : c.proximity.isSome)
    (hg : o.Response g) (hnd : ∀ i < d.p, ((d.cands i).map Prod.fst).Nodup) {pos : ℕ → ℕ → Option ℕ} (hpos : ∀ k < c.K, CFPos d (m.v k) (pos k)) :
    (c.request o g).MetBy d.explained (fun k => d.proposal (pos k)) := by
  refine ⟨fun k hk => ?_, fun k hk l hkl hl => ?_⟩
  · obtain ⟨hb, hx, -, hm, ha, hout⟩ := h.1 k hk
    refine ⟨(hpos k hk).valid, ?_, fun i hi => (hpos k hk).non (ha i hi), ?_⟩
    · show (((d.proposal (pos k)).changed d.p).card : ℤ) ≤ c.maxChanges
      rw [(hpos k hk).card]; exact hm.2
    · have hact := (hpos k hk).activation (hx hprox)
      cases o with
      | continuous y =>
        exact ⟨fun h' => by show y ≤ Proposal.score _ _; rw [← hact]; exact hout.1 h',
          fun h' => by show Proposal.score _ _ ≤ y; rw [← hact]; exact hout.2.1 h'⟩
      | binary y => cases y with
        | true => show 1 / 10 ^ 6 ≤ Proposal.score _ _; rw [← hact]; exact hout
        | false => show Proposal.score _ _ ≤ 0; rw [← hact]; exact hout
      | probability y pieces =>
        obtain ⟨q, hq, h1, h2, h3⟩ := probability_piece hb hout
        rw [hg q hq _ h1 h2] at h3
        have hgf : g (Proposal.score (d.proposal (pos k)) d.explained) = (m.v k).f := by rw [← hact]; exact h3
        refine ⟨⟨q, hq, by rw [← hact]; exact h1, by rw [← hact]; exact h2⟩, ⟨?_, ?_⟩, fun h' => ?_, fun h' => ?_⟩
        · rw [hgf]; exact hb.2.2.2.1
        · rw [hgf]; exact hb.2.2.2.2.1
        · rw [hgf]; exact hout.2.2.2.2.1 h'
        · rw [hgf]; exact hout.2.2.2.2.2.1 h'
  · have hk : k < c.K := hk
    have hl : l < c.K := hl
    have hd := h.2 k hk l hkl hl
    obtain ⟨hu, hdd⟩ := diversity_sound hd (hpos k hk) (hpos l hl)
    refine ⟨fun hf heq => ?_, fun hv i hi heq => ?_⟩
    · have := hd.2 hf
      rw [sum_eq_zero] at this
      · omega
      · intro i hi
        rw [hu i (mem_range.mp hi), if_neg]
        rw [not_not]
        have h2 : i ∈ (d.proposal (pos k)).changed d.p ↔ i ∈ (d.proposal (pos l)).changed d.p := by
          have : (d.proposal (pos k)).changed d.p = (d.proposal (pos l)).changed d.p := heq
          rw [this]
        unfold Proposal.changed at h2
        simp only [mem_filter, hi, true_and, proposal_some] at h2
        exact Bool.eq_iff_iff.mpr h2
    · have hi : i < d.p := hi
      have h5 := (hd.1 i hi).2.2.2.2.2.2 hv
      have he := (proposal_eq_iff (hnd i hi) ((hpos k hk).lt i hi) ((hpos l hl).lt i hi)).mp heq
      rw [hdd i hi, if_pos he, (hpos k hk).a i hi, (hpos l hl).a i hi, ← he] at h5
      show d.proposal (pos k) i = none
      unfold CFData.proposal
      cases hx : pos k i with
      | none => rfl
      | some a => rw [hx] at h5; simp at h5

/-- The positions chosen by a solution. -/
theorem exists_positions {d : CFData} {c : CFCfg} {o : CFOutcome} {m : CFMulti} (h : cfModel d c o m) :
    ∃ pos : ℕ → ℕ → Option ℕ, ∀ k < c.K, CFPos d (m.v k) (pos k) := by
  have hex : ∀ k, ∃ pos, k < c.K → CFPos d (m.v k) pos := by
    intro k
    by_cases hk : k < c.K
    · obtain ⟨hb, -, -, hm, -⟩ := h.1 k hk
      obtain ⟨pos, hp⟩ := exists_pos hb hm
      exact ⟨pos, fun _ => hp⟩
    · exact ⟨fun _ => none, fun h => absurd h hk⟩
  choose pos hpos using hex
  exact ⟨pos, hpos⟩

/-- `P` is what the code reports for the solution `m`: new bins and scores. -/
def Reported (d : CFData) (K : ℕ) (m : CFMulti) (P : ℕ → Proposal) : Prop :=
  ∀ k < K, (∀ i < d.p, (cfReport d (cfSolution d m k)).1 i = ((P k i).map Prod.fst).toList) ∧
    (cfReport d (cfSolution d m k)).2 = (P k).score d.explained

/-- C42: an optimal solution of the model (weighted method, `"proximity"` among the objectives, non-negative weights) reports counterfactuals
that satisfy the request, and every set of counterfactuals that satisfies the request costs at least as much: weighted distance
to the query, Mahalanobis distance to the data and deviation from the target, minus the rewarded diversity. -/
theorem C42_closest {d : CFData} {c : CFCfg} {o : CFOutcome} {g : ℝ → ℝ} {m : CFMulti} (h : cfModel d c o m)
    (hopt : ∀ m', cfModel d c o m' → cfObjective d c m ≤ cfObjective d c m') (hprox : c.proximity.isSome)
    (hw : ∀ n w, c.weight n = some w → 0 ≤ w) (hwr : ∀ i < d.p, 0 ≤ d.wrange i)
    (hg : o.Response g) (hnd : ∀ i < d.p, ((d.cands i).map Prod.fst).Nodup) :
    ∃ P : ℕ → Proposal, Reported d c.K m P ∧ (c.request o g).MetBy d.explained P ∧
      ∀ Q, (c.request o g).MetBy d.explained Q →
        cost (c.costData d o g) d.explained c.K P ≤ cost (c.costData d o g) d.explained c.K Q := by
  obtain ⟨pos, hpos⟩ := exists_positions h
  refine ⟨fun k => d.proposal (pos k), fun k hk => ⟨fun i hi => (hpos k hk).indices hi, (hpos k hk).report_score⟩,
    solution_met h hprox hg hnd hpos, fun Q hQ => ?_⟩
  have hle : ∀ n, (c.weight n).getD 0 * objectiveValue (c.costData d o g) d.explained c.K (fun k => d.proposal (pos k)) n ≤
      (c.weight n).getD 0 * cfComponent d c.K m n := by
    intro n
    cases hn : c.weight n with
    | none => simp
    | some w => exact mul_le_mul_of_nonneg_left (value_le_component h hprox hwr hg hnd hpos n (by rw [hn]; rfl)) (hw n w hn)
  have h1 := hopt _ (cfEncode_model hQ hg hnd)
  unfold cfObjective at h1
  simp only [cfEncode_component hQ hg hnd] at h1
  unfold cost
  have e1 := hle .proximity
  have e2 := hle .closeness
  have e3 := hle .diffOutcome
  have e4 := hle .diversityFeatures
  have e5 := hle .diversityValues
  simp only [CFCfg.costData, CFCfg.weight] at *
  linarith

theorem near_degradation {d : CFData} {c : CFCfg} {tol : ℝ} {prev : List (Objective × ℝ)} {m : CFMulti} :
    cfDegradation d c tol prev m ↔ ∀ q ∈ prev, Near tol q.2 (cfComponent d c.K m q.1) := by
  unfold cfDegradation Near
  constructor
  · intro h q hq
    obtain ⟨dp, dm, h1, h2, h3, h4⟩ := h q hq
    exact (abs_le_parts h1 h2 h3).trans h4
  · intro h q hq
    refine ⟨max (cfComponent d c.K m q.1 - q.2) 0, max (-(cfComponent d c.K m q.1 - q.2)) 0, le_max_right _ _, le_max_right _ _,
      (max_parts _).1, ?_⟩
    rw [(max_parts _).2]; exact h q hq

/-- What is known about the earlier objectives: each best value is attained by nothing smaller among the sets of proposals that are near the best
values of the objectives before it. -/
def Best {α : Type*} (S : Set α) (val : α → Objective → ℝ) (tol : ℝ) (prev : List (Objective × ℝ)) : Prop :=
  ∀ l n v r, prev = l ++ (n, v) :: r → ∀ e ∈ S, (∀ q ∈ l, Near tol q.2 (val e q.1)) → v ≤ val e n

theorem near_of_le {α : Type*} {S : Set α} {val : α → Objective → ℝ} {tol : ℝ} {prev : List (Objective × ℝ)} (hb : Best S val tol prev)
    {e : α} (he : e ∈ S) {u : Objective → ℝ} (hu : ∀ q ∈ prev, val e q.1 ≤ u q.1) (hn : ∀ q ∈ prev, Near tol q.2 (u q.1)) :
    ∀ q ∈ prev, Near tol q.2 (val e q.1) := by
  have : ∀ l r, prev = l ++ r → ∀ q ∈ l, Near tol q.2 (val e q.1) := by
    intro l
    induction l using List.reverseRecOn with
    | nil => intro r _ q hq; simp at hq
    | append_singleton l a ih =>
      intro r hr q hq
      have hl := ih (a :: r) (by rw [hr]; simp)
      rw [List.mem_append, List.mem_singleton] at hq
      rcases hq with hq | rfl
      · exact hl q hq
      · have hmem : q ∈ prev := by rw [hr]; simp
        have h1 := hb l q.1 q.2 r (by rw [hr]; simp) e he hl
        have h2 := hu q hmem
        have h3 := hn q hmem
        unfold Near at h3 ⊢
        rw [abs_le] at h3
        rw [abs_of_nonneg (by linarith)]
        linarith [h3.2]
  exact this prev [] (by simp)

/-- C42, hierarchical method: if every solver call is answered with an optimal solution, the reported counterfactuals satisfy the request and are
a result of minimising the objectives one after the other over all sets of counterfactuals that satisfy the request, where
each best value may degrade by at most `priority_tol` afterwards. -/
theorem C42_hierarchical {d : CFData} {c : CFCfg} {o : CFOutcome} {g : ℝ → ℝ} {tol : ℝ} {names : List Objective} {m : CFMulti}
    (h : CFHierarchical d c o tol names [] m) (hprox : c.proximity.isSome) (hnames : ∀ n ∈ names, (c.weight n).isSome)
    (hwr : ∀ i < d.p, 0 ≤ d.wrange i) (hg : o.Response g) (hnd : ∀ i < d.p, ((d.cands i).map Prod.fst).Nodup) :
    ∃ P : ℕ → Proposal, Reported d c.K m P ∧ IsHierarchicalOptimum {Q | (c.request o g).MetBy d.explained Q}
      (objectiveValue (c.costData d o g) d.explained c.K) tol names [] P := by
  have key : ∀ names prev, (∀ n ∈ names, (c.weight n).isSome) → (∀ q ∈ prev, (c.weight q.1).isSome) →
      Best {Q | (c.request o g).MetBy d.explained Q} (objectiveValue (c.costData d o g) d.explained c.K) tol prev →
      CFHierarchical d c o tol names prev m → ∃ P : ℕ → Proposal, Reported d c.K m P ∧
        IsHierarchicalOptimum {Q | (c.request o g).MetBy d.explained Q} (objectiveValue (c.costData d o g) d.explained c.K) tol names prev P := by
    intro names
    have sol : ∀ prev m0, (∀ q ∈ prev, (c.weight q.1).isSome) →
        Best {Q | (c.request o g).MetBy d.explained Q} (objectiveValue (c.costData d o g) d.explained c.K) tol prev →
        cfModel d c o m0 → cfDegradation d c tol prev m0 → ∃ P : ℕ → Proposal, Reported d c.K m0 P ∧ (c.request o g).MetBy d.explained P ∧
          (∀ q ∈ prev, Near tol q.2 (objectiveValue (c.costData d o g) d.explained c.K P q.1)) ∧
          ∀ n, (c.weight n).isSome → objectiveValue (c.costData d o g) d.explained c.K P n ≤ cfComponent d c.K m0 n := by
      intro prev m0 hprev hbest hm hdeg
      obtain ⟨pos, hpos⟩ := exists_positions hm
      refine ⟨fun k => d.proposal (pos k), fun k hk => ⟨fun i hi => (hpos k hk).indices hi, (hpos k hk).report_score⟩,
        solution_met hm hprox hg hnd hpos, ?_, fun n hn => value_le_component hm hprox hwr hg hnd hpos n hn⟩
      exact near_of_le hbest (solution_met hm hprox hg hnd hpos) (u := cfComponent d c.K m0)
        (fun q hq => value_le_component hm hprox hwr hg hnd hpos q.1 (hprev q hq)) (near_degradation.mp hdeg)
    have comp : ∀ prev (Q : ℕ → Proposal), (c.request o g).MetBy d.explained Q →
        (∀ q ∈ prev, Near tol q.2 (objectiveValue (c.costData d o g) d.explained c.K Q q.1)) →
        cfModel d c o (cfEncode d o g Q) ∧ cfDegradation d c tol prev (cfEncode d o g Q) := by
      intro prev Q hQ hn
      refine ⟨cfEncode_model hQ hg hnd, near_degradation.mpr fun q hq => ?_⟩
      rw [cfEncode_component hQ hg hnd]; exact hn q hq
    induction names with
    | nil => intro prev _ _ _ h; exact h.elim
    | cons n rest ih =>
      intro prev hnm hprev hbest h
      cases rest with
      | nil =>
        obtain ⟨⟨hm, hdeg⟩, hmin⟩ := h
        obtain ⟨P, hrep, hmet, hnear, hle⟩ := sol prev m hprev hbest hm hdeg
        refine ⟨P, hrep, hmet, hnear, fun Q hQ hqn => (hle n (hnm n (by simp))).trans ?_⟩
        have := hmin _ (comp prev Q hQ hqn).1 (comp prev Q hQ hqn).2
        rwa [cfEncode_component hQ hg hnd] at this
      | cons n' rest =>
        obtain ⟨m0, ⟨⟨hm, hdeg⟩, hmin⟩, hrest⟩ := h
        obtain ⟨P0, -, hmet, hnear, hle⟩ := sol prev m0 hprev hbest hm hdeg
        have hlow : ∀ Q, (c.request o g).MetBy d.explained Q →
            (∀ q ∈ prev, Near tol q.2 (objectiveValue (c.costData d o g) d.explained c.K Q q.1)) →
            cfComponent d c.K m0 n ≤ objectiveValue (c.costData d o g) d.explained c.K Q n := by
          intro Q hQ hqn
          have := hmin _ (comp prev Q hQ hqn).1 (comp prev Q hQ hqn).2
          rwa [cfEncode_component hQ hg hnd] at this
        have hbest' : Best {Q | (c.request o g).MetBy d.explained Q} (objectiveValue (c.costData d o g) d.explained c.K) tol
            (prev ++ [(n, cfComponent d c.K m0 n)]) := by
          intro l n1 v r hr e he hel
          rcases List.eq_nil_or_concat r with rfl | ⟨r', a, rfl⟩
          · have := List.append_inj' hr (by simp)
            obtain ⟨h1, h2⟩ := this
            simp only [List.cons.injEq, Prod.mk.injEq, and_true] at h2
            obtain ⟨rfl, rfl⟩ := h2
            subst h1
            exact hlow e he hel
          · have hr' : prev ++ [(n, cfComponent d c.K m0 n)] = (l ++ (n1, v) :: r') ++ [a] := by rw [hr]; simp
            have := (List.append_inj' hr' (by simp)).1
            exact hbest l n1 v r' this e he hel
        obtain ⟨P, hrep, hopt⟩ := ih (prev ++ [(n, cfComponent d c.K m0 n)]) (fun x hx => hnm x (List.mem_cons_of_mem _ hx))
          (by
            intro q hq
            rw [List.mem_append, List.mem_singleton] at hq
            rcases hq with hq | rfl
            · exact hprev q hq
            · exact hnm n (by simp)) hbest' hrest
        refine ⟨P, hrep, cfComponent d c.K m0 n, ⟨⟨P0, hmet, hnear, ?_⟩, ?_⟩, hopt⟩
        · exact le_antisymm (hlow P0 hmet hnear) (hle n (hnm n (by simp)))
        · rintro v ⟨e, he, hen, rfl⟩
          exact hlow e he hen
  exact key names [] hnames (by simp) (by intro l n v r hr; simp at hr) h

/-- C42: the objective of highest priority is within the tolerance of the best possible value: of all sets of counterfactuals that satisfy the
request none is better by more than the relative tolerance. -/
theorem C42_first_objective {d : CFData} {c : CFCfg} {o : CFOutcome} {g : ℝ → ℝ} {tol : ℝ} {n : Objective} {names : List Objective}
    {m : CFMulti} (h : CFHierarchical d c o tol (n :: names) [] m) (htol : 0 ≤ tol ∧ tol ≤ 1) (hprox : c.proximity.isSome)
    (hnames : ∀ n' ∈ n :: names, (c.weight n').isSome) (hwr : ∀ i < d.p, 0 ≤ d.wrange i) (hg : o.Response g)
    (hnd : ∀ i < d.p, ((d.cands i).map Prod.fst).Nodup) :
    ∃ P : ℕ → Proposal, Reported d c.K m P ∧ (c.request o g).MetBy d.explained P ∧ ∀ Q, (c.request o g).MetBy d.explained Q →
      objectiveValue (c.costData d o g) d.explained c.K P n ≤ objectiveValue (c.costData d o g) d.explained c.K Q n +
        tol * |objectiveValue (c.costData d o g) d.explained c.K Q n| := by
  obtain ⟨P, hrep, hopt⟩ := C42_hierarchical h hprox hnames hwr hg hnd
  have sound : ∀ names prev, IsHierarchicalOptimum {Q | (c.request o g).MetBy d.explained Q}
      (objectiveValue (c.costData d o g) d.explained c.K) tol names prev P → (c.request o g).MetBy d.explained P ∧
      ∀ q ∈ prev, Near tol q.2 (objectiveValue (c.costData d o g) d.explained c.K P q.1) := by
    intro names
    induction names with
    | nil => intro prev h; exact h.elim
    | cons a rest ih =>
      intro prev h
      cases rest with
      | nil => exact ⟨h.1, h.2.1⟩
      | cons b rest =>
        obtain ⟨best, -, h⟩ := h
        have := ih _ h
        exact ⟨this.1, fun q hq => this.2 q (List.mem_append_left _ hq)⟩
  refine ⟨P, hrep, (sound _ _ hopt).1, fun Q hQ => ?_⟩
  cases names with
  | nil =>
    have := hopt.2.2 Q hQ (by simp)
    have := mul_nonneg htol.1 (abs_nonneg (objectiveValue (c.costData d o g) d.explained c.K Q n))
    linarith
  | cons n' rest =>
    obtain ⟨best, ⟨-, hleast⟩, hopt⟩ := hopt
    have h1 := (sound _ _ hopt).2 (n, best) (by simp)
    have h2 : best ≤ objectiveValue (c.costData d o g) d.explained c.K Q n := hleast ⟨Q, hQ, by simp, rfl⟩
    unfold Near at h1
    simp only at h1
    rw [abs_le] at h1
    have h3 := h1.2
    generalize objectiveValue (c.costData d o g) d.explained c.K Q n = v at h2 ⊢
    generalize objectiveValue (c.costData d o g) d.explained c.K P n = w at h3 ⊢
    have h4 : |best| ≤ |v| + (v - best) := by
      have := abs_sub_abs_le_abs_sub best v
      rw [abs_sub_comm, abs_of_nonneg (by linarith : 0 ≤ v - best)] at this
      linarith
    nlinarith [mul_le_mul_of_nonneg_left h4 htol.1, mul_le_mul_of_nonneg_right htol.2 (by linarith : 0 ≤ v - best)]

/-- C42: if some set of counterfactuals satisfies the request, the model has a solution (so it is not reported as infeasible). -/
theorem C42_feasible {d : CFData} {c : CFCfg} {o : CFOutcome} {g : ℝ → ℝ} {Q : ℕ → Proposal} (hr : (c.request o g).MetBy d.explained Q)
    (hg : o.Response g) (hnd : ∀ i < d.p, ((d.cands i).map Prod.fst).Nodup) : ∃ m, cfModel d c o m := ⟨_, cfEncode_model hr hg hnd⟩

/-- Two features, both with value 0; new bins 1 and 2 for the first, 1 for the second; `score = -1 + value 0 + value 1`. -/
noncomputable def exCF2 : CFData :=
  { p := 2, x := fun _ => 0, cands := fun i => if i = 0 then [(1, 2), (2, 5)] else [(1, 3)], intercept := -1, coef := fun _ => 1
    wrange := fun _ => 1, F := fun _ _ => 0, mu := fun _ => 0 }

/-- Two diverse counterfactuals of class 1: change the first feature to bin 1, or the second to bin 1. -/
def exCF2P : ℕ → Proposal := fun k i => if k = i ∧ i < 2 then some (1, if i = 0 then 2 else 3) else none

def exCF2Cfg : CFCfg := { K := 2, maxChanges := 1, hardFeatures := true, hardValues := true }

theorem exCF2_met : (exCF2Cfg.request (.binary true) id).MetBy exCF2.explained exCF2P := by
  refine ⟨fun k hk => ?_, fun k hk l hkl hl => ?_⟩
  · have hk : k < 2 := hk
    refine ⟨?_, ?_, by simp [exCF2Cfg, CFCfg.request], ?_⟩
    · intro i hi b hb
      have hi : i < 2 := hi
      simp only [exCF2P] at hb
      split_ifs at hb <;> simp_all [exCF2, CFData.explained]
    · have : (exCF2P k).changed exCF2.explained.p ⊆ {k} := by
        intro i hi
        simp only [Proposal.changed, mem_filter, exCF2P] at hi
        rw [mem_singleton]
        by_contra hne
        simp [Ne.symm hne] at hi
      have := card_le_card this
      rw [card_singleton] at this
      show _ ≤ (1 : ℤ)
      exact_mod_cast this
    · show 1 / 10 ^ 6 ≤ Proposal.score (exCF2P k) exCF2.explained
      have h01 : k = 0 ∨ k = 1 := by omega
      rcases h01 with rfl | rfl <;> norm_num [Proposal.score, Proposal.value, exCF2P, exCF2, CFData.explained, sum_range_succ]
  · have hl : l < 2 := hl
    have h0 : k = 0 := by omega
    have h1 : l = 1 := by omega
    subst h0; subst h1
    refine ⟨fun _ heq => ?_, fun _ i hi heq => ?_⟩
    · have : (0 : ℕ) ∈ (exCF2P 0).changed 2 := by simp [Proposal.changed, exCF2P]
      have heq : (exCF2P 0).changed 2 = (exCF2P 1).changed 2 := heq
      rw [heq] at this
      simp [Proposal.changed, exCF2P] at this
    · have hi : i < 2 := hi
      have h01 : i = 0 ∨ i = 1 := by omega
      rcases h01 with rfl | rfl <;> simp [exCF2P] at heq ⊢

/-- Non-vacuity: the request of two diverse counterfactuals of class 1 can be met, the model of the code has a solution with exactly these, and the
hypotheses of `C42_closest` on the data hold. -/
example : (∃ m, cfModel exCF2 exCF2Cfg (.binary true) m) ∧ (∀ i < exCF2.p, ((exCF2.cands i).map Prod.fst).Nodup) ∧
    exCF2Cfg.proximity.isSome ∧ ∀ i < exCF2.p, 0 ≤ exCF2.wrange i := by
  have hnd : ∀ i < exCF2.p, ((exCF2.cands i).map Prod.fst).Nodup := by
    intro i hi
    have hi : i < 2 := hi
    have h01 : i = 0 ∨ i = 1 := by omega
    rcases h01 with rfl | rfl <;> simp [exCF2]
  exact ⟨C42_feasible exCF2_met trivial hnd, hnd, rfl, fun i _ => by simp [exCF2]⟩

end OptBinning
