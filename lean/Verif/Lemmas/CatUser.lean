import Verif.Lemmas.Categorical
import Verif.Lemmas.Table

set_option linter.unusedSectionVars false
set_option linter.unusedSimpArgs false

namespace OptBinning
open Spec Finset

variable {α : Type*} [LinearOrder α]

theorem countP_lt_eq_zero {s : List α} {a v : α} (h : (a :: s).Pairwise (· ≤ ·)) (hv : ¬ a < v) :
    s.countP (fun t => decide (t < v)) = 0 := by
  rw [List.countP_eq_zero]
  intro t ht
  have := (List.pairwise_cons.1 h).1 t ht
  simp only [decide_eq_true_eq]
  intro h2
  exact hv (lt_of_le_of_lt this h2)

theorem countP_select_lt {s : List α} {m : List Bool} (h : s.Pairwise (· ≤ ·)) (hl : m.length = s.length) (v : α) :
    (select s m).countP (fun t => decide (t < v)) =
      (m.take (s.countP fun t => decide (t < v))).count true := by
  induction s generalizing m with
  | nil => simp
  | cons a s ih =>
    cases m with
    | nil => simp at hl
    | cons b m =>
      have ih' := ih (List.pairwise_cons.1 h).2 (by simpa using hl)
      by_cases hv : a < v
      · cases b <;> simp [hv, ih']
      · have h0 := countP_lt_eq_zero h hv
        have h1 : (select s m).countP (fun t => decide (t < v)) = 0 := by
          rw [ih', h0]; simp
        cases b <;> simp [hv, h0, h1]

theorem mem_select_of {β : Type*} {l : List β} {m : List Bool} {i : ℕ} {a : β} (h1 : l[i]? = some a)
    (h2 : m[i]? = some true) : a ∈ select l m := by
  induction l generalizing m i with
  | nil => simp at h1
  | cons b l ih =>
    cases m with
    | nil => simp at h2
    | cons c m =>
      cases i with
      | zero =>
        simp only [List.getElem?_cons_zero, Option.some.injEq] at h1 h2
        subst h1 h2
        simp
      | succ i =>
        have := ih (m := m) (i := i) (by simpa using h1) (by simpa using h2)
        cases c <;> simp [this]

theorem digitize_right_idx {s : List α} (hs : s.Pairwise (· < ·)) {i : ℕ} {a : α} (h : s[i]? = some a) :
    digitize true s (some a) = i := by
  simp only [digitize, if_true]
  induction s generalizing i with
  | nil => simp at h
  | cons b s ih =>
    obtain ⟨h1, h2⟩ := List.pairwise_cons.1 hs
    cases i with
    | zero =>
      simp only [List.getElem?_cons_zero, Option.some.injEq] at h
      subst h
      rw [List.countP_cons, countP_lt_eq_zero (a := b) (hs.imp le_of_lt) (lt_irrefl _)]
      simp
    | succ i =>
      have h3 : s[i]? = some a := by simpa using h
      have h4 := ih h2 h3
      have h5 : b < a := h1 a (List.mem_of_getElem? h3)
      rw [List.countP_cons, h4]
      simp [h5]

theorem truncWeight_pos {recs : List (Rec α)} (hw : WholeWeights recs) {r : Rec α} (hr : r ∈ recs) (h0 : r.w ≠ 0) :
    0 < truncWeight recs := by
  have h1 := truncWeight_whole hw
  have : ∀ l : List (Rec α), WholeWeights l → 0 ≤ (l.map Rec.w).sum := by
    intro l hl
    refine List.sum_nonneg fun q hq => ?_
    obtain ⟨s, hs, rfl⟩ := List.mem_map.1 hq
    obtain ⟨n, hn⟩ := hl s hs
    rw [hn]; exact Nat.cast_nonneg n
  have h2 : r.w ≤ (recs.map Rec.w).sum := by
    refine List.single_le_sum ?_ _ (List.mem_map_of_mem (f := Rec.w) hr)
    intro q hq
    obtain ⟨s, hs, rfl⟩ := List.mem_map.1 hq
    obtain ⟨n, hn⟩ := hw s hs
    rw [hn]; exact Nat.cast_nonneg n
  obtain ⟨n, hn⟩ := hw r hr
  have h3 : 0 < n := by
    rcases Nat.eq_zero_or_pos n with h | h
    · rw [h] at hn; exact absurd (by simpa using hn) h0
    · exact h
  have h4 : (0 : ℚ) < (truncWeight recs : ℚ) := by
    rw [h1]
    exact lt_of_lt_of_le (by rw [hn]; exact_mod_cast h3) h2
  exact_mod_cast h4

/-- A record of each class with a given value. -/
def MixedValue (recs : List (Rec α)) (a : α) : Prop :=
  ∀ event : Bool, ∃ r ∈ recs, r.x = some a ∧ r.isEvent = event ∧ r.w ≠ 0

/-- With user groups the refinement never removes the split of a group with records of both classes. -/
theorem computePrebins_keeps {cfg : PrebinCfg} (hcat : cfg.catUser = true) {recs : List (Rec α)} (hw : WholeWeights recs)
    {a : α} (ha : MixedValue recs a) :
    ∀ (st : PrebinState α) (splits : List α) (pb : Prebins α), splits.Pairwise (· < ·) → a ∈ splits →
      computePrebins cfg recs st splits = .ok pb → a ∈ pb.splits := by
  intro st splits
  induction hn : splits.length using Nat.strong_induction_on generalizing splits st with
  | _ n ih =>
    intro pb hs hmem h
    obtain ⟨i, hi, hia⟩ := List.mem_iff_getElem.1 hmem
    have hia' : splits[i]? = some a := by rw [List.getElem?_eq_getElem hi, hia]
    have hcount : ∀ event, 0 < (prebinCounts true splits.length splits recs event).getD i 0 := by
      intro event
      rw [prebinCounts_getD _ _ _ _ _ hi]
      obtain ⟨r, hr, hx, he, h0⟩ := ha event
      refine truncWeight_pos (wholeWeights_filter hw _) (r := r) (List.mem_filter.2 ⟨hr, ?_⟩) h0
      rw [hx, digitize_right_idx hs hia']
      simp [he]
    rw [computePrebins] at h
    simp only [hcat, prebinNumber, if_true] at h
    set nev := prebinCounts true splits.length splits recs false with hnev
    set ev := prebinCounts true splits.length splits recs true with hev
    have hl1 : nev.length = splits.length := length_prebinCounts _ _ _ _ _
    have hl2 : ev.length = splits.length := length_prebinCounts _ _ _ _ _
    have hkeep : a ∈ select splits ((maskSplits true (pureMask nev ev)).map (!·)) := by
      refine mem_select_of hia' ?_
      have e1 := hcount false
      have e2 := hcount true
      rw [← hnev] at e1
      rw [← hev] at e2
      rw [List.getD_eq_getElem _ _ (by omega)] at e1 e2
      simp only [maskSplits, if_true, pureMask, List.map_map, List.getElem?_map]
      rw [List.getElem?_eq_getElem (by simp; omega)]
      simp
      omega
    split_ifs at h with h0 h1 h2
    · cases h; exact hmem
    · cases h; exact hmem
    · have hm := maskSplits_any (c := true) (n := splits.length) (rm := pureMask nev ev) (by omega)
        (by simp [pureMask, hl1, hl2]) h1
      have hlt := length_select_lt hm.1 hm.2
      have hs' : (select splits ((maskSplits true (pureMask nev ev)).map (!·))).Pairwise (· < ·) :=
        hs.sublist (select_sublist _ _)
      cases hf : st.fixed with
      | none =>
        simp only [hf] at h
        exact ih _ (hn ▸ hlt) _ _ rfl pb hs' hkeep h
      | some fx =>
        simp only [hf] at h
        split_ifs at h with h3
        exact ih _ (hn ▸ hlt) _ _ rfl pb hs' hkeep h
    · cases h; exact hmem

/-- Column of the table for user groups, if the last group and another one survive. -/
theorem fitCore_column_user {cfg : PrebinCfg} {solver : Solver} {clean : List (Rec α)} {others : Bool → Option ℕ}
    {special : Bool → List ℕ} {missing : Bool → ℕ} {st st' : PrebinState α}
    {splits : List α} {f : Fitted α} (hcat : cfg.catUser = true)
    (hsolver : ∀ nev ev : List ℕ, 0 < nev.length → (solve nev.length (solver nev ev)).2.getLast? = some true)
    (hw : WholeWeights clean) (hsort : splits.Pairwise (· < ·)) {a b : α} (ha : a ∈ splits) (hb : b ∈ splits)
    (hab : a ≠ b) (hma : MixedValue clean a) (hmb : MixedValue clean b)
    (hmax : ∀ r ∈ clean, ∃ v, r.x = some v ∧ v ≤ b) (hmaxs : ∀ s ∈ splits, s ≤ b)
    (h : fitCore cfg solver clean others special missing st splits = .ok (st', f)) :
    f.splits.Sublist splits ∧ b ∈ f.splits ∧ ∀ event : Bool, ∃ reg : List ℕ,
      (if event then f.event else f.nonevent) =
        reg ++ ((others event).toList ++ (special event ++ [missing event])) ∧
      reg.length = f.splits.length ∧
      ∀ k, ((reg.getD k 0 : ℕ) : ℚ) =
        ((clean.filter fun r => r.isEvent == event && digitize true f.splits r.x == k).map Rec.w).sum := by
  unfold fitCore at h
  cases hpb : computePrebins cfg clean st splits with
  | error e => simp [hpb, bind, Except.bind] at h
  | ok pb =>
    simp only [hpb, bind, Except.bind, pure, Except.pure, Except.ok.injEq, Prod.mk.injEq] at h
    obtain ⟨-, hf⟩ := h
    obtain ⟨hsub, hcase⟩ := computePrebins_spec _ _ _ _ _ hpb
    have ha' := computePrebins_keeps hcat hw hma st splits pb hsort ha hpb
    have hb' := computePrebins_keeps hcat hw hmb st splits pb hsort hb hpb
    rcases hcase with ⟨h1, -, -⟩ | ⟨h1, h2, h3, -⟩
    · rw [h1] at ha'; simp at ha'
    have hsp : pb.splits.Pairwise (· < ·) := hsort.sublist hsub
    have hspl : pb.splits.Pairwise (· ≤ ·) := hsp.imp le_of_lt
    have hlen : pb.nonevent.length = pb.splits.length := by
      rw [h2, length_prebinCounts]; simp [prebinNumber, hcat]
    have hlen' : pb.event.length = pb.splits.length := by
      rw [h3, length_prebinCounts]; simp [prebinNumber, hcat]
    have h2le : 2 ≤ pb.splits.length := by
      by_contra hc
      have : pb.splits.length = 0 ∨ pb.splits.length = 1 := by omega
      rcases this with h0 | h0
      · exact h1 (List.length_eq_zero_iff.1 h0)
      · obtain ⟨x, hx⟩ := List.length_eq_one_iff.1 h0
        rw [hx] at ha' hb'
        simp at ha' hb'
        exact hab (ha'.trans hb'.symm)
    have hn2 : ¬ pb.nonevent.length ≤ 1 := by omega
    have hlast := hsolver pb.nonevent pb.event (by omega)
    have hsl := solve_length pb.nonevent.length (solver pb.nonevent pb.event)
    generalize hsol : (solve pb.nonevent.length (solver pb.nonevent pb.event)) = R at hlast hsl
    have hr : fitOptimizer cfg.catUser solver pb.splits pb.nonevent pb.event =
        ⟨R.1, select pb.splits R.2, R.2⟩ := by
      simp [fitOptimizer, hn2, hcat, hsol]
    rw [hr] at hf
    subst hf
    have hne : R.2.length ≠ 0 := by omega
    have hRl : R.2.length = pb.splits.length := by omega
    have hlt : ∀ r ∈ clean, digitize true pb.splits r.x < pb.splits.length := by
      intro r hr
      obtain ⟨v, hv, hvb⟩ := hmax r hr
      rw [hv]
      simp only [digitize, if_true]
      have := List.countP_le_length (p := fun s => decide (s < v)) (l := pb.splits)
      rcases Nat.lt_or_ge (pb.splits.countP fun s => decide (s < v)) pb.splits.length with hlt | hge
      · exact hlt
      · have := List.countP_eq_length.1 (le_antisymm this hge) b hb'
        simp only [decide_eq_true_eq] at this
        exact absurd this (not_lt.2 hvb)
    -- `b` is the last of the surviving splits
    have hblast : pb.splits[pb.splits.length - 1]? = some b := by
      obtain ⟨i, hi, hib⟩ := List.mem_iff_getElem.1 hb'
      have hin : i = pb.splits.length - 1 := by
        by_contra hc
        have := List.pairwise_iff_getElem.1 hsp i (pb.splits.length - 1) hi (by omega) (by omega)
        rw [hib] at this
        exact absurd (hmaxs _ (hsub.subset (List.getElem_mem _))) (not_le.2 this)
      subst hin
      rw [List.getElem?_eq_getElem hi, hib]
    have hRlast : R.2[pb.splits.length - 1]? = some true := by
      rw [List.getLast?_eq_getElem?, hRl] at hlast
      exact hlast
    have hkey : ∀ r ∈ clean, binOf R.2 (digitize true pb.splits r.x) = digitize true (select pb.splits R.2) r.x := by
      intro r hr
      obtain ⟨v, hv, -⟩ := hmax r hr
      have h5 := countP_select_lt (s := pb.splits) (m := R.2) hspl hRl v
      rw [hv]
      simpa [digitize, binOf] using h5.symm
    refine ⟨(select_sublist _ _).trans hsub, mem_select_of hblast hRlast, fun event => ?_⟩
    set c : List ℕ := if event then pb.event else pb.nonevent with hc
    have hcl : R.2.length = c.length := by rw [hc]; cases event <;> simp [hsl, hlen, hlen']
    have hcc : c = prebinCounts true pb.splits.length pb.splits clean event := by
      rw [hc]; cases event <;> simp [h2, h3, hcat, prebinNumber]
    refine ⟨accumBins R.2 c 0, ?_, ?_, ?_⟩
    · have hne' : R.2 ≠ [] := fun he => hne (by simp [he])
      cases event <;> simp [binInfo, h1, hne', hc]
    · rw [accumBins_length _ _ _ hcl, length_select _ _ hRl]
    · intro k
      rw [accumBins_getD _ _ _ _ hcl (Or.inr hlast)]
      have key := sum_filter_classes clean (fun r => r.isEvent == event) (fun r => digitize true pb.splits r.x)
        R.2.length (fun i => binOf R.2 i == k) (fun r hr => by rw [hRl]; exact hlt r hr)
      have : ((clean.filter fun r => r.isEvent == event &&
          digitize true (select pb.splits R.2) r.x == k).map Rec.w).sum =
          ((clean.filter fun r => r.isEvent == event &&
            (fun i => binOf R.2 i == k) (digitize true pb.splits r.x)).map Rec.w).sum := by
        congr 2
        refine List.filter_congr fun r hr => ?_
        simp only [hkey r hr]
      rw [this, ← key]
      push_cast
      simp only [ite_self, Nat.cast_zero, zero_add]
      refine sum_congr rfl fun i hi => ?_
      have hi' : i < pb.splits.length := by
        have := mem_range.1 hi; omega
      by_cases hb : binOf R.2 i = k
      · simp only [hb, beq_self_eq_true, if_true]
        rw [hcc, prebinCounts_getD _ _ _ _ _ hi', truncWeight_whole (wholeWeights_filter hw _)]
      · simp [hb]

end OptBinning
