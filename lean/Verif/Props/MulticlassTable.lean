import Verif.Props.Multiclass
import Verif.Props.FitTable

/-!
# Properties C54, C56 on the rows of the multiclass binning table
-/
set_option linter.unusedSectionVars false
set_option linter.unusedSimpArgs false
namespace OptBinning
open Spec Finset

variable {α κ : Type*} [LinearOrder α] [LinearOrder κ]

/-- `status` of a fit which reports a solution. -/
def FittedM.Solved (f : FittedM α κ) : Prop := f.status = "OPTIMAL" ∨ f.status = "FEASIBLE"

section
variable {sc : SpecialCodes α} {prebin : List (RecM α κ) → List α} {solver : SolverM} {c : SolverCfgM}
    {det : Option (List (RecM α κ) → List Bool)} {recs : List (RecM α κ)} {f : FittedM α κ}

/-- From a trend of the bins to a trend of the rows. -/
theorem trend_rows {R : Type*} [CommRing R] [LinearOrder R] {n m : ℕ} {sol : List Bool} {r : ℕ → ℕ → R} {rate : ℕ → R}
    {t : Trend}
    (ht : TrendHolds n (solOf sol) r t)
    (hrow : ∀ k ≤ m, ∃ s e, IsBin n (solOf sol) s e ∧ binOf sol e = k ∧ r s e = rate k) : RowsTrend rate m t := by
  classical
  choose! S E hb hk hv using hrow
  have hlt : ∀ k k', k < k' → k' ≤ m → E k < E k' := by
    intro k k' h1 h2
    exact lt_of_lt_of_le (bin_lt (hb k (by omega)) (hb k' h2) (by rw [hk k (by omega), hk k' h2]; exact h1))
      (hb k' h2).1
  have hpos : ∀ c : ℕ, ∃ t : ℕ, (∀ k ≤ m, k < t → E k < c) ∧ ∀ k ≤ m, t ≤ k → c ≤ E k := by
    intro c
    by_cases hex : ∃ k, k ≤ m ∧ c ≤ E k
    · refine ⟨Nat.find hex, fun k h1 h2 => ?_, fun k h1 h2 => ?_⟩
      · have := Nat.find_min hex h2
        push Not at this
        exact this h1
      · have h3 := Nat.find_spec hex
        rcases Nat.eq_or_lt_of_le h2 with h4 | h4
        · rw [← h4]; exact h3.2
        · exact le_trans h3.2 (hlt _ _ h4 h1).le
    · push Not at hex
      exact ⟨m + 1, fun k h1 _ => hex k h1, fun k h1 h2 => by omega⟩
  cases t with
  | ascending =>
    intro k k' h1 h2
    rw [← hv k (by omega), ← hv k' h2]
    exact ht _ _ _ _ (hb k (by omega)) (hb k' h2) (hlt k k' h1 h2) trivial trivial
  | descending =>
    intro k k' h1 h2
    rw [← hv k (by omega), ← hv k' h2]
    exact ht _ _ _ _ (hb k (by omega)) (hb k' h2) (hlt k k' h1 h2) trivial trivial
  | peak =>
    obtain ⟨c, ha, hd⟩ := ht
    obtain ⟨t, ht1, ht2⟩ := hpos c
    refine ⟨t, fun k k' h1 h2 h3 => ?_, fun k k' h1 h2 h3 => ?_⟩
    · rw [← hv k (by omega), ← hv k' h2]
      exact ha _ _ _ _ (hb k (by omega)) (hb k' h2) (hlt k k' h1 h2) (ht1 k (by omega) (by omega)) (ht1 k' h2 h3)
    · rw [← hv k (by omega), ← hv k' h2]
      exact hd _ _ _ _ (hb k (by omega)) (hb k' h2) (hlt k k' h1 h2) (ht2 k (by omega) h3) (ht2 k' h2 (by omega))
  | valley =>
    obtain ⟨c, ha, hd⟩ := ht
    obtain ⟨t, ht1, ht2⟩ := hpos c
    refine ⟨t, fun k k' h1 h2 h3 => ?_, fun k k' h1 h2 h3 => ?_⟩
    · rw [← hv k (by omega), ← hv k' h2]
      exact ha _ _ _ _ (hb k (by omega)) (hb k' h2) (hlt k k' h1 h2) (ht1 k (by omega) (by omega)) (ht1 k' h2 h3)
    · rw [← hv k (by omega), ← hv k' h2]
      exact hd _ _ _ _ (hb k (by omega)) (hb k' h2) (hlt k k' h1 h2) (ht2 k (by omega) h3) (ht2 k' h2 (by omega))
  | _ => trivial

theorem cell_le (cols : List (List ℕ)) (k : ℕ) {i : ℕ} (hi : i < cols.length) : cellM cols k i ≤ rowRecords cols k := by
  rw [rowRecords_sum]
  exact Finset.single_le_sum (f := fun i => cellM cols k i) (fun _ _ => Nat.zero_le _) (Finset.mem_range.2 hi)

theorem rateM_eq (cols : List (List ℕ)) (k i : ℕ) : rateM cols k i = (cellM cols k i : ℚ) / (rowRecords cols k : ℚ) := by
  unfold rateM
  split_ifs with h
  · rfl
  · have : cellM cols k i = 0 := by omega
    simp [this]

/-- The bins behind the regular rows. -/
theorem rowsM_bins (hsolver : ∀ n nev ev, 0 < n → (solve n (solver n nev ev)).2.getLast? = some true)
    (hlen : ∀ n nev ev, ev.length = f.classes.length → (c.opts n nev ev).trends.length = ev.length)
    (h : fitNumericalM sc det prebin solver recs = .ok f) (hs : f.Solved) (hne : f.splits ≠ []) (hcl : f.classes ≠ []) :
    ∃ (n : ℕ) (nev ev : List (List ℕ)), (c.input n nev ev).Wf (c.opts n nev ev) ∧
      (c.input n nev ev).classes = f.classes.length ∧
      OptBinning.Solved (solve n (solver n nev ev)) ∧ numBins n ((c.input n nev ev).sol (solver n nev ev)) = f.splits.length + 1 ∧
      ∀ k ≤ f.splits.length, ∃ s e, IsBin n ((c.input n nev ev).sol (solver n nev ev)) s e ∧
        binOf (solve n (solver n nev ev)).2 e = k ∧
        ∀ i < f.classes.length,
          binTotal ((c.input n nev ev).cls i).ev s e = ((cellM f.event k i : ℕ) : ℤ) ∧
          binTotal ((c.input n nev ev).cls i).ne s e = ((restM f.event k i : ℕ) : ℤ) ∧
          eventRate ((c.input n nev ev).cls i).ne ((c.input n nev ev).cls i).ev s e = rateM f.event k i := by
  obtain ⟨st', hf⟩ := fitNumericalM_from h
  have hel : f.event.length = f.classes.length := by
    unfold fitFromM at hf
    simp only at hf
    split_ifs at hf
    cases hpb : computePrebinsM (classesM (splitDataM sc det recs).clean) (splitDataM sc det recs).clean {}
      (prebin (splitDataM sc det recs).clean) with
    | error e => simp [hpb] at hf
    | ok pb =>
      simp only [hpb, Except.ok.injEq, Prod.mk.injEq] at hf
      obtain ⟨-, rfl⟩ := hf
      simp
  obtain ⟨n, nev, ev, h1, h2, h3, h4, h5, -, h6, h7, h8⟩ := fitFromM_bins hsolver (fun r hr => (splitM_clean hr).2.2.1) hf hne
  refine ⟨n, nev, ev, ⟨by show 0 < n; omega, hlen _ _ _ h3, ?_, h2.trans h3.symm, h5, h4⟩, h3, ?_, ?_, ?_⟩
  · show 0 < ev.length
    rw [h3]
    exact List.length_pos_iff.2 hcl
  · unfold OptBinning.Solved
    rw [← h6]
    exact hs
  · change numBins n (solOf _) = _
    rw [numBins_eq]
    have := binOf_length (solve n (solver n nev ev)).2
    rw [solve_length] at this
    rw [← h7, ← this]
    rfl
  · intro k hk
    obtain ⟨s, e, hb, hbk, hc⟩ := h8 k hk
    refine ⟨s, e, hb, hbk, fun i hi => ?_⟩
    obtain ⟨e1, e2⟩ := hc i hi
    have b1 : binTotal ((c.input n nev ev).cls i).ev s e = ((cellM f.event k i : ℕ) : ℤ) := by
      rw [e1]; exact binTotal_eq _ s e
    have b2 : binTotal ((c.input n nev ev).cls i).ne s e = ((restM f.event k i : ℕ) : ℤ) := by
      rw [e2]; exact binTotal_eq _ s e
    refine ⟨b1, b2, ?_⟩
    rw [rateM_eq]
    unfold eventRate
    rw [b1, b2]
    have hle := cell_le f.event k (i := i) (by omega)
    have : restM f.event k i + cellM f.event k i = rowRecords f.event k := by unfold restM; omega
    rw [← this]
    push_cast
    rfl

theorem RespectsM.ends (hr : RespectsM c solver) : ∀ n nev ev, 0 < n → (solve n (solver n nev ev)).2.getLast? = some true :=
  fun n nev ev hn => hr.last n nev ev hn

/-- C54 on the table: the number of regular rows respects `min_n_bins` and `max_n_bins`. -/
theorem C54_table_limits (hr : RespectsM c solver) (hlen : ∀ n nev ev, ev.length = f.classes.length → (c.opts n nev ev).trends.length = ev.length)
    {lo hi : Option ℤ} (hlo : ∀ n nev ev, (c.opts n nev ev).minBins = lo) (hhi : ∀ n nev ev, (c.opts n nev ev).maxBins = hi)
    (h : fitNumericalM sc det prebin solver recs = .ok f) (hs : f.Solved) (hne : f.splits ≠ []) (hcl : f.classes ≠ []) :
    AtLeast lo (f.splits.length + 1 : ℕ) ∧ AtMost hi (f.splits.length + 1 : ℕ) := by
  obtain ⟨n, nev, ev, hw, -, hsol, hn, -⟩ := rowsM_bins hr.ends hlen h hs hne hcl
  have key : AtLeast (c.opts n nev ev).minBins (numBins n ((c.input n nev ev).sol (solver n nev ev))) ∧
      AtMost (c.opts n nev ev).maxBins (numBins n ((c.input n nev ev).sol (solver n nev ev))) := by
    rcases hr with hr | hr
    · obtain ⟨-, h1, h2, -⟩ := C54_limits_cp hw (hr n nev ev) hsol
      exact ⟨h1, h2⟩
    · obtain ⟨-, h1, h2, -⟩ := C54_limits_mip hw (hr n nev ev) hsol
      exact ⟨h1, h2⟩
  rw [hn, hlo, hhi] at key
  exact key

/-- The event rates of the rows follow the trend resolved for the pre-bins that `fit` found. -/
theorem trend_mip_at
    (hr : ∀ n nev ev, (solver n nev ev).Valid (acceptsMultiMIP (c.opts n nev ev) (c.input n nev ev))
      (objectiveMultiMIP (c.opts n nev ev) (c.input n nev ev)))
    (hlen : ∀ n nev ev, ev.length = f.classes.length → (c.opts n nev ev).trends.length = ev.length) {i : ℕ}
    (h : fitNumericalM sc det prebin solver recs = .ok f) (hs : f.Solved) (hi : i < f.classes.length) (hne : f.splits ≠ []) :
    ∃ (n : ℕ) (nev ev : List (List ℕ)), (c.input n nev ev).Wf (c.opts n nev ev) ∧ ev.length = f.classes.length ∧ f.splits.length + 1 ≤ n ∧
      RowsTrend (fun k => rateM f.event k i) f.splits.length ((c.opts n nev ev).trend i) := by
  have hcl : f.classes ≠ [] := List.length_pos_iff.1 (by omega)
  obtain ⟨n, nev, ev, hw, hc, hsol, hn, hrow⟩ := rowsM_bins (RespectsM.ends (Or.inr hr)) hlen h hs hne hcl
  have hkey : ((c.opts n nev ev).trend i = .ascending ∨ (c.opts n nev ev).trend i = .descending ∨
      (c.opts n nev ev).trend i = .peak ∨ (c.opts n nev ev).trend i = .valley) →
      RowsTrend (fun k => ((rateM f.event k i : ℚ) : ℝ)) f.splits.length ((c.opts n nev ev).trend i) := by
    intro h4
    have := C54_trend_mip_partial hw (hr n nev ev) hsol (c := i) (by rw [hc]; exact hi) h4
    refine trend_rows this fun k hk => ?_
    obtain ⟨s, e, hb, hbk, hcell⟩ := hrow k hk
    exact ⟨s, e, hb, hbk, by rw [(hcell i hi).2.2]⟩
  refine ⟨n, nev, ev, hw, hc, ?_, ?_⟩
  · rw [← hn]
    exact le_trans (Finset.card_filter_le _ _) (by simp)
  generalize (c.opts n nev ev).trend i = t at hkey ⊢
  cases t with
  | ascending => exact fun k k' h1 h2 => Rat.cast_le.1 (hkey (by simp) k k' h1 h2)
  | descending => exact fun k k' h1 h2 => Rat.cast_le.1 (hkey (by simp) k k' h1 h2)
  | peak =>
    obtain ⟨t, a, b⟩ := hkey (by simp)
    exact ⟨t, fun k k' h1 h2 h3 => Rat.cast_le.1 (a k k' h1 h2 h3), fun k k' h1 h2 h3 => Rat.cast_le.1 (b k k' h1 h2 h3)⟩
  | valley =>
    obtain ⟨t, a, b⟩ := hkey (by simp)
    exact ⟨t, fun k k' h1 h2 h3 => Rat.cast_le.1 (a k k' h1 h2 h3), fun k k' h1 h2 h3 => Rat.cast_le.1 (b k k' h1 h2 h3)⟩
  | _ => trivial

/-- C54 on the table, `solver="mip"`: the column "Event_rate_c" follows the trend requested for class number `i`, exactly
(`RowsTrend` demands nothing for "concave", "convex" and the heuristic trends, which are the missing part). -/
theorem C54_table_trend_mip_partial
    (hr : ∀ n nev ev, (solver n nev ev).Valid (acceptsMultiMIP (c.opts n nev ev) (c.input n nev ev))
      (objectiveMultiMIP (c.opts n nev ev) (c.input n nev ev)))
    (hlen : ∀ n nev ev, ev.length = f.classes.length → (c.opts n nev ev).trends.length = ev.length) {i : ℕ} {t : Trend}
    (ht : ∀ n nev ev, ev.length = f.classes.length → (c.opts n nev ev).trend i = t)
    (h : fitNumericalM sc det prebin solver recs = .ok f) (hs : f.Solved) (hi : i < f.classes.length) :
    RowsTrend (fun k => rateM f.event k i) f.splits.length t := by
  by_cases hne : f.splits = []
  · rw [hne]
    cases t with
    | peak => exact ⟨0, fun k k' h1 h2 => by simp at h2; omega, fun k k' h1 h2 => by simp at h2; omega⟩
    | valley => exact ⟨0, fun k k' h1 h2 => by simp at h2; omega, fun k k' h1 h2 => by simp at h2; omega⟩
    | ascending => exact fun k k' h1 h2 => by simp at h2; omega
    | descending => exact fun k k' h1 h2 => by simp at h2; omega
    | _ => trivial
  obtain ⟨n, nev, ev, -, hc, -, hT⟩ := trend_mip_at hr hlen h hs hi hne
  rw [ht n nev ev hc] at hT
  exact hT

/-- The event rates of the rows follow the trend resolved for the pre-bins that `fit` found. -/
theorem trend_cp_at
    (hr : ∀ n nev ev, (solver n nev ev).Valid (acceptsMultiCP (c.opts n nev ev) (c.input n nev ev))
      (objectiveMultiCP (c.opts n nev ev) (c.input n nev ev)))
    (hlen : ∀ n nev ev, ev.length = f.classes.length → (c.opts n nev ev).trends.length = ev.length) {i : ℕ}
    (h : fitNumericalM sc det prebin solver recs = .ok f) (hs : f.Solved) (hi : i < f.classes.length) (hne : f.splits ≠ []) :
    ∃ (n : ℕ) (nev ev : List (List ℕ)), (c.input n nev ev).Wf (c.opts n nev ev) ∧ ev.length = f.classes.length ∧ f.splits.length + 1 ≤ n ∧
      RowsTrend (fun k => ⌊rateM f.event k i * 1000000⌋) f.splits.length ((c.opts n nev ev).trend i) := by
  have hcl : f.classes ≠ [] := List.length_pos_iff.1 (by omega)
  obtain ⟨n, nev, ev, hw, hc, hsol, hn, hrow⟩ := rowsM_bins (RespectsM.ends (Or.inl hr)) hlen h hs hne hcl
  have hkey : ((c.opts n nev ev).trend i = .ascending ∨ (c.opts n nev ev).trend i = .descending ∨
      (c.opts n nev ev).trend i = .peak ∨ (c.opts n nev ev).trend i = .valley) →
      RowsTrend (fun k => ⌊rateM f.event k i * 1000000⌋) f.splits.length ((c.opts n nev ev).trend i) := by
    intro h4
    have := C54_trend_cp_partial hw (hr n nev ev) hsol (c := i) (by rw [hc]; exact hi) h4
    refine trend_rows this fun k hk => ?_
    obtain ⟨s, e, hb, hbk, hcell⟩ := hrow k hk
    exact ⟨s, e, hb, hbk, by rw [(hcell i hi).2.2]⟩
  refine ⟨n, nev, ev, hw, hc, ?_, ?_⟩
  · rw [← hn]
    exact le_trans (Finset.card_filter_le _ _) (by simp)
  generalize (c.opts n nev ev).trend i = t at hkey ⊢
  cases t with
  | ascending => exact hkey (by simp)
  | descending => exact hkey (by simp)
  | peak => exact hkey (by simp)
  | valley => exact hkey (by simp)
  | _ => trivial

/-- C54 on the table, `solver="cp"`: the column "Event_rate_c", cut off after six decimals, follows the trend. -/
theorem C54_table_trend_cp_partial
    (hr : ∀ n nev ev, (solver n nev ev).Valid (acceptsMultiCP (c.opts n nev ev) (c.input n nev ev))
      (objectiveMultiCP (c.opts n nev ev) (c.input n nev ev)))
    (hlen : ∀ n nev ev, ev.length = f.classes.length → (c.opts n nev ev).trends.length = ev.length) {i : ℕ} {t : Trend}
    (ht : ∀ n nev ev, ev.length = f.classes.length → (c.opts n nev ev).trend i = t)
    (h : fitNumericalM sc det prebin solver recs = .ok f) (hs : f.Solved) (hi : i < f.classes.length) :
    RowsTrend (fun k => ⌊rateM f.event k i * 1000000⌋) f.splits.length t := by
  by_cases hne : f.splits = []
  · rw [hne]
    cases t with
    | peak => exact ⟨0, fun k k' h1 h2 => by simp at h2; omega, fun k k' h1 h2 => by simp at h2; omega⟩
    | valley => exact ⟨0, fun k k' h1 h2 => by simp at h2; omega, fun k k' h1 h2 => by simp at h2; omega⟩
    | ascending => exact fun k k' h1 h2 => by simp at h2; omega
    | descending => exact fun k k' h1 h2 => by simp at h2; omega
    | _ => trivial
  obtain ⟨n, nev, ev, -, hc, -, hT⟩ := trend_cp_at hr hlen h hs hi hne
  rw [ht n nev ev hc] at hT
  exact hT

/-- Consecutive rows are consecutive bins. -/
theorem bins_next {n : ℕ} {sol : List Bool} {s e s' e' k : ℕ} (hb : IsBin n (solOf sol) s e) (hbk : binOf sol e = k)
    (hb' : IsBin n (solOf sol) s' e') (hbk' : binOf sol e' = k + 1) : s' = e + 1 := by
  have hlt := bin_lt hb hb' (by omega)
  have h1 : binOf sol (e + 1) = k + 1 := by
    have := binOf_succ sol e
    rw [hb.2.2.1] at this
    simpa [hbk] using this
  have h2 := (binOf_iff hb' (e + 1)).1 (by omega)
  omega

/-- C54 on the table: for every class, consecutive regular rows differ in "Event_rate_c" by at least `min_event_rate_diff`
(up to 2e-6 with `solver="cp"`). -/
theorem C54_table_min_event_rate_diff (hr : RespectsM c solver)
    (hlen : ∀ n nev ev, ev.length = f.classes.length → (c.opts n nev ev).trends.length = ev.length)
    (h : fitNumericalM sc det prebin solver recs = .ok f) (hs : f.Solved) {i k : ℕ} (hi : i < f.classes.length)
    (hk : k + 1 ≤ f.splits.length) :
    c.minDiff - 2 / 1000000 < |rateM f.event k i - rateM f.event (k + 1) i| ∧
    ((∀ n nev ev, (solver n nev ev).Valid (acceptsMultiMIP (c.opts n nev ev) (c.input n nev ev))
      (objectiveMultiMIP (c.opts n nev ev) (c.input n nev ev))) →
      c.minDiff ≤ |rateM f.event k i - rateM f.event (k + 1) i|) := by
  have hne : f.splits ≠ [] := fun hc => by rw [hc] at hk; simp at hk
  have hcl : f.classes ≠ [] := List.length_pos_iff.1 (by omega)
  obtain ⟨n, nev, ev, hw, hc, hsol, hn, hrow⟩ := rowsM_bins hr.ends hlen h hs hne hcl
  obtain ⟨s, e, hb, hbk, hcell⟩ := hrow k (by omega)
  obtain ⟨s', e', hb', hbk', hcell'⟩ := hrow (k + 1) hk
  have hnext := bins_next hb hbk hb' hbk'
  subst hnext
  rw [← (hcell i hi).2.2, ← (hcell' i hi).2.2]
  have hmip : (∀ n nev ev, (solver n nev ev).Valid (acceptsMultiMIP (c.opts n nev ev) (c.input n nev ev))
      (objectiveMultiMIP (c.opts n nev ev) (c.input n nev ev))) → _ :=
    fun hr => C54_min_event_rate_diff_mip hw (hr n nev ev) hsol (c := i) (by rw [hc]; exact hi) hb hb'
  refine ⟨?_, hmip⟩
  rcases hr with hr | hr
  · rcases le_or_gt c.minDiff 0 with h0 | h0
    · refine lt_of_lt_of_le ?_ (abs_nonneg _)
      linarith
    · exact C54_min_event_rate_diff_cp hw (hr n nev ev) hsol h0 (c := i) (by rw [hc]; exact hi) hb hb'
  · have := hmip hr
    change c.minDiff ≤ _ at this
    linarith

/-- C54 on the table: for every class, no two consecutive regular rows (policy "all": no two regular rows) fail the
proportion test on the counts shown. -/
theorem C54_table_max_pvalue (hr : RespectsM c solver) (hlen : ∀ n nev ev, ev.length = f.classes.length → (c.opts n nev ev).trends.length = ev.length)
    (h : fitNumericalM sc det prebin solver recs = .ok f) (hs : f.Solved) {t : ℕ → ℕ → ℕ → ℕ → Bool} (ht : c.test = some t)
    {i k k' : ℕ} (hi : i < f.classes.length) (hkk : k < k') (hk' : k' ≤ f.splits.length)
    (hpol : c.policy = .consecutive → k' = k + 1) :
    t (cellM f.event k i) (rowRecords f.event k - cellM f.event k i) (cellM f.event k' i)
      (rowRecords f.event k' - cellM f.event k' i) = false := by
  have hne : f.splits ≠ [] := fun hc => by rw [hc] at hk'; simp at hk'; omega
  have hcl : f.classes ≠ [] := List.length_pos_iff.1 (by omega)
  obtain ⟨n, nev, ev, hw, hc, hsol, hn, hrow⟩ := rowsM_bins hr.ends hlen h hs hne hcl
  obtain ⟨s, e, hb, hbk, hcell⟩ := hrow k (by omega)
  obtain ⟨s', e', hb', hbk', hcell'⟩ := hrow k' hk'
  have hlt : e < s' := bin_lt (sol := (solve n (solver n nev ev)).2) hb hb' (by omega)
  have := C54_max_pvalue hw (hr.imp (fun hr => hr n nev ev) (fun hr => hr n nev ev)) hsol (c := i) (by rw [hc]; exact hi)
    ht hb hb' hlt (fun hp => by
      have hk1 := hpol hp
      exact bins_next (sol := (solve n (solver n nev ev)).2) hb hbk hb' (by rw [hbk', hk1]))
  rw [(hcell i hi).1, (hcell i hi).2.1, (hcell' i hi).1, (hcell' i hi).2.1] at this
  simpa only [Int.toNat_natCast, restM] using this

/-- C56: unless the result is a single bin, every regular row contains records of every class and records not of it. -/
theorem C56_nonpure (hr : RespectsM c solver)
    (h : fitNumericalM sc det prebin solver recs = .ok f) (hne : f.splits ≠ []) {i k : ℕ} (hi : i < f.classes.length)
    (hk : k ≤ f.splits.length) : 0 < cellM f.event k i ∧ cellM f.event k i < rowRecords f.event k := by
  obtain ⟨st', hf⟩ := fitNumericalM_from h
  obtain ⟨n, nev, ev, h1, h2, h3, h4, h5, h6, h7, h8, h9⟩ :=
    fitFromM_bins hr.ends (fun r hr => (splitM_clean hr).2.2.1) hf hne
  obtain ⟨s, e, hb, hbk, hc⟩ := h9 k hk
  obtain ⟨e1, e2⟩ := hc i hi
  have hmem : e ∈ Icc s e := mem_Icc.2 ⟨hb.1, le_rfl⟩
  have p1 : 0 < cellM f.event k i := by
    rw [e1]
    exact lt_of_lt_of_le (h6 i hi e hb.2.1).1 (single_le_sum (f := fun j => (ev.getD i []).getD j 0)
      (fun _ _ => Nat.zero_le _) hmem)
  have p2 : 0 < restM f.event k i := by
    rw [e2]
    exact lt_of_lt_of_le (h6 i hi e hb.2.1).2 (single_le_sum (f := fun j => (nev.getD i []).getD j 0)
      (fun _ _ => Nat.zero_le _) hmem)
  unfold restM at p2
  exact ⟨p1, by omega⟩

/-- C56: `fit` without user splits succeeds if there are at most 100 classes. -/
theorem C56_fit_succeeds (sc : SpecialCodes α) (det : Option (List (RecM α κ) → List Bool))
    (prebin : List (RecM α κ) → List α) (solver : SolverM) (recs : List (RecM α κ)) :
    (∃ f, fitNumericalM sc det prebin solver recs = .ok f) ↔ (classesM (splitDataM sc det recs).clean).length ≤ 100 := by
  unfold fitNumericalM fitFromM
  simp only
  split_ifs with h
  · simp only [Except.map, reduceCtorEq, exists_false, false_iff]; omega
  · obtain ⟨pb, hpb⟩ := computePrebinsM_ok (classesM (splitDataM sc det recs).clean) (splitDataM sc det recs).clean {}
      (prebin (splitDataM sc det recs).clean) rfl
    simp only [hpb, Except.map, Except.ok.injEq, exists_eq', true_iff]
    omega

end

/-! ### a concrete fit -/

/-- "peak" for the first class, nothing for the others. -/
def exCfgM : SolverCfgM :=
  { opts := fun _ _ ev => { trends := (List.range ev.length).map fun i => if i = 0 then .peak else .unconstrained } }

/-- A solver which keeps every pre-bin whenever the model accepts that, and gives up otherwise. -/
noncomputable def exSolverM : SolverM := fun n nev ev => by
  classical
  exact if h : (∃ a, acceptsMultiCP (exCfgM.opts n nev ev) (exCfgM.input n nev ev) a ∧ ∀ k < n, (a.x k k != 0) = true)
    then .feasible (Classical.choose h) else .other "UNKNOWN"

theorem exSolverM_cp (n : ℕ) (nev ev : List (List ℕ)) :
    (exSolverM n nev ev).Valid (acceptsMultiCP (exCfgM.opts n nev ev) (exCfgM.input n nev ev))
      (objectiveMultiCP (exCfgM.opts n nev ev) (exCfgM.input n nev ev)) := by
  unfold exSolverM
  split_ifs with h
  · exact (Classical.choose_spec h).1
  · exact ⟨by decide, by decide⟩

theorem exSolverM_respects : RespectsM exCfgM exSolverM := Or.inl exSolverM_cp

/-- Sixteen records: thirteen regular ones of the classes 0, 1, 2; a special code of class 0, one of class 7 (which no
regular record has) and a missing value of class 1. -/
def exRecsM : List (RecM ℕ ℕ) :=
  [⟨some 1, some 0⟩, ⟨some 2, some 1⟩, ⟨some 2, some 2⟩, ⟨some 1, some 2⟩, ⟨some 99, some 0⟩, ⟨some 3, some 0⟩,
   ⟨some 4, some 0⟩, ⟨some 5, some 1⟩, ⟨some 6, some 2⟩, ⟨none, some 1⟩, ⟨some 7, some 0⟩, ⟨some 8, some 0⟩,
   ⟨some 99, some 7⟩, ⟨some 9, some 0⟩, ⟨some 7, some 1⟩, ⟨some 7, some 2⟩]

/-- The events of each class in the three pre-bins, and the rest. -/
def exEvM : List (List ℕ) := [[1, 2, 3], [1, 1, 1], [2, 1, 1]]
/-- The other records. -/
def exNevM : List (List ℕ) := [[3, 2, 2], [3, 3, 4], [2, 3, 4]]

theorem exSolverM_solve : solve 3 (exSolverM 3 exNevM exEvM) = ("FEASIBLE", [true, true, true]) := by
  have hw : (exCfgM.input 3 exNevM exEvM).Wf (exCfgM.opts 3 exNevM exEvM) :=
    ⟨by decide, by decide, by decide, rfl, by decide, by decide⟩
  have hnb : numBins 3 (fun _ => true) = 3 := by decide
  have hex : ∃ a, acceptsMultiCP (exCfgM.opts 3 exNevM exEvM) (exCfgM.input 3 exNevM exEvM) a ∧
      ∀ k < 3, (a.x k k != 0) = true := by
    have h012 : ∀ c < 3, c = 0 ∨ c = 1 ∨ c = 2 := by intro c hc; omega
    refine (C55_exact_cp hw (Or.inl ?_) (fun _ => true)).2 ?_
    · intro c hc
      rcases h012 c hc with rfl | rfl | rfl <;> simp [exCfgM, exEvM, MultiOpts.trend, Trend.enforced]
    · intro c hc
      refine ⟨⟨⟨by decide, rfl⟩, ?_, ?_, ?_, ?_, ?_, ?_, ?_, ?_, ?_, ?_⟩, ?_, ?_⟩
      · intro b hb; cases hb
      · intro b hb; cases hb
      · intro s e _ b hb; cases hb
      · intro s e _ b hb; cases hb
      · intro s e _ b hb; cases hb
      · intro s e _ b hb; cases hb
      · intro s e _ b hb; cases hb
      · intro s e _ b hb; cases hb
      · rcases h012 c hc with rfl | rfl | rfl
        · have rr : ∀ k < 3, eventRate ((exCfgM.input 3 exNevM exEvM).cls 0).ne ((exCfgM.input 3 exNevM exEvM).cls 0).ev k k =
              (((exEvM.getD 0 []).getD k 0 : ℕ) : ℚ) / ((((exNevM.getD 0 []).getD k 0 : ℕ) : ℚ) +
                (((exEvM.getD 0 []).getD k 0 : ℕ) : ℚ)) := by
            intro k hk
            unfold eventRate binTotal
            rw [Finset.Icc_self, Finset.sum_singleton, Finset.sum_singleton]
            rfl
          refine ⟨3, ?_, ?_⟩
          · intro s e s' e' hb hb' hlt he he'
            obtain ⟨rfl, h3⟩ := exAll_bins.1 hb
            obtain ⟨rfl, h4⟩ := exAll_bins.1 hb'
            beta_reduce
            rw [rr _ h3, rr _ h4]
            have : s = 0 ∧ s' = 1 ∨ s = 0 ∧ s' = 2 ∨ s = 1 ∧ s' = 2 := by omega
            rcases this with ⟨rfl, rfl⟩ | ⟨rfl, rfl⟩ | ⟨rfl, rfl⟩ <;>
              exact Int.floor_le_floor (by norm_num [exEvM, exNevM])
          · intro s e s' e' hb hb' hlt he he'
            obtain ⟨rfl, h4⟩ := exAll_bins.1 hb'
            omega
        · trivial
        · trivial
      · intro f hf; cases hf
      · rintro s e s' e' - - - - ⟨t, ht, -⟩
        cases ht
      · rintro s e s' e' - - - - ⟨h0, -⟩
        exact absurd h0 (by change ¬ ((0 : ℚ) < 0); norm_num)
  unfold exSolverM
  rw [dif_pos hex]
  have := (Classical.choose_spec hex).2
  simp only [solve, List.range, List.range.loop, List.map_cons, List.map_nil]
  rw [this 0 (by decide), this 1 (by decide), this 2 (by decide)]

/-- The fitted object. -/
def exFittedM : FittedM ℕ ℕ := ⟨"FEASIBLE", [3, 7], [0, 1, 2], [[1, 2, 3, 1, 0], [1, 1, 1, 0, 1], [2, 1, 1, 0, 0]]⟩

theorem exFitM : fitNumericalM (.list [some 99]) none (fun _ => [3, 7]) exSolverM exRecsM = .ok exFittedM := by
  have hcl : classesM (splitDataM (.list [some 99]) none exRecsM).clean = [0, 1, 2] := by decide +kernel
  have hpb : computePrebinsM [0, 1, 2] (splitDataM (.list [some 99]) none exRecsM).clean {} [3, 7] =
      .ok ⟨{}, [3, 7], 3, exNevM, exEvM⟩ := by
    rw [computePrebinsM]
    have h1 : [0, 1, 2].map (prebinRest [3, 7] (splitDataM (.list [some 99]) none exRecsM).clean) = exNevM := by
      decide +kernel
    have h2 : [0, 1, 2].map (prebinEvent [3, 7] (splitDataM (.list [some 99]) none exRecsM).clean) = exEvM := by
      decide +kernel
    simp only [h1, h2]
    rw [dif_neg (by decide), dif_neg (by decide +kernel)]
    rfl
  unfold fitNumericalM fitFromM
  simp only [hcl, hpb, fitOptimizerM]
  rw [if_neg (by decide), if_neg (by decide), exSolverM_solve]
  simp only [Except.map, Except.ok.injEq]
  unfold exFittedM
  congr 1

/-- Non-vacuity of C54, C56, C57: the fit above meets all hypotheses; its first class follows the requested peak. -/
example : RowsTrend (fun k => ⌊rateM exFittedM.event k 0 * 1000000⌋) 2 .peak :=
  C54_table_trend_cp_partial (c := exCfgM) (i := 0) (t := .peak) exSolverM_cp (fun n nev ev _ => by simp [exCfgM])
    (fun n nev ev h => by
      have h3 : ev.length = 3 := h
      simp [exCfgM, MultiOpts.trend, h3]) exFitM (Or.inr rfl) (by decide)

theorem exCodesM_proper : ProperCodes (.list [some 99] : SpecialCodes ℕ) :=
  ⟨by simp [IsSpecialValue], trivial⟩

example : totalRecords exFittedM.event = 15 ∧ exRecsM.length = 16 := by decide

/-- C56, finding: the record with a special code and label 7 (a label no regular record has) is counted in no row. -/
theorem C56_unseen_label_dropped : ∃ f : FittedM ℕ ℕ,
    fitNumericalM (.list [some 99]) none (fun _ => [3, 7]) exSolverM exRecsM = .ok f ∧
    rowRecords f.event 3 = 1 ∧ countRecs exRecsM (fun r => r.x = some 99 ∧ r.y ≠ none) = 2 ∧
    totalRecords f.event < exRecsM.length := by
  exact ⟨exFittedM, exFitM, by decide, by decide, by decide⟩

end OptBinning
