import Verif.Spec.TrendRows
import Verif.Props.Params

/-!
# C13, C102: `monotonic_trend` on the rows of the binning table
-/
namespace OptBinning
open Finset Spec

section
variable {R : Type*} [CommRing R] [LinearOrder R]

/-- The rows `k < m` with `E k < c` are the rows before some row. -/
theorem exists_cut {E : ℕ → ℕ} {m : ℕ} (hE : ∀ j k, j < k → k < m → E j < E k) (c : ℕ) :
    ∃ c' ≤ m, ∀ k < m, (E k < c ↔ k < c') := by
  by_cases h : ∃ k, k < m ∧ c ≤ E k
  · have h0 := Nat.find_spec h
    refine ⟨Nat.find h, h0.1.le, fun k hk => ⟨fun hlt => ?_, fun hlt => ?_⟩⟩
    · by_contra hge
      push Not at hge
      rcases Nat.lt_or_eq_of_le hge with h1 | h1
      · have := hE _ _ h1 hk; omega
      · rw [h1] at h0; omega
    · have := Nat.find_min h hlt
      push Not at this
      exact this hk
  · push Not at h
    exact ⟨m, le_rfl, fun k hk => ⟨fun _ => hk, fun _ => h k hk⟩⟩

theorem rising_of {n : ℕ} {sol : ℕ → Bool} {r : ℕ → ℕ → R} {S E : ℕ → ℕ} {m : ℕ} {P : ℕ → Prop} (hb : ∀ k < m, IsBin n sol (S k) (E k))
    (hE : ∀ j k, j < k → k < m → E j < E k) (h : AscendingOn n sol r P) {lo hi : ℕ} (hhi : hi ≤ m)
    (hP : ∀ k < m, lo ≤ k → k < hi → P (E k)) : Rising (fun k => r (S k) (E k)) lo hi := fun j k hj hjk hk =>
  h _ _ _ _ (hb j (by omega)) (hb k (by omega)) (hE j k hjk (by omega)) (hP j (by omega) hj (by omega)) (hP k (by omega) (by omega) hk)

theorem falling_of {n : ℕ} {sol : ℕ → Bool} {r : ℕ → ℕ → R} {S E : ℕ → ℕ} {m : ℕ} {P : ℕ → Prop} (hb : ∀ k < m, IsBin n sol (S k) (E k))
    (hE : ∀ j k, j < k → k < m → E j < E k) (h : DescendingOn n sol r P) {lo hi : ℕ} (hhi : hi ≤ m)
    (hP : ∀ k < m, lo ≤ k → k < hi → P (E k)) : Falling (fun k => r (S k) (E k)) lo hi := fun j k hj hjk hk =>
  h _ _ _ _ (hb j (by omega)) (hb k (by omega)) (hE j k hjk (by omega)) (hP j (by omega) hj (by omega)) (hP k (by omega) (by omega) hk)

/-- The user's `monotonic_trend` and a trend it may resolve to. -/
def MayResolve : TrendArg → Trend → Prop
  | .none, t => t = .unconstrained
  | .ascending, t => t = .ascending
  | .descending, t => t = .descending
  | .concave, t => t = .concave
  | .convex, t => t = .convex
  | .peak, t => t = .peak
  | .valley, t => t = .valley
  | .peakHeuristic, t => ∃ c, t = .peakHeuristic c
  | .valleyHeuristic, t => ∃ c, t = .valleyHeuristic c
  | .autoAscDesc, t => t = .ascending ∨ t = .descending
  | .auto, t => t = .ascending ∨ t = .descending ∨ t = .peak ∨ t = .valley
  | .autoHeuristic, t => t = .ascending ∨ t = .descending ∨ (∃ c, t = .peakHeuristic c) ∨ ∃ c, t = .valleyHeuristic c

theorem rowsFollow_of {n : ℕ} {sol : ℕ → Bool} {r : ℕ → ℕ → R} {S E : ℕ → ℕ} {m : ℕ} (hb : ∀ k < m, IsBin n sol (S k) (E k))
    (hE : ∀ j k, j < k → k < m → E j < E k) {a : TrendArg} {t : Trend} (hm : MayResolve a t) (h : TrendHolds n sol r t) :
    RowsFollow m (fun k => r (S k) (E k)) a := by
  have hasc : t = .ascending → Rising (fun k => r (S k) (E k)) 0 m := fun e => by
    rw [e] at h; exact rising_of hb hE h le_rfl fun _ _ _ _ => trivial
  have hdesc : t = .descending → Falling (fun k => r (S k) (E k)) 0 m := fun e => by
    rw [e] at h; exact falling_of hb hE h le_rfl fun _ _ _ _ => trivial
  have hpk : ∀ c, AscendingOn n sol r (fun e => e < c) ∧ DescendingOn n sol r (fun e => c ≤ e) →
      RisesThenFalls m (fun k => r (S k) (E k)) := by
    rintro c ⟨h1, h2⟩
    obtain ⟨c', hc, hk⟩ := exists_cut hE c
    exact ⟨c', hc, rising_of hb hE h1 hc fun k a _ b => (hk k a).2 b,
      falling_of hb hE h2 le_rfl fun k a b _ => not_lt.1 fun hl => absurd ((hk k a).1 hl) (by omega)⟩
  have hvl : ∀ c, DescendingOn n sol r (fun e => e < c) ∧ AscendingOn n sol r (fun e => c ≤ e) →
      FallsThenRises m (fun k => r (S k) (E k)) := by
    rintro c ⟨h1, h2⟩
    obtain ⟨c', hc, hk⟩ := exists_cut hE c
    exact ⟨c', hc, falling_of hb hE h1 hc fun k a _ b => (hk k a).2 b,
      rising_of hb hE h2 le_rfl fun k a b _ => not_lt.1 fun hl => absurd ((hk k a).1 hl) (by omega)⟩
  have hrise : Rising (fun k => r (S k) (E k)) 0 m → RisesThenFalls m (fun k => r (S k) (E k)) :=
    fun h => ⟨m, le_rfl, h, fun j k h1 h2 h3 => by omega⟩
  have hfall : Falling (fun k => r (S k) (E k)) 0 m → RisesThenFalls m (fun k => r (S k) (E k)) :=
    fun h => ⟨0, Nat.zero_le _, fun j k h1 h2 h3 => by omega, h⟩
  cases a with
  | none => trivial
  | ascending => exact hasc hm
  | descending => exact hdesc hm
  | concave =>
    cases hm
    exact fun i j k h1 h2 h3 => h _ _ _ _ _ _ (hb i (by omega)) (hb j (by omega)) (hb k h3) (hE i j h1 (by omega)) (hE j k h2 h3)
  | convex =>
    cases hm
    exact fun i j k h1 h2 h3 => h _ _ _ _ _ _ (hb i (by omega)) (hb j (by omega)) (hb k h3) (hE i j h1 (by omega)) (hE j k h2 h3)
  | peak => cases hm; obtain ⟨c, h⟩ := h; exact hpk c h
  | valley => cases hm; obtain ⟨c, h⟩ := h; exact hvl c h
  | peakHeuristic => obtain ⟨c, rfl⟩ := hm; exact hpk c h
  | valleyHeuristic => obtain ⟨c, rfl⟩ := hm; exact hvl c h
  | autoAscDesc => exact hm.imp hasc hdesc
  | auto =>
    rcases hm with hm | hm | rfl | rfl
    · exact Or.inl (hrise (hasc hm))
    · exact Or.inl (hfall (hdesc hm))
    · obtain ⟨c, h⟩ := h; exact Or.inl (hpk c h)
    · obtain ⟨c, h⟩ := h; exact Or.inr (hvl c h)
  | autoHeuristic =>
    rcases hm with hm | hm | ⟨c, rfl⟩ | ⟨c, rfl⟩
    · exact Or.inl (hrise (hasc hm))
    · exact Or.inl (hfall (hdesc hm))
    · exact Or.inl (hpk c h)
    · exact Or.inr (hvl c h)

end

section
variable {R R' : Type*} [CommRing R] [LinearOrder R] [CommRing R'] [LinearOrder R']

theorem rowsFollow_transfer {m : ℕ} {r : ℕ → R} {r' : ℕ → R'} {a : TrendArg} (h : RowsFollow m r a)
    (h1 : ∀ i j, i < m → j < m → r i ≤ r j → r' i ≤ r' j)
    (h2 : ∀ i j k, i < m → j < m → k < m → (r i + r k ≤ 2 * r j → r' i + r' k ≤ 2 * r' j) ∧ (2 * r j ≤ r i + r k → 2 * r' j ≤ r' i + r' k)) :
    RowsFollow m r' a := by
  have up : ∀ lo hi, hi ≤ m → Rising r lo hi → Rising r' lo hi := fun lo hi hm h j k a b c => h1 _ _ (by omega) (by omega) (h j k a b c)
  have down : ∀ lo hi, hi ≤ m → Falling r lo hi → Falling r' lo hi := fun lo hi hm h j k a b c => h1 _ _ (by omega) (by omega) (h j k a b c)
  have pk : RisesThenFalls m r → RisesThenFalls m r' := fun ⟨c, hc, a, b⟩ => ⟨c, hc, up _ _ hc a, down _ _ le_rfl b⟩
  have vl : FallsThenRises m r → FallsThenRises m r' := fun ⟨c, hc, a, b⟩ => ⟨c, hc, down _ _ hc a, up _ _ le_rfl b⟩
  cases a with
  | none => trivial
  | ascending => exact up _ _ le_rfl h
  | descending => exact down _ _ le_rfl h
  | concave => exact fun i j k a b c => (h2 i j k (by omega) (by omega) c).1 (h i j k a b c)
  | convex => exact fun i j k a b c => (h2 i j k (by omega) (by omega) c).2 (h i j k a b c)
  | peak => exact pk h
  | valley => exact vl h
  | peakHeuristic => exact pk h
  | valleyHeuristic => exact vl h
  | autoAscDesc => exact h.imp (up _ _ le_rfl) (down _ _ le_rfl)
  | auto => exact h.imp pk vl
  | autoHeuristic => exact h.imp pk vl

theorem rowsFollow_congr {m : ℕ} {r r' : ℕ → R} {a : TrendArg} (h : RowsFollow m r a) (he : ∀ k < m, r k = r' k) :
    RowsFollow m r' a :=
  rowsFollow_transfer h (fun i j hi hj hl => by rw [← he i hi, ← he j hj]; exact hl) fun i j k hi hj hk => by
    rw [← he i hi, ← he j hj, ← he k hk]; exact ⟨id, id⟩

end

/-- Choice of the pre-bins of each row. -/
theorem choose_rows {n m : ℕ} {sol : List Bool} {Q : ℕ → ℕ → ℕ → Prop}
    (hrow : ∀ k ≤ m, ∃ s e, IsBin n (solOf sol) s e ∧ binOf sol e = k ∧ Q k s e) :
    ∃ S E : ℕ → ℕ, (∀ k < m + 1, IsBin n (solOf sol) (S k) (E k) ∧ binOf sol (E k) = k ∧ Q k (S k) (E k)) ∧
      ∀ j k, j < k → k < m + 1 → E j < E k := by
  have hch : ∀ k, ∃ s e, k < m + 1 → IsBin n (solOf sol) s e ∧ binOf sol e = k ∧ Q k s e := by
    intro k
    by_cases hk : k ≤ m
    · obtain ⟨s, e, h⟩ := hrow k hk; exact ⟨s, e, fun _ => h⟩
    · exact ⟨0, 0, fun h => by omega⟩
  choose S E hall using hch
  refine ⟨S, E, hall, fun j k hjk hk => ?_⟩
  by_contra hc
  have := binOf_mono sol (not_lt.1 hc)
  have h1 := (hall j (by omega)).2.1
  have h2 := (hall k hk).2.1
  omega

theorem mayResolve (hull : List ℚ → Option ℚ) (nev ev : List ℕ) (h : 2 ≤ nev.length) (hl : ev.length = nev.length) (a : TrendArg)
    (t : Trend) (ht : resolveTrend hull nev ev a = .ok t) : MayResolve a t := by
  cases a with
  | auto =>
    obtain ⟨t', hm, ht'⟩ := C30_auto hull nev ev h
    rw [ht'] at ht
    obtain rfl := Except.ok.inj ht
    simpa [MayResolve] using hm
  | autoAscDesc =>
    obtain ⟨t', hm, ht'⟩ := C30_auto_asc_desc hull nev ev h
    rw [ht'] at ht
    obtain rfl := Except.ok.inj ht
    simpa [MayResolve] using hm
  | autoHeuristic =>
    obtain ⟨t', ht', hm⟩ := C30_auto_heuristic hull nev ev h hl
    rw [ht'] at ht
    obtain rfl := Except.ok.inj ht
    rcases hm with hm | hm | ⟨c, -, hm, -⟩ | ⟨c, -, hm, -⟩
    · exact Or.inl hm
    · exact Or.inr (Or.inl hm)
    · exact Or.inr (Or.inr (Or.inl ⟨c, hm⟩))
    · exact Or.inr (Or.inr (Or.inr ⟨c, hm⟩))
  | peakHeuristic => exact ⟨_, (Except.ok.inj ht).symm⟩
  | valleyHeuristic => exact ⟨_, (Except.ok.inj ht).symm⟩
  | _ => exact (Except.ok.inj ht).symm

section
variable {α : Type*} [LinearOrder α]

/-- C13, C102: every value of `monotonic_trend` on the table, `solver="mip"`: the event rates of the rows follow the trend. -/
theorem C13_table_mip (p : Params) (hull : List ℚ → Option ℚ) (stale : Bool) (pv : ℕ → ℕ → ℕ → ℕ → ℝ) (sc : SpecialCodes α)
    (so : SplitOpts α) (prebin : List (Rec α) → List α) (solver : Solver) (recs : List (Rec α)) (f : Fitted α) (reg : ℝ)
    (hr : RespectsMIP (p.cfg hull stale pv recs.length) reg solver) (h : fitParams p sc so prebin solver recs = .ok f)
    (hne : f.splits ≠ []) : RowsFollow (f.splits.length + 1) (rateOfRow f.nonevent f.event) p.trend := by
  have hfit := fitParams_fit h
  have hs := solved_of_splits (fun nev ev hn => Respects.last (Or.inr ⟨reg, hr⟩) nev ev hn) hfit hne
  obtain ⟨nev, ev, h1, h2, -, s', hf, -, hmip⟩ := fitNumerical_const (c := p.cfg hull stale pv recs.length) hne hfit
  obtain ⟨t, ht, o, ho, hoc, ht', -⟩ := options_ok (pv := pv) p hull stale recs.length nev ev h2 h1
  obtain ⟨inp, sol, hw, -, -, -, ha, -, -, hn, hrow⟩ := table_mip (fun _ _ => rfl) (hmip reg hr) hf hs hne
  have hT := ha.trend
  simp only [ho, ht'] at hT
  obtain ⟨S, E, hall, hE⟩ := choose_rows hrow
  refine rowsFollow_transfer (rowsFollow_of (fun k hk => (hall k hk).1) hE (mayResolve hull nev ev h2 h1 p.trend t ht) hT) ?_ ?_
  · intro i j hi hj hl
    rw [rate_row (hall i hi).2.2.1 (hall i hi).2.2.2, rate_row (hall j hj).2.2.1 (hall j hj).2.2.2] at hl
    exact_mod_cast hl
  · intro i j k hi hj hk
    rw [rate_row (hall i hi).2.2.1 (hall i hi).2.2.2, rate_row (hall j hj).2.2.1 (hall j hj).2.2.2,
      rate_row (hall k hk).2.2.1 (hall k hk).2.2.2]
    exact ⟨fun hl => by exact_mod_cast hl, fun hl => by exact_mod_cast hl⟩

/-- C13, C102: every value of `monotonic_trend` on the table, `solver="cp"`: the event rates of the rows follow the trend after
rounding them down to six digits. -/
theorem C13_table_cp (p : Params) (hull : List ℚ → Option ℚ) (stale : Bool) (pv : ℕ → ℕ → ℕ → ℕ → ℝ) (sc : SpecialCodes α)
    (so : SplitOpts α) (prebin : List (Rec α) → List α) (solver : Solver) (recs : List (Rec α)) (f : Fitted α) (reg : ℤ)
    (hr : RespectsCP (p.cfg hull stale pv recs.length) reg solver) (h : fitParams p sc so prebin solver recs = .ok f)
    (hne : f.splits ≠ []) :
    RowsFollow (f.splits.length + 1) (fun k => ⌊rateOfRow f.nonevent f.event k * 1000000⌋) p.trend := by
  have hfit := fitParams_fit h
  have hs := solved_of_splits (fun nev ev hn => Respects.last (Or.inl ⟨reg, hr⟩) nev ev hn) hfit hne
  obtain ⟨nev, ev, h1, h2, -, s', hf, hcp, -⟩ := fitNumerical_const (c := p.cfg hull stale pv recs.length) hne hfit
  obtain ⟨t, ht, o, ho, hoc, ht', -⟩ := options_ok (pv := pv) p hull stale recs.length nev ev h2 h1
  obtain ⟨inp, sol, hw, -, -, -, ha, -, -, hn, hrow⟩ := table_cp (fun _ _ => rfl) (hcp reg hr) hf hs hne
  have hT := ha.trend
  simp only [ho, ht'] at hT
  obtain ⟨S, E, hall, hE⟩ := choose_rows hrow
  refine rowsFollow_congr (rowsFollow_of (fun k hk => (hall k hk).1) hE (mayResolve hull nev ev h2 h1 p.trend t ht) hT) fun k hk => ?_
  show ⌊_⌋ = ⌊_⌋
  rw [rate_row (hall k hk).2.2.1 (hall k hk).2.2.2]
  rfl

end

end OptBinning
