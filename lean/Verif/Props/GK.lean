import Verif.Lemmas.GK
import Mathlib.Tactic.Positivity
import Mathlib.Tactic.NormNum

/-! # C24, C25: the Greenwald-Khanna sketch of one stream -/
namespace OptBinning
open Spec (numLt numLe HasRankWithin IsMinOf IsMaxOf)
variable {α : Type*} [LinearOrder α]

/-- The object describes the stream `S`. -/
structure Describes (S : List α) (k : GK α) : Prop where
  parts : ∃ S0, (S0 ++ k.incoming).Perm S ∧ Summary S0 k.entries
  width : ∀ e ∈ k.entries, ((e.g + e.delta : ℤ) : ℚ) ≤ max 1 (2 * k.eps * ((k.count : ℚ) - 1))
  count : k.count = S.length
  mn : (S = [] ∧ k.mn = none) ∨ ∃ m, k.mn = some m ∧ IsMinOf S m
  mx : (S = [] ∧ k.mx = none) ∨ ∃ m, k.mx = some m ∧ IsMaxOf S m

theorem describes_new (eps : ℚ) : Describes ([] : List α) { eps := eps } :=
  ⟨⟨[], by simp, ⟨trivial, rfl, List.Pairwise.nil, by simp, by simp⟩⟩, by simp, rfl, .inl ⟨rfl, rfl⟩, .inl ⟨rfl, rfl⟩⟩

theorem Describes.compress {S : List α} {k : GK α} (h : Describes S k) : Describes S (k.mergeCompress []) ∧ (k.mergeCompress []).incoming = [] := by
  obtain ⟨S0, hp, hs⟩ := h.parts
  refine ⟨⟨⟨S, by simp [GK.mergeCompress], ?_⟩, ?_, h.count, h.mn, h.mx⟩, rfl⟩
  · simp only [GK.mergeCompress, List.append_nil]
    set inc := k.incoming.map fun v => (⟨v, 1, 0⟩ : Entry α) with hinc
    have hperm := sortEntries_perm inc
    have hall : ∀ e ∈ sortEntries inc, e.g = 1 ∧ e.delta = 0 := by
      intro e he
      have := hperm.subset he
      simp only [hinc, List.mem_map] at this
      obtain ⟨v, -, rfl⟩ := this
      exact ⟨rfl, rfl⟩
    have hm := hs.merge (2 * k.eps * ((k.count : ℚ) - 1)) (sortEntries_sorted inc) (fun e he => by rw [(hall e he).1]; decide)
      fun e he => (hall e he).2
    refine hm.congr ?_
    refine List.Perm.trans (List.Perm.append_left S0 (expand_perm hperm)) ?_
    rw [hinc, expand_ones]; exact hp
  · simp only [GK.mergeCompress, List.append_nil]
    apply mergeLoop_width _ _ (le_max_right _ _)
    · intro e he
      have := (sortEntries_perm _).subset he
      simp only [List.mem_map] at this
      obtain ⟨v, -, rfl⟩ := this
      simp
    · exact h.width

theorem Describes.flush {S : List α} {k : GK α} (h : Describes S k) : Describes S k.flush ∧ k.flush.incoming = [] := by
  unfold GK.flush
  split_ifs with h0
  · exact ⟨h, List.length_eq_zero_iff.mp h0⟩
  · exact h.compress

theorem eps_flush (k : GK α) : k.flush.eps = k.eps ∧ k.flush.count = k.count ∧ k.flush.mn = k.mn := by
  unfold GK.flush GK.mergeCompress; split_ifs <;> exact ⟨rfl, rfl, rfl⟩

theorem Describes.add {S : List α} {k : GK α} (h : Describes S k) (heps : 0 ≤ k.eps) (v : α) : Describes (S ++ [v]) (k.add v) := by
  unfold GK.add
  simp only
  set k1 : GK α := { k with
    incoming := k.incoming ++ [v]
    count := k.count + 1
    mn := some (k.mn.elim v fun m => if v < m then v else m)
    mx := some (k.mx.elim v fun m => if v > m then v else m) } with hk1
  have h1 : Describes (S ++ [v]) k1 := by
    obtain ⟨S0, hp, hs⟩ := h.parts
    refine ⟨⟨S0, ?_, hs⟩, ?_, ?_, ?_, ?_⟩
    · simp only [hk1]; rw [← List.append_assoc]; exact hp.append_right [v]
    · intro e he
      refine (h.width e he).trans (max_le_max le_rfl ?_)
      simp only [hk1]; push_cast; nlinarith
    · simp [hk1, h.count]
    · right
      refine ⟨_, rfl, ?_⟩
      rcases h.mn with ⟨rfl, hm⟩ | ⟨m, hm, hm1, hm2⟩
      · rw [hm]; simp [IsMinOf]
      · rw [hm]
        simp only [Option.elim_some]
        split_ifs with hlt
        · refine ⟨by simp, fun s hs' => ?_⟩
          rcases List.mem_append.mp hs' with h3 | h3
          · exact hlt.le.trans (hm2 s h3)
          · simp at h3; rw [h3]
        · refine ⟨by simp [hm1], fun s hs' => ?_⟩
          rcases List.mem_append.mp hs' with h3 | h3
          · exact hm2 s h3
          · simp at h3; rw [h3]; exact not_lt.mp hlt
    · right
      refine ⟨_, rfl, ?_⟩
      rcases h.mx with ⟨rfl, hm⟩ | ⟨m, hm, hm1, hm2⟩
      · rw [hm]; simp [IsMaxOf]
      · rw [hm]
        simp only [Option.elim_some]
        split_ifs with hlt
        · refine ⟨by simp, fun s hs' => ?_⟩
          rcases List.mem_append.mp hs' with h3 | h3
          · exact (hm2 s h3).trans hlt.le
          · simp at h3; rw [h3]
        · refine ⟨by simp [hm1], fun s hs' => ?_⟩
          rcases List.mem_append.mp hs' with h3 | h3
          · exact hm2 s h3
          · simp at h3; rw [h3]; exact not_lt.mp hlt
  split_ifs
  · exact h1.compress.1
  · exact h1

theorem eps_step (k : GK α) (op : GKOp α) : (k.step op).eps = k.eps := by
  cases op with
  | add v => simp only [GK.step, GK.add, GK.mergeCompress]; split_ifs <;> rfl
  | len => exact (eps_flush k).1
  | quantile q =>
    simp only [GK.step, GK.quantile]
    split_ifs
    all_goals first | rfl | exact (eps_flush k).1
  | compress => rfl

theorem describes_run (eps : ℚ) (heps : 0 < eps) (ops : List (GKOp α)) :
    Describes (addedValues ops) (GK.run eps ops) ∧ (GK.run eps ops).eps = eps := by
  have key : ∀ (ops : List (GKOp α)) (S : List α) (k : GK α), Describes S k → k.eps = eps →
      Describes (S ++ addedValues ops) (ops.foldl GK.step k) ∧ (ops.foldl GK.step k).eps = eps := by
    intro ops
    induction ops with
    | nil => intro S k h he; simpa [addedValues] using ⟨h, he⟩
    | cons op ops ih =>
      intro S k h he
      have h2 : (k.step op).eps = eps := by rw [eps_step, he]
      cases op with
      | add v =>
        have := ih (S ++ [v]) (k.step (.add v)) (h.add (by rw [he]; exact heps.le) v) h2
        simpa [addedValues] using this
      | len =>
        have := ih S (k.step .len) h.flush.1 h2
        simpa [addedValues] using this
      | quantile q =>
        have hq : Describes S (k.step (.quantile q)) := by
          simp only [GK.step, GK.quantile]
          split_ifs
          all_goals first | exact h | exact h.flush.1
        have := ih S (k.step (.quantile q)) hq h2
        simpa [addedValues] using this
      | compress =>
        have := ih S (k.step .compress) h.compress.1 h2
        simpa [addedValues] using this
  have := key ops [] { eps := eps } (describes_new eps) rfl
  simpa [GK.run] using this

/-- C24: after any history of `add`, `len` and `quantile` calls and of merges into other sketches, the sketch counts the added values, knows their minimum and
maximum, and (once compressed, as by `len`) its entries are in increasing order, hold added values with positive weights, and the
weights add up to the number of added values. -/
theorem C24_accounts (eps : ℚ) (heps : 0 < eps) (ops : List (GKOp α)) :
    let k := (GK.run eps ops).flush
    k.count = (addedValues ops).length ∧ (k.entries.map Entry.g).sum = ((addedValues ops).length : ℤ) ∧
    k.entries.Pairwise (fun a b => a.value ≤ b.value) ∧ (∀ e ∈ k.entries, e.value ∈ addedValues ops ∧ 0 < e.g) ∧
    (∀ m, k.mn = some m → IsMinOf (addedValues ops) m) ∧ (∀ m, k.mx = some m → IsMaxOf (addedValues ops) m) ∧
    (addedValues ops ≠ [] → k.mn.isSome ∧ k.mx.isSome) := by
  intro k
  obtain ⟨h, -⟩ := describes_run eps heps ops
  obtain ⟨h, hinc⟩ := h.flush
  obtain ⟨S0, hp, hs⟩ := h.parts
  rw [hinc, List.append_nil] at hp
  have hs := hs.congr hp
  refine ⟨h.count, hs.total, hs.sorted, fun e he => ⟨hs.mem e he, hs.pos e he⟩, ?_, ?_, ?_⟩
  · intro m hm
    rcases h.mn with ⟨h1, h2⟩ | ⟨m', h1, h2⟩
    · rw [h2] at hm; simp at hm
    · rw [h1] at hm; simp only [Option.some.injEq] at hm; rwa [← hm]
  · intro m hm
    rcases h.mx with ⟨h1, h2⟩ | ⟨m', h1, h2⟩
    · rw [h2] at hm; simp at hm
    · rw [h1] at hm; simp only [Option.some.injEq] at hm; rwa [← hm]
  · intro hne
    constructor
    · rcases h.mn with ⟨h1, h2⟩ | ⟨m', h1, h2⟩
      · exact absurd h1 hne
      · show k.mn.isSome; simp only [k, h1, Option.isSome_some]
    · rcases h.mx with ⟨h1, h2⟩ | ⟨m', h1, h2⟩
      · exact absurd h1 hne
      · show k.mx.isSome; simp only [k, h1, Option.isSome_some]

/-- C24: every stored entry brackets the rank of its value: at least (weight up to the entry) values are at most its value, and
fewer than that plus `delta` values are below it. -/
theorem C24_rank_bounds (eps : ℚ) (heps : 0 < eps) (ops : List (GKOp α)) (p q : List (Entry α)) (e : Entry α)
    (hk : (GK.run eps ops).flush.entries = p ++ e :: q) :
    (p.map Entry.g).sum + e.g ≤ numLe (addedValues ops) e.value ∧
    (numLt (addedValues ops) e.value : ℤ) < (p.map Entry.g).sum + e.g + e.delta := by
  obtain ⟨h, -⟩ := describes_run eps heps ops
  obtain ⟨h, hinc⟩ := h.flush
  obtain ⟨S0, hp, hs⟩ := h.parts
  rw [hinc, List.append_nil] at hp
  have hr := (hs.congr hp).ranks
  rw [hk] at hr
  have key : ∀ (p : List (Entry α)) (A : ℤ), Ranks (addedValues ops) A (p ++ e :: q) →
      A + (p.map Entry.g).sum + e.g ≤ numLe (addedValues ops) e.value ∧
      (numLt (addedValues ops) e.value : ℤ) < A + (p.map Entry.g).sum + e.g + e.delta := by
    intro p
    induction p with
    | nil => intro A hA; simpa using hA.1
    | cons a p ih =>
      intro A hA
      have := ih _ hA.2
      simp only [List.map_cons, List.sum_cons]
      constructor <;> [have := this.1; have := this.2] <;> omega
  simpa using key p 0 hr

/-- What the search loop of `quantile` finds. -/
theorem search_spec {S : List α} (bound : ℤ) (W : ℤ) : ∀ (es : List (Entry α)) (A : ℤ) (prev : Option α), Ranks S A es →
    (∀ e ∈ es, e.g + e.delta ≤ W) → (∀ e ∈ es, e.value ∈ S) →
    (∀ v, prev = some v → v ∈ S ∧ A ≤ numLe S v ∧ (numLt S v : ℤ) < bound) →
    (match searchEntries bound A prev es with
      | none => prev = none ∧ (es = [] ∨ bound < A + W)
      | some v => v ∈ S ∧ (numLt S v : ℤ) < bound ∧ (bound - W < numLe S v ∨ A + gsum es ≤ numLe S v)) := by
  intro es
  induction es with
  | nil =>
    intro A prev _ _ _ hprev
    simp only [searchEntries]
    cases prev with
    | none => exact ⟨rfl, .inl trivial⟩
    | some v =>
      obtain ⟨h1, h2, h3⟩ := hprev v rfl
      exact ⟨h1, h3, .inr (by simpa using h2)⟩
  | cons e es ih =>
    intro A prev hr hw hm hprev
    simp only [searchEntries]
    by_cases hgt : A + e.g + e.delta > bound
    · rw [if_pos hgt]
      have hwe := hw e (by simp)
      cases prev with
      | none => exact ⟨rfl, .inr (by omega)⟩
      | some v =>
        obtain ⟨h1, h2, h3⟩ := hprev v rfl
        exact ⟨h1, h3, .inl (by omega)⟩
    · rw [if_neg hgt]
      have hrec := ih (A + e.g) (some e.value) hr.2 (fun a ha => hw a (List.mem_cons_of_mem _ ha))
        (fun a ha => hm a (List.mem_cons_of_mem _ ha)) (by
          intro v hv
          simp only [Option.some.injEq] at hv
          subst hv
          exact ⟨hm e (by simp), hr.1.1, by have := hr.1.2; omega⟩)
      cases hs : searchEntries bound (A + e.g) (some e.value) es with
      | none => rw [hs] at hrec; exact absurd hrec.1 (by simp)
      | some v =>
        rw [hs] at hrec
        refine ⟨hrec.1, hrec.2.1, ?_⟩
        rw [gsum_cons]
        rcases hrec.2.2 with h | h
        · exact .inl h
        · exact .inr (by omega)

/-- Widths are integers, hence at most `2 · spread + 1`. -/
theorem width_le_spread {x : ℚ} (hx : 0 ≤ x) {w : ℤ} (h : (w : ℚ) ≤ max 1 (2 * x)) : w ≤ 2 * ⌊x⌋ + 1 := by
  have h0 := Int.floor_nonneg.mpr hx
  rcases le_max_iff.mp h with h | h
  · have : w ≤ 1 := by exact_mod_cast h
    omega
  · have h1 := Int.lt_floor_add_one x
    have : (w : ℚ) < 2 * ((⌊x⌋ : ℤ) : ℚ) + 2 := by linarith
    have : w < 2 * ⌊x⌋ + 2 := by exact_mod_cast this
    omega

theorem numLt_lt_numLe {S : List α} {v : α} (hv : v ∈ S) : numLt S v < numLe S v := by
  unfold numLt numLe
  have h1 : ∀ T : List α, T.countP (fun s => decide (s < v)) ≤ T.countP fun s => decide (s ≤ v) := fun T => by
    apply List.countP_mono_left
    intro s _ h; simp only [decide_eq_true_eq] at h ⊢; exact h.le
  obtain ⟨l, r, rfl⟩ := List.append_of_mem hv
  have a := h1 l; have b := h1 r
  simp only [List.countP_append, List.countP_cons, lt_irrefl, le_refl, decide_false, decide_true, if_true]
  simp only [Bool.false_eq_true, if_false]
  omega

/-- From bounds on the counts to a rank. -/
theorem rank_of_bounds {S : List α} {v : α} {rank err : ℤ} (hv : v ∈ S) (h1 : (numLt S v : ℤ) < rank + err)
    (h2 : rank - err ≤ numLe S v) (h0 : 0 ≤ err) : HasRankWithin S v rank err := by
  have h3 := numLt_lt_numLe hv
  refine ⟨hv, ?_⟩
  by_cases h4 : rank ≤ numLt S v
  · exact ⟨numLt S v + 1, by omega, by omega, by omega, by omega⟩
  · by_cases h5 : rank ≤ numLe S v
    · exact ⟨rank, by omega, h5, by omega, by omega⟩
    · exact ⟨numLe S v, by omega, le_rfl, by omega, by omega⟩

/-- C25: after any history, for every `q` in [0, 1], `quantile(q)` returns an added value one of whose ranks differs from the
requested rank `⌊q (n - 1)⌋ + 1` by at most `eps (n - 1)`. -/
theorem C25_quantile (eps : ℚ) (heps : 0 < eps) (ops : List (GKOp α)) (q : ℚ) (hq0 : 0 ≤ q) (hq1 : q ≤ 1)
    (hne : addedValues ops ≠ []) :
    ∃ k v, (GK.run eps ops).quantile q = .ok (k, some v) ∧
      HasRankWithin (addedValues ops) v (⌊q * (((addedValues ops).length : ℚ) - 1)⌋ + 1) ⌊eps * (((addedValues ops).length : ℚ) - 1)⌋ := by
  obtain ⟨hD, he⟩ := describes_run eps heps ops
  set k0 := GK.run eps ops with hk0
  set S := addedValues ops with hS
  obtain ⟨hF, hinc⟩ := hD.flush
  obtain ⟨hfe, hfc, -⟩ := eps_flush k0
  obtain ⟨S0, hp, hs⟩ := hF.parts
  rw [hinc, List.append_nil] at hp
  have hs := hs.congr hp
  have hlen : 0 < S.length := List.length_pos_iff_ne_nil.mpr hne
  have hn1 : (0 : ℚ) ≤ (S.length : ℚ) - 1 := by
    have : (1 : ℚ) ≤ (S.length : ℚ) := by exact_mod_cast hlen
    linarith
  unfold GK.quantile
  rw [if_neg (by push Not; exact ⟨hq0, hq1⟩), if_neg (by rw [hD.count]; omega)]
  have hcount : ((k0.flush.count : ℕ) : ℚ) = (S.length : ℚ) := by rw [hF.count]
  simp only [hcount, hfe, he]
  set sp : ℤ := ⌊eps * ((S.length : ℚ) - 1)⌋ with hsp
  have hsp0 : 0 ≤ sp := Int.floor_nonneg.mpr (mul_nonneg heps.le hn1)
  have hrank : ⌊q * ((S.length : ℚ) - 1) + 1⌋ = ⌊q * ((S.length : ℚ) - 1)⌋ + 1 := Int.floor_add_one _
  set rank : ℤ := ⌊q * ((S.length : ℚ) - 1)⌋ + 1 with hrk
  have hr1 : 1 ≤ rank := by
    have := Int.floor_nonneg.mpr (mul_nonneg hq0 hn1); omega
  have hrn : rank ≤ S.length := by
    have : q * ((S.length : ℚ) - 1) ≤ (S.length : ℚ) - 1 := mul_le_of_le_one_left hn1 hq1
    have h2 := Int.floor_le (q * ((S.length : ℚ) - 1))
    have h3 : ((⌊q * ((S.length : ℚ) - 1)⌋ : ℤ) : ℚ) + 1 ≤ (S.length : ℚ) := by linarith
    have h4 : ⌊q * ((S.length : ℚ) - 1)⌋ + 1 ≤ (S.length : ℤ) := by exact_mod_cast h3
    exact h4
  rw [hrank]
  have hW : ∀ e ∈ k0.flush.entries, e.g + e.delta ≤ 2 * sp + 1 := by
    intro e hem
    have := hF.width e hem
    rw [hcount, hfe, he, mul_assoc] at this
    exact width_le_spread (mul_nonneg heps.le hn1) this
  have hsearch := search_spec (S := S) (rank + sp) (2 * sp + 1) k0.flush.entries 0 none hs.ranks hW hs.mem (by simp)
  cases hres : searchEntries (rank + sp) 0 none k0.flush.entries with
  | none =>
    rw [hres] at hsearch
    rcases hF.mn with ⟨h1, -⟩ | ⟨m, hm, hmin⟩
    · exact absurd h1 hne
    · refine ⟨k0.flush, m, by rw [hm]; rfl, rank_of_bounds hmin.1 ?_ ?_ hsp0⟩
      · have : numLt S m = 0 := by
          unfold numLt; rw [List.countP_eq_zero]; intro s hs'; simpa using hmin.2 s hs'
        omega
      · rcases hsearch.2 with h1 | h1
        · have := hs.total; rw [h1] at this; simp at this; omega
        · omega
  | some v =>
    rw [hres] at hsearch
    obtain ⟨h1, h2, h3⟩ := hsearch
    refine ⟨k0.flush, v, rfl, rank_of_bounds h1 h2 ?_ hsp0⟩
    rcases h3 with h | h
    · omega
    · rw [zero_add, hs.total] at h; omega

/-- C25: a query outside [0, 1] or on an empty sketch raises. -/
theorem C25_rejects (eps : ℚ) (heps : 0 < eps) (ops : List (GKOp α)) (q : ℚ) :
    (∃ e, (GK.run eps ops).quantile q = .error e) ↔ (q < 0 ∨ 1 < q ∨ addedValues ops = []) := by
  obtain ⟨hD, -⟩ := describes_run eps heps ops
  unfold GK.quantile
  by_cases h1 : 0 ≤ q ∧ q ≤ 1
  · rw [if_neg (by tauto)]
    by_cases h2 : (GK.run eps ops).count = 0
    · rw [if_pos h2]
      rw [hD.count] at h2
      simp [List.length_eq_zero_iff.mp h2]
    · rw [if_neg h2]
      rw [hD.count] at h2
      have : addedValues ops ≠ [] := fun h => h2 (by rw [h]; rfl)
      constructor
      · rintro ⟨e, he⟩; simp at he
      · rintro (h | h | h)
        · exact absurd h1.1 (not_le.mpr h)
        · exact absurd h1.2 (not_le.mpr h)
        · exact absurd h this
  · rw [if_pos h1]
    refine ⟨fun _ => ?_, fun _ => ⟨_, rfl⟩⟩
    by_contra hc
    push Not at hc
    exact h1 ⟨hc.1, hc.2.1⟩

/-- Non-vacuity: a history with compressions; the sketch has fewer entries than the 9 values and `quantile(1/2)` is the true median up to
rank error 2 = ⌊eps (n - 1)⌋. -/
example : (addedValues ([5, 3, 8, 1, 9, 2, 7, 4, 6].map GKOp.add : List (GKOp ℕ))).length = 9 ∧
    (GK.run (1/4) ([5, 3, 8, 1, 9, 2, 7, 4, 6].map GKOp.add : List (GKOp ℕ))).flush.entries.length < 9 ∧
    ((GK.run (1/4) ([5, 3, 8, 1, 9, 2, 7, 4, 6].map GKOp.add : List (GKOp ℕ))).quantile (1/2)).toOption.map Prod.snd = some (some 7) := by
  refine ⟨rfl, by decide +kernel, by decide +kernel⟩

end OptBinning
