import Verif.Model.Process
import Mathlib.Data.List.Nodup
import Mathlib.Data.List.Perm.Basic
import Mathlib.Algebra.Order.Field.Basic
import Mathlib.Algebra.Order.Group.Unbundled.Basic

/-! # Lemmas on dictionaries and on variable selection -/
set_option linter.unusedSectionVars false
namespace OptBinning
open Spec

/-! ### dictionaries -/
section dict
variable {β : Type*}

theorem PDict.get_set_same (d : PDict β) (k : String) (v : β) : (d.set k v).get k = some v := by
  induction d with
  | nil => simp [PDict.set, PDict.get]
  | cons p d ih =>
    simp only [PDict.set]
    by_cases h : p.1 = k
    · simp [h, PDict.get]
    · have h' : (p.1 == k) = false := by simp [h]
      simp only [h']
      unfold PDict.get at ih ⊢
      simpa [List.find?_cons, h'] using ih

theorem PDict.get_set_other (d : PDict β) {k k' : String} (v : β) (hk : k' ≠ k) : (d.set k v).get k' = d.get k' := by
  induction d with
  | nil => simp [PDict.set, PDict.get, Ne.symm hk]
  | cons p d ih =>
    simp only [PDict.set]
    by_cases h : p.1 = k
    · have h1 : (k == k') = false := by simp [Ne.symm hk]
      have h2 : (p.1 == k') = false := by simp [h, Ne.symm hk]
      simp [h, PDict.get, List.find?_cons, h1]
    · have h' : (p.1 == k) = false := by simp [h]
      simp only [h']
      unfold PDict.get at ih ⊢
      by_cases h2 : p.1 = k'
      · simp [List.find?_cons, h2]
      · have h2' : (p.1 == k') = false := by simp [h2]
        simpa [List.find?_cons, h2'] using ih

theorem PDict.get_set (d : PDict β) (k k' : String) (v : β) :
    (d.set k v).get k' = if k' = k then some v else d.get k' := by
  by_cases h : k' = k
  · subst h; simp [PDict.get_set_same]
  · simp [h, PDict.get_set_other d v h]

theorem PDict.keys_set_of_mem (d : PDict β) {k : String} (v : β) (h : k ∈ d.keys) : (d.set k v).keys = d.keys := by
  induction d with
  | nil => simp [PDict.keys] at h
  | cons p d ih =>
    simp only [PDict.set]
    by_cases hp : p.1 = k
    · simp [hp, PDict.keys]
    · have h' : (p.1 == k) = false := by simp [hp]
      have hm : k ∈ PDict.keys d := by
        simp only [PDict.keys, List.map_cons, List.mem_cons] at h
        rcases h with h | h
        · exact absurd h.symm hp
        · exact h
      simp only [h', PDict.keys, List.map_cons, Bool.false_eq_true, if_false]
      rw [← PDict.keys, ih hm, PDict.keys]

theorem PDict.keys_set_of_not_mem (d : PDict β) {k : String} (v : β) (h : k ∉ d.keys) :
    (d.set k v).keys = d.keys ++ [k] := by
  induction d with
  | nil => simp [PDict.set, PDict.keys]
  | cons p d ih =>
    simp only [PDict.keys, List.map_cons, List.mem_cons, not_or] at h
    have h' : (p.1 == k) = false := by simp [Ne.symm h.1]
    simp only [PDict.set, h', Bool.false_eq_true, if_false, PDict.keys, List.map_cons, List.cons_append]
    rw [← PDict.keys, ih h.2, PDict.keys]

theorem PDict.get_isSome_iff (d : PDict β) (k : String) : (d.get k).isSome ↔ k ∈ d.keys := by
  unfold PDict.get PDict.keys
  simp only [Option.isSome_map, List.find?_isSome, beq_iff_eq, List.mem_map]

/-- With distinct keys, the value at a position is the value of its key. -/
theorem PDict.get_getElem (d : PDict β) (h : d.keys.Nodup) (i : ℕ) (hi : i < d.length) :
    d.get (d[i].1) = some (d[i].2) := by
  induction d generalizing i with
  | nil => simp at hi
  | cons p d ih =>
    simp only [PDict.keys, List.map_cons, List.nodup_cons] at h
    cases i with
    | zero => simp [PDict.get]
    | succ i =>
      have hi' : i < d.length := by simpa using hi
      have hne : (p.1 == (d[i]).1) = false := by
        rw [beq_eq_false_iff_ne]
        intro hc
        exact h.1 (hc ▸ List.mem_map_of_mem (List.getElem_mem hi'))
      have := ih h.2 i hi'
      unfold PDict.get at this ⊢
      simpa [List.find?_cons, hne] using this

end dict

/-! ### selection -/
section sel
variable {V μ χ : Type*} [Field V] [LinearOrder V] [IsStrictOrderedRing V]

/-- The set of positions selected by a mask. -/
def supp (s : List Bool) : Finset ℕ := (Finset.range s.length).filter fun i => s.getD i false = true

theorem mem_supp {s : List Bool} {i : ℕ} : i ∈ supp s ↔ s.getD i false = true := by
  unfold supp
  simp only [Finset.mem_filter, Finset.mem_range, and_iff_right_iff_imp]
  intro h
  by_contra hc
  rw [List.getD_eq_default _ _ (by omega)] at h
  exact absurd h (by simp)

/-- `numpy.argsort` meets its contract. -/
def ArgsortOk (argsort : List V → List ℕ) : Prop := ∀ l, IsArgsort l (argsort l)

theorem getD_zipWith_and (s : List Bool) (vals : List V) (p : V → Bool) (h : vals.length = s.length) (i : ℕ) :
    (List.zipWith (fun b v => b && p v) s vals).getD i false = (s.getD i false && p (vals.getD i 0)) := by
  by_cases hi : i < s.length
  · rw [List.getD_eq_getElem _ _ (by simp; omega), List.getD_eq_getElem _ _ hi, List.getD_eq_getElem _ _ (by omega)]
    simp
  · rw [List.getD_eq_default _ _ (by simp; omega), List.getD_eq_default _ _ (by omega)]; simp

/-- The mask after "min" and "max" (`s2` of `selectMetric`). -/
def boundMask (c : Criterion V) (vals : List V) (support : List Bool) : List Bool :=
  let s1 := match c.min with
    | some m => List.zipWith (fun b v => b && decide (v ≥ m)) support vals
    | none => support
  match c.max with
    | some m => List.zipWith (fun b v => b && decide (v ≤ m)) s1 vals
    | none => s1

theorem boundMask_length (c : Criterion V) (vals : List V) (support : List Bool) (h : vals.length = support.length) :
    (boundMask c vals support).length = support.length := by
  unfold boundMask
  cases c.min <;> cases c.max <;> simp [h]

open Classical in
theorem supp_boundMask (c : Criterion V) (vals : List V) (support : List Bool) (h : vals.length = support.length) :
    supp (boundMask c vals support) = (supp support).filter fun i => InBounds c (vals.getD i 0) := by
  ext i
  rw [Finset.mem_filter, mem_supp, mem_supp]
  unfold boundMask InBounds
  cases h1 : c.min with
  | none =>
    cases h2 : c.max with
    | none => simp
    | some M =>
      simp only
      rw [getD_zipWith_and _ _ (fun v => decide (v ≤ M)) h]; simp
  | some m =>
    cases h2 : c.max with
    | none =>
      simp only
      rw [getD_zipWith_and _ _ (fun v => decide (v ≥ m)) h]; simp
    | some M =>
      simp only
      rw [getD_zipWith_and _ _ (fun v => decide (v ≤ M)) (by simp [h]), getD_zipWith_and _ _ (fun v => decide (v ≥ m)) h]
      simp [and_assoc]

theorem nSelected_eq (t : Top) (n : ℕ) : nSelected t n = topNumber t n := by
  cases t with
  | count k => simp only [nSelected, topNumber]; omega
  | frac q => simp only [nSelected, topNumber]; omega

theorem topNumber_le (t : Top) (n : ℕ) : topNumber t n ≤ n := by cases t <;> simp [topNumber]

/-- The part of `selectMetric` after the bounds. -/
theorem selectMetric_def (argsort : List V → List ℕ) (c : Criterion V) (vals : List V) (support : List Bool) :
    selectMetric argsort c vals support =
      match c.strategy, c.top with
      | some s, some t =>
        let valid := (List.range (boundMask c vals support).length).filter fun i => (boundMask c vals support).getD i false
        (List.range (boundMask c vals support).length).map fun i => (boundMask c vals support).getD i false &&
          (((argOrder argsort s (valid.map fun i => vals.getD i 0)).take
            (nSelected t (valid.map fun i => vals.getD i 0).length)).map fun k => valid.getD k 0).contains i
      | _, _ => boundMask c vals support := rfl

theorem selectMetric_length (argsort : List V → List ℕ) (c : Criterion V) (vals : List V) (support : List Bool)
    (h : vals.length = support.length) : (selectMetric argsort c vals support).length = support.length := by
  rw [selectMetric_def]
  cases c.strategy <;> cases c.top <;> simp [boundMask_length c vals support h]

/-- The choice of the best positions of `valid`, for keys `g` sorted in ascending order. -/
theorem choose_best (valid : List ℕ) (hnd : valid.Nodup) (g : ℕ → V) (perm : List ℕ)
    (hp : IsArgsort (valid.map g) perm) (m : ℕ) (hm : m ≤ valid.length) :
    let chosen := (perm.take m).map fun k => valid.getD k 0
    chosen.toFinset ⊆ valid.toFinset ∧ chosen.toFinset.card = m ∧
      ∀ i ∈ chosen, ∀ j ∈ valid, j ∉ chosen → g i ≤ g j := by
  obtain ⟨hperm, hsort⟩ := hp
  rw [List.length_map] at hperm
  have hlen : perm.length = valid.length := by simpa using hperm.length_eq
  have hmem : ∀ k ∈ perm, k < valid.length := fun k hk => by simpa using hperm.mem_iff.1 hk
  have hpnd : perm.Nodup := hperm.nodup_iff.2 List.nodup_range
  intro chosen
  have hget : ∀ k < valid.length, valid.getD k 0 ∈ valid := fun k hk => by
    rw [List.getD_eq_getElem _ _ hk]; exact List.getElem_mem hk
  refine ⟨?_, ?_, ?_⟩
  · intro i hi
    rw [List.mem_toFinset, List.mem_map] at hi
    obtain ⟨k, hk, rfl⟩ := hi
    rw [List.mem_toFinset]
    exact hget k (hmem k (List.mem_of_mem_take hk))
  · have hnd' : chosen.Nodup := by
      refine List.Nodup.map_on ?_ (hpnd.sublist (List.take_sublist _ _))
      intro a ha b hb hab
      have h1 := hmem a (List.mem_of_mem_take ha)
      have h2 := hmem b (List.mem_of_mem_take hb)
      rw [List.getD_eq_getElem _ _ h1, List.getD_eq_getElem _ _ h2] at hab
      exact (List.Nodup.getElem_inj_iff hnd).1 hab
    rw [List.toFinset_card_of_nodup hnd', List.length_map, List.length_take]
    omega
  · intro i hi j hj hjc
    rw [List.mem_map] at hi
    obtain ⟨k, hk, rfl⟩ := hi
    obtain ⟨a, ha, hak⟩ := List.getElem_of_mem hk
    rw [List.length_take] at ha
    rw [List.getElem_take] at hak
    obtain ⟨q, hq, hqj⟩ := List.getElem_of_mem hj
    have hqp : q ∈ perm := hperm.mem_iff.2 (by simpa using hq)
    obtain ⟨b, hb, hbq⟩ := List.getElem_of_mem hqp
    have hmb : m ≤ b := by
      by_contra hc
      apply hjc
      rw [List.mem_map]
      refine ⟨q, ?_, by rw [List.getD_eq_getElem _ _ hq]; exact hqj⟩
      rw [← hbq]
      exact List.mem_take_iff_getElem.2 ⟨b, by omega, rfl⟩
    have hkv := hmem k (List.mem_of_mem_take hk)
    have hk2 : valid.getD k 0 = valid[k] := List.getD_eq_getElem _ _ hkv
    refine hsort a b _ _ (by omega) ?_ ?_
    · rw [List.getElem?_eq_getElem (by omega : a < perm.length), hak, hk2]; simp [hkv]
    · rw [List.getElem?_eq_getElem hb, hbq]; simp [hq, hqj]

open Classical in
theorem selectMetric_step {argsort : List V → List ℕ} (ha : ArgsortOk argsort) (c : Criterion V) (vals : List V)
    (support : List Bool) (h : vals.length = support.length) :
    SelectStep (fun i => vals.getD i 0) c (supp support) (supp (selectMetric argsort c vals support)) := by
  have hb := supp_boundMask c vals support h
  rw [selectMetric_def]
  unfold SelectStep
  cases hs : c.strategy with
  | none => simpa using hb
  | some s =>
    cases ht : c.top with
    | none => simpa using hb
    | some t =>
      simp only
      rw [← hb]
      set s2 := boundMask c vals support with hs2
      set valid := (List.range s2.length).filter fun i => s2.getD i false with hvalid
      have hvnd : valid.Nodup := List.Nodup.filter _ List.nodup_range
      have hvf : valid.toFinset = supp s2 := by
        ext i
        rw [List.mem_toFinset, hvalid, List.mem_filter, List.mem_range]
        unfold supp
        rw [Finset.mem_filter, Finset.mem_range]
      have hcard : valid.length = (supp s2).card := by rw [← hvf, List.toFinset_card_of_nodup hvnd]
      set f : ℕ → V := fun i => vals.getD i 0 with hf
      -- the sorted keys
      obtain ⟨g, hg, hga⟩ : ∃ g : ℕ → V, (∀ i j, g i ≤ g j → AtLeastAsGood s (f i) (f j)) ∧
          argOrder argsort s (valid.map f) = argsort (valid.map g) := by
        cases s with
        | highest => exact ⟨fun i => -f i, fun i j hij => by simpa [AtLeastAsGood] using hij, by simp [argOrder, Function.comp_def]⟩
        | lowest => exact ⟨f, fun i j hij => by simpa [AtLeastAsGood] using hij, rfl⟩
      rw [hga, nSelected_eq, List.length_map]
      have hch := choose_best valid hvnd g _ (ha (valid.map g)) (topNumber t valid.length) (topNumber_le _ _)
      simp only at hch
      set chosen := ((argsort (valid.map g)).take (topNumber t valid.length)).map fun k => valid.getD k 0 with hchosen
      have hT : supp ((List.range s2.length).map fun i => s2.getD i false && chosen.contains i) = chosen.toFinset := by
        ext i
        rw [mem_supp]
        constructor
        · intro hi
          by_cases hlt : i < s2.length
          · rw [List.getD_eq_getElem _ _ (by simpa using hlt)] at hi
            simp at hi
            exact List.mem_toFinset.2 hi.2
          · rw [List.getD_eq_default _ _ (by simp; omega)] at hi
            exact absurd hi (by simp)
        · intro hi
          have h1 : i ∈ supp s2 := hvf ▸ hch.1 hi
          have h2 := mem_supp.1 h1
          have hlt : i < s2.length := by
            unfold supp at h1
            exact Finset.mem_range.1 (Finset.mem_filter.1 h1).1
          rw [List.getD_eq_getElem _ _ (by simpa using hlt)]
          rw [List.mem_toFinset] at hi
          rw [List.getElem_map, List.getElem_range, h2]
          simpa using hi
      rw [hT]
      refine ⟨hvf ▸ hch.1, by rw [hch.2.1, hcard], ?_⟩
      intro i hi j hj hji
      exact hg i j (hch.2.2 i (List.mem_toFinset.1 hi) j (List.mem_toFinset.1 (hvf ▸ hj))
        (fun hc => hji (List.mem_toFinset.2 hc)))

theorem selectMetrics_chain {argsort : List V → List ℕ} (ha : ArgsortOk argsort) (crit : PDict (Criterion V))
    (rows : List (String → V)) : ∀ (ms : List String) (support : List Bool), rows.length = support.length →
      (selectMetrics argsort crit rows ms support).length = support.length ∧
      SelectChain (fun m i => (rows.map fun r => r m).getD i 0) crit.get ms (supp support)
        (supp (selectMetrics argsort crit rows ms support))
  | [], support, _ => by simp [selectMetrics, SelectChain]
  | m :: ms, support, h => by
    simp only [selectMetrics, SelectChain]
    cases hc : crit.get m with
    | none =>
      have := selectMetrics_chain ha crit rows ms support h
      exact ⟨this.1, _, rfl, this.2⟩
    | some c =>
      have hl := selectMetric_length argsort c (rows.map fun r => r m) support (by simpa using h)
      have := selectMetrics_chain ha crit rows ms (selectMetric argsort c (rows.map fun r => r m) support) (by rw [hl, h])
      refine ⟨by rw [this.1, hl], _, selectMetric_step ha c _ support (by simpa using h), this.2⟩

/-! ### consequences of the specification -/

open Classical in
theorem Spec.SelectStep.subset {v : ℕ → V} {c : Criterion V} {S T : Finset ℕ} (h : SelectStep v c S T) :
    T ⊆ S.filter fun i => InBounds c (v i) := by
  unfold SelectStep at h
  split at h
  · exact h.1
  · exact h ▸ Finset.Subset.refl _

open Classical in
theorem Spec.SelectChain.subset {v : String → ℕ → V} {crit : String → Option (Criterion V)} {ms : List String}
    {S T : Finset ℕ} (h : SelectChain v crit ms S T) : T ⊆ S := by
  induction ms generalizing S with
  | nil => exact (show T = S from h) ▸ Finset.Subset.refl _
  | cons m ms ih =>
    obtain ⟨U, hU, hc⟩ := h
    have h1 := ih hc
    cases hm : crit m with
    | none => rw [hm] at hU; exact hU ▸ h1
    | some c =>
      rw [hm] at hU
      exact h1.trans (hU.subset.trans (Finset.filter_subset _ _))

open Classical in
theorem Spec.SelectChain.bounds {v : String → ℕ → V} {crit : String → Option (Criterion V)} {ms : List String}
    {S T : Finset ℕ} (h : SelectChain v crit ms S T) {m : String} (hm : m ∈ ms) {c : Criterion V} (hc : crit m = some c)
    {i : ℕ} (hi : i ∈ T) : InBounds c (v m i) := by
  induction ms generalizing S with
  | nil => simp at hm
  | cons m' ms ih =>
    obtain ⟨U, hU, hch⟩ := h
    by_cases hmm : m = m'
    · subst hmm
      rw [hc] at hU
      exact (Finset.mem_filter.1 (hU.subset (hch.subset hi))).2
    · exact ih hch (by simpa [hmm] using hm)

open Classical in
theorem Spec.SelectChain.top {v : String → ℕ → V} {crit : String → Option (Criterion V)} {ms : List String}
    {S T : Finset ℕ} (h : SelectChain v crit ms S T) {m : String} (hm : m ∈ ms) {c : Criterion V} (hc : crit m = some c)
    {s : Strategy} {t : Top} (hs : c.strategy = some s) (ht : c.top = some t) :
    T.card ≤ topNumber t S.card := by
  induction ms generalizing S with
  | nil => simp at hm
  | cons m' ms ih =>
    obtain ⟨U, hU, hch⟩ := h
    have hUS : U ⊆ S := by
      cases hm' : crit m' with
      | none => rw [hm'] at hU; exact hU ▸ Finset.Subset.refl _
      | some c' => rw [hm'] at hU; exact hU.subset.trans (Finset.filter_subset _ _)
    have hmono : ∀ {a b : ℕ}, a ≤ b → topNumber t a ≤ topNumber t b := by
      intro a b hab
      cases t with
      | count k => simp only [topNumber]; omega
      | frac q =>
        simp only [topNumber]
        by_cases hq : 0 ≤ q
        · have : ⌈((a : ℕ) : ℚ) * q⌉ ≤ ⌈((b : ℕ) : ℚ) * q⌉ :=
            Int.ceil_mono (mul_le_mul_of_nonneg_right (by exact_mod_cast hab) hq)
          omega
        · have h1 : ⌈((a : ℕ) : ℚ) * q⌉ ≤ 0 := by
            rw [Int.ceil_le]
            have : ((a : ℕ) : ℚ) * q ≤ 0 := mul_nonpos_of_nonneg_of_nonpos (by positivity) (by linarith)
            simpa using this
          omega
    by_cases hmm : m = m'
    · subst hmm
      rw [hc] at hU
      simp only [SelectStep, hs, ht] at hU
      have h1 := Finset.card_le_card hch.subset
      rw [hU.2.1] at h1
      exact h1.trans (hmono (Finset.card_filter_le _ _))
    · exact (ih hch (by simpa [hmm] using hm)).trans (hmono (Finset.card_le_card hUS))

open Classical in
/-- Without "top" or "strategy" the selection consists of the variables within all bounds. -/
theorem Spec.SelectChain.exact {v : String → ℕ → V} {crit : String → Option (Criterion V)} {ms : List String}
    {S T : Finset ℕ} (h : SelectChain v crit ms S T)
    (hn : ∀ m c, crit m = some c → c.strategy = none ∨ c.top = none) (i : ℕ) :
    i ∈ T ↔ i ∈ S ∧ ∀ m ∈ ms, ∀ c, crit m = some c → InBounds c (v m i) := by
  induction ms generalizing S with
  | nil => have : T = S := h; simp [this]
  | cons m ms ih =>
    obtain ⟨U, hU, hch⟩ := h
    rw [ih hch]
    cases hm : crit m with
    | none => rw [hm] at hU; subst hU; simp [hm]
    | some c =>
      rw [hm] at hU
      have hUeq : U = S.filter fun i => InBounds c (v m i) := by
        have hU' : SelectStep (v m) c S U := hU
        unfold SelectStep at hU'
        rcases hn m c hm with h0 | h0
        · rw [h0] at hU'; simpa using hU'
        · rw [h0] at hU'; cases hst : c.strategy <;> rw [hst] at hU' <;> simpa using hU'
      subst hUeq
      simp only [Finset.mem_filter, List.mem_cons, forall_eq_or_imp, hm, Option.some.injEq, forall_eq']
      tauto

/-! ### fixed variables -/

theorem fixVariables_spec (names : List String) : ∀ (fs : List String) (s s' : List Bool), s.length = names.length →
    fixVariables names fs s = .ok s' →
      (∀ f ∈ fs, f ∈ names) ∧ s'.length = s.length ∧ ∀ i < names.length, (i ∈ supp s' ↔ i ∈ supp s ∨ ∃ f ∈ fs, i = names.idxOf f)
  | [], s, s', hl, h => by
    simp only [fixVariables, Except.ok.injEq] at h
    subst h; simp
  | f :: fs, s, s', hl, h => by
    simp only [fixVariables] at h
    split at h
    case isFalse => simp at h
    case isTrue hf =>
      have hf' : f ∈ names := by simpa using hf
      obtain ⟨h1, h2, h3⟩ := fixVariables_spec names fs _ s' (by simpa using hl) h
      refine ⟨by simpa [hf'] using h1, by simpa using h2, fun i hi => ?_⟩
      rw [h3 i hi]
      have : i ∈ supp (s.set (names.idxOf f) true) ↔ i ∈ supp s ∨ i = names.idxOf f := by
        rw [mem_supp, mem_supp]
        have hidx : names.idxOf f < s.length := by rw [hl]; exact List.idxOf_lt_length_iff.2 hf'
        rw [List.getD_eq_getElem?_getD, List.getElem?_set]
        by_cases hc : names.idxOf f = i
        · subst hc; simp [hidx]
        · simp [hc, Ne.symm hc, List.getD_eq_getElem?_getD]
      rw [this]
      constructor
      · rintro ((h | h) | ⟨g, hg, h⟩)
        · exact Or.inl h
        · exact Or.inr ⟨f, by simp, h⟩
        · exact Or.inr ⟨g, by simp [hg], h⟩
      · rintro (h | ⟨g, hg, h⟩)
        · exact Or.inl (Or.inl h)
        · rcases List.mem_cons.1 hg with rfl | hg
          · exact Or.inl (Or.inr (by assumption))
          · exact Or.inr ⟨g, hg, (by assumption)⟩

theorem fixVariables_ok (names : List String) : ∀ (fs : List String) (s : List Bool), (∀ f ∈ fs, f ∈ names) →
    ∃ s', fixVariables names fs s = .ok s'
  | [], s, _ => ⟨s, rfl⟩
  | f :: fs, s, h => by
    have hf : names.contains f = true := by simpa using h f (by simp)
    simp only [fixVariables, hf, if_true]
    exact fixVariables_ok names fs _ fun g hg => h g (by simp [hg])

end sel
end OptBinning
