import Verif.Lemmas.Process

/-! # Lemmas on the transformation of data sets -/
set_option linter.unusedSectionVars false
namespace OptBinning
open Spec

section
variable {χ V μ : Type*} [Field V] [LinearOrder V] [IsStrictOrderedRing V] [FloorRing V]

theorem stepArgs_eq (tp : Option (PDict (VParams μ))) (n : String) (a : TArgs μ) :
    stepArgs tp n a = ownArgs a (paramsOf tp n) := by
  unfold stepArgs paramsOf ownArgs
  cases tp with
  | none => rfl
  | some d => cases h : d.get n with
    | none => simp [h]
    | some p => simp [h]

theorem argsSeq_length (tp : Option (PDict (VParams μ))) : ∀ (ns : List String) (a : TArgs μ),
    (argsSeq tp ns a).length = ns.length
  | [], a => rfl
  | n :: ns, a => by simp [argsSeq, argsSeq_length tp ns]

theorem lastGiven_cons {τ : Type*} (p : String → VParams μ) (key : VParams μ → Option τ) (n : String)
    (ns : List String) (dflt : τ) :
    lastGiven p key (n :: ns) dflt = lastGiven p key ns ((key (p n)).getD dflt) := by
  unfold lastGiven
  rw [List.reverse_cons, List.findSome?_append]
  cases (ns.reverse.findSome? fun n => key (p n)) with
  | some v => simp
  | none => cases h : key (p n) <;> simp [h]

theorem argsSeq_getElem? (tp : Option (PDict (VParams μ))) : ∀ (ns : List String) (a : TArgs μ) (j : ℕ), j < ns.length →
    (argsSeq tp ns a)[j]? = some ⟨lastGiven (paramsOf tp) VParams.metric (ns.take (j + 1)) a.metric,
      lastGiven (paramsOf tp) VParams.special (ns.take (j + 1)) a.special, lastGiven (paramsOf tp) VParams.missing (ns.take (j + 1)) a.missing⟩
  | [], a, j, h => by simp at h
  | n :: ns, a, 0, _ => by
    simp only [argsSeq, List.getElem?_cons_zero, stepArgs_eq, List.take_succ_cons, List.take_zero, lastGiven_cons]
    rfl
  | n :: ns, a, j + 1, h => by
    simp only [argsSeq, List.getElem?_cons_succ, List.take_succ_cons, lastGiven_cons]
    rw [argsSeq_getElem? tp ns _ j (by simpa using h), stepArgs_eq]
    rfl

theorem Spec.Uniform.noLeak {p : String → VParams μ} {ns : List String} (h : Uniform p ns) : NoLeak p ns := by
  unfold NoLeak
  rw [List.pairwise_iff_forall_sublist]
  intro a b hab
  exact h a (hab.subset (by simp)) b (hab.subset (by simp))

theorem argsSeq_own_aux (tp : Option (PDict (VParams μ))) (a : TArgs μ) : ∀ (ns : List String) (b : TArgs μ),
    NoLeak (paramsOf tp) ns → (∀ n ∈ ns, ownArgs b (paramsOf tp n) = ownArgs a (paramsOf tp n)) →
    argsSeq tp ns b = ns.map fun n => ownArgs a (paramsOf tp n)
  | [], b, _, _ => rfl
  | n :: ns, b, hl, hb => by
    unfold NoLeak at hl
    rw [List.pairwise_cons] at hl
    simp only [argsSeq, List.map_cons, stepArgs_eq]
    rw [hb n (by simp)]
    congr 1
    refine argsSeq_own_aux tp a ns _ hl.2 fun m hm => ?_
    have h1 := hl.1 m hm
    have h2 := hb n (by simp)
    unfold ownArgs
    congr 1
    · cases hn : (paramsOf tp n).metric with
      | none => simp
      | some v =>
        have := h1.1 (by simp [hn])
        rw [Option.isSome_iff_exists] at this
        obtain ⟨w, hw⟩ := this
        simp [hw]
    · cases hn : (paramsOf tp n).special with
      | none => simp
      | some v =>
        have := h1.2.1 (by simp [hn])
        rw [Option.isSome_iff_exists] at this
        obtain ⟨w, hw⟩ := this
        simp [hw]
    · cases hn : (paramsOf tp n).missing with
      | none => simp
      | some v =>
        have := h1.2.2 (by simp [hn])
        rw [Option.isSome_iff_exists] at this
        obtain ⟨w, hw⟩ := this
        simp [hw]

theorem argsSeq_own (tp : Option (PDict (VParams μ))) (a : TArgs μ) (ns : List String) (h : NoLeak (paramsOf tp) ns) :
    argsSeq tp ns a = ns.map fun n => ownArgs a (paramsOf tp n) :=
  argsSeq_own_aux tp a ns a h fun _ _ => rfl

theorem ownArgs_argsEnd (tp : Option (PDict (VParams μ))) (ns : List String) (hu : Uniform (paramsOf tp) ns) :
    ∀ (l : List String), (∀ n ∈ l, n ∈ ns) → ∀ (a : TArgs μ), ∀ m ∈ ns,
      ownArgs (argsEnd tp l a) (paramsOf tp m) = ownArgs a (paramsOf tp m)
  | [], _, a, m, _ => rfl
  | n :: l, hl, a, m, hm => by
    have hstep : argsEnd tp (n :: l) a = argsEnd tp l (stepArgs tp n a) := rfl
    rw [hstep, ownArgs_argsEnd tp ns hu l (fun k hk => hl k (by simp [hk])) _ m hm, stepArgs_eq]
    have h1 := hu n (hl n (by simp)) m hm
    unfold ownArgs
    congr 1
    · cases hn : (paramsOf tp n).metric with
      | none => simp
      | some v =>
        have := h1.1 (by simp [hn])
        rw [Option.isSome_iff_exists] at this
        obtain ⟨w, hw⟩ := this
        simp [hw]
    · cases hn : (paramsOf tp n).special with
      | none => simp
      | some v =>
        have := h1.2.1 (by simp [hn])
        rw [Option.isSome_iff_exists] at this
        obtain ⟨w, hw⟩ := this
        simp [hw]
    · cases hn : (paramsOf tp n).missing with
      | none => simp
      | some v =>
        have := h1.2.2 (by simp [hn])
        rw [Option.isSome_iff_exists] at this
        obtain ⟨w, hw⟩ := this
        simp [hw]

theorem argsSeq_argsEnd (tp : Option (PDict (VParams μ))) (a : TArgs μ) (ns : List String) (hu : Uniform (paramsOf tp) ns) :
    argsSeq tp ns (argsEnd tp ns a) = argsSeq tp ns a := by
  rw [argsSeq_own tp a ns hu.noLeak]
  exact argsSeq_own_aux tp a ns _ hu.noLeak fun n hn => ownArgs_argsEnd tp ns hu ns (fun _ h => h) a n hn

/-! ### storing -/

theorem mapM_except_ok {β γ : Type*} {f : β → Except String γ} {g : β → γ} : ∀ (l : List β), (∀ x ∈ l, f x = .ok (g x)) →
    l.mapM f = .ok (l.map g)
  | [], _ => rfl
  | x :: l, h => by
    rw [List.mapM_cons, h x (by simp), mapM_except_ok l fun y hy => h y (by simp [hy])]
    rfl

theorem mapM_except_forall₂ {β γ : Type*} {f : β → Except String γ} : ∀ (l : List β) (r : List γ), l.mapM f = .ok r →
    List.Forall₂ (fun x y => f x = .ok y) l r
  | [], r, h => by
    rw [List.mapM_nil] at h
    have : r = [] := by injection h with h; exact h.symm
    subst this; exact .nil
  | x :: l, r, h => by
    rw [List.mapM_cons] at h
    cases hx : f x with
    | error e => rw [hx] at h; exact absurd h (by simp [bind, Except.bind])
    | ok y =>
      rw [hx] at h
      cases hl : l.mapM f with
      | error e => rw [hl] at h; exact absurd h (by simp [bind, Except.bind])
      | ok ys =>
        rw [hl] at h
        have : r = y :: ys := by
          simp only [bind, Except.bind, pure, Except.pure, Except.ok.injEq] at h
          exact h.symm
        subst this
        exact .cons hx (mapM_except_forall₂ l ys hl)

/-- The result of one column of `transformCols`. -/
def ColResult (cfg : ProcCfg V μ) (st : ProcState χ V μ) (X : Frame χ) (base : Option String) (p : ℕ × TArgs μ)
    (c : List (OutCell V)) : Prop :=
  ∃ ob x, st.binned.get (cfg.names.getD p.1 "") = some ob ∧ X.col p.1 (cfg.names.getD p.1 "") = .ok x ∧
    procCol base (x.map (ob.transform p.2)) = .ok c

theorem transformCols_iff (cfg : ProcCfg V μ) (st : ProcState χ V μ) (X : Frame χ) (base : Option String) :
    ∀ (l : List (ℕ × TArgs μ)) (cs : List (List (OutCell V))),
      transformCols cfg st X base l = .ok cs ↔ List.Forall₂ (ColResult cfg st X base) l cs
  | [], cs => by
    simp only [transformCols, Except.ok.injEq]
    constructor
    · rintro rfl; exact .nil
    · intro h; cases h; rfl
  | (i, a) :: l, cs => by
    constructor
    · intro h
      simp only [transformCols] at h
      cases h1 : st.binned.get (cfg.names.getD i "") with
      | none => rw [h1] at h; simp at h
      | some ob =>
        rw [h1] at h; simp only at h
        cases h2 : X.col i (cfg.names.getD i "") with
        | error e => rw [h2] at h; simp at h
        | ok x =>
          rw [h2] at h; simp only at h
          cases h3 : procCol base (x.map (ob.transform a)) with
          | error e => rw [h3] at h; simp at h
          | ok c =>
            rw [h3] at h; simp only at h
            cases h4 : transformCols cfg st X base l with
            | error e => rw [h4] at h; simp at h
            | ok cs' =>
              rw [h4] at h
              simp only [Except.ok.injEq] at h
              subst h
              exact .cons ⟨ob, x, h1, h2, h3⟩ ((transformCols_iff cfg st X base l cs').1 h4)
    · intro h
      cases h with
      | @cons _ c _ cs' hc ht =>
        obtain ⟨ob, x, h1, h2, h3⟩ := hc
        simp only [transformCols, h1, h2, h3, (transformCols_iff cfg st X base l cs').2 ht]

/-- The values returned by a binning object have the type announced by the metric. -/
def BinObj.WellTyped (ob : BinObj χ V μ) : Prop :=
  ∀ a x, (a.metric = some "bins" → ∃ s, ob.transform a x = .str s) ∧
    (a.metric ≠ some "bins" → ∃ v, ob.transform a x = .num v) ∧
    (a.metric = some "indices" → ∃ z : ℤ, ob.transform a x = .num (z : V))

theorem truncV_intCast (z : ℤ) : truncV ((z : ℤ) : V) = z := by
  unfold truncV; split <;> simp

/-- Cells are stored unchanged if the type of the array suits the metric of the column. -/
theorem procCell_exact {ob : BinObj χ V μ} (hw : ob.WellTyped) {base : Option String} {a : TArgs μ}
    (h1 : base = some "indices" → a.metric = some "indices") (h2 : a.metric = some "bins" → base = some "bins") (x : χ) :
    procCell base (ob.transform a x) = .ok (ob.transform a x) := by
  obtain ⟨w1, w2, w3⟩ := hw a x
  by_cases hb : a.metric = some "bins"
  · obtain ⟨s, hs⟩ := w1 hb
    rw [hs]; simp [procCell, h2 hb]
  · by_cases hi : base = some "indices"
    · obtain ⟨z, hz⟩ := w3 (h1 hi)
      rw [hz]; simp [procCell, hi, truncV_intCast]
    · obtain ⟨v, hv⟩ := w2 hb
      rw [hv]; simp [procCell, hi]

/-- The base metric suits all columns: what `baseMetric` guarantees. -/
theorem baseMetric_bins {metric : Option String} {tp : Option (PDict (VParams μ))} {sel : List String}
    {base : Option String} (h : baseMetric metric tp sel = .ok base) {n : String} (hn : n ∈ sel)
    (hb : (paramsOf tp n).metric.getD metric = some "bins") : base = some "bins" := by
  unfold baseMetric at h
  cases tp with
  | none =>
    simp only [Except.ok.injEq] at h
    simpa [paramsOf, ← h] using hb
  | some d =>
    simp only at h
    have hval : (((d.get n).bind VParams.metric).getD metric) = some "bins" := by
      rw [← hb]; unfold paramsOf
      cases hd : d.get n <;> simp [hd]
    set ms := (if metric.isSome then [metric] else []) ++ sel.map fun n => (((d.get n).bind VParams.metric).getD metric)
    have hmem : some "bins" ∈ ms := by
      simp only [ms]
      exact List.mem_append_right _ (List.mem_map.2 ⟨n, hn, hval⟩)
    by_cases hlen : ms.dedup.length > 1
    · rw [if_pos hlen, if_pos (by simpa using hmem)] at h; simp at h
    · rw [if_neg hlen] at h
      simp only [Except.ok.injEq] at h
      have hd1 : ms.dedup.length ≤ 1 := by omega
      have hm2 : some "bins" ∈ ms.dedup := List.mem_dedup.2 hmem
      cases hms : ms with
      | nil => rw [hms] at hmem; simp at hmem
      | cons y ys =>
        have hy : y ∈ ms.dedup := List.mem_dedup.2 (by rw [hms]; simp)
        obtain ⟨z, hz⟩ := List.length_eq_one_iff.1 (by
          have := List.length_pos_of_mem hm2; omega : ms.dedup.length = 1)
        rw [hz, List.mem_singleton] at hy hm2
        rw [← h, hms]
        simp [hy, hm2]

theorem baseMetric_eq_of_all {metric : Option String} {tp : Option (PDict (VParams μ))} {sel : List String}
    {base : Option String} (h : baseMetric metric tp sel = .ok base) (hi : base = some "indices")
    (hm : metric ≠ some "indices") {n : String} (hn : n ∈ sel) : (paramsOf tp n).metric.getD metric = some "indices" := by
  unfold baseMetric at h
  cases tp with
  | none =>
    simp only [Except.ok.injEq] at h
    exact absurd (h.trans hi) hm
  | some d =>
    simp only at h
    have hval : (((d.get n).bind VParams.metric).getD metric) = (paramsOf (some d) n).metric.getD metric := by
      unfold paramsOf
      cases hd : d.get n <;> simp [hd]
    set ms := (if metric.isSome then [metric] else []) ++ sel.map fun n => (((d.get n).bind VParams.metric).getD metric)
    have hmem : (paramsOf (some d) n).metric.getD metric ∈ ms := by
      simp only [ms]
      exact List.mem_append_right _ (List.mem_map.2 ⟨n, hn, hval⟩)
    by_cases hlen : ms.dedup.length > 1
    · rw [if_pos hlen] at h
      by_cases hbins : ms.contains (some "bins") = true
      · rw [if_pos hbins] at h; simp at h
      · rw [if_neg hbins] at h
        simp only [Except.ok.injEq] at h
        exact absurd (h.trans hi) hm
    · rw [if_neg hlen] at h
      simp only [Except.ok.injEq] at h
      have hm2 := List.mem_dedup.2 hmem
      cases hms : ms with
      | nil => rw [hms] at hmem; simp at hmem
      | cons y ys =>
        have hy : y ∈ ms.dedup := List.mem_dedup.2 (by rw [hms]; simp)
        obtain ⟨z, hz⟩ := List.length_eq_one_iff.1 (by
          have := List.length_pos_of_mem hm2; omega : ms.dedup.length = 1)
        rw [hz, List.mem_singleton] at hy hm2
        rw [hms] at h
        simp only [List.headD_cons] at h
        rw [hm2, ← hy, h, hi]

/-! ### chunks -/

theorem forall₂_colResult_exact {cfg : ProcCfg V μ} {st : ProcState χ V μ} {X : Frame χ} {base : Option String}
    {l : List (ℕ × TArgs μ)} {f : ℕ × TArgs μ → List (OutCell V)}
    (h : ∀ p ∈ l, ColResult cfg st X base p (f p)) : List.Forall₂ (ColResult cfg st X base) l (l.map f) := by
  rw [List.forall₂_map_right_iff]
  exact List.forall₂_same.2 h

/-- The rows of a chunk whose columns are computed record by record. -/
theorem rowsOfCols_map {ι : Type*} (chunk : List (DiskRow χ)) (l : List ι) (f : ι → DiskRow χ → OutCell V) :
    rowsOfCols chunk.length (l.map fun p => chunk.map (f p)) = chunk.map fun r => l.map fun p => f p r := by
  unfold rowsOfCols
  apply List.ext_getElem (by simp)
  intro i h1 h2
  have hi : i < chunk.length := by simpa using h2
  rw [List.getElem_map, List.getElem_range, List.getElem_map, List.map_map]
  apply List.map_congr_left
  intro p _
  show (chunk.map (f p)).getD i _ = _
  rw [List.getD_eq_getElem _ _ (by simpa using hi), List.getElem_map]

end
end OptBinning
