import Verif.Lemmas.ProcessTransform
import Verif.Props.ProcessSelect

/-!
# C64, C65 — `BinningProcess.transform` and `transform_disk`

Every selected variable should give one column, computed by its own binning object with its own parameters
(`binning_transform_params`), otherwise with those of the call; the result of `transform_disk` should not depend on
`chunksize`.
-/
set_option linter.unusedSectionVars false
namespace OptBinning
open Spec

section
variable {χ V μ : Type*} [Field V] [LinearOrder V] [IsStrictOrderedRing V] [FloorRing V]

/-- A fitted process: one mask entry and one (well typed) object per variable. -/
structure Ready (cfg : ProcCfg V μ) (st : ProcState χ V μ) : Prop where
  support : st.support.length = cfg.names.length
  objects : ∀ n ∈ cfg.names, ∃ ob, st.binned.get n = some ob ∧ ob.WellTyped

variable {cfg : ProcCfg V μ} {st : ProcState χ V μ} {X : Frame χ} {a : TArgs μ} {out : TOut V}

/-- Columns that request an integer array are all columns of bin indices. -/
def NotMixed (a : TArgs μ) (p : String → VParams μ) (sel : List String) : Prop :=
  a.metric = some "indices" → ∀ n ∈ sel, (p n).metric.getD a.metric = some "indices"

theorem indices_lt {i : ℕ} (h : i ∈ st.indices) : i < st.support.length := by
  unfold ProcState.indices at h
  exact List.mem_range.1 (List.mem_filter.1 h).1

theorem selectedNames_getElem? (j : ℕ) : (st.selectedNames cfg)[j]? = st.indices[j]?.map fun i => cfg.names.getD i "" := by
  simp [ProcState.selectedNames]

theorem selectedNames_mem (hr : Ready cfg st) {n : String} (hn : n ∈ st.selectedNames cfg) : n ∈ cfg.names := by
  unfold ProcState.selectedNames at hn
  obtain ⟨i, hi, rfl⟩ := List.mem_map.1 hn
  have := indices_lt hi
  rw [hr.support] at this
  rw [List.getD_eq_getElem _ _ this]
  exact List.getElem_mem this

theorem procTransform_parts (h : procTransform cfg st X a = .ok out) (hne : st.indices ≠ []) :
    ∃ base, baseMetric a.metric cfg.tparams (st.selectedNames cfg) = .ok base ∧
      List.Forall₂ (ColResult cfg st X base) (st.indices.zip (argsSeq cfg.tparams (st.selectedNames cfg) a)) out.cols ∧
      out.header = X.header (st.selectedNames cfg) := by
  unfold procTransform at h
  rw [if_neg hne] at h
  by_cases h1 : X.hasColumns cfg st = false
  · rw [if_pos h1] at h; simp at h
  · rw [if_neg h1] at h
    by_cases h2 : pwRejected st a.metric = true
    · rw [if_pos h2] at h; simp at h
    · rw [if_neg h2] at h
      cases h3 : baseMetric a.metric cfg.tparams (st.selectedNames cfg) with
      | error e => rw [h3] at h; simp at h
      | ok base =>
        rw [h3] at h
        simp only at h
        cases h4 : transformCols cfg st X base (st.indices.zip (argsSeq cfg.tparams (st.selectedNames cfg) a)) with
        | error e => rw [h4] at h; simp at h
        | ok cols =>
          rw [h4] at h
          simp only [Except.ok.injEq] at h
          subst h
          exact ⟨base, rfl, (transformCols_iff cfg st X base _ _).1 h4, rfl⟩

/-- One column, for the arguments `b` it was computed with. -/
theorem column_of (h : procTransform cfg st X a = .ok out) {j i : ℕ} {n : String} {ob : BinObj χ V μ} {x : List χ}
    {b : TArgs μ} (hi : st.indices[j]? = some i) (hn : (st.selectedNames cfg)[j]? = some n)
    (hob : st.binned.get n = some ob) (hx : X.col i n = .ok x)
    (hb : (argsSeq cfg.tparams (st.selectedNames cfg) a)[j]? = some b) :
    ∃ base c, baseMetric a.metric cfg.tparams (st.selectedNames cfg) = .ok base ∧ out.cols[j]? = some c ∧
      procCol base (x.map (ob.transform b)) = .ok c := by
  have hne : st.indices ≠ [] := by intro hc; rw [hc] at hi; simp at hi
  obtain ⟨base, hbase, hcols, _⟩ := procTransform_parts h hne
  rw [selectedNames_getElem?, hi] at hn
  simp only [Option.map_some, Option.some.injEq] at hn
  have hz : (st.indices.zip (argsSeq cfg.tparams (st.selectedNames cfg) a))[j]? = some (i, b) := by
    rw [List.getElem?_zip_eq_some]; exact ⟨hi, hb⟩
  obtain ⟨hj, hje⟩ := List.getElem?_eq_some_iff.1 hz
  have hlen := hcols.length_eq
  have hj' : j < out.cols.length := hlen ▸ hj
  have hr := List.Forall₂.get hcols hj hj'
  simp only [List.get_eq_getElem, hje] at hr
  obtain ⟨ob', x', h1, h2, h3⟩ := hr
  simp only [hn] at h1 h2
  rw [hob] at h1
  rw [hx] at h2
  obtain rfl := Option.some.inj h1
  injection h2 with h2
  subst h2
  exact ⟨base, out.cols[j], hbase, List.getElem?_eq_getElem hj', h3⟩

theorem procCol_exact {ob : BinObj χ V μ} (hw : ob.WellTyped) {base : Option String} {b : TArgs μ}
    (h1 : base = some "indices" → b.metric = some "indices") (h2 : b.metric = some "bins" → base = some "bins")
    (x : List χ) : procCol base (x.map (ob.transform b)) = .ok (x.map (ob.transform b)) := by
  unfold procCol
  have := mapM_except_ok (f := procCell base) (g := id) (x.map (ob.transform b)) (by
    intro y hy
    obtain ⟨z, _, rfl⟩ := List.mem_map.1 hy
    exact procCell_exact hw h1 h2 z)
  simpa using this

/-- One column per selected variable, in the order of `variable_names`; a data frame is labelled with their names. -/
theorem C64_shape (hne : ∃ i : ℕ, st.support[i]? = some true) (h : procTransform cfg st X a = .ok out) :
    out.cols.length = (st.selectedNames cfg).length ∧
      (∀ cols, X = .df cols → out.header = some (st.selectedNames cfg)) ∧
      st.indices.Pairwise (· < ·) ∧ ∀ i, i ∈ st.indices ↔ st.support[i]? = some true := by
  have hmem : ∀ i, i ∈ st.indices ↔ st.support[i]? = some true := by
    intro i
    unfold ProcState.indices
    rw [List.mem_filter, List.mem_range, List.getD_eq_getElem?_getD]
    constructor
    · rintro ⟨hi, hs⟩
      rw [List.getElem?_eq_getElem hi] at hs ⊢
      simpa using hs
    · intro hs
      obtain ⟨hi, _⟩ := List.getElem?_eq_some_iff.1 hs
      exact ⟨hi, by rw [hs]; rfl⟩
  have hne' : st.indices ≠ [] := by
    obtain ⟨i, hi⟩ := hne
    intro hc
    have := (hmem i).2 hi
    rw [hc] at this; simp at this
  obtain ⟨base, _, hcols, hh⟩ := procTransform_parts h hne'
  refine ⟨?_, fun cols hX => by rw [hh, hX]; rfl, ?_, hmem⟩
  · rw [← hcols.length_eq]
    simp [argsSeq_length, ProcState.selectedNames]
  · unfold ProcState.indices
    exact List.Pairwise.filter _ (List.pairwise_lt_range)

/-- The documented behaviour: column `j` is the `j`-th selected variable, transformed by its own object with its own
parameters, otherwise with those of the call — provided that a parameter given for a variable is also given for the
selected variables after it, and that bin indices are not mixed with other metrics. -/
theorem C64_columns_partial (hr : Ready cfg st) (hleak : NoLeak (paramsOf cfg.tparams) (st.selectedNames cfg))
    (hmix : NotMixed a (paramsOf cfg.tparams) (st.selectedNames cfg))
    (h : procTransform cfg st X a = .ok out) {j i : ℕ} {n : String} {ob : BinObj χ V μ} {x : List χ}
    (hi : st.indices[j]? = some i) (hn : (st.selectedNames cfg)[j]? = some n) (hob : st.binned.get n = some ob)
    (hx : X.col i n = .ok x) :
    out.cols[j]? = some (x.map (ob.transform (ownArgs a (paramsOf cfg.tparams n)))) := by
  have hargs : (argsSeq cfg.tparams (st.selectedNames cfg) a)[j]? = some (ownArgs a (paramsOf cfg.tparams n)) := by
    rw [argsSeq_own _ _ _ hleak, List.getElem?_map, hn]; rfl
  obtain ⟨base, c, hb, hc, hs⟩ := column_of h hi hn hob hx hargs
  have hnm : n ∈ st.selectedNames cfg := List.mem_of_getElem? hn
  obtain ⟨ob', ho, hw⟩ := hr.objects n (selectedNames_mem hr hnm)
  rw [hob] at ho
  obtain rfl := Option.some.inj ho
  rw [procCol_exact hw ?_ ?_ x] at hs
  · injection hs with hs
    rw [hc, hs]
  · intro hbi
    by_cases hm : a.metric = some "indices"
    · exact hmix hm n hnm
    · exact baseMetric_eq_of_all hb hbi hm hnm
  · exact fun hbin => baseMetric_bins hb hnm hbin

/-- Without `binning_transform_params` every column is transformed with the arguments of the call. -/
theorem C64_columns_default (hr : Ready cfg st) (htp : cfg.tparams = none)
    (h : procTransform cfg st X a = .ok out) {j i : ℕ} {n : String} {ob : BinObj χ V μ} {x : List χ}
    (hi : st.indices[j]? = some i) (hn : (st.selectedNames cfg)[j]? = some n) (hob : st.binned.get n = some ob)
    (hx : X.col i n = .ok x) : out.cols[j]? = some (x.map (ob.transform a)) := by
  have hp : paramsOf cfg.tparams = fun _ => {} := by funext m; simp [paramsOf, htp]
  have := C64_columns_partial (a := a) hr (by rw [hp]; exact List.pairwise_of_forall (fun _ _ => by simp))
    (by intro hm m _; rw [hp]; simpa using hm) h hi hn hob hx
  rw [hp] at this
  exact this

theorem lastGiven_own (p : String → VParams μ) (dflt : Option String) (ns : List String) :
    lastGiven p VParams.metric ns dflt = dflt ∧ (∀ n ∈ ns, (p n).metric = none) ∨
      ∃ n ∈ ns, (p n).metric = some (lastGiven p VParams.metric ns dflt) := by
  unfold lastGiven
  cases hf : ns.reverse.findSome? fun n => (p n).metric with
  | none =>
    rw [List.findSome?_eq_none_iff] at hf
    exact Or.inl ⟨rfl, fun n hn => hf n (List.mem_reverse.2 hn)⟩
  | some v =>
    obtain ⟨n, hn, hv⟩ := List.exists_of_findSome?_eq_some hf
    exact Or.inr ⟨n, List.mem_reverse.1 hn, by simpa using hv⟩

/-- The actual behaviour: a parameter that is not given for a variable is taken from the last selected variable before it
for which it is given. -/
theorem C64_actual_args (hr : Ready cfg st)
    (hmix : a.metric ≠ some "indices" ∧ ∃ n ∈ st.selectedNames cfg,
      (paramsOf cfg.tparams n).metric.getD a.metric ≠ some "indices")
    (h : procTransform cfg st X a = .ok out) {j i : ℕ} {n : String} {ob : BinObj χ V μ} {x : List χ}
    (hi : st.indices[j]? = some i) (hn : (st.selectedNames cfg)[j]? = some n) (hob : st.binned.get n = some ob)
    (hx : X.col i n = .ok x) :
    out.cols[j]? = some (x.map (ob.transform
      ⟨lastGiven (paramsOf cfg.tparams) VParams.metric ((st.selectedNames cfg).take (j + 1)) a.metric,
       lastGiven (paramsOf cfg.tparams) VParams.special ((st.selectedNames cfg).take (j + 1)) a.special,
       lastGiven (paramsOf cfg.tparams) VParams.missing ((st.selectedNames cfg).take (j + 1)) a.missing⟩)) := by
  have hjl : j < (st.selectedNames cfg).length := by
    obtain ⟨hj, _⟩ := List.getElem?_eq_some_iff.1 hn
    exact hj
  obtain ⟨base, c, hb, hc, hs⟩ := column_of h hi hn hob hx (argsSeq_getElem? cfg.tparams _ a j hjl)
  have hnm : n ∈ st.selectedNames cfg := List.mem_of_getElem? hn
  obtain ⟨ob', ho, hw⟩ := hr.objects n (selectedNames_mem hr hnm)
  rw [hob] at ho
  obtain rfl := Option.some.inj ho
  rw [procCol_exact hw ?_ ?_ x] at hs
  · injection hs with hs
    rw [hc, hs]
  · intro hbi
    obtain ⟨m, hm, hne⟩ := hmix.2
    exact absurd (baseMetric_eq_of_all hb hbi hmix.1 hm) hne
  · intro hbin
    simp only at hbin
    have hnt : n ∈ (st.selectedNames cfg).take (j + 1) := by
      rw [List.mem_take_iff_getElem]
      obtain ⟨hj, he⟩ := List.getElem?_eq_some_iff.1 hn
      exact ⟨j, by omega, he⟩
    rcases lastGiven_own (paramsOf cfg.tparams) a.metric ((st.selectedNames cfg).take (j + 1)) with ⟨h1, h2⟩ | ⟨m, hm, h1⟩
    · rw [hbin] at h1
      refine baseMetric_bins hb hnm ?_
      rw [h2 n hnt, ← h1]; rfl
    · rw [hbin] at h1
      refine baseMetric_bins hb (List.mem_of_mem_take hm) ?_
      rw [h1]; rfl

/-- If the metric of the call is "indices" and a variable has another metric of its own, its values are truncated to
integers. -/
theorem C64_mixed_indices_truncated (hr : Ready cfg st) (hleak : NoLeak (paramsOf cfg.tparams) (st.selectedNames cfg))
    (hm : a.metric = some "indices") (h : procTransform cfg st X a = .ok out) {j i : ℕ} {n : String} {ob : BinObj χ V μ}
    {x : List χ} (hi : st.indices[j]? = some i) (hn : (st.selectedNames cfg)[j]? = some n)
    (hob : st.binned.get n = some ob) (hx : X.col i n = .ok x)
    (hown : (paramsOf cfg.tparams n).metric.getD a.metric ≠ some "indices") {r : ℕ} {y : χ} {v : V} (hy : x[r]? = some y)
    (hv : ob.transform (ownArgs a (paramsOf cfg.tparams n)) y = .num v) :
    out.cols[j]?.bind (fun c : List (OutCell V) => c[r]?) = some (.num (if 0 ≤ v then ((⌊v⌋ : ℤ) : V) else ((⌈v⌉ : ℤ) : V))) := by
  have hargs : (argsSeq cfg.tparams (st.selectedNames cfg) a)[j]? = some (ownArgs a (paramsOf cfg.tparams n)) := by
    rw [argsSeq_own _ _ _ hleak, List.getElem?_map, hn]; rfl
  obtain ⟨base, c, hb, hc, hs⟩ := column_of h hi hn hob hx hargs
  have hnm : n ∈ st.selectedNames cfg := List.mem_of_getElem? hn
  have hbase : base = some "indices" := by
    unfold baseMetric at hb
    cases htp : cfg.tparams with
    | none => rw [htp] at hown; exact absurd (by simpa [paramsOf] using hm) hown
    | some d =>
      rw [htp] at hb
      simp only [hm, Option.isSome_some, if_true] at hb
      set ms := [some "indices"] ++ (st.selectedNames cfg).map fun n => (((d.get n).bind VParams.metric).getD (some "indices"))
      have hval : (((d.get n).bind VParams.metric).getD (some "indices")) ≠ some "indices" := by
        rw [htp, hm] at hown
        unfold paramsOf at hown
        cases hd : d.get n <;> simp_all
      have hlen : ms.dedup.length > 1 := by
        have h1 : some "indices" ∈ ms.dedup := List.mem_dedup.2 (by simp [ms])
        have h2 : (((d.get n).bind VParams.metric).getD (some "indices")) ∈ ms.dedup :=
          List.mem_dedup.2 (List.mem_append_right _ (List.mem_map.2 ⟨n, hnm, rfl⟩))
        by_contra hc'
        obtain ⟨z, hz⟩ := List.length_eq_one_iff.1 (by
          have := List.length_pos_of_mem h1; omega : ms.dedup.length = 1)
        rw [hz, List.mem_singleton] at h1 h2
        exact hval (h2.trans h1.symm)
      rw [if_pos hlen] at hb
      split at hb
      · simp at hb
      · simp only [Except.ok.injEq] at hb; exact hb.symm
  have hf := mapM_except_forall₂ _ _ hs
  obtain ⟨hrl, hry⟩ := List.getElem?_eq_some_iff.1 hy
  have hl : c.length = x.length := by rw [← hf.length_eq]; simp
  have := List.Forall₂.get hf (i := r) (by simpa using hrl) (by omega)
  simp only [List.get_eq_getElem, List.getElem_map, hry, hv] at this
  rw [hc]
  simp only [Option.bind_some]
  rw [List.getElem?_eq_getElem (by omega)]
  simp only [procCell, hbase, if_true, Except.ok.injEq, truncV] at this
  rw [← this]
  split <;> rfl

/-- If no variable is selected the result has no columns. -/
theorem C64_nothing_selected (hne : ∀ i : ℕ, st.support[i]? ≠ some true) : procTransform cfg st X a = .ok ⟨none, []⟩ := by
  have : st.indices = [] := by
    unfold ProcState.indices
    rw [List.filter_eq_nil_iff]
    intro i hi hs
    rw [List.mem_range] at hi
    apply hne i
    rw [List.getElem?_eq_getElem hi]
    rw [List.getD_eq_getElem _ _ hi] at hs
    rw [hs]
  unfold procTransform
  rw [if_pos this]

/-! ### transform_disk -/

/-- The cells that the record `r` should give. -/
def rowExpected (st : ProcState χ V μ) (p : String → VParams μ) (a : TArgs μ) (sel : List String) (r : DiskRow χ) :
    List (OutCell V) :=
  sel.map fun n => match st.binned.get n with
    | some ob => ob.transform (ownArgs a (p n)) (r n)
    | none => .str ""

theorem get_map_df (f : String → List χ) : ∀ (sel : List String) (n : String), n ∈ sel →
    PDict.get (sel.map fun n => (n, f n)) n = some (f n)
  | [], n, h => by simp at h
  | m :: sel, n, h => by
    by_cases hmn : m = n
    · subst hmn; simp [PDict.get]
    · have hn : n ∈ sel := by
        rcases List.mem_cons.1 h with h | h
        · exact absurd h.symm hmn
        · exact h
      have hmn' : (m == n) = false := by simp [hmn]
      have := get_map_df f sel n hn
      unfold PDict.get at this ⊢
      simpa [List.find?_cons, hmn'] using this

theorem diskChunk_rows (hr : Ready cfg st) (hu : Uniform (paramsOf cfg.tparams) (st.selectedNames cfg))
    (hmix : NotMixed a (paramsOf cfg.tparams) (st.selectedNames cfg)) {base : Option String}
    (hbase : baseMetric a.metric cfg.tparams (st.selectedNames cfg) = .ok base) (chunk : List (DiskRow χ)) (b : TArgs μ)
    (hb : argsSeq cfg.tparams (st.selectedNames cfg) b = argsSeq cfg.tparams (st.selectedNames cfg) a) :
    ∃ cols, diskChunk cfg st base chunk b = .ok (cols, argsEnd cfg.tparams (st.selectedNames cfg) b) ∧
      rowsOfCols chunk.length cols = chunk.map (rowExpected st (paramsOf cfg.tparams) a (st.selectedNames cfg)) := by
  set sel := st.selectedNames cfg with hsel
  set p := paramsOf cfg.tparams with hp
  let f : ℕ × TArgs μ → DiskRow χ → OutCell V := fun q r =>
    match st.binned.get (cfg.names.getD q.1 "") with
    | some ob => ob.transform q.2 (r (cfg.names.getD q.1 ""))
    | none => .str ""
  have hcols : transformCols cfg st (.df (sel.map fun n => (n, chunk.map fun r => r n))) base
      (st.indices.zip (argsSeq cfg.tparams sel b)) =
      .ok ((st.indices.zip (argsSeq cfg.tparams sel b)).map fun q => chunk.map (f q)) := by
    rw [transformCols_iff]
    refine forall₂_colResult_exact fun q hq => ?_
    rw [hb, argsSeq_own _ _ _ hu.noLeak] at hq
    obtain ⟨j, hj, hje⟩ := List.getElem_of_mem hq
    have hq1 : (st.indices.zip (sel.map fun n => ownArgs a (p n)))[j]? = some q := by
      rw [List.getElem?_eq_getElem hj, hje]
    rw [List.getElem?_zip_eq_some] at hq1
    obtain ⟨hi, hb2⟩ := hq1
    have hn : sel[j]? = some (cfg.names.getD q.1 "") := by rw [hsel, selectedNames_getElem?, hi]; rfl
    rw [List.getElem?_map, hn] at hb2
    simp only [Option.map_some, Option.some.injEq] at hb2
    have hnm := List.mem_of_getElem? hn
    obtain ⟨ob, ho, hw⟩ := hr.objects _ (selectedNames_mem hr hnm)
    refine ⟨ob, chunk.map fun r => r (cfg.names.getD q.1 ""), ho, ?_, ?_⟩
    · simp only [Frame.col]
      rw [get_map_df (fun n => chunk.map fun r => r n) sel _ hnm]
    · rw [← hb2, procCol_exact hw ?_ ?_]
      · congr 1
        rw [List.map_map]
        apply List.map_congr_left
        intro r _
        simp only [Function.comp_apply, f, ho, ← hb2]
      · intro hbi
        by_cases hm : a.metric = some "indices"
        · exact hmix hm _ hnm
        · exact baseMetric_eq_of_all hbase hbi hm hnm
      · exact fun hbin => baseMetric_bins hbase hnm hbin
  refine ⟨_, by unfold diskChunk; rw [← hsel, hcols], ?_⟩
  rw [rowsOfCols_map chunk (st.indices.zip (argsSeq cfg.tparams sel b)) f]
  apply List.map_congr_left
  intro r _
  rw [hb, argsSeq_own _ _ _ hu.noLeak]
  unfold rowExpected
  have hz : st.indices.zip (sel.map fun n => ownArgs a (p n)) =
      st.indices.map fun i => (i, ownArgs a (p (cfg.names.getD i ""))) := by
    rw [hsel]
    unfold ProcState.selectedNames
    rw [List.map_map]
    apply List.ext_getElem (by simp)
    intro k h1 h2
    simp
  rw [← hp, hz, hsel]
  unfold ProcState.selectedNames
  rw [List.map_map, List.map_map]
  rfl

theorem diskLoop_rows (hr : Ready cfg st) (hu : Uniform (paramsOf cfg.tparams) (st.selectedNames cfg))
    (hmix : NotMixed a (paramsOf cfg.tparams) (st.selectedNames cfg)) {base : Option String}
    (hbase : baseMetric a.metric cfg.tparams (st.selectedNames cfg) = .ok base) : ∀ (chunks : List (List (DiskRow χ)))
    (b : TArgs μ), argsSeq cfg.tparams (st.selectedNames cfg) b = argsSeq cfg.tparams (st.selectedNames cfg) a →
    diskLoop cfg st base chunks b =
      .ok (chunks.flatten.map (rowExpected st (paramsOf cfg.tparams) a (st.selectedNames cfg)))
  | [], b, _ => rfl
  | ch :: chs, b, hb => by
    obtain ⟨cols, h1, h2⟩ := diskChunk_rows hr hu hmix hbase ch b hb
    simp only [diskLoop, h1]
    rw [diskLoop_rows hr hu hmix hbase chs _ (by rw [argsSeq_argsEnd _ _ _ hu, hb]), h2]
    simp

theorem flatten_toChunks {β : Type*} (n : ℕ) (l : List β) : (l.toChunks n).flatten = l := by
  cases n with
  | zero => cases l <;> simp [List.toChunks]
  | succ n =>
    cases l with
    | nil => simp [List.toChunks]
    | cons x xs =>
      have key : ∀ (xs : List β) (acc₁ : Array β) (acc₂ : Array (List β)),
          (List.toChunks.go (n + 1) xs acc₁ acc₂).flatten = acc₂.toList.flatten ++ acc₁.toList ++ xs := by
        intro xs
        induction xs with
        | nil => intro a1 a2; simp [List.toChunks.go]
        | cons y ys ih =>
          intro a1 a2
          simp only [List.toChunks.go]
          split
          · rw [ih]; simp
          · rw [ih]; simp
      simp [List.toChunks, key]

/-- `transform_disk` appends to the output file one header and, for every record of the input file, the cells of the
selected variables, computed by their objects with their own parameters, otherwise with those of the call — provided that
every parameter is given for all selected variables or for none. -/
theorem C65_rows_partial (hr : Ready cfg st) (hu : Uniform (paramsOf cfg.tparams) (st.selectedNames cfg))
    (hmix : NotMixed a (paramsOf cfg.tparams) (st.selectedNames cfg)) {columns : List String} {rows : List (DiskRow χ)}
    {chunksize : ℕ} {file lines : List (DiskLine V)}
    (h : procTransformDisk cfg st columns rows chunksize a file = .ok lines) :
    lines = file ++ .header (st.selectedNames cfg) ::
      rows.map fun r => .data (rowExpected st (paramsOf cfg.tparams) a (st.selectedNames cfg) r) := by
  unfold procTransformDisk at h
  by_cases h1 : chunksize = 0
  · rw [if_pos h1] at h; simp at h
  · rw [if_neg h1] at h
    by_cases h2 : pwRejected st a.metric = true
    · rw [if_pos h2] at h; simp at h
    · rw [if_neg h2] at h
      cases h3 : baseMetric a.metric cfg.tparams (st.selectedNames cfg) with
      | error e => rw [h3] at h; simp at h
      | ok base =>
        rw [h3] at h
        simp only at h
        split at h
        · simp at h
        · rw [diskLoop_rows hr hu hmix h3 _ _ rfl, flatten_toChunks] at h
          simp only [Except.ok.injEq] at h
          rw [← h]
          simp [Function.comp_def]

/-- The metrics "indices" and "bins" are refused as soon as one of the objects is piecewise. -/
theorem C64_piecewise_rejected {n : String} {ob : BinObj χ V μ} (hm : (n, ob) ∈ st.binned)
    (hk : ob.kind = .piecewise ∨ ob.kind = .continuousPiecewise) (ha : a.metric = some "indices" ∨ a.metric = some "bins")
    (hne : st.indices ≠ []) (out : TOut V) : procTransform cfg st X a ≠ .ok out := by
  have h : pwRejected st a.metric = true := by
    unfold pwRejected
    rw [Bool.and_eq_true]
    refine ⟨by rcases ha with h | h <;> simp [h], ?_⟩
    rw [List.any_eq_true]
    exact ⟨(n, ob), hm, by rcases hk with h | h <;> simp [h]⟩
  intro hc
  unfold procTransform at hc
  rw [if_neg hne] at hc
  by_cases h1 : X.hasColumns cfg st = false
  · rw [if_pos h1] at hc; simp at hc
  · rw [if_neg h1, if_pos h] at hc; simp at hc

/-- Under the same conditions the outcome does not depend on the chunk size. -/
theorem C65_chunksize_partial (hr : Ready cfg st) (hu : Uniform (paramsOf cfg.tparams) (st.selectedNames cfg))
    (hmix : NotMixed a (paramsOf cfg.tparams) (st.selectedNames cfg)) (columns : List String) (rows : List (DiskRow χ))
    {c c' : ℕ} (hc : 0 < c) (hc' : 0 < c') (file : List (DiskLine V)) :
    procTransformDisk cfg st columns rows c a file = procTransformDisk cfg st columns rows c' a file := by
  unfold procTransformDisk
  rw [if_neg (by omega : ¬ c = 0), if_neg (by omega : ¬ c' = 0)]
  by_cases h2 : pwRejected st a.metric = true
  · rw [if_pos h2, if_pos h2]
  · rw [if_neg h2, if_neg h2]
    cases h3 : baseMetric a.metric cfg.tparams (st.selectedNames cfg) with
    | error e => rfl
    | ok base =>
      simp only
      split
      · rfl
      · rw [diskLoop_rows hr hu hmix h3 _ _ rfl, diskLoop_rows hr hu hmix h3 _ _ rfl, flatten_toChunks, flatten_toChunks]

/-- The file has the same cells as the result of `transform` on the data frame with the same records. -/
theorem C65_same_as_transform_partial (hr : Ready cfg st) (hu : Uniform (paramsOf cfg.tparams) (st.selectedNames cfg))
    (hmix : NotMixed a (paramsOf cfg.tparams) (st.selectedNames cfg)) {columns : List String} {rows : List (DiskRow χ)}
    {chunksize : ℕ} {lines : List (DiskLine V)}
    (h : procTransformDisk cfg st columns rows chunksize a [] = .ok lines)
    (hm : procTransform cfg st (.df (columns.map fun n => (n, rows.map fun r => r n))) a = .ok out)
    {j i r : ℕ} {n : String} (hi : st.indices[j]? = some i) (hn : (st.selectedNames cfg)[j]? = some n)
    (hcol : n ∈ columns) {rec : DiskRow χ} (hrec : rows[r]? = some rec) :
    ∃ cells v, lines[r + 1]? = some (.data cells) ∧ cells[j]? = some v ∧
      out.cols[j]?.bind (fun c : List (OutCell V) => c[r]?) = some v := by
  have hl := C65_rows_partial hr hu hmix h
  have hnm := List.mem_of_getElem? hn
  obtain ⟨ob, ho, _⟩ := hr.objects n (selectedNames_mem hr hnm)
  have hcols := C64_columns_partial hr hu.noLeak hmix hm hi hn ho (x := rows.map fun r => r n) (by
    simp only [Frame.col]
    rw [get_map_df (fun n => rows.map fun r => r n) columns n hcol])
  refine ⟨rowExpected st (paramsOf cfg.tparams) a (st.selectedNames cfg) rec,
    ob.transform (ownArgs a (paramsOf cfg.tparams n)) (rec n), ?_, ?_, ?_⟩
  · rw [hl]; simp [hrec]
  · unfold rowExpected
    rw [List.getElem?_map, hn]; simp [ho]
  · rw [hcols]; simp [hrec]

end

/-! ### concrete cases -/

/-- The objects of `exFitVar` are well typed. -/
theorem exFitVar_wellTyped (n : String) (x : List ℚ) (ob : BinObj ℚ ℚ ℚ) (h : exFitVar n x = .ok ob) : ob.WellTyped := by
  unfold exFitVar at h
  simp only [Except.ok.injEq] at h
  subst h
  intro a y
  refine ⟨fun hb => by simp [hb], fun hb => ?_, fun hb => ⟨⌊y⌋, by simp [hb]⟩⟩
  by_cases hi : a.metric = some "indices"
  · exact ⟨((⌊y⌋ : ℤ) : ℚ), by simp [hi]⟩
  · exact ⟨y + a.missing, by simp [hb, hi]⟩

/-- A process with three variables; parameters are given for the first one only. -/
def exLeak : ProcCfg ℚ ℚ where
  names := ["a", "b", "c"]
  tparams := some [("a", { missing := some 10 })]

def exObj (n : String) : BinObj ℚ ℚ ℚ :=
  ⟨n, .optimal, fun _ => 1, fun a v => if a.metric = some "bins" then .str "b" else
    if a.metric = some "indices" then .num ((⌊v⌋ : ℤ) : ℚ) else .num (v + a.missing)⟩

def exState : ProcState ℚ ℚ ℚ where
  target := .binary
  binned := [("a", exObj "a"), ("b", exObj "b"), ("c", exObj "c")]
  stats := []
  support := [true, false, true]
  updated := false

theorem exObj_wellTyped (n : String) : (exObj n).WellTyped := by
  intro a y
  unfold exObj
  refine ⟨fun hb => by simp [hb], fun hb => ?_, fun hb => ⟨⌊y⌋, by simp [hb]⟩⟩
  by_cases hi : a.metric = some "indices"
  · exact ⟨((⌊y⌋ : ℤ) : ℚ), by simp [hi]⟩
  · exact ⟨y + a.missing, by simp [hb, hi]⟩

theorem exState_ready (cfg : ProcCfg ℚ ℚ) (h : cfg.names = ["a", "b", "c"]) : Ready cfg exState := by
  refine ⟨by rw [h]; rfl, ?_⟩
  rw [h]
  intro n hn
  simp only [List.mem_cons, List.not_mem_nil, or_false] at hn
  rcases hn with rfl | rfl | rfl
  · exact ⟨_, rfl, exObj_wellTyped _⟩
  · exact ⟨_, rfl, exObj_wellTyped _⟩
  · exact ⟨_, rfl, exObj_wellTyped _⟩

def exData : Frame ℚ := .df [("c", [7 / 2]), ("a", [1 / 2]), ("b", [5])]

/-- The parameter given for the variable "a" also changes the column of "c", for which nothing is given. -/
theorem C64_parameter_leaks :
    ((procTransform exLeak exState exData ⟨some "woe", 0, 0⟩).toOption.map TOut.cols) =
      some [[.num (21 / 2)], [.num (27 / 2)]] ∧
    (exObj "c").transform (ownArgs ⟨some "woe", 0, 0⟩ (paramsOf exLeak.tparams "c")) (7 / 2) = .num (7 / 2) := by
  decide +kernel

/-- With the parameters given for the last selected variable the hypotheses of `C64_columns_partial` hold and the columns
are as documented. -/
def exLast : ProcCfg ℚ ℚ where
  names := ["a", "b", "c"]
  tparams := some [("c", { missing := some 10 })]

example : NoLeak (paramsOf exLast.tparams) (exState.selectedNames exLast) ∧
    NotMixed ⟨some "woe", (0 : ℚ), 0⟩ (paramsOf exLast.tparams) (exState.selectedNames exLast) := by
  have hs : exState.selectedNames exLast = ["a", "c"] := by decide
  have h1 : paramsOf exLast.tparams "a" = {} := by decide +kernel
  refine ⟨?_, fun hc => by simp at hc⟩
  rw [hs]
  unfold NoLeak
  simp [h1]

example : ((procTransform exLast exState exData ⟨some "woe", 0, 0⟩).toOption.map TOut.cols) =
      some [[.num (1 / 2)], [.num (27 / 2)]] := by decide +kernel

/-- Mixing bin indices with the weight of evidence of the variable "c": 7/2 becomes 3. -/
example : ((procTransform (⟨["a", "b", "c"], none, none, some [("c", { metric := some (some "woe") })]⟩ : ProcCfg ℚ ℚ)
    exState exData ⟨some "indices", 0, 0⟩).toOption.map TOut.cols) = some [[.num 0], [.num 3]] := by decide +kernel

/-- Two records. -/
def exDiskRows : List (DiskRow ℚ) := [fun _ => 1, fun _ => 2]

/-- The cells of the data lines of a file. -/
def dataCells (l : List (DiskLine ℚ)) : List (List (OutCell ℚ)) :=
  l.filterMap fun x => match x with | .data c => some c | .header _ => none

/-- The result of `transform_disk` depends on the chunk size: the parameter given for the last variable is used for the
first variable in all chunks but the first one. -/
theorem C65_chunksize_matters :
    ((procTransformDisk exLast exState ["a", "b", "c"] exDiskRows 2 ⟨some "woe", 0, 0⟩ []).toOption.map dataCells) =
      some [[.num 1, .num 11], [.num 2, .num 12]] ∧
    ((procTransformDisk exLast exState ["a", "b", "c"] exDiskRows 1 ⟨some "woe", 0, 0⟩ []).toOption.map dataCells) =
      some [[.num 1, .num 11], [.num 12, .num 12]] := by
  decide +kernel

/-- A parameter given for all selected variables. -/
def exUniform : ProcCfg ℚ ℚ where
  names := ["a", "b", "c"]
  tparams := some [("c", { missing := some 10 }), ("a", { missing := some 20 })]

example : Uniform (paramsOf exUniform.tparams) (exState.selectedNames exUniform) ∧
    NotMixed ⟨some "woe", (0 : ℚ), 0⟩ (paramsOf exUniform.tparams) (exState.selectedNames exUniform) := by
  have hs : exState.selectedNames exUniform = ["a", "c"] := by decide
  have h1 : paramsOf exUniform.tparams "a" = { missing := some 20 } := by decide +kernel
  have h2 : paramsOf exUniform.tparams "c" = { missing := some 10 } := by decide +kernel
  refine ⟨?_, fun hc => by simp at hc⟩
  rw [hs]
  intro n hn m hm
  simp only [List.mem_cons, List.not_mem_nil, or_false] at hn hm
  rcases hn with rfl | rfl <;> rcases hm with rfl | rfl <;> simp [h1, h2]

example : ((procTransformDisk exUniform exState ["a", "b", "c"] exDiskRows 1 ⟨some "woe", 0, 0⟩ []).toOption.map dataCells) =
    some [[.num 21, .num 11], [.num 22, .num 12]] := by decide +kernel

/-- A second call appends a second header and the records again. -/
theorem C65_appends : ∃ l1 l2, procTransformDisk exUniform exState ["a", "b", "c"] exDiskRows 1 ⟨some "woe", 0, 0⟩ [] = .ok l1 ∧
    procTransformDisk exUniform exState ["a", "b", "c"] exDiskRows 1 ⟨some "woe", 0, 0⟩ l1 = .ok l2 ∧
    l1.length = 3 ∧ l2.length = 6 := by
  have h : ∀ f : List (DiskLine ℚ), ∃ l,
      procTransformDisk exUniform exState ["a", "b", "c"] exDiskRows 1 ⟨some "woe", 0, 0⟩ f = .ok l ∧ l.length = f.length + 3 := by
    intro f
    have hd : (diskLoop exUniform exState (some "woe") (exDiskRows.toChunks 1) ⟨some "woe", (0 : ℚ), 0⟩).toOption =
        some [[.num 21, .num 11], [.num 22, .num 12]] := by decide +kernel
    have hb : (baseMetric (some "woe") exUniform.tparams (exState.selectedNames exUniform)).toOption =
        some (some "woe") := by decide +kernel
    unfold procTransformDisk
    have h1 : pwRejected exState (some "woe") = false := by decide
    have h2 : ((exState.selectedNames exUniform).all fun n => ["a", "b", "c"].contains n) = true := by decide
    simp only [h1, h2]
    cases hbb : baseMetric (some "woe") exUniform.tparams (exState.selectedNames exUniform) with
    | error e => rw [hbb] at hb; simp [Except.toOption] at hb
    | ok b =>
      rw [hbb] at hb
      simp only [Except.toOption, Option.some.injEq] at hb
      subst hb
      cases hdd : diskLoop exUniform exState (some "woe") (exDiskRows.toChunks 1) ⟨some "woe", (0 : ℚ), 0⟩ with
      | error e => rw [hdd] at hd; simp [Except.toOption] at hd
      | ok rows =>
        rw [hdd] at hd
        simp only [Except.toOption, Option.some.injEq] at hd
        subst hd
        refine ⟨f ++ .header (exState.selectedNames exUniform) :: [.data [.num 21, .num 11], .data [.num 22, .num 12]], ?_, by simp⟩
        simp [hdd]
  obtain ⟨l1, h1, e1⟩ := h []
  obtain ⟨l2, h2, e2⟩ := h l1
  exact ⟨l1, l2, h1, h2, by simpa using e1, by rw [e2, e1]; rfl⟩

end OptBinning
