import Verif.Props.ProcessTransform

/-!
# C66 — fitting many variables; C67 — histories of a `BinningProcess`
-/
set_option linter.unusedSectionVars false
namespace OptBinning
open Spec

section
variable {χ V μ : Type*} [Field V] [LinearOrder V] [IsStrictOrderedRing V]

theorem PDict.get_update {β : Type*} (e : PDict β) : ∀ (d : PDict β), e.keys.Nodup → ∀ k,
    (d.update e).get k = (e.get k).or (d.get k) := by
  induction e with
  | nil => intro d _ k; simp [PDict.update, PDict.get]
  | cons p e ih =>
    intro d hnd k
    simp only [PDict.keys, List.map_cons, List.nodup_cons] at hnd
    have h1 : d.update (p :: e) = PDict.update (d.set p.1 p.2) e := rfl
    rw [h1, ih _ hnd.2 k, PDict.get_set]
    by_cases hk : k = p.1
    · subst hk
      have : PDict.get e p.1 = none := by
        have := PDict.get_isSome_iff e p.1
        rw [← Option.not_isSome_iff_eq_none, this]
        exact hnd.1
      rw [this]
      simp [PDict.get]
    · have h2 : PDict.get (p :: e) k = PDict.get e k := by
        simp [PDict.get, List.find?_cons, Ne.symm hk]
      rw [h2]
      simp [hk]

variable {argsort : List V → List ℕ} {cfg : ProcCfg V μ} {njobs : ℕ} {fitVar : FitVar χ V μ} {t : TargetType}
  {X : Frame χ} {st st0 : ProcState χ V μ}

theorem procFit_toOption (hj : 0 < njobs) (hnd : cfg.names.Nodup) :
    (procFit argsort cfg njobs fitVar t X st0).toOption =
      if (cfg.criteria.all fun c => checkCriteria t c) = false then none
      else if X.width ≠ cfg.names.length then none
      else (fitSeq fitVar X 0 cfg.names st0.binned).toOption.bind fun d =>
        (selectionCriteria argsort cfg { st0 with target := t, binned := d }).toOption := by
  unfold procFit
  by_cases h1 : (cfg.criteria.all fun c => checkCriteria t c) = false
  · rw [if_pos h1, if_pos h1]; rfl
  · rw [if_neg h1, if_neg h1]
    by_cases h2 : X.width ≠ cfg.names.length
    · rw [if_pos h2, if_pos h2]; rfl
    · rw [if_neg h2, if_neg h2, ← fitVariables_jobs njobs hj fitVar X cfg.names hnd (by simpa using h2)]
      cases fitVariables njobs fitVar X cfg.names st0.binned <;> rfl

/-- The number of workers does not matter: with any number of them the fit raises or has the same result. -/
theorem C66_njobs (hj : 0 < njobs) (hnd : cfg.names.Nodup) :
    (procFit argsort cfg njobs fitVar t X st0).toOption = (procFit argsort cfg 1 fitVar t X st0).toOption := by
  rw [procFit_toOption hj hnd, procFit_toOption Nat.one_pos hnd]

theorem procFit_congr (hj : 0 < njobs) (hnd : cfg.names.Nodup) {Y : Frame χ} (hw : X.width = Y.width)
    (hcol : ∀ (i : ℕ) n, cfg.names[i]? = some n → (X.col i n).toOption = (Y.col i n).toOption) :
    (procFit argsort cfg njobs fitVar t X st0).toOption = (procFit argsort cfg njobs fitVar t Y st0).toOption := by
  rw [procFit_toOption hj hnd, procFit_toOption hj hnd, hw]
  congr 2
  rw [fitSeq_toOption, fitSeq_toOption]
  have : fitAll fitVar X ((cfg.names.zipIdx 0).map fun p => (p.2, p.1)) =
      fitAll fitVar Y ((cfg.names.zipIdx 0).map fun p => (p.2, p.1)) := by
    apply fitAll_congr
    rw [List.forall₂_same]
    rintro ⟨i, n⟩ hin
    refine ⟨rfl, hcol i n ?_⟩
    rw [List.mem_map] at hin
    obtain ⟨⟨n', i'⟩, hmem, he⟩ := hin
    simp only [Prod.mk.injEq] at he
    obtain ⟨rfl, rfl⟩ := he
    exact List.mem_zipIdx_iff_getElem?.1 hmem
  rw [this]

/-- The order of the columns of a data frame does not matter. -/
theorem C66_column_order (hj : 0 < njobs) (hnd : cfg.names.Nodup) {cols cols' : List (String × List χ)}
    (hp : cols.Perm cols') (hk : (cols.map Prod.fst).Nodup) :
    (procFit argsort cfg njobs fitVar t (.df cols) st0).toOption =
      (procFit argsort cfg njobs fitVar t (.df cols') st0).toOption := by
  refine procFit_congr hj hnd (by simpa [Frame.width] using hp.length_eq) ?_
  intro i n _
  have hk' : (cols'.map Prod.fst).Nodup := (hp.map Prod.fst).nodup_iff.1 hk
  have hget : PDict.get cols n = PDict.get cols' n := by
    cases h1 : PDict.get cols n with
    | none =>
      have : ¬ (PDict.get cols n).isSome := by simp [h1]
      rw [PDict.get_isSome_iff] at this
      have h2 : n ∉ PDict.keys cols' := fun hc => this ((hp.map Prod.fst).mem_iff.2 hc)
      rw [← PDict.get_isSome_iff] at h2
      exact (Option.not_isSome_iff_eq_none.1 h2).symm
    | some c =>
      unfold PDict.get at h1
      rw [Option.map_eq_some_iff] at h1
      obtain ⟨p, hp1, hp2⟩ := h1
      have e1 := List.find?_some hp1
      rw [beq_iff_eq] at e1
      have hpm : p = (n, c) := by rw [← e1, ← hp2]
      have hmem : (n, c) ∈ cols := by rw [← hpm]; exact List.mem_of_find?_eq_some hp1
      obtain ⟨j, hj, hje⟩ := List.getElem_of_mem (hp.mem_iff.1 hmem)
      have := PDict.get_getElem cols' hk' j hj
      rw [hje] at this
      exact this.symm
  simp only [Frame.col, hget]

/-- An array is treated as the data frame with the same columns under the names of the variables. -/
theorem C66_array_or_frame (hj : 0 < njobs) (hnd : cfg.names.Nodup) {cols : List (List χ)}
    (hl : cols.length = cfg.names.length) :
    (procFit argsort cfg njobs fitVar t (.array cols) st0).toOption =
      (procFit argsort cfg njobs fitVar t (.df (cfg.names.zip cols)) st0).toOption := by
  refine procFit_congr hj hnd (by simp [Frame.width, hl]) ?_
  intro i n hn
  obtain ⟨hi, rfl⟩ := List.getElem?_eq_some_iff.1 hn
  have hkeys : PDict.keys (cfg.names.zip cols) = cfg.names := by
    unfold PDict.keys
    rw [List.map_fst_zip]
    omega
  have hz : i < (cfg.names.zip cols).length := by simp; omega
  have := PDict.get_getElem (cfg.names.zip cols) (by rw [hkeys]; exact hnd) i hz
  rw [List.getElem_zip] at this
  simp only at this
  simp only [Frame.col, this, List.getElem?_eq_getElem (show i < cols.length by omega)]

/-- `fit_disk` on a file with at least the columns of the variables gives the result of `fit` on the data frame of these
columns. -/
theorem C66_disk (hj : 0 < njobs) (hnd : cfg.names.Nodup) (hfix : ∀ f ∈ cfg.fixed.getD [], f ∈ cfg.names)
    {file : List (String × List χ)} {cols : List (String × List χ)} (hw : cols.length = cfg.names.length)
    (hsame : ∀ n ∈ cfg.names, PDict.get cols n = PDict.get file n) :
    (procFitDisk argsort cfg fitVar t file st0).toOption =
      (procFit argsort cfg njobs fitVar t (.df cols) st0).toOption := by
  rw [procFit_toOption hj hnd]
  unfold procFitDisk
  by_cases h1 : (cfg.criteria.all fun c => checkCriteria t c) = false
  · rw [if_pos h1, if_pos h1]; rfl
  · rw [if_neg h1, if_neg h1]
    have h2 : (cfg.fixed.all fun fs => fs.all fun f => cfg.names.contains f) ≠ false := by
      cases hf : cfg.fixed with
      | none => simp
      | some fs =>
        rw [hf] at hfix
        simp only [Option.all_some, ne_eq, Bool.not_eq_false, List.all_eq_true]
        intro f hfm
        simpa using hfix f (by simpa using hfm)
    rw [if_neg h2, if_neg (by simpa [Frame.width] using hw)]
    have : (fitSeq fitVar (.df file) 0 cfg.names st0.binned).toOption =
        (fitSeq fitVar (.df cols) 0 cfg.names st0.binned).toOption := by
      rw [fitSeq_toOption, fitSeq_toOption]
      have : fitAll fitVar (.df file) ((cfg.names.zipIdx 0).map fun p => (p.2, p.1)) =
          fitAll fitVar (.df cols) ((cfg.names.zipIdx 0).map fun p => (p.2, p.1)) := by
        apply fitAll_congr
        rw [List.forall₂_same]
        rintro ⟨i, n⟩ hin
        refine ⟨rfl, ?_⟩
        rw [List.mem_map] at hin
        obtain ⟨⟨n', i'⟩, hmem, he⟩ := hin
        simp only [Prod.mk.injEq] at he
        obtain ⟨rfl, rfl⟩ := he
        have hn := List.mem_of_getElem? (List.mem_zipIdx_iff_getElem?.1 hmem)
        simp only [Frame.col, hsame n' hn]
      rw [this]
    rw [← this]
    cases fitSeq fitVar (.df file) 0 cfg.names st0.binned <;> rfl

theorem fitAll_get : ∀ {l : List (ℕ × String)} {r : PDict (BinObj χ V μ)}, (l.map Prod.snd).Nodup →
    fitAll fitVar X l = some r → ∀ i n, (i, n) ∈ l → ∃ x ob, X.col i n = .ok x ∧ fitVar n x = .ok ob ∧ r.get n = some ob
  | [], r, _, h, i, n, hm => by simp at hm
  | (j, m) :: l, r, hnd, h, i, n, hm => by
    simp only [fitAll] at h
    cases h1 : X.col j m with
    | error e => rw [h1] at h; simp at h
    | ok x =>
      rw [h1] at h
      simp only at h
      cases h2 : fitVar m x with
      | error e => rw [h2] at h; simp at h
      | ok ob =>
        rw [h2] at h
        simp only [Option.map_eq_some_iff] at h
        obtain ⟨r', hr', rfl⟩ := h
        simp only [List.map_cons, List.nodup_cons] at hnd
        rcases List.mem_cons.1 hm with he | hm
        · simp only [Prod.mk.injEq] at he
          obtain ⟨rfl, rfl⟩ := he
          exact ⟨x, ob, h1, h2, by simp [PDict.get]⟩
        · obtain ⟨x', ob', hx', hob', hg⟩ := fitAll_get hnd.2 hr' i n hm
          refine ⟨x', ob', hx', hob', ?_⟩
          have hne : m ≠ n := by
            rintro rfl
            exact hnd.1 (List.mem_map.2 ⟨(i, m), hm, rfl⟩)
          rw [← hg]
          simp [PDict.get, List.find?_cons, hne]

theorem map_snd_zipIdx (names : List String) : ((names.zipIdx 0).map fun p => (p.2, p.1)).map Prod.snd = names := by
  rw [List.map_map]
  have : (Prod.snd ∘ fun p : String × ℕ => (p.2, p.1)) = Prod.fst := rfl
  rw [this, List.zipIdx_map_fst]

theorem selectionCriteria_binned (h : selectionCriteria argsort cfg st0 = .ok st) :
    st.binned = st0.binned ∧ st.target = st0.target ∧ st.updated = st0.updated := by
  unfold selectionCriteria at h
  cases h1 : computeStats st0.binned cfg.names st0.stats with
  | error e => rw [h1] at h; simp at h
  | ok stats =>
    rw [h1] at h
    simp only at h
    cases h2 : supportOf argsort cfg st0.target stats with
    | error e => rw [h2] at h; simp at h
    | ok s =>
      rw [h2] at h
      simp only [Except.ok.injEq] at h
      subst h
      exact ⟨rfl, rfl, rfl⟩

/-- After a fit the object of each variable is the one fitted on its own column only; the objects of a former fit under
other names are kept. -/
theorem C66_objects (hj : 0 < njobs) (hnd : cfg.names.Nodup) (h : procFit argsort cfg njobs fitVar t X st0 = .ok st) :
    (∀ (i : ℕ) n, cfg.names[i]? = some n →
      ∃ x ob, X.col i n = .ok x ∧ fitVar n x = .ok ob ∧ st.binned.get n = some ob) ∧
    ∀ n, n ∉ cfg.names → st.binned.get n = st0.binned.get n := by
  obtain ⟨_, hw, d, hd, hs⟩ := procFit_parts h
  have hb := (selectionCriteria_binned hs).1
  simp only at hb
  have h1 : (fitVariables njobs fitVar X cfg.names st0.binned).toOption = some d := by rw [hd]; rfl
  rw [fitVariables_jobs njobs hj fitVar X cfg.names hnd hw, fitSeq_toOption, Option.map_eq_some_iff] at h1
  obtain ⟨r, hr, rfl⟩ := h1
  have hkeys : r.keys = cfg.names := by rw [fitAll_keys hr, map_snd_zipIdx]
  have hupd := PDict.get_update r st0.binned (by rw [hkeys]; exact hnd)
  constructor
  · intro i n hn
    obtain ⟨x, ob, hx, hob, hg⟩ := fitAll_get (by rw [map_snd_zipIdx]; exact hnd) hr i n (by
      rw [List.mem_map]
      exact ⟨(n, i), List.mem_zipIdx_iff_getElem?.2 hn, rfl⟩)
    refine ⟨x, ob, hx, hob, ?_⟩
    rw [hb, hupd, hg]; rfl
  · intro n hn
    have : r.get n = none := by
      rw [← Option.not_isSome_iff_eq_none, PDict.get_isSome_iff, hkeys]; exact hn
    rw [hb, hupd, this]; rfl

/-- A fit prepares the object for `transform` (the hypothesis `Ready` of the theorems about `transform`), provided the
objects of the single variables return labels exactly for the metric "bins" and integers for "indices". -/
theorem C66_ready (hj : 0 < njobs) (ha : ArgsortOk argsort) (hnd : cfg.names.Nodup)
    (hty : ∀ n x ob, fitVar n x = .ok ob → ob.WellTyped)
    (h : procFit argsort cfg njobs fitVar t X (.fresh t) = .ok st) : Ready cfg st := by
  refine ⟨(C63_selection ha hnd h).1, ?_⟩
  intro n hn
  obtain ⟨i, hi⟩ := List.mem_iff_getElem?.1 hn
  obtain ⟨x, ob, _, hob, hg⟩ := (C66_objects hj hnd h).1 i n hi
  exact ⟨ob, hg, hty n x ob hob⟩

/-- The options of the binning object of a variable: those of `binning_fit_params` for this variable, otherwise those of
the process, otherwise the defaults of the class. -/
theorem C66_options {ω : Type*} {defaults proc opts : PDict ω} {fitParams : Option (PDict (PDict ω))} {name : String}
    (hp : proc.keys.Nodup) (hf : ∀ d ∈ fitParams, ∀ p, d.get name = some p → p.keys.Nodup)
    (h : varOptions defaults proc fitParams name = .ok opts) (key : String) :
    opts.get key = (((fitParams.bind fun d => d.get name).bind fun p => p.get key).or
      ((if key ∈ passedOptions then proc.get key else none).or (defaults.get key))) := by
  unfold varOptions at h
  simp only at h
  split at h
  · simp only [Except.ok.injEq] at h
    subst h
    have hnd : ((fitParams.bind fun d => d.get name).getD []).keys.Nodup := by
      cases h1 : fitParams with
      | none => simp [PDict.keys]
      | some d =>
        cases h2 : d.get name with
        | none => simp [h2, PDict.keys]
        | some p => simpa [h2] using hf d (by simp [h1]) p h2
    have hnd2 : (PDict.keys (proc.filter fun p => passedOptions.contains p.1)).Nodup := by
      unfold PDict.keys at hp ⊢
      exact hp.sublist (List.filter_sublist.map _)
    rw [PDict.get_update _ _ hnd, PDict.get_update _ _ hnd2]
    have hget : PDict.get (proc.filter fun p => passedOptions.contains p.1) key =
        if key ∈ passedOptions then proc.get key else none := by
      unfold PDict.get
      rw [List.find?_filter]
      by_cases hk : key ∈ passedOptions
      · rw [if_pos hk]
        congr 2
        funext p
        by_cases hpk : p.1 = key
        · subst hpk; simp [hk]
        · simp [hpk]
      · rw [if_neg hk]
        have : (List.find? (fun a => passedOptions.contains a.1 && a.1 == key) proc) = none := by
          rw [List.find?_eq_none]
          intro p _ hc
          rw [Bool.and_eq_true, beq_iff_eq] at hc
          rw [hc.2] at hc
          exact hk (by simpa using hc.1)
        simp only [Bool.decide_and, Bool.decide_eq_true] at *
        rw [this]; rfl
    rw [hget]
    congr 1
    cases (fitParams.bind fun d => d.get name) with
    | none => simp [PDict.get]
    | some p => simp
  · simp at h

/-- `max_bin_size` of the process has no effect on the binning of any variable. -/
theorem C66_max_bin_size_ignored {ω : Type*} (defaults proc : PDict ω) (fitParams : Option (PDict (PDict ω)))
    (name : String) (v : ω) :
    varOptions defaults (proc.set "max_bin_size" v) fitParams name = varOptions defaults proc fitParams name := by
  have : ((proc.set "max_bin_size" v).filter fun p => passedOptions.contains p.1) =
      proc.filter fun p => passedOptions.contains p.1 := by
    have hk : passedOptions.contains "max_bin_size" = false := by decide
    induction proc with
    | nil => simp only [PDict.set, List.filter_cons, hk, Bool.false_eq_true, if_false, List.filter_nil]
    | cons p d ih =>
      unfold PDict.set
      by_cases hp : p.1 = "max_bin_size"
      · have hp' : (p.1 == "max_bin_size") = true := by simpa using hp
        have hk' : passedOptions.contains p.1 = false := by rw [hp]; exact hk
        simp only [hp', if_true, List.filter_cons, hk, hk', Bool.false_eq_true, if_false]
      · have : (p.1 == "max_bin_size") = false := by simpa using hp
        simp only [this, Bool.false_eq_true, if_false, List.filter_cons, ih]
  unfold varOptions
  rw [this]

/-- An option which the class does not have makes the fit of the variable fail. -/
theorem C66_unknown_option {ω : Type*} {defaults proc : PDict ω} {d : PDict (PDict ω)} {p : PDict ω} {name k : String}
    (hd : d.get name = some p) (hk : k ∈ p.keys) (h1 : k ∉ defaults.keys) (h2 : k ∉ passedOptions) (opts : PDict ω) :
    varOptions defaults proc (some d) name ≠ .ok opts := by
  have hmem : ∀ (e d : PDict ω), k ∈ (d.update e).keys → k ∈ d.keys ∨ k ∈ e.keys := by
    intro e
    induction e with
    | nil => intro d hh; exact Or.inl hh
    | cons q e ih =>
      intro d hh
      rcases ih (d.set q.1 q.2) hh with h' | h'
      · rw [← PDict.get_isSome_iff, PDict.get_set] at h'
        by_cases hq : k = q.1
        · right; simp [PDict.keys, hq]
        · rw [if_neg hq, PDict.get_isSome_iff] at h'; exact Or.inl h'
      · right; simp only [PDict.keys, List.map_cons, List.mem_cons]; exact Or.inr h'
  intro h
  unfold varOptions at h
  simp only [Option.bind_some, hd, Option.getD_some] at h
  split at h
  · rename_i hall
    rw [List.all_eq_true] at hall
    obtain ⟨q, hq, rfl⟩ := List.mem_map.1 hk
    have := hall q hq
    rcases hmem _ _ (by simpa using this) with h' | h'
    · exact h1 h'
    · unfold PDict.keys at h'
      obtain ⟨q', hq', he⟩ := List.mem_map.1 h'
      have := (List.mem_filter.1 hq').2
      rw [he] at this
      exact h2 (by simpa using this)
  · simp at h

/-- `fit_from_dict`: an accepted dictionary has exactly the variables as keys, its objects are of one class, which
determines the target, and the names of the objects are their keys; the selection is the one for these objects. -/
theorem C66_from_dict (ha : ArgsortOk argsort) (hnd : cfg.names.Nodup) {objs : PDict (BinObj χ V μ)}
    (hk : objs.keys.Nodup) {t0 : TargetType} (h : procFitDict argsort cfg objs (.fresh t0) = .ok st) :
    (∀ n, n ∈ objs.keys ↔ n ∈ cfg.names) ∧
    (∀ n ob, objs.get n = some ob → st.binned.get n = some ob ∧ kindTarget ob.kind = some st.target ∧
      (ob.name = "" ∨ ob.name = n)) ∧
    Selected cfg.names (targetMetrics st.target) (cfg.criteria.map fun c => c.get) (cfg.fixed.getD [])
      (metricValue cfg.names st.binned) st.support := by
  unfold procFitDict at h
  by_cases h1 : (objs.keys.all (cfg.names.contains ·) && cfg.names.all (objs.keys.contains ·)) = false
  · rw [if_pos h1] at h; simp at h
  rw [if_neg h1, ] at h
  rw [Bool.not_eq_false, Bool.and_eq_true, List.all_eq_true, List.all_eq_true] at h1
  cases objs with
  | nil => simp at h
  | cons p0 objs' =>
    obtain ⟨n0, ob0⟩ := p0
    simp only at h
    set objs : PDict (BinObj χ V μ) := (n0, ob0) :: objs' with hobjs
    cases hkt : kindTarget ob0.kind with
    | none => rw [hkt] at h; simp at h
    | some t =>
      rw [hkt] at h
      simp only at h
      by_cases h2 : (objs.all fun p => decide (p.2.kind = ob0.kind)) = false
      · rw [if_pos h2] at h; simp at h
      rw [if_neg h2] at h
      by_cases h3 : (objs.all fun p => decide (p.2.name = "" ∨ p.2.name = p.1)) = false
      · rw [if_pos h3] at h; simp at h
      rw [if_neg h3] at h
      by_cases h4 : (cfg.criteria.all fun c => checkCriteria t c) = false
      · rw [if_pos h4] at h; simp at h
      rw [if_neg h4] at h
      obtain ⟨hS, _, hb, htt, _⟩ := selectionCriteria_selected ha hnd (Or.inl rfl) h
      simp only at hb htt
      rw [Bool.not_eq_false, List.all_eq_true] at h2 h3
      refine ⟨fun n => ⟨fun hn => by simpa using h1.1 n hn, fun hn => by simpa using h1.2 n hn⟩, ?_, hS⟩
      intro n ob hob
      have hmem : (n, ob) ∈ objs := by
        unfold PDict.get at hob
        rw [Option.map_eq_some_iff] at hob
        obtain ⟨q, hq1, hq2⟩ := hob
        have e1 := List.find?_some hq1
        rw [beq_iff_eq] at e1
        have : q = (n, ob) := by rw [← e1, ← hq2]
        rw [← this]; exact List.mem_of_find?_eq_some hq1
      refine ⟨?_, ?_, by simpa using h3 _ hmem⟩
      · rw [hb, PDict.get_update _ _ hk, hob]; rfl
      · have : ob.kind = ob0.kind := by simpa using h2 _ hmem
        rw [this, hkt, htt]

/-! ### C67: histories -/

/-- A successful call of a method that changes the object. -/
inductive ProcStep (argsort : List V → List ℕ) (cfg : ProcCfg V μ) : ProcState χ V μ → ProcState χ V μ → Prop
  | fit {njobs fitVar t X st st'} : procFit argsort cfg njobs fitVar t X st = .ok st' → ProcStep argsort cfg st st'
  | fitDisk {fitVar t file st st'} : procFitDisk argsort cfg fitVar t file st = .ok st' → ProcStep argsort cfg st st'
  | fitDict {objs st st'} : procFitDict argsort cfg objs st = .ok st' → ProcStep argsort cfg st st'
  | update {name ob st st'} : updateVariable cfg st name ob = .ok st' → ProcStep argsort cfg st st'
  | summary {rows st st'} : procSummary argsort cfg st = .ok (st', rows) → ProcStep argsort cfg st st'

/-- The states after a history of successful calls on a new object. -/
inductive ProcReachable (argsort : List V → List ℕ) (cfg : ProcCfg V μ) : ProcState χ V μ → Prop
  | new (t : TargetType) : ProcReachable argsort cfg (.fresh t)
  | step {st st'} : ProcReachable argsort cfg st → ProcStep argsort cfg st st' → ProcReachable argsort cfg st'

/-- The selection the user asked for, for the current objects. -/
def CurrentSelection (cfg : ProcCfg V μ) (st : ProcState χ V μ) : Prop :=
  Selected cfg.names (targetMetrics st.target) (cfg.criteria.map fun c => c.get) (cfg.fixed.getD [])
    (metricValue cfg.names st.binned) st.support

theorem updateVariable_parts {name : String} {ob : BinObj χ V μ} {st' : ProcState χ V μ}
    (h : updateVariable cfg st name ob = .ok st') :
    name ∈ cfg.names ∧ kindAccepted st.target ob.kind = true ∧ (∃ old, st.binned.get name = some old ∧
      (old.name = "" ∨ old.name = ob.name)) ∧ (ob.name = "" ∨ ob.name = name) ∧
    st' = { st with binned := st.binned.set name ob, updated := true } := by
  unfold updateVariable at h
  by_cases h1 : cfg.names.contains name = false
  · rw [if_pos h1] at h; simp at h
  rw [if_neg h1] at h
  by_cases h2 : kindAccepted st.target ob.kind = false
  · rw [if_pos h2] at h; simp at h
  rw [if_neg h2] at h
  cases h3 : st.binned.get name with
  | none => rw [h3] at h; simp at h
  | some old =>
    rw [h3] at h
    simp only at h
    by_cases h4 : old.name ≠ "" ∧ old.name ≠ ob.name
    · rw [if_pos h4] at h; simp at h
    rw [if_neg h4] at h
    by_cases h5 : ob.name ≠ "" ∧ name ≠ ob.name
    · rw [if_pos h5] at h; simp at h
    rw [if_neg h5] at h
    simp only [Except.ok.injEq] at h
    refine ⟨by simpa using h1, by simpa using h2, ⟨old, rfl, ?_⟩, ?_, h.symm⟩
    · by_cases hc : old.name = ""
      · exact Or.inl hc
      · right; by_contra hc'; exact h4 ⟨hc, hc'⟩
    · by_cases hc : ob.name = ""
      · exact Or.inl hc
      · right; by_contra hc'; exact h5 ⟨hc, fun e => hc' e.symm⟩

/-- In the states of a history: before the first fit there are no statistics; afterwards there are those of all variables,
in their order, and unless an object was replaced since, the mask is the selection for the current objects. -/
theorem procReachable_inv (ha : ArgsortOk argsort) (hnd : cfg.names.Nodup) (hr : ProcReachable argsort cfg st) :
    (st = .fresh st.target ∧ (st.support = [])) ∨
    (st.stats.keys = cfg.names ∧ st.support.length = cfg.names.length ∧
      (st.updated = false → CurrentSelection cfg st)) := by
  induction hr with
  | new t => exact Or.inl ⟨rfl, rfl⟩
  | @step st st' _ hstep ih =>
    have hstats : st.stats = [] ∨ st.stats.keys = cfg.names := by
      rcases ih with ⟨h, _⟩ | ⟨h, _⟩
      · left; rw [h]; rfl
      · exact Or.inr h
    have hsel : ∀ {s0 : ProcState χ V μ}, selectionCriteria argsort cfg s0 = .ok st' → s0.stats = st.stats →
        st'.stats.keys = cfg.names ∧ st'.support.length = cfg.names.length ∧
        (st'.updated = false → CurrentSelection cfg st') := by
      intro s0 hsc hs0
      obtain ⟨hS, hk, _⟩ := selectionCriteria_selected ha hnd (by rw [hs0]; exact hstats) hsc
      exact ⟨hk, hS.1, fun _ => hS⟩
    cases hstep with
    | fit h =>
      obtain ⟨_, _, d, _, hs⟩ := procFit_parts h
      exact Or.inr (hsel hs rfl)
    | @fitDisk fitVar t file _ _ h =>
      unfold procFitDisk at h
      split at h
      · simp at h
      split at h
      · simp at h
      cases h3 : fitSeq fitVar (.df file) 0 cfg.names st.binned with
      | error e => rw [h3] at h; simp at h
      | ok d => rw [h3] at h; exact Or.inr (hsel h rfl)
    | @fitDict objs _ _ h =>
      unfold procFitDict at h
      split at h
      · simp at h
      cases objs with
      | nil => simp at h
      | cons p objs =>
        simp only at h
        cases hkt : kindTarget p.2.kind with
        | none => rw [hkt] at h; simp at h
        | some t =>
          rw [hkt] at h
          simp only at h
          split at h
          · simp at h
          split at h
          · simp at h
          split at h
          · simp at h
          exact Or.inr (hsel h rfl)
    | @update name ob _ _ h =>
      obtain ⟨_, _, ⟨old, hold, _⟩, _, rfl⟩ := updateVariable_parts h
      rcases ih with ⟨hf, _⟩ | ⟨h1, h2, _⟩
      · rw [hf] at hold
        simp [ProcState.fresh, PDict.get] at hold
      · exact Or.inr ⟨h1, h2, by simp⟩
    | @summary rows _ _ h =>
      unfold procSummary at h
      cases hu : st.updated with
      | true =>
        simp only [hu, if_true] at h
        cases hsc : selectionCriteria argsort cfg st with
        | error e => rw [hsc] at h; simp [Except.map] at h
        | ok s =>
          rw [hsc] at h
          simp only [Except.map] at h
          split at h
          · simp at h
          simp only [Except.ok.injEq, Prod.mk.injEq] at h
          obtain ⟨rfl, _⟩ := h
          obtain ⟨hS, hk, _⟩ := selectionCriteria_selected ha hnd hstats hsc
          exact Or.inr ⟨hk, hS.1, fun _ => hS⟩
      | false =>
        simp only [hu, Bool.false_eq_true, if_false] at h
        split at h
        · simp at h
        simp only [Except.ok.injEq, Prod.mk.injEq] at h
        obtain ⟨rfl, _⟩ := h
        exact ih

/-- In every history, as long as no object was replaced after the last fit or summary, the mask of `get_support` is the
selection for the current objects. -/
theorem C67_support (ha : ArgsortOk argsort) (hnd : cfg.names.Nodup) (hr : ProcReachable argsort cfg st)
    (hfit : st.stats ≠ []) (hu : st.updated = false) : CurrentSelection cfg st := by
  rcases procReachable_inv ha hnd hr with ⟨h, _⟩ | ⟨_, _, h⟩
  · rw [h] at hfit; exact absurd rfl hfit
  · exact h hu

/-- In every history, `summary` lists the variables in their order with the selection for the current objects, also
after replacements, and does not change the objects. -/
theorem C67_summary (ha : ArgsortOk argsort) (hnd : cfg.names.Nodup) (hr : ProcReachable argsort cfg st)
    (hfit : st.stats ≠ []) {st' : ProcState χ V μ} {rows : List (String × Bool)}
    (h : procSummary argsort cfg st = .ok (st', rows)) :
    rows = cfg.names.zip st'.support ∧ CurrentSelection cfg st' ∧ st'.binned = st.binned ∧ st'.updated = false := by
  have hinv : st.stats.keys = cfg.names ∧ (st.updated = false → CurrentSelection cfg st) := by
    rcases procReachable_inv ha hnd hr with ⟨h, _⟩ | ⟨h1, _, h⟩
    · rw [h] at hfit; exact absurd rfl hfit
    · exact ⟨h1, h⟩
  unfold procSummary at h
  cases hu : st.updated with
  | true =>
    simp only [hu, if_true] at h
    cases hsc : selectionCriteria argsort cfg st with
    | error e => rw [hsc] at h; simp [Except.map] at h
    | ok s =>
      rw [hsc] at h
      simp only [Except.map] at h
      split at h
      · simp at h
      simp only [Except.ok.injEq, Prod.mk.injEq] at h
      obtain ⟨rfl, rfl⟩ := h
      obtain ⟨hS, hk, hb, _⟩ := selectionCriteria_selected ha hnd (Or.inr hinv.1) hsc
      exact ⟨by rw [hk], hS, hb, rfl⟩
  | false =>
    simp only [hu, Bool.false_eq_true, if_false] at h
    split at h
    · simp at h
    simp only [Except.ok.injEq, Prod.mk.injEq] at h
    obtain ⟨rfl, rfl⟩ := h
    exact ⟨by rw [hinv.1], hinv.2 hu, rfl, hu⟩

/-- `update_binned_variable` replaces exactly one object, under the given name, and leaves the mask as it is; it accepts
only objects of the class of the target whose name is the name of the variable. -/
theorem C67_update {name : String} {ob : BinObj χ V μ} {st' : ProcState χ V μ}
    (h : updateVariable cfg st name ob = .ok st') :
    (∀ n, st'.binned.get n = if n = name then some ob else st.binned.get n) ∧ st'.support = st.support ∧
    st'.target = st.target ∧ (st.target = .binary → ob.kind = .optimal ∨ ob.kind = .piecewise) ∧
    (st.target = .continuous → ob.kind = .continuous ∨ ob.kind = .continuousPiecewise) ∧
    (st.target = .multiclass → ob.kind = .multiclass) ∧ (ob.name = "" ∨ ob.name = name) ∧ name ∈ cfg.names := by
  obtain ⟨h1, h2, _, h4, rfl⟩ := updateVariable_parts h
  refine ⟨fun n => PDict.get_set _ _ _ _, rfl, rfl, fun ht => ?_, fun ht => ?_, fun ht => ?_, h4, h1⟩
  all_goals
    rw [ht] at h2
    revert h2
    generalize ob.kind = k
    cases k <;> decide

/-- An accepted object of class `ContinuousOptimalPWBinning` makes every later `summary` fail: it has no attribute
`dtype`. -/
theorem C67_piecewise_breaks_summary {name : String} {ob : BinObj χ V μ} {st' : ProcState χ V μ}
    (h : updateVariable cfg st name ob = .ok st') (hk : ob.kind = .continuousPiecewise)
    (r : ProcState χ V μ × List (String × Bool)) : procSummary argsort cfg st' ≠ .ok r := by
  intro hs
  obtain ⟨h1, _, _, _, rfl⟩ := updateVariable_parts h
  unfold procSummary at hs
  simp only [if_true] at hs
  cases hsc : selectionCriteria argsort cfg { st with binned := st.binned.set name ob, updated := true } with
  | error e => rw [hsc] at hs; simp [Except.map] at hs
  | ok s =>
    unfold selectionCriteria at hsc
    cases hst : computeStats (st.binned.set name ob) cfg.names st.stats with
    | error e => simp only [hst] at hsc; simp at hsc
    | ok stats =>
      obtain ⟨ob', hob', hne⟩ := computeStats_kind hst name h1
      rw [PDict.get_set_same] at hob'
      simp only [Option.some.injEq] at hob'
      subst hob'
      exact hne hk

end

/-! ### the hypotheses can be met; what does not hold -/

/-- The objects of `exFitVar` return labels exactly for "bins" and integers for "indices". -/
theorem exFitVar_typed : ∀ n x ob, exFitVar n x = .ok ob → ob.WellTyped := by
  intro n x ob h
  simp only [exFitVar, Except.ok.injEq] at h
  subst h
  intro a v
  refine ⟨?_, ?_, ?_⟩ <;> by_cases h1 : a.metric = some "bins" <;> by_cases h2 : a.metric = some "indices" <;>
    simp_all

/-- A fit in parallel on the columns of a data frame in another order. -/
example : ((procFit argsortQ exProc 3 exFitVar .binary
      (.df [("c", [2 / 10, 3]), ("a", [1 / 20, 1]), ("d", [4 / 10, 4]), ("b", [3 / 10, 2])]) (.fresh .binary)).toOption.map
    ProcState.support) = some [true, true, false, true] := by decide +kernel

/-- Options: the variable "a" has its own number of bins, "b" the one of the process. -/
example : ((varOptions [("max_n_bins", 10), ("gamma", 0), ("max_bin_size", 1)] [("max_n_bins", 5), ("max_bin_size", 7)]
      (some [("a", [("max_n_bins", 3), ("gamma", 2)])]) "a").toOption,
    (varOptions [("max_n_bins", 10), ("gamma", 0), ("max_bin_size", 1)] [("max_n_bins", 5), ("max_bin_size", 7)]
      (some [("a", [("max_n_bins", 3), ("gamma", 2)])]) "b").toOption) =
    (some [("max_n_bins", 3), ("gamma", 2), ("max_bin_size", 1)],
     some [("max_n_bins", 5), ("gamma", 0), ("max_bin_size", 1)]) := by decide +kernel

/-- Three variables, those of IV at least 1/10. -/
def exThree : ProcCfg ℚ ℚ where
  names := ["a", "b", "c"]
  criteria := some [("iv", { min := some (1 / 10) })]

def exIvObj (n : String) (iv : ℚ) : BinObj ℚ ℚ ℚ := ⟨n, .optimal, fun m => if m = "iv" then iv else 0, fun _ v => .num v⟩

/-- A fit, then "a" gets an object without any IV: the mask still selects "a" (and so does `transform`, C64) until
`summary` is called. -/
def exHistory : Except String (List Bool × List Bool × List (String × Bool)) := do
  let s0 ← procFitDict argsortQ exThree [("a", exIvObj "a" 1), ("b", exIvObj "b" 0), ("c", exIvObj "" 2)] (.fresh .binary)
  let s1 ← updateVariable exThree s0 "a" (exIvObj "a" 0)
  let (s2, rows) ← procSummary argsortQ exThree s1
  pure (s1.support, s2.support, rows)

/-- The full statement of C67 — the mask is always the selection for the current objects — does not hold: after
`update_binned_variable` the mask is the old one until `summary` is called. -/
theorem C67_stale_after_update : exHistory.toOption =
    some ([true, false, true], [false, false, true], [("a", false), ("b", false), ("c", true)]) := by decide +kernel

/-- The same variables in another order. -/
def exReordered : ProcCfg ℚ ℚ := { exThree with names := ["c", "b", "a"] }

/-- The history of a process whose `variable_names` are reordered between two fits: the statistics keep the old order, so
"a" with IV 0 is selected and "c" with IV 2 is not. -/
def exRefit : Except String (List String × List Bool) := do
  let s0 ← procFitDict argsortQ exThree [("a", exIvObj "a" 1), ("b", exIvObj "b" 1), ("c", exIvObj "c" 1)] (.fresh .binary)
  let s1 ← procFitDict argsortQ exReordered [("a", exIvObj "a" 0), ("b", exIvObj "b" 1), ("c", exIvObj "c" 2)] s0
  pure (exReordered.names, s1.support)

theorem C67_refit_reordered : exRefit.toOption = some (["c", "b", "a"], [false, true, true]) := by decide +kernel

/-- A refit with fewer variables fails if there are criteria. -/
theorem C67_refit_fewer : ((do
    let s0 ← procFitDict argsortQ exThree [("a", exIvObj "a" 1), ("b", exIvObj "b" 1), ("c", exIvObj "c" 1)] (.fresh .binary)
    procFitDict argsortQ { exThree with names := ["a", "b"] } [("a", exIvObj "a" 0), ("b", exIvObj "b" 1)] s0 :
      Except String (ProcState ℚ ℚ ℚ)).toOption.isNone) = true := by decide +kernel

end OptBinning
