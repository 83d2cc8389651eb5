import Verif.Props.MonitorSystem

/-! # C96, C98 (continued): table of the variables, reports, and the monitoring object across fits -/
namespace OptBinning
open Spec (actual expected InLeftOpen inScoreBin eventCount noneventCount)

/-- The rows of the table of one variable. -/
theorem psiRows_ok {t : List (ℕ × ℕ)} {rows : List PsiRow} (h : psiRows t = .ok rows) :
    ∃ s, psiTable t = .ok (rows, s) ∧ systemPsi t = .ok (rows.map PsiRow.psi, s) := by
  unfold psiTable
  unfold psiRows at h ⊢
  cases hs : systemPsi t with
  | error m => simp [hs] at h
  | ok p =>
    obtain ⟨l, s⟩ := p
    simp only [hs, Except.ok.injEq] at h ⊢
    refine ⟨s, by rw [h], ?_⟩
    obtain ⟨-, -, rfl, -⟩ := systemPsi_ok hs
    rw [← h]
    simp [List.zipWith_map_right, List.zipWith_self, Function.comp_def]

theorem forall₂_mapM_except {β γ : Type} {f : β → Except String γ} {l : List β} {r : List γ}
    (h : List.Forall₂ (fun x y => f x = .ok y) l r) : l.mapM f = .ok r := by
  induction h with
  | nil => rfl
  | cons hx _ ih => rw [List.mapM_cons, hx, ih]; rfl

theorem mapM_tag_filter {β : Type} (f : β → Except String (List PsiRow)) (key : β → String) :
    ∀ (vars : List β) (r : List (List (String × PsiRow))),
      (vars.mapM fun v => (f v).map fun rows => rows.map fun x => (key v, x)) = .ok r → (vars.map key).Nodup →
      ∀ v ∈ vars, ∃ rows, f v = .ok rows ∧ (r.flatten.filter fun x => x.1 == key v) = rows.map fun x => (key v, x)
  | [], _, _, _, _, hv => by simp at hv
  | w :: vars, r, h, hn, v, hv => by
    have hf := mapM_except_forall₂ _ _ h
    cases hf with
    | cons hx hr =>
      rename_i y r'
      have hstep : ∀ u y, ((f u).map fun rows => rows.map fun x => (key u, x)) = .ok y →
          ∃ rows, f u = .ok rows ∧ y = rows.map fun x => (key u, x) := by
        intro u y hy
        cases hfu : f u with
        | error m => rw [hfu] at hy; simp [Except.map] at hy
        | ok rows => rw [hfu] at hy; simp only [Except.map, Except.ok.injEq] at hy; exact ⟨rows, rfl, hy.symm⟩
      obtain ⟨rows, hrows, rfl⟩ := hstep w y hx
      rw [List.map_cons, List.nodup_cons] at hn
      rw [List.flatten_cons, List.filter_append]
      rcases List.mem_cons.1 hv with rfl | hv
      · refine ⟨rows, hrows, ?_⟩
        have e1 : ((rows.map fun x => (key v, x)).filter fun x => x.1 == key v) = rows.map fun x => (key v, x) := by
          rw [List.filter_eq_self]
          intro x hx
          obtain ⟨q, -, rfl⟩ := List.mem_map.1 hx
          simp
        have e2 : (r'.flatten.filter fun x => x.1 == key v) = [] := by
          rw [List.filter_eq_nil_iff]
          intro x hx
          obtain ⟨l, hl, hxl⟩ := List.mem_flatten.1 hx
          rw [List.forall₂_iff_get] at hr
          obtain ⟨hl', hg⟩ := hr
          obtain ⟨j, hj, rfl⟩ := List.getElem_of_mem hl
          obtain ⟨rows', -, e⟩ := hstep _ _ (hg j (by omega) hj)
          simp only [List.get_eq_getElem] at e
          rw [e] at hxl
          obtain ⟨q, -, rfl⟩ := List.mem_map.1 hxl
          simp only [beq_iff_eq]
          intro hk
          apply hn.1
          rw [← hk]
          exact List.mem_map_of_mem (List.getElem_mem _)
        rw [e1, e2, List.append_nil]
      · have hr'' : (vars.mapM fun v => (f v).map fun rows => rows.map fun x => (key v, x)) = .ok r' := by
          exact forall₂_mapM_except hr
        obtain ⟨rows', h1, h2⟩ := mapM_tag_filter f key vars r' hr'' hn.2 v hv
        refine ⟨rows', h1, ?_⟩
        have e1 : ((rows.map fun x => (key w, x)).filter fun x => x.1 == key v) = [] := by
          rw [List.filter_eq_nil_iff]
          intro x hx
          obtain ⟨q, -, rfl⟩ := List.mem_map.1 hx
          simp only [beq_iff_eq]
          intro hk
          exact hn.1 (hk ▸ List.mem_map_of_mem hv)
        rw [e1, h2, List.nil_append]

theorem fltSum_filter_nan {l : List Flt} (h : Flt.nan ∉ l) : pandasSum l = fltSum l := by
  unfold pandasSum
  rw [List.filter_eq_self.2]
  intro f hf
  cases f with
  | nan => exact absurd hf h
  | inf => rfl
  | real r => rfl

/-- C96: the detailed table of a variable holds, for that variable and no other, one row per bin: numbers and shares of the
records of either sample in the bin and the PSI term; the summary is the total of that column, provided no bin is empty in
both samples. -/
theorem C96_variable (vars : List (String × List ℤ × List ℤ)) (hn : (vars.map Prod.fst).Nodup) (table : List (String × PsiRow))
    (h : monitorVariables vars = .ok table) (name : String) (ta te : List ℤ) (hv : (name, ta, te) ∈ vars) :
    ∃ rows total, psiTable (variableCounts ta te) = .ok (rows, total) ∧
      variableDetail table name = (rows.map fun r => (name, r)) ∧
      rows.map (fun r => (r.countA, r.countE)) = variableCounts ta te ∧
      ((0, 0) ∉ variableCounts ta te → variableSummary table name = total) := by
  unfold monitorVariables at h
  split at h
  · simp at h
  · rename_i l hl
    injection h with h
    subst h
    obtain ⟨rows, h1, h2⟩ := mapM_tag_filter (fun v : String × List ℤ × List ℤ => psiRows (variableCounts v.2.1 v.2.2)) Prod.fst
      vars l hl hn _ hv
    obtain ⟨s, h3, h4⟩ := psiRows_ok h1
    refine ⟨rows, s, h3, h2, (C96_psi_table _ _ _ h3).1, fun h0 => ?_⟩
    unfold variableSummary
    rw [h2, List.map_map]
    obtain ⟨-, -, -, e⟩ := systemPsi_ok h4
    have hne : Flt.nan ∉ rows.map PsiRow.psi := by
      intro hc
      exact h0 ((C36_empty_bins _ _ _ h4).1.1 (by rw [e, fltSum_nan_iff]; exact hc))
    have : (rows.map ((fun r : String × PsiRow => r.2.psi) ∘ fun r => (name, r))) = rows.map PsiRow.psi := rfl
    rw [this, fltSum_filter_nan hne, ← e]

/-- C96: every variable of the scorecard is in the table, in that order, with all its bins. -/
theorem C96_variable_order (vars : List (String × List ℤ × List ℤ)) (table : List (String × PsiRow))
    (h : monitorVariables vars = .ok table) :
    table.map (fun r => (r.1, r.2.countA, r.2.countE)) =
      vars.flatMap fun v => (variableCounts v.2.1 v.2.2).map fun q => (v.1, q.1, q.2) := by
  unfold monitorVariables at h
  split at h
  · simp at h
  · rename_i l hl
    injection h with h
    subst h
    have hf := mapM_except_forall₂ _ _ hl
    clear hl
    induction hf with
    | nil => rfl
    | @cons v y vars l hx _ ih =>
      rw [List.flatten_cons, List.map_append, ih, List.flatMap_cons]
      congr 1
      cases hp : psiRows (variableCounts v.2.1 v.2.2) with
      | error m => rw [hp] at hx; simp [Except.map] at hx
      | ok rows =>
        rw [hp] at hx
        simp only [Except.map, Except.ok.injEq] at hx
        subst hx
        obtain ⟨s, h3, -⟩ := psiRows_ok hp
        have := (C96_psi_table _ _ _ h3).1
        rw [← this]
        simp [Function.comp_def]

/-- C96, finding: the summary silently skips NaN: with a bin that is empty in both samples the total PSI of the same table is
NaN (this is what the system table reports), but the summary shows a number. -/
theorem C96_summary_skips_nan :
    ∃ (ta te : List ℤ) (table : List (String × PsiRow)) (l : List Flt),
      monitorVariables [("x", ta, te)] = .ok table ∧ systemPsi (variableCounts ta te) = .ok (l, .nan) ∧
      ∃ r, variableSummary table "x" = .real r := by
  have ec : variableCounts [0, 2] [0, 2] = [(1, 1), (0, 0), (1, 1)] := by decide
  have hsys : systemPsi [(1, 1), (0, 0), (1, 1)] = .ok ([.real 0, .nan, .real 0], .nan) := by
    norm_num [systemPsi, psiTerm, jeffrey, xlogy, fltSum, Flt.add]
  refine ⟨[0, 2], [0, 2], [("x", ⟨1, 1, 1 / 2, 1 / 2, .real 0⟩), ("x", ⟨0, 0, 0, 0, .nan⟩), ("x", ⟨1, 1, 1 / 2, 1 / 2, .real 0⟩)], _, ?_,
    by rw [ec]; exact hsys, 0, ?_⟩
  · simp only [monitorVariables, List.mapM_cons, List.mapM_nil, ec, psiRows, hsys]
    norm_num [bind, pure, Except.bind, Except.pure, Except.map]
  · simp [variableSummary, pandasSum, fltSum, Flt.add]

/-! ### reports -/

/-- C96: the histogram of the PSI report counts every bin of the table once. -/
theorem C96_histogram (psi : List Flt) : (psiHistogram psi).length = 3 ∧ (psiHistogram psi).sum = psi.length := by
  refine ⟨by simp [psiHistogram], ?_⟩
  have e : psiHistogram psi = [psi.countP fun f => psiHistogramBin f == 0, psi.countP fun f => psiHistogramBin f == 1,
      psi.countP fun f => psiHistogramBin f == 2] := rfl
  rw [e]
  induction psi with
  | nil => rfl
  | cons f psi ih =>
    have ih := ih rfl
    have hlt : psiHistogramBin f = 0 ∨ psiHistogramBin f = 1 ∨ psiHistogramBin f = 2 := by
      unfold psiHistogramBin
      cases f with
      | nan => simp
      | inf => simp
      | real r => simp only; split_ifs <;> simp
    simp only [List.countP_cons, List.length_cons, List.sum_cons, List.sum_nil] at ih ⊢
    rcases hlt with h | h | h <;> rw [h] <;> simp <;> omega

/-- C96, finding: the verdict and the histogram disagree about the boundary: a PSI of exactly 0.10 "requires investigation",
but the histogram counts it in the bin labelled "[0.00, 0.10)". -/
theorem C96_histogram_boundary :
    psiVerdict (.real (1 / 10)) = "Requires investigation" ∧ psiHistogram [.real (1 / 10)] = [1, 0, 0] := by
  constructor
  · norm_num [psiVerdict]
  · have : psiHistogramBin (.real (1 / 10)) = 0 := by norm_num [psiHistogramBin]
    have e : psiHistogram [.real (1 / 10)] = [if psiHistogramBin (.real (1 / 10)) == 0 then 1 else 0,
        if psiHistogramBin (.real (1 / 10)) == 1 then 1 else 0, if psiHistogramBin (.real (1 / 10)) == 2 then 1 else 0] := by
      simp [psiHistogram, List.range_succ, List.countP_cons]
    rw [e, this]; rfl

/-! ### C98: the object across fits -/

variable {α Perf : Type} [LinearOrder α]

/-- A call of `fit` that succeeds determines all attributes. -/
theorem fit_ok_state (s : Monitor α Perf) (i : MonitorInput α Perf) (h : (s.fit i).2 = none) :
    ∀ s' : Monitor α Perf, s'.fit i = s.fit i := by
  intro s'
  unfold Monitor.fit at h ⊢
  cases hi : i.invalid with
  | some m => simp [hi] at h
  | none =>
    simp only [hi] at h ⊢
    cases h1 : psiTable (systemCounts i.splits i.act i.exp) with
    | error m => simp [h1] at h
    | ok t =>
      simp only [h1] at h ⊢
      cases h2 : testsBinary i.splits i.act i.exp with
      | error m => simp [h2] at h
      | ok r =>
        simp only [h2] at h ⊢
        cases h3 : i.performance with
        | error m => simp [h3] at h
        | ok p =>
          simp only [h3] at h ⊢
          cases h4 : monitorVariables i.vars with
          | error m => simp [h4] at h
          | ok v => rfl

/-- C98: after a successful `fit` the object is that of a new object fitted with the same arguments, whatever was done with it
before; in particular a repeated `fit` changes nothing. -/
theorem C98_last_fit (history : List (MonitorInput α Perf)) (i : MonitorInput α Perf)
    (h : ((Monitor.run history).fit i).2 = none) :
    Monitor.run (history ++ [i]) = Monitor.run [i] ∧ Monitor.run (history ++ [i, i]) = Monitor.run [i] := by
  have key := fit_ok_state _ i h
  have h1 : Monitor.run (history ++ [i]) = Monitor.run [i] := by
    unfold Monitor.run
    rw [List.foldl_append]
    simp only [List.foldl_cons, List.foldl_nil]
    have := key {}
    unfold Monitor.run at this
    rw [this]
  refine ⟨h1, ?_⟩
  have e : Monitor.run (history ++ [i, i]) = ((Monitor.run (history ++ [i])).fit i).1 := by
    unfold Monitor.run
    simp [List.foldl_append]
  have e' : Monitor.run [i] = ((Monitor.run history).fit i).1 := by
    rw [← key {}]; rfl
  rw [e, key, e']

/-- C98: after a successful `fit` every accessor answers, with the tables of the arguments of that call. -/
theorem C98_tables (s : Monitor α Perf) (i : MonitorInput α Perf) (h : (s.fit i).2 = none) :
    (s.fit i).1.get Monitor.target = .ok (targetColumn (scoreCounts i.splits i.act), targetColumn (scoreCounts i.splits i.exp)) ∧
    (s.fit i).1.get Monitor.psi = psiTable (systemCounts i.splits i.act i.exp) ∧
    (s.fit i).1.get Monitor.tests = testsBinary i.splits i.act i.exp ∧
    (s.fit i).1.get Monitor.performance = i.performance ∧
    (s.fit i).1.get Monitor.splits = .ok i.splits ∧
    (s.fit i).1.get Monitor.perVariable = monitorVariables i.vars := by
  unfold Monitor.fit at h ⊢
  cases hi : i.invalid with
  | some m => simp [hi] at h
  | none =>
    simp only [hi] at h ⊢
    cases h1 : psiTable (systemCounts i.splits i.act i.exp) with
    | error m => simp [h1] at h
    | ok t =>
      simp only [h1] at h ⊢
      cases h2 : testsBinary i.splits i.act i.exp with
      | error m => simp [h2] at h
      | ok r =>
        simp only [h2] at h ⊢
        cases h3 : i.performance with
        | error m => simp [h3] at h
        | ok p =>
          simp only [h3] at h ⊢
          cases h4 : monitorVariables i.vars with
          | error m => simp [h4] at h
          | ok v => simp [Monitor.get]

theorem fit_fitted (s : Monitor α Perf) (i : MonitorInput α Perf) :
    (s.fit i).1.fitted = true ↔ s.fitted = true ∨ (s.fit i).2 = none := by
  unfold Monitor.fit
  cases hi : i.invalid with
  | some m => simp
  | none =>
    simp only
    cases h1 : psiTable (systemCounts i.splits i.act i.exp) with
    | error m => simp
    | ok t =>
      simp only
      cases h2 : testsBinary i.splits i.act i.exp with
      | error m => simp
      | ok r =>
        simp only
        cases h3 : i.performance with
        | error m => simp
        | ok p =>
          simp only
          cases h4 : monitorVariables i.vars with
          | error m => simp
          | ok v => simp

/-- Whether a call of `fit` succeeds depends on its arguments only. -/
theorem fit_outcome (s s' : Monitor α Perf) (i : MonitorInput α Perf) : (s.fit i).2 = (s'.fit i).2 := by
  unfold Monitor.fit
  cases hi : i.invalid with
  | some m => simp
  | none =>
    simp only
    cases h1 : psiTable (systemCounts i.splits i.act i.exp) with
    | error m => simp
    | ok t =>
      simp only
      cases h2 : testsBinary i.splits i.act i.exp with
      | error m => simp
      | ok r =>
        simp only
        cases h3 : i.performance with
        | error m => simp
        | ok p =>
          simp only
          cases h4 : monitorVariables i.vars with
          | error m => simp
          | ok v => simp

/-- C98: the accessors raise `NotFittedError` exactly as long as no call of `fit` has succeeded. -/
theorem C98_not_fitted (history : List (MonitorInput α Perf)) :
    (Monitor.run history).get Monitor.psi = .error "NotFittedError" ↔
      ∀ i ∈ history, ((Monitor.run []).fit i).2 ≠ none := by
  have hinv : ∀ (l : List (MonitorInput α Perf)) (s : Monitor α Perf), (s.fitted = true → s.psi ≠ none) →
      ((l.foldl (fun s i => (s.fit i).1) s).fitted = true → (l.foldl (fun s i => (s.fit i).1) s).psi ≠ none) ∧
      ((l.foldl (fun s i => (s.fit i).1) s).fitted = true ↔ s.fitted = true ∨ ∃ i ∈ l, ((Monitor.run []).fit i).2 = none) := by
    intro l
    induction l with
    | nil => intro s hs; simpa using hs
    | cons i l ih =>
      intro s hs
      have hstep : ((s.fit i).1.fitted = true → (s.fit i).1.psi ≠ none) := by
        unfold Monitor.fit
        cases hi : i.invalid with
        | some m => simpa using hs
        | none =>
          simp only
          cases h1 : psiTable (systemCounts i.splits i.act i.exp) with
          | error m => simpa using hs
          | ok t =>
            simp only
            cases h2 : testsBinary i.splits i.act i.exp with
            | error m => simp
            | ok r =>
              simp only
              cases h3 : i.performance with
              | error m => simp
              | ok p =>
                simp only
                cases h4 : monitorVariables i.vars with
                | error m => simp
                | ok v => simp
      obtain ⟨h1, h2⟩ := ih _ hstep
      refine ⟨h1, ?_⟩
      rw [List.foldl_cons, h2, fit_fitted, fit_outcome s (Monitor.run []) i]
      simp only [List.mem_cons, exists_eq_or_imp, or_assoc]
  obtain ⟨h1, h2⟩ := hinv history {} (by simp)
  change ((Monitor.run history).fitted = true → (Monitor.run history).psi ≠ none) at h1
  change ((Monitor.run history).fitted = true ↔ _) at h2
  unfold Monitor.get
  by_cases hf : (Monitor.run history).fitted = true
  · rw [if_pos hf]
    have hp := h1 hf
    constructor
    · intro hc
      cases hq : (Monitor.run history).psi with
      | none => exact absurd hq hp
      | some x => simp [hq] at hc
    · intro hall
      rcases h2.1 hf with h | ⟨i, hi, hn⟩
      · simp at h
      · exact absurd hn (hall i hi)
  · rw [if_neg hf]
    simp only [true_iff]
    intro i hi hc
    exact hf (h2.2 (Or.inr ⟨i, hi, hc⟩))

/-- C98: a call rejected by the argument checks changes nothing. -/
theorem C98_rejected (s : Monitor α Perf) (i : MonitorInput α Perf) (m : String) (h : i.invalid = some m) :
    s.fit i = (s, some m) := by
  unfold Monitor.fit; rw [h]

/-- A call of `fit` that succeeds, and one that fails in the significance tests. -/
def goodInput : MonitorInput ℚ Unit :=
  { splits := [], act := [(0, true), (1, false)], exp := [(0, true), (2, false)], performance := .ok (), vars := [("x", [0, 0], [0, 0])] }
def badInput : MonitorInput ℚ Unit :=
  { splits := [], act := [(0, true)], exp := [(0, true)], performance := .ok (), vars := [("x", [0], [0])] }

theorem psiTable_one (n : ℕ) (hn : n ≠ 0) : psiTable [(n, n)] = .ok ([⟨n, n, 1, 1, .real 0⟩], .real 0) := by
  have : (n : ℝ) ≠ 0 := by exact_mod_cast hn
  have h1 : (n : ℝ) / n = 1 := div_self this
  have hs : systemPsi [(n, n)] = .ok ([.real 0], .real 0) := by
    simp [systemPsi, psiTerm, jeffrey, xlogy, fltSum, Flt.add, h1, hn]
  simp [psiTable, psiRows, hs, h1]

theorem goodInput_ok (s : Monitor ℚ Unit) : (s.fit goodInput).2 = none := by
  have e1 : psiTable (systemCounts goodInput.splits goodInput.act goodInput.exp) = .ok ([⟨2, 2, 1, 1, .real 0⟩], .real 0) :=
    psiTable_one 2 (by norm_num)
  have e2 : testsBinary goodInput.splits goodInput.act goodInput.exp = .ok [⟨2, 2, .num (1 / 2), .num (1 / 2), .num 0⟩] := by
    norm_num [testsBinary, goodInput, scoreCounts, digitize, testRow, chi2Contingency, XQ.div]
  have e3 : psiRows (variableCounts [0, 0] [0, 0]) = .ok [⟨2, 2, 1, 1, .real 0⟩] := by
    have : variableCounts [0, 0] [0, 0] = [(2, 2)] := by decide
    rw [this]
    have h := psiTable_one 2 (by norm_num)
    unfold psiTable at h
    cases hp : psiRows [(2, 2)] with
    | error m => simp [hp] at h
    | ok rows =>
      rw [hp] at h
      cases hq : systemPsi [(2, 2)] with
      | error m => simp [hq] at h
      | ok p => simp only [hq, Except.ok.injEq, Prod.mk.injEq] at h; rw [h.1]
  have e4 : monitorVariables goodInput.vars = .ok [("x", ⟨2, 2, 1, 1, .real 0⟩)] := by
    simp only [monitorVariables, goodInput, List.mapM_cons, List.mapM_nil, e3]
    rfl
  unfold Monitor.fit
  have e0 : goodInput.invalid = none := rfl
  simp only [e0, e1, e2, e4]
  rfl

/-- C98, counterexample to "a failed `fit` leaves the object as it was": refitted with data on which the significance tests
fail, the object stays fitted and shows the PSI table of the new data next to the tests of the old data. -/
theorem C98_mixture :
    ∃ (i j : MonitorInput ℚ Unit), ((Monitor.run []).fit i).2 = none ∧ ((Monitor.run [i]).fit j).2 = some "ValueError" ∧
      (∃ rows total, (Monitor.run [i, j]).get Monitor.psi = .ok (rows, total) ∧ rows.map PsiRow.countA = [1]) ∧
      (∃ rows, (Monitor.run [i, j]).get Monitor.tests = .ok rows ∧ rows.map TestRow.countA = [2]) := by
  refine ⟨goodInput, badInput, goodInput_ok _, ?_, ?_, ?_⟩
  all_goals
    have b1 : psiTable (systemCounts badInput.splits badInput.act badInput.exp) = .ok ([⟨1, 1, 1, 1, .real 0⟩], .real 0) := by
      exact psiTable_one 1 (by norm_num)
    have b2 : testsBinary badInput.splits badInput.act badInput.exp = .error "ValueError" := by
      norm_num [testsBinary, badInput, scoreCounts, digitize, testRow, chi2Contingency]
    have b0 : badInput.invalid = none := rfl
    have e2 : testsBinary goodInput.splits goodInput.act goodInput.exp = .ok [⟨2, 2, .num (1 / 2), .num (1 / 2), .num 0⟩] := by
      norm_num [testsBinary, goodInput, scoreCounts, digitize, testRow, chi2Contingency, XQ.div]
    have bfit : ∀ s : Monitor ℚ Unit, s.fit badInput =
        ({ s with target := some (targetColumn (scoreCounts badInput.splits badInput.act), targetColumn (scoreCounts badInput.splits badInput.exp)),
                  psi := some ([⟨1, 1, 1, 1, .real 0⟩], .real 0) }, some "ValueError") := by
      intro s; unfold Monitor.fit; simp only [b0, b1, b2]
    have ht := (C98_tables (Monitor.run []) goodInput (goodInput_ok _)).2.2.1
    rw [e2] at ht
    have hrun : Monitor.run [goodInput] = ((Monitor.run []).fit goodInput).1 := rfl
    have hrun2 : Monitor.run [goodInput, badInput] = ((Monitor.run [goodInput]).fit badInput).1 := rfl
    have hfit : (Monitor.run [goodInput]).fitted = true := by
      rw [hrun, fit_fitted]; exact Or.inr (goodInput_ok _)
  · rw [bfit]
  · refine ⟨[⟨1, 1, 1, 1, .real 0⟩], .real 0, ?_, rfl⟩
    rw [hrun2, bfit]; unfold Monitor.get; simp only [hfit, if_true]
  · refine ⟨[⟨2, 2, .num (1 / 2), .num (1 / 2), .num 0⟩], ?_, rfl⟩
    rw [hrun2, bfit]
    rw [← hrun] at ht
    unfold Monitor.get at ht ⊢
    simp only [hfit, if_true] at ht ⊢
    exact ht

/-- Non-vacuity of C98: a history of a failed, a successful and again a successful call. -/
example : Monitor.run ([badInput, goodInput] ++ [goodInput]) = Monitor.run [goodInput] :=
  (C98_last_fit [badInput, goodInput] goodInput (goodInput_ok _)).1

/-- Non-vacuity of C96: two score bins, with different event rates in the second. -/
example : testsBinary [(1 : ℚ)] [(0, true), (1, false), (2, true), (3, false)] [(0, true), (1, false), (2, false), (3, false), (4, true)] =
    .ok [⟨2, 2, .num (1 / 2), .num (1 / 2), .num 0⟩, ⟨2, 3, .num (1 / 2), .num (2 / 3), .num (5 / 36)⟩] := by
  norm_num [testsBinary, scoreCounts, digitize, testRow, chi2Contingency, XQ.div, List.range_succ]
  rfl

end OptBinning
