import Verif.Lemmas.ProcessSelect
import Mathlib.Algebra.BigOperators.Group.List.Basic
import Mathlib.Tactic.Ring

/-! # Lemmas on the fit, the histories and the transformations of a binning process -/
set_option linter.unusedSectionVars false
namespace OptBinning
open Spec

section
variable {χ V μ : Type*} [Field V] [LinearOrder V] [IsStrictOrderedRing V]

theorem supp_replicate_true (n : ℕ) : supp (List.replicate n true) = Finset.range n := by
  ext i
  unfold supp
  simp only [List.length_replicate, Finset.mem_filter, Finset.mem_range, and_iff_left_iff_imp]
  intro h
  rw [List.getD_eq_getElem _ _ (by simpa using h)]; simp

theorem mem_supp' {s : List Bool} {i : ℕ} : i ∈ supp s ↔ s[i]? = some true := by
  rw [mem_supp, List.getD_eq_getElem?_getD]
  cases s[i]? <;> simp

theorem idxOf_iff {names : List String} (hnd : names.Nodup) {f : String} (hf : f ∈ names) (i : ℕ) :
    i = names.idxOf f ↔ names[i]? = some f := by
  constructor
  · rintro rfl
    exact List.getElem?_idxOf hf
  · intro h
    obtain ⟨hi, rfl⟩ := List.getElem?_eq_some_iff.1 h
    exact (hnd.idxOf_getElem i hi).symm

/-- The statistics are those of the objects. -/
theorem supportOf_selected {argsort : List V → List ℕ} (ha : ArgsortOk argsort) {cfg : ProcCfg V μ} {t : TargetType}
    {stats : PDict (String → V)} (hk : stats.keys = cfg.names) (hnd : cfg.names.Nodup) {s : List Bool}
    (h : supportOf argsort cfg t stats = .ok s) {v : String → ℕ → V}
    (hv : ∀ i < cfg.names.length, ∀ m, stats[i]?.map (fun p => p.2 m) = some (v m i)) :
    Selected cfg.names (targetMetrics t) (cfg.criteria.map fun c => c.get) (cfg.fixed.getD []) v s := by
  have hlen : stats.length = cfg.names.length := by rw [← hk]; simp [PDict.keys]
  unfold supportOf at h
  cases hc : cfg.criteria with
  | none =>
    rw [hc] at h
    simp only [Except.ok.injEq] at h
    subst h
    exact ⟨by simp, fun b hb => (List.mem_replicate.1 hb).2⟩
  | some crit =>
    rw [hc] at h
    simp only [hlen, bne_self_eq_false, Bool.and_false, Bool.false_eq_true, if_false] at h
    have hch := selectMetrics_chain ha crit (stats.map Prod.snd) (targetMetrics t) (List.replicate cfg.names.length true)
      (by simp [hlen])
    set s0 := selectMetrics argsort crit (stats.map Prod.snd) (targetMetrics t) (List.replicate cfg.names.length true)
    rw [supp_replicate_true] at hch
    obtain ⟨hl0, hch⟩ := hch
    rw [List.length_replicate] at hl0
    -- the values of the rows
    have hcong : ∀ (ms : List String) (S T : Finset ℕ), S ⊆ Finset.range cfg.names.length →
        SelectChain (fun m i => ((stats.map Prod.snd).map fun r => r m).getD i 0) crit.get ms S T →
        SelectChain v crit.get ms S T := by
      intro ms
      induction ms with
      | nil => intro S T _ h; exact h
      | cons m ms ih =>
        intro S T hS hSC
        obtain ⟨U, hU, hUT⟩ := hSC
        have hval : ∀ i ∈ S, ((stats.map Prod.snd).map fun r => r m).getD i 0 = v m i := by
          intro i hi
          have := hv i (Finset.mem_range.1 (hS hi)) m
          rw [List.getD_eq_getElem?_getD, List.getElem?_map, List.getElem?_map, Option.map_map]
          rw [show ((fun r : String → V => r m) ∘ Prod.snd) = fun p : String × (String → V) => p.2 m from rfl, this]
          rfl
        cases hcm : crit.get m with
        | none =>
          rw [hcm] at hU
          refine ⟨U, by rw [hcm]; exact hU, ih U T (hU ▸ hS) hUT⟩
        | some c =>
          rw [hcm] at hU
          have hU' : SelectStep (fun i => ((stats.map Prod.snd).map fun r => r m).getD i 0) c S U := hU
          have hUS : U ⊆ S := hU'.subset.trans (by classical exact Finset.filter_subset _ _)
          refine ⟨U, ?_, ih U T (hUS.trans hS) hUT⟩
          rw [hcm]
          show SelectStep (v m) c S U
          classical
          have hfil : S.filter (fun i => InBounds c (((stats.map Prod.snd).map fun r => r m).getD i 0)) =
              S.filter (fun i => InBounds c (v m i)) := Finset.filter_congr fun i hi => by rw [hval i hi]
          unfold SelectStep at hU' ⊢
          cases hs : c.strategy with
          | none => rw [hs] at hU'; exact (show U = _ from hU').trans hfil
          | some st =>
            cases ht : c.top with
            | none => rw [hs, ht] at hU'; exact (show U = _ from hU').trans hfil
            | some tp =>
              rw [hs, ht] at hU'
              simp only at hU' ⊢
              have hfil' := hfil
              obtain ⟨h1, h2, h3⟩ := hU'
              refine ⟨?_, ?_, ?_⟩
              · intro i hi
                have := Finset.mem_filter.1 (h1 hi)
                exact Finset.mem_filter.2 ⟨this.1, (hval i this.1) ▸ this.2⟩
              · exact h2.trans (congrArg (fun F : Finset ℕ => topNumber tp F.card) hfil)
              · intro i hi j hj hji
                have hj1 := Finset.mem_filter.1 hj
                have := h3 i hi j (Finset.mem_filter.2 ⟨hj1.1, by rw [hval j hj1.1]; exact hj1.2⟩) hji
                rwa [hval i (hUS hi), hval j hj1.1] at this
    have hch' := hcong _ _ _ (Finset.Subset.refl _) hch
    cases hf : cfg.fixed with
    | none =>
      rw [hf] at h
      simp only [Except.ok.injEq] at h
      subst h
      exact ⟨hl0, _, hch', fun i _ => by simp [mem_supp']⟩
    | some fs =>
      rw [hf] at h
      simp only at h
      obtain ⟨h1, h2, h3⟩ := fixVariables_spec cfg.names fs s0 s hl0 h
      refine ⟨by rw [h2, hl0], _, hch', fun i hi => ?_⟩
      rw [← mem_supp', h3 i hi]
      refine or_congr Iff.rfl ⟨?_, ?_⟩
      · rintro ⟨f, hf, hif⟩; exact ⟨f, hf, (idxOf_iff hnd (h1 f hf) i).1 hif⟩
      · rintro ⟨f, hf, hif⟩; exact ⟨f, hf, (idxOf_iff hnd (h1 f hf) i).2 hif⟩

/-! ### statistics -/

theorem computeStats_get {binned : PDict (BinObj χ V μ)} : ∀ {ns : List String} {stats stats' : PDict (String → V)},
    computeStats binned ns stats = .ok stats' → ∀ k, stats'.get k =
      if k ∈ ns then (binned.get k).map BinObj.metric else stats.get k
  | [], stats, stats', h, k => by simp only [computeStats, Except.ok.injEq] at h; subst h; simp
  | n :: ns, stats, stats', h, k => by
    simp only [computeStats] at h
    cases hb : binned.get n with
    | none => rw [hb] at h; simp at h
    | some ob =>
      rw [hb] at h
      simp only at h
      by_cases hk : ob.kind = .continuousPiecewise
      · rw [if_pos hk] at h; simp at h
      · rw [if_neg hk] at h
        rw [computeStats_get h k, PDict.get_set]
        by_cases hkn : k ∈ ns
        · simp [hkn]
        · by_cases hkn' : k = n
          · subst hkn'; simp [hkn, hb]
          · simp [hkn, hkn']

theorem computeStats_kind {binned : PDict (BinObj χ V μ)} : ∀ {ns : List String} {stats stats' : PDict (String → V)},
    computeStats binned ns stats = .ok stats' → ∀ n ∈ ns, ∃ ob, binned.get n = some ob ∧ ob.kind ≠ .continuousPiecewise
  | [], stats, stats', h, k => by simp
  | n :: ns, stats, stats', h, k => by
    simp only [computeStats] at h
    cases hb : binned.get n with
    | none => rw [hb] at h; simp at h
    | some ob =>
      rw [hb] at h
      simp only at h
      by_cases hk : ob.kind = .continuousPiecewise
      · rw [if_pos hk] at h; simp at h
      · rw [if_neg hk] at h
        intro hm
        rcases List.mem_cons.1 hm with rfl | hm
        · exact ⟨ob, hb, hk⟩
        · exact computeStats_kind h k hm

theorem computeStats_keys_mem {binned : PDict (BinObj χ V μ)} : ∀ {ns : List String} {stats stats' : PDict (String → V)},
    computeStats binned ns stats = .ok stats' → (∀ n ∈ ns, n ∈ stats.keys) → stats'.keys = stats.keys
  | [], stats, stats', h, _ => by simp only [computeStats, Except.ok.injEq] at h; subst h; rfl
  | n :: ns, stats, stats', h, hm => by
    simp only [computeStats] at h
    cases hb : binned.get n with
    | none => rw [hb] at h; simp at h
    | some ob =>
      rw [hb] at h
      simp only at h
      by_cases hk : ob.kind = .continuousPiecewise
      · rw [if_pos hk] at h; simp at h
      · rw [if_neg hk] at h
        have hks := PDict.keys_set_of_mem stats ob.metric (hm n (by simp))
        rw [computeStats_keys_mem h (fun m hmm => by rw [hks]; exact hm m (by simp [hmm])), hks]

theorem computeStats_keys_new {binned : PDict (BinObj χ V μ)} : ∀ {ns : List String} {stats stats' : PDict (String → V)},
    computeStats binned ns stats = .ok stats' → (∀ n ∈ ns, n ∉ stats.keys) → ns.Nodup → stats'.keys = stats.keys ++ ns
  | [], stats, stats', h, _, _ => by simp only [computeStats, Except.ok.injEq] at h; subst h; simp
  | n :: ns, stats, stats', h, hm, hnd => by
    simp only [computeStats] at h
    cases hb : binned.get n with
    | none => rw [hb] at h; simp at h
    | some ob =>
      rw [hb] at h
      simp only at h
      by_cases hk : ob.kind = .continuousPiecewise
      · rw [if_pos hk] at h; simp at h
      · rw [if_neg hk] at h
        have hks := PDict.keys_set_of_not_mem stats ob.metric (hm n (by simp))
        rw [List.nodup_cons] at hnd
        rw [computeStats_keys_new h (fun m hmm => by
          rw [hks, List.mem_append, not_or]
          refine ⟨hm m (by simp [hmm]), ?_⟩
          rw [List.mem_singleton]
          rintro rfl
          exact hnd.1 hmm) hnd.2, hks]
        simp

/-- What `_binning_selection_criteria` establishes, on a new object or on one whose statistics are those of the same
variables in the same order. -/
theorem selectionCriteria_selected {argsort : List V → List ℕ} (ha : ArgsortOk argsort) {cfg : ProcCfg V μ}
    (hnd : cfg.names.Nodup) {st st' : ProcState χ V μ} (hst : st.stats = [] ∨ st.stats.keys = cfg.names)
    (h : selectionCriteria argsort cfg st = .ok st') :
    Selected cfg.names (targetMetrics st'.target) (cfg.criteria.map fun c => c.get) (cfg.fixed.getD [])
      (metricValue cfg.names st'.binned) st'.support ∧ st'.stats.keys = cfg.names ∧ st'.binned = st.binned ∧
      st'.target = st.target ∧ st'.updated = st.updated := by
  unfold selectionCriteria at h
  cases h1 : computeStats st.binned cfg.names st.stats with
  | error e => rw [h1] at h; simp at h
  | ok stats =>
    rw [h1] at h
    simp only at h
    cases h2 : supportOf argsort cfg st.target stats with
    | error e => rw [h2] at h; simp at h
    | ok s =>
      rw [h2] at h
      simp only [Except.ok.injEq] at h
      subst h
      have hkeys : stats.keys = cfg.names := by
        rcases hst with h0 | h0
        · rw [h0] at h1
          simpa [PDict.keys] using computeStats_keys_new h1 (by simp [PDict.keys]) hnd
        · rw [computeStats_keys_mem h1 (by rw [h0]; exact fun n hn => hn), h0]
      refine ⟨supportOf_selected ha hkeys hnd h2 ?_, hkeys, rfl, rfl, rfl⟩
      intro i hi m
      have hi' : i < stats.length := by
        have : stats.length = cfg.names.length := by rw [← hkeys]; simp [PDict.keys]
        omega
      have hnm : (stats[i]).1 = cfg.names[i] := by
        have : stats.keys[i]'(by simpa [PDict.keys] using hi') = cfg.names[i] := by simp [hkeys]
        simpa [PDict.keys] using this
      have hg := PDict.get_getElem stats (hkeys ▸ hnd) i hi'
      rw [hnm, computeStats_get h1, if_pos (List.getElem_mem hi)] at hg
      obtain ⟨ob, hob, _⟩ := computeStats_kind h1 _ (List.getElem_mem hi)
      rw [hob] at hg
      simp only [Option.map_some, Option.some.injEq] at hg
      rw [List.getElem?_eq_getElem hi', Option.map_some, ← hg]
      simp [metricValue, List.getElem?_eq_getElem hi, hob]

/-! ### the fit does not depend on the number of workers -/

/-- The objects of the variables `(index, name)`; `none` if one of them cannot be fitted. -/
def fitAll (fitVar : FitVar χ V μ) (X : Frame χ) : List (ℕ × String) → Option (PDict (BinObj χ V μ))
  | [] => some []
  | (i, n) :: l =>
    match X.col i n with
    | .error _ => none
    | .ok x => match fitVar n x with
      | .error _ => none
      | .ok ob => (fitAll fitVar X l).map fun r => (n, ob) :: r

theorem fitAll_keys {fitVar : FitVar χ V μ} {X : Frame χ} : ∀ {l : List (ℕ × String)} {r : PDict (BinObj χ V μ)},
    fitAll fitVar X l = some r → r.keys = l.map Prod.snd
  | [], r, h => by simp only [fitAll, Option.some.injEq] at h; subst h; rfl
  | (i, n) :: l, r, h => by
    simp only [fitAll] at h
    cases h1 : X.col i n with
    | error e => rw [h1] at h; simp at h
    | ok x =>
      rw [h1] at h
      simp only at h
      cases h2 : fitVar n x with
      | error e => rw [h2] at h; simp at h
      | ok ob =>
        rw [h2] at h
        simp only [Option.map_eq_some_iff] at h
        obtain ⟨r', hr', rfl⟩ := h
        simp [PDict.keys]
        simpa [PDict.keys] using fitAll_keys hr'

theorem fitAll_append (fitVar : FitVar χ V μ) (X : Frame χ) : ∀ (l l' : List (ℕ × String)),
    fitAll fitVar X (l ++ l') = (fitAll fitVar X l).bind fun r => (fitAll fitVar X l').map fun r' => r ++ r'
  | [], l' => by simp [fitAll]
  | (i, n) :: l, l' => by
    simp only [List.cons_append, fitAll]
    cases h1 : X.col i n with
    | error e => simp
    | ok x =>
      cases h2 : fitVar n x with
      | error e => simp [h2]
      | ok ob =>
        simp only [h2, fitAll_append fitVar X l l']
        cases fitAll fitVar X l with
        | none => simp
        | some r => cases fitAll fitVar X l' <;> simp

theorem fitSeq_toOption (fitVar : FitVar χ V μ) (X : Frame χ) : ∀ (ns : List String) (i : ℕ) (d : PDict (BinObj χ V μ)),
    (fitSeq fitVar X i ns d).toOption = (fitAll fitVar X ((ns.zipIdx i).map fun p => (p.2, p.1))).map fun r => d.update r
  | [], i, d => by simp [fitSeq, fitAll, PDict.update, Except.toOption]
  | n :: ns, i, d => by
    simp only [fitSeq, List.zipIdx_cons, List.map_cons, fitAll]
    cases X.col i n with
    | error e => simp [Except.toOption]
    | ok x =>
      cases h2 : fitVar n x with
      | error e => simp [Except.toOption, h2]
      | ok ob =>
        simp only [h2, Option.map_map]
        rw [fitSeq_toOption fitVar X ns (i + 1) (d.set n ob)]
        rfl

theorem PDict.set_append_of_not_mem {β : Type*} (d : PDict β) {k : String} (v : β) (h : k ∉ d.keys) :
    d.set k v = d ++ [(k, v)] := by
  induction d with
  | nil => rfl
  | cons p d ih =>
    simp only [PDict.keys, List.map_cons, List.mem_cons, not_or] at h
    have h' : (p.1 == k) = false := by simp [Ne.symm h.1]
    simp only [PDict.set, h', Bool.false_eq_true, if_false, List.cons_append]
    rw [ih h.2]

theorem PDict.update_append_of_disjoint {β : Type*} (e : PDict β) : ∀ (d : PDict β), e.keys.Nodup →
    (∀ k ∈ e.keys, k ∉ d.keys) → d.update e = d ++ e := by
  induction e with
  | nil => intro d _ _; simp [PDict.update]
  | cons p e ih =>
    intro d hnd hdis
    simp only [PDict.keys, List.map_cons, List.nodup_cons] at hnd
    have h1 := PDict.set_append_of_not_mem d p.2 (hdis p.1 (by simp [PDict.keys]))
    have : d.update (p :: e) = PDict.update (d.set p.1 p.2) e := rfl
    rw [this, h1, ih (d ++ [p]) hnd.2 ?_]
    · simp
    · intro k hk
      have h2 := hdis k (by simp only [PDict.keys, List.map_cons, List.mem_cons]; exact Or.inr hk)
      simp only [PDict.keys, List.map_append, List.map_cons, List.map_nil, List.mem_append, List.mem_singleton, not_or]
      refine ⟨h2, ?_⟩
      rintro rfl
      exact hnd.1 hk

theorem PDict.update_append {β : Type*} (d e f : PDict β) : d.update (e ++ f) = (d.update e).update f := by
  simp [PDict.update, List.foldl_append]

theorem fitAll_congr {fitVar : FitVar χ V μ} {X Y : Frame χ} : ∀ {l l' : List (ℕ × String)},
    List.Forall₂ (fun p q => p.2 = q.2 ∧ (X.col p.1 p.2).toOption = (Y.col q.1 q.2).toOption) l l' →
      fitAll fitVar X l = fitAll fitVar Y l'
  | [], [], _ => rfl
  | (i, n) :: l, (j, m) :: l', h => by
    rw [List.forall₂_cons] at h
    obtain ⟨⟨hn, hc⟩, ht⟩ := h
    have hnm : n = m := hn
    subst hnm
    simp only [fitAll]
    rw [fitAll_congr ht]
    cases hX : X.col i n with
    | error e =>
      cases hY : Y.col j n with
      | error e' => rfl
      | ok y => rw [hX, hY] at hc; simp [Except.toOption] at hc
    | ok x =>
      cases hY : Y.col j n with
      | error e' => rw [hX, hY] at hc; simp [Except.toOption] at hc
      | ok y =>
        rw [hX, hY] at hc
        simp only [Except.toOption, Option.some.injEq] at hc
        subst hc; rfl

theorem get_block_df (cols : List (String × List χ)) : ∀ (ns : List String) (n : String), n ∈ ns →
    PDict.get (ns.filterMap fun n => (PDict.get cols n).map fun c => (n, c)) n = PDict.get cols n
  | [], n, h => by simp at h
  | m :: ns, n, h => by
    by_cases hmn : m = n
    · subst hmn
      cases hg : PDict.get cols m with
      | none =>
        simp only [List.filterMap_cons, hg, Option.map_none]
        by_cases hm : m ∈ ns
        · rw [get_block_df cols ns m hm, hg]
        · have : m ∉ PDict.keys (ns.filterMap fun n => (PDict.get cols n).map fun c => (n, c)) := by
            intro hk
            simp only [PDict.keys, List.mem_map, List.mem_filterMap, Option.map_eq_some_iff] at hk
            obtain ⟨p, ⟨q, hq, c, hc, hp⟩, hpm⟩ := hk
            rw [← hp] at hpm
            simp only at hpm
            subst hpm
            exact hm hq
          rw [← PDict.get_isSome_iff] at this
          simpa using this
      | some c =>
        simp only [List.filterMap_cons, hg, Option.map_some]
        simp [PDict.get]
    · have hn : n ∈ ns := by
        rcases List.mem_cons.1 h with h | h
        · exact absurd h.symm hmn
        · exact h
      have hmn' : (m == n) = false := by simp [hmn]
      cases hg : PDict.get cols m with
      | none => simp only [List.filterMap_cons, hg, Option.map_none]; exact get_block_df cols ns n hn
      | some c =>
        simp only [List.filterMap_cons, hg, Option.map_some]
        rw [← get_block_df cols ns n hn]
        unfold PDict.get
        simp [List.find?_cons, hmn']

theorem fitAll_none_of_missing {fitVar : FitVar χ V μ} {X : Frame χ} : ∀ {l : List (ℕ × String)} {p : ℕ × String},
    p ∈ l → (X.col p.1 p.2).toOption = none → fitAll fitVar X l = none
  | [], p, h, _ => by simp at h
  | (i, n) :: l, p, h, hc => by
    simp only [fitAll]
    rcases List.mem_cons.1 h with rfl | h
    · cases hX : X.col i n with
      | error e => rfl
      | ok x => simp [hX, Except.toOption] at hc
    · have := fitAll_none_of_missing (fitVar := fitVar) h hc
      cases h1 : X.col i n with
      | error e => rfl
      | ok x => cases h2 : fitVar n x with
        | error e => simp [h2]
        | ok ob => simp [h2, this]

theorem filterMap_getElem?_of_lt {β : Type*} (l : List β) : ∀ (ids : List ℕ), (∀ i ∈ ids, i < l.length) →
    ∀ k : ℕ, (ids.filterMap fun i : ℕ => l[i]?)[k]? = ids[k]?.bind fun i : ℕ => l[i]?
  | [], _, k => by simp
  | i :: ids, h, k => by
    have hi := h i (by simp)
    have ih := filterMap_getElem?_of_lt l ids (fun j hj => h j (by simp [hj]))
    rw [List.filterMap_cons]
    rw [List.getElem?_eq_getElem hi]
    cases k with
    | zero => simp [List.getElem?_eq_getElem hi]
    | succ k => simpa using ih k

theorem fitBlock_toOption (fitVar : FitVar χ V μ) (X : Frame χ) (names : List String) (ids : List ℕ)
    (hids : ∀ i ∈ ids, i < X.width) (hnd : (ids.map fun i => names.getD i "").Nodup) :
    (fitBlock fitVar X names ids).toOption = fitAll fitVar X (ids.map fun i => (i, names.getD i "")) := by
  unfold fitBlock
  set ns := ids.map fun i => names.getD i "" with hns
  have key : ∀ Xb : Frame χ, (∀ k (hk : k < ids.length), (Xb.col k (names.getD ids[k] "")).toOption =
      (X.col ids[k] (names.getD ids[k] "")).toOption) →
      (fitSeq fitVar Xb 0 ns []).toOption = fitAll fitVar X (ids.map fun i => (i, names.getD i "")) := by
    intro Xb hcol
    rw [fitSeq_toOption]
    have hcg : fitAll fitVar Xb ((ns.zipIdx 0).map fun p => (p.2, p.1)) =
        fitAll fitVar X (ids.map fun i => (i, names.getD i "")) := by
      apply fitAll_congr
      rw [List.forall₂_iff_get]
      refine ⟨by simp [hns], fun k h1 h2 => ?_⟩
      have hk : k < ids.length := by simpa using h2
      simp only [List.get_eq_getElem, List.getElem_map, List.getElem_zipIdx, hns, Nat.zero_add]
      exact ⟨trivial, hcol k hk⟩
    rw [hcg]
    cases hf : fitAll fitVar X (ids.map fun i => (i, names.getD i "")) with
    | none => rfl
    | some r =>
      have hk := fitAll_keys hf
      rw [Option.map_some, PDict.update_append_of_disjoint r [] ?_ (by simp [PDict.keys])]
      · simp
      · rw [hk]; simpa [Function.comp_def, hns] using hnd
  cases X with
  | array cols =>
    simp only [Frame.block]
    refine key _ fun k hk => ?_
    simp only [Frame.col]
    rw [filterMap_getElem?_of_lt cols ids hids k, List.getElem?_eq_getElem hk]
    simp only [Option.bind_some]
  | df cols =>
    simp only [Frame.block]
    by_cases hall : (ns.all fun n => (PDict.get cols n).isSome) = true
    · rw [if_pos hall]
      refine key _ fun k hk => ?_
      simp only [Frame.col]
      rw [get_block_df cols ns _ (by rw [hns]; exact List.mem_map.2 ⟨ids[k], List.getElem_mem hk, rfl⟩)]
    · rw [if_neg hall]
      simp only [List.all_eq_true, not_forall, Option.not_isSome_iff_eq_none] at hall
      obtain ⟨n, hn, hnone⟩ := hall
      have hnone : PDict.get cols n = none := by
        cases hg : PDict.get cols n with
        | none => rfl
        | some c => simp [hg] at hnone
      rw [hns, List.mem_map] at hn
      obtain ⟨i, hi, rfl⟩ := hn
      rw [fitAll_none_of_missing (p := (i, names.getD i "")) (List.mem_map.2 ⟨i, hi, rfl⟩)]
      · rfl
      · simp only [Frame.col, hnone]; rfl

theorem fitPar_toOption (fitVar : FitVar χ V μ) (X : Frame χ) (names : List String) :
    ∀ (blocks : List (List ℕ)) (d : PDict (BinObj χ V μ)), (∀ b ∈ blocks, (∀ i ∈ b, i < X.width) ∧
      (b.map fun i => names.getD i "").Nodup) →
      (fitPar fitVar X names blocks d).toOption =
        (fitAll fitVar X (blocks.flatten.map fun i => (i, names.getD i ""))).map fun r => d.update r
  | [], d, _ => by simp [fitPar, fitAll, PDict.update, Except.toOption]
  | b :: bs, d, h => by
    have hb := fitBlock_toOption fitVar X names b (h b (by simp)).1 (h b (by simp)).2
    have ih := fun d' => fitPar_toOption fitVar X names bs d' fun b' hb' => h b' (by simp [hb'])
    simp only [fitPar, List.flatten_cons, List.map_append, fitAll_append]
    cases hf : fitBlock fitVar X names b with
    | error e =>
      rw [hf] at hb
      rw [← hb]; rfl
    | ok r =>
      rw [hf] at hb
      rw [← hb]
      simp only [ih]
      simp only [Except.toOption, Option.bind_some, Option.map_map]
      congr 1
      funext r'
      simp [PDict.update_append]

theorem splitLengths_flatten {β : Type*} : ∀ (sz : List ℕ) (l : List β), sz.sum = l.length → (sz.splitLengths l).flatten = l
  | [], l, h => by simp at h; simp [List.eq_nil_of_length_eq_zero h.symm]
  | n :: sz, l, h => by
    rw [List.splitLengths_cons, List.flatten_cons, splitLengths_flatten sz (l.drop n) (by simp at h ⊢; omega)]
    exact List.take_append_drop n l

theorem arraySplit_flatten {β : Type*} (k : ℕ) (hk : 0 < k) (l : List β) : (arraySplit k l).flatten = l := by
  unfold arraySplit
  apply splitLengths_flatten
  rw [List.sum_append, List.sum_replicate, List.sum_replicate]
  have h1 := Nat.mod_lt l.length hk
  have h2 := Nat.div_add_mod l.length k
  set r := l.length % k
  set q := l.length / k
  obtain ⟨m, hm⟩ : ∃ m, k = r + m := ⟨k - r, by omega⟩
  have : k - r = m := by omega
  rw [this, ← h2, hm]
  ring

theorem fitVariables_jobs (njobs : ℕ) (hj : 0 < njobs) (fitVar : FitVar χ V μ) (X : Frame χ) (names : List String)
    (hnd : names.Nodup) (hw : X.width = names.length) (d : PDict (BinObj χ V μ)) :
    (fitVariables njobs fitVar X names d).toOption = (fitSeq fitVar X 0 names d).toOption := by
  unfold fitVariables
  by_cases h1 : njobs = 1
  · rw [if_pos h1]
  · rw [if_neg h1]
    have hfl := arraySplit_flatten njobs hj (List.range names.length)
    have hmem : ∀ b ∈ arraySplit njobs (List.range names.length), ∀ i ∈ b, i < names.length := by
      intro b hb i hi
      have : i ∈ (arraySplit njobs (List.range names.length)).flatten := List.mem_flatten.2 ⟨b, hb, hi⟩
      rw [hfl] at this
      simpa using this
    have hnames : (List.range names.length).map (fun i => names.getD i "") = names := by
      apply List.ext_getElem (by simp)
      intro i h1 h2
      rw [List.getElem_map, List.getElem_range, List.getD_eq_getElem _ _ h2]
    rw [fitPar_toOption, fitSeq_toOption, hfl]
    · congr 2
      apply List.ext_getElem (by simp)
      intro i h1 h2
      have hi : i < names.length := by simpa using h1
      rw [List.getElem_map, List.getElem_range, List.getD_eq_getElem _ _ hi]
      simp
    · intro b hb
      refine ⟨fun i hi => by rw [hw]; exact hmem b hb i hi, ?_⟩
      have hsub : List.Sublist (b.map fun i => names.getD i "") names := by
        have h2 : List.Sublist b (List.range names.length) := by
          conv_rhs => rw [← hfl]
          exact List.sublist_flatten_of_mem hb
        conv_rhs => rw [← hnames]
        exact h2.map _
      exact hnd.sublist hsub

end
end OptBinning
