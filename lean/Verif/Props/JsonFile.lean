import Verif.Spec.JsonFile

/-!
# C115: saving to and loading from JSON files
-/
set_option linter.unusedSectionVars false
namespace OptBinning
open Spec

namespace JsonFile

mutual
theorem dump_ready : ∀ v : PyVal, (∃ j, v.dump = .ok j) ↔ JsonReady v
  | .none => ⟨fun _ => .none, fun _ => ⟨_, by rw [PyVal.dump]⟩⟩
  | .bool b => ⟨fun _ => .bool b, fun _ => ⟨_, by rw [PyVal.dump]⟩⟩
  | .int n => ⟨fun _ => .int n, fun _ => ⟨_, by rw [PyVal.dump]⟩⟩
  | .float v => ⟨fun _ => .float v, fun _ => ⟨_, by rw [PyVal.dump]⟩⟩
  | .str s => ⟨fun _ => .str s, fun _ => ⟨_, by rw [PyVal.dump]⟩⟩
  | .npInt n => ⟨fun ⟨j, h⟩ => (by rw [PyVal.dump] at h; cases h), fun h => (by cases h)⟩
  | .npFloat v => ⟨fun _ => .npFloat v, fun _ => ⟨_, by rw [PyVal.dump]⟩⟩
  | .list l => by
    have h := dumpList_ready l
    constructor
    · rintro ⟨j, hj⟩
      rw [PyVal.dump] at hj
      cases hl : PyVal.dumpList l with
      | error e => rw [hl] at hj; cases hj
      | ok js => exact .list l (h.1 ⟨js, hl⟩)
    · rintro (_ | _ | _ | _ | _ | _ | ⟨_, h1⟩ | _)
      obtain ⟨js, hl⟩ := h.2 h1
      exact ⟨.arr js, by rw [PyVal.dump, hl]⟩
  | .dict l => by
    have h := dumpDict_ready l
    constructor
    · rintro ⟨j, hj⟩
      rw [PyVal.dump] at hj
      cases hl : PyVal.dumpDict l with
      | error e => rw [hl] at hj; cases hj
      | ok js => exact .dict l (h.1 ⟨js, hl⟩)
    · rintro (_ | _ | _ | _ | _ | _ | _ | ⟨_, h1⟩)
      obtain ⟨js, hl⟩ := h.2 h1
      exact ⟨.obj js, by rw [PyVal.dump, hl]⟩
  | .ndarray l => ⟨fun ⟨j, h⟩ => (by rw [PyVal.dump] at h; cases h), fun h => (by cases h)⟩
theorem dumpList_ready : ∀ l : List PyVal, (∃ js, PyVal.dumpList l = .ok js) ↔ ∀ v ∈ l, JsonReady v
  | [] => ⟨fun _ => by simp, fun _ => ⟨[], by rw [PyVal.dumpList]⟩⟩
  | v :: l => by
    have h1 := dump_ready v
    have h2 := dumpList_ready l
    rw [PyVal.dumpList]
    constructor
    · rintro ⟨js, h⟩
      cases hv : v.dump with
      | error e => rw [hv] at h; cases h
      | ok j =>
        rw [hv] at h
        simp only at h
        cases hl : PyVal.dumpList l with
        | error e => rw [hl] at h; cases h
        | ok js' =>
          intro w hw
          rcases List.mem_cons.1 hw with rfl | hw
          · exact h1.1 ⟨j, hv⟩
          · exact h2.1 ⟨js', hl⟩ w hw
    · intro h
      obtain ⟨j, hj⟩ := h1.2 (h v (by simp))
      obtain ⟨js, hjs⟩ := h2.2 (fun w hw => h w (by simp [hw]))
      exact ⟨j :: js, by rw [hj, hjs]⟩
theorem dumpDict_ready : ∀ l : List (String × PyVal), (∃ js, PyVal.dumpDict l = .ok js) ↔ ∀ a ∈ l, JsonReady a.2
  | [] => ⟨fun _ => by simp, fun _ => ⟨[], by rw [PyVal.dumpDict]⟩⟩
  | (k, v) :: l => by
    have h1 := dump_ready v
    have h2 := dumpDict_ready l
    rw [PyVal.dumpDict]
    constructor
    · rintro ⟨js, h⟩
      cases hv : v.dump with
      | error e => rw [hv] at h; cases h
      | ok j =>
        rw [hv] at h
        simp only at h
        cases hl : PyVal.dumpDict l with
        | error e => rw [hl] at h; cases h
        | ok js' =>
          intro w hw
          rcases List.mem_cons.1 hw with rfl | hw
          · exact h1.1 ⟨j, hv⟩
          · exact h2.1 ⟨js', hl⟩ w hw
    · intro h
      obtain ⟨j, hj⟩ := h1.2 (h (k, v) (by simp))
      obtain ⟨js, hjs⟩ := h2.2 (fun w hw => h w (by simp [hw]))
      exact ⟨(k, j) :: js, by rw [hj, hjs]⟩
end

mutual
theorem dump_error : ∀ (v : PyVal) (e : String), v.dump = .error e → e = "TypeError"
  | .none, e, h => by rw [PyVal.dump] at h; cases h
  | .bool b, e, h => by rw [PyVal.dump] at h; cases h
  | .int n, e, h => by rw [PyVal.dump] at h; cases h
  | .float v, e, h => by rw [PyVal.dump] at h; cases h
  | .str s, e, h => by rw [PyVal.dump] at h; cases h
  | .npInt n, e, h => by rw [PyVal.dump] at h; cases h; rfl
  | .npFloat v, e, h => by rw [PyVal.dump] at h; cases h
  | .list l, e, h => by
    have h1 := dumpList_error l
    rw [PyVal.dump] at h
    cases hl : PyVal.dumpList l with
    | error e' => rw [hl] at h; cases h; exact h1 _ hl
    | ok js => rw [hl] at h; cases h
  | .dict l, e, h => by
    have h1 := dumpDict_error l
    rw [PyVal.dump] at h
    cases hl : PyVal.dumpDict l with
    | error e' => rw [hl] at h; cases h; exact h1 _ hl
    | ok js => rw [hl] at h; cases h
  | .ndarray l, e, h => by rw [PyVal.dump] at h; cases h; rfl
theorem dumpList_error : ∀ (l : List PyVal) (e : String), PyVal.dumpList l = .error e → e = "TypeError"
  | [], e, h => by rw [PyVal.dumpList] at h; cases h
  | v :: l, e, h => by
    have h1 := dump_error v
    have h2 := dumpList_error l
    rw [PyVal.dumpList] at h
    cases hv : v.dump with
    | error e' => rw [hv] at h; cases h; exact h1 _ hv
    | ok j =>
      rw [hv] at h
      simp only at h
      cases hl : PyVal.dumpList l with
      | error e' => rw [hl] at h; cases h; exact h2 _ hl
      | ok js => rw [hl] at h; cases h
theorem dumpDict_error : ∀ (l : List (String × PyVal)) (e : String), PyVal.dumpDict l = .error e → e = "TypeError"
  | [], e, h => by rw [PyVal.dumpDict] at h; cases h
  | (k, v) :: l, e, h => by
    have h1 := dump_error v
    have h2 := dumpDict_error l
    rw [PyVal.dumpDict] at h
    cases hv : v.dump with
    | error e' => rw [hv] at h; cases h; exact h1 _ hv
    | ok j =>
      rw [hv] at h
      simp only at h
      cases hl : PyVal.dumpDict l with
      | error e' => rw [hl] at h; cases h; exact h2 _ hl
      | ok js => rw [hl] at h; cases h
end

mutual
/-- Reading back what was written gives the same value, with Python numbers. -/
theorem load_dump : ∀ (v : PyVal) (j : Json), v.dump = .ok j → erase j.load = erase v ∧ (∀ l, v = .list l → ∃ l', j.load = .list l') ∧
    ((∀ l, v ≠ .list l) → ∀ l, j.load ≠ .list l) ∧ (∀ l, j.load ≠ .ndarray l)
  | .none, j, h => by rw [PyVal.dump] at h; cases h; simp [Json.load]
  | .bool b, j, h => by rw [PyVal.dump] at h; cases h; simp [Json.load]
  | .int n, j, h => by rw [PyVal.dump] at h; cases h; simp [Json.load]
  | .float v, j, h => by rw [PyVal.dump] at h; cases h; simp [Json.load]
  | .str s, j, h => by rw [PyVal.dump] at h; cases h; simp [Json.load]
  | .npInt n, j, h => by rw [PyVal.dump] at h; cases h
  | .npFloat v, j, h => by rw [PyVal.dump] at h; cases h; simp [Json.load, erase]
  | .list l, j, h => by
    have h1 := loadList_dump l
    rw [PyVal.dump] at h
    cases hl : PyVal.dumpList l with
    | error e' => rw [hl] at h; cases h
    | ok js => rw [hl] at h; cases h; simp [Json.load, erase, h1 _ hl]
  | .dict l, j, h => by
    have h1 := loadDict_dump l
    rw [PyVal.dump] at h
    cases hl : PyVal.dumpDict l with
    | error e' => rw [hl] at h; cases h
    | ok js => rw [hl] at h; cases h; simp [Json.load, erase, h1 _ hl]
  | .ndarray l, j, h => by rw [PyVal.dump] at h; cases h
theorem loadList_dump : ∀ (l : List PyVal) (js : List Json), PyVal.dumpList l = .ok js → eraseList (Json.loadList js) = eraseList l
  | [], js, h => by rw [PyVal.dumpList] at h; cases h; rfl
  | v :: l, js, h => by
    have h1 := load_dump v
    have h2 := loadList_dump l
    rw [PyVal.dumpList] at h
    cases hv : v.dump with
    | error e' => rw [hv] at h; cases h
    | ok j =>
      rw [hv] at h
      simp only at h
      cases hl : PyVal.dumpList l with
      | error e' => rw [hl] at h; cases h
      | ok js' =>
        rw [hl] at h; cases h
        simp [Json.loadList, eraseList, (h1 _ hv).1, h2 _ hl]
theorem loadDict_dump : ∀ (l : List (String × PyVal)) (js : List (String × Json)), PyVal.dumpDict l = .ok js →
    eraseDict (Json.loadDict js) = eraseDict l
  | [], js, h => by rw [PyVal.dumpDict] at h; cases h; rfl
  | (k, v) :: l, js, h => by
    have h1 := load_dump v
    have h2 := loadDict_dump l
    rw [PyVal.dumpDict] at h
    cases hv : v.dump with
    | error e' => rw [hv] at h; cases h
    | ok j =>
      rw [hv] at h
      simp only at h
      cases hl : PyVal.dumpDict l with
      | error e' => rw [hl] at h; cases h
      | ok js' =>
        rw [hl] at h; cases h
        simp [Json.loadDict, eraseDict, (h1 _ hv).1, h2 _ hl]
end

mutual
theorem erase_toPy : ∀ v : PyVal, erase v.toPy = erase v
  | .none => rfl
  | .bool b => rfl
  | .int n => rfl
  | .float v => rfl
  | .str s => rfl
  | .npInt n => by rw [PyVal.toPy]; simp [erase]
  | .npFloat v => by rw [PyVal.toPy]; simp [erase]
  | .list l => rfl
  | .dict l => rfl
  | .ndarray l => by rw [PyVal.toPy, erase, erase, erase_toPyList l]
theorem erase_toPyList : ∀ l : List PyVal, eraseList (PyVal.toPyList l) = eraseList l
  | [] => rfl
  | v :: l => by rw [PyVal.toPyList, eraseList, eraseList, erase_toPy v, erase_toPyList l]
end

mutual
theorem erase_toNp : ∀ v : PyVal, erase v.toNp = erase v
  | .none => rfl
  | .bool b => rfl
  | .int n => by rw [PyVal.toNp]; simp [erase]
  | .float v => by rw [PyVal.toNp]; simp [erase]
  | .str s => rfl
  | .npInt n => rfl
  | .npFloat v => rfl
  | .list l => by rw [PyVal.toNp, erase, erase, erase_toNpList l]
  | .dict l => rfl
  | .ndarray l => rfl
theorem erase_toNpList : ∀ l : List PyVal, eraseList (PyVal.toNpList l) = eraseList l
  | [] => rfl
  | v :: l => by rw [PyVal.toNpList, eraseList, eraseList, erase_toNp v, erase_toNpList l]
end

theorem erase_len {v : PyVal} (h : ∀ l, v ≠ .ndarray l) : (erase v).len? = v.len? := by
  cases v with
  | ndarray l => exact absurd rfl (h l)
  | list l =>
    rw [erase]
    have : ∀ l : List PyVal, (eraseList l).length = l.length := by
      intro l
      induction l with
      | nil => rfl
      | cons v l ih => simp [eraseList, ih]
    simp [PyVal.len?, this]
  | _ => simp [erase, PyVal.len?]

theorem eraseList_map (l : List PyVal) : eraseList l = l.map erase := by
  induction l with
  | nil => rfl
  | cons v l ih => simp [eraseList, ih]

theorem eraseDict_map (l : List (String × PyVal)) : eraseDict l = l.map fun a => (a.1, erase a.2) := by
  induction l with
  | nil => rfl
  | cons v l ih => obtain ⟨k, v⟩ := v; simp [eraseDict, ih]

theorem ragged_erase {l : List PyVal} (h : ∀ v ∈ l, ∀ m, v ≠ .ndarray m) : ragged (eraseList l) = ragged l := by
  rw [eraseList_map]
  cases l with
  | nil => rfl
  | cons v l =>
    simp only [List.map_cons, ragged, List.any_map]
    rw [Bool.eq_iff_iff, List.any_eq_true, List.any_eq_true]
    refine exists_congr fun w => and_congr_right fun hw => ?_
    simp only [Function.comp]
    rw [erase_len (h v (by simp)), erase_len (h w (by simp [hw]))]

theorem load_not_array (j : Json) (l : List PyVal) : j.load ≠ .ndarray l := by
  cases j <;> simp [Json.load]

theorem loadList_mem {js : List Json} {v : PyVal} (h : v ∈ Json.loadList js) : ∃ j ∈ js, v = j.load := by
  induction js with
  | nil => simp [Json.loadList] at h
  | cons j js ih =>
    rw [Json.loadList] at h
    rcases List.mem_cons.1 h with rfl | h
    · exact ⟨j, by simp, rfl⟩
    · obtain ⟨j', h1, h2⟩ := ih h
      exact ⟨j', by simp [h1], h2⟩

/-- `np.array` on what was read. -/
theorem arrayIfList_load (j : Json) (hr : ∀ l, erase j.load = .list l → ragged l = false) :
    ∃ w, (j.load).arrayIfList = .ok w ∧ erase w = erase j.load := by
  cases hj : j.load with
  | list l =>
    have hrag : ragged l = false := by
      cases j with
      | arr js =>
        simp only [Json.load, PyVal.list.injEq] at hj
        subst hj
        rw [← ragged_erase]
        · exact hr _ (by rw [Json.load, erase])
        · intro v hv m
          obtain ⟨j, -, rfl⟩ := loadList_mem hv
          exact load_not_array j m
      | _ => simp [Json.load] at hj
    refine ⟨.ndarray (PyVal.toNpList l), by simp [PyVal.arrayIfList, hrag], ?_⟩
    rw [erase, erase, erase_toNpList]
  | ndarray l => exact absurd hj (load_not_array j l)
  | _ => exact ⟨_, rfl, rfl⟩

theorem convertAll_load (d : List (String × Json)) (hr : ∀ a ∈ d, ∀ l, erase a.2.load = .list l → ragged l = false) :
    ∃ t, convertAll (Json.loadDict d) = .ok t ∧ t.map (fun a => (a.1, erase a.2)) = d.map (fun a => (a.1, erase a.2.load)) := by
  induction d with
  | nil => exact ⟨[], rfl, rfl⟩
  | cons a d ih =>
    obtain ⟨k, j⟩ := a
    obtain ⟨w, hw, he⟩ := arrayIfList_load j (hr (k, j) (by simp))
    obtain ⟨t, ht, hm⟩ := ih (fun a ha => hr a (by simp [ha]))
    refine ⟨(k, w) :: t, ?_, ?_⟩
    · rw [Json.loadDict, convertAll, hw]
      simp only
      rw [ht]
    · simp [he, hm]

theorem toDict_spec {E : Estimator} : ∀ {t d : Attrs}, toDict E t = .ok d → d.map (fun a => (a.1, erase a.2)) = t.map (fun a => (a.1, erase a.2)) := by
  intro t
  induction t with
  | nil => intro d h; rw [toDict] at h; cases h; rfl
  | cons a t ih =>
    obtain ⟨k, v⟩ := a
    intro d h
    rw [toDict] at h
    cases hv : (if k ∈ E.arrays then v.tolist else .ok v) with
    | error e => rw [hv] at h; cases h
    | ok w =>
      rw [hv] at h
      simp only at h
      cases hl : toDict E t with
      | error e => rw [hl] at h; cases h
      | ok ws =>
        rw [hl] at h; cases h
        simp only [List.map_cons, ih hl]
        congr 2
        split_ifs at hv with hk
        · cases v <;> simp only [PyVal.tolist, Except.ok.injEq, reduceCtorEq] at hv
          subst hv
          rw [erase, erase, erase_toPyList]
        · cases hv; rfl

theorem dumpDict_load : ∀ {d : Attrs} {js : List (String × Json)}, PyVal.dumpDict d = .ok js →
    js.map (fun a => (a.1, erase a.2.load)) = d.map (fun a => (a.1, erase a.2)) := by
  intro d js h
  have h1 := loadDict_dump d js h
  rw [eraseDict_map, eraseDict_map] at h1
  rw [← h1]
  clear h1 h
  induction js with
  | nil => rfl
  | cons a js ih => obtain ⟨k, j⟩ := a; simp [Json.loadDict, ih]

end JsonFile

open JsonFile

/-- C115: saving succeeds exactly if the object is fitted and all attributes of its table can be written: the array attributes are arrays,
their entries as Python values and the other attributes are values JSON can store.  `t` is the table of the object. -/
theorem C115_saves (E : Estimator) (t : Attrs) (path : String) (fs : Files) :
    (Saver.toJson E ⟨true, some t⟩ (some path) fs).1 = .ok () ↔
    ∀ k v, (k, v) ∈ t → if k ∈ E.arrays then ∃ l, v = .ndarray l ∧ ∀ w ∈ PyVal.toPyList l, JsonReady w else JsonReady v := by
  have key : (Saver.toJson E ⟨true, some t⟩ (some path) fs).1 = .ok () ↔ ∃ d, toDict E t = .ok d ∧ ∀ a ∈ d, JsonReady a.2 := by
    unfold Saver.toJson
    simp only [Bool.true_eq_false, if_false]
    cases hd : toDict E t with
    | error e => simp
    | ok d =>
      simp only [Except.ok.injEq, exists_eq_left']
      have h1 := dump_ready (.dict d)
      constructor
      · intro h
        cases hj : (PyVal.dict d).dump with
        | error e => rw [hj] at h; cases h
        | ok j =>
          cases h1.1 ⟨j, hj⟩ with
          | dict _ h2 => exact h2
      · intro h
        obtain ⟨j, hj⟩ := h1.2 (.dict d h)
        rw [hj]
  rw [key]
  clear key
  induction t with
  | nil => simp [toDict]
  | cons a t ih =>
    obtain ⟨k, v⟩ := a
    have hcons : (∃ d, toDict E ((k, v) :: t) = .ok d ∧ ∀ a ∈ d, JsonReady a.2) ↔
        (∃ w, (if k ∈ E.arrays then v.tolist else .ok v) = .ok w ∧ JsonReady w) ∧ ∃ d, toDict E t = .ok d ∧ ∀ a ∈ d, JsonReady a.2 := by
      rw [toDict]
      cases hv : (if k ∈ E.arrays then v.tolist else .ok v) with
      | error e => simp
      | ok w =>
        simp only
        cases hl : toDict E t with
        | error e => simp
        | ok ws =>
          constructor
          · rintro ⟨d, hd, h⟩
            cases hd
            exact ⟨⟨w, rfl, h (k, w) (by simp)⟩, ws, rfl, fun a ha => h a (by simp [ha])⟩
          · rintro ⟨⟨w', hw', h1⟩, d, hd, h2⟩
            cases hw'; cases hd
            refine ⟨_, rfl, fun a ha => ?_⟩
            rcases List.mem_cons.1 ha with rfl | ha
            · exact h1
            · exact h2 a ha
    have hhead : (∃ w, (if k ∈ E.arrays then v.tolist else .ok v) = .ok w ∧ JsonReady w) ↔
        (if k ∈ E.arrays then ∃ l, v = .ndarray l ∧ ∀ w ∈ PyVal.toPyList l, JsonReady w else JsonReady v) := by
      split_ifs with hk
      · constructor
        · rintro ⟨w, hw, hr⟩
          cases v <;> simp only [PyVal.tolist, Except.ok.injEq, reduceCtorEq] at hw
          subst hw
          cases hr with
          | list _ h => exact ⟨_, rfl, h⟩
        · rintro ⟨l, rfl, h⟩
          exact ⟨_, rfl, .list _ h⟩
      · simp
    refine hcons.trans ((and_congr hhead ih).trans ?_)
    constructor
    · rintro ⟨h1, h2⟩ k' v' hm
      rcases List.mem_cons.1 hm with h | h
      · cases h; exact h1
      · exact h2 k' v' h
    · intro h
      exact ⟨h k v (by simp), fun k' v' hm => h k' v' (by simp [hm])⟩

/-- C115: the errors of saving, and the files afterwards.  No other file is touched; a complete document appears only on success; after
`TypeError` the file at `path` is incomplete, whatever it held before; other errors leave it as it was. -/
theorem C115_save_effect (E : Estimator) (o : Saver) (path : Option String) (fs : Files) :
    (path = none → o.toJson E path fs = (.error "ValueError", fs)) ∧
    (∀ p, path = some p → o.isFitted = false → o.toJson E path fs = (.error "NotFittedError", fs)) ∧
    (∀ p, path = some p →
      (∀ q ≠ p, (o.toJson E path fs).2 q = fs q) ∧
      ((o.toJson E path fs).1 = .ok () → ∃ j, (o.toJson E path fs).2 p = some (.complete j)) ∧
      ((o.toJson E path fs).1 = .error "TypeError" → (o.toJson E path fs).2 p = some .truncated) ∧
      (∀ e, (o.toJson E path fs).1 = .error e → e ≠ "TypeError" → (o.toJson E path fs).2 = fs)) := by
  refine ⟨?_, ?_, ?_⟩
  · rintro rfl; rfl
  · rintro p rfl h; unfold Saver.toJson; simp [h]
  · rintro p rfl
    have hdict : ∀ (t : Attrs) (e : String), toDict E t = .error e → e = "AttributeError" := by
      intro t
      induction t with
      | nil => intro e h; rw [toDict] at h; cases h
      | cons a t ih =>
        obtain ⟨k, v⟩ := a
        intro e h
        rw [toDict] at h
        cases hv : (if k ∈ E.arrays then v.tolist else .ok v) with
        | error e' =>
          rw [hv] at h; cases h
          split_ifs at hv
          cases v <;> simp_all [PyVal.tolist]
        | ok w =>
          rw [hv] at h
          simp only at h
          cases hl : toDict E t with
          | error e' => rw [hl] at h; cases h; exact ih _ hl
          | ok ws => rw [hl] at h; cases h
    unfold Saver.toJson
    simp only
    by_cases hf : o.isFitted = false
    · simp [hf]
    · rw [if_neg hf]
      cases ht : o.table with
      | none => simp
      | some t =>
        simp only
        cases hd : toDict E t with
        | error e =>
          have := hdict _ _ hd
          subst this
          simp
        | ok d =>
          simp only
          cases hj : (PyVal.dict d).dump with
          | error e =>
            have := dump_error _ _ hj
            subst this
            refine ⟨fun q hq => Function.update_of_ne hq _ _, by simp, by simp, ?_⟩
            intro e he hne
            simp only [Except.error.injEq] at he
            exact absurd he.symm hne
          | ok j => exact ⟨fun q hq => Function.update_of_ne hq _ _, fun _ => ⟨j, by simp⟩, by simp, by simp⟩

/-- C115: a saved object can be restored: if saving succeeded, then reading the file into any object of the same class makes it fitted,
with a table of the same attributes with the same values (up to the Python or numpy type of numbers, lists and arrays). -/
theorem C115_roundtrip (E : Estimator) (t : Attrs) (hk : t.map Prod.fst = E.keys) (hrect : Rectangular t) (path : String) (fs : Files)
    (h : (Saver.toJson E ⟨true, some t⟩ (some path) fs).1 = .ok ()) (o : Saver) :
    ∃ t', o.readJson E (some path) (Saver.toJson E ⟨true, some t⟩ (some path) fs).2 = (.ok (), ⟨true, some t'⟩) ∧ SameAttrs t' t := by
  unfold Saver.toJson at h ⊢
  simp only [Bool.true_eq_false, if_false] at h ⊢
  cases hd : toDict E t with
  | error e => rw [hd] at h; cases h
  | ok d =>
    rw [hd] at h
    simp only at h ⊢
    cases hj : (PyVal.dict d).dump with
    | error e => rw [hj] at h; cases h
    | ok j =>
      rw [PyVal.dump] at hj
      cases hl : PyVal.dumpDict d with
      | error e => rw [hl] at hj; cases hj
      | ok js =>
        rw [hl] at hj
        simp only [Except.ok.injEq] at hj
        subst hj
        have hsame : js.map (fun a => (a.1, erase a.2.load)) = t.map (fun a => (a.1, erase a.2)) := by
          rw [dumpDict_load hl, toDict_spec hd]
        obtain ⟨t', ht', hm⟩ := convertAll_load js (by
          intro a ha l hal
          have hmem : (a.1, erase a.2.load) ∈ js.map (fun a => (a.1, erase a.2.load)) := List.mem_map.2 ⟨a, ha, rfl⟩
          rw [hsame] at hmem
          obtain ⟨b, hb, heq⟩ := List.mem_map.1 hmem
          simp only [Prod.mk.injEq] at heq
          exact hrect b hb l (by rw [heq.2, hal]))
        rw [hsame] at hm
        refine ⟨t', ?_, hm⟩
        have hkeys : t'.map Prod.fst = E.keys := by
          have := congrArg (List.map Prod.fst) hm
          simp only [List.map_map, Function.comp_def] at this
          rw [← hk]
          exact this
        unfold Saver.readJson
        simp only [Function.update_self, Json.load, ht', hkeys, if_true]

/-- C115: a failed `read_json` (no such file, incomplete document) changes nothing but the flag: a new object then counts as fitted and
`binning_table` is `None` instead of raising `NotFittedError`. -/
theorem C115_failed_read (E : Estimator) (o : Saver) (path : String) (fs : Files) (h : fs path = none ∨ fs path = some .truncated) :
    (∃ e, (o.readJson E (some path) fs).1 = .error e) ∧ (o.readJson E (some path) fs).2.table = o.table ∧
    (o.readJson E (some path) fs).2.binningTable = .ok o.table := by
  unfold Saver.readJson
  rcases h with h | h <;> simp [h, Saver.binningTable]

end OptBinning
