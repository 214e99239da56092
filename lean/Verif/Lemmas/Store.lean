import Verif.Spec.Store
/- Helper lemmas about the store: the free-list invariant and the effect of each operation. -/
namespace Verif.Store
variable {α : Type}

/-- Free-list invariant. `res` are the slots that have been reserved but not filled yet. -/
structure OK (s : Store α) (res : List Nat) : Prop where
  nodup_del : s.deleted.Nodup
  nodup_res : res.Nodup
  del : ∀ i ∈ s.deleted, s.data[i]? = some none
  rsv : ∀ i ∈ res, s.data[i]? = some none
  disj : ∀ i ∈ res, i ∉ s.deleted
  compl : ∀ i, s.data[i]? = some none → i ∈ s.deleted ∨ i ∈ res

theorem ok_empty : (empty : Store α).OK [] := by
  constructor <;> simp [empty]

theorem get?_eq_some {s : Store α} {i : Nat} {v : α} : s.get? i = some v ↔ s.data[i]? = some (some v) := by
  simp only [get?]
  rcases h : s.data[i]? with _ | _ | _ <;> simp

theorem get?_lt {s : Store α} {i : Nat} {v : α} (h : s.get? i = some v) : i < s.capacity := by
  rw [get?_eq_some] at h
  exact (List.getElem?_eq_some_iff.mp h).1

theorem has_iff {s : Store α} {i : Nat} : s.has i = true ↔ ∃ v, s.get? i = some v := by
  simp only [has, get?]
  rcases h : s.data[i]? with _ | _ | _ <;> simp

theorem push_spec {s : Store α} {res} (h : s.OK res) (v : α) :
    ∃ s' i, s.push v = some (s', i) ∧ s'.OK res ∧ s.get? i = none ∧ i ∉ res ∧
      (∀ j, s'.get? j = if j = i then some v else s.get? j) ∧
      s'.data.length = (if s.deleted = [] then s.data.length + 1 else s.data.length) ∧
      s'.deleted.length = s.deleted.length - 1 ∧
      (i = match s.deleted with | [] => s.data.length | x :: _ => x) := by
  obtain ⟨data, del⟩ := s
  cases del with
  | nil =>
    refine ⟨⟨data ++ [some v], []⟩, data.length, rfl, ?_, ?_, ?_, ?_, ?_, ?_, rfl⟩
    · constructor
      · simp
      · exact h.nodup_res
      · simp
      · intro i hi
        have := h.rsv i hi
        grind
      · simp
      · intro i hi
        have := h.compl i
        grind
    · simp [get?]
    · intro hm
      have := h.rsv _ hm
      simp at this
    · intro j
      simp only [get?]
      grind
    · simp
    · simp
  | cons x rest =>
    have hx := h.del x (by simp)
    have hlt : x < data.length := (List.getElem?_eq_some_iff.mp hx).1
    refine ⟨⟨data.set x (some v), rest⟩, x, by simp [push, hlt], ?_, ?_, ?_, ?_, ?_, ?_, rfl⟩
    · have hn := h.nodup_del
      simp only [List.nodup_cons] at hn
      constructor
      · exact hn.2
      · exact h.nodup_res
      · intro i hi
        have := h.del i (by simp [hi])
        grind
      · intro i hi
        have := h.rsv i hi
        have := h.disj i hi
        grind
      · intro i hi
        have := h.disj i hi
        grind
      · intro i hi
        have := h.compl i
        grind
    · have : data[x]? = some none := hx
      simp [get?, this]
    · intro hm
      have := h.disj _ hm
      simp at this
    · intro j
      simp only [get?]
      grind
    · simp
    · simp

theorem allocate_spec {s : Store α} {res} (h : s.OK res) :
    s.allocate.1.OK (s.allocate.2 :: res) ∧ s.get? s.allocate.2 = none ∧ s.allocate.2 ∉ res ∧
      (∀ j, s.allocate.1.get? j = s.get? j) ∧
      s.allocate.1.data.length = (if s.deleted = [] then s.data.length + 1 else s.data.length) ∧
      s.allocate.1.deleted.length = s.deleted.length - 1 ∧
      (s.allocate.2 = match s.deleted with | [] => s.data.length | x :: _ => x) := by
  obtain ⟨data, del⟩ := s
  cases del with
  | nil =>
    have hr : data.length ∉ res := by
      intro hm
      have := h.rsv _ hm
      simp at this
    refine ⟨?_, ?_, hr, ?_, ?_, ?_, rfl⟩
    · constructor
      · simp [allocate]
      · simp only [allocate, List.nodup_cons]
        exact ⟨hr, h.nodup_res⟩
      · simp [allocate]
      · intro i hi
        simp only [allocate, List.mem_cons] at hi ⊢
        have := h.rsv i
        grind
      · simp [allocate]
      · intro i hi
        have := h.compl i
        simp only [allocate] at hi ⊢
        grind
    · simp [allocate, get?]
    · intro j
      simp only [allocate, get?]
      grind
    · simp [allocate]
    · simp [allocate]
  | cons x rest =>
    have hx := h.del x (by simp)
    have hr : x ∉ res := by
      intro hm
      have := h.disj _ hm
      simp at this
    refine ⟨?_, ?_, hr, ?_, ?_, ?_, rfl⟩
    · have hn := h.nodup_del
      simp only [List.nodup_cons] at hn
      constructor
      · exact hn.2
      · simp only [allocate, List.nodup_cons]
        exact ⟨hr, h.nodup_res⟩
      · intro i hi
        exact h.del i (by simp [allocate] at hi; simp [hi])
      · intro i hi
        simp only [allocate, List.mem_cons] at hi ⊢
        have := h.rsv i
        grind
      · intro i hi
        have := h.disj i
        simp only [allocate, List.mem_cons] at hi ⊢
        grind
      · intro i hi
        have := h.compl i
        simp only [allocate, List.mem_cons] at hi ⊢
        grind
    · have : data[x]? = some none := hx
      simp [allocate, get?, this]
    · intro j; rfl
    · simp [allocate]
    · simp [allocate]

theorem set_spec {s : Store α} {res} (h : s.OK res) {i : Nat} (hi : i ∈ res) (v : α) :
    ∃ s', s.set i v = some s' ∧ s'.OK (res.erase i) ∧
      (∀ j, s'.get? j = if j = i then some v else s.get? j) ∧
      s'.data.length = s.data.length ∧ s'.deleted = s.deleted := by
  have hd := h.rsv i hi
  have hlt : i < s.data.length := (List.getElem?_eq_some_iff.mp hd).1
  refine ⟨⟨s.data.set i (some v), s.deleted⟩, by simp [set, hd], ?_, ?_, by simp, rfl⟩
  · have hn := h.nodup_res
    constructor
    · exact h.nodup_del
    · exact hn.erase i
    · intro j hj
      have := h.del j hj
      have := h.disj i hi
      grind
    · intro j hj
      rw [hn.mem_erase_iff] at hj
      have := h.rsv j hj.2
      grind
    · intro j hj
      rw [hn.mem_erase_iff] at hj
      exact h.disj j hj.2
    · intro j hj
      rw [hn.mem_erase_iff]
      have := h.compl j
      grind
  · intro j
    simp only [get?]
    grind

theorem modify_spec {s : Store α} {res} (h : s.OK res) {i : Nat} {w : α} (hi : s.get? i = some w) (v : α) :
    ∃ s', s.modify i v = some s' ∧ s'.OK res ∧
      (∀ j, s'.get? j = if j = i then some v else s.get? j) ∧
      s'.data.length = s.data.length ∧ s'.deleted = s.deleted := by
  have hd := get?_eq_some.mp hi
  have hlt : i < s.data.length := (List.getElem?_eq_some_iff.mp hd).1
  refine ⟨⟨s.data.set i (some v), s.deleted⟩, by simp [modify, hd], ?_, ?_, by simp, rfl⟩
  · constructor
    · exact h.nodup_del
    · exact h.nodup_res
    · intro j hj
      have := h.del j hj
      grind
    · intro j hj
      have := h.rsv j hj
      grind
    · exact h.disj
    · intro j hj
      have := h.compl j
      grind
  · intro j
    simp only [get?]
    grind

theorem delete_spec {s : Store α} {res} (h : s.OK res) {i : Nat} {w : α} (hi : s.get? i = some w) :
    ∃ s', s.delete i = some s' ∧ s'.OK res ∧
      (∀ j, s'.get? j = if j = i then none else s.get? j) ∧
      s'.data.length = s.data.length ∧ s'.deleted = i :: s.deleted := by
  have hd := get?_eq_some.mp hi
  have hlt : i < s.data.length := (List.getElem?_eq_some_iff.mp hd).1
  refine ⟨⟨s.data.set i none, i :: s.deleted⟩, by simp [delete, hd], ?_, ?_, by simp, rfl⟩
  · constructor
    · have := h.del i
      have := h.nodup_del
      grind
    · exact h.nodup_res
    · intro j hj
      have := h.del j
      grind
    · intro j hj
      have := h.rsv j hj
      grind
    · intro j hj
      have := h.rsv j hj
      have := h.disj j hj
      grind
    · intro j hj
      have := h.compl j
      grind
  · intro j
    simp only [get?]
    grind

theorem modify_isSome {s s' : Store α} {i v} (h : s.modify i v = some s') : ∃ w, s.get? i = some w := by
  simp only [modify] at h
  split at h
  · rename_i w hw
    exact ⟨w, by simp [get?, hw]⟩
  · simp at h

theorem delete_isSome {s s' : Store α} {i} (h : s.delete i = some s') : ∃ w, s.get? i = some w := by
  simp only [delete] at h
  split at h
  · rename_i w hw
    exact ⟨w, by simp [get?, hw]⟩
  · simp at h

/-! ### counting -/

theorem mem_iterFrom {xs : List (Option α)} {k i : Nat} {v : α} :
    (i, v) ∈ iterFrom k xs ↔ k ≤ i ∧ xs[i - k]? = some (some v) := by
  induction xs generalizing k with
  | nil => simp [iterFrom]
  | cons x xs ih =>
    cases x with
    | none =>
      simp only [iterFrom, ih]
      constructor
      · rintro ⟨h1, h2⟩
        refine ⟨by omega, ?_⟩
        have : i - k = (i - (k+1)) + 1 := by omega
        rw [this]; simpa using h2
      · rintro ⟨h1, h2⟩
        by_cases hk : i = k
        · subst hk; simp at h2
        · refine ⟨by omega, ?_⟩
          have : i - k = (i - (k+1)) + 1 := by omega
          rw [this] at h2; simpa using h2
    | some a =>
      simp only [iterFrom, List.mem_cons, ih, Prod.mk.injEq]
      constructor
      · rintro (⟨h1, h2⟩ | ⟨h1, h2⟩)
        · subst h1 h2; simp
        · refine ⟨by omega, ?_⟩
          have : i - k = (i - (k+1)) + 1 := by omega
          rw [this]; simpa using h2
      · rintro ⟨h1, h2⟩
        by_cases hk : i = k
        · subst hk; simp at h2; simp [h2]
        · right
          refine ⟨by omega, ?_⟩
          have : i - k = (i - (k+1)) + 1 := by omega
          rw [this] at h2; simpa using h2

theorem mem_iter {s : Store α} {i : Nat} {v : α} : (i, v) ∈ s.iter ↔ s.get? i = some v := by
  simp [iter, mem_iterFrom, get?_eq_some]

theorem iterFrom_sorted (k : Nat) (xs : List (Option α)) :
    ((iterFrom k xs).map Prod.fst).Pairwise (· < ·) := by
  induction xs generalizing k with
  | nil => simp [iterFrom]
  | cons x xs ih =>
    cases x with
    | none => exact ih (k+1)
    | some a =>
      simp only [iterFrom, List.map_cons, List.pairwise_cons]
      refine ⟨?_, ih (k+1)⟩
      intro b hb
      simp only [List.mem_map] at hb
      obtain ⟨⟨c, d⟩, hc, rfl⟩ := hb
      have := (mem_iterFrom.mp hc).1
      simp; omega

theorem iterFrom_length (k : Nat) (xs : List (Option α)) :
    (iterFrom k xs).length + xs.countP (·.isNone) = xs.length := by
  induction xs generalizing k with
  | nil => simp [iterFrom]
  | cons x xs ih =>
    cases x <;> simp [iterFrom] <;> have := ih (k+1) <;> omega

theorem countP_range_eq (xs : List (Option α)) :
    xs.countP (·.isNone) = ((List.range xs.length).filter (fun i => decide (xs[i]?.map (·.isNone) = some true))).length := by
  induction xs with
  | nil => simp
  | cons x xs ih =>
    rw [List.countP_cons, ih, List.length_cons, List.range_succ_eq_map, List.filter_cons,
      List.filter_map]
    cases x <;> simp [Function.comp_def]

theorem countP_none {s : Store α} {res} (h : s.OK res) :
    s.data.countP (·.isNone) = s.deleted.length + res.length := by
  rw [countP_range_eq, ← List.length_append]
  apply List.Perm.length_eq
  rw [List.perm_ext_iff_of_nodup]
  · intro i
    simp only [List.mem_filter, List.mem_range, List.mem_append, decide_eq_true_eq]
    constructor
    · rintro ⟨h1, h2⟩
      apply h.compl
      rcases hd : s.data[i]? with _ | _ | _ <;> simp_all
    · intro hi
      have hd : s.data[i]? = some none := by
        rcases hi with hi | hi
        · exact h.del i hi
        · exact h.rsv i hi
      refine ⟨(List.getElem?_eq_some_iff.mp hd).1, by simp [hd]⟩
  · exact List.nodup_range.sublist List.filter_sublist
  · rw [List.nodup_append]
    refine ⟨h.nodup_del, h.nodup_res, ?_⟩
    rintro a ha b hb rfl
    exact h.disj _ hb ha

theorem length_eq {s : Store α} {res} (h : s.OK res) :
    s.data.length = s.iter.length + s.deleted.length + res.length := by
  have h1 := countP_none h
  have h2 := iterFrom_length 0 s.data
  simp only [iter]
  omega

end Verif.Store
