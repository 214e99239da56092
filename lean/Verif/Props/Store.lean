import Verif.Lemmas.Store
/-
Properties C01-C03: the element store.
Statements are about every state reachable by store operations (`StoreSpec.Reach`) and the log of
events that happened; the meaning of a log is defined in `Verif/Spec/Store.lean` without reference
to slots or the free list.
-/
namespace Verif.StoreProps
open StoreSpec
variable {α : Type}

/-- Link between representation and log, used by all proofs below. -/
structure Inv (s : Store α) (l : List (Event α)) (res : List Nat) : Prop where
  ok : s.OK res
  res_iff : ∀ i, i ∈ res ↔ (status l i).isReserved = true
  val : ∀ i, s.get? i = (status l i).value?
  occ_nodup : (occupied l).Nodup
  occ_iff : ∀ i, i ∈ occupied l ↔ (status l i).isReserved = true ∨ (status l i).value?.isSome = true
  size : s.data.length = s.deleted.length + (occupied l).length
  cap : s.data.length = peak l

theorem inv_of_reach {s : Store α} {l} (h : Reach s l) : ∃ res, Inv s l res := by
  induction h with
  | new => exact ⟨[], by constructor <;> simp [Store.empty, status, occupied, peak, Store.get?, Status.value?, Status.isReserved]; exact Store.ok_empty⟩
  | @clear s l h ih =>
    exact ⟨[], by constructor <;> simp [Store.clear, status, occupied, peak, Store.get?, Status.value?, Status.isReserved]; exact Store.ok_empty⟩
  | @push s s' l i v h hp ih =>
    obtain ⟨res, ih⟩ := ih
    obtain ⟨s2, i2, hp2, ok2, hnone, hres, hget, hlen, hdel, hi⟩ := Store.push_spec ih.ok v
    rw [hp] at hp2
    simp only [Option.some.injEq, Prod.mk.injEq] at hp2
    obtain ⟨rfl, rfl⟩ := hp2
    have hni : i ∉ occupied l := by
      rw [ih.occ_iff, ← ih.res_iff, ← ih.val, hnone]; simp [hres]
    have hsz := ih.size
    have hcap := ih.cap
    refine ⟨res, ok2, ?_, ?_, ?_, ?_, ?_, ?_⟩
    · intro j
      have := ih.res_iff j
      simp only [status]
      by_cases hj : j = i
      · subst hj; simp [hres, Status.isReserved]
      · simp [hj, this]
    · intro j
      rw [hget]; simp only [status]
      split
      · simp [Status.value?]
      · exact ih.val j
    · simp [occupied, hni, ih.occ_nodup]
    · intro j
      have := ih.occ_iff j
      simp only [occupied, hni, status]
      by_cases hj : j = i
      · subst hj; simp [Status.value?]
      · simp [hj, this]
    · simp only [occupied, hni, if_false, List.length_cons]
      by_cases hd : s.deleted = []
      · simp only [hd, List.length_nil, if_true] at hlen hdel hsz; omega
      · have : 0 < s.deleted.length := List.length_pos_iff.mpr hd
        simp [hd] at *; omega
    · simp only [occupied, peak, hni, if_false, List.length_cons]
      by_cases hd : s.deleted = []
      · simp [hd] at *; omega
      · have : 0 < s.deleted.length := List.length_pos_iff.mpr hd
        simp [hd] at *; omega
  | @reserve s s' l i h hp ih =>
    obtain ⟨res, ih⟩ := ih
    obtain ⟨ok2, hnone, hres, hget, hlen, hdel, hi⟩ := Store.allocate_spec ih.ok
    rw [hp] at ok2 hnone hres hget hlen hdel
    dsimp only at ok2 hnone hres hget hlen hdel
    have hni : i ∉ occupied l := by
      rw [ih.occ_iff, ← ih.res_iff, ← ih.val, hnone]; simp [hres]
    have hsz := ih.size
    have hcap := ih.cap
    refine ⟨i :: res, ok2, ?_, ?_, ?_, ?_, ?_, ?_⟩
    · intro j
      have := ih.res_iff j
      simp only [status]
      by_cases hj : j = i
      · subst hj; simp [Status.isReserved]
      · simp [hj, this]
    · intro j
      rw [hget]; simp only [status]
      split
      · rename_i hj; subst hj; simp [Status.value?, hnone]
      · exact ih.val j
    · simp [occupied, hni, ih.occ_nodup]
    · intro j
      have := ih.occ_iff j
      simp only [occupied, status]
      by_cases hj : j = i
      · subst hj; simp [Status.isReserved]
      · simp [hj, this]
    · simp only [occupied, List.length_cons]
      by_cases hd : s.deleted = []
      · simp only [hd, List.length_nil, if_true] at hlen hdel hsz; omega
      · have : 0 < s.deleted.length := List.length_pos_iff.mpr hd
        simp [hd] at *; omega
    · simp only [occupied, peak, List.length_cons]
      by_cases hd : s.deleted = []
      · simp [hd] at *; omega
      · have : 0 < s.deleted.length := List.length_pos_iff.mpr hd
        simp [hd] at *; omega
  | @modify s s' l i v h hp ih =>
    obtain ⟨res, ih⟩ := ih
    obtain ⟨w, hw⟩ := Store.modify_isSome hp
    obtain ⟨s2, hp2, ok2, hget, hlen, hdel⟩ := Store.modify_spec ih.ok hw v
    rw [hp] at hp2; cases hp2
    have hst : (status l i).value? = some w := by rw [← ih.val]; exact hw
    have hni : i ∈ occupied l := by
      rw [ih.occ_iff, hst]; simp
    have hsz := ih.size
    have hcap := ih.cap
    refine ⟨res, ok2, ?_, ?_, ?_, ?_, ?_, ?_⟩
    · intro j
      have := ih.res_iff j
      simp only [status]
      by_cases hj : j = i
      · subst hj
        rcases hs : status l j <;> simp_all [Status.isReserved, Status.value?]
      · simp [hj, this]
    · intro j
      rw [hget]; simp only [status]
      split
      · simp [Status.value?]
      · exact ih.val j
    · simp [occupied, hni, ih.occ_nodup]
    · intro j
      have := ih.occ_iff j
      simp only [occupied, hni, status]
      by_cases hj : j = i
      · subst hj; simp [Status.value?, hni]
      · simp [hj, this]
    · simp only [occupied, hni, if_true, hlen, hdel, hsz]
    · simp only [occupied, peak, hni, if_true]
      omega
  | @fill s s' l i v h hr hp ih =>
    obtain ⟨res, ih⟩ := ih
    have hir := (ih.res_iff i).mpr hr
    obtain ⟨s2, hp2, ok2, hget, hlen, hdel⟩ := Store.set_spec ih.ok hir v
    rw [hp] at hp2; cases hp2
    have hni : i ∈ occupied l := by
      rw [ih.occ_iff]; simp [hr]
    have hsz := ih.size
    have hcap := ih.cap
    refine ⟨res.erase i, ok2, ?_, ?_, ?_, ?_, ?_, ?_⟩
    · intro j
      have := ih.res_iff j
      rw [ih.ok.nodup_res.mem_erase_iff]
      simp only [status]
      by_cases hj : j = i
      · subst hj
        simp [Status.isReserved]
      · simp [hj, this]
    · intro j
      rw [hget]; simp only [status]
      split
      · simp [Status.value?]
      · exact ih.val j
    · simp [occupied, hni, ih.occ_nodup]
    · intro j
      have := ih.occ_iff j
      simp only [occupied, hni, status]
      by_cases hj : j = i
      · subst hj; simp [Status.value?, hni]
      · simp [hj, this]
    · simp only [occupied, hni, if_true, hlen, hdel, hsz]
    · simp only [occupied, peak, hni, if_true]
      omega
  | @delete s s' l i h hp ih =>
    obtain ⟨res, ih⟩ := ih
    obtain ⟨w, hw⟩ := Store.delete_isSome hp
    obtain ⟨s2, hp2, ok2, hget, hlen, hdel⟩ := Store.delete_spec ih.ok hw
    rw [hp] at hp2; cases hp2
    have hst : (status l i).value? = some w := by rw [← ih.val]; exact hw
    have hni : i ∈ occupied l := by
      rw [ih.occ_iff, hst]; simp
    have hsz := ih.size
    have hcap := ih.cap
    have hpos : 0 < (occupied l).length := List.length_pos_of_mem hni
    have hel := List.length_erase_of_mem hni
    refine ⟨res, ok2, ?_, ?_, ?_, ?_, ?_, ?_⟩
    · intro j
      have := ih.res_iff j
      simp only [status]
      by_cases hj : j = i
      · subst hj
        rcases hs : status l j <;> simp_all [Status.isReserved, Status.value?]
      · simp [hj, this]
    · intro j
      rw [hget]; simp only [status]
      split
      · simp [Status.value?]
      · exact ih.val j
    · simp only [occupied]; exact ih.occ_nodup.erase i
    · intro j
      have := ih.occ_iff j
      simp only [occupied]
      rw [ih.occ_nodup.mem_erase_iff]
      simp only [status]
      by_cases hj : j = i
      · subst hj; simp [Status.value?, Status.isReserved]
      · simp [hj, this]
    · simp only [occupied, hlen, hdel, List.length_cons]; omega
    · simp only [occupied, peak]
      omega

/-! ## C01 -/

/-- Looking up an id returns exactly what the history says: the last stored value while live,
    a failure otherwise. -/
theorem c01_lookup {s : Store α} {l} (h : Reach s l) (i : Nat) : s.get? i = (status l i).value? := by
  obtain ⟨res, hi⟩ := inv_of_reach h
  exact hi.val i

/-- `has` agrees with liveness. -/
theorem c01_has {s : Store α} {l} (h : Reach s l) (i : Nat) :
    s.has i = true ↔ ∃ v, status l i = .live v := by
  rw [Store.has_iff, c01_lookup h]
  cases status l i <;> simp [Status.value?]

/-- `push` always succeeds, its id was neither live nor reserved, and every other id keeps its value. -/
theorem c01_push_fresh {s : Store α} {l} (h : Reach s l) (v : α) :
    ∃ s' i, s.push v = some (s', i) ∧ status l i = .free ∧ s'.get? i = some v ∧
      ∀ j, j ≠ i → s'.get? j = s.get? j := by
  obtain ⟨res, hi⟩ := inv_of_reach h
  obtain ⟨s2, i2, hp2, ok2, hnone, hres, hget, -⟩ := Store.push_spec hi.ok v
  refine ⟨s2, i2, hp2, ?_, by simp [hget], fun j hj => by simp [hget, hj]⟩
  rw [hi.val] at hnone
  rw [hi.res_iff] at hres
  cases hs : status l i2 <;> simp_all [Status.value?, Status.isReserved]

/-- `allocate` hands out an id that was neither live nor reserved and changes no lookup. -/
theorem c01_reserve_fresh {s : Store α} {l} (h : Reach s l) :
    status l s.allocate.2 = .free ∧ ∀ j, s.allocate.1.get? j = s.get? j := by
  obtain ⟨res, hi⟩ := inv_of_reach h
  obtain ⟨ok2, hnone, hres, hget, -⟩ := Store.allocate_spec hi.ok
  refine ⟨?_, hget⟩
  rw [hi.val] at hnone
  rw [hi.res_iff] at hres
  cases hs : status l s.allocate.2 <;> simp_all [Status.value?, Status.isReserved]

/-- Filling a reserved slot succeeds and stores the value there and nowhere else. -/
theorem c01_fill {s : Store α} {l} (h : Reach s l) {i} (hr : status l i = .reserved) (v : α) :
    ∃ s', s.set i v = some s' ∧ s'.get? i = some v ∧ ∀ j, j ≠ i → s'.get? j = s.get? j := by
  obtain ⟨res, hi⟩ := inv_of_reach h
  have : i ∈ res := by rw [hi.res_iff, hr]; rfl
  obtain ⟨s2, hp2, ok2, hget, -⟩ := Store.set_spec hi.ok this v
  exact ⟨s2, hp2, by simp [hget], fun j hj => by simp [hget, hj]⟩

/-- Filling never touches a live element: it panics for live ids and for ids that do not exist. -/
theorem c01_fill_live {s : Store α} {l} (h : Reach s l) {i} (v : α) (hr : (∃ w, status l i = .live w) ∨ s.capacity ≤ i) : s.set i v = none := by
  rcases hr with ⟨w, hr⟩ | hr
  · have := c01_lookup h i
    rw [hr] at this
    simp only [Store.get?, Status.value?] at this
    simp only [Store.set]
    split
    · rename_i h1; rw [h1] at this; simp at this
    · rfl
  · simp [Store.set, List.getElem?_eq_none hr]

/-- Deleting and overwriting succeed exactly for live ids. -/
theorem c01_delete_iff {s : Store α} {l} (h : Reach s l) (i : Nat) (v : α) :
    ((s.delete i).isSome ↔ ∃ w, status l i = .live w) ∧
    ((s.modify i v).isSome ↔ ∃ w, status l i = .live w) := by
  obtain ⟨res, hi⟩ := inv_of_reach h
  have key : (∃ w, s.get? i = some w) ↔ ∃ w, status l i = .live w := by
    rw [hi.val]
    cases status l i <;> simp [Status.value?]
  rw [← key]
  constructor
  · constructor
    · intro hs
      obtain ⟨s', hs'⟩ := Option.isSome_iff_exists.mp hs
      exact Store.delete_isSome hs'
    · rintro ⟨w, hw⟩
      obtain ⟨s', hs', -⟩ := Store.delete_spec hi.ok hw
      simp [hs']
  · constructor
    · intro hs
      obtain ⟨s', hs'⟩ := Option.isSome_iff_exists.mp hs
      exact Store.modify_isSome hs'
    · rintro ⟨w, hw⟩
      obtain ⟨s', hs', -⟩ := Store.modify_spec hi.ok hw v
      simp [hs']

/-! ## C02 -/

/-- Number of ids that are reserved and not yet filled, counted over all ids below the capacity. -/
def pending (s : Store α) (l : List (Event α)) : Nat :=
  ((List.range s.capacity).filter (fun i => (status l i).isReserved)).length

/-- `len` exceeds the number of iterated elements by exactly the number of unfilled reservations,
    and the subtraction it computes never underflows. -/
theorem c02_len {s : Store α} {l} (h : Reach s l) :
    s.len = s.iter.length + pending s l ∧ s.deleted.length ≤ s.data.length := by
  obtain ⟨res, hi⟩ := inv_of_reach h
  have h1 := Store.length_eq hi.ok
  have h2 : pending s l = res.length := by
    apply List.Perm.length_eq
    rw [List.perm_ext_iff_of_nodup (List.nodup_range.sublist List.filter_sublist) hi.ok.nodup_res]
    intro i
    rw [List.mem_filter, ← hi.res_iff, List.mem_range]
    constructor
    · exact fun h => h.2
    · intro hm
      exact ⟨(List.getElem?_eq_some_iff.mp (hi.ok.rsv i hm)).1, hm⟩
  simp only [Store.len]
  omega

/-- With all reservations filled, `len` is the number of iterated elements. -/
theorem c02_len_filled {s : Store α} {l} (h : Reach s l) (hf : ∀ i, status l i ≠ .reserved) :
    s.len = s.iter.length := by
  have := (c02_len h).1
  have h0 : pending s l = 0 := by
    simp only [pending, List.length_eq_zero_iff, List.filter_eq_nil_iff]
    intro i _
    have := hf i
    cases hs : status l i <;> simp_all [Status.isReserved]
  omega

/-- The iterator produces exactly the live elements, each under its own id, once, by increasing id. -/
theorem c02_iter {s : Store α} {l} (h : Reach s l) :
    (∀ i v, (i, v) ∈ s.iter ↔ status l i = .live v) ∧ (s.iter.map Prod.fst).Pairwise (· < ·) ∧
    ∀ i v, (i, v) ∈ s.iter → s.get? i = some v := by
  refine ⟨fun i v => ?_, Store.iterFrom_sorted 0 s.data, fun i v => Store.mem_iter.mp⟩
  rw [Store.mem_iter, c01_lookup h]
  cases status l i <;> simp [Status.value?]

/-! ## C03 -/

/-- Every id that is in use is below the capacity. -/
theorem c03_lt_capacity {s : Store α} {l} (h : Reach s l) {i} (hu : status l i ≠ .free) :
    i < s.capacity := by
  obtain ⟨res, hi⟩ := inv_of_reach h
  rcases hs : status l i with _ | _ | v
  · exact absurd hs hu
  · have : i ∈ res := by rw [hi.res_iff, hs]; rfl
    exact (List.getElem?_eq_some_iff.mp (hi.ok.rsv i this)).1
  · exact Store.get?_lt (v := v) (by rw [hi.val, hs]; rfl)

/-- The capacity is exactly the largest number of ids simultaneously in use since the last clear. -/
theorem c03_capacity_eq_peak {s : Store α} {l} (h : Reach s l) : s.capacity = peak l := by
  obtain ⟨res, hi⟩ := inv_of_reach h
  exact hi.cap

/-- Storage grows on insertion only when every slot below the capacity is in use. -/
theorem c03_grow_only_when_full {s s' : Store α} {l} (h : Reach s l) {v i}
    (hp : s.push v = some (s', i)) :
    (s'.capacity = s.capacity ∨ s'.capacity = s.capacity + 1) ∧
    (s'.capacity ≠ s.capacity → ∀ j, j < s.capacity → status l j ≠ .free) := by
  obtain ⟨res, hi⟩ := inv_of_reach h
  obtain ⟨s2, i2, hp2, ok2, hnone, hres, hget, hlen, -⟩ := Store.push_spec hi.ok v
  rw [hp] at hp2; cases hp2
  simp only [Store.capacity]
  rw [hlen]
  by_cases hd : s.deleted = []
  · refine ⟨by simp [hd], fun _ j hj hfree => ?_⟩
    have hv := hi.val j
    have hc := hi.ok.compl j
    have hr := hi.res_iff j
    rw [hfree] at hv hr
    simp only [Status.value?, Status.isReserved] at hv hr
    rw [hd] at hc
    have hn : s.data[j]? = some none := by
      rcases hx : s.data[j]? with _ | _ | w
      · rw [List.getElem?_eq_none_iff] at hx; omega
      · rfl
      · simp [Store.get?, hx] at hv
    have := hc hn
    simp at this
    simp [this] at hr
  · simp [hd]

/-! ### non-vacuity -/

/-- A history with deletion, reuse, reservation and filling. -/
example : ∃ (s : Store Nat) (l : List (Event Nat)), Reach s l ∧ status l 0 = .live 9 ∧
    status l 1 = .live 11 ∧ status l 2 = .reserved ∧ s.len = 3 ∧ s.capacity = 3 ∧ pending s l = 1 := by
  refine ⟨⟨[some 9, some 11, none], []⟩, [.reserved 2, .stored 0 9, .stored 1 11, .reserved 0,
    .removed 0, .stored 1 8, .stored 0 7], ?_, rfl, rfl, rfl, rfl, rfl, rfl⟩
  refine .reserve (s := ⟨[some 9, some 11], []⟩) ?_ rfl
  refine .fill (s := ⟨[none, some 11], []⟩) ?_ rfl rfl
  refine .modify (s := ⟨[none, some 8], []⟩) ?_ rfl
  refine .reserve (s := ⟨[none, some 8], [0]⟩) ?_ rfl
  refine .delete (s := ⟨[some 7, some 8], []⟩) ?_ rfl
  refine .push (s := ⟨[some 7], []⟩) ?_ rfl
  exact .push .new rfl

end Verif.StoreProps
