import Verif.Spec.IndexedStore
import Mathlib.Data.List.Basic
import Mathlib.Tactic.Common
/-
C109: bounded index types.
-/
namespace Verif
variable {α : Type} {mx : Nat}

theorem abs_get (s : IStore α) (i : Nat) : (s.abs mx).data[i]? = s.data[i]?.map fun e => if e.id = mx then none else some e.val := by simp [IStore.abs]

theorem abs_length (s : IStore α) : (s.abs mx).data.length = s.data.length := by simp [IStore.abs]

/-- C109: reading an element: it exists with bounded indices iff it exists with unbounded ones, its content is the same, and it carries its own number. -/
theorem c109_get {s : IStore α} (h : s.Consistent mx) (i : Nat) (a : α) : (s.abs mx).get? i = some a ↔ s.get mx i = some ⟨i, a⟩ := by
  simp only [Store.get?, abs_get, IStore.get, Option.bind_eq_bind, Slot.isDeleted, beq_iff_eq]
  cases hi : s.data[i]? with
  | none => simp
  | some e =>
    obtain ⟨k, x⟩ := e
    have := h.id i _ hi
    by_cases hd : k = mx
    · simp [hd]
    · obtain rfl : k = i := this.resolve_left hd
      simp [hd]

theorem c109_has (s : IStore α) (i : Nat) : s.has mx i = (s.abs mx).has i := by
  simp only [IStore.has, Store.has, abs_get, Slot.isDeleted]
  cases s.data[i]? with
  | none => rfl
  | some e => by_cases hd : e.id = mx <;> simp [hd]

/-- C109: the iterator yields the same elements in the same order with their numbers. -/
theorem c109_iter {s : IStore α} (h : s.Consistent mx) : (s.iter mx).map (fun e => (e.id, e.val)) = (s.abs mx).iter := by
  have key : ∀ (l : List (Slot α)) (k : Nat), (∀ i e, l[i]? = some e → e.id = mx ∨ e.id = k + i) →
      (l.filter fun e => !e.isDeleted mx).map (fun e => (e.id, e.val)) = Store.iterFrom k (l.map fun e => if e.id = mx then none else some e.val) := by
    intro l
    induction l with
    | nil => intro k _; rfl
    | cons e l ih =>
      intro k hk
      have h0 := hk 0 e rfl
      have ih := ih (k + 1) fun i e he => by
        have := hk (i + 1) e (by simpa using he)
        rwa [show k + 1 + i = k + (i + 1) by omega]
      by_cases hd : e.id = mx
      · simp only [List.map_cons, if_pos hd, Store.iterFrom, ← ih]
        rw [List.filter_cons_of_neg (by simp [Slot.isDeleted, hd])]
      · simp only [List.map_cons, if_neg hd, Store.iterFrom, ← ih]
        rw [List.filter_cons_of_pos (by simp [Slot.isDeleted, hd]), List.map_cons, h0.resolve_left hd]
        rfl
  exact key s.data 0 fun i e he => by simpa using h.id i e he

theorem empty_consistent : (IStore.empty : IStore α).Consistent mx := ⟨fun i e h => by simp [IStore.empty] at h, by simp [IStore.empty]⟩

theorem set_id {s : IStore α} (h : s.Consistent mx) {i : Nat} {e : Slot α} (he : e.id = mx ∨ e.id = i) : ∀ (j : Nat) (x : Slot α), (s.data.set i e)[j]? = some x → x.id = mx ∨ x.id = j := by
  intro j x hx
  rw [List.getElem?_set] at hx
  by_cases hj : i = j
  · subst hj
    rw [if_pos rfl] at hx
    split at hx
    · obtain rfl := Option.some.inj hx; exact he
    · cases hx
  · rw [if_neg hj] at hx; exact h.id j x hx

/-- C109: adding an element. It fails exactly if all `mx` numbers are in use; otherwise it does the same as with unbounded indices. -/
theorem c109_push {s : IStore α} (h : s.Consistent mx) (v : α) :
    (s.push mx ⟨mx, v⟩).map (fun r => (r.1.abs mx, r.2)) = (if s.deleted = [] ∧ mx ≤ s.data.length then none else (s.abs mx).push v) ∧ ∀ r, s.push mx ⟨mx, v⟩ = some r → r.1.Consistent mx ∧ r.2 ≠ mx := by
  simp only [IStore.push, Slot.isDeleted, beq_self_eq_true, if_true, Store.push]
  cases hd : s.deleted with
  | nil =>
    have hab : (s.abs mx).deleted = [] := hd
    simp only [hab, true_and, newIndex, Slot.setId, Option.bind_eq_bind]
    by_cases hl : mx ≤ s.data.length
    · rw [if_pos hl]
      rcases Nat.eq_or_lt_of_le hl with e | e
      · simp [← e]
      · simp [show ¬s.data.length ≤ mx by omega]
    · rw [if_neg hl, if_pos (by omega)]
      simp only [Option.bind_some, true_and]
      rw [if_pos (by omega)]
      refine ⟨?_, ?_⟩
      · simp only [Option.bind_some, Option.map_some, abs_length]
        simp only [IStore.abs, List.map_append, List.map_cons, List.map_nil, if_neg (show ¬s.data.length = mx by omega)]
      · intro r hr
        obtain rfl := Option.some.inj hr
        refine ⟨⟨fun i e he => ?_, by simp⟩, by simp; omega⟩
        rw [List.getElem?_append] at he
        split at he
        · exact h.id i e he
        · have : i = s.data.length := by
            by_contra hne
            rw [List.getElem?_eq_none (by simp; omega)] at he; cases he
          subst this
          simp at he
          subst he
          exact .inr rfl
  | cons i rest =>
    have hi : i ≠ mx := fun e => h.free (by rw [hd, e]; exact List.mem_cons_self)
    have hab : (s.abs mx).deleted = i :: rest := hd
    simp only [hab, reduceCtorEq, false_and, if_false, Slot.setId, true_and, ne_eq, hi, not_false_eq_true, if_true, Option.bind_eq_bind, Option.bind_some, abs_length]
    by_cases hl : i < s.data.length
    · rw [if_pos hl, if_pos hl]
      refine ⟨?_, ?_⟩
      · simp only [Option.map_some, IStore.abs, List.map_set, if_neg hi]
      · intro r hr
        obtain rfl := Option.some.inj hr
        exact ⟨⟨set_id h (.inr rfl), fun hm => h.free (by rw [hd]; exact List.mem_cons_of_mem _ hm)⟩, hi⟩
    · rw [if_neg hl, if_neg hl]
      exact ⟨rfl, fun r hr => by cases hr⟩

/-- C109: filling a reserved slot, the same as with unbounded indices except for the slot with the number `mx`. -/
theorem c109_set {s : IStore α} (h : s.Consistent mx) (i : Nat) (v : α) :
    (s.set mx i ⟨mx, v⟩).map (IStore.abs mx) = (if i = mx then none else (s.abs mx).set i v) ∧ ∀ r, s.set mx i ⟨mx, v⟩ = some r → r.Consistent mx := by
  simp only [IStore.set, Slot.isDeleted, beq_self_eq_true, Bool.and_true, beq_iff_eq, Store.set, abs_get, Option.bind_eq_bind, Slot.setId, true_and]
  cases hi : s.data[i]? with
  | none => simp
  | some w =>
    simp only [Option.bind_some, Option.map_some]
    by_cases hw : w.id = mx
    · rw [if_pos hw, if_pos hw]
      by_cases hm : i = mx
      · simp [hm]
      · rw [if_neg hm, if_pos hm]
        refine ⟨?_, ?_⟩
        · simp only [Option.bind_some, Option.map_some, IStore.abs, List.map_set, if_neg hm]
        · intro r hr
          obtain rfl := Option.some.inj hr
          exact ⟨set_id h (.inr rfl), h.free⟩
    · rw [if_neg hw, if_neg hw]
      simp

/-- C109: deleting. -/
theorem c109_delete {s : IStore α} (h : s.Consistent mx) (i : Nat) :
    (s.delete mx i).map (IStore.abs mx) = (s.abs mx).delete i ∧ ∀ r, s.delete mx i = some r → r.Consistent mx := by
  simp only [IStore.delete, Slot.delete, Store.delete, abs_get, Option.bind_eq_bind]
  cases hi : s.data[i]? with
  | none => simp
  | some w =>
    simp only [Option.bind_some, Option.map_some]
    by_cases hw : w.id = mx
    · simp [hw]
    · rw [if_pos hw, if_neg hw]
      have e := (h.id i w hi).resolve_left hw
      refine ⟨?_, ?_⟩
      · simp only [Option.bind_some, Option.map_some, IStore.abs, List.map_set, if_true]
      · intro r hr
        obtain rfl := Option.some.inj hr
        refine ⟨set_id (e := ⟨mx, w.val⟩) h (.inl rfl), fun hm => ?_⟩
        rcases List.mem_cons.mp hm with q | q
        · exact hw (e.trans q.symm)
        · exact h.free q

/-- C109: reserving a slot. It fails if there are more than `mx` slots. -/
theorem c109_allocate {s : IStore α} (h : s.Consistent mx) (d : α) :
    (s.allocate mx d).map (fun r => (r.1.abs mx, r.2)) = (if s.deleted = [] ∧ mx < s.data.length then none else some (s.abs mx).allocate) ∧ ∀ r, s.allocate mx d = some r → r.1.Consistent mx := by
  simp only [IStore.allocate, Store.allocate]
  cases hd : s.deleted with
  | nil =>
    have hab : (s.abs mx).deleted = [] := hd
    simp only [hab, true_and, newIndex, Option.bind_eq_bind, List.length_append, List.length_cons, List.length_nil, Nat.zero_add, Nat.add_sub_cancel]
    by_cases hl : mx < s.data.length
    · rw [if_pos hl, if_neg (by omega)]; simp
    · rw [if_neg hl, if_pos (by omega)]
      refine ⟨?_, ?_⟩
      · simp only [Option.bind_some, Option.map_some, abs_length]
        simp only [IStore.abs, List.map_append, List.map_cons, List.map_nil, if_true]
      · intro r hr
        obtain rfl := Option.some.inj hr
        refine ⟨fun i e he => ?_, by simp⟩
        rw [List.getElem?_append] at he
        split at he
        · exact h.id i e he
        · have : e ∈ [(⟨mx, d⟩ : Slot α)] := List.mem_of_getElem? he
          rw [List.mem_singleton.mp this]
          exact .inl rfl
  | cons i rest =>
    have hab : (s.abs mx).deleted = i :: rest := hd
    simp only [hab, reduceCtorEq, false_and, if_false, Option.map_some]
    refine ⟨rfl, ?_⟩
    intro r hr
    obtain rfl := Option.some.inj hr
    exact ⟨h.id, fun hm => h.free (by rw [hd]; exact List.mem_cons_of_mem _ hm)⟩

/-- one step -/
theorem step_sound {s : IStore α} (h : s.Consistent mx) (d : α) (o : StoreOp α) {r : IStore α × Option Nat} (hr : s.step mx d o = some r) : (s.abs mx).step o = some (r.1.abs mx, r.2) ∧ r.1.Consistent mx := by
  cases o with
  | push v =>
    obtain ⟨q, hq, rfl⟩ := Option.map_eq_some_iff.mp hr
    obtain ⟨h1, h2⟩ := c109_push h v
    rw [hq] at h1
    split at h1
    · cases h1
    · exact ⟨by rw [Store.step, ← h1]; rfl, (h2 q hq).1⟩
  | set i v =>
    obtain ⟨q, hq, rfl⟩ := Option.map_eq_some_iff.mp hr
    obtain ⟨h1, h2⟩ := c109_set h i v
    rw [hq] at h1
    split at h1
    · cases h1
    · exact ⟨by rw [Store.step, ← h1]; rfl, h2 q hq⟩
  | delete i =>
    obtain ⟨q, hq, rfl⟩ := Option.map_eq_some_iff.mp hr
    obtain ⟨h1, h2⟩ := c109_delete h i
    rw [hq] at h1
    exact ⟨by rw [Store.step, ← h1]; rfl, h2 q hq⟩
  | allocate =>
    obtain ⟨q, hq, rfl⟩ := Option.map_eq_some_iff.mp hr
    obtain ⟨h1, h2⟩ := c109_allocate h d
    rw [hq] at h1
    split at h1
    · cases h1
    · refine ⟨?_, h2 q hq⟩
      have := Option.some.inj h1
      rw [Store.step, ← this]

/-- C109: whatever is done with a vector, with bounded indices it either panics or gives the same result, with the same indices, as with unbounded ones. -/
theorem c109_sound (d : α) (l : List (StoreOp α)) : ∀ {s : IStore α}, s.Consistent mx → ∀ {r}, s.run mx d l = some r → (s.abs mx).run l = some (r.1.abs mx, r.2) ∧ r.1.Consistent mx := by
  induction l with
  | nil =>
    intro s h r hr
    obtain rfl := Option.some.inj hr
    exact ⟨rfl, h⟩
  | cons o l ih =>
    intro s h r hr
    simp only [IStore.run, Option.bind_eq_bind, Option.bind_eq_some_iff, Option.some.injEq] at hr
    obtain ⟨q, hq, p, hp, rfl⟩ := hr
    obtain ⟨h1, h2⟩ := step_sound h d o hq
    obtain ⟨h3, h4⟩ := ih h2 hp
    refine ⟨?_, h4⟩
    simp only [Store.run, h1, Option.bind_eq_bind, Option.bind_some, h3]

theorem step_mono {s : Store α} (o : StoreOp α) {r} (hr : s.step o = some r) : s.data.length ≤ r.1.data.length := by
  cases o with
  | push v =>
    obtain ⟨q, hq, rfl⟩ := Option.map_eq_some_iff.mp hr
    simp only [Store.push] at hq
    split at hq
    · split at hq
      · obtain rfl := Option.some.inj hq; simp
      · cases hq
    · obtain rfl := Option.some.inj hq; simp
  | set i v =>
    obtain ⟨q, hq, rfl⟩ := Option.map_eq_some_iff.mp hr
    simp only [Store.set] at hq
    split at hq
    · obtain rfl := Option.some.inj hq; simp
    · cases hq
  | delete i =>
    obtain ⟨q, hq, rfl⟩ := Option.map_eq_some_iff.mp hr
    simp only [Store.delete] at hq
    split at hq
    · obtain rfl := Option.some.inj hq; simp
    · cases hq
  | allocate =>
    obtain rfl := Option.some.inj hr
    simp only [Store.allocate]
    split <;> simp

theorem run_mono (l : List (StoreOp α)) : ∀ {s : Store α} {r}, s.run l = some r → s.data.length ≤ r.1.data.length := by
  induction l with
  | nil => intro s r hr; obtain rfl := Option.some.inj hr; exact Nat.le_refl _
  | cons o l ih =>
    intro s r hr
    simp only [Store.run, Option.bind_eq_bind, Option.bind_eq_some_iff, Option.some.injEq] at hr
    obtain ⟨q, hq, p, hp, rfl⟩ := hr
    have := ih hp
    exact Nat.le_trans (step_mono o hq) this

theorem step_complete {s : IStore α} (h : s.Consistent mx) (d : α) (o : StoreOp α) {r} (hr : (s.abs mx).step o = some r) (hc : r.1.data.length ≤ mx) : ∃ q, s.step mx d o = some q := by
  have hlen := step_mono o hr
  rw [abs_length] at hlen
  cases o with
  | push v =>
    obtain ⟨h1, -⟩ := c109_push h v
    obtain ⟨q, hq, rfl⟩ := Option.map_eq_some_iff.mp hr
    have : ¬(s.deleted = [] ∧ mx ≤ s.data.length) := by
      rintro ⟨e, hl⟩
      simp only [Store.push, show (s.abs mx).deleted = [] from e] at hq
      obtain rfl := Option.some.inj hq
      simp [abs_length] at hc
      omega
    rw [if_neg this, hq] at h1
    obtain ⟨p, hp, -⟩ := Option.map_eq_some_iff.mp h1
    exact ⟨_, by rw [IStore.step, hp]; rfl⟩
  | set i v =>
    obtain ⟨h1, -⟩ := c109_set h i v
    obtain ⟨q, hq, rfl⟩ := Option.map_eq_some_iff.mp hr
    have : ¬i = mx := by
      rintro rfl
      simp only [Store.set, abs_get] at hq
      rw [List.getElem?_eq_none (by omega)] at hq
      cases hq
    rw [if_neg this, hq] at h1
    obtain ⟨p, hp, -⟩ := Option.map_eq_some_iff.mp h1
    exact ⟨_, by rw [IStore.step, hp]; rfl⟩
  | delete i =>
    obtain ⟨h1, -⟩ := c109_delete h i
    obtain ⟨q, hq, rfl⟩ := Option.map_eq_some_iff.mp hr
    rw [hq] at h1
    obtain ⟨p, hp, -⟩ := Option.map_eq_some_iff.mp h1
    exact ⟨_, by rw [IStore.step, hp]; rfl⟩
  | allocate =>
    obtain ⟨h1, -⟩ := c109_allocate h d
    rw [if_neg (by omega)] at h1
    obtain ⟨p, hp, -⟩ := Option.map_eq_some_iff.mp h1
    exact ⟨_, by rw [IStore.step, hp]; rfl⟩

/-- C109: nothing that works with unbounded indices panics with bounded ones as long as at most `mx` slots are needed. -/
theorem c109_complete (d : α) (l : List (StoreOp α)) : ∀ {s : IStore α}, s.Consistent mx → ∀ {r}, (s.abs mx).run l = some r → r.1.capacity ≤ mx → ∃ q, s.run mx d l = some q ∧ r = (q.1.abs mx, q.2) := by
  induction l with
  | nil =>
    intro s h r hr _
    obtain rfl := Option.some.inj hr
    exact ⟨_, rfl, rfl⟩
  | cons o l ih =>
    intro s h r hr hc
    simp only [Store.run, Option.bind_eq_bind, Option.bind_eq_some_iff, Option.some.injEq] at hr
    obtain ⟨q, hq, p, hp, rfl⟩ := hr
    obtain ⟨q', hq'⟩ := step_complete h d o hq (Nat.le_trans (run_mono l hp) hc)
    obtain ⟨h1, h2⟩ := step_sound h d o hq'
    obtain rfl : q = (q'.1.abs mx, q'.2) := by rw [hq] at h1; exact Option.some.inj h1
    obtain ⟨p', hp', rfl⟩ := ih h2 hp hc
    refine ⟨(p'.1, q'.2 :: p'.2), ?_, rfl⟩
    simp only [IStore.run, hq', Option.bind_eq_bind, Option.bind_some, hp']

/-- C109: reserving a slot when `mx` are in use returns the number that stands for "none" … -/
theorem c109_sentinel {s : IStore α} (hd : s.deleted = []) (hl : s.data.length = mx) (d : α) : ∃ r, s.allocate mx d = some (r, mx) := by
  simp [IStore.allocate, hd, newIndex, hl]

/-- C109: … but this slot can never be filled. -/
theorem c109_sentinel_panics (s : IStore α) (v : Slot α) : s.set mx mx v = none := by
  simp only [IStore.set, Slot.setId, Option.bind_eq_bind]
  cases s.data[mx]? with
  | none => rfl
  | some w => simp

/-- non-vacuity: a type with the indices 0 to 3, of which three can be used -/
def ops3 : List (StoreOp String) := [.push "a", .allocate, .push "c", .set 1 "b", .delete 0, .push "d"]

example : IStore.run 3 "" .empty ops3 = some (⟨[⟨0, "d"⟩, ⟨1, "b"⟩, ⟨2, "c"⟩], []⟩, [some 0, some 1, some 2, none, none, some 0]) := by decide +kernel
example : Store.run .empty ops3 = some (⟨[some "d", some "b", some "c"], []⟩, [some 0, some 1, some 2, none, none, some 0]) := by decide +kernel
example : (IStore.empty : IStore String).abs 3 = .empty := rfl

/-- the fourth element -/
example : IStore.run 3 "" .empty (ops3 ++ [.push "e"]) = none := by decide +kernel
example : (IStore.run 3 "" .empty (ops3 ++ [.allocate])).map (·.2.getLast?) = some (some (some 3)) := by decide +kernel
example : IStore.run 3 "" .empty (ops3 ++ [.allocate, .set 3 "e"]) = none := by decide +kernel
example : IStore.run 3 "" .empty (ops3 ++ [.allocate, .allocate]) = none := by decide +kernel

end Verif
