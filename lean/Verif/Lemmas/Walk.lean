import Verif.Lemmas.MeshBasic
/- Orbits of injective maps on finite sets, and the bounded walks that enumerate them. -/
namespace Verif

theorem nodup_length_le {l l' : List Nat} (h : l.Nodup) (hs : ∀ x ∈ l, x ∈ l') : l.length ≤ l'.length := by
  induction l generalizing l' with
  | nil => simp
  | cons a t ih =>
    simp only [List.nodup_cons] at h
    have h1 : a ∈ l' := hs a (by simp)
    have := ih (l' := l'.erase a) h.2 (fun x hx => by
      have hne : x ≠ a := fun he => h.1 (he ▸ hx)
      exact (List.mem_erase_of_ne hne).mpr (hs x (by simp [hx])))
    rw [List.length_erase_of_mem h1] at this
    have := List.length_pos_of_mem h1
    simp only [List.length_cons]; omega

theorem nodup_length_le_bound {l : List Nat} {n : Nat} (h : l.Nodup) (hs : ∀ x ∈ l, x < n) : l.length ≤ n := by
  have := nodup_length_le (l' := List.range n) h (fun x hx => List.mem_range.mpr (hs x hx))
  simpa using this

theorem itr_succ (f : Nat → Nat) (k a : Nat) : itr f (k + 1) a = f (itr f k a) := by
  induction k generalizing a with
  | zero => rfl
  | succ k ih => exact ih (f a)

theorem itr_add (f : Nat → Nat) (j k a : Nat) : itr f (j + k) a = itr f j (itr f k a) := by
  induction j with
  | zero => simp [itr]
  | succ j ih => rw [Nat.succ_add, itr_succ, itr_succ, ih]

theorem reach_iff_itr {f : Nat → Nat} {a b : Nat} : Reach f a b ↔ ∃ k, itr f k a = b := by
  constructor
  · intro h
    induction h with
    | refl => exact ⟨0, rfl⟩
    | head _ ih => obtain ⟨k, hk⟩ := ih; exact ⟨k + 1, hk⟩
  · rintro ⟨k, rfl⟩
    induction k generalizing a with
    | zero => exact .refl _
    | succ k ih => exact .head ih

theorem itr_closed {f : Nat → Nat} {P : Nat → Prop} (hP : ∀ x, P x → P (f x)) {a} (ha : P a) (k : Nat) :
    P (itr f k a) := (reach_iff_itr.mpr ⟨k, rfl⟩ : Reach f a _).closed hP ha

theorem IsOrbit.mem_iff {f a l} (h : IsOrbit f a l) (x : Nat) : x ∈ l ↔ Reach f a x := by
  rw [reach_iff_itr]
  constructor
  · intro hx
    rw [h.eq] at hx
    simp only [List.mem_map, List.mem_range] at hx
    obtain ⟨i, -, hi⟩ := hx
    exact ⟨i, hi⟩
  · rintro ⟨k, rfl⟩
    have key : ∀ k, itr f k a ∈ l := by
      intro k
      induction k using Nat.strongRecOn with
      | ind k ih =>
        by_cases hk : k < l.length
        · rw [h.eq]
          simp only [List.mem_map, List.mem_range]
          exact ⟨k, hk, rfl⟩
        · have h1 : k = (k - l.length) + l.length := by omega
          rw [h1, itr_add, h.close]
          exact ih _ (by have := h.pos; omega)
    exact key k

theorem IsOrbit.head {f a l} (h : IsOrbit f a l) : ∃ t, l = a :: t := by
  have := h.eq
  have hp := h.pos
  obtain ⟨n, hn⟩ : ∃ n, l.length = n + 1 := ⟨l.length - 1, by omega⟩
  rw [hn, List.range_succ_eq_map] at this
  exact ⟨_, this⟩

theorem IsOrbit.getElem {f a l} (h : IsOrbit f a l) {i : Nat} (hi : i < l.length) : l[i] = itr f i a := by
  have h1 : l[i]? = some (itr f i a) := by
    rw [h.eq]
    simp [hi]
  rw [List.getElem?_eq_getElem hi] at h1
  simpa using h1

theorem IsOrbit.back {f a l} (h : IsOrbit f a l) {x : Nat} (hx : x ∈ l) : Reach f x a := by
  obtain ⟨i, hi, rfl⟩ := List.getElem_of_mem hx
  rw [h.getElem hi, reach_iff_itr]
  refine ⟨l.length - i, ?_⟩
  rw [← itr_add]
  have : l.length - i + i = l.length := by omega
  rw [this, h.close]

theorem IsOrbit.pred {f g : Nat → Nat} {a l} {P : Nat → Prop} (h : IsOrbit f a l) (hP : ∀ x, P x → P (f x)) (hg : ∀ x, P x → g (f x) = x)
    (ha : P a) {x : Nat} (hx : P x) (hm : f x ∈ l) : x ∈ l := by
  have key : ∃ k, f x = itr f (k + 1) a := by
    obtain ⟨k, hk⟩ := reach_iff_itr.mp ((h.mem_iff _).mp hm)
    cases k with
    | zero =>
      refine ⟨l.length - 1, ?_⟩
      have : l.length - 1 + 1 = l.length := by have := h.pos; omega
      rw [this, h.close, ← hk, itr]
    | succ k => exact ⟨k, hk.symm⟩
  obtain ⟨k, hk⟩ := key
  rw [itr_succ] at hk
  have := congrArg g hk
  rw [hg _ hx, hg _ (itr_closed hP ha k)] at this
  rw [h.mem_iff, reach_iff_itr]
  exact ⟨k, this.symm⟩

/-- Existence of the orbit for a map with a left inverse on a bounded closed set. -/
theorem exists_orbit {f g : Nat → Nat} {P : Nat → Prop} (hP : ∀ x, P x → P (f x)) (hg : ∀ x, P x → g (f x) = x)
    {n : Nat} (hb : ∀ x, P x → x < n) {a : Nat} (ha : P a) : ∃ l, IsOrbit f a l ∧ l.length ≤ n := by
  -- injectivity of iterates
  have cancel : ∀ i j, itr f i a = itr f (i + j) a → itr f j a = a := by
    intro i j
    induction i with
    | zero => intro h; simp [itr] at h; exact h.symm
    | succ i ih =>
      intro h
      apply ih
      have e : i + 1 + j = (i + j) + 1 := by omega
      rw [e, itr_succ, itr_succ] at h
      have := congrArg g h
      rw [hg _ (itr_closed hP ha i), hg _ (itr_closed hP ha (i + j))] at this
      exact this
  -- some positive return time
  have ret : ∃ k, 0 < k ∧ itr f k a = a := by
    apply Classical.byContradiction
    intro hno
    have nd : ((List.range (n + 1)).map (fun i => itr f i a)).Nodup := by
      rw [List.nodup_iff_pairwise_ne, List.pairwise_map]
      refine List.pairwise_lt_range.imp ?_
      intro i j hij heq
      apply hno
      exact ⟨j - i, by omega, cancel i (j - i) (by rw [heq]; congr 1; omega)⟩
    have := nodup_length_le_bound (n := n) nd (by
      intro x hx
      simp only [List.mem_map] at hx
      obtain ⟨i, -, rfl⟩ := hx
      exact hb _ (itr_closed hP ha i))
    simp only [List.length_map, List.length_range] at this; omega
  -- the least one
  have least : ∀ k, 0 < k → itr f k a = a →
      ∃ m, 0 < m ∧ itr f m a = a ∧ ∀ j, 0 < j → j < m → itr f j a ≠ a := by
    intro k
    induction k using Nat.strongRecOn with
    | ind k ih =>
      intro hk h
      by_cases hex : ∃ j, 0 < j ∧ j < k ∧ itr f j a = a
      · obtain ⟨j, h1, h2, h3⟩ := hex
        exact ih j h2 h1 h3
      · refine ⟨k, hk, h, fun j h1 h2 h3 => hex ⟨j, h1, h2, h3⟩⟩
  obtain ⟨k, hk, hka⟩ := ret
  obtain ⟨m, hm, hma, hmin⟩ := least k hk hka
  have nd : ((List.range m).map (fun i => itr f i a)).Nodup := by
    rw [List.nodup_iff_pairwise_ne, List.pairwise_map, List.pairwise_iff_getElem]
    intro i j hi hj hij heq
    simp only [List.length_range] at hi hj
    simp only [List.getElem_range] at heq
    exact hmin (j - i) (by omega) (by omega) (cancel i (j - i) (by rw [heq]; congr 1; omega))
  refine ⟨(List.range m).map (fun i => itr f i a), ⟨by simp, by simpa using hm, by simpa using hma, nd⟩, ?_⟩
  apply nodup_length_le_bound nd
  intro x hx
  simp only [List.mem_map] at hx
  obtain ⟨i, -, rfl⟩ := hx
  exact hb _ (itr_closed hP ha i)

/-- A bounded walk enumerates the orbit. -/
theorem walk_of_orbit {step : Nat → Option Nat} {f : Nat → Nat} {a : Nat} {l : List Nat} (h : IsOrbit f a l)
    (hs : ∀ x ∈ l, step x = some (f x)) {fuel : Nat} (hf : l.length ≤ fuel) :
    Mesh.walk step a fuel a = some l := by
  have key : ∀ j, ∀ i fuel, i + j = l.length → 0 < j → j ≤ fuel →
      Mesh.walk step a fuel (itr f i a) = some (l.drop i) := by
    intro j
    induction j with
    | zero => intro i fuel _ h0; omega
    | succ j ih =>
      intro i fuel hij _ hfu
      obtain ⟨fu, rfl⟩ : ∃ fu, fuel = fu + 1 := ⟨fuel - 1, by omega⟩
      have hi : i < l.length := by omega
      have hmem : itr f i a ∈ l := by rw [← h.getElem hi]; exact List.getElem_mem hi
      simp only [Mesh.walk, hs _ hmem, Option.bind_eq_bind, Option.bind_some]
      rw [← itr_succ f i a]
      by_cases hj : j = 0
      · subst hj
        have : i + 1 = l.length := by omega
        rw [this, h.close]
        simp
        rw [List.drop_eq_getElem_cons hi, h.getElem hi, List.drop_eq_nil_of_le (by omega)]
      · have hne : itr f (i + 1) a ≠ a := by
          intro heq
          have h1 : i + 1 < l.length := by omega
          have h2 := h.getElem h1
          have h3 := h.getElem h.pos
          rw [heq] at h2
          simp [itr] at h3
          have := (List.getElem_inj h.nodup).mp (h2.trans h3.symm)
          omega
        rw [if_neg hne, ih (i + 1) fu (by omega) (by omega) (by omega)]
        simp
        rw [List.drop_eq_getElem_cons hi, h.getElem hi]
  have := key l.length 0 fuel (by omega) h.pos hf
  simpa [itr] using this

/-- A bounded lazy search along the orbit. -/
theorem walkFind_of_orbit {step : Nat → Option Nat} {p : Nat → Option Bool} {q : Nat → Bool} {f : Nat → Nat}
    {a : Nat} {l : List Nat} (h : IsOrbit f a l)
    (hs : ∀ x ∈ l, step x = some (f x)) (hp : ∀ x ∈ l, p x = some (q x)) {fuel : Nat} (hf : l.length ≤ fuel) :
    Mesh.walkFind step p a fuel a = some (l.find? q) := by
  have key : ∀ j, ∀ i fuel, i + j = l.length → 0 < j → j ≤ fuel →
      Mesh.walkFind step p a fuel (itr f i a) = some ((l.drop i).find? q) := by
    intro j
    induction j with
    | zero => intro i fuel _ h0; omega
    | succ j ih =>
      intro i fuel hij _ hfu
      obtain ⟨fu, rfl⟩ : ∃ fu, fuel = fu + 1 := ⟨fuel - 1, by omega⟩
      have hi : i < l.length := by omega
      have hmem : itr f i a ∈ l := by rw [← h.getElem hi]; exact List.getElem_mem hi
      rw [List.drop_eq_getElem_cons hi, h.getElem hi, List.find?_cons]
      simp only [Mesh.walkFind, hs _ hmem, hp _ hmem, Option.bind_eq_bind, Option.bind_some]
      cases hq : q (itr f i a)
      · simp only [Bool.false_eq_true, if_false]
        rw [← itr_succ f i a]
        by_cases hj : j = 0
        · subst hj
          have : i + 1 = l.length := by omega
          rw [this, h.close]
          simp
        · have hne : itr f (i + 1) a ≠ a := by
            intro heq
            have h1 : i + 1 < l.length := by omega
            have h2 := h.getElem h1
            have h3 := h.getElem h.pos
            rw [heq] at h2
            simp [itr] at h3
            have := (List.getElem_inj h.nodup).mp (h2.trans h3.symm)
            omega
          rw [if_neg hne, ih (i + 1) fu (by omega) (by omega) (by omega)]
      · simp
  have := key l.length 0 fuel (by omega) h.pos hf
  simpa [itr] using this

end Verif
