import Verif.Model.Dynamic
import Verif.Props.Tess
import Mathlib.Algebra.Order.Monoid.Defs
/-
C40 (dynamic programming), C41 (triangular tables).
-/
set_option linter.unusedSectionVars false
namespace Verif.Geom
open Triangulation

/-- number of entries in the rows before `j` -/
def tnum (j : Nat) : Nat := j * (j - 1) / 2

theorem tnum_succ (j : Nat) : tnum (j + 1) = tnum j + j := by
  cases j with
  | zero => rfl
  | succ j =>
    simp only [tnum, Nat.add_sub_cancel]
    have : (j + 1 + 1) * (j + 1) = (j + 1) * j + (j + 1) * 2 := by rw [Nat.mul_comm, ← Nat.mul_add]
    rw [this, Nat.add_mul_div_right _ _ (by omega)]

theorem tnum_mono {a b : Nat} (h : a ≤ b) : tnum a ≤ tnum b := by
  induction h with
  | refl => exact Nat.le_refl _
  | step h ih => rw [tnum_succ]; omega

/-- position of an entry -/
def tix (i j : Nat) : Nat := tnum j + i

theorem tix_lt {i j n : Nat} (h1 : i < j) (h2 : j < n) : tix i j < tnum n := by
  have := tnum_mono (a := j + 1) (b := n) h2
  rw [tnum_succ] at this
  simp only [tix]; omega

theorem tix_inj {i j i' j' : Nat} (h1 : i < j) (h2 : i' < j') (h : tix i j = tix i' j') : i = i' ∧ j = j' := by
  have key : ∀ {a b a' b' : Nat}, a < b → a' < b' → b < b' → tix a b ≠ tix a' b' := by
    intro a b a' b' h1 h2 h3
    have := tnum_mono (a := b + 1) (b := b') h3
    rw [tnum_succ] at this
    simp only [tix]; omega
  rcases Nat.lt_trichotomy j j' with h3 | h3 | h3
  · exact absurd h (key h1 h2 h3)
  · subst h3; simp only [tix] at h; omega
  · exact absurd h.symm (key h2 h1 h3)

/-- the store holds the values `f` -/
structure Rep {A : Type} (n : Nat) (s : TriStore A) (f : Nat → Nat → A) : Prop where
  size : s.n = n
  len : s.data.length = tnum n
  get : ∀ i j, i < j → j < n → s.data[tix i j]? = some (f i j)

def upd {A : Type} (f : Nat → Nat → A) (i j : Nat) (a : A) : Nat → Nat → A := fun i' j' => if i' = i ∧ j' = j then a else f i' j'

theorem index_eq {A : Type} {n : Nat} {s : TriStore A} {f : Nat → Nat → A} (h : Rep n s f) (dbg : Bool) {i j : Nat} (h1 : i < j) (h2 : j < n) : s.index dbg i j = some (tix i j) := by
  have : (dbg && !(decide (j ≥ 1) && decide (i < j) && decide (j < s.n))) = false := by
    simp [h.size, h1, h2]; omega
  rw [TriStore.index, this]; rfl

theorem rep_new {A : Type} {n : Nat} (h : 1 < n) (a : A) : ∃ s, TriStore.new n a = some s ∧ Rep n s fun _ _ => a := by
  refine ⟨_, if_pos h, rfl, by simp [tnum], ?_⟩
  intro i j h1 h2
  have := tix_lt h1 h2
  simp only [tnum] at this
  simp only [List.getElem?_replicate]
  rw [if_pos this]

theorem rep_get {A : Type} {n : Nat} {s : TriStore A} {f : Nat → Nat → A} (h : Rep n s f) (dbg : Bool) {i j : Nat} (h1 : i < j) (h2 : j < n) : s.get dbg i j = some (f i j) := by
  simp [TriStore.get, index_eq h dbg h1 h2, h.get i j h1 h2]

theorem rep_setAt {A : Type} {n : Nat} {s : TriStore A} {f : Nat → Nat → A} (h : Rep n s f) {i j : Nat} (h1 : i < j) (h2 : j < n) (a : A) :
    ∃ s', s.setAt (tix i j) a = some s' ∧ Rep n s' (upd f i j a) := by
  have hl : tix i j < s.data.length := by rw [h.len]; exact tix_lt h1 h2
  refine ⟨_, if_pos hl, h.size, by simp [h.len], ?_⟩
  intro i' j' h1' h2'
  simp only [List.getElem?_set, upd]
  by_cases he : tix i j = tix i' j'
  · obtain ⟨rfl, rfl⟩ := tix_inj h1 h1' he
    simp [hl]
  · rw [if_neg he, if_neg (by rintro ⟨rfl, rfl⟩; exact he rfl), h.get i' j' h1' h2']

theorem rep_set {A : Type} {n : Nat} {s : TriStore A} {f : Nat → Nat → A} (h : Rep n s f) (dbg : Bool) {i j : Nat} (h1 : i < j) (h2 : j < n) (a : A) :
    ∃ s', s.set dbg i j a = some s' ∧ Rep n s' (upd f i j a) := by
  simp only [TriStore.set, index_eq h dbg h1 h2, Option.bind_eq_bind, Option.bind_some]
  exact rep_setAt h h1 h2 a

end Verif.Geom

namespace Verif.GeomProps
open Verif.Geom Verif.Geom.Triangulation

/-- C41: distinct pairs below the bound have distinct positions inside the storage. -/
theorem c41_index {n : Nat} : (∀ i j, i < j → j < n → j * (j - 1) / 2 + i < n * (n - 1) / 2) ∧
    ∀ i j i' j', i < j → j < n → i' < j' → j' < n → j * (j - 1) / 2 + i = j' * (j' - 1) / 2 + i' → i = i' ∧ j = j' :=
  ⟨fun _ _ h1 h2 => tix_lt h1 h2, fun _ _ _ _ h1 _ h2 _ h => tix_inj h1 h2 h⟩

/-- C41: reading an entry returns what was written to it last, whatever was written to other entries. -/
theorem c41_store {A : Type} (dbg : Bool) {n : Nat} (h : 1 < n) (a : A) (ws : List (Nat × Nat × A)) (hw : ∀ w ∈ ws, w.1 < w.2.1 ∧ w.2.1 < n) :
    ∃ s s', TriStore.new n a = some s ∧ ws.foldlM (fun s w => s.set dbg w.1 w.2.1 w.2.2) s = some s' ∧
      ∀ i j, i < j → j < n → s'.get dbg i j = some (ws.foldl (fun x w => if w.1 = i ∧ w.2.1 = j then w.2.2 else x) a) := by
  obtain ⟨s, h1, h2⟩ := rep_new h a
  refine ⟨s, ?_⟩
  have key : ∀ (ws : List (Nat × Nat × A)) (s : TriStore A) (f : Nat → Nat → A), Rep n s f → (∀ w ∈ ws, w.1 < w.2.1 ∧ w.2.1 < n) →
      ∃ s', ws.foldlM (fun s w => s.set dbg w.1 w.2.1 w.2.2) s = some s' ∧ ∀ i j, i < j → j < n → s'.get dbg i j = some (ws.foldl (fun x w => if w.1 = i ∧ w.2.1 = j then w.2.2 else x) (f i j)) := by
    intro ws
    induction ws with
    | nil => intro s f hf _; exact ⟨s, rfl, fun i j h1 h2 => rep_get hf dbg h1 h2⟩
    | cons w ws ih =>
      intro s f hf hw
      obtain ⟨s1, g1, g2⟩ := rep_set hf dbg (hw w (by simp)).1 (hw w (by simp)).2 w.2.2
      obtain ⟨s', g3, g4⟩ := ih s1 _ g2 fun w' hw' => hw w' (by simp [hw'])
      refine ⟨s', by simp [List.foldlM_cons, g1, g3], ?_⟩
      intro i j h1 h2
      rw [g4 i j h1 h2, List.foldl_cons]
      simp only [upd, eq_comm]
  obtain ⟨s', g1, g2⟩ := key ws s _ h2 hw
  exact ⟨s', h1, g1, g2⟩

example : ((TriStore.new 4 'a').bind fun s => (s.set true 0 2 'b').bind fun s => (s.set true 1 2 'c').bind fun s => s.get true 0 2) = some 'b' := by decide

end Verif.GeomProps

namespace Verif.Geom
open Triangulation
variable {W : Type} [AddCommMonoid W] [LinearOrder W] [IsOrderedAddMonoid W]

/-! ### One cell -/

/-- the cost of choosing `k` in the interval `(i, j)` -/
def cost (wt : Nat → Nat → Nat → W) (M : Nat → Nat → Ext W) (i j k : Nat) : Ext W := ((M i k).add (M k j)).add (.fin (wt i j k))

/-- what the search over `k` achieves: the result is not larger than any admissible cost, and attained unless it is infinite -/
structure Best (wt : Nat → Nat → Nat → W) (V : Nat → Nat → Bool) (M : Nat → Nat → Ext W) (i j : Nat) (ks : List Nat) (v : Ext W) (s : Nat) : Prop where
  le : ∀ k ∈ ks, V i k = true → V k j = true → (cost wt M i j k).lt v = false
  att : (v = .inf ∧ s = maxIx) ∨ (v ≠ .inf ∧ s ∈ ks ∧ V i s = true ∧ V s j = true ∧ cost wt M i j s = v)

theorem not_lt_trans {a b c : Ext W} (h1 : a.lt b = false) (h2 : c.lt b = true) : a.lt c = false := by
  cases a <;> cases b <;> cases c <;> simp_all [Ext.lt]
  exact h2.le.trans h1

theorem lt_irrefl' (a : Ext W) : a.lt a = false := by cases a <;> simp [Ext.lt]

theorem lt_inf {a b : Ext W} (h : a.lt b = true) : a ≠ .inf := by rintro rfl; cases b <;> simp [Ext.lt] at h

theorem fillCell_spec (dbg : Bool) (wt : Nat → Nat → Nat → W) {n : Nat} {valid : TriStore Bool} {V : Nat → Nat → Bool} (hv : Rep n valid V)
    {m : TriStore (Ext W)} {M : Nat → Nat → Ext W} (hm : Rep n m M) {i j : Nat} (hj : j < n) : ∀ (ks : List Nat) (pre : List Nat) (v : Ext W) (s : Nat),
    (∀ k ∈ ks, i < k ∧ k < j ∧ M i k ≠ .negInf ∧ M k j ≠ .negInf) → Best wt V M i j pre v s →
    ∃ v' s', fillCell dbg wt valid m i j ks v s = some (v', s') ∧ Best wt V M i j (pre ++ ks) v' s' := by
  intro ks
  induction ks with
  | nil => intro pre v s _ hb; exact ⟨v, s, rfl, by simpa using hb⟩
  | cons k ks ih =>
    intro pre v s hk hb
    obtain ⟨h1, h2, h3, h4⟩ := hk k (by simp)
    have e1 := index_eq hm dbg h1 (by omega)
    have e2 := index_eq hm dbg h2 hj
    have e3 := hm.get i k h1 (by omega)
    have e4 := hm.get k j h2 hj
    have e5 := hv.get i k h1 (by omega)
    have e6 := hv.get k j h2 hj
    have hd : (dbg && (decide (M i k = .negInf) || decide (M k j = .negInf))) = false := by simp [h3, h4]
    have hstep : fillCell dbg wt valid m i j (k :: ks) v s =
        if !V i k || !V k j then fillCell dbg wt valid m i j ks v s
        else if (cost wt M i j k).lt v then fillCell dbg wt valid m i j ks (cost wt M i j k) k else fillCell dbg wt valid m i j ks v s := by
      simp only [fillCell, e1, e2, e3, e4, e5, e6, Option.bind_eq_bind, Option.bind_some, hd]
      rfl
    rw [hstep, show pre ++ k :: ks = (pre ++ [k]) ++ ks by simp]
    have hk' : ∀ k ∈ ks, i < k ∧ k < j ∧ M i k ≠ .negInf ∧ M k j ≠ .negInf := fun k hkk => hk k (by simp [hkk])
    by_cases hV : (!V i k || !V k j) = true
    · rw [if_pos hV]
      refine ih _ v s hk' ⟨?_, ?_⟩
      · intro k' hk1 hk2 hk3
        rw [List.mem_append, List.mem_singleton] at hk1
        rcases hk1 with hk1 | rfl
        · exact hb.le k' hk1 hk2 hk3
        · simp [hk2, hk3] at hV
      · rcases hb.att with h | ⟨a1, a2, a3⟩
        · exact .inl h
        · exact .inr ⟨a1, by simp [a2], a3⟩
    · rw [if_neg hV]
      simp only [Bool.or_eq_true, Bool.not_eq_true', not_or, Bool.not_eq_false] at hV
      by_cases hc : (cost wt M i j k).lt v = true
      · rw [if_pos hc]
        refine ih _ _ k hk' ⟨?_, ?_⟩
        · intro k' hk1 hk2 hk3
          rw [List.mem_append, List.mem_singleton] at hk1
          rcases hk1 with hk1 | rfl
          · exact not_lt_trans (hb.le k' hk1 hk2 hk3) hc
          · exact lt_irrefl' _
        · exact .inr ⟨lt_inf hc, by simp, hV.1, hV.2, rfl⟩
      · rw [if_neg hc]
        refine ih _ v s hk' ⟨?_, ?_⟩
        · intro k' hk1 hk2 hk3
          rw [List.mem_append, List.mem_singleton] at hk1
          rcases hk1 with hk1 | rfl
          · exact hb.le k' hk1 hk2 hk3
          · simpa using hc
        · rcases hb.att with h | ⟨a1, a2, a3⟩
          · exact .inl h
          · exact .inr ⟨a1, by simp [a2], a3⟩

/-! ### The table -/

/-- the equation of the dynamic program for one entry -/
def Good (wt : Nat → Nat → Nat → W) (V : Nat → Nat → Bool) (M : Nat → Nat → Ext W) (S : Nat → Nat → Nat) (i j : Nat) : Prop :=
  M i j ≠ .negInf ∧ (j = i + 1 → M i j = .fin 0) ∧ (i + 2 ≤ j → Best wt V M i j (List.range' (i + 1) (j - (i + 1))) (M i j) (S i j))

theorem add_ne_negInf {a b : Ext W} (ha : a ≠ .negInf) (hb : b ≠ .negInf) : a.add b ≠ .negInf := by
  cases a <;> cases b <;> simp_all [Ext.add]

theorem good_congr {wt : Nat → Nat → Nat → W} {V : Nat → Nat → Bool} {M M' : Nat → Nat → Ext W} {S S' : Nat → Nat → Nat} {i j : Nat} (h : Good wt V M S i j)
    (hM : ∀ a b, i ≤ a → a < b → b ≤ j → M' a b = M a b) (hS : S' i j = S i j) (hij : i < j) : Good wt V M' S' i j := by
  obtain ⟨h1, h2, h3⟩ := h
  have e := hM i j (Nat.le_refl _) hij (Nat.le_refl _)
  have hcost : ∀ k, i < k → k < j → cost wt M' i j k = cost wt M i j k := by
    intro k hk1 hk2
    rw [cost, cost, hM i k (Nat.le_refl _) hk1 (by omega), hM k j (by omega) hk2 (Nat.le_refl _)]
  refine ⟨by rw [e]; exact h1, fun hj => by rw [e]; exact h2 hj, fun hj => ?_⟩
  rw [e, hS]
  obtain ⟨g1, g2⟩ := h3 hj
  have hmem : ∀ k ∈ List.range' (i + 1) (j - (i + 1)), i < k ∧ k < j := by
    intro k hk; rw [List.mem_range'_1] at hk; omega
  refine ⟨fun k hk v1 v2 => by rw [hcost k (hmem k hk).1 (hmem k hk).2]; exact g1 k hk v1 v2, ?_⟩
  rcases g2 with g | ⟨a1, a2, a3, a4, a5⟩
  · exact .inl g
  · exact .inr ⟨a1, a2, a3, a4, by rw [hcost _ (hmem _ a2).1 (hmem _ a2).2]; exact a5⟩

theorem fillLoop_append (dbg : Bool) (wt : Nat → Nat → Nat → W) (valid : TriStore Bool) (xs ys : List (Nat × Nat)) : ∀ m s,
    fillLoop dbg wt valid (xs ++ ys) m s = (fillLoop dbg wt valid xs m s).bind fun p => fillLoop dbg wt valid ys p.1 p.2 := by
  induction xs with
  | nil => intro m s; rfl
  | cons x xs ih =>
    intro m s
    obtain ⟨l, i⟩ := x
    simp only [List.cons_append, fillLoop, Option.bind_eq_bind, ih, Option.bind_assoc]

/-- state of the tables: entries with `b - a < l`, and those with `b - a = l` and `a < i`, are final -/
structure FillInv (wt : Nat → Nat → Nat → W) (V : Nat → Nat → Bool) (n l i : Nat) (m : TriStore (Ext W)) (s : TriStore Nat) (M : Nat → Nat → Ext W) (S : Nat → Nat → Nat) : Prop where
  repM : Rep n m M
  repS : Rep n s S
  good : ∀ a b, a < b → b < n → (b - a < l ∨ (b - a = l ∧ a < i)) → Good wt V M S a b

theorem fill_one (dbg : Bool) (wt : Nat → Nat → Nat → W) {n l i : Nat} {valid : TriStore Bool} {V : Nat → Nat → Bool} (hv : Rep n valid V) (hl : 2 ≤ l) (hi : i + l < n)
    {m s M S} (I : FillInv wt V n l i m s M S) : ∃ m' s' M' S', fillLoop dbg wt valid [(l, i)] m s = some (m', s') ∧ FillInv wt V n l (i + 1) m' s' M' S' := by
  have hij : i < i + l := by omega
  have e1 := index_eq I.repM dbg hij hi
  obtain ⟨v, k, h1, h2⟩ := fillCell_spec dbg wt hv I.repM (i := i) hi (List.range' (i + 1) (i + l - (i + 1))) [] .inf maxIx
    (by intro k hk
        rw [List.mem_range'_1] at hk
        refine ⟨by omega, by omega, ?_, ?_⟩
        · exact (I.good i k (by omega) (by omega) (.inl (by omega))).1
        · exact (I.good k (i + l) (by omega) (by omega) (.inl (by omega))).1)
    ⟨by simp, .inl ⟨rfl, rfl⟩⟩
  rw [List.nil_append] at h2
  obtain ⟨m', g1, g2⟩ := rep_setAt I.repM hij hi v
  obtain ⟨s', g3, g4⟩ := rep_setAt I.repS hij hi k
  refine ⟨m', s', _, _, ?_, g2, g4, ?_⟩
  · simp only [fillLoop, e1, h1, g1, g3, Option.bind_eq_bind, Option.bind_some]
  · intro a b hab hb hcase
    have hframe : ∀ a' b', (a', b') ≠ (i, i + l) → upd M i (i + l) v a' b' = M a' b' := by
      intro a' b' hne
      rw [upd, if_neg (by rintro ⟨rfl, rfl⟩; exact hne rfl)]
    have hframeS : ∀ a' b', (a', b') ≠ (i, i + l) → upd S i (i + l) k a' b' = S a' b' := by
      intro a' b' hne
      rw [upd, if_neg (by rintro ⟨rfl, rfl⟩; exact hne rfl)]
    by_cases he : a = i ∧ b = i + l
    · obtain ⟨rfl, rfl⟩ := he
      have hM : upd M a (a + l) v a (a + l) = v := by simp [upd]
      have hS : upd S a (a + l) k a (a + l) = k := by simp [upd]
      have hmem : ∀ x ∈ List.range' (a + 1) (a + l - (a + 1)), a < x ∧ x < a + l := by
        intro x hx; rw [List.mem_range'_1] at hx; omega
      have hcost : ∀ x, a < x → x < a + l → cost wt (upd M a (a + l) v) a (a + l) x = cost wt M a (a + l) x := by
        intro x hx1 hx2
        rw [cost, cost, hframe a x (by simp; omega), hframe x (a + l) (by simp; omega)]
      refine ⟨?_, fun h => by omega, fun _ => ?_⟩
      · rw [hM]
        rcases h2.att with ⟨rfl, -⟩ | ⟨-, b2, -, -, b5⟩
        · simp
        · rw [← b5]
          have := hmem k b2
          refine add_ne_negInf (add_ne_negInf ?_ ?_) (by simp)
          · exact (I.good a k this.1 (by omega) (.inl (by omega))).1
          · exact (I.good k (a + l) this.2 (by omega) (.inl (by omega))).1
      · rw [hM, hS]
        refine ⟨fun x hx v1 v2 => by rw [hcost x (hmem x hx).1 (hmem x hx).2]; exact h2.le x hx v1 v2, ?_⟩
        rcases h2.att with h | ⟨b1, b2, b3, b4, b5⟩
        · exact .inl h
        · exact .inr ⟨b1, b2, b3, b4, by rw [hcost _ (hmem _ b2).1 (hmem _ b2).2]; exact b5⟩
    · have hg := I.good a b hab hb (by
        rcases hcase with h | ⟨h, h'⟩
        · exact .inl h
        · right; refine ⟨h, ?_⟩; omega)
      refine good_congr hg ?_ (hframeS a b (by simp; omega)) hab
      intro a' b' h1 h2 h3
      apply hframe
      simp only [ne_eq, Prod.mk.injEq, not_and]
      rintro rfl rfl
      omega

theorem fill_row (dbg : Bool) (wt : Nat → Nat → Nat → W) {n l : Nat} {valid : TriStore Bool} {V : Nat → Nat → Bool} (hv : Rep n valid V) (hl : 2 ≤ l) (c : Nat) : c + l ≤ n →
    ∀ {m s M S}, FillInv wt V n l 0 m s M S → ∃ m' s' M' S', fillLoop dbg wt valid ((List.range c).map fun i => (l, i)) m s = some (m', s') ∧ FillInv wt V n l c m' s' M' S' := by
  induction c with
  | zero => intro _ m s M S I; exact ⟨m, s, M, S, rfl, I⟩
  | succ c ih =>
    intro hc m s M S I
    obtain ⟨m1, s1, M1, S1, h1, I1⟩ := ih (by omega) I
    obtain ⟨m2, s2, M2, S2, h2, I2⟩ := fill_one dbg wt hv hl (by omega) I1
    refine ⟨m2, s2, M2, S2, ?_, I2⟩
    rw [List.range_succ, List.map_append, fillLoop_append, h1]
    exact h2

theorem fill_rows (dbg : Bool) (wt : Nat → Nat → Nat → W) {n : Nat} {valid : TriStore Bool} {V : Nat → Nat → Bool} (hv : Rep n valid V) (c : Nat) : ∀ l, 2 ≤ l → c + l ≤ n →
    ∀ {m s M S}, FillInv wt V n l 0 m s M S → ∃ m' s' M' S', fillLoop dbg wt valid ((List.range' l c).flatMap fun l => (List.range (n - l)).map fun i => (l, i)) m s = some (m', s') ∧
      FillInv wt V n (l + c) 0 m' s' M' S' := by
  induction c with
  | zero => intro l _ _ m s M S I; exact ⟨m, s, M, S, rfl, I⟩
  | succ c ih =>
    intro l hl hc m s M S I
    obtain ⟨m1, s1, M1, S1, h1, I1⟩ := fill_row dbg wt hv hl (n - l) (by omega) I
    have I1' : FillInv wt V n (l + 1) 0 m1 s1 M1 S1 := ⟨I1.repM, I1.repS, fun a b hab hb hcase => I1.good a b hab hb (by omega)⟩
    obtain ⟨m2, s2, M2, S2, h2, I2⟩ := ih (l + 1) (by omega) (by omega) I1'
    refine ⟨m2, s2, M2, S2, ?_, by rw [show l + (c + 1) = l + 1 + c by omega]; exact I2⟩
    rw [List.range'_succ, List.flatMap_cons, fillLoop_append, h1]
    exact h2

/-! ### Initial tables -/

theorem setZero_spec (dbg : Bool) {n : Nat} : ∀ (is : List Nat) {m : TriStore (Ext W)} {M : Nat → Nat → Ext W}, Rep n m M → (∀ i ∈ is, i + 1 < n) →
    ∃ m' M', setZero dbg is m = some m' ∧ Rep n m' M' ∧ ∀ i, (i ∈ is ∨ M i (i + 1) = .fin 0) → M' i (i + 1) = .fin 0 := by
  intro is
  induction is with
  | nil => intro m M h _; exact ⟨m, M, rfl, h, by simp⟩
  | cons i is ih =>
    intro m M h hi
    obtain ⟨m1, h1, h2⟩ := rep_set h dbg (i := i) (j := i + 1) (by omega) (hi i (by simp)) (Ext.fin 0)
    obtain ⟨m2, M2, h3, h4, h5⟩ := ih h2 fun j hj => hi j (by simp [hj])
    refine ⟨m2, M2, by simp [setZero, h1, h3], h4, ?_⟩
    intro j hj
    apply h5
    by_cases hji : j = i
    · right; simp [upd, hji]
    · rcases hj with hj | hj
      · simp [hji] at hj; exact .inl hj
      · right; simp [upd, hji, hj]

/-- the admissible sides as stored -/
def validFn (pd : Nat → Nat → Bool) (i j : Nat) : Bool := if i + 2 ≤ j then pd i j else true

theorem setValid_spec (dbg : Bool) (pd : Nat → Nat → Bool) {n : Nat} : ∀ (ps : List (Nat × Nat)) {v : TriStore Bool} {V : Nat → Nat → Bool}, Rep n v V → (∀ p ∈ ps, p.1 + 2 ≤ p.2 ∧ p.2 < n) →
    ∃ v' V', setValid dbg pd ps v = some v' ∧ Rep n v' V' ∧ ∀ i j, V' i j = if (i, j) ∈ ps then pd i j else V i j := by
  intro ps
  induction ps with
  | nil => intro v V h _; exact ⟨v, V, rfl, h, by simp⟩
  | cons p ps ih =>
    intro v V h hp
    obtain ⟨i, j⟩ := p
    have := hp (i, j) (by simp)
    simp only at this
    obtain ⟨v1, h1, h2⟩ := rep_set h dbg (i := i) (j := j) (by omega) this.2 (pd i j)
    obtain ⟨v2, V2, h3, h4, h5⟩ := ih h2 fun q hq => hp q (by simp [hq])
    refine ⟨v2, V2, by simp [setValid, h1, h3], h4, ?_⟩
    intro a b
    rw [h5 a b]
    by_cases hm : (a, b) ∈ ps
    · simp [hm]
    · simp only [hm, if_false, List.mem_cons, Prod.mk.injEq, or_false, upd]
      split
      · rename_i hh; rw [hh.1, hh.2]
      · rfl

theorem findValid_spec (dbg : Bool) (pd : Nat → Nat → Bool) {n : Nat} (hn : 1 < n) : ∃ v, findValid dbg n pd = some v ∧ Rep n v (validFn pd) := by
  obtain ⟨v0, h1, h2⟩ := rep_new hn true
  have hmem : ∀ i j, (i, j) ∈ ((List.range n).flatMap fun i => (List.range' (i + 2) (n - (i + 2))).map fun j => (i, j)) ↔ i + 2 ≤ j ∧ j < n := by
    intro i j
    simp only [List.mem_flatMap, List.mem_range, List.mem_map, List.mem_range'_1, Prod.mk.injEq]
    constructor
    · rintro ⟨a, ha, b, hb, rfl, rfl⟩; omega
    · intro h; exact ⟨i, by omega, j, by omega, rfl, rfl⟩
  obtain ⟨v, V, h3, h4, h5⟩ := setValid_spec dbg pd _ h2 (fun p hp => (hmem p.1 p.2).mp hp)
  refine ⟨v, by simp [findValid, h1, h3], h4.size, h4.len, ?_⟩
  intro i j hij hj
  rw [h4.get i j hij hj, h5 i j, validFn]
  by_cases h : i + 2 ≤ j
  · rw [if_pos ((hmem i j).mpr ⟨h, hj⟩), if_pos h]
  · rw [if_neg (fun hh => h ((hmem i j).mp hh).1), if_neg h]

/-- all tables filled -/
theorem tables (dbg : Bool) (wt : Nat → Nat → Nat → W) (pd : Nat → Nat → Bool) {n : Nat} (hn : 2 ≤ n) :
    ∃ m0 s0 v m s M S, initializeM (W := W) dbg n = some m0 ∧ TriStore.new n maxIx = some s0 ∧ findValid dbg n pd = some v ∧
      fillLoop dbg wt v (fillOrder n 2 (n - 1)) m0 s0 = some (m, s) ∧ Rep n m M ∧ Rep n s S ∧ ∀ a b, a < b → b < n → Good wt (validFn pd) M S a b := by
  obtain ⟨m00, h1, h2⟩ := rep_new (n := n) (by omega) (Ext.negInf : Ext W)
  obtain ⟨m0, M0, h3, h4, h5⟩ := setZero_spec dbg (List.range (n - 1)) h2 (by intro i hi; rw [List.mem_range] at hi; omega)
  obtain ⟨s0, h6, h7⟩ := rep_new (n := n) (by omega) maxIx
  obtain ⟨v, h8, h9⟩ := findValid_spec dbg pd (n := n) (by omega)
  have I0 : FillInv wt (validFn pd) n 2 0 m0 s0 M0 (fun _ _ => maxIx) := by
    refine ⟨h4, h7, ?_⟩
    intro a b hab hb hc
    have hb' : b = a + 1 := by omega
    subst hb'
    have : M0 a (a + 1) = .fin 0 := h5 a (.inl (by rw [List.mem_range]; omega))
    refine ⟨by rw [this]; simp, fun _ => this, fun h => by omega⟩
  obtain ⟨m, s, M, S, g1, g2⟩ := fill_rows dbg wt h9 (n - 2) 2 (Nat.le_refl _) (by omega) I0
  refine ⟨m0, s0, v, m, s, M, S, by simp [initializeM, h1, h3], h6, h8, ?_, g2.repM, g2.repS, fun a b hab hb => g2.good a b hab hb (by omega)⟩
  rw [fillOrder, show n - 1 + 1 - 2 = n - 2 by omega]
  exact g1

/-! ### Optimality -/

/-- total weight of a list of triangles -/
def totalWt (wt : Nat → Nat → Nat → W) (ts : List (Nat × Nat × Nat)) : W := (ts.map fun t => wt t.1 t.2.2 t.2.1).sum

/-- all sides except the one between `a` and `b` are admissible -/
def AdmIn (V : Nat → Nat → Bool) (a b : Nat) (ts : List (Nat × Nat × Nat)) : Prop :=
  ∀ p ∈ ts.flatMap triSides, (min p.1 p.2, max p.1 p.2) ≠ (a, b) → V (min p.1 p.2) (max p.1 p.2) = true

theorem admIn_split {V : Nat → Nat → Bool} {i k j : Nat} {l r : List (Nat × Nat × Nat)} (h1 : Tri i k l) (h2 : Tri k j r) :
    AdmIn V i j ((i, k, j) :: (l ++ r)) ↔ V i k = true ∧ V k j = true ∧ AdmIn V i k l ∧ AdmIn V k j r := by
  have e1 := h1.lt
  have e2 := h2.lt
  constructor
  · intro h
    have g1 := h (i, k) (by simp [triSides]) (by simp; omega)
    have g2 := h (k, j) (by simp [triSides]) (by simp; omega)
    rw [Nat.min_eq_left (by omega), Nat.max_eq_right (by omega)] at g1 g2
    refine ⟨g1, g2, fun p hp hne => ?_, fun p hp hne => ?_⟩
    · have := h1.sides_in p hp
      exact h p (by simp only [List.flatMap_cons, List.flatMap_append, List.mem_append]; exact .inr (.inl hp)) (by simp; omega)
    · have := h2.sides_in p hp
      exact h p (by simp only [List.flatMap_cons, List.flatMap_append, List.mem_append]; exact .inr (.inr hp)) (by simp; omega)
  · rintro ⟨g1, g2, g3, g4⟩ p hp hne
    simp only [List.flatMap_cons, List.flatMap_append, List.mem_append, triSides, List.mem_cons, List.not_mem_nil, or_false] at hp
    rcases hp with (rfl | rfl | rfl) | hp | hp
    · simp only [Nat.min_eq_left e1.le, Nat.max_eq_right e1.le, g1]
    · simp only [Nat.min_eq_left e2.le, Nat.max_eq_right e2.le, g2]
    · exact absurd (by simp only [Nat.min_eq_right (e1.trans e2).le, Nat.max_eq_left (e1.trans e2).le]) hne
    · by_cases hk : (min p.1 p.2, max p.1 p.2) = (i, k)
      · simp only [Prod.mk.injEq] at hk; rw [hk.1, hk.2, g1]
      · exact g3 p hp hk
    · by_cases hk : (min p.1 p.2, max p.1 p.2) = (k, j)
      · simp only [Prod.mk.injEq] at hk; rw [hk.1, hk.2, g2]
      · exact g4 p hp hk

theorem totalWt_split (wt : Nat → Nat → Nat → W) (i k j : Nat) (l r : List (Nat × Nat × Nat)) :
    totalWt wt ((i, k, j) :: (l ++ r)) = totalWt wt l + totalWt wt r + wt i j k := by
  simp only [totalWt, List.map_cons, List.map_append, List.sum_cons, List.sum_append]
  rw [add_comm]

/-- no triangulation is cheaper than the table entry -/
theorem lower_bound {wt : Nat → Nat → Nat → W} {V : Nat → Nat → Bool} {M : Nat → Nat → Ext W} {S : Nat → Nat → Nat} {n : Nat}
    (hg : ∀ a b, a < b → b < n → Good wt V M S a b) {a b : Nat} {us : List (Nat × Nat × Nat)} (h : Tri a b us) : b < n → AdmIn V a b us →
    ∃ w, M a b = .fin w ∧ w ≤ totalWt wt us := by
  induction h with
  | side i => intro hb _; exact ⟨0, (hg i (i + 1) (by omega) hb).2.1 rfl, by simp [totalWt]⟩
  | @split i k j l r h1 h2 ih1 ih2 =>
    intro hb hadm
    have e1 := h1.lt
    have e2 := h2.lt
    obtain ⟨v1, v2, a1, a2⟩ := (admIn_split h1 h2).mp hadm
    obtain ⟨w1, m1, l1⟩ := ih1 (by omega) a1
    obtain ⟨w2, m2, l2⟩ := ih2 hb a2
    obtain ⟨g1, -, g3⟩ := hg i j (by omega) hb
    have hle := (g3 (by omega)).le k (by rw [List.mem_range'_1]; omega) v1 v2
    have hc : cost wt M i j k = .fin (w1 + w2 + wt i j k) := by rw [cost, m1, m2]; rfl
    rw [hc] at hle
    cases hM : M i j with
    | negInf => exact absurd hM g1
    | inf => rw [hM] at hle; simp [Ext.lt] at hle
    | fin w =>
      rw [hM] at hle
      simp only [Ext.lt, decide_eq_false_iff_not, not_lt] at hle
      refine ⟨w, rfl, hle.trans ?_⟩
      rw [totalWt_split]
      exact add_le_add (add_le_add l1 l2) (le_refl _)

theorem add_fin {a b : Ext W} {w : W} (h : a.add b = .fin w) : ∃ x y, a = .fin x ∧ b = .fin y ∧ w = x + y := by
  cases a <;> cases b <;> simp_all [Ext.add]

theorem emits_append {t t' t'' : Triangulation} {ids : List Nat} {xs ys : List (Nat × Nat × Nat)} (h1 : Emits t t' ids xs) (h2 : Emits t' t'' ids ys) : Emits t t'' ids (xs ++ ys) := by
  obtain ⟨us, g1, rfl⟩ := h1
  obtain ⟨vs, g2, rfl⟩ := h2
  exact ⟨us ++ vs, by rw [List.mapM_append, g1, g2]; rfl, by simp [flat_append]⟩

/-- the traceback emits a triangulation whose weight is the table entry -/
theorem traceback_spec (dbg : Bool) {wt : Nat → Nat → Nat → W} {V : Nat → Nat → Bool} {M : Nat → Nat → Ext W} {S : Nat → Nat → Nat} {ids : List Nat} {s : TriStore Nat} (hs : Rep ids.length s S)
    (hg : ∀ a b, a < b → b < ids.length → Good wt V M S a b) : ∀ (f i j : Nat) (t : Triangulation) (w : W), i < j → j < ids.length → j - i ≤ f → M i j = .fin w →
    ∃ t' ts, traceback dbg s ids f i j t = some t' ∧ Emits t t' ids ts ∧ Tri i j ts ∧ AdmIn V i j ts ∧ totalWt wt ts = w := by
  intro f
  induction f with
  | zero => intro i j t w h1 h2 h3 _; omega
  | succ f ih =>
    intro i j t w h1 h2 h3 hM
    rw [traceback]
    by_cases hlt : j - i < 2
    · rw [if_pos hlt]
      have hj : j = i + 1 := by omega
      subst hj
      refine ⟨t, [], rfl, emits_nil t ids, Tri.side i, by intro p hp; simp at hp, ?_⟩
      have := (hg i (i + 1) (by omega) h2).2.1 rfl
      rw [hM] at this
      simp at this
      simp [totalWt, this]
    · rw [if_neg hlt]
      obtain ⟨g1, -, g3⟩ := hg i j h1 h2
      have hget : s.get dbg i j = some (S i j) := rep_get hs dbg h1 h2
      rcases (g3 (by omega)).att with ⟨hinf, -⟩ | ⟨-, b2, b3, b4, b5⟩
      · rw [hM] at hinf; simp at hinf
      · have hk : i < S i j ∧ S i j < j := by rw [List.mem_range'_1] at b2; omega
        clear g3
        generalize S i j = k at hget b2 b3 b4 b5 hk
        rw [hM, cost] at b5
        obtain ⟨x, y, c1, c2, rfl⟩ := add_fin b5
        obtain ⟨x1, x2, c3, c4, rfl⟩ := add_fin c1
        simp only [Ext.fin.injEq] at c2
        subst c2
        have q1 := List.getElem?_eq_getElem (show i < ids.length by omega)
        have q2 := List.getElem?_eq_getElem (show k < ids.length by omega)
        have q3 := List.getElem?_eq_getElem (show j < ids.length by omega)
        obtain ⟨t2, ts2, r1, r2, r3, r4, r5⟩ := ih i k (t.insertTriangle ids[i] ids[k] ids[j]) x1 hk.1 (by omega) (by omega) c3
        obtain ⟨t3, ts3, u1, u2, u3, u4, u5⟩ := ih k j t2 x2 hk.2 h2 (by omega) c4
        refine ⟨t3, (i, k, j) :: (ts2 ++ ts3), ?_, ?_, Tri.split r3 u3, (admIn_split r3 u3).mpr ⟨b3, b4, r4, u4⟩, ?_⟩
        · have hd : (dbg && !(decide (i < k) && decide (k < j))) = false := by simp [hk.1, hk.2]
          simp only [hget, Option.bind_eq_bind, Option.bind_some, hd, insertTriangleLocal, q1, q2, q3]
          simp only [insertTriangle] at r1
          simp [r1, u1]
        · have := emits_append (emits_append (emits_insert (emits_nil t ids) q1 q2 q3) r2) u2
          simpa using this
        · rw [totalWt_split, r5, u5]

end Verif.Geom

namespace Verif.GeomProps
open Verif.Geom Verif.Geom.Triangulation
variable {W : Type} [AddCommMonoid W] [LinearOrder W] [IsOrderedAddMonoid W]

/-- the weight of a triangle does not depend on the order of its corners -/
structure Symm3 (wt : Nat → Nat → Nat → W) : Prop where
  rot : ∀ a b c, wt a b c = wt b c a
  swap : ∀ a b c, wt a b c = wt b a c

/-- the weight used by the implementation, triangle_weight in lines 462-465: the perimeter, for any symmetric distance -/
theorem symm3_perimeter (d : Nat → Nat → W) (hd : ∀ a b, d a b = d b a) : Symm3 fun a b c => d a b + d b c + d c a where
  rot a b c := by rw [add_comm (d b c + d c a) (d a b), add_assoc]
  swap a b c := by rw [hd a b, hd b c, hd c a, add_assoc, add_comm (d c b) (d a c), ← add_assoc]

/-- total weight -/
def weight (wt : Nat → Nat → Nat → W) (ts : List (Nat × Nat × Nat)) : W := (ts.map fun t => wt t.1 t.2.1 t.2.2).sum

/-- `p` is a diagonal of the polygon with `n` corners -/
def IsDiagonal (n : Nat) (p : Nat × Nat) : Prop := p.1 + 2 ≤ p.2 ∧ p ≠ (0, n - 1)

/-- every diagonal used is permitted -/
def Admissible (pd : Nat → Nat → Bool) (n : Nat) (ts : List (Nat × Nat × Nat)) : Prop :=
  ∀ p ∈ ts.flatMap triSides, IsDiagonal n (min p.1 p.2, max p.1 p.2) → pd (min p.1 p.2) (max p.1 p.2) = true

theorem weight_perm {wt : Nat → Nat → Nat → W} {ts ts' : List (Nat × Nat × Nat)} (h : ts.Perm ts') : weight wt ts = weight wt ts' := (h.map _).sum_eq

theorem totalWt_eq {wt : Nat → Nat → Nat → W} (hs : Symm3 wt) (ts : List (Nat × Nat × Nat)) : totalWt wt ts = weight wt ts := by
  simp only [totalWt, weight]
  congr 1
  apply List.map_congr_left
  intro t _
  rw [hs.swap t.1 t.2.2 t.2.1, hs.rot]

theorem weight_norm3 {wt : Nat → Nat → Nat → W} (hs : Symm3 wt) (ts : List (Nat × Nat × Nat)) : weight wt (ts.map norm3) = weight wt ts := by
  simp only [weight, List.map_map]
  congr 1
  apply List.map_congr_left
  intro t _
  obtain ⟨a, b, c⟩ := t
  simp only [Function.comp, norm3]
  split
  · rfl
  · split
    · rw [← hs.rot]
    · rw [hs.rot]

theorem adm_iff {pd : Nat → Nat → Bool} {n : Nat} {ts : List (Nat × Nat × Nat)} : AdmIn (validFn pd) 0 (n - 1) ts ↔ Admissible pd n ts := by
  constructor
  · intro ha p hp hd
    have := ha p hp hd.2
    rwa [validFn, if_pos hd.1] at this
  · intro ha p hp hne
    rw [validFn]
    split
    · rename_i hh; exact ha p hp ⟨hh, hne⟩
    · rfl

theorem adm_perm {pd : Nat → Nat → Bool} {n : Nat} {ts ts' : List (Nat × Nat × Nat)} (h : (ts.flatMap triSides).Perm (ts'.flatMap triSides)) : Admissible pd n ts ↔ Admissible pd n ts' := by
  simp only [Admissible, h.mem_iff]

/-- C40: the result is an admissible triangulation, and no admissible triangulation has a smaller total weight. -/
theorem c40_optimal (dbg : Bool) {wt : Nat → Nat → Nat → W} (hs : Symm3 wt) (pd : Nat → Nat → Bool) (ids : List Nat) (t : Triangulation) (h4 : 4 ≤ ids.length)
    (hex : ∃ us, IsTriangulation ids.length us ∧ Admissible pd ids.length us) :
    ∃ t' ts, minweightDynamic dbg wt pd ids t = some t' ∧ Emits t t' ids ts ∧ IsTriangulation ids.length ts ∧ Admissible pd ids.length ts ∧
      ∀ us, IsTriangulation ids.length us → Admissible pd ids.length us → weight wt ts ≤ weight wt us := by
  obtain ⟨m0, s0, v, m, s, M, S, h1, h2, h3, h5, h6, h7, h8⟩ := tables dbg wt pd (n := ids.length) (by omega)
  have lb : ∀ us, IsTriangulation ids.length us → Admissible pd ids.length us → ∃ w, M 0 (ids.length - 1) = .fin w ∧ w ≤ weight wt us := by
    intro us hu ha
    obtain ⟨us', p1, p2⟩ := IsTriangulation.tri (n := ids.length - 2) (by rwa [show ids.length - 2 + 2 = ids.length by omega])
    rw [show ids.length - 2 + 1 = ids.length - 1 by omega] at p2
    obtain ⟨w, q1, q2⟩ := lower_bound h8 p2 (by omega) (adm_iff.mpr ((adm_perm (tri_sides_perm p1)).mp ha))
    refine ⟨w, q1, ?_⟩
    rw [totalWt_eq hs, ← weight_perm p1, weight_norm3 hs] at q2
    exact q2
  obtain ⟨us0, hu0, ha0⟩ := hex
  obtain ⟨w, hw, -⟩ := lb us0 hu0 ha0
  obtain ⟨t', ts, r1, r2, r3, r4, r5⟩ := traceback_spec dbg h7 h8 ids.length 0 (ids.length - 1) t w (by omega) (by omega) (by omega) hw
  refine ⟨t', ts, ?_, r2, ?_, adm_iff.mp r4, ?_⟩
  · rw [minweightDynamic]
    simp only [if_neg (show ¬ ids.length < 4 by omega), h1, h2, h3, h5, r1, Option.bind_eq_bind, Option.bind_some]
  · have := Tri.isTriangulation (n := ids.length - 2) (by rwa [show ids.length - 2 + 1 = ids.length - 1 by omega])
    rwa [show ids.length - 2 + 2 = ids.length by omega] at this
  · intro us hu ha
    obtain ⟨w', q1, q2⟩ := lb us hu ha
    rw [hw] at q1
    simp only [Ext.fin.injEq] at q1
    rw [← totalWt_eq hs, r5, q1]
    exact q2

/-- C40: if there is no admissible triangulation the function panics, in both build modes. -/
theorem c40_none (dbg : Bool) (wt : Nat → Nat → Nat → W) (pd : Nat → Nat → Bool) (ids : List Nat) (t : Triangulation) (hl : ids.length ≤ maxIx)
    (hex : ¬ ∃ us, IsTriangulation ids.length us ∧ Admissible pd ids.length us) : minweightDynamic dbg wt pd ids t = none := by
  by_cases h4 : ids.length < 4
  · rw [minweightDynamic]; simp [h4]
  obtain ⟨m0, s0, v, m, s, M, S, h1, h2, h3, h5, h6, h7, h8⟩ := tables dbg wt pd (n := ids.length) (by omega)
  have hres : minweightDynamic dbg wt pd ids t = traceback dbg s ids ids.length 0 (ids.length - 1) t := by
    rw [minweightDynamic]
    simp only [if_neg h4, h1, h2, h3, h5, Option.bind_eq_bind, Option.bind_some]
  obtain ⟨g1, -, g3⟩ := h8 0 (ids.length - 1) (by omega) (by omega)
  cases hM : M 0 (ids.length - 1) with
  | negInf => exact absurd hM g1
  | fin w =>
    obtain ⟨t', ts, r1, r2, r3, r4, r5⟩ := traceback_spec dbg h7 h8 ids.length 0 (ids.length - 1) t w (by omega) (by omega) (by omega) hM
    refine absurd ⟨ts, ?_, adm_iff.mp r4⟩ hex
    have := Tri.isTriangulation (n := ids.length - 2) (by rwa [show ids.length - 2 + 1 = ids.length - 1 by omega])
    rwa [show ids.length - 2 + 2 = ids.length by omega] at this
  | inf =>
    have hS : S 0 (ids.length - 1) = maxIx := by
      rcases (g3 (by omega)).att with ⟨-, h⟩ | ⟨h, -⟩
      · exact h
      · exact absurd hM h
    have hget : s.get dbg 0 (ids.length - 1) = some maxIx := by rw [rep_get h7 dbg (by omega) (by omega), hS]
    rw [hres]
    obtain ⟨f, hf⟩ : ∃ f, ids.length = f + 1 := ⟨ids.length - 1, by omega⟩
    have hn : ids[maxIx]? = none := List.getElem?_eq_none hl
    have h0 : ids[0]? = some ids[0] := List.getElem?_eq_getElem (by omega)
    generalize hL : ids.length - 1 = L at *
    rw [hf, traceback, if_neg (by omega)]
    simp [hget, insertTriangleLocal, hn, h0]

/-! The square with corners 0..3 where the diagonal 0-2 is cheap, and where it is forbidden. -/
def squareWt (a b c : Nat) : Nat := if a + b + c = 3 ∨ a + b + c = 5 then 7 else 10

example : (minweightDynamic true squareWt (fun _ _ => true) [10, 11, 12, 13] ⟨[], 0⟩).map (·.indices) = some [10, 12, 13, 10, 11, 12] := by decide +kernel
example : (minweightDynamic true squareWt (fun i j => !(i == 0 && j == 2)) [10, 11, 12, 13] ⟨[], 0⟩).map (·.indices) = some [10, 11, 13, 11, 12, 13] := by decide +kernel
example : (minweightDynamic false squareWt (fun _ _ => false) [10, 11, 12, 13] ⟨[], 0⟩).map (·.indices) = none := by decide +kernel

end Verif.GeomProps
