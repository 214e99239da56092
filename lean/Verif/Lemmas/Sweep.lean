import Verif.Model.Sweep
import Verif.Props.Tess
import Mathlib.Tactic.Linarith
import Mathlib.Tactic.Ring
/-
The sweep keeps a chain of balances: the sides of the triangles emitted so far together with the boundary paths still pending add up to the sides of the polygon both of whose ends have been visited.
-/
set_option linter.unusedSectionVars false
namespace Verif.Geom
open Triangulation

/-! ### Sums over sides -/

/-- reversing a side changes the sign -/
def Anti (f : Nat → Nat → Int) : Prop := ∀ a b, f a b = -f b a

def triSum (f : Nat → Nat → Int) (ts : List (Nat × Nat × Nat)) : Int := (ts.map fun t => f t.1 t.2.1 + f t.2.1 t.2.2 + f t.2.2 t.1).sum

/-- sum over the sides of a path -/
def psum (f : Nat → Nat → Int) : List Nat → Int
  | a :: b :: l => f a b + psum f (b :: l)
  | _ => 0

theorem triSum_append (f : Nat → Nat → Int) (xs ys : List (Nat × Nat × Nat)) : triSum f (xs ++ ys) = triSum f xs + triSum f ys := by simp [triSum]

theorem triSum_cons (f : Nat → Nat → Int) (x : Nat × Nat × Nat) (ys : List (Nat × Nat × Nat)) : triSum f (x :: ys) = f x.1 x.2.1 + f x.2.1 x.2.2 + f x.2.2 x.1 + triSum f ys := by simp [triSum]

theorem anti_self {f : Nat → Nat → Int} (h : Anti f) (a : Nat) : f a a = 0 := by have := h a a; omega

theorem psum_cons_head {f : Nat → Nat → Int} (a : Nat) {l : List Nat} {b : Nat} (h : l.head? = some b) : psum f (a :: l) = f a b + psum f l := by
  cases l with
  | nil => simp at h
  | cons c l => simp at h; subst h; rfl

theorem psum_append {f : Nat → Nat → Int} : ∀ {l m : List Nat} {a b : Nat}, l.getLast? = some a → m.head? = some b → psum f (l ++ m) = psum f l + f a b + psum f m := by
  intro l
  induction l with
  | nil => intro m a b h; simp at h
  | cons x l ih =>
    intro m a b h1 h2
    cases l with
    | nil => simp at h1; subst h1; simp only [List.cons_append, List.nil_append, psum]; rw [psum_cons_head x h2]; omega
    | cons y l =>
      rw [List.getLast?_cons_cons] at h1
      have := ih h1 h2
      simp only [List.cons_append] at this ⊢
      rw [psum, this, psum]; omega

theorem psum_reverse {f : Nat → Nat → Int} (hf : Anti f) : ∀ l : List Nat, psum f l.reverse = -psum f l := by
  intro l
  induction l with
  | nil => rfl
  | cons a l ih =>
    cases l with
    | nil => rfl
    | cons b l =>
      rw [List.reverse_cons, psum_append (a := b) (b := a) (by simp) (by simp), ih, psum, hf b a]
      simp only [psum]; omega

/-! ### Lawful triangulators -/

/-- emitting triangles changes the sum over all triangles by `df` and their number by `dn` -/
def Delta (t0 : Triangulation) (ids : List Nat) (t t' : Triangulation) (df : (Nat → Nat → Int) → Int) (dn : Int) : Prop :=
  ∀ ts, Emits t0 t ids ts → ∃ ts', Emits t0 t' ids ts' ∧ (∀ f, Anti f → triSum f ts' = triSum f ts + df f) ∧ (ts'.length : Int) = ts.length + dn

theorem delta_refl (t0 : Triangulation) (ids : List Nat) (t : Triangulation) : Delta t0 ids t t (fun _ => 0) 0 := fun ts h => ⟨ts, h, by simp, by simp⟩

/-- the buffer holds whole triangles behind the ones of `t0` -/
def Al (t0 : Triangulation) (ids : List Nat) (t : Triangulation) : Prop := ∃ ts, Emits t0 t ids ts

theorem Delta.al {t0 : Triangulation} {ids : List Nat} {t t' : Triangulation} {df : (Nat → Nat → Int) → Int} {dn : Int} (h : Delta t0 ids t t' df dn) (ha : Al t0 ids t) : Al t0 ids t' := by
  obtain ⟨ts, hts⟩ := ha
  obtain ⟨ts', h1, -⟩ := h ts hts
  exact ⟨ts', h1⟩

theorem Delta.trans {t0 : Triangulation} {ids : List Nat} {t t' t'' : Triangulation} {d1 d2 : (Nat → Nat → Int) → Int} {n1 n2 : Int} (h1 : Delta t0 ids t t' d1 n1) (h2 : Delta t0 ids t' t'' d2 n2) :
    Delta t0 ids t t'' (fun f => d1 f + d2 f) (n1 + n2) := by
  intro ts hts
  obtain ⟨ts1, e1, f1, l1⟩ := h1 ts hts
  obtain ⟨ts2, e2, f2, l2⟩ := h2 ts1 e1
  exact ⟨ts2, e2, fun f hf => by rw [f2 f hf, f1 f hf, Int.add_assoc], by omega⟩

theorem Delta.congr {t0 : Triangulation} {ids : List Nat} {t t' : Triangulation} {d1 d2 : (Nat → Nat → Int) → Int} {n1 n2 : Int} (h1 : Delta t0 ids t t' d1 n1)
    (h2 : ∀ f, Anti f → d1 f = d2 f) (h3 : n1 = n2) : Delta t0 ids t t' d2 n2 := by
  intro ts hts
  obtain ⟨ts1, e1, f1, l1⟩ := h1 ts hts
  exact ⟨ts1, e1, fun f hf => by rw [f1 f hf, h2 f hf], by omega⟩

theorem emits_append' {t t' t'' : Triangulation} {ids : List Nat} {xs ys : List (Nat × Nat × Nat)} (h1 : Emits t t' ids xs) (h2 : Emits t' t'' ids ys) : Emits t t'' ids (xs ++ ys) := by
  obtain ⟨us, g1, rfl⟩ := h1
  obtain ⟨vs, g2, rfl⟩ := h2
  exact ⟨us ++ vs, by rw [List.mapM_append, g1, g2]; rfl, by simp [flat_append]⟩

theorem delta_of_emits {t0 : Triangulation} {ids : List Nat} {t t' : Triangulation} {xs : List (Nat × Nat × Nat)} (h : Emits t t' ids xs) : Delta t0 ids t t' (fun f => triSum f xs) xs.length := by
  intro ts hts
  exact ⟨ts ++ xs, emits_append' hts h, fun f _ => triSum_append f ts xs, by simp⟩

/-- What the sweep needs of a monotone triangulator: a chain stands for a path of pending sides from `rEnd` to `lEnd`, and every operation emits triangles that account for the change of the path. -/
structure Lawful (M : MonoTri) (ids : List Nat) where
  good : Triangulation → M.C → Prop
  rEnd : M.C → Nat
  lEnd : M.C → Nat
  pend : (Nat → Nat → Int) → M.C → Int
  pendN : M.C → Int
  new_law : ∀ t0 v, good t0 (M.new v) ∧ rEnd (M.new v) = v ∧ lEnd (M.new v) = v ∧ (∀ f, pend f (M.new v) = 0) ∧ pendN (M.new v) = 0
  left_law : ∀ t0 c v t c' t', good t0 c → Al t0 ids t → M.left c v t = some (c', t') → good t0 c' ∧ rEnd c' = rEnd c ∧ lEnd c' = v ∧ M.isRight c' = false ∧ 1 ≤ pendN c' ∧
    Delta t0 ids t t' (fun f => pend f c + f (lEnd c) v - pend f c') (pendN c + 1 - pendN c')
  right_law : ∀ t0 c v t c' t', good t0 c → Al t0 ids t → M.right c v t = some (c', t') → good t0 c' ∧ rEnd c' = v ∧ lEnd c' = lEnd c ∧ 1 ≤ pendN c' ∧
    Delta t0 ids t t' (fun f => pend f c + f v (rEnd c) - pend f c') (pendN c + 1 - pendN c')
  finish_law : ∀ t0 c t t', good t0 c → 1 ≤ pendN c → M.finish c t = some t' → Delta t0 ids t t' (fun f => pend f c - f (rEnd c) (lEnd c)) (pendN c - 1)
  opp_law : ∀ t0 c r, good t0 c → M.lastOpposite c = some r → M.isRight c = false → r = rEnd c

/-! ### The status -/

namespace Status
variable {C : Type}
/-- the interval whose left edge ends in `k` -/
def ivl (s : Status C) (k : Nat) : Option (Interval C) := (s.left[k]?).join

structure Sync (n : Nat) (s : Status C) : Prop where
  lenL : s.left.length = n
  lenR : s.right.length = n
  left : ∀ k iv, s.ivl k = some iv → iv.left.stop = k ∧ s.right[iv.right.stop]? = some k
  right : ∀ r k, s.right[r]? = some k → k = maxIx ∨ ∃ iv, s.ivl k = some iv ∧ iv.right.stop = r

theorem at_some {s : Status C} {k : Nat} {iv : Interval C} : s.ivl k = some iv ↔ s.left[k]? = some (some iv) := by
  simp only [ivl]
  cases h : s.left[k]? with
  | none => simp
  | some o => simp

theorem Sync.lt {n : Nat} {s : Status C} (h : s.Sync n) {k : Nat} {iv : Interval C} (hk : s.ivl k = some iv) : k < n := by
  rw [at_some] at hk
  rw [← h.lenL]
  exact (List.getElem?_eq_some_iff.mp hk).1

theorem Sync.stop_lt {n : Nat} {s : Status C} (h : s.Sync n) {k : Nat} {iv : Interval C} (hk : s.ivl k = some iv) : iv.right.stop < n := by
  have := (h.left k iv hk).2
  rw [← h.lenR]
  exact (List.getElem?_eq_some_iff.mp this).1

/-- two intervals have different right ends -/
theorem Sync.inj {n : Nat} {s : Status C} (h : s.Sync n) {k k' : Nat} {iv iv' : Interval C} (hk : s.ivl k = some iv) (hk' : s.ivl k' = some iv') (he : iv.right.stop = iv'.right.stop) : k = k' := by
  have h1 := (h.left k iv hk).2
  have h2 := (h.left k' iv' hk').2
  rw [he, h2] at h1
  simp at h1
  exact h1.symm

/-- sum over the intervals -/
def total (g : Interval C → Int) (s : Status C) : Int := (s.left.map fun o => o.elim 0 g).sum

theorem sum_set {A : Type} (g : A → Int) : ∀ (l : List A) (k : Nat) (a b : A), l[k]? = some a → ((l.set k b).map g).sum = (l.map g).sum - g a + g b := by
  intro l
  induction l with
  | nil => intro k a b h; simp at h
  | cons x l ih =>
    intro k a b h
    cases k with
    | zero => simp at h; subst h; simp; omega
    | succ k =>
      have := ih k a b (by simpa using h)
      simp only [List.set_cons_succ, List.map_cons, List.sum_cons, this]; omega

theorem sync_new (n : Nat) : (Status.new n : Status C).Sync n := by
  refine ⟨by simp [Status.new], by simp [Status.new], ?_, ?_⟩
  · intro k iv h
    rw [at_some] at h
    simp [Status.new, List.getElem?_replicate] at h
  · intro r k h
    simp [Status.new, List.getElem?_replicate] at h
    exact .inl h.2.symm

theorem at_new (n k : Nat) : (Status.new n : Status C).ivl k = none := by
  simp only [Status.ivl, Status.new, List.getElem?_replicate]
  split <;> rfl

theorem total_new (n : Nat) (g : Interval C → Int) : (Status.new n : Status C).total g = 0 := by simp [total, Status.new]

/-- the status after removing the interval at `k` -/
structure Removed (n : Nat) (s s' : Status C) (k : Nat) (iv : Interval C) : Prop where
  was : s.ivl k = some iv
  sync : s'.Sync n
  at_eq : ∀ j, s'.ivl j = if j = k then none else s.ivl j
  total : ∀ g, s'.total g = s.total g - g iv

theorem removed_aux {n : Nat} {s : Status C} (h : s.Sync n) {k : Nat} {iv : Interval C} (hk : s.ivl k = some iv) (r : Nat) (hr : r = iv.right.stop) :
    Removed n s ⟨s.left.set k none, s.right.set r maxIx⟩ k iv := by
  subst hr
  have hlt := h.lt hk
  have hat : ∀ j, (⟨s.left.set k none, s.right.set iv.right.stop maxIx⟩ : Status C).ivl j = if j = k then none else s.ivl j := by
    intro j
    simp only [Status.ivl, List.getElem?_set]
    by_cases hj : k = j
    · subst hj; simp [h.lenL, hlt]
    · simp [hj, Ne.symm hj]
  refine ⟨hk, ⟨by simp [h.lenL], by simp [h.lenR], ?_, ?_⟩, hat, ?_⟩
  · intro j iv' hj
    rw [hat] at hj
    split at hj
    · simp at hj
    · rename_i hne
      obtain ⟨h1, h2⟩ := h.left j iv' hj
      refine ⟨h1, ?_⟩
      rw [List.getElem?_set_ne]
      · exact h2
      · intro he; exact hne (h.inj hj hk he.symm)
  · intro r' k' hr'
    simp only [List.getElem?_set] at hr'
    split at hr'
    · split at hr'
      · simp at hr'; exact .inl hr'.symm
      · simp at hr'
    · rename_i hne
      rcases h.right r' k' hr' with h1 | ⟨iv', h1, h2⟩
      · exact .inl h1
      · right
        refine ⟨iv', ?_, h2⟩
        rw [hat, if_neg, h1]
        rintro rfl
        rw [hk] at h1
        simp at h1; subst h1
        exact hne h2
  · intro g
    rw [at_some] at hk
    simp only [Status.total]
    rw [sum_set _ _ _ _ _ hk]
    simp

theorem removeLeft_some {n : Nat} {s s' : Status C} (h : s.Sync n) {k : Nat} {iv : Interval C} (he : s.removeLeft k = some (some iv, s')) : Removed n s s' k iv := by
  unfold removeLeft at he
  split at he
  · rename_i v hv
    split at he
    · simp at he
      obtain ⟨rfl, rfl⟩ := he
      exact removed_aux h (at_some.mpr hv) _ rfl
    · simp at he
  · simp at he

theorem removeLeft_none {s s' : Status C} {k : Nat} (he : s.removeLeft k = some (none, s')) : s' = s ∧ s.ivl k = none := by
  unfold removeLeft at he
  split at he
  · split at he <;> simp at he
  · rename_i hno
    simp at he
    refine ⟨he.symm, ?_⟩
    cases hk : s.ivl k with
    | none => rfl
    | some iv => exact absurd (at_some.mp hk) (hno iv)

theorem removeLeft_eq {n : Nat} {s : Status C} (h : s.Sync n) {k : Nat} {iv : Interval C} (hk : s.ivl k = some iv) : ∃ s', s.removeLeft k = some (some iv, s') ∧ Removed n s s' k iv := by
  have h1 := at_some.mp hk
  have h2 := h.stop_lt hk
  rw [← h.lenR] at h2
  refine ⟨_, ?_, removed_aux h hk _ rfl⟩
  simp [removeLeft, h1, h2]

theorem removeRight_some {n : Nat} {s s' : Status C} (h : s.Sync n) {r : Nat} {iv : Interval C} (he : s.removeRight r = some (some iv, s')) :
    ∃ k, iv.right.stop = r ∧ Removed n s s' k iv := by
  unfold removeRight at he
  split at he
  · simp at he
  · rename_i k hk
    split at he
    · rename_i hne
      simp only at he
      split at he
      · rename_i v hv
        simp at he
        obtain ⟨rfl, rfl⟩ := he
        have hat := at_some.mpr hv
        rcases h.right r k hk with h1 | ⟨iv', h1, h2⟩
        · exact absurd h1 hne
        · rw [hat] at h1
          simp at h1; subst h1
          exact ⟨k, h2, removed_aux h hat r h2.symm⟩
      · simp at he
    · simp at he

theorem removeRight_none {n : Nat} (hn : n ≤ maxIx) {s s' : Status C} (h : s.Sync n) {r : Nat} (he : s.removeRight r = some (none, s')) : s' = s ∧ ∀ k iv, s.ivl k = some iv → iv.right.stop ≠ r := by
  unfold removeRight at he
  split at he
  · simp at he
  · rename_i k hk
    split at he
    · rename_i hne
      rcases h.right r k hk with h1 | ⟨iv', h1, h2⟩
      · exact absurd h1 hne
      · rw [at_some] at h1
        simp [h1] at he
    · rename_i hmax
      simp at hmax
      subst hmax
      simp at he
      refine ⟨he.symm, ?_⟩
      rintro j iv hj rfl
      have h1 := (h.left j iv hj).2
      rw [hk] at h1
      simp at h1
      have := h.lt hj
      omega

theorem peekRight_spec {n : Nat} (hn : n ≤ maxIx) {s : Status C} (h : s.Sync n) {r : Nat} {o : Option (Interval C)} (he : s.peekRight r = some o) :
    match o with
    | some iv => ∃ k, s.ivl k = some iv ∧ iv.right.stop = r
    | none => ∀ k iv, s.ivl k = some iv → iv.right.stop ≠ r := by
  unfold peekRight at he
  split at he
  · simp at he
  · rename_i k hk
    split at he
    · rename_i hne
      rcases h.right r k hk with h1 | ⟨iv', h1, h2⟩
      · exact absurd h1 hne
      · have h1' := at_some.mp h1
        simp only [peekLeft, h1'] at he
        simp at he; subst he
        exact ⟨k, h1, h2⟩
    · rename_i hmax
      simp at hmax
      subst hmax
      simp at he; subst he
      rintro j iv hj rfl
      have h1 := (h.left j iv hj).2
      rw [hk] at h1
      simp at h1
      have := h.lt hj
      omega

/-- the status after inserting an interval with new ends -/
structure Inserted (n : Nat) (s s' : Status C) (iv : Interval C) : Prop where
  sync : s'.Sync n
  at_eq : ∀ j, s'.ivl j = if j = iv.left.stop then some iv else s.ivl j
  total : ∀ g, s'.total g = s.total g + g iv

theorem put_spec {n : Nat} {s s' : Status C} (h : s.Sync n) {iv : Interval C} (h1 : s.ivl iv.left.stop = none) (h2 : ∀ k iv', s.ivl k = some iv' → iv'.right.stop ≠ iv.right.stop)
    (he : s.put iv = some s') : Inserted n s s' iv := by
  unfold put at he
  split at he
  · rename_i hlt
    simp at he
    subst he
    have hat : ∀ j, (⟨s.left.set iv.left.stop (some iv), s.right.set iv.right.stop iv.left.stop⟩ : Status C).ivl j = if j = iv.left.stop then some iv else s.ivl j := by
      intro j
      simp only [Status.ivl, List.getElem?_set]
      by_cases hj : iv.left.stop = j
      · subst hj; simp [hlt.2]
      · simp [hj, Ne.symm hj]
    refine ⟨⟨by simp [h.lenL], by simp [h.lenR], ?_, ?_⟩, hat, ?_⟩
    · intro j iv' hj
      rw [hat] at hj
      split at hj
      · rename_i he; simp at hj; subst hj; exact ⟨he.symm, by simp [hlt.1, he]⟩
      · obtain ⟨g1, g2⟩ := h.left j iv' hj
        refine ⟨g1, ?_⟩
        rw [List.getElem?_set_ne]
        · exact g2
        · intro he; exact h2 j iv' hj he.symm
    · intro r k hr
      simp only [List.getElem?_set] at hr
      split at hr
      · rename_i he
        split at hr
        · simp at hr; subst hr; right; exact ⟨iv, by rw [hat, if_pos rfl], he⟩
        · simp at hr
      · rcases h.right r k hr with g | ⟨iv', g1, g2⟩
        · exact .inl g
        · right
          refine ⟨iv', ?_, g2⟩
          rw [hat, if_neg, g1]
          rintro rfl
          rw [h1] at g1; simp at g1
    · intro g
      have : s.left[iv.left.stop]? = some none := by
        have := List.getElem?_eq_getElem hlt.2
        rw [this]
        simp only [Status.ivl, this] at h1
        simpa using h1
      simp only [Status.total]
      rw [sum_set _ _ _ _ _ this]
      simp
  · simp at he

theorem insert_spec {n : Nat} {dbg : Bool} {M : MonoTri} {s s' : Status M.C} (h : s.Sync n) {iv : Interval M.C} (h1 : s.ivl iv.left.stop = none)
    (h2 : ∀ k iv', s.ivl k = some iv' → iv'.right.stop ≠ iv.right.stop) (he : s.insert dbg M iv = some s') : Inserted n s s' iv := by
  unfold insert at he
  split at he
  · simp at he
  · exact put_spec h h1 h2 he

end Status

/-! ### Going round the polygon -/

/-- the successor and the predecessor on the boundary -/
structure Cycle (n : Nat) (nx pv : Nat → Nat) : Prop where
  nx_lt : ∀ k, k < n → nx k < n
  pv_lt : ∀ k, k < n → pv k < n
  pv_nx : ∀ k, k < n → pv (nx k) = k
  nx_pv : ∀ k, k < n → nx (pv k) = k
  nx_ne : ∀ k, k < n → nx k ≠ k
  ne : ∀ k, k < n → nx k ≠ pv k

theorem Cycle.pv_ne {n : Nat} {nx pv : Nat → Nat} (h : Cycle n nx pv) (k : Nat) (hk : k < n) : pv k ≠ k := fun e => h.nx_ne k hk (by have := h.nx_pv k hk; rw [e] at this; exact this)

theorem cycle_mod {n : Nat} (h : 3 ≤ n) : Cycle n (fun k => (k + 1) % n) (fun k => (k + n - 1) % n) := by
  have m1 : ∀ k, k < n → (k + 1) % n = if k + 1 = n then 0 else k + 1 := by
    intro k hk
    split
    · rename_i e; rw [e, Nat.mod_self]
    · exact Nat.mod_eq_of_lt (by omega)
  have m2 : ∀ k, k < n → (k + n - 1) % n = if k = 0 then n - 1 else k - 1 := by
    intro k hk
    split
    · rename_i e; subst e; rw [Nat.zero_add]; exact Nat.mod_eq_of_lt (by omega)
    · have : k + n - 1 = (k - 1) + n := by omega
      rw [this, Nat.add_mod_right]; exact Nat.mod_eq_of_lt (by omega)
  refine ⟨fun k hk => Nat.mod_lt _ (by omega), fun k hk => Nat.mod_lt _ (by omega), ?_, ?_, ?_, ?_⟩
  · intro k hk
    have := Nat.mod_lt (k + 1) (show n > 0 by omega)
    show ((k + 1) % n + n - 1) % n = k
    rw [m2 _ this, m1 k hk]; split <;> split <;> omega
  · intro k hk
    have := Nat.mod_lt (k + n - 1) (show n > 0 by omega)
    show ((k + n - 1) % n + 1) % n = k
    rw [m1 _ this, m2 k hk]; split <;> split <;> omega
  · intro k hk
    show (k + 1) % n ≠ k
    rw [m1 k hk]; split <;> omega
  · intro k hk
    show (k + 1) % n ≠ (k + n - 1) % n
    rw [m1 k hk, m2 k hk]; split <;> split <;> omega

/-! ### The invariant -/

section
variable {M : MonoTri} {ids : List Nat} (L : Lawful M ids) (t0 : Triangulation)

/-- the chain and the fixup of an interval run from its right to its left side -/
structure IvGood (iv : Interval M.C) : Prop where
  chain : L.good t0 iv.chain
  lEnd : L.lEnd iv.chain = iv.left.start
  plain : iv.fixup = none → L.rEnd iv.chain = iv.right.start ∧ (M.isRight iv.chain = true → iv.helper = iv.right.start)
  fixup : ∀ c, iv.fixup = some c → L.good t0 c ∧ L.rEnd iv.chain = L.lEnd c ∧ L.rEnd c = iv.right.start ∧ M.isRight c = false ∧ 1 ≤ L.pendN c

def ivPend (f : Nat → Nat → Int) (iv : Interval M.C) : Int := L.pend f iv.chain + iv.fixup.elim 0 (L.pend f)
def ivN (iv : Interval M.C) : Int := L.pendN iv.chain + iv.fixup.elim 0 L.pendN

variable (n : Nat) (nx pv : Nat → Nat)

structure Inv (done : List Nat) (q : Ctx M.C) (S Sp Mg E R : Int) : Prop where
  sync : q.sls.Sync n
  live : ∀ k, k < n → ((∃ iv, q.sls.ivl k = some iv) ↔ k ∉ done ∧ pv k ∈ done)
  liveR : ∀ r, r < n → ((∃ k iv, q.sls.ivl k = some iv ∧ iv.right.stop = r) ↔ r ∉ done ∧ nx r ∈ done)
  iv : ∀ k iv, q.sls.ivl k = some iv → IvGood L t0 iv ∧ iv.left.start = pv k ∧ iv.right.start = nx iv.right.stop
  bal : ∃ cs : List Nat, cs.Nodup ∧ (∀ i, i ∈ cs ↔ i < n ∧ i ∈ done ∧ nx i ∈ done) ∧ ∃ ts, Emits t0 q.tri ids ts ∧
    (∀ f, Anti f → triSum f ts + q.sls.total (ivPend L f) = (cs.map fun i => f i (nx i)).sum) ∧
    (ts.length : Int) + q.sls.total (ivN L) = R + 2 * Sp + 2 * Mg
  num : q.sls.total (fun _ => 1) = S + Sp - Mg - E
  len : (done.length : Int) = S + Sp + Mg + E + R

variable {L t0 n nx pv}

theorem Inv.al {done : List Nat} {q : Ctx M.C} {S Sp Mg E R : Int} (h : Inv L t0 n nx pv done q S Sp Mg E R) : Al t0 ids q.tri := by
  obtain ⟨_, _, _, ts, h1, -⟩ := h.bal
  exact ⟨ts, h1⟩

theorem inv_new (t0 : Triangulation) : Inv L t0 n nx pv [] ⟨.new n, t0⟩ 0 0 0 0 0 := by
  refine ⟨Status.sync_new n, ?_, ?_, ?_, ⟨[], by simp, by simp, [], ⟨[], by simp, by simp [flat]⟩, ?_, ?_⟩, ?_, by simp⟩
  · intro k _; simp [Status.at_new]
  · intro r _; simp [Status.at_new]
  · intro k iv h; simp [Status.at_new] at h
  · intro f _; simp [triSum, Status.total_new]
  · simp [Status.total_new]
  · simp [Status.total_new]

variable (hc : Cycle n nx pv) (hn : n ≤ maxIx)

include hc in
/-- the sides that become complete by visiting `v` -/
theorem bal_step {dn : List Nat} {v : Nat} (hv : v < n) (hvd : v ∉ dn) {cs : List Nat} (h1 : cs.Nodup) (h2 : ∀ i, i ∈ cs ↔ i < n ∧ i ∈ dn ∧ nx i ∈ dn) :
    ∃ cs' : List Nat, cs'.Nodup ∧ (∀ i, i ∈ cs' ↔ i < n ∧ i ∈ v :: dn ∧ nx i ∈ v :: dn) ∧ ∀ f : Nat → Nat → Int,
      (cs'.map fun i => f i (nx i)).sum = (cs.map fun i => f i (nx i)).sum + (if pv v ∈ dn then f (pv v) v else 0) + (if nx v ∈ dn then f v (nx v) else 0) := by
  have e1 : ∀ i, i < n → nx i = v → i = pv v := fun i hi e => by rw [← e, hc.pv_nx i hi]
  have e2 := hc.nx_pv v hv
  have e3 := hc.pv_ne v hv
  have e4 := hc.nx_ne v hv
  have e5 := hc.ne v hv
  have l1 := hc.pv_lt v hv
  have l2 := hc.nx_lt v hv
  have k1 : v ∉ cs := fun h => hvd ((h2 v).mp h).2.1
  have k2 : pv v ∉ cs := fun h => hvd (by have := ((h2 _).mp h).2.2; rwa [e2] at this)
  refine ⟨(if pv v ∈ dn then [pv v] else []) ++ ((if nx v ∈ dn then [v] else []) ++ cs), ?_, ?_, ?_⟩
  · split <;> split <;> simp_all
  · intro i
    have hm : i ∈ (if pv v ∈ dn then [pv v] else []) ++ ((if nx v ∈ dn then [v] else []) ++ cs) ↔ (i = pv v ∧ pv v ∈ dn) ∨ (i = v ∧ nx v ∈ dn) ∨ i ∈ cs := by
      rw [List.mem_append, List.mem_append]
      split <;> split <;> rename_i x y <;> simp [x, y]
    rw [hm, h2 i, List.mem_cons, List.mem_cons]
    constructor
    · rintro (⟨rfl, h⟩ | ⟨rfl, h⟩ | ⟨h, g, k⟩)
      · exact ⟨l1, .inr h, .inl e2⟩
      · exact ⟨hv, .inl rfl, .inr h⟩
      · exact ⟨h, .inr g, .inr k⟩
    · rintro ⟨h, g, k⟩
      rcases k with k | k
      · have := e1 i h k; subst this
        rcases g with g | g
        · exact absurd g e3
        · exact .inl ⟨rfl, g⟩
      · rcases g with g | g
        · subst g; exact .inr (.inl ⟨rfl, k⟩)
        · exact .inr (.inr ⟨h, g, k⟩)
  · intro f
    split <;> split <;> simp [e2] <;> omega
end
end Verif.Geom
