import Verif.Spec.Triangulate
import Verif.Props.Geom
import Mathlib.Tactic.Abel
/-
General facts about triangulations: number of triangles, area, structure.
-/
namespace Verif.Geom
set_option linter.unusedSectionVars false

variable {K : Type} [Field K] [LinearOrder K] [IsStrictOrderedRing K]

theorem count_swap (l : List (Nat × Nat)) (p : Nat × Nat) : (l.map Prod.swap).count p = l.count p.swap := by
  induction l with
  | nil => simp
  | cons a l ih =>
    rw [List.map_cons, List.count_cons, List.count_cons, ih]
    congr 1
    by_cases h : a.swap = p
    · rw [if_pos (by simp [h]), if_pos (by simp [← h])]
    · rw [if_neg (by simp [h]), if_neg (by intro h'; apply h; simp at h'; rw [h']; simp)]

theorem cancels_perm_swap {l : List (Nat × Nat)} (h : Cancels l) : l.Perm (l.map Prod.swap) := by
  rw [List.perm_iff_count]
  intro p
  rw [h p, count_swap]

theorem cancels_of_perm {l l' : List (Nat × Nat)} (h : l.Perm l') : Cancels l ↔ Cancels l' := by
  simp only [Cancels, h.count_eq]

theorem cancels_pair {l : List (Nat × Nat)} (a b : Nat) : Cancels ((a, b) :: (b, a) :: l) ↔ Cancels l := by
  have : ∀ p : Nat × Nat, ((a, b) :: (b, a) :: l).count p + l.count p.swap = ((a, b) :: (b, a) :: l).count p.swap + l.count p := by
    rintro ⟨x, y⟩
    simp only [List.count_cons, Prod.swap_prod_mk, beq_iff_eq, Prod.mk.injEq]
    have e1 : (if a = y ∧ b = x then 1 else 0) = if b = x ∧ a = y then 1 else 0 := by simp only [and_comm]
    have e2 : (if b = y ∧ a = x then 1 else 0) = if a = x ∧ b = y then 1 else 0 := by simp only [and_comm]
    omega
  constructor
  · intro h p; have := this p; have := h p; omega
  · intro h p; have := this p; have := h p; omega

/-- an antisymmetric function adds up to zero over sides that cancel -/
theorem sum_cancels {R : Type} [AddCommGroup R] (hR : ∀ x : R, x = -x → x = 0) (f : Nat × Nat → R) (hf : ∀ p, f p.swap = -f p) {l : List (Nat × Nat)} (h : Cancels l) :
    (l.map f).sum = 0 := by
  apply hR
  have h1 : (l.map f).sum = ((l.map Prod.swap).map f).sum := ((cancels_perm_swap h).map f).sum_eq
  have h2 : ∀ m : List (Nat × Nat), ((m.map Prod.swap).map f).sum = -(m.map f).sum := by
    intro m
    induction m with
    | nil => simp
    | cons a m ih => simp only [List.map_cons, List.sum_cons, ih, hf]; abel
  rw [← h2]; exact h1

theorem sum_swap {R : Type} [AddCommGroup R] (f : Nat × Nat → R) (hf : ∀ p, f p.swap = -f p) (m : List (Nat × Nat)) : ((m.map Prod.swap).map f).sum = -(m.map f).sum := by
  induction m with
  | nil => simp
  | cons a m ih => simp only [List.map_cons, List.sum_cons, ih, hf]; abel

theorem sum_triSides {R : Type} [AddCommGroup R] (f : Nat × Nat → R) (ts : List (Nat × Nat × Nat)) :
    ((ts.flatMap triSides).map f).sum = (ts.map fun t => f (t.1, t.2.1) + f (t.2.1, t.2.2) + f (t.2.2, t.1)).sum := by
  induction ts with
  | nil => simp
  | cons t ts ih => simp only [List.flatMap_cons, List.map_append, List.sum_append, ih, List.map_cons, List.sum_cons, triSides, List.map_nil, List.sum_nil]; abel

theorem pairs_snoc {A : Type} (l : List A) (a b : A) : pairs (l ++ [a, b]) = pairs (l ++ [a]) ++ [(a, b)] := by
  induction l with
  | nil => simp [pairs]
  | cons c l ih => cases l with
    | nil => simp [pairs]
    | cons d l => simp only [List.cons_append, pairs] at ih ⊢; rw [ih]

theorem pairs_range (m : Nat) : pairs (List.range (m + 1)) = (List.range m).map fun i => (i, i + 1) := by
  induction m with
  | zero => simp [pairs]
  | succ m ih =>
    rw [List.range_succ (n := m + 1), List.range_succ (n := m), List.append_assoc, List.cons_append, List.nil_append, pairs_snoc, ← List.range_succ, ih]
    rw [show m.succ = m + 1 from rfl, List.range_succ (n := m), List.map_append]
    rfl

theorem sides_range (m : Nat) : sides (List.range (m + 1)) = ((List.range m).map fun i => (i, i + 1)) ++ [(m, 0)] := by
  have h : List.range (m + 1) ++ [0] = List.range m ++ [m, 0] := by rw [List.range_succ]; simp
  have h2 : sides (List.range (m + 1)) = pairs (List.range (m + 1) ++ [0]) := by
    rw [List.range_succ_eq_map, sides]
  rw [h2, h, pairs_snoc, ← List.range_succ, pairs_range]

/-- direction of a side -/
def sgn (p : Nat × Nat) : Int := if p.1 < p.2 then 1 else if p.2 < p.1 then -1 else 0

theorem sgn_swap (p : Nat × Nat) : sgn p.swap = -sgn p := by
  simp only [sgn, Prod.fst_swap, Prod.snd_swap]; split <;> split <;> first | rfl | omega

theorem sum_add_swapped {R : Type} [AddCommGroup R] (hR : ∀ x : R, x = -x → x = 0) (f : Nat × Nat → R) (hf : ∀ p, f p.swap = -f p) {n : Nat} {ts : List (Nat × Nat × Nat)}
    (h : IsTriangulation n ts) : (ts.map fun t => f (t.1, t.2.1) + f (t.2.1, t.2.2) + f (t.2.2, t.1)).sum = ((sides (List.range n)).map f).sum := by
  have h1 := sum_cancels hR f hf h.boundary
  rw [List.map_append, List.sum_append, sum_triSides, sum_swap f hf] at h1
  rwa [add_neg_eq_zero] at h1

/-- a triangulation of a polygon with `n` corners has `n - 2` triangles -/
theorem IsTriangulation.length {n : Nat} {ts : List (Nat × Nat × Nat)} (h : IsTriangulation n ts) : ts.length = n - 2 := by
  have h1 := sum_add_swapped (R := Int) (by intro x hx; omega) sgn sgn_swap h
  have h2 : ∀ l : List (Nat × Nat × Nat), (∀ t ∈ l, Ccw3 t) → (l.map fun t => sgn (t.1, t.2.1) + sgn (t.2.1, t.2.2) + sgn (t.2.2, t.1)).sum = l.length := by
    intro l
    induction l with
    | nil => simp
    | cons t l ih =>
      intro hl
      rw [List.map_cons, List.sum_cons, ih fun x hx => hl x (by simp [hx]), List.length_cons]
      have := hl t (by simp)
      obtain ⟨a, b, c⟩ := t
      simp only [Ccw3, sgn] at this ⊢
      push_cast
      split <;> split <;> split <;> omega
  rw [h2 ts h.ccw] at h1
  cases n with
  | zero => simp [sides] at h1; simp [h1]
  | succ m =>
    rw [sides_range] at h1
    have h3 : (((List.range m).map fun i => (i, i + 1)).map sgn).sum = m := by
      rw [List.map_map]
      have : (sgn ∘ fun i => (i, i + 1)) = fun _ => 1 := by funext i; simp [sgn]
      rw [this]; simp
    rw [List.map_append, List.sum_append, h3] at h1
    cases m with
    | zero => simp [sgn] at h1; simp [h1]
    | succ m => simp [sgn] at h1; omega

theorem cross_swap (a b : P2 K) : cross b a = -cross a b := by simp only [cross]; ring

theorem tri2_eq_cross (a b c : P2 K) : tri2 a b c = cross a b + cross b c + cross c a := by simp only [tri2, cross]; ring

theorem pairs_map {A B : Type} (f : A → B) (l : List A) : pairs (l.map f) = (pairs l).map fun p => (f p.1, f p.2) := by
  induction l with
  | nil => rfl
  | cons a l ih => cases l with
    | nil => rfl
    | cons b l => simp only [List.map_cons, pairs] at ih ⊢; rw [ih]

theorem sides_map {A B : Type} (f : A → B) (l : List A) : sides (l.map f) = (sides l).map fun p => (f p.1, f p.2) := by
  cases l with
  | nil => rfl
  | cons a l => rw [List.map_cons, sides, sides, ← pairs_map]; simp

/-- the triangles of a triangulation have the area of the polygon, wherever its corners are -/
theorem IsTriangulation.area {n : Nat} {ts : List (Nat × Nat × Nat)} (h : IsTriangulation n ts) (pos : Nat → P2 K) :
    (ts.map fun t => tri2 (pos t.1) (pos t.2.1) (pos t.2.2)).sum = area2 ((List.range n).map pos) := by
  have h1 := sum_add_swapped (R := K) (by intro x hx; linarith) (fun p => cross (pos p.1) (pos p.2)) (by intro p; exact cross_swap _ _) h
  rw [area2_eq_sides, sides_map, List.map_map]
  simp only [tri2_eq_cross]
  exact h1

/-! ### Structure -/

/-- the triangle with its smallest corner in front -/
def norm3 (t : Nat × Nat × Nat) : Nat × Nat × Nat :=
  if t.1 < t.2.1 ∧ t.2.1 < t.2.2 then t else if t.2.1 < t.2.2 ∧ t.2.2 < t.1 then (t.2.1, t.2.2, t.1) else (t.2.2, t.1, t.2.1)

theorem norm3_lt {t : Nat × Nat × Nat} (h : Ccw3 t) : (norm3 t).1 < (norm3 t).2.1 ∧ (norm3 t).2.1 < (norm3 t).2.2 := by
  simp only [Ccw3, norm3] at *
  by_cases h1 : t.1 < t.2.1 ∧ t.2.1 < t.2.2
  · rw [if_pos h1]; exact h1
  · rw [if_neg h1]
    by_cases h2 : t.2.1 < t.2.2 ∧ t.2.2 < t.1
    · rw [if_pos h2]; exact h2
    · rw [if_neg h2]; simp only; omega

theorem norm3_sides (t : Nat × Nat × Nat) : (triSides (norm3 t)).Perm (triSides t) := by
  obtain ⟨a, b, c⟩ := t
  simp only [norm3]
  split
  · exact List.Perm.refl _
  · split
    · simp only [triSides]
      exact (List.perm_append_comm (l₁ := [(b, c), (c, a)]) (l₂ := [(a, b)]))
    · simp only [triSides]
      exact (List.perm_append_comm (l₁ := [(c, a)]) (l₂ := [(a, b), (b, c)]))

theorem norm3_flat (ts : List (Nat × Nat × Nat)) : ((ts.map norm3).flatMap triSides).Perm (ts.flatMap triSides) := by
  induction ts with
  | nil => simp
  | cons t ts ih => simp only [List.map_cons, List.flatMap_cons]; exact (norm3_sides t).append ih

/-- triangulations of the polygon with corners `i, i+1, ..., j`: the triangle at the side `(i, j)`, then both remaining parts -/
inductive Tri : Nat → Nat → List (Nat × Nat × Nat) → Prop
  | side (i : Nat) : Tri i (i + 1) []
  | split {i k j : Nat} {l r : List (Nat × Nat × Nat)} : Tri i k l → Tri k j r → Tri i j ((i, k, j) :: (l ++ r))

theorem Tri.lt {i j : Nat} {ts : List (Nat × Nat × Nat)} (h : Tri i j ts) : i < j := by
  induction h with
  | side i => omega
  | split _ _ h1 h2 => omega

/-- the sides of the polygon `a, ..., c`, reversed -/
def revSides (d : Nat × Nat) : List (Nat × Nat) := d :: (List.range' d.1 (d.2 - d.1)).map fun i => (i + 1, i)

theorem revSides_split {a k c : Nat} (h1 : a < k) (h2 : k < c) :
    (revSides (a, k) ++ revSides (k, c)).Perm ((a, k) :: (k, c) :: (List.range' a (c - a)).map fun i => (i + 1, i)) := by
  have : List.range' a (c - a) = List.range' a (k - a) ++ List.range' k (c - k) := by
    rw [show c - a = (k - a) + (c - k) by omega, ← List.range'_append_1, show a + (k - a) = k by omega]
  rw [this, List.map_append]
  simp only [revSides, List.cons_append]
  refine List.Perm.cons _ ?_
  exact List.perm_middle

/-- a partition into triangulations of the given parts -/
def Parts : List (Nat × Nat) → List (Nat × Nat × Nat) → Prop
  | [], ts => ts.Perm []
  | d :: D, ts => ∃ l r, Tri d.1 d.2 l ∧ Parts D r ∧ ts.Perm (l ++ r)

theorem Parts.perm_right {D : List (Nat × Nat)} {ts ts' : List (Nat × Nat × Nat)} (h : Parts D ts) (hp : ts.Perm ts') : Parts D ts' := by
  cases D with
  | nil => exact hp.symm.trans h
  | cons d D => obtain ⟨l, r, h1, h2, h3⟩ := h; exact ⟨l, r, h1, h2, hp.symm.trans h3⟩

theorem Parts.perm_left {D D' : List (Nat × Nat)} (hp : D.Perm D') : ∀ {ts}, Parts D ts → Parts D' ts := by
  induction hp with
  | nil => exact id
  | cons d _ ih => rintro ts ⟨l, r, h1, h2, h3⟩; exact ⟨l, r, h1, ih h2, h3⟩
  | swap a b D =>
    rintro ts ⟨l, r, h1, ⟨l', r', h4, h5, h6⟩, h3⟩
    refine ⟨l', l ++ r', h4, ⟨l, r', h1, h5, List.Perm.refl _⟩, h3.trans ?_⟩
    refine (List.Perm.append_left l h6).trans ?_
    rw [← List.append_assoc, ← List.append_assoc]
    exact List.Perm.append_right _ List.perm_append_comm
  | trans _ _ ih1 ih2 => intro ts h; exact ih2 (ih1 h)

theorem mem_revSides {d p : Nat × Nat} (h : p ∈ revSides d) : p = d ∨ p.1 = p.2 + 1 := by
  simp only [revSides, List.mem_cons, List.mem_map] at h
  rcases h with h | ⟨i, _, rfl⟩
  · exact .inl h
  · exact .inr rfl

theorem parts_of_cancels : ∀ (m : Nat) (D : List (Nat × Nat)) (ts : List (Nat × Nat × Nat)), ts.length = m → (∀ t ∈ ts, t.1 < t.2.1 ∧ t.2.1 < t.2.2) → (∀ d ∈ D, d.1 < d.2) →
    Cancels (ts.flatMap triSides ++ D.flatMap revSides) → Parts D ts := by
  intro m
  induction m with
  | zero =>
    intro D ts hm _ hD hc
    have : ts = [] := by simpa using hm
    subst this
    have hu : ∀ d ∈ D, d.2 = d.1 + 1 := by
      intro d hd
      have h1 : d ∈ D.flatMap revSides := List.mem_flatMap.mpr ⟨d, hd, by simp [revSides]⟩
      have h2 : d.swap ∈ D.flatMap revSides := by
        have := hc d
        simp only [List.flatMap_nil, List.nil_append] at this
        rw [← List.count_pos_iff, ← this]
        exact List.count_pos_iff.mpr h1
      obtain ⟨e, he, h3⟩ := List.mem_flatMap.mp h2
      have := hD e he
      have := hD d hd
      rcases mem_revSides h3 with h | h
      · have e := hD e he; rw [← h] at e; simp only [Prod.fst_swap, Prod.snd_swap] at e; omega
      · simpa using h
    clear hc hD
    induction D with
    | nil => exact List.Perm.refl _
    | cons d D ih =>
      refine ⟨[], [], ?_, ih fun e he => hu e (by simp [he]), List.Perm.refl _⟩
      rw [hu d (by simp)]
      exact Tri.side _
  | succ m ih =>
    intro D ts hm hts hD hc
    -- a triangle of maximal width
    have hmax : ∃ t ∈ ts, ∀ t' ∈ ts, t'.2.2 - t'.1 ≤ t.2.2 - t.1 := by
      have : ∀ l : List (Nat × Nat × Nat), l ≠ [] → ∃ t ∈ l, ∀ t' ∈ l, t'.2.2 - t'.1 ≤ t.2.2 - t.1 := by
        intro l
        induction l with
        | nil => simp
        | cons x l ih =>
          intro _
          by_cases hl : l = []
          · exact ⟨x, by simp, by intro t' ht'; rw [hl, List.mem_singleton] at ht'; rw [ht']⟩
          · obtain ⟨t, h1, h2⟩ := ih hl
            by_cases h : t.2.2 - t.1 ≤ x.2.2 - x.1
            · exact ⟨x, by simp, by intro t' ht'; rw [List.mem_cons] at ht'; rcases ht' with rfl | ht'; exact Nat.le_refl _; exact (h2 t' ht').trans h⟩
            · exact ⟨t, by simp [h1], by intro t' ht'; rw [List.mem_cons] at ht'; rcases ht' with rfl | ht'; omega; exact h2 t' ht'⟩
      exact this ts (by intro h; simp [h] at hm)
    obtain ⟨⟨a, k, c⟩, ht, hm'⟩ := hmax
    have hlt := hts _ ht
    simp only at hlt hm'
    have hin : (a, c) ∈ D := by
      have h1 : (c, a) ∈ ts.flatMap triSides ++ D.flatMap revSides :=
        List.mem_append_left _ (List.mem_flatMap.mpr ⟨_, ht, by simp [triSides]⟩)
      have h2 : (a, c) ∈ ts.flatMap triSides ++ D.flatMap revSides := by
        have := hc (a, c)
        rw [← List.count_pos_iff, this]
        exact List.count_pos_iff.mpr h1
      rw [List.mem_append, List.mem_flatMap, List.mem_flatMap] at h2
      rcases h2 with ⟨t', ht', h3⟩ | ⟨d, hd, h3⟩
      · exfalso
        have h4 := hts t' ht'
        have h5 := hm' t' ht'
        simp only [triSides, List.mem_cons, List.not_mem_nil, or_false, Prod.mk.injEq] at h3
        omega
      · rcases mem_revSides h3 with h | h
        · rw [h]; exact hd
        · simp only at h; omega
    obtain ⟨l1, l2, rfl⟩ := List.append_of_mem ht
    obtain ⟨d1, d2, rfl⟩ := List.append_of_mem hin
    have hcc : Cancels ((l1 ++ l2).flatMap triSides ++ ((a, k) :: (k, c) :: (d1 ++ d2)).flatMap revSides) := by
      rw [← cancels_pair c a]
      refine (cancels_of_perm ?_).mp hc
      have e1 : ((l1 ++ (a, k, c) :: l2).flatMap triSides).Perm (triSides (a, k, c) ++ (l1 ++ l2).flatMap triSides) := by
        rw [← List.flatMap_cons]
        exact List.Perm.flatMap_right _ List.perm_middle
      have e2 : ((d1 ++ (a, c) :: d2).flatMap revSides).Perm (revSides (a, c) ++ (d1 ++ d2).flatMap revSides) := by
        rw [← List.flatMap_cons]
        exact List.Perm.flatMap_right _ List.perm_middle
      refine (e1.append e2).trans ?_
      rw [List.flatMap_cons, List.flatMap_cons, ← List.append_assoc (revSides (a, k))]
      have e3 := (List.Perm.append_right ((d1 ++ d2).flatMap revSides) (revSides_split hlt.1 hlt.2)).symm
      refine List.Perm.trans ?_ (List.Perm.cons _ (List.Perm.cons _ (List.Perm.append_left _ e3)))
      generalize (l1 ++ l2).flatMap triSides = X
      generalize (d1 ++ d2).flatMap revSides = Y
      simp only [triSides, revSides]
      generalize (List.range' a (c - a)).map (fun i => (i + 1, i)) = Z
      rw [List.perm_iff_count]
      intro p
      simp only [List.count_append, List.count_cons, List.count_nil]
      omega
    have hP := ih ((a, k) :: (k, c) :: (d1 ++ d2)) (l1 ++ l2) (by simp only [List.length_append, List.length_cons] at hm ⊢; omega)
      (fun t ht => hts t (by simp only [List.mem_append, List.mem_cons] at ht ⊢; tauto))
      (by intro d hd
          simp only [List.mem_cons] at hd
          rcases hd with rfl | rfl | hd
          · exact hlt.1
          · exact hlt.2
          · exact hD d (by simp only [List.mem_append, List.mem_cons] at hd ⊢; tauto)) hcc
    obtain ⟨l, r, g1, ⟨l', r', g2, g3, g4⟩, g5⟩ := hP
    refine Parts.perm_left List.perm_middle.symm ⟨(a, k, c) :: (l ++ l'), r', Tri.split g1 g2, g3, ?_⟩
    refine List.perm_middle.trans ?_
    rw [List.cons_append]
    refine List.Perm.cons _ (g5.trans ?_)
    rw [List.append_assoc]
    exact List.Perm.append_left _ g4

/-- every triangulation is obtained by choosing the triangle at the side from first to last corner and triangulating both remaining parts -/
theorem IsTriangulation.tri {n : Nat} {ts : List (Nat × Nat × Nat)} (h : IsTriangulation (n + 2) ts) : ∃ ts', (ts.map norm3).Perm ts' ∧ Tri 0 (n + 1) ts' := by
  have h1 := parts_of_cancels _ [(0, n + 1)] (ts.map norm3) rfl
    (by intro t ht
        obtain ⟨t', ht', rfl⟩ := List.mem_map.mp ht
        exact norm3_lt (h.ccw t' ht')) (by simp)
    (by refine (cancels_of_perm ?_).mp h.boundary
        refine (norm3_flat ts).symm.append ?_
        rw [sides_range, List.flatMap_cons, List.flatMap_nil, List.append_nil, List.map_append, List.map_map, revSides]
        simp only [List.map_cons, List.map_nil, Prod.swap_prod_mk, Nat.sub_zero]
        refine (List.perm_append_comm).trans ?_
        rw [List.range_eq_range']
        exact List.Perm.refl _)
  obtain ⟨l, r, g1, g2, g3⟩ := h1
  refine ⟨l, ?_, g1⟩
  have : r.Perm [] := g2
  rw [List.perm_nil.mp this, List.append_nil] at g3
  exact g3

theorem Tri.sides_in {i j : Nat} {ts : List (Nat × Nat × Nat)} (h : Tri i j ts) : ∀ p ∈ ts.flatMap triSides, i ≤ p.1 ∧ p.1 ≤ j ∧ i ≤ p.2 ∧ p.2 ≤ j ∧ p.1 ≠ p.2 := by
  induction h with
  | side i => simp
  | @split i k j l r h1 h2 ih1 ih2 =>
    have := h1.lt
    have := h2.lt
    intro p hp
    simp only [List.flatMap_cons, List.flatMap_append, List.mem_append, triSides, List.mem_cons, List.not_mem_nil, or_false] at hp
    rcases hp with (rfl | rfl | rfl) | hp | hp
    · simp only; omega
    · simp only; omega
    · simp only; omega
    · have := ih1 p hp; omega
    · have := ih2 p hp; omega

/-- the sides of the triangles do not cross -/
theorem Tri.no_cross {i j : Nat} {ts : List (Nat × Nat × Nat)} (h : Tri i j ts) : ∀ p ∈ ts.flatMap triSides, ∀ q ∈ ts.flatMap triSides, ¬Cross p q := by
  induction h with
  | side i => simp
  | @split i k j l r h1 h2 ih1 ih2 =>
    have e1 := h1.lt
    have e2 := h2.lt
    intro p hp q hq
    simp only [List.flatMap_cons, List.flatMap_append, List.mem_append, triSides, List.mem_cons, List.not_mem_nil, or_false] at hp hq
    rcases hp with (rfl | rfl | rfl) | hp | hp <;> rcases hq with (rfl | rfl | rfl) | hq | hq
    all_goals first
      | exact ih1 p hp q hq
      | exact ih2 p hp q hq
      | (try have f1 := h1.sides_in p hp); (try have f2 := h2.sides_in p hp); (try have f3 := h1.sides_in q hq); (try have f4 := h2.sides_in q hq); simp only [Cross]; omega

/-- no side occurs twice in the same direction, and the side `(i, j)` itself only in the direction from `j` to `i` -/
theorem Tri.nodup {i j : Nat} {ts : List (Nat × Nat × Nat)} (h : Tri i j ts) : (ts.flatMap triSides).Nodup ∧ (i, j) ∉ ts.flatMap triSides := by
  induction h with
  | side i => simp
  | @split i k j l r h1 h2 ih1 ih2 =>
    have e1 := h1.lt
    have e2 := h2.lt
    have f1 := h1.sides_in
    have f2 := h2.sides_in
    have g1 : ∀ a b, (a, b) ∈ l.flatMap triSides → i ≤ a ∧ a ≤ k ∧ i ≤ b ∧ b ≤ k ∧ a ≠ b := fun a b hab => f1 (a, b) hab
    have g2 : ∀ a b, (a, b) ∈ r.flatMap triSides → k ≤ a ∧ a ≤ j ∧ k ≤ b ∧ b ≤ j ∧ a ≠ b := fun a b hab => f2 (a, b) hab
    constructor
    · simp only [List.flatMap_cons, List.flatMap_append, triSides, List.cons_append, List.nil_append, List.nodup_cons, List.mem_cons, List.mem_append, Prod.mk.injEq, not_or]
      refine ⟨⟨by omega, by omega, ih1.2, fun h => ?_⟩, ⟨by omega, fun h => ?_, ih2.2⟩, ⟨fun h => ?_, fun h => ?_⟩, ?_⟩
      · have := g2 _ _ h; omega
      · have := g1 _ _ h; omega
      · have := g1 _ _ h; omega
      · have := g2 _ _ h; omega
      · rw [List.nodup_append]
        refine ⟨ih1.1, ih2.1, ?_⟩
        rintro ⟨a, b⟩ ha q hq rfl
        have := g1 _ _ ha
        have := g2 _ _ hq
        omega
    · simp only [List.flatMap_cons, List.flatMap_append, triSides, List.cons_append, List.nil_append, List.mem_cons, List.mem_append, Prod.mk.injEq, not_or]
      refine ⟨by omega, by omega, by omega, fun h => ?_, fun h => ?_⟩
      · have := g1 _ _ h; omega
      · have := g2 _ _ h; omega

theorem tri_sides_perm {ts ts' : List (Nat × Nat × Nat)} (h : (ts.map norm3).Perm ts') : (ts.flatMap triSides).Perm (ts'.flatMap triSides) :=
  (norm3_flat ts).symm.trans (List.Perm.flatMap_right _ h)

/-- the sides of the triangles of a triangulation do not cross, and no side is used twice in the same direction -/
theorem IsTriangulation.planar {n : Nat} {ts : List (Nat × Nat × Nat)} (h : IsTriangulation (n + 2) ts) :
    (ts.flatMap triSides).Nodup ∧ ∀ p ∈ ts.flatMap triSides, ∀ q ∈ ts.flatMap triSides, ¬Cross p q := by
  obtain ⟨ts', h1, h2⟩ := h.tri
  have hp := tri_sides_perm h1
  refine ⟨hp.nodup_iff.mpr h2.nodup.1, fun p hp' q hq => h2.no_cross p (hp.mem_iff.mp hp') q (hp.mem_iff.mp hq)⟩

/-- conversely, the recursive construction yields a triangulation -/
theorem Tri.cancels {i j : Nat} {ts : List (Nat × Nat × Nat)} (h : Tri i j ts) : Cancels (ts.flatMap triSides ++ revSides (i, j)) := by
  induction h with
  | side i =>
    simp only [List.flatMap_nil, List.nil_append, revSides, Nat.add_sub_cancel_left, List.range'_one, List.map_cons, List.map_nil]
    rw [cancels_pair]
    intro p; rfl
  | @split i k j l r h1 h2 ih1 ih2 =>
    have e1 := h1.lt
    have e2 := h2.lt
    have key : Cancels ((l.flatMap triSides ++ revSides (i, k)) ++ (r.flatMap triSides ++ revSides (k, j))) := by
      intro p
      rw [List.count_append (l₁ := l.flatMap triSides ++ revSides (i, k)), ih1 p, ih2 p, ← List.count_append]
    rw [← cancels_pair j i] at key
    refine (cancels_of_perm ?_).mp key
    have e3 := revSides_split e1 e2
    have e3c := fun p => e3.count_eq p
    rw [List.perm_iff_count]
    intro p
    have := e3c p
    simp only [List.flatMap_cons, List.flatMap_append, triSides, List.count_append, List.count_cons, List.count_nil] at this ⊢
    rw [show revSides (i, j) = (i, j) :: (List.range' i (j - i)).map fun i => (i + 1, i) from rfl, List.count_cons]
    omega

theorem Tri.triangles {i j : Nat} {ts : List (Nat × Nat × Nat)} (h : Tri i j ts) : ∀ t ∈ ts, i ≤ t.1 ∧ t.1 < t.2.1 ∧ t.2.1 < t.2.2 ∧ t.2.2 ≤ j := by
  induction h with
  | side i => simp
  | @split i k j l r h1 h2 ih1 ih2 =>
    have e1 := h1.lt
    have e2 := h2.lt
    intro t ht
    rw [List.mem_cons, List.mem_append] at ht
    rcases ht with rfl | ht | ht
    · simp only; omega
    · have := ih1 t ht; omega
    · have := ih2 t ht; omega

theorem Tri.isTriangulation {n : Nat} {ts : List (Nat × Nat × Nat)} (h : Tri 0 (n + 1) ts) : IsTriangulation (n + 2) ts where
  lt t ht := by have := h.triangles t ht; omega
  ccw t ht := by have := h.triangles t ht; left; omega
  boundary := by
    refine (cancels_of_perm ?_).mp h.cancels
    refine List.Perm.append_left _ ?_
    rw [sides_range, List.map_append, List.map_map, revSides, List.range_eq_range']
    simp only [List.map_cons, List.map_nil, Prod.swap_prod_mk, Nat.sub_zero]
    exact List.perm_append_comm (l₁ := [(0, n + 1)])

/-- the order of the triangles and the choice of their first corners do not matter -/
theorem isTriangulation_of_perm {n : Nat} {ts ts' : List (Nat × Nat × Nat)} (h : IsTriangulation n ts) (hp : ts.Perm ts') : IsTriangulation n ts' where
  lt t ht := h.lt t (hp.mem_iff.mpr ht)
  ccw t ht := h.ccw t (hp.mem_iff.mpr ht)
  boundary := (cancels_of_perm (List.Perm.append_right _ (List.Perm.flatMap_right _ hp))).mp h.boundary

end Verif.Geom
