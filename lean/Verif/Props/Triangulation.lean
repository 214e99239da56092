import Verif.Model.Triangulation
import Verif.Props.Geom
/-
C34 (buffer), C35 (flip_edge), C36 (self-checks).
-/
set_option linter.unusedSectionVars false
namespace Verif.Geom.Triangulation
variable {K : Type} [Field K] [LinearOrder K] [IsStrictOrderedRing K]

/-- the indices of a list of triangles -/
def flat : List (Nat × Nat × Nat) → List Nat
  | [] => []
  | (a, b, c) :: ts => a :: b :: c :: flat ts

theorem flat_length (ts : List (Nat × Nat × Nat)) : (flat ts).length = 3 * ts.length := by
  induction ts with
  | nil => rfl
  | cons t ts ih => obtain ⟨a, b, c⟩ := t; simp [flat, ih]; omega

theorem flat_append (ts us : List (Nat × Nat × Nat)) : flat (ts ++ us) = flat ts ++ flat us := by
  induction ts with
  | nil => rfl
  | cons t ts ih => obtain ⟨a, b, c⟩ := t; simp [flat, ih]

theorem flat_get (ts : List (Nat × Nat × Nat)) (i : Nat) :
    (flat ts)[3 * i]? = (ts[i]?).map (·.1) ∧ (flat ts)[3 * i + 1]? = (ts[i]?).map (·.2.1) ∧ (flat ts)[3 * i + 2]? = (ts[i]?).map (·.2.2) := by
  induction ts generalizing i with
  | nil => simp [flat]
  | cons t ts ih =>
    obtain ⟨a, b, c⟩ := t
    cases i with
    | zero => simp [flat]
    | succ i =>
      have := ih i
      rw [show 3 * (i + 1) = 3 * i + 3 by omega, show 3 * i + 3 + 1 = (3 * i + 1) + 3 by omega, show 3 * i + 3 + 2 = (3 * i + 2) + 3 by omega]
      simpa [flat] using this

/-- `t` holds the triangles `ts` behind the indices `l` -/
structure Holds (l : List Nat) (t : Triangulation) (ts : List (Nat × Nat × Nat)) : Prop where
  start : t.start = l.length
  indices : t.indices = l ++ flat ts

theorem Holds.get {l t ts} (h : Holds l t ts) (i : Nat) : t.getTriangle i = ts[i]? := by
  obtain ⟨h1, h2, h3⟩ := flat_get ts i
  have e : ∀ j, t.indices[l.length + j]? = (flat ts)[j]? := fun j => by
    rw [h.indices, List.getElem?_append_right (by omega)]; simp
  have e1 := e (3 * i)
  have e2 := e (3 * i + 1)
  have e3 := e (3 * i + 2)
  rw [getTriangle, h.start, e1, Nat.add_assoc, e2, Nat.add_assoc, e3, h1, h2, h3]
  cases ts[i]? <;> rfl

theorem Holds.len {l t ts} (h : Holds l t ts) : t.len = some ts.length := by
  simp only [Triangulation.len, h.start, h.indices, List.length_append, flat_length]
  rw [if_pos (by omega)]; congr 1; omega

/-- operations through which the buffer is changed -/
inductive Op
  | insert (a b c : Nat)
  | insertLocal (a b c : Nat) (ids : List Nat)
  | map (f : Nat → Option Nat)

def step (t : Triangulation) : Op → Option Triangulation
  | .insert a b c => some (t.insertTriangle a b c)
  | .insertLocal a b c ids => t.insertTriangleLocal a b c ids
  | .map f => t.mapIndices f

def run (t : Triangulation) : List Op → Option Triangulation
  | [] => some t
  | o :: os => do (← t.step o).run os

def mapTri (f : Nat → Option Nat) (t : Nat × Nat × Nat) : Option (Nat × Nat × Nat) := do
  let a ← f t.1
  let b ← f t.2.1
  let c ← f t.2.2
  some (a, b, c)

/-- the same on a list of triangles -/
def specStep (ts : List (Nat × Nat × Nat)) : Op → Option (List (Nat × Nat × Nat))
  | .insert a b c => some (ts ++ [(a, b, c)])
  | .insertLocal a b c ids => do
    let a ← ids[a]?
    let b ← ids[b]?
    let c ← ids[c]?
    some (ts ++ [(a, b, c)])
  | .map f => ts.mapM (mapTri f)

def specRun (ts : List (Nat × Nat × Nat)) : List Op → Option (List (Nat × Nat × Nat))
  | [] => some ts
  | o :: os => do specRun (← specStep ts o) os

theorem mapM_flat (f : Nat → Option Nat) (ts : List (Nat × Nat × Nat)) : (flat ts).mapM f = (specStep ts (.map f)).map flat := by
  induction ts with
  | nil => rfl
  | cons t ts ih =>
    obtain ⟨a, b, c⟩ := t
    simp only [specStep] at ih
    simp only [flat, List.mapM_cons, specStep, ih, mapTri]
    cases f a with
    | none => rfl
    | some a =>
      cases f b with
      | none => rfl
      | some b =>
        cases f c with
        | none => rfl
        | some c => cases ts.mapM (mapTri f) <;> rfl

theorem step_spec {l t ts} (h : Holds l t ts) (o : Op) : (∀ t', t.step o = some t' → ∃ ts', specStep ts o = some ts' ∧ Holds l t' ts') ∧
    (t.step o = none → specStep ts o = none) := by
  cases o with
  | insert a b c =>
    refine ⟨fun t' ht => ⟨_, rfl, ?_⟩, fun ht => by simp [step] at ht⟩
    simp only [step, Option.some.injEq] at ht
    subst ht
    exact ⟨h.start, by simp [insertTriangle, h.indices, flat_append, flat]⟩
  | insertLocal a b c ids =>
    simp only [step, insertTriangleLocal, specStep, Option.bind_eq_bind]
    cases ids[a]? with
    | none => simp
    | some a =>
      cases ids[b]? with
      | none => simp
      | some b =>
        cases ids[c]? with
        | none => simp
        | some c =>
          refine ⟨fun t' ht => ⟨_, rfl, ?_⟩, fun ht => by simp at ht⟩
          simp only [Option.bind_some, Option.some.injEq] at ht
          subst ht
          exact ⟨h.start, by simp [h.indices, flat_append, flat]⟩
  | map f =>
    have hd : t.indices.drop t.start = flat ts := by rw [h.start, h.indices]; simp
    have ht : t.indices.take t.start = l := by rw [h.start, h.indices]; simp
    simp only [step, mapIndices, Option.bind_eq_bind, hd, ht, mapM_flat]
    cases specStep ts (.map f) with
    | none => simp
    | some ts' =>
      refine ⟨fun t' ht => ⟨_, rfl, ?_⟩, fun ht => by simp at ht⟩
      simp only [Option.map_some, Option.bind_some, Option.some.injEq] at ht
      subst ht
      exact ⟨h.start, rfl⟩

theorem run_spec {l t ts} (h : Holds l t ts) (os : List Op) : (∀ t', t.run os = some t' → ∃ ts', specRun ts os = some ts' ∧ Holds l t' ts') ∧
    (t.run os = none → specRun ts os = none) := by
  induction os generalizing t ts with
  | nil =>
    refine ⟨fun t' ht => ⟨ts, rfl, ?_⟩, fun ht => by simp [run] at ht⟩
    simp only [run, Option.some.injEq] at ht
    exact ht ▸ h
  | cons o os ih =>
    obtain ⟨s1, s2⟩ := step_spec h o
    simp only [run, specRun, Option.bind_eq_bind]
    cases hs : t.step o with
    | none => simp [s2 hs]
    | some t1 =>
      obtain ⟨ts1, e, h1⟩ := s1 t1 hs
      simp only [e, Option.bind_some]
      exact ih h1

end Verif.Geom.Triangulation
namespace Verif.GeomProps
open Geom Triangulation
variable {K : Type} [Field K] [LinearOrder K] [IsStrictOrderedRing K]

/-- C34: after any sequence of insertions and remappings, the indices present before are unchanged; what is read back are exactly the inserted
triangles (remapped); the operations only fail where the same operations on a list of triangles fail. -/
theorem c34_buffer (l : List Nat) (os : List Op) :
    (∀ t, (new l).run os = some t → ∃ ts, specRun [] os = some ts ∧ t.start = l.length ∧ t.indices.take l.length = l ∧ t.len = some ts.length ∧
      (∀ i, t.getTriangle i = ts[i]?) ∧ t.indices = l ++ flat ts) ∧
    ((new l).run os = none → specRun [] os = none) := by
  have h : Holds l (new l) [] := ⟨rfl, by simp [new, flat]⟩
  obtain ⟨h1, h2⟩ := run_spec h os
  refine ⟨fun t ht => ?_, h2⟩
  obtain ⟨ts, e, g⟩ := h1 t ht
  exact ⟨ts, e, g.start, by rw [g.indices]; simp, g.len, g.get, g.indices⟩

/-- C34: inserting triangles only. -/
theorem c34_insert (l : List Nat) (ts : List (Nat × Nat × Nat)) : ∃ t, (new l).run (ts.map fun x => .insert x.1 x.2.1 x.2.2) = some t ∧
    t.indices.take l.length = l ∧ t.len = some ts.length ∧ ∀ i, t.getTriangle i = ts[i]? := by
  have key : ∀ us : List (Nat × Nat × Nat), specRun us (ts.map fun x => .insert x.1 x.2.1 x.2.2) = some (us ++ ts) := by
    induction ts with
    | nil => intro us; simp [specRun]
    | cons t ts ih => intro us; simp [specRun, specStep, ih]
  obtain ⟨h1, h2⟩ := c34_buffer l (ts.map fun x => .insert x.1 x.2.1 x.2.2)
  cases hr : (new l).run (ts.map fun x => .insert x.1 x.2.1 x.2.2) with
  | none => have := h2 hr; rw [key] at this; simp at this
  | some t =>
    obtain ⟨ts', e, -, g1, g2, g3, -⟩ := h1 t hr
    rw [key] at e
    simp only [List.nil_append, Option.some.injEq] at e
    subst e
    exact ⟨t, rfl, g1, g2, g3⟩

example : (new [7, 8, 9]).run [.insert 0 1 2, .insertLocal 0 2 1 [4, 5, 6], .map fun i => some (i + 10)] = some ⟨[7, 8, 9, 10, 11, 12, 14, 16, 15], 3⟩ := by
  decide +kernel

/-! ### C35 -/

/-- rotating a triangle keeps its sides -/
theorem sides_rot {p0 p1 p2 x y z : Nat} (h : (p0, p1, p2) ∈ [(x, y, z), (z, x, y), (y, z, x)]) : List.Perm (triSides (p0, p1, p2)) (triSides (x, y, z)) := by
  simp only [List.mem_cons, Prod.mk.injEq, List.not_mem_nil, or_false] at h
  rcases h with ⟨rfl, rfl, rfl⟩ | ⟨rfl, rfl, rfl⟩ | ⟨rfl, rfl, rfl⟩ <;> simp only [triSides] <;> apply List.perm_iff_count.mpr <;> intro e <;>
    simp only [List.count_cons, List.count_nil] <;> omega

theorem flip_spec (t : Triangulation) {a b ab ba p0 p1 p2 q0 q1 q2 : Nat} (h0 : t.indices[ab]? = some p0) (h1 : t.indices[ab + 1]? = some p1)
    (h2 : t.indices[ab + 2]? = some p2) (k0 : t.indices[ba]? = some q0) (k1 : t.indices[ba + 1]? = some q1) (k2 : t.indices[ba + 2]? = some q2)
    (ha : [p0, p1, p2].count a ≤ 1) (ha' : [q0, q1, q2].count a ≤ 1) :
    (∃ c d, (p0, p1, p2) ∈ [(a, b, c), (c, a, b), (b, c, a)] ∧ (q0, q1, q2) ∈ [(a, d, b), (b, a, d), (d, b, a)] ∧
      t.flipEdge a b ab ba = some ({ t with indices := (((((t.indices.set ab a).set (ab + 1) d).set (ab + 2) c).set ba d).set (ba + 1) b).set (ba + 2) c }, true)) ∨
    (¬ ((a, b) ∈ triSides (p0, p1, p2) ∧ (b, a) ∈ triSides (q0, q1, q2)) ∧ t.flipEdge a b ab ba = some (t, false)) := by
  have l1 : ab + 2 < t.indices.length := by
    by_contra hc; rw [List.getElem?_eq_none (by omega)] at h2; simp at h2
  have l2 : ba + 2 < t.indices.length := by
    by_contra hc; rw [List.getElem?_eq_none (by omega)] at k2; simp at k2
  have hb : ¬ (t.indices.length ≤ ab + 2 ∨ t.indices.length ≤ ba + 2) := by omega
  have key : ∀ (l : List Nat) (p x0 x1 x2 : Nat), l[p]? = some x0 → l[p + 1]? = some x1 → l[p + 2]? = some x2 → [x0, x1, x2].count a ≤ 1 →
      ∃ o x y z, offsetOf l a p = some o ∧ l[p + o]? = some x ∧ l[p + (o + 1) % 3]? = some y ∧ l[p + (o + 2) % 3]? = some z ∧
        (x0, x1, x2) ∈ [(x, y, z), (z, x, y), (y, z, x)] ∧ (x ≠ a → x0 ≠ a ∧ x1 ≠ a ∧ x2 ≠ a) ∧ (x = a → y ≠ a ∧ z ≠ a) := by
    intro l p x0 x1 x2 e0 e1 e2 hc
    by_cases c0 : x0 = a
    · refine ⟨0, x0, x1, x2, by simp [offsetOf, e0, c0], e0, e1, e2, by simp, fun h => absurd c0 h, fun _ => ?_⟩
      subst c0
      constructor
      · rintro rfl; simp at hc
      · rintro rfl; simp [List.count_cons] at hc
    · by_cases c1 : x1 = a
      · refine ⟨1, x1, x2, x0, by simp [offsetOf, e0, e1, c0, c1], e1, e2, e0, by simp, fun h => absurd c1 h, fun _ => ⟨?_, c0⟩⟩
        intro hx
        simp [List.count_cons, c0, c1, hx] at hc
      · exact ⟨2, x2, x0, x1, by simp [offsetOf, e0, e1, c0, c1], e2, e0, e1, by simp, fun h => ⟨c0, c1, h⟩, fun _ => ⟨c0, c1⟩⟩
  obtain ⟨o, x, y, z, o1, o2, o3, o4, o5, o6, o7⟩ := key _ _ _ _ _ h0 h1 h2 ha
  obtain ⟨o', x', y', z', q1, q2, q3, q4, q5, q6, q7⟩ := key _ _ _ _ _ k0 k1 k2 ha'
  unfold flipEdge
  simp only [Option.bind_eq_bind, o1, o2, o3, o4, q1, q2, q3, q4, Option.bind_some, if_neg hb]
  by_cases c1 : x = a
  · by_cases c2 : y = b
    · by_cases c3 : x' = a
      · by_cases c4 : z' = b
        · left
          subst c1 c2 c4
          exact ⟨z, y', o5, by subst c3; exact q5, by simp [c3]⟩
        · right
          refine ⟨?_, by simp [c1, c2, c3, c4]⟩
          rintro ⟨-, hm⟩
          obtain ⟨r1, r2⟩ := q7 c3
          have s2 := (sides_rot q5).mem_iff.mp hm
          simp only [triSides, List.mem_cons, Prod.mk.injEq, List.not_mem_nil, or_false] at s2
          rcases s2 with ⟨-, rfl⟩ | ⟨-, rfl⟩ | ⟨rfl, -⟩ <;> contradiction
      · right
        refine ⟨?_, by simp [c1, c2, c3]⟩
        rintro ⟨-, hm⟩
        obtain ⟨r1, r2, r3⟩ := q6 c3
        simp only [triSides, List.mem_cons, Prod.mk.injEq, List.not_mem_nil, or_false] at hm
        grind
    · right
      refine ⟨?_, by simp [c1, c2]⟩
      rintro ⟨hm, -⟩
      obtain ⟨r1, r2⟩ := o7 c1
      have s2 := (sides_rot o5).mem_iff.mp hm
      simp only [triSides, List.mem_cons, Prod.mk.injEq, List.not_mem_nil, or_false] at s2
      rcases s2 with ⟨-, rfl⟩ | ⟨rfl, -⟩ | ⟨rfl, -⟩ <;> contradiction
  · right
    refine ⟨?_, by simp [c1]⟩
    rintro ⟨hm, -⟩
    obtain ⟨r1, r2, r3⟩ := o6 c1
    simp only [triSides, List.mem_cons, Prod.mk.injEq, List.not_mem_nil, or_false] at hm
    grind

theorem tri2_rots (pos : Nat → P2 K) {p0 p1 p2 x y z : Nat} (h : (p0, p1, p2) ∈ [(x, y, z), (z, x, y), (y, z, x)]) :
    tri2 (pos p0) (pos p1) (pos p2) = tri2 (pos x) (pos y) (pos z) := by
  simp only [List.mem_cons, Prod.mk.injEq, List.not_mem_nil, or_false] at h
  rcases h with ⟨rfl, rfl, rfl⟩ | ⟨rfl, rfl, rfl⟩ | ⟨rfl, rfl, rfl⟩ <;> simp only [tri2] <;> ring

/-- C35: flipping the edge of two different triangles, each of which has `a` at most once as a corner.
It succeeds iff the first contains `a → b` and the second `b → a`. Then with the remaining corners `c` and `d` the triangles become `a d c` and `d b c`: the total
signed area and the outer sides stay the same and only the diagonal changes. Nothing else in the buffer changes; on failure nothing at all. -/
theorem c35_flip_edge (t : Triangulation) {a b ab ba p0 p1 p2 q0 q1 q2 : Nat} (h0 : t.indices[ab]? = some p0) (h1 : t.indices[ab + 1]? = some p1)
    (h2 : t.indices[ab + 2]? = some p2) (k0 : t.indices[ba]? = some q0) (k1 : t.indices[ba + 1]? = some q1) (k2 : t.indices[ba + 2]? = some q2)
    (ha : [p0, p1, p2].count a ≤ 1) (ha' : [q0, q1, q2].count a ≤ 1) (hd : ab + 3 ≤ ba ∨ ba + 3 ≤ ab) :
    ∃ t' ok, t.flipEdge a b ab ba = some (t', ok) ∧ (ok = true ↔ (a, b) ∈ triSides (p0, p1, p2) ∧ (b, a) ∈ triSides (q0, q1, q2)) ∧
      (ok = false → t' = t) ∧ t'.start = t.start ∧ t'.indices.length = t.indices.length ∧
      (∀ i, i ∉ [ab, ab + 1, ab + 2, ba, ba + 1, ba + 2] → t'.indices[i]? = t.indices[i]?) ∧
      (ok = true → ∃ c d, t'.indices[ab]? = some a ∧ t'.indices[ab + 1]? = some d ∧ t'.indices[ab + 2]? = some c ∧
        t'.indices[ba]? = some d ∧ t'.indices[ba + 1]? = some b ∧ t'.indices[ba + 2]? = some c ∧
        List.Perm (triSides (p0, p1, p2) ++ triSides (q0, q1, q2)) ([(a, b), (b, a)] ++ [(b, c), (c, a), (a, d), (d, b)]) ∧
        List.Perm (triSides (a, d, c) ++ triSides (d, b, c)) ([(d, c), (c, d)] ++ [(b, c), (c, a), (a, d), (d, b)]) ∧
        ∀ pos : Nat → P2 K, tri2 (pos a) (pos d) (pos c) + tri2 (pos d) (pos b) (pos c) =
          tri2 (pos p0) (pos p1) (pos p2) + tri2 (pos q0) (pos q1) (pos q2)) := by
  rcases flip_spec t h0 h1 h2 k0 k1 k2 ha ha' with ⟨c, d, o1, o2, o3⟩ | ⟨o1, o2⟩
  · have l1 : ab + 2 < t.indices.length := by
      by_contra hc; rw [List.getElem?_eq_none (by omega)] at h2; simp at h2
    have l2 : ba + 2 < t.indices.length := by
      by_contra hc; rw [List.getElem?_eq_none (by omega)] at k2; simp at k2
    have s1 := sides_rot (x := a) (y := b) (z := c) o1
    have s2 := sides_rot (x := a) (y := d) (z := b) o2
    refine ⟨_, true, o3, ?_, by simp, rfl, by simp, ?_, fun _ => ⟨c, d, ?_, ?_, ?_, ?_, ?_, ?_, ?_, ?_, ?_⟩⟩
    · simp only [true_iff]
      exact ⟨s1.mem_iff.mpr (by simp [triSides]), s2.mem_iff.mpr (by simp [triSides])⟩
    · intro i hi
      simp only [List.mem_cons, List.not_mem_nil, or_false, not_or] at hi
      obtain ⟨i1, i2, i3, i4, i5, i6⟩ := hi
      simp [Ne.symm i1, Ne.symm i2, Ne.symm i3, Ne.symm i4, Ne.symm i5, Ne.symm i6]
    · simp only [List.getElem?_set, List.length_set]; grind
    · simp only [List.getElem?_set, List.length_set]; grind
    · simp only [List.getElem?_set, List.length_set]; grind
    · simp only [List.getElem?_set, List.length_set]; grind
    · simp only [List.getElem?_set, List.length_set]; grind
    · simp only [List.getElem?_set, List.length_set]; grind
    · refine (s1.append s2).trans ?_
      simp only [triSides]
      apply List.perm_iff_count.mpr
      intro e
      simp only [List.cons_append, List.nil_append, List.count_cons, List.count_nil]; omega
    · simp only [triSides]
      apply List.perm_iff_count.mpr
      intro e
      simp only [List.cons_append, List.nil_append, List.count_cons, List.count_nil]; omega
    · intro pos
      rw [tri2_rots pos (x := a) (y := b) (z := c) o1, tri2_rots pos (x := a) (y := d) (z := b) o2]
      simp only [tri2]; ring
  · refine ⟨t, false, o2, by simpa using o1, by simp, rfl, rfl, fun _ _ => rfl, by simp⟩

example : (⟨[5, 0, 1, 2, 2, 1, 3], 1⟩ : Triangulation).flipEdge 1 2 1 4 = some (⟨[5, 1, 3, 0, 3, 2, 0], 1⟩, true) ∧
    (⟨[5, 0, 1, 2, 2, 1, 3], 1⟩ : Triangulation).flipEdge 1 0 1 4 = some (⟨[5, 0, 1, 2, 2, 1, 3], 1⟩, false) := by
  constructor <;> decide +kernel

/-- with a repeated corner the first occurrence decides, and the directed edge is overlooked -/
theorem c35_repeated_corner : (1, 2) ∈ triSides (1, 1, 2) ∧ (2, 1) ∈ triSides (2, 1, 3) ∧
    (⟨[1, 1, 2, 2, 1, 3], 0⟩ : Triangulation).flipEdge 1 2 0 3 = some (⟨[1, 1, 2, 2, 1, 3], 0⟩, false) := by
  refine ⟨?_, ?_, ?_⟩ <;> decide +kernel

/-! ### C36 -/

theorem forAll_iff {A : Type} {l : List A} {f : A → Option Unit} : forAll l f = some () ↔ ∀ x ∈ l, f x = some () := by
  induction l with
  | nil => simp [forAll]
  | cons a l ih =>
    simp only [forAll, Option.bind_eq_bind, List.mem_cons, forall_eq_or_imp, ← ih]
    cases h : f a <;> simp

theorem mem_rangeFrom {a b i : Nat} : i ∈ rangeFrom a b ↔ a ≤ i ∧ i < b := by
  simp only [rangeFrom, List.mem_range'_1]; omega

theorem mem_step3 {a b i : Nat} : i ∈ step3 a b ↔ ∃ k, i = a + 3 * k ∧ i < b := by
  simp only [step3, List.mem_map, List.mem_range]
  constructor
  · rintro ⟨k, h1, rfl⟩; exact ⟨k, rfl, by omega⟩
  · rintro ⟨k, rfl, h⟩; exact ⟨k, by omega, rfl⟩

/-- the test that the check for degenerate triangles should perform on each triangle -/
def GoodArea (t : Triangulation) (pos : Nat → Option (P2 K)) (tol : K) (i : Nat) : Prop := ∃ a, t.getTriangleArea i pos = some a ∧ -tol ≤ a

theorem nonDegenerate_iff (t : Triangulation) (pos : Nat → Option (P2 K)) (tol : K) : t.verifyNonDegenerate pos tol = some () ↔
    ∃ n, t.len = some n ∧ ∀ i, t.start ≤ i → i < n → GoodArea t pos tol i := by
  have key : ∀ i, (do let area ← t.getTriangleArea i pos; if area ≥ -tol then some () else none) = some () ↔ GoodArea t pos tol i := by
    intro i
    simp only [Option.bind_eq_bind, GoodArea]
    cases t.getTriangleArea i pos with
    | none => simp
    | some a => simp
  simp only [verifyNonDegenerate, Option.bind_eq_bind]
  cases h : t.len with
  | none => simp
  | some n =>
    simp only [Option.bind_some, forAll_iff, mem_rangeFrom, Option.some.injEq, exists_eq_left']
    constructor
    · intro h i h1 h2; exact (key i).mp (h i ⟨h1, h2⟩)
    · intro h i hi; exact (key i).mpr (h i hi.1 hi.2)

/-- the test that the check for intersections should perform on each two triangles, `i` and `j` being positions in the added part -/
def NoCrossing (t : Triangulation) (pos : Nat → Option (P2 K)) (meet : P2 K → P2 K → P2 K → P2 K → Bool) (i j : Nat) : Prop :=
  ∀ k, k < 3 → ∀ l, l < 3 → t.verifyPair pos meet i k j l = some ()

theorem noIntersections_iff (t : Triangulation) (pos : Nat → Option (P2 K)) (meet : P2 K → P2 K → P2 K → P2 K → Bool) : t.verifyNoIntersections pos meet = some () ↔
    ∀ a b, a ≠ b → t.start + 3 * a < t.indices.length - t.start → t.start + 3 * b < t.indices.length - t.start →
      NoCrossing t pos meet (t.start + 3 * a) (t.start + 3 * b) := by
  have three : ∀ k, k ∈ [0, 1, 2] ↔ k < 3 := by intro k; simp; omega
  simp only [verifyNoIntersections, forAll_iff, mem_step3, NoCrossing]
  constructor
  · intro h a b hab ha hb k hk l hl
    have := h _ ⟨a, rfl, ha⟩ _ ⟨b, rfl, hb⟩
    rw [if_neg (by omega), forAll_iff] at this
    have := this k ((three k).mpr hk)
    rw [forAll_iff] at this
    exact this l ((three l).mpr hl)
  · rintro h i ⟨a, rfl, ha⟩ j ⟨b, rfl, hb⟩
    by_cases hab : a = b
    · rw [if_pos (by omega)]
    · rw [if_neg (by omega), forAll_iff]
      intro k hk
      rw [forAll_iff]
      intro l hl
      exact h a b hab ha hb k ((three k).mp hk) l ((three l).mp hl)

/-- what it means for two sides to pass: all indices are present, and the sides share a corner or do not meet -/
theorem verifyPair_iff (t : Triangulation) (pos : Nat → Option (P2 K)) (meet : P2 K → P2 K → P2 K → P2 K → Bool) (i k j l : Nat) :
    t.verifyPair pos meet i k j l = some () ↔ ∃ i0 i1 i2 i3 v0 v1 v2 v3, t.getIndex (i + k) = some i0 ∧ t.getIndex (i + (k + 1) % 3) = some i1 ∧
      t.getIndex (j + l) = some i2 ∧ t.getIndex (j + (l + 1) % 3) = some i3 ∧ pos i0 = some v0 ∧ pos i1 = some v1 ∧ pos i2 = some v2 ∧ pos i3 = some v3 ∧
      ((i0 = i2 ∨ i0 = i3 ∨ i1 = i2 ∨ i1 = i3) ∨ meet v0 v1 v2 v3 = false) := by
  unfold verifyPair
  simp only [Option.bind_eq_bind]
  constructor
  · intro h
    cases e0 : t.getIndex (i + k) with
    | none => simp [e0] at h
    | some i0 =>
    cases p0 : pos i0 with
    | none => simp [e0, p0] at h
    | some v0 =>
    cases e1 : t.getIndex (i + (k + 1) % 3) with
    | none => simp [e0, p0, e1] at h
    | some i1 =>
    cases p1 : pos i1 with
    | none => simp [e0, p0, e1, p1] at h
    | some v1 =>
    cases e2 : t.getIndex (j + l) with
    | none => simp [e0, p0, e1, p1, e2] at h
    | some i2 =>
    cases p2 : pos i2 with
    | none => simp [e0, p0, e1, p1, e2, p2] at h
    | some v2 =>
    cases e3 : t.getIndex (j + (l + 1) % 3) with
    | none => simp [e0, p0, e1, p1, e2, p2, e3] at h
    | some i3 =>
    cases p3 : pos i3 with
    | none => simp [e0, p0, e1, p1, e2, p2, e3, p3] at h
    | some v3 =>
      refine ⟨i0, i1, i2, i3, v0, v1, v2, v3, rfl, rfl, rfl, rfl, p0, p1, p2, p3, ?_⟩
      simp only [e0, p0, e1, p1, e2, p2, e3, p3, Option.bind_some] at h
      by_cases hc : i0 = i2 ∨ i0 = i3 ∨ i1 = i2 ∨ i1 = i3
      · exact .inl hc
      · rw [if_neg hc] at h
        right
        cases hm : meet v0 v1 v2 v3 with
        | false => rfl
        | true => simp [hm] at h
  · rintro ⟨i0, i1, i2, i3, v0, v1, v2, v3, e0, e1, e2, e3, p0, p1, p2, p3, h⟩
    simp only [e0, p0, e1, p1, e2, p2, e3, p3, Option.bind_some]
    by_cases hc : i0 = i2 ∨ i0 = i3 ∨ i1 = i2 ∨ i1 = i3
    · rw [if_pos hc]
    · rw [if_neg hc, h.resolve_left hc]; simp

theorem getArea_nonneg (σ : Sgn K) {t : Triangulation} {pos : Nat → Option (P2 K)} {a : K} (h : getArea σ t pos = some a) : 0 ≤ a := by
  simp only [getArea, Option.bind_eq_bind] at h
  cases h1 : t.len with
  | none => simp [h1] at h
  | some n =>
    simp only [h1, Option.bind_some] at h
    cases h2 : (List.range n).mapM (fun i => (t.getTriangleArea i pos).bind fun a => some (absS σ a)) with
    | none => rw [h2] at h; simp at h
    | some l =>
      rw [h2] at h
      simp only [Option.bind_some, Option.some.injEq] at h
      rw [(c51_stable σ l).1] at h
      rw [← h]
      have sn : ∀ l : List K, (∀ x ∈ l, 0 ≤ x) → 0 ≤ l.sum := by
        intro l
        induction l with
        | nil => simp
        | cons a l ih => intro h; rw [List.sum_cons]; exact add_nonneg (h a (by simp)) (ih fun x hx => h x (by simp [hx]))
      have : 0 ≤ l.sum := by
        apply sn
        intro x hx
        have : ∀ (is : List Nat) (l : List K), is.mapM (fun i => (t.getTriangleArea i pos).bind fun a => some (absS σ a)) = some l → ∀ x ∈ l, 0 ≤ x := by
          intro is
          induction is with
          | nil => intro l h; simp at h; subst h; simp
          | cons i is ih =>
            intro l h
            rw [List.mapM_cons] at h
            cases h3 : t.getTriangleArea i pos with
            | none => simp [h3] at h
            | some a =>
              cases h4 : is.mapM (fun i => (t.getTriangleArea i pos).bind fun a => some (absS σ a)) with
              | none => rw [h4] at h; simp [h3] at h
              | some l' =>
                rw [h4] at h
                simp [h3] at h
                subst h
                intro x hx
                rw [List.mem_cons] at hx
                rcases hx with rfl | hx
                · rw [absS_eq]; exact abs_nonneg _
                · exact ih l' h4 x hx
        exact this _ l h2 x hx
      linarith

/-- C36: what the area check accepts: everything up to twice the area. -/
theorem c36_area (σ : Sgn K) (t : Triangulation) (poly : List (P2 K)) (pos : Nat → Option (P2 K)) {eps : K} (he : 0 ≤ eps) :
    verifyArea σ t poly pos eps = some () ↔ ∃ a, getArea σ t pos = some a ∧ 0 < polyArea σ poly ∧ a ≤ (2 + 5 * eps) * polyArea σ poly := by
  have hp : 0 ≤ polyArea σ poly := by rw [polyArea, absS_eq]; exact abs_nonneg _
  simp only [verifyArea, Option.bind_eq_bind]
  cases h : getArea σ t pos with
  | none => simp
  | some a =>
    have ha := getArea_nonneg σ h
    simp only [Option.bind_some, Option.some.injEq, exists_eq_left']
    by_cases hz : polyArea σ poly = 0
    · rw [if_pos hz, hz]; simp
    · have hp' : 0 < polyArea σ poly := lt_of_le_of_ne hp (Ne.symm hz)
      rw [if_neg hz, absS_eq]
      simp only [ite_eq_left_iff, reduceCtorEq, imp_false, not_not]
      rw [abs_le]
      have h0 : 0 ≤ a / polyArea σ poly := div_nonneg ha hp
      constructor
      · rintro ⟨h1, h2⟩
        refine ⟨hp', ?_⟩
        have : a / polyArea σ poly ≤ 2 + 5 * eps := by linarith
        rwa [div_le_iff₀ hp'] at this
      · rintro ⟨-, h1⟩
        rw [← div_le_iff₀ hp'] at h1
        constructor <;> linarith

theorem removeAll_iff (ids : List Nat) : ∀ seen, ids.Nodup → (removeAll seen ids = some [] ↔ ∀ i, i ∈ ids ↔ i ∈ seen) := by
  induction ids with
  | nil =>
    intro seen _
    simp only [removeAll, Option.some.injEq, List.not_mem_nil, false_iff]
    exact ⟨fun h => by simp [h], fun h => List.eq_nil_iff_forall_not_mem.mpr h⟩
  | cons v vs ih =>
    intro seen hn
    rw [List.nodup_cons] at hn
    rw [removeAll]
    by_cases hv : v ∈ seen
    · rw [if_pos hv, ih _ hn.2]
      simp only [List.mem_filter, List.mem_cons, decide_eq_true_eq]
      constructor
      · intro h i
        by_cases hi : i = v
        · simp [hi, hv]
        · simp [hi, h i]
      · intro h i
        by_cases hi : i = v
        · simp [hi, hn.1]
        · have := h i; simp [hi] at this; simp [hi, this]
    · rw [if_neg hv]
      simp only [reduceCtorEq, false_iff]
      intro h
      exact hv ((h v).mp (by simp))

/-- C36: the check that all indices are used is exact, for every start. -/
theorem c36_indices_used (t : Triangulation) {ids : List Nat} (hn : ids.Nodup) :
    t.verifyAllIndicesUsed ids = some () ↔ ∀ i, i ∈ ids ↔ i ∈ t.indices.drop t.start := by
  rw [← removeAll_iff ids _ hn, verifyAllIndicesUsed]
  cases h : removeAll (t.indices.drop t.start) ids with
  | none => simp
  | some l => simp

/-- C36: the check of the number of triangles and of the indices is exact, for every start. -/
theorem c36_indices (t : Triangulation) (pos : Nat → Option (P2 K)) (n : Nat) :
    t.verifyIndices pos n = some () ↔ 2 ≤ n ∧ t.len = some (n - 2) ∧ ∀ i ∈ t.indices.drop t.start, (pos i).isSome := by
  simp only [verifyIndices, Option.bind_eq_bind]
  cases h : t.len with
  | none => simp
  | some k =>
    by_cases h1 : n < 2
    · simp [h1, Nat.not_le.mpr h1]
    · by_cases h2 : k = n - 2
      · simp only [Option.bind_some, if_neg h1, h2, ne_eq, not_true_eq_false, if_false, forAll_iff]
        simp [Nat.not_lt.mp h1, Option.isSome_iff_ne_none]
      · simp [h1, h2]

/-- C36: on an initially empty buffer the checks cover every triangle and every pair of triangles. -/
theorem c36_start_zero_partial (t : Triangulation) (h : t.start = 0) (pos : Nat → Option (P2 K)) (tol : K) (meet : P2 K → P2 K → P2 K → P2 K → Bool) {n : Nat} (hn : t.len = some n) :
    (t.verifyNonDegenerate pos tol = some () ↔ ∀ i, i < n → GoodArea t pos tol i) ∧
    (t.verifyNoIntersections pos meet = some () ↔ ∀ a b, a < n → b < n → a ≠ b → NoCrossing t pos meet (3 * a) (3 * b)) := by
  constructor
  · rw [nonDegenerate_iff]
    simp [hn, h]
  · rw [noIntersections_iff]
    have hl : t.indices.length = 3 * n := by
      simp only [Triangulation.len, h] at hn
      split at hn
      · simp only [Option.some.injEq] at hn; omega
      · simp at hn
    simp only [h, hl, Nat.zero_add, Nat.sub_zero]
    constructor
    · intro h a b ha hb hab; exact h a b hab (by omega) (by omega)
    · intro h a b hab ha hb; exact h a b (by omega) (by omega) hab

/-- C36 is violated: if the buffer already holds at least as many indices as triangles are added, the check for degenerate triangles accepts anything, and
the total weight is zero. -/
theorem c36_skips_all (t : Triangulation) (pos : Nat → Option (P2 K)) (tol : K) (dist : P2 K → P2 K → K) {n : Nat} (hn : t.len = some n) (h : n ≤ t.start) :
    t.verifyNonDegenerate pos tol = some () ∧ t.totalEdgeWeight pos dist = some 0 := by
  constructor
  · rw [nonDegenerate_iff]
    exact ⟨n, hn, fun i h1 h2 => by omega⟩
  · have : rangeFrom t.start n = [] := by simp [rangeFrom, Nat.sub_eq_zero_of_le h]
    simp [totalEdgeWeight, hn, this]

/-- C36 is violated: the check for intersections accepts anything if the buffer already holds at least as many indices as are added. -/
theorem c36_skips_pairs (t : Triangulation) (pos : Nat → Option (P2 K)) (meet : P2 K → P2 K → P2 K → P2 K → Bool) (h : t.indices.length ≤ 2 * t.start) :
    t.verifyNoIntersections pos meet = some () := by
  rw [noIntersections_iff]
  intro a b _ ha _
  omega

/-- the corners of the unit square -/
def square (i : Nat) : Option (P2 ℚ) := [⟨0, 0⟩, ⟨1, 0⟩, ⟨1, 1⟩, ⟨0, 1⟩][i]?

/-- C36 is violated: a clockwise triangle is found in an empty buffer, but not behind another triangle. -/
theorem c36_negative_triangle : (⟨[0, 2, 1], 0⟩ : Triangulation).verifyNonDegenerate square 0 = none ∧
    (⟨[0, 1, 2, 0, 2, 1], 3⟩ : Triangulation).verifyNonDegenerate square 0 = some () := by
  constructor <;> decide +kernel

/-- C36 is violated: if one index is present before, the check for intersections panics on a correct triangulation. -/
theorem c36_panics : (⟨[0, 1, 2, 0, 2, 3], 0⟩ : Triangulation).verifyNoIntersections square (fun _ _ _ _ => false) = some () ∧
    (⟨[0, 0, 1, 2, 0, 2, 3], 1⟩ : Triangulation).verifyNoIntersections square (fun _ _ _ _ => false) = none := by
  constructor <;> decide +kernel

/-- C36 is violated: one of the two triangles of the square missing, or one of them twice, is not noticed by the area check. -/
theorem c36_wrong_area : verifyArea (strict ℚ) ⟨[0, 1, 2], 0⟩ [⟨0, 0⟩, ⟨1, 0⟩, ⟨1, 1⟩, ⟨0, 1⟩] square 0 = some () ∧
    verifyArea (strict ℚ) ⟨[0, 1, 2, 0, 2, 3, 0, 2, 3], 0⟩ [⟨0, 0⟩, ⟨1, 0⟩, ⟨1, 1⟩, ⟨0, 1⟩] square 0 = some () ∧
    verifyArea (strict ℚ) ⟨[], 0⟩ [⟨0, 0⟩, ⟨1, 0⟩, ⟨1, 1⟩, ⟨0, 1⟩] square 0 = some () := by
  refine ⟨?_, ?_, ?_⟩ <;> decide +kernel

example : verifyFull (strict ℚ) ⟨[0, 1, 2, 0, 2, 3], 0⟩ [(0, ⟨0, 0⟩), (1, ⟨1, 0⟩), (2, ⟨1, 1⟩), (3, ⟨0, 1⟩)]
    (fun p p' q q' => (intersectLine (strict ℚ) p p' q q' 0 0).isSome) 0 0 = some () := by decide +kernel

end Verif.GeomProps
