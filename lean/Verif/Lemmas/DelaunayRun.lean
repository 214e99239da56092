import Verif.Lemmas.Delaunay
import Verif.Lemmas.Funnel
import Verif.Props.InCircle
import Mathlib.Algebra.BigOperators.Group.List.Basic
import Verif.Props.Tess
import Verif.Props.Geom
/-
The Delaunay triangulator of a chain of different vertices: the table of opposite vertices agrees with the buffer, so that no assertion fails, and the loop ends.
-/
set_option linter.unusedSectionVars false
namespace Verif.Geom
open Triangulation

/-! ### The steps of the loop -/

section
variable {K : Type} [Field K] [LinearOrder K] (σ : Sgn K) (ps : List (P2 K)) (ids : List Nat) (con : List (Nat × Nat))

/-- the edges on the stack have been seen, no edge twice, between `n` vertices -/
structure StackOk (n : Nat) (s : List (Nat × Nat) × List (Nat × Nat)) : Prop where
  nodup : s.1.Nodup
  lt : ∀ e ∈ s.1, e.1 < n ∧ e.2 < n
  on : ∀ e ∈ s.2, e.1 < n ∧ e.2 < n ∧ e.1 ≠ e.2
  le : s.2.length ≤ s.1.length

theorem StackOk.seen_le {n : Nat} {s : List (Nat × Nat) × List (Nat × Nat)} (h : StackOk n s) : s.1.length ≤ n * n := by
  have h1 : s.1 ⊆ (List.range n).flatMap fun a => (List.range n).map fun b => (a, b) := by
    intro e he
    obtain ⟨a, b⟩ := h.lt e he
    simp only [List.mem_flatMap, List.mem_range, List.mem_map]
    exact ⟨e.1, a, e.2, b, rfl⟩
  have h2 := (List.subperm_of_subset h.nodup h1).length_le
  have h3 : ((List.range n).flatMap fun a => (List.range n).map fun b => (a, b)).length = n * n := by
    simp [List.length_flatMap]
  omega

/-- what is left to do -/
def todo (n : Nat) (s : List (Nat × Nat) × List (Nat × Nat)) : Nat := n * n - s.1.length + s.2.length

theorem stackEdge_ok {n : Nat} {s : List (Nat × Nat) × List (Nat × Nat)} {a b : Nat} (hs : StackOk n s) (ha : a < n) (hb : b < n) (hab : a ≠ b) :
    ∃ s', stackEdge con s a b = some s' ∧ StackOk n s' ∧ todo n s' ≤ todo n s := by
  unfold stackEdge
  rw [if_neg hab]
  split
  · exact ⟨s, rfl, hs, Nat.le_refl _⟩
  split
  · exact ⟨s, rfl, hs, Nat.le_refl _⟩
  rename_i h1 h2
  have ok : StackOk n (edgeKey a b :: s.1, (a, b) :: s.2) := by
    refine ⟨List.nodup_cons.mpr ⟨h1, hs.nodup⟩, ?_, ?_, by simp [hs.le]⟩
    · intro e he
      rcases List.mem_cons.mp he with rfl | he
      · simp only [edgeKey]; omega
      · exact hs.lt e he
    · intro e he
      rcases List.mem_cons.mp he with rfl | he
      · exact ⟨ha, hb, hab⟩
      · exact hs.on e he
  refine ⟨_, rfl, ok, ?_⟩
  have := ok.seen_le
  simp only [todo, List.length_cons] at *
  omega

theorem stackEdge_some {n : Nat} {s s' : List (Nat × Nat) × List (Nat × Nat)} {a b : Nat} (hs : StackOk n s) (ha : a < n) (hb : b < n) (h : stackEdge con s a b = some s') : StackOk n s' ∧ todo n s' ≤ todo n s := by
  by_cases hab : a = b
  · simp [stackEdge, hab] at h
  · obtain ⟨s1, h1, h2⟩ := stackEdge_ok con hs ha hb hab
    rw [h1] at h; simp at h; subst h; exact h2

theorem StackOk.pop {n : Nat} {seen st : List (Nat × Nat)} {e : Nat × Nat} (h : StackOk n (seen, e :: st)) : StackOk n (seen, st) ∧ todo n (seen, e :: st) = todo n (seen, st) + 1 :=
  ⟨⟨h.nodup, h.lt, fun x hx => h.on x (by simp only at hx ⊢; simp [hx]), by have := h.le; simp only [List.length_cons] at this ⊢; omega⟩, by simp only [todo, List.length_cons]; omega⟩

theorem legalizeEdge_lt {o o' : Opp} {t t' : Triangulation} {a b a' b' c d : Nat} (h : legalizeEdge σ ps ids o t a b = some (o', t', some (a', b', c, d))) :
    a' = a ∧ b' = b ∧ a < ps.length ∧ b < ps.length ∧ c < ps.length ∧ d < ps.length := by
  unfold legalizeEdge at h
  cases h1 : o (a, b) with
  | none => rw [h1] at h; simp at h
  | some x =>
    obtain ⟨c1, ab⟩ := x
    rw [h1] at h
    simp only [Option.bind_eq_bind, Option.bind_eq_some_iff] at h
    obtain ⟨p1, e1, p2, e2, p3, e3, h⟩ := h
    cases h2 : o (b, a) with
    | none => rw [h2] at h; simp at h
    | some y =>
      obtain ⟨d1, ba⟩ := y
      rw [h2] at h
      simp only [Option.bind_eq_some_iff] at h
      obtain ⟨q, e4, h⟩ := h
      split at h
      · simp at h
      split at h
      · simp only [Option.bind_eq_some_iff] at h
        obtain ⟨_, -, _, -, ⟨t1, ok⟩, -, h4⟩ := h
        cases ok with
        | false => simp at h4
        | true =>
          simp at h4
          obtain ⟨-, -, rfl, rfl, rfl, rfl⟩ := h4
          exact ⟨rfl, rfl, (List.getElem?_eq_some_iff.mp e1).1, (List.getElem?_eq_some_iff.mp e2).1, (List.getElem?_eq_some_iff.mp e3).1, (List.getElem?_eq_some_iff.mp e4).1⟩
      · simp at h

/-- with at least `todo` steps the result does not depend on their number -/
theorem legalizeLoop_fuel : ∀ (fuel fuel' : Nat) (s : List (Nat × Nat) × List (Nat × Nat)) (o : Opp) (t : Triangulation), StackOk ps.length s → todo ps.length s ≤ fuel → todo ps.length s ≤ fuel' →
    legalizeLoop σ ps ids con fuel s o t = legalizeLoop σ ps ids con fuel' s o t := by
  intro fuel
  induction fuel with
  | zero =>
    intro fuel' s o t hs h _
    obtain ⟨seen, st⟩ := s
    cases st with
    | nil => simp [legalizeLoop]
    | cons e st => simp [todo] at h
  | succ fuel ih =>
    intro fuel' s o t hs h h'
    obtain ⟨seen, st⟩ := s
    cases st with
    | nil => cases fuel' <;> simp [legalizeLoop]
    | cons e st =>
      cases fuel' with
      | zero => simp [todo] at h'
      | succ fuel' =>
        obtain ⟨a, b⟩ := e
        obtain ⟨k1, k2⟩ := hs.pop
        rw [legalizeLoop, legalizeLoop]
        cases h1 : legalizeEdge σ ps ids o t a b with
        | none => rfl
        | some x =>
          obtain ⟨o1, t1, r⟩ := x
          cases r with
          | none => exact ih fuel' _ _ _ k1 (by omega) (by omega)
          | some q =>
            obtain ⟨a', b', c, d⟩ := q
            obtain ⟨rfl, rfl, la, lb, lc, ld⟩ := legalizeEdge_lt σ ps ids h1
            simp only [Option.bind_eq_bind, Option.bind_some]
            cases g1 : stackEdge con (seen, st) c d with
            | none => rfl
            | some s1 =>
            obtain ⟨m1, n1⟩ := stackEdge_some con k1 lc ld g1
            simp only [Option.bind_some]
            cases g2 : stackEdge con s1 a' d with
            | none => rfl
            | some s2 =>
            obtain ⟨m2, n2⟩ := stackEdge_some con m1 la ld g2
            simp only [Option.bind_some]
            cases g3 : stackEdge con s2 b' c with
            | none => rfl
            | some s3 =>
            obtain ⟨m3, n3⟩ := stackEdge_some con m2 lb lc g3
            simp only [Option.bind_some]
            cases g4 : stackEdge con s3 b' d with
            | none => rfl
            | some s4 =>
            obtain ⟨m4, n4⟩ := stackEdge_some con m3 lb ld g4
            simp only [Option.bind_some]
            cases g5 : stackEdge con s4 a' c with
            | none => rfl
            | some s5 =>
            obtain ⟨m5, n5⟩ := stackEdge_some con m4 la lc g5
            exact ih fuel' _ _ _ m5 (by omega) (by omega)

theorem stackOk_nil (n : Nat) : StackOk n ([], []) := ⟨by simp, by simp, by simp, by simp⟩
end

/-! ### The table of opposite vertices -/

/-- the ranks go round once -/
def Cyc (r : Nat → Int) (x y z : Nat) : Prop := (r x < r y ∧ r y < r z) ∨ (r y < r z ∧ r z < r x) ∨ (r z < r x ∧ r x < r y)

/-- no vertex of `L` lies strictly between two of the corners -/
def Clear (r : Nat → Int) (L : List Nat) (x y z : Nat) : Prop := ∀ m ∈ L, (r x ≤ r m ∧ r y ≤ r m ∧ r z ≤ r m) ∨ (r m ≤ r x ∧ r m ≤ r y ∧ r m ≤ r z)

/-- the rotations of a triangle -/
def Rot (X : Nat × Nat × Nat) (x y z : Nat) : Prop := X = (x, y, z) ∨ X = (z, x, y) ∨ X = (y, z, x)

/-- an entry of the table -/
structure Entry (r : Nat → Int) (n : Nat) (L : List Nat) (t0 : Triangulation) (ts : List (Nat × Nat × Nat)) (x y z q : Nat) : Prop where
  cyc : Cyc r x y z
  clear : Clear r L x y z
  lt : x < n ∧ y < n ∧ z < n
  pos : ∃ (i : Nat) (X : Nat × Nat × Nat), q = t0.indices.length + 3 * i ∧ ts[i]? = some X ∧ Rot X x y z

/-- the table agrees with the triangles `ts`, and the path `L` separates no triangle -/
structure Table (r : Nat → Int) (n : Nat) (L : List Nat) (t0 : Triangulation) (ids : List Nat) (t : Triangulation) (o : Opp) (ts : List (Nat × Nat × Nat)) : Prop where
  emits : Emits t0 t ids ts
  all : ∀ X ∈ ts, Cyc r X.1 X.2.1 X.2.2
  entry : ∀ x y z q, o (x, y) = some (z, q) → Entry r n L t0 ts x y z q

theorem Cyc.rot {r : Nat → Int} {x y z : Nat} (h : Cyc r x y z) : Cyc r y z x := by simp only [Cyc] at *; omega

theorem Cyc.ne {r : Nat → Int} {x y z : Nat} (h : Cyc r x y z) : x ≠ y ∧ y ≠ z ∧ z ≠ x := by
  refine ⟨?_, ?_, ?_⟩ <;> rintro rfl <;> simp only [Cyc] at h <;> omega

theorem Clear.rot {r : Nat → Int} {L : List Nat} {x y z : Nat} (h : Clear r L x y z) : Clear r L y z x := by
  intro m hm; have := h m hm; omega

theorem Clear.mono {r : Nat → Int} {L L' : List Nat} {x y z : Nat} (h : Clear r L x y z) (hl : ∀ m ∈ L', m ∈ L) : Clear r L' x y z := fun m hm => h m (hl m hm)

theorem Rot.rot {X : Nat × Nat × Nat} {x y z : Nat} (h : Rot X x y z) : Rot X y z x := by
  rcases h with h | h | h
  · exact .inr (.inl h)
  · exact .inr (.inr h)
  · exact .inl h

theorem Entry.rot {r : Nat → Int} {n : Nat} {L : List Nat} {t0 : Triangulation} {ts : List (Nat × Nat × Nat)} {x y z q : Nat} (h : Entry r n L t0 ts x y z q) : Entry r n L t0 ts y z x q :=
  ⟨h.cyc.rot, h.clear.rot, ⟨h.lt.2.1, h.lt.2.2, h.lt.1⟩, by obtain ⟨i, X, h1, h2, h3⟩ := h.pos; exact ⟨i, X, h1, h2, h3.rot⟩⟩

theorem Table.mono {r : Nat → Int} {n : Nat} {L L' : List Nat} {t0 : Triangulation} {ids : List Nat} {t : Triangulation} {o : Opp} {ts : List (Nat × Nat × Nat)} (h : Table r n L t0 ids t o ts)
    (hl : ∀ m ∈ L', m ∈ L) : Table r n L' t0 ids t o ts :=
  ⟨h.emits, h.all, fun x y z q hq => by have e := h.entry x y z q hq; exact ⟨e.cyc, e.clear.mono hl, e.lt, e.pos⟩⟩

/-- the corners of a triangle in the buffer -/
theorem emits_corner {t0 t : Triangulation} {ids : List Nat} {ts : List (Nat × Nat × Nat)} (h : Emits t0 t ids ts) {i : Nat} {x y z : Nat} (hi : ts[i]? = some (x, y, z)) :
    t.indices[t0.indices.length + 3 * i]? = ids[x]? ∧ t.indices[t0.indices.length + 3 * i + 1]? = ids[y]? ∧ t.indices[t0.indices.length + 3 * i + 2]? = ids[z]? ∧
      x < ids.length ∧ y < ids.length ∧ z < ids.length := by
  obtain ⟨us, h1, rfl⟩ := h
  have hlen : us.length = ts.length := by
    have : ∀ (ts us : List (Nat × Nat × Nat)), ts.mapM (mapTri fun i => ids[i]?) = some us → us.length = ts.length := by
      intro ts
      induction ts with
      | nil => intro us h; simp at h; subst h; rfl
      | cons a ts ih =>
        intro us h
        simp only [List.mapM_cons, Option.bind_eq_bind, Option.bind_eq_some_iff] at h
        obtain ⟨u, -, us', h2, h3⟩ := h
        simp at h3; subst h3
        simp [ih _ h2]
    exact this _ _ h1
  have hlt := (List.getElem?_eq_some_iff.mp hi).1
  obtain ⟨u, hu⟩ : ∃ u, us[i]? = some u := ⟨us[i]'(by omega), List.getElem?_eq_getElem _⟩
  obtain ⟨x', hx', hm⟩ := mapM_get _ _ _ h1 i u hu
  rw [hi] at hx'; simp at hx'; subst hx'
  obtain ⟨p, q, s⟩ := u
  rw [mapTri_some] at hm
  obtain ⟨f1, f2, f3⟩ := flat_get us i
  rw [hu] at f1 f2 f3
  simp only [Option.map_some] at f1 f2 f3
  refine ⟨?_, ?_, ?_, (List.getElem?_eq_some_iff.mp hm.1).1, (List.getElem?_eq_some_iff.mp hm.2.1).1, (List.getElem?_eq_some_iff.mp hm.2.2).1⟩
  · simp only; rw [List.getElem?_append_right (by omega), Nat.add_sub_cancel_left, f1]; exact hm.1.symm
  · simp only; rw [List.getElem?_append_right (by omega), show t0.indices.length + 3 * i + 1 - t0.indices.length = 3 * i + 1 by omega, f2]; exact hm.2.1.symm
  · simp only; rw [List.getElem?_append_right (by omega), show t0.indices.length + 3 * i + 2 - t0.indices.length = 3 * i + 2 by omega, f3]; exact hm.2.2.symm

/-- a flip of two triangles of the list -/
theorem flip_exact {ids : List Nat} (hn : ids.Nodup) {t0 t : Triangulation} {ts : List (Nat × Nat × Nat)} (he : Emits t0 t ids ts) {a b c d i j : Nat} {X Y : Nat × Nat × Nat} (hi : ts[i]? = some X)
    (hj : ts[j]? = some Y) (hX : Rot X a b c) (hY : Rot Y b a d) (hab : a ≠ b) (hbc : b ≠ c) (hca : c ≠ a) (had : a ≠ d) (hdb : d ≠ b) :
    ∃ a' b' t', ids[a]? = some a' ∧ ids[b]? = some b' ∧ t.flipEdge a' b' (t0.indices.length + 3 * i) (t0.indices.length + 3 * j) = some (t', true) ∧
      Emits t0 t' ids ((ts.set i (a, d, c)).set j (d, b, c)) := by
  have key : ∀ (k : Nat) (Z : Nat × Nat × Nat) (x y z : Nat), ts[k]? = some Z → Rot Z x y z → ∃ x' y' z' p0 p1 p2, ids[x]? = some x' ∧ ids[y]? = some y' ∧ ids[z]? = some z' ∧
      t.indices[t0.indices.length + 3 * k]? = some p0 ∧ t.indices[t0.indices.length + 3 * k + 1]? = some p1 ∧ t.indices[t0.indices.length + 3 * k + 2]? = some p2 ∧ Rot (p0, p1, p2) x' y' z' := by
    intro k Z x y z hk hZ
    obtain ⟨u, v, w⟩ := Z
    obtain ⟨e1, e2, e3, l1, l2, l3⟩ := emits_corner he hk
    rw [List.getElem?_eq_getElem l1] at e1
    rw [List.getElem?_eq_getElem l2] at e2
    rw [List.getElem?_eq_getElem l3] at e3
    rcases hZ with h | h | h <;> simp only [Prod.mk.injEq] at h <;> obtain ⟨rfl, rfl, rfl⟩ := h
    · exact ⟨_, _, _, _, _, _, List.getElem?_eq_getElem l1, List.getElem?_eq_getElem l2, List.getElem?_eq_getElem l3, e1, e2, e3, .inl rfl⟩
    · exact ⟨_, _, _, _, _, _, List.getElem?_eq_getElem l2, List.getElem?_eq_getElem l3, List.getElem?_eq_getElem l1, e1, e2, e3, .inr (.inl rfl)⟩
    · exact ⟨_, _, _, _, _, _, List.getElem?_eq_getElem l3, List.getElem?_eq_getElem l1, List.getElem?_eq_getElem l2, e1, e2, e3, .inr (.inr rfl)⟩
  obtain ⟨a', b', c', p0, p1, p2, ha, hb, hc, i0, i1, i2, hp⟩ := key i X a b c hi hX
  obtain ⟨b'', a'', d', q0, q1, q2, hb2, ha2, hd, j0, j1, j2, hq⟩ := key j Y b a d hj hY
  rw [ha] at ha2; rw [hb] at hb2
  simp only [Option.some.injEq] at ha2 hb2
  subst ha2; subst hb2
  have inj : ∀ {x y x' y' : Nat}, ids[x]? = some x' → ids[y]? = some y' → x ≠ y → x' ≠ y' := by
    intro x y x' y' hx hy hxy e
    subst e
    exact hxy ((List.getElem?_inj (List.getElem?_eq_some_iff.mp hx).1 hn).mp (hx.trans hy.symm))
  have nab := inj ha hb hab
  have nbc := inj hb hc hbc
  have nca := inj hc ha hca
  have nad := inj ha hd had
  have ndb := inj hd hb hdb
  have cnt : ∀ (p0 p1 p2 x y z : Nat), Rot (p0, p1, p2) x y z → x ≠ y → y ≠ z → z ≠ x → [p0, p1, p2].count x ≤ 1 ∧ [p0, p1, p2].count y ≤ 1 := by
    intro p0 p1 p2 x y z h h1 h2 h3
    rcases h with h | h | h <;> simp only [Prod.mk.injEq] at h <;> obtain ⟨rfl, rfl, rfl⟩ := h <;>
      simp [List.count_cons, h1, h2, h3, Ne.symm h1, Ne.symm h2, Ne.symm h3]
  obtain ⟨us, m1, rfl⟩ := he
  refine ⟨a', b', _, ha, hb, ?_, ⟨(us.set i (a', d', c')).set j (d', b', c'), mapM_set _ _ _ _ _ _ (mapM_set _ _ _ _ _ _ m1 (mapTri_some.mpr ⟨ha, hd, hc⟩)) (mapTri_some.mpr ⟨hd, hb, hc⟩), rfl⟩⟩
  rcases GeomProps.flip_spec _ (a := a') (b := b') i0 i1 i2 j0 j1 j2 (cnt _ _ _ _ _ _ hp nab nbc nca).1 (cnt _ _ _ _ _ _ hq (Ne.symm nab) nad ndb).2 with ⟨c'', d'', o1, o2, o3⟩ | ⟨o1, -⟩
  · have e1 : c'' = c' := by
      simp only [List.mem_cons, Prod.mk.injEq, List.not_mem_nil, or_false, Rot] at o1 hp
      omega
    have e2 : d'' = d' := by
      simp only [List.mem_cons, Prod.mk.injEq, List.not_mem_nil, or_false, Rot] at o2 hq
      omega
    subst e1; subst e2
    rw [o3]
    simp only [Option.some.injEq, Prod.mk.injEq, and_true]
    congr 1
    rw [flat_set, flat_set]
    simp only [Nat.add_assoc]
    simp only [set_app]
  · exfalso
    apply o1
    constructor
    · rcases hp with h | h | h <;> simp only [Prod.mk.injEq] at h <;> obtain ⟨rfl, rfl, rfl⟩ := h <;> simp [triSides]
    · rcases hq with h | h | h <;> simp only [Prod.mk.injEq] at h <;> obtain ⟨rfl, rfl, rfl⟩ := h <;> simp [triSides]

theorem Rot.side {X : Nat × Nat × Nat} {x y z a b c : Nat} (h : Rot X x y z) (h' : Rot X a b c) : (x, y) = (a, b) ∨ (x, y) = (b, c) ∨ (x, y) = (c, a) := by
  obtain ⟨p, q, s⟩ := X
  simp only [Rot, Prod.mk.injEq] at *
  omega

section
variable {K : Type} [Field K] [LinearOrder K] [IsStrictOrderedRing K] (σ : Sgn K) (ps : List (P2 K)) {ids : List Nat} (hn : ids.Nodup) (hlen : ids.length = ps.length) {t0 : Triangulation} {con : List (Nat × Nat)} {r : Nat → Int}

/-- six times the volume between a triangle and the paraboloid over the origin, `x ↦ |x|²` being put at the corners -/
def liftTri (ps : List (P2 K)) (X : Nat × Nat × Nat) : K :=
  let a := GeomProps.posOf ps X.1; let b := GeomProps.posOf ps X.2.1; let c := GeomProps.posOf ps X.2.2
  tri2 a b c * ((a.x * a.x + a.y * a.y) + (b.x * b.x + b.y * b.y) + (c.x * c.x + c.y * c.y))

/-- the volume under the lifted triangles -/
def lift (ps : List (P2 K)) (ts : List (Nat × Nat × Nat)) : K := (ts.map (liftTri ps)).sum

theorem liftTri_rot {X : Nat × Nat × Nat} {a b c : Nat} (h : Rot X a b c) : liftTri ps X = liftTri ps (a, b, c) := by
  rcases h with rfl | rfl | rfl <;> simp only [liftTri, tri2] <;> ring

theorem lift_set {ts : List (Nat × Nat × Nat)} {i : Nat} {X : Nat × Nat × Nat} (h : ts[i]? = some X) (Y : Nat × Nat × Nat) : lift ps (ts.set i Y) = lift ps ts - liftTri ps X + liftTri ps Y := by
  obtain ⟨h1, rfl⟩ := List.getElem?_eq_some_iff.mp h
  simp only [lift, List.map_set]
  rw [List.sum_set']
  simp only [List.length_map, h1, dif_pos, List.getElem_map]
  ring

/-- triangles after some flips: as many, the new ones are not clockwise, and the lifted triangles do not go up -/
def Flipped (ps : List (P2 K)) (ts ts' : List (Nat × Nat × Nat)) : Prop := ts'.length = ts.length ∧ (∀ X ∈ ts', X ∈ ts ∨ Turns ps X) ∧ lift ps ts' ≤ lift ps ts

theorem Flipped.refl (ts : List (Nat × Nat × Nat)) : Flipped ps ts ts := ⟨rfl, fun _ h => .inl h, le_rfl⟩

theorem Flipped.trans {ts ts' ts'' : List (Nat × Nat × Nat)} (h : Flipped ps ts ts') (h' : Flipped ps ts' ts'') : Flipped ps ts ts'' :=
  ⟨h'.1.trans h.1, fun X hX => (h'.2.1 X hX).elim (fun h1 => h.2.1 X h1) .inr, h'.2.2.trans h.2.2⟩

include hn hlen in
theorem legalizeEdge_run {L : List Nat} {o : Opp} {t : Triangulation} {ts : List (Nat × Nat × Nat)} (h : Table r ids.length L t0 ids t o ts) (a b : Nat) :
    ∃ o' t' q ts', legalizeEdge σ ps ids o t a b = some (o', t', q) ∧ Table r ids.length L t0 ids t' o' ts' ∧ Flipped ps ts ts' ∧
      ∀ a' b' c d, q = some (a', b', c, d) → a' ≠ d ∧ a' ≠ c ∧ b' ≠ c ∧ b' ≠ d ∧ c ≠ d := by
  have same : ∃ o' t' q ts', (some (o, t, none) : Option (Opp × Triangulation × Option (Nat × Nat × Nat × Nat))) = some (o', t', q) ∧ Table r ids.length L t0 ids t' o' ts' ∧ Flipped ps ts ts' ∧
      ∀ a' b' c d, q = some (a', b', c, d) → a' ≠ d ∧ a' ≠ c ∧ b' ≠ c ∧ b' ≠ d ∧ c ≠ d := ⟨o, t, none, ts, rfl, h, .refl ps ts, by simp⟩
  unfold legalizeEdge
  cases h1 : o (a, b) with
  | none => exact same
  | some x =>
    obtain ⟨c, ab⟩ := x
    have e1 := h.entry _ _ _ _ h1
    obtain ⟨la, lb, lc⟩ := e1.lt
    have ga : ps[a]? = some (GeomProps.posOf ps a) := by simp [GeomProps.posOf, List.getElem?_eq_getElem (show a < ps.length by omega)]
    have gb : ps[b]? = some (GeomProps.posOf ps b) := by simp [GeomProps.posOf, List.getElem?_eq_getElem (show b < ps.length by omega)]
    have gc : ps[c]? = some (GeomProps.posOf ps c) := by simp [GeomProps.posOf, List.getElem?_eq_getElem (show c < ps.length by omega)]
    simp only [ga, gb, gc, Option.bind_eq_bind, Option.bind_some]
    cases h2 : o (b, a) with
    | none => exact same
    | some y =>
      obtain ⟨d, ba⟩ := y
      have e2 := h.entry _ _ _ _ h2
      obtain ⟨-, -, ld⟩ := e2.lt
      have gd : ps[d]? = some (GeomProps.posOf ps d) := by simp [GeomProps.posOf, List.getElem?_eq_getElem (show d < ps.length by omega)]
      simp only [gd, Option.bind_some]
      split
      · exact same
      split
      · rename_i hconv hcirc
        obtain ⟨nab, nbc, nca⟩ := e1.cyc.ne
        obtain ⟨-, nad, ndb⟩ := e2.cyc.ne
        have ncd : c ≠ d := by rintro rfl; have := e1.cyc; have := e2.cyc; simp only [Cyc] at *; omega
        obtain ⟨i, X, rfl, hX, rX⟩ := e1.pos
        obtain ⟨j, Y, rfl, hY, rY⟩ := e2.pos
        obtain ⟨a', b', t', ha', hb', hf, hE⟩ := flip_exact hn h.emits hX hY rX rY nab nbc nca nad ndb
        have hij : i ≠ j := by
          rintro rfl
          rw [hX] at hY; simp at hY; subst hY
          have := Rot.side rY rX
          simp only [Prod.mk.injEq] at this; omega
        simp only [ha', hb', hf, Option.bind_some, if_true]
        have li := (List.getElem?_eq_some_iff.mp hX).1
        have lj := (List.getElem?_eq_some_iff.mp hY).1
        have si : ((ts.set i (a, d, c)).set j (d, b, c))[i]? = some (a, d, c) := by
          rw [List.getElem?_set_ne (Ne.symm hij), List.getElem?_set_self li]
        have sj : ((ts.set i (a, d, c)).set j (d, b, c))[j]? = some (d, b, c) := by
          rw [List.getElem?_set_self (by simpa using lj)]
        have y1 : Cyc r a d c := by have := e1.cyc; have := e2.cyc; simp only [Cyc] at *; omega
        have y2 : Cyc r d b c := by have := e1.cyc; have := e2.cyc; simp only [Cyc] at *; omega
        have z1 : Clear r L a d c := by
          intro m hm
          have := e1.clear m hm; have := e2.clear m hm; have := e1.cyc; simp only [Cyc] at *; omega
        have z2 : Clear r L d b c := by
          intro m hm
          have := e1.clear m hm; have := e2.clear m hm; have := e1.cyc; simp only [Cyc] at *; omega
        have E1 : Entry r ids.length L t0 ((ts.set i (a, d, c)).set j (d, b, c)) a d c (t0.indices.length + 3 * i) := ⟨y1, z1, ⟨la, ld, lc⟩, i, _, rfl, si, .inl rfl⟩
        have E2 : Entry r ids.length L t0 ((ts.set i (a, d, c)).set j (d, b, c)) d b c (t0.indices.length + 3 * j) := ⟨y2, z2, ⟨ld, lb, lc⟩, j, _, rfl, sj, .inl rfl⟩
        refine ⟨_, t', _, _, rfl, ⟨hE, ?_, ?_⟩, ⟨by simp, ?_, ?_⟩, ?_⟩
        · intro Z hZ
          rcases List.mem_or_eq_of_mem_set hZ with hZ | rfl
          · rcases List.mem_or_eq_of_mem_set hZ with hZ | rfl
            · exact h.all Z hZ
            · exact y1
          · exact y2
        · intro x y z q hq
          simp only [Opp.put, Opp.del] at hq
          by_cases k1 : (x, y) = (d, b)
          · rw [if_pos k1] at hq; simp only [Option.some.injEq, Prod.mk.injEq] at hq k1
            obtain ⟨rfl, rfl⟩ := k1; obtain ⟨rfl, rfl⟩ := hq; exact E2
          rw [if_neg k1] at hq
          by_cases k2 : (x, y) = (c, d)
          · rw [if_pos k2] at hq; simp only [Option.some.injEq, Prod.mk.injEq] at hq k2
            obtain ⟨rfl, rfl⟩ := k2; obtain ⟨rfl, rfl⟩ := hq; exact E2.rot.rot
          rw [if_neg k2] at hq
          by_cases k3 : (x, y) = (b, c)
          · rw [if_pos k3] at hq; simp only [Option.some.injEq, Prod.mk.injEq] at hq k3
            obtain ⟨rfl, rfl⟩ := k3; obtain ⟨rfl, rfl⟩ := hq; exact E2.rot
          rw [if_neg k3] at hq
          by_cases k4 : (x, y) = (c, a)
          · rw [if_pos k4] at hq; simp only [Option.some.injEq, Prod.mk.injEq] at hq k4
            obtain ⟨rfl, rfl⟩ := k4; obtain ⟨rfl, rfl⟩ := hq; exact E1.rot.rot
          rw [if_neg k4] at hq
          by_cases k5 : (x, y) = (d, c)
          · rw [if_pos k5] at hq; simp only [Option.some.injEq, Prod.mk.injEq] at hq k5
            obtain ⟨rfl, rfl⟩ := k5; obtain ⟨rfl, rfl⟩ := hq; exact E1.rot
          rw [if_neg k5] at hq
          by_cases k6 : (x, y) = (a, d)
          · rw [if_pos k6] at hq; simp only [Option.some.injEq, Prod.mk.injEq] at hq k6
            obtain ⟨rfl, rfl⟩ := k6; obtain ⟨rfl, rfl⟩ := hq; exact E1
          rw [if_neg k6] at hq
          by_cases k7 : (x, y) = (b, a)
          · rw [if_pos k7] at hq; simp at hq
          rw [if_neg k7] at hq
          by_cases k8 : (x, y) = (a, b)
          · rw [if_pos k8] at hq; simp at hq
          rw [if_neg k8] at hq
          have e := h.entry _ _ _ _ hq
          obtain ⟨i', Z, f1, f2, f3⟩ := e.pos
          refine ⟨e.cyc, e.clear, e.lt, i', Z, f1, ?_, f3⟩
          have ni : i ≠ i' := by
            rintro rfl
            rw [hX] at f2; simp at f2; subst f2
            rcases Rot.side f3 rX with h | h | h
            · exact k8 h
            · exact k3 h
            · exact k4 h
          have nj : j ≠ i' := by
            rintro rfl
            rw [hY] at f2; simp at f2; subst f2
            rcases Rot.side f3 rY with h | h | h
            · exact k7 h
            · exact k6 h
            · exact k1 h
          rw [List.getElem?_set_ne nj, List.getElem?_set_ne ni]; exact f2
        · simp only [Bool.or_eq_true, Bool.not_eq_true', not_or, Bool.not_eq_false] at hconv
          have nn : ∀ x : K, σ.pos x = true → 0 ≤ x := by
            intro x hx
            by_contra hc
            rw [σ.pos_of_neg x (not_le.mp hc)] at hx; simp at hx
          intro Z hZ
          rcases List.mem_or_eq_of_mem_set hZ with hZ | rfl
          · rcases List.mem_or_eq_of_mem_set hZ with hZ | rfl
            · exact .inl hZ
            · right
              have := nn _ hconv.1
              simp only [Turns, tri2]
              refine le_of_le_of_eq this ?_
              simp only [P2.perpDot, sub_x, sub_y]; ring
          · right
            have := nn _ hconv.2
            simp only [Turns, tri2]
            refine le_of_le_of_eq this ?_
            simp only [P2.perpDot, sub_x, sub_y]; ring
        · rw [lift_set ps (X := Y) (by rw [List.getElem?_set_ne hij]; exact hY), lift_set ps hX, liftTri_rot ps rX, liftTri_rot ps rY]
          have nn : 0 ≤ det4 (circleMat (GeomProps.posOf ps a) (GeomProps.posOf ps b) (GeomProps.posOf ps c) (GeomProps.posOf ps d)) := by
            by_contra hc
            simp only [circleContains] at hcirc
            rw [σ.pos_of_neg _ (not_le.mp hc)] at hcirc; simp at hcirc
          rw [GeomProps.det4_eq] at nn
          simp only [liftTri, tri2] at *
          linarith
        · intro a1 b1 c1 d1 hq
          simp only [Option.some.injEq, Prod.mk.injEq] at hq
          obtain ⟨rfl, rfl, rfl, rfl⟩ := hq
          exact ⟨nad, Ne.symm nca, nbc, Ne.symm ndb, ncd⟩
      · exact same

include hn hlen in
theorem legalizeLoop_run : ∀ (fuel : Nat) (s : List (Nat × Nat) × List (Nat × Nat)) {L : List Nat} {o : Opp} {t : Triangulation} {ts : List (Nat × Nat × Nat)}, Table r ids.length L t0 ids t o ts →
    StackOk ps.length s → todo ps.length s ≤ fuel → ∃ o' t' ts', legalizeLoop σ ps ids con fuel s o t = some (o', t') ∧ Table r ids.length L t0 ids t' o' ts' ∧ Flipped ps ts ts' := by
  intro fuel
  induction fuel with
  | zero =>
    intro s L o t ts h hs hf
    obtain ⟨seen, st⟩ := s
    cases st with
    | nil => exact ⟨o, t, ts, by simp [legalizeLoop], h, .refl ps ts⟩
    | cons e st => simp [todo] at hf
  | succ fuel ih =>
    intro s L o t ts h hs hf
    obtain ⟨seen, st⟩ := s
    cases st with
    | nil => exact ⟨o, t, ts, by simp [legalizeLoop], h, .refl ps ts⟩
    | cons e st =>
      obtain ⟨a, b⟩ := e
      obtain ⟨k1, k2⟩ := hs.pop
      rw [legalizeLoop]
      obtain ⟨o1, t1, q, ts1, g1, g2, g3, g4⟩ := legalizeEdge_run σ ps hn hlen h a b
      rw [g1]
      simp only [Option.bind_eq_bind, Option.bind_some]
      cases q with
      | none =>
        obtain ⟨o', t', ts', m1, m2, m3⟩ := ih _ g2 k1 (by omega)
        exact ⟨o', t', ts', m1, m2, g3.trans ps m3⟩
      | some q =>
        obtain ⟨a', b', c, d⟩ := q
        obtain ⟨rfl, rfl, la, lb, lc, ld⟩ := legalizeEdge_lt σ ps ids g1
        obtain ⟨n1, n2, n3, n4, n5⟩ := g4 _ _ _ _ rfl
        obtain ⟨s1, f1, o1, w1⟩ := stackEdge_ok con k1 lc ld n5
        obtain ⟨s2, f2, o2, w2⟩ := stackEdge_ok con o1 la ld n1
        obtain ⟨s3, f3, o3, w3⟩ := stackEdge_ok con o2 lb lc n3
        obtain ⟨s4, f4, o4, w4⟩ := stackEdge_ok con o3 lb ld n4
        obtain ⟨s5, f5, o5, w5⟩ := stackEdge_ok con o4 la lc n2
        simp only [f1, f2, f3, f4, f5, Option.bind_some]
        obtain ⟨o', t', ts', m1, m2, m3⟩ := ih _ g2 o5 (by omega)
        exact ⟨o', t', ts', m1, m2, g3.trans ps m3⟩

include hn hlen in
theorem legalizeTriangle_run {L : List Nat} {o : Opp} {t : Triangulation} {ts : List (Nat × Nat × Nat)} (h : Table r ids.length L t0 ids t o ts) {x y z : Nat} (hx : x < ids.length) (hy : y < ids.length)
    (hz : z < ids.length) (hxy : x ≠ y) (hyz : y ≠ z) (hzx : z ≠ x) : ∃ o' t' ts', legalizeTriangle σ ps ids con o t x y z = some (o', t') ∧ Table r ids.length L t0 ids t' o' ts' ∧ Flipped ps ts ts' := by
  rw [hlen] at hx hy hz
  obtain ⟨s1, f1, o1, w1⟩ := stackEdge_ok con (stackOk_nil _) hx hy hxy
  obtain ⟨s2, f2, o2, w2⟩ := stackEdge_ok con o1 hy hz hyz
  obtain ⟨s3, f3, o3, w3⟩ := stackEdge_ok con o2 hz hx hzx
  simp only [legalizeTriangle, f1, f2, f3, Option.bind_eq_bind, Option.bind_some]
  refine legalizeLoop_run σ ps hn hlen _ _ h o3 ?_
  have : todo ps.length ([], []) = ps.length * ps.length := by simp [todo]
  rw [legalizeFuel, hlen]; omega

/-- inserting the corner `b a v` of the path, where `a` is next to `v` -/
theorem insertOpp_run {L L' : List Nat} {o : Opp} {t : Triangulation} {ts : List (Nat × Nat × Nat)} (h : Table r ids.length L t0 ids t o ts) {x y z : Nat} (hx : x < ids.length) (hy : y < ids.length)
    (hz : z < ids.length) (hxy : r x < r y) (hyz : r y < r z) (mx : x ∈ L) (my : y ∈ L) (mz : z ∈ L) (hl : ∀ m ∈ L', m ∈ L) (hc : ∀ m ∈ L', r m ≤ r x ∨ r z ≤ r m) {a b c : Nat} (hr : Rot (a, b, c) x y z) :
    ∃ o' t', (∀ dbg, insertOpp dbg ids o t a b c = some (o', t')) ∧ Table r ids.length L' t0 ids t' o' (ts ++ [(a, b, c)]) := by
  have no1 : o (x, y) = none := by
    by_contra hne
    obtain ⟨⟨w, q⟩, hq⟩ := Option.ne_none_iff_exists'.mp hne
    have e := h.entry _ _ _ _ hq
    have := e.cyc; have := e.clear x mx; have := e.clear y my; simp only [Cyc] at *; omega
  have no2 : o (y, z) = none := by
    by_contra hne
    obtain ⟨⟨w, q⟩, hq⟩ := Option.ne_none_iff_exists'.mp hne
    have e := h.entry _ _ _ _ hq
    have := e.cyc; have := e.clear y my; have := e.clear z mz; simp only [Cyc] at *; omega
  have no3 : o (z, x) = none := by
    by_contra hne
    obtain ⟨⟨w, q⟩, hq⟩ := Option.ne_none_iff_exists'.mp hne
    have e := h.entry _ _ _ _ hq
    have := e.clear y my; omega
  have cyc : Cyc r x y z := .inl ⟨hxy, hyz⟩
  have E : Cyc r a b c ∧ o (a, b) = none ∧ o (b, c) = none ∧ o (c, a) = none ∧ a < ids.length ∧ b < ids.length ∧ c < ids.length ∧ Clear r L' a b c := by
    have cl : Clear r L' x y z := by
      intro m hm
      have := hc m hm; omega
    rcases hr with h | h | h <;> simp only [Prod.mk.injEq] at h <;> obtain ⟨rfl, rfl, rfl⟩ := h
    · exact ⟨cyc, no1, no2, no3, hx, hy, hz, cl⟩
    · exact ⟨cyc.rot.rot, no3, no1, no2, hz, hx, hy, cl.rot.rot⟩
    · exact ⟨cyc.rot, no2, no3, no1, hy, hz, hx, cl.rot⟩
  obtain ⟨k0, k1, k2, k3, la, lb, lc, cl⟩ := E
  obtain ⟨t', ht'⟩ : ∃ t', t.insertTriangleLocal a b c ids = some t' := by
    simp [insertTriangleLocal, List.getElem?_eq_getElem la, List.getElem?_eq_getElem lb, List.getElem?_eq_getElem lc]
  have he := emits_append' h.emits (emits_local ht')
  obtain ⟨us, m1, rfl⟩ := h.emits
  have hp : (t0.indices ++ flat us).length = t0.indices.length + 3 * ts.length := by
    rw [List.length_append, flat_length]
    have : ∀ (ts us : List (Nat × Nat × Nat)), ts.mapM (mapTri fun i => ids[i]?) = some us → us.length = ts.length := by
      intro ts
      induction ts with
      | nil => intro us h; simp at h; subst h; rfl
      | cons a ts ih =>
        intro us h
        simp only [List.mapM_cons, Option.bind_eq_bind, Option.bind_eq_some_iff] at h
        obtain ⟨u, -, us', h2, h3⟩ := h
        simp at h3; subst h3
        simp [ih _ h2]
    rw [this _ _ m1]
  refine ⟨_, t', fun dbg => by simp only [insertOpp, ht', k1, k2, k3, Option.bind_eq_bind, Option.bind_some, Option.isSome_none, Bool.or_self, Bool.and_false]; rfl, he, ?_, ?_⟩
  · intro X hX
    rcases List.mem_append.mp hX with hX | hX
    · exact h.all X hX
    · simp at hX; subst hX; exact k0
  · have E : Entry r ids.length L' t0 (ts ++ [(a, b, c)]) a b c (t0.indices ++ flat us).length := ⟨k0, cl, ⟨la, lb, lc⟩, ts.length, (a, b, c), hp, by simp, .inl rfl⟩
    intro x y z q hq
    simp only [Opp.put] at hq
    by_cases j1 : (x, y) = (c, a)
    · rw [if_pos j1] at hq; simp only [Option.some.injEq, Prod.mk.injEq] at hq j1
      obtain ⟨rfl, rfl⟩ := j1; obtain ⟨rfl, rfl⟩ := hq; exact E.rot.rot
    rw [if_neg j1] at hq
    by_cases j2 : (x, y) = (b, c)
    · rw [if_pos j2] at hq; simp only [Option.some.injEq, Prod.mk.injEq] at hq j2
      obtain ⟨rfl, rfl⟩ := j2; obtain ⟨rfl, rfl⟩ := hq; exact E.rot
    rw [if_neg j2] at hq
    by_cases j3 : (x, y) = (a, b)
    · rw [if_pos j3] at hq; simp only [Option.some.injEq, Prod.mk.injEq] at hq j3
      obtain ⟨rfl, rfl⟩ := j3; obtain ⟨rfl, rfl⟩ := hq; exact E
    rw [if_neg j3] at hq
    have e := h.entry _ _ _ _ hq
    obtain ⟨i, X, f1, f2, f3⟩ := e.pos
    exact ⟨e.cyc, e.clear.mono hl, e.lt, i, X, f1, by rw [List.getElem?_append_left (List.getElem?_eq_some_iff.mp f2).1]; exact f2, f3⟩

/-- the vertices seen from a new vertex of side `d`, beginning with the neighbour -/
def Towards (r : Nat → Int) (d : Dir) (l : List Nat) : Prop := l.Pairwise fun x y => if d = .left then r y < r x else r x < r y

/-- no vertex of `F` is between vertices of `L` -/
def Outer (r : Nat → Int) (F L : List Nat) : Prop := ∀ m ∈ F, (∀ x ∈ L, r x < r m) ∨ ∀ x ∈ L, r m < r x

theorem Outer.mono {F L L' : List Nat} (h : Outer r F L) (hl : ∀ m ∈ L', m ∈ L) : Outer r F L' :=
  fun m hm => (h m hm).imp (fun k x hx => k x (hl x hx)) (fun k x hx => k x (hl x hx))

include hn hlen in
theorem join_run {v a b x y : Nat} {d : Dir} {rest F : List Nat} {o : Opp} {t : Triangulation} {ts : List (Nat × Nat × Nat)} (h : Table r ids.length ((v :: a :: b :: rest) ++ F) t0 ids t o ts)
    (hs : Towards r d (v :: a :: b :: rest)) (hF : Outer r F (v :: a :: b :: rest)) (hv : v < ids.length) (ha : a < ids.length) (hb : b < ids.length) (hxy : (x = a ∧ y = b) ∨ (x = b ∧ y = a)) :
    ∃ o' t' ts', (∀ dbg, DelChain.join σ dbg ps ids con v d a b x y o t = some (o', t')) ∧ Table r ids.length ((v :: b :: rest) ++ F) t0 ids t' o' ts' ∧ Flipped ps (ts ++ [triOf d v a b]) ts' := by
  simp only [Towards, List.pairwise_cons, List.mem_cons, forall_eq_or_imp] at hs
  obtain ⟨⟨h1, h2, h3⟩, ⟨h4, h5⟩, h6, -⟩ := hs
  have sub : ∀ m ∈ (v :: b :: rest) ++ F, m ∈ (v :: a :: b :: rest) ++ F := by intro m hm; simp only [List.cons_append, List.mem_cons, List.mem_append] at hm ⊢; tauto
  have out : ∀ m ∈ F, (r v < r m ∧ r b < r m) ∨ (r m < r v ∧ r m < r b) := by
    intro m hm
    rcases hF m hm with h | h
    · left; exact ⟨h v (by simp), h b (by simp)⟩
    · right; exact ⟨h v (by simp), h b (by simp)⟩
  have ins : ∃ o1 t1, (∀ dbg, insertOpp dbg ids o t (triOf d v a b).1 (triOf d v a b).2.1 (triOf d v a b).2.2 = some (o1, t1)) ∧ Table r ids.length ((v :: b :: rest) ++ F) t0 ids t1 o1 (ts ++ [triOf d v a b]) := by
    by_cases hd : d = .left
    · subst hd
      simp only [if_true] at h1 h2 h3 h4 h5 h6
      refine insertOpp_run h hb ha hv h4 h1 (by simp) (by simp) (by simp) sub ?_ (.inr (.inr rfl))
      intro m hm
      simp only [List.cons_append, List.mem_cons, List.mem_append] at hm
      rcases hm with rfl | rfl | hm | hm
      · right; omega
      · left; omega
      · left; have := h6 m hm; omega
      · have := out m hm; omega
    · simp only [if_neg hd] at h1 h2 h3 h4 h5 h6
      have : triOf d v a b = (a, b, v) := by simp [triOf, hd]
      rw [this]
      refine insertOpp_run h hv ha hb h1 h4 (by simp) (by simp) (by simp) sub ?_ (.inr (.inr rfl))
      intro m hm
      simp only [List.cons_append, List.mem_cons, List.mem_append] at hm
      rcases hm with rfl | rfl | hm | hm
      · left; omega
      · right; omega
      · right; have := h6 m hm; omega
      · have := out m hm; omega
  obtain ⟨o1, t1, i1, i2⟩ := ins
  have nva : v ≠ a := by rintro rfl; split at h1 <;> omega
  have nvb : v ≠ b := by rintro rfl; split at h2 <;> omega
  have nab : a ≠ b := by rintro rfl; split at h4 <;> omega
  obtain ⟨o', t', ts', m1, m2, m3⟩ := legalizeTriangle_run σ ps hn hlen (con := con) i2 (x := x) (y := y) (z := v) (by rcases hxy with h | h <;> omega) (by rcases hxy with h | h <;> omega) hv
    (by rcases hxy with h | h <;> omega) (by rcases hxy with h | h <;> omega) (by rcases hxy with h | h <;> omega)
  refine ⟨o', t', ts', fun dbg => ?_, m2, m3⟩
  have := i1 dbg
  unfold DelChain.join
  by_cases hd : d = .left
  · simp only [triOf, hd, if_true] at this ⊢
    simp only [this, Option.bind_eq_bind, Option.bind_some, m1]
  · simp only [triOf, hd, if_false] at this ⊢
    simp only [this, Option.bind_eq_bind, Option.bind_some, m1]

theorem Flipped.turns {ts ts' : List (Nat × Nat × Nat)} (h : Flipped ps ts ts') (ht : ∀ X ∈ ts, Turns ps X) : ∀ X ∈ ts', Turns ps X := fun X hX => (h.2.1 X hX).elim (ht X) id

theorem Flipped.append {ts ts' : List (Nat × Nat × Nat)} (h : Flipped ps ts ts') (us : List (Nat × Nat × Nat)) : Flipped ps (ts ++ us) (ts' ++ us) := by
  refine ⟨by simp [h.1], fun X hX => ?_, by simp only [lift, List.map_append, List.sum_append]; exact add_le_add h.2.2 le_rfl⟩
  rcases List.mem_append.mp hX with hX | hX
  · exact (h.2.1 X hX).imp (List.mem_append_left _) id
  · exact .inl (List.mem_append_right _ hX)

include hn hlen in
theorem same_run (ep : K) (v : Nat) (d : Dir) (hv : v < ids.length) {F : List Nat} : ∀ (st : List Nat) {o : Opp} {t : Triangulation} {ts : List (Nat × Nat × Nat)}, st ≠ [] → (∀ x ∈ st, x < ids.length) →
    Towards r d (v :: st) → Outer r F (v :: st) → Table r ids.length ((v :: st) ++ F) t0 ids t o ts →
    ∃ o' t' ts', (∀ dbg, DelChain.sameLoop σ ep dbg ps ids con v d st o t = some (v :: (popped (angPosOf σ ep ps) (angNegOf σ ep ps) d v st).2, o', t')) ∧
      Table r ids.length ((v :: (popped (angPosOf σ ep ps) (angNegOf σ ep ps) d v st).2) ++ F) t0 ids t' o' ts' ∧ Flipped ps (ts ++ (popped (angPosOf σ ep ps) (angNegOf σ ep ps) d v st).1) ts' := by
  intro st
  induction st with
  | nil => intro o t ts h; exact absurd rfl h
  | cons a st ih =>
    intro o t ts _ hlt hs hF h
    cases st with
    | nil => exact ⟨o, t, ts, fun dbg => by simp [DelChain.sameLoop, popped], h, by simpa [popped] using Flipped.refl ps ts⟩
    | cons b st =>
      rw [popped_cons]
      by_cases hstop : stops (angPosOf σ ep ps) (angNegOf σ ep ps) d v a b = true
      · rw [if_pos hstop]
        refine ⟨o, t, ts, fun dbg => ?_, h, by simpa using Flipped.refl ps ts⟩
        simp only [stops] at hstop
        rw [DelChain.sameLoop]
        by_cases hd : d = .left
        · rw [if_pos hd] at hstop ⊢; rw [if_pos hstop]
        · rw [if_neg hd] at hstop ⊢; rw [if_pos hstop]
      · rw [if_neg hstop]
        obtain ⟨o1, t1, ts1, j1, j2, j3⟩ := join_run σ ps hn hlen (con := con) h hs hF hv (hlt a (by simp)) (hlt b (by simp)) (x := b) (y := a) (.inr ⟨rfl, rfl⟩)
        have hs' : Towards r d (v :: b :: st) := List.Pairwise.sublist (List.Sublist.cons_cons _ (List.sublist_cons_self _ _)) hs
        obtain ⟨o', t', ts', k1, k2, k3⟩ := ih (by simp) (fun x hx => hlt x (List.mem_cons_of_mem _ hx)) hs' (hF.mono (by intro m hm; simp only [List.mem_cons] at hm ⊢; tauto)) j2
        refine ⟨o', t', ts', fun dbg => ?_, k2, ?_⟩
        · rw [DelChain.sameLoop]
          simp only [stops] at hstop
          by_cases hd : d = .left
          · rw [if_pos hd] at hstop ⊢; rw [if_neg hstop]
            simp only [j1 dbg, Option.bind_eq_bind, Option.bind_some, k1 dbg]
          · rw [if_neg hd] at hstop ⊢; rw [if_neg hstop]
            simp only [j1 dbg, Option.bind_eq_bind, Option.bind_some, k1 dbg]
        · have := (j3.append ps (popped (angPosOf σ ep ps) (angNegOf σ ep ps) d v (b :: st)).1).trans ps k3
          simpa using this

include hn hlen in
theorem opp_run (v : Nat) (d : Dir) (hv : v < ids.length) {F : List Nat} : ∀ (l : List Nat) {o : Opp} {t : Triangulation} {ts : List (Nat × Nat × Nat)} (z : Nat), l.getLast? = some z → (∀ x ∈ l, x < ids.length) →
    Towards r d (v :: l) → Outer r F (v :: l) → Table r ids.length ((v :: l) ++ F) t0 ids t o ts →
    ∃ o' t' ts', (∀ dbg, DelChain.oppLoop σ dbg ps ids con v d l o t = some (o', t')) ∧ Table r ids.length ([v, z] ++ F) t0 ids t' o' ts' ∧ Flipped ps (ts ++ fanned d v l) ts' := by
  intro l
  induction l with
  | nil => intro o t ts z h; simp at h
  | cons a l ih =>
    intro o t ts z hz hlt hs hF h
    cases l with
    | nil => simp at hz; subst hz; exact ⟨o, t, ts, fun dbg => by simp [DelChain.oppLoop], h, by simpa [fanned] using Flipped.refl ps ts⟩
    | cons b l =>
      obtain ⟨o1, t1, ts1, j1, j2, j3⟩ := join_run σ ps hn hlen (con := con) h hs hF hv (hlt a (by simp)) (hlt b (by simp)) (x := a) (y := b) (.inl ⟨rfl, rfl⟩)
      have hs' : Towards r d (v :: b :: l) := List.Pairwise.sublist (List.Sublist.cons_cons _ (List.sublist_cons_self _ _)) hs
      rw [List.getLast?_cons_cons] at hz
      obtain ⟨o', t', ts', k1, k2, k3⟩ := ih z hz (fun x hx => hlt x (List.mem_cons_of_mem _ hx)) hs' (hF.mono (by intro m hm; simp only [List.mem_cons] at hm ⊢; tauto)) j2
      refine ⟨o', t', ts', fun dbg => by rw [DelChain.oppLoop]; simp only [j1 dbg, Option.bind_eq_bind, Option.bind_some]; exact k1 dbg, k2, ?_⟩
      rw [fanned_cons]
      have := (j3.append ps (fanned d v (b :: l))).trans ps k3
      simpa using this

/-- each later vertex is outside of all earlier ones, on its side -/
def Future (r : Nat → Int) : List Nat → List (Bool × Nat) → Prop
  | _, [] => True
  | S, x :: l => (∀ s ∈ S, if x.1 then r s < r x.2 else r x.2 < r s) ∧ Future r (x.2 :: S) l

theorem Future.outer {S : List Nat} {l : List (Bool × Nat)} (h : Future r S l) : Outer r (l.map Prod.snd) S := by
  induction l generalizing S with
  | nil => intro m hm; simp at hm
  | cons x l ih =>
    intro m hm
    rcases List.mem_cons.mp hm with rfl | hm
    · obtain ⟨b, v⟩ := x
      cases b with
      | true => left; simpa using h.1
      | false => right; simpa using h.1
    · exact (ih h.2 m hm).imp (fun k x hx => k x (List.mem_cons_of_mem _ hx)) (fun k x hx => k x (List.mem_cons_of_mem _ hx))

theorem Future.mono {S S' : List Nat} {l : List (Bool × Nat)} (h : Future r S l) (hs : ∀ m ∈ S', m ∈ S) : Future r S' l := by
  induction l generalizing S S' with
  | nil => trivial
  | cons x l ih => exact ⟨fun s hm => h.1 s (hs s hm), ih h.2 (by intro m hm; simp only [List.mem_cons] at hm ⊢; exact hm.imp id (hs m))⟩

theorem exists_bound (r : Nat → Int) (S : List Nat) : ∃ M m : Int, ∀ s ∈ S, r s < M ∧ m < r s := by
  induction S with
  | nil => exact ⟨0, 0, by simp⟩
  | cons a S ih =>
    obtain ⟨M, m, h⟩ := ih
    refine ⟨max M (r a + 1), min m (r a - 1), ?_⟩
    intro s hs
    rcases List.mem_cons.mp hs with rfl | hs
    · omega
    · have := h s hs; omega

theorem exists_future : ∀ (l : List (Bool × Nat)) (S : List Nat) (r0 : Nat → Int), (l.map Prod.snd).Nodup → (∀ x ∈ l, x.2 ∉ S) → ∃ r : Nat → Int, (∀ s ∈ S, r s = r0 s) ∧ Future r S l := by
  intro l
  induction l with
  | nil => intro S r0 _ _; exact ⟨r0, fun _ _ => rfl, trivial⟩
  | cons x l ih =>
    intro S r0 hn hS
    obtain ⟨M, m, hb⟩ := exists_bound r0 S
    have hx := hS x (by simp)
    simp only [List.map_cons, List.nodup_cons] at hn
    obtain ⟨r, h1, h2⟩ := ih (x.2 :: S) (fun s => if s = x.2 then (if x.1 then M else m) else r0 s) hn.2 (by
      intro y hy
      simp only [List.mem_cons, not_or]
      refine ⟨?_, hS y (List.mem_cons_of_mem _ hy)⟩
      intro e
      exact hn.1 (e ▸ List.mem_map_of_mem hy))
    have e1 : ∀ s ∈ S, r s = r0 s := by
      intro s hs
      rw [h1 s (List.mem_cons_of_mem _ hs), if_neg (by rintro rfl; exact hx hs)]
    refine ⟨r, e1, ?_, h2⟩
    intro s hs
    rw [e1 s hs, h1 x.2 (by simp), if_pos rfl]
    have := hb s hs
    cases x.1 <;> simp <;> omega

/-- the state between two vertices -/
structure Ready (r : Nat → Int) (t0 : Triangulation) (ids : List Nat) (c : DelChain) (F : List Nat) (t : Triangulation) (ts : List (Nat × Nat × Nat)) : Prop where
  one : c.d = .none → c.stack.length = 1
  two : c.d ≠ .none → 2 ≤ c.stack.length
  lt : ∀ x ∈ c.stack, x < ids.length
  towards : Towards r c.d c.stack
  table : Table r ids.length (c.stack ++ F) t0 ids t c.opp ts

theorem Towards.reverse {d : Dir} {l : List Nat} (h : Towards r d l) {d' : Dir} (hd : d = .left ↔ d' ≠ .left) : Towards r d' l.reverse := by
  rw [Towards, List.pairwise_reverse]
  refine List.Pairwise.imp ?_ h
  intro a b hab
  by_cases e : d = .left
  · rw [if_pos e] at hab; rw [if_neg (hd.mp e)]; exact hab
  · rw [if_neg e] at hab; rw [if_pos (by by_contra h; exact e (hd.mpr h))]; exact hab

include hn hlen in
/-- one vertex -/
theorem add_run (ep : K) {x : Bool × Nat} {l : List (Bool × Nat)} {c : DelChain} {t : Triangulation} {ts : List (Nat × Nat × Nat)} (R : Ready r t0 ids c ((x :: l).map Prod.snd) t ts) (hx : x.2 < ids.length) (hF : Future r c.stack (x :: l)) :
    ∃ c' t' ts', (∀ dbg, c.add σ ep dbg ps ids x.2 (dirOf x.1) t = some (c', t')) ∧ (c'.d, c'.stack) = (stepC (angPosOf σ ep ps) (angNegOf σ ep ps) (c.d, c.stack) x).2 ∧
      Ready r t0 ids c' (l.map Prod.snd) t' ts' ∧ Future r c'.stack l ∧ Flipped ps (ts ++ (stepC (angPosOf σ ep ps) (angNegOf σ ep ps) (c.d, c.stack) x).1) ts' := by
  obtain ⟨b, v⟩ := x
  simp only at hx
  have hdn : dirOf b ≠ .none := by cases b <;> simp [dirOf]
  have ext : ∀ s ∈ c.stack, if dirOf b = .left then r s < r v else r v < r s := by
    intro s hs
    have := hF.1 s hs
    cases b <;> simpa [dirOf] using this
  have far := hF.2.outer
  have perm : ∀ m ∈ (v :: c.stack) ++ l.map Prod.snd, m ∈ c.stack ++ ((b, v) :: l).map Prod.snd := by
    intro m hm; simp only [List.map_cons, List.cons_append, List.mem_cons, List.mem_append] at hm ⊢; tauto
  have tab := R.table.mono perm
  by_cases h0 : c.d = .none
  · obtain ⟨a, ha⟩ := List.length_eq_one_iff.mp (R.one h0)
    refine ⟨{ c with stack := [v, a], d := dirOf b, con := edgeKey a v :: c.con }, t, ts, fun dbg => by simp [DelChain.add, h0, ha], by simp [stepC, h0, ha], ⟨fun h => absurd h hdn, by simp, ?_, ?_, ?_⟩, ?_, ?_⟩
    · intro x hx'
      simp only [List.mem_cons, List.not_mem_nil, or_false] at hx'
      rcases hx' with rfl | rfl
      · exact hx
      · exact R.lt x (by simp [ha])
    · have := ext a (by simp [ha])
      simpa [Towards] using this
    · rw [ha] at tab; exact tab
    · rw [ha] at hF; exact hF.2
    · simpa [stepC, h0] using Flipped.refl ps ts
  · obtain ⟨a, a', rest, hst⟩ := two_of (R.two h0)
    have hne : c.stack ≠ [] := by rw [hst]; simp
    by_cases h1 : c.d = dirOf b
    · have tw : Towards r (dirOf b) (v :: c.stack) := by
        refine List.pairwise_cons.mpr ⟨ext, ?_⟩
        have := R.towards
        rw [h1] at this; exact this
      obtain ⟨o', t', ts', k1, k2, k3⟩ := same_run σ ps hn hlen (con := edgeKey a v :: c.con) ep v (dirOf b) hx c.stack hne R.lt tw far tab
      obtain ⟨p1, p2, -⟩ := popped_spec (angPosOf σ ep ps) (angNegOf σ ep ps) (dirOf b) v c.stack hne
      refine ⟨{ c with stack := v :: (popped (angPosOf σ ep ps) (angNegOf σ ep ps) (dirOf b) v c.stack).2, con := edgeKey a v :: c.con, opp := o' }, t', ts', fun dbg => ?_, ?_, ⟨fun h => absurd h h0, ?_, ?_, ?_, k2⟩, ?_, ?_⟩
      · have := k1 dbg
        simp only [DelChain.add, if_neg h0, if_pos h1, DelChain.last, hst, List.head?_cons, Option.bind_eq_bind, Option.bind_some] at this ⊢
        rw [this]; rfl
      · simp [stepC, h0, h1, hdn]
      · intro _
        have := List.length_pos_of_ne_nil p1
        simp only [List.length_cons]; omega
      · intro x hx'
        rcases List.mem_cons.mp hx' with rfl | hx'
        · exact hx
        · exact R.lt x (p2.mem hx')
      · simp only [h1]
        exact tw.sublist (p2.sublist.cons_cons _)
      · exact hF.2.mono (by intro m hm; rcases List.mem_cons.mp hm with rfl | hm; · simp
                            · exact List.mem_cons_of_mem _ (p2.mem hm))
      · simpa [stepC, h0, h1, hdn] using k3
    · have tw : Towards r (dirOf b) (v :: c.stack.reverse) := by
        refine List.pairwise_cons.mpr ⟨fun s hs => ext s (List.mem_reverse.mp hs), ?_⟩
        exact R.towards.reverse (by cases hcd : c.d <;> cases b <;> simp_all [dirOf])
      have sub : ∀ m ∈ v :: c.stack.reverse, m ∈ v :: c.stack := by intro m hm; simpa using hm
      obtain ⟨o', t', ts', k1, k2, k3⟩ := opp_run σ ps hn hlen (con := edgeKey (c.stack.getLast?.getD 0) v :: c.con) v (dirOf b) hx c.stack.reverse a (by simp [hst]) (fun x hx' => R.lt x (List.mem_reverse.mp hx')) tw
        (far.mono sub) (tab.mono (by intro m hm; simpa using hm))
      refine ⟨{ c with stack := [v, a], d := dirOf b, con := edgeKey (c.stack.getLast?.getD 0) v :: c.con, opp := o' }, t', ts', fun dbg => ?_, ?_, ⟨fun h => absurd h hdn, by simp, ?_, ?_, k2⟩, ?_, ?_⟩
      · have := k1 dbg
        obtain ⟨z, hz⟩ : ∃ z, c.stack.getLast? = some z := by
          cases hl : c.stack.getLast? with
          | none => rw [List.getLast?_eq_none_iff] at hl; exact absurd hl hne
          | some z => exact ⟨z, rfl⟩
        rw [hz] at this ⊢
        simp only [DelChain.add, if_neg h0, if_neg h1, DelChain.first, hz, Option.bind_eq_bind, Option.bind_some]
        split
        · rename_i e; rw [hst] at e; simp at e
        · rename_i e; rw [hst] at e; simp at e
        · rename_i y1 y2 y3 e
          rw [hst] at e; simp only [List.cons.injEq] at e
          obtain ⟨rfl, rfl, rfl⟩ := e
          simp only [Option.getD_some] at this
          rw [this]; rfl
      · simp [stepC, h0, h1, hst]
      · intro x hx'
        simp only [List.mem_cons, List.not_mem_nil, or_false] at hx'
        rcases hx' with rfl | rfl
        · exact hx
        · exact R.lt x (by simp [hst])
      · have := ext a (by simp [hst])
        simpa [Towards] using this
      · exact hF.2.mono (by intro m hm; simp only [List.mem_cons, List.not_mem_nil, or_false] at hm; rcases hm with rfl | rfl <;> simp [hst])
      · simpa [stepC, h0, h1] using k3

include hn hlen in
theorem feed_run (ep : K) : ∀ (l : List (Bool × Nat)) {c : DelChain} {t : Triangulation} {ts : List (Nat × Nat × Nat)}, Ready r t0 ids c (l.map Prod.snd) t ts → (∀ x ∈ l, x.2 < ids.length) → Future r c.stack l →
    ∃ (c' : DelChain) (t' : Triangulation) (ts' : List (Nat × Nat × Nat)), (∀ dbg, feed (delaunay σ ep dbg ps ids) l c t = some (c', t')) ∧ (c'.d, c'.stack) = (runC (angPosOf σ ep ps) (angNegOf σ ep ps) l (c.d, c.stack)).2 ∧
      Emits t0 t' ids ts' ∧ Flipped ps (ts ++ (runC (angPosOf σ ep ps) (angNegOf σ ep ps) l (c.d, c.stack)).1) ts' := by
  intro l
  induction l with
  | nil => intro c t ts R _ _; exact ⟨c, t, ts, fun _ => rfl, rfl, R.table.emits, by simpa [runC] using Flipped.refl ps ts⟩
  | cons x l ih =>
    intro c t ts R hlt hF
    have step : ∀ c0 : DelChain, (c0.d, c0.stack) = (c.d, c.stack) → c0.opp = c.opp → ∃ (c1 : DelChain) (t1 : Triangulation), (∀ dbg, c0.add σ ep dbg ps ids x.2 (dirOf x.1) t = some (c1, t1)) ∧
        ∃ (c' : DelChain) (t' : Triangulation) (ts' : List (Nat × Nat × Nat)), (∀ dbg, feed (delaunay σ ep dbg ps ids) l c1 t1 = some (c', t')) ∧ (c'.d, c'.stack) = (runC (angPosOf σ ep ps) (angNegOf σ ep ps) (x :: l) (c.d, c.stack)).2 ∧
          Emits t0 t' ids ts' ∧ Flipped ps (ts ++ (runC (angPosOf σ ep ps) (angNegOf σ ep ps) (x :: l) (c.d, c.stack)).1) ts' := by
      intro c0 e1 e2
      simp only [Prod.mk.injEq] at e1
      obtain ⟨c1, t1, ts1, a1, a2, a3, a4, a5⟩ := add_run σ ps hn hlen ep (c := c0) ⟨by rw [e1.1, e1.2]; exact R.one, by rw [e1.1, e1.2]; exact R.two, by rw [e1.2]; exact R.lt, by rw [e1.1, e1.2]; exact R.towards, by rw [e1.2, e2]; exact R.table⟩
        (hlt x (by simp)) (by rw [e1.2]; exact hF)
      obtain ⟨c', t', ts', b1, b2, b3, b4⟩ := ih a3 (fun y hy => hlt y (List.mem_cons_of_mem _ hy)) a4
      rw [e1.1, e1.2] at a2 a5
      rw [a2] at b2 b4
      refine ⟨c1, t1, a1, c', t', ts', b1, b2, b3, ?_⟩
      have := (a5.append ps (runC (angPosOf σ ep ps) (angNegOf σ ep ps) l (stepC (angPosOf σ ep ps) (angNegOf σ ep ps) (c.d, c.stack) x).2).1).trans ps b4
      simpa [runC] using this
    obtain ⟨b, v⟩ := x
    cases b with
    | true =>
      obtain ⟨c1, t1, a1, c', t', ts', b1, b2⟩ := step { c with lastLeft := some v } rfl rfl
      refine ⟨c', t', ts', fun dbg => ?_, b2⟩
      have h1 : (delaunay σ ep dbg ps ids).left c v t = some (c1, t1) := a1 dbg
      simp only [feed, h1, Option.bind_eq_bind, Option.bind_some]
      exact b1 dbg
    | false =>
      obtain ⟨c1, t1, a1, c', t', ts', b1, b2⟩ := step { c with lastRight := some v } rfl rfl
      refine ⟨c', t', ts', fun dbg => ?_, b2⟩
      have h1 : (delaunay σ ep dbg ps ids).right c v t = some (c1, t1) := a1 dbg
      simp only [feed, h1, Option.bind_eq_bind, Option.bind_some]
      exact b1 dbg
end

end Verif.Geom
