import Verif.Spec.Mesh
/-
What it means to add material to a hole: specification of lofting and extruding.
-/
namespace Verif

/-- `l` lists the steps of the walk `x, f x, f (f x), …` that ends at `y` (which is not listed) -/
def Steps (f : Nat → Nat) : List Nat → Nat → Nat → Prop
  | [], x, y => x = y
  | a :: l, x, y => x = a ∧ Steps f l (f a) y

/-- the half-edges `l` form, in this order, a closed loop of the face `fo` (`none`: the boundary) -/
structure Loop (t : Topo) (l : List Nat) (fo : Option Nat) : Prop where
  nodup : l.Nodup
  live : ∀ e ∈ l, t.E e
  fac : ∀ e ∈ l, t.fac e = fo
  path : ∃ x, Steps t.nxt l x x

namespace Mesh
variable {VP EP FP : Type}

/-- `m'` is `m` with material added to the boundary loop `hole`: new vertices `vs` (with payloads), new half-edges `es`
    (with payload `de`) and new flat faces `fs` (with payload `df`, each with its loop of half-edges).  The boundary loop `hole` is replaced by the boundary
    loop `bd` (`[]`: it has been closed).  Everything else is unchanged. -/
structure Grow (m m' : Mesh VP EP FP) (de : EP) (df : FP) (hole bd : List Nat) (vs : List (Nat × VP)) (es : List Nat)
    (fs : List (Nat × List Nat)) : Prop where
  good : m'.Good
  freshV : ∀ p ∈ vs, m.vertex p.1 = none
  freshE : ∀ x ∈ es, m.edge x = none
  freshF : ∀ p ∈ fs, m.face p.1 = none
  nodupV : (vs.map Prod.fst).Nodup
  nodupE : es.Nodup
  nodupF : (fs.map Prod.fst).Nodup
  newV : ∀ p ∈ vs, m'.vpay p.1 = some p.2
  newE : ∀ x ∈ es, m'.epay x = some de
  newF : ∀ p ∈ fs, p.2 ≠ [] ∧ Loop m'.topo p.2 (some p.1) ∧ m'.fpay p.1 = some df ∧ m'.fcurved p.1 = some false
  loop : Loop m'.topo bd none
  cover : ∀ x, (x ∈ hole ∨ x ∈ es) ↔ (x ∈ bd ∨ ∃ p ∈ fs, x ∈ p.2)
  vertices : ∀ x, (∀ p ∈ vs, x ≠ p.1) → m'.vertex x = m.vertex x
  faces : ∀ x, (∀ p ∈ fs, x ≠ p.1) → m'.face x = m.face x
  edges : ∀ x, x ∉ hole → x ∉ es → m'.edge x = m.edge x
  old : ∀ x ∈ hole, m'.twinId x = m.twinId x ∧ m'.originId x = m.originId x ∧ m'.epay x = m.epay x

end Mesh
end Verif

namespace Verif

/-- The vertices of the faces of a hem: each face takes one vertex more than it advances from both rows.  `U` runs along the old boundary,
    `V` along the new one; face by face, `n` vertices of `V` are followed by `m` vertices of `U` in opposite direction (the first vertex of `U` is listed first). -/
def hemFaces (n m : Nat) : Nat → List Nat → List Nat → List (List Nat)
  | 0, _, _ => []
  | k + 1, U, V => (U.take 1 ++ V.take n ++ ((U.take m).drop 1).reverse) :: hemFaces n m k (U.drop (m - 1)) (V.drop (n - 1))

end Verif

namespace Verif

/-- The vertices of a strip of triangles between the rows `U` and `V`, alternating between the rows. -/
def triFaces : List Nat → List Nat → List (List Nat)
  | u0 :: u1 :: U, v0 :: v1 :: V => [u0, u1, v0] :: [u1, v1, v0] :: triFaces (u1 :: U) (v1 :: V)
  | _, _ => []

/-- the same for a strip along a row that is traversed backwards: `U` are the old vertices, `V` the new ones, the first triangle contains two old vertices -/
def backFaces : List Nat → List Nat → List (List Nat)
  | u0 :: u1 :: U, v0 :: v1 :: V => [u0, v0, u1] :: [u1, v0, v1] :: backFaces (u1 :: U) (v1 :: V)
  | _, _ => []

/-- the same with the other diagonals: the first triangle contains two new vertices -/
def shiftFaces : List Nat → List Nat → List (List Nat)
  | u0 :: u1 :: U, v0 :: v1 :: V => [u0, v0, v1] :: [u0, v1, u1] :: shiftFaces (u1 :: U) (v1 :: V)
  | _, _ => []

end Verif
