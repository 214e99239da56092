import Verif.Spec.Loft
/-
Solids: what a sequence of additions has added, in terms of vertices and faces only.
-/
namespace Verif

/-- a cyclic list, closed up -/
def cyc {α : Type} (l : List α) : List α := l ++ l.take 1

/-- a cyclic list in opposite direction, with the first two entries exchanged -/
def turn {α : Type} (l : List α) : List α := (l.take 2).reverse ++ (l.drop 2).reverse

/-- a cyclic list in opposite direction, beginning with the same entry -/
def ring {α : Type} (l : List α) : List α := l.take 1 ++ (l.drop 1).reverse

/-- the triangles of a fan around `v` -/
def fanFaces (U : List Nat) (v : Nat) : List (List Nat) := List.zipWith (fun a b => [a, b, v]) U (U.drop 1 ++ U.take 1)

namespace Mesh
variable {VP EP FP : Type}

/-- `m'` is `m` with material added to the boundary loop `hole` (`[]`: a new component), which is replaced by the boundary loop `bd` (`[]`: no boundary remains there):
    new vertices `vs` (with payloads) and new flat faces with the given cycles of vertices. -/
def Adds (m m' : Mesh VP EP FP) (de : EP) (df : FP) (hole bd : List Nat) (vs : List (Nat × VP)) (fl : List (List Nat)) : Prop :=
  ∃ es fs, Grow m m' de df hole bd vs es fs ∧ fs.map (fun p => p.2.map m'.topo.org) = fl

/-- `m'` is `m` with a new component added that consists of two boundary loops `A` and `B`: new vertices `vs` (with payloads) and new half-edges `es`. -/
structure TwoLoop (m m' : Mesh VP EP FP) (de : EP) (vs : List (Nat × VP)) (es A B : List Nat) : Prop where
  good : m'.Good
  freshV : ∀ p ∈ vs, m.vertex p.1 = none
  freshE : ∀ x ∈ es, m.edge x = none
  nodupV : (vs.map Prod.fst).Nodup
  nodupE : es.Nodup
  newV : ∀ p ∈ vs, m'.vpay p.1 = some p.2
  newE : ∀ x ∈ es, m'.epay x = some de
  loopA : Loop m'.topo A none
  loopB : Loop m'.topo B none
  disj : ∀ x ∈ A, x ∉ B
  cover : ∀ x, x ∈ es ↔ x ∈ A ∨ x ∈ B
  vertices : ∀ x, (∀ p ∈ vs, x ≠ p.1) → m'.vertex x = m.vertex x
  faces : ∀ x, m'.face x = m.face x
  edges : ∀ x, x ∉ es → m'.edge x = m.edge x

end Mesh
end Verif
