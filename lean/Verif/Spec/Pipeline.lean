import Verif.Spec.Export
/-
What the export of a single polygon should show.
-/
namespace Verif.R3
open Geom
variable {VP : Type}

/-- the polygon in the other direction, from the same point -/
def turned {A : Type} : List A → List A
  | [] => []
  | a :: l => a :: l.reverse

/-- The buffers show the polygon `ps`, in the opposite direction: the vertex buffer consists of the given points in the given order, and the index buffer of triangles that tile the polygon. -/
def Draws (pos : VP → V3) (ps : List VP) (idx : List Nat) (buf : List VP) : Prop :=
  buf = ps ∧ ∃ ts l, Tiles ((turned ps).map pos) ts ∧ fetch buf idx = some l ∧ (Triangulation.flat ts).mapM (fun i => (turned ps)[i]?) = some l

end Verif.R3
