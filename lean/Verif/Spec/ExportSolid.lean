import Verif.Spec.Export
/-
What the buffers of an exported solid enclose.
-/
namespace Verif.R3
variable {VP : Type}

/-- the signed volume enclosed by the triangles of an index and a vertex buffer -/
noncomputable def shownVolume (pos : VP → V3) (idx : List Nat) (ps : List VP) : ℝ :=
  volume ((triples ((fetch ps idx).getD [])).map fun t => [pos t.1, pos t.2.1, pos t.2.2])

/-- The buffers are a closed surface, that is every side of a triangle is the reverse of a side of another triangle, which encloses the volume `v`. -/
structure Encloses (pos : VP → V3) (idx : List Nat) (ps : List VP) (v : ℝ) : Prop where
  closed : Geom.Cancels ((triples idx).flatMap Geom.triSides)
  fetched : ∃ l, fetch ps idx = some l
  volume : shownVolume pos idx ps = v

end Verif.R3
