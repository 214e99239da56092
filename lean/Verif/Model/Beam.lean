import Verif.Model.SweepGeom
/-
IntervalBoundaryEdge::beam, /repo/src/tesselate/sweep/interval.rs:36-54. Exact arithmetic; an index out of range is `none`.
-/
namespace Verif.Geom
variable {K : Type} [Field K] [LinearOrder K]

/-- interval.rs:37-54 -/
def BEdge.beam (ps : List (P2 K)) (e : BEdge) : Option (Option (K × K × K)) := do
  let z ← ps[e.stop]?
  let s ← ps[e.start]?
  let dx := z.x - s.x
  let dy := z.y - s.y
  if dy = 0 then some none
  else
    let a := dx / dy
    let b := s.x - a * s.y
    some (some (a, b, s.y))

end Verif.Geom
