import Verif.Model.Svg
import Verif.Spec.TextMesh
/- What importing an SVG document should give. -/
namespace Verif
variable {P : Type}

/-- what stands in the document apart from groups -/
inductive SvgLeaf (P : Type) where
  | path (visible : Bool) (trans : P → P) (segs : List (Seg P))
  /-- a text or an image -/
  | other

mutual
/-- the leaves, in the order of the document -/
def SvgNode.leaves : SvgNode P → List (SvgLeaf P)
  | .group cs => SvgNode.leavesAll cs
  | .path b t s => [.path b t s]
  | .text => [.other]
  | .image => [.other]
def SvgNode.leavesAll : List (SvgNode P) → List (SvgLeaf P)
  | [] => []
  | n :: ns => n.leaves ++ SvgNode.leavesAll ns
end

/-- the segments trace the contour: they start with a `MoveTo`, return to the start with the last curve, and may end with a `Close` -/
def TracesLoop (segs : List (Seg P)) (c : Contour P) : Prop :=
  let l := Seg.moveTo c.start :: (c.strokes.map (fun x => x.1.seg x.2) ++ [c.last.seg c.start])
  segs = l ∨ segs = l ++ [.close]

/-- what a leaf should show: the contour in the coordinates of the document, or nothing if it is not visible -/
def SvgLeaf.Shows : SvgLeaf P → List (Contour P) → Prop
  | .path true t segs, cs => ∃ c, TracesLoop segs c ∧ cs = [c.map t]
  | .path false _ _, cs => cs = []
  | .other, _ => False

/-- the strokes of a path in reverse order, for a path of strokes `l` with a last stroke -/
def Contour.revGo : List (Stroke P × P) → Stroke P → List (Stroke P × P) × Stroke P
  | [], last => ([], last.reverse)
  | (s, r) :: l, last => ((revGo l last).1 ++ [((revGo l last).2, r)], s.reverse)

/-- the contour in the other direction -/
def Contour.reverse (c : Contour P) : Contour P := ⟨c.start, (revGo c.strokes c.last).1, (revGo c.strokes c.last).2⟩

end Verif
