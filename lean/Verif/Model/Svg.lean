import Verif.Model.PathBuilder
/-
Model of the import of an SVG document, /repo/src/extensions/svg/svg.rs:9-33 and 85-116.

* `usvg` parses the document; what arrives is a tree of groups, paths, texts and images.  The parser is not part of the model, and neither is the
  second attempt with an added root element (svg.rs:94-101).
* A path has its segments in its own coordinates and, as `abs_transform`, the map to the coordinates of the document (`usvg`).
-/
namespace Verif
variable {VP EP FP P : Type}

/-- `usvg::Node` -/
inductive SvgNode (P : Type) where
  | group (children : List (SvgNode P))
  | path (visible : Bool) (trans : P → P) (segs : List (Seg P))
  | text
  | image

mutual
/-- one child of a group; svg.rs:15-31 (a group: `import_group`, svg.rs:9-33; `todo!()` panics; invisible paths: svg.rs:41-43; the transformation is not
    used, svg.rs:48) -/
def importNode [DecidableEq P] (dbg : Bool) (K : Kit VP EP P) (df : FP) : Mesh VP EP FP → SvgNode P → Option (Mesh VP EP FP)
  | m, .group cs => importNodes dbg K df m cs
  | m, .path visible _ segs => if visible then importPath dbg K df m segs else some m
  | _, .text => none
  | _, .image => none
/-- the loop of `import_group` -/
def importNodes [DecidableEq P] (dbg : Bool) (K : Kit VP EP P) (df : FP) : Mesh VP EP FP → List (SvgNode P) → Option (Mesh VP EP FP)
  | m, [] => some m
  | m, n :: ns => do importNodes dbg K df (← importNode dbg K df m n) ns
end

/-- `import_svg` after parsing: the root is a group -/
def importSvg [DecidableEq P] (dbg : Bool) (K : Kit VP EP P) (df : FP) (m : Mesh VP EP FP) (root : List (SvgNode P)) : Option (Mesh VP EP FP) :=
  importNodes dbg K df m root

end Verif
