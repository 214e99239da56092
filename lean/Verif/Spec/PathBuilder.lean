import Verif.Model.PathBuilder
/- Client programs of the path builder: paths as lists of strokes. -/
namespace Verif
variable {VP EP FP P : Type}

/-- A stroke of a path, without its end point. -/
inductive Stroke (P : Type) where
  | line
  | quad (c : P)
  | cubic (c1 c2 : P)

namespace Stroke

/-- the payload the stroke's half-edge should carry -/
def pay (K : Kit VP EP P) : Stroke P → EP
  | line => K.de
  | quad c => K.quad c K.de
  | cubic c1 c2 => K.cubic c1 c2 K.de

/-- draw the stroke to a new vertex at a position -/
def toPos (dbg : Bool) (K : Kit VP EP P) (B : PathBuilder VP EP FP) : Stroke P → P → Option (PathBuilder VP EP FP)
  | line, p => B.line dbg K p
  | quad c, p => B.quad dbg K c p
  | cubic c1 c2, p => B.cubic dbg K c1 c2 p

/-- draw the stroke to an existing vertex -/
def toVertex (dbg : Bool) (K : Kit VP EP P) (B : PathBuilder VP EP FP) : Stroke P → Nat → Option (PathBuilder VP EP FP)
  | line, v => B.lineTo dbg K v
  | quad c, v => B.quadTo dbg K c v
  | cubic c1 c2, v => B.cubicTo dbg K c1 c2 v

/-- the stroke as a segment of an SVG path -/
def seg : Stroke P → P → Seg P
  | line, p => .lineTo p
  | quad c, p => .quadTo c p
  | cubic c1 c2, p => .cubicTo c1 c2 p

/-- draw strokes to new vertices -/
def draw (dbg : Bool) (K : Kit VP EP P) : PathBuilder VP EP FP → List (Stroke P × P) → Option (PathBuilder VP EP FP)
  | B, [] => some B
  | B, (s, p) :: l => do draw dbg K (← s.toPos dbg K B p) l

end Stroke

/-- the payloads of the strokes -/
def strokePays (K : Kit VP EP P) (l : List (Stroke P)) (i : Nat) : EP := (l[i]?).elim K.de (Stroke.pay K)

/-- the payloads of the vertices -/
def pointPays (K : Kit VP EP P) (l : List P) (i : Nat) : Option VP := (l[i]?).map K.fromPos

/-- Start at `p0`, draw strokes to new vertices, one stroke back to the start, and fill. -/
def drawPolygon (dbg : Bool) (K : Kit VP EP P) (m : Mesh VP EP FP) (p0 : P) (l : List (Stroke P × P)) (last : Stroke P) (fp : FP) :
    Option (PathBuilder VP EP FP × Option Nat) := do
  let B ← PathBuilder.start K m p0
  let B ← Stroke.draw dbg K B l
  let B ← last.toVertex dbg K B (← B.startV)
  B.close dbg K fp

/-- Start at `p0`, draw strokes to new vertices, and close. -/
def drawOpen (dbg : Bool) (K : Kit VP EP P) (m : Mesh VP EP FP) (p0 : P) (l : List (Stroke P × P)) (fp : FP) :
    Option (PathBuilder VP EP FP × Option Nat) := do
  let B ← PathBuilder.start K m p0
  let B ← Stroke.draw dbg K B l
  B.close dbg K fp

end Verif
