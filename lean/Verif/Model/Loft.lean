import Verif.Model.Check
import Verif.Model.Builder
/-
Model of lofting and extruding, /repo/src/operations/loft.rs and /repo/src/operations/extrude.rs (`fill_hole_apex` is in Model/Builder.lean).

The default payloads are parameters `de`, `df`; the iterator of vertex payloads is a list. `nm` is the parameter `m` of the source. The loops consume at least one element of the list in every
round, so the length of the list is enough fuel.
-/
namespace Verif.Mesh
variable {VP EP FP : Type}

/-- loop of `loft_tri_back`, loft.rs:46-66 -/
def triBackLoop (dbg : Bool) (de : EP) (df : FP) (shift : Bool) : List VP → Mesh VP EP FP → Nat → Bool → Nat → Option (Mesh VP EP FP × Nat)
  | [], m, _, _, ret => some (m, ret)
  | p :: ps, m, input, first, ret => do
    let output ← m.nextId input
    let (m, _, _, _) ← m.addVertexViaEdge dbg input output p de de
    let inputNext ← m.nextId input
    let input ← m.prevId input
    let (m, ret) ← (if !first then do
        let (m, _, _, _) ← m.closeFace dbg output de inputNext de df false
        some (m, ret)
      else do
        let ret ← m.prevId output
        some (m, ret))
    let m ← (if !ps.isEmpty || shift then do
        let (m, _, _, _) ← m.closeFace dbg inputNext de input de df false
        some m
      else some m)
    triBackLoop dbg de df shift ps m input false ret

/-- loft.rs:22-69 -/
def loftTriBack (dbg : Bool) (m : Mesh VP EP FP) (de : EP) (df : FP) (start : Nat) (shift : Bool) (ps : List VP) : Option (Mesh VP EP FP × Nat) :=
  match shift, ps with
  | true, p :: ps => do
    let output ← m.nextId start
    let (m, _, _, _) ← m.addVertexViaEdge dbg start output p de de
    let ret ← m.prevId output
    triBackLoop dbg de df true ps m start false ret
  | _, ps => triBackLoop dbg de df shift ps m start true start

/-- loft.rs:72-78 -/
def loftTriBackClosed (dbg : Bool) (m : Mesh VP EP FP) (de : EP) (df : FP) (start : Nat) (ps : List VP) : Option (Mesh VP EP FP × Nat) := do
  let (m, e) ← m.loftTriBack dbg de df start false ps
  let outside ← m.prevId e
  let n ← m.nextId e
  let inside ← m.nextId n
  let (m, _, _, _) ← m.closeFace dbg inside de e de df false
  let n ← m.nextId e
  let (m, _, _, _) ← m.closeFace dbg n de outside de df false
  some (m, e)

/-- loop of `loft_tri`, loft.rs:112-141 -/
def triLoop (dbg : Bool) (de : EP) (df : FP) (shift : Bool) : List VP → Mesh VP EP FP → Nat → Bool → Nat → Option (Mesh VP EP FP × Nat)
  | [], m, _, _, ret => some (m, ret)
  | p :: ps, m, output, first, ret => do
    let input ← m.prevId output
    let (m, _, _, _) ← m.addVertexViaEdge dbg input output p de de
    let (m, ret) ← (if !first then do
        let n ← m.nextId input
        let q ← m.prevId input
        let (m, _, _, _) ← m.closeFace dbg n de q de df false
        some (m, ret)
      else do
        let ret ← m.prevId output
        some (m, ret))
    let newOutput ← m.nextId output
    let m ← (if !ps.isEmpty || shift then do
        let q ← m.prevId output
        let q ← m.prevId q
        let (m, _, _, _) ← m.closeFace dbg output de q de df false
        some m
      else some m)
    triLoop dbg de df shift ps m newOutput false ret

/-- loft.rs:91-144 -/
def loftTri (dbg : Bool) (m : Mesh VP EP FP) (de : EP) (df : FP) (start : Nat) (shift : Bool) (ps : List VP) : Option (Mesh VP EP FP × Nat) :=
  match shift, ps with
  | true, p :: ps => do
    let input ← m.prevId start
    let (m, _, _, _) ← m.addVertexViaEdge dbg input start p de de
    let ret ← m.prevId start
    triLoop dbg de df true ps m start false ret
  | _, ps => triLoop dbg de df shift ps m start true start

/-- loft.rs:148-155 -/
def loftTriClosed (dbg : Bool) (m : Mesh VP EP FP) (de : EP) (df : FP) (start : Nat) (ps : List VP) : Option (Mesh VP EP FP × Nat) := do
  let (m, e) ← m.loftTri dbg de df start false ps
  let t ← m.twinId e
  let inside ← m.prevId t
  let q ← m.prevId inside
  let outside ← m.prevId q
  let (m, _, _, _) ← m.closeFace dbg inside de outside de df false
  let t ← m.twinId e
  let (m, _, _, _) ← m.closeFace dbg t de outside de df false
  let n ← m.nextId outside
  let n ← m.nextId n
  some (m, n)

/-- `prev_id` applied `k` times, loft.rs:207-209 -/
def backBy (m : Mesh VP EP FP) : Nat → Nat → Option Nat
  | 0, e => some e
  | k + 1, e => do
    let q ← m.prevId e
    m.backBy k q

/-- inner loop of `loft_polygon_back`, loft.rs:193-205; the result also holds the rest of the payloads, or `none` if they were used up -/
def chainLoop (dbg : Bool) (de : EP) (start : Nat) : Nat → Mesh VP EP FP → Nat → Nat → List VP → Option (Mesh VP EP FP × Nat × Nat × Option (List VP))
  | 0, m, inside, ret, ps => some (m, inside, ret, some ps)
  | _ + 1, m, inside, ret, [] => some (m, inside, ret, none)
  | k + 1, m, inside, ret, p :: ps => do
    let n ← m.nextId inside
    let (m, _, e1, _) ← m.addVertexViaEdge dbg inside n p de de
    let ret ← (if ret = start then m.twinId e1 else some ret)
    chainLoop dbg de start k m e1 ret ps

/-- loop of `loft_polygon_back`, loft.rs:189-226 -/
def polyBackLoop (dbg : Bool) (de : EP) (df : FP) (n nm start startVertex : Nat) : Nat → Mesh VP EP FP → Nat → Nat → List VP → Option (Mesh VP EP FP × Nat)
  | 0, _, _, _, _ => none
  | k + 1, m, input, ret, ps => do
    let input ← m.prevId input
    let x ← m.nextId input
    let inside ← m.nextId x
    let (m, inside, ret, rest) ← chainLoop dbg de start (n - 2) m inside ret ps
    match rest with
    | none => some (m, ret)
    | some ps => do
      let input ← m.backBy (nm - 2) input
      match ps with
      | [] => do
        let t ← m.targetId input
        if startVertex = t then do
          let q ← m.prevId input
          let (m, _, _, _) ← m.closeFace dbg inside de q de df false
          some (m, ret)
        else some (m, ret)
      | p :: ps => do
        let x ← m.nextId input
        let (m, _, _, _) ← m.addVertexViaEdge dbg input x p de de
        let x ← m.nextId input
        let (m, _, _, _) ← m.closeFace dbg inside de x de df false
        let ret ← (if ret = start then do
            let x ← m.nextId inside
            m.twinId x
          else some ret)
        polyBackLoop dbg de df n nm start startVertex k m input ret ps

/-- loft.rs:169-228 -/
def loftPolygonBack (dbg : Bool) (m : Mesh VP EP FP) (de : EP) (df : FP) (start n nm : Nat) (ps : List VP) : Option (Mesh VP EP FP × Nat) :=
  if n < 2 ∨ nm < 2 then none else do
    let v ← m.targetId start
    match ps with
    | [] => polyBackLoop dbg de df n nm start v 1 m start start []
    | p :: ps => do
      let x ← m.nextId start
      let (m, _, _, _) ← m.addVertexViaEdge dbg start x p de de
      polyBackLoop dbg de df n nm start v (ps.length + 1) m start start ps

/-- loop of `loft_polygon`, loft.rs:260-314; the source asserts `n == 2` and `m == 2` in the loop, so that its inner loops are empty -/
def polyLoop (dbg : Bool) (de : EP) (df : FP) (start startVertex : Nat) : List VP → Mesh VP EP FP → Nat → Nat → Option (Mesh VP EP FP × Nat)
  | [], m, input, ret => do
    let input ← m.nextId input
    let x ← m.prevId input
    let inside ← m.prevId x
    let o ← m.originId input
    if startVertex = o then do
      let q ← m.prevId inside
      let (m, _, _, _) ← m.closeFace dbg input de q de df false
      some (m, ret)
    else some (m, ret)
  | p :: ps, m, input, ret => do
    let input ← m.nextId input
    let x ← m.prevId input
    let inside ← m.prevId x
    let x ← m.prevId input
    let (m, _, _, _) ← m.addVertexViaEdge dbg x input p de de
    let x ← m.prevId input
    let x ← m.twinId x
    let q ← m.prevId inside
    let (m, _, _, _) ← m.closeFace dbg x de q de df false
    let ret ← (if ret = start then do
        let x ← m.prevId inside
        m.twinId x
      else some ret)
    polyLoop dbg de df start startVertex ps m input ret

/-- loft.rs:242-316 -/
def loftPolygon (dbg : Bool) (m : Mesh VP EP FP) (de : EP) (df : FP) (start n nm : Nat) (ps : List VP) : Option (Mesh VP EP FP × Nat) :=
  if n ≠ 2 ∨ nm ≠ 2 then none else do
    let v ← m.originId start
    match ps with
    | [] => polyLoop dbg de df start v [] m start start
    | p :: ps => do
      let x ← m.prevId start
      let (m, _, _, _) ← m.addVertexViaEdge dbg x start p de de
      polyLoop dbg de df start v ps m start start

/-- payloads of the origins of a list of half-edges -/
def originPays (m : Mesh VP EP FP) (l : List Nat) : Option (List VP) :=
  l.mapM fun e => do
    let v ← m.originId e
    let x ← m.vertex v
    some x.payload

/-- extrude.rs:37-53; `tr` is the transformation of a vertex payload -/
def extrude (dbg : Bool) (m : Mesh VP EP FP) (de : EP) (df : FP) (tr : VP → VP) (e : Nat) : Option (Mesh VP EP FP × Nat) := do
  if ← m.isBoundarySelf e then do
    let n ← m.nextId e
    let l ← m.edgesFaceBack n
    let ps ← m.originPays l
    let (m, start) ← m.loftPolygonBack dbg de df e 2 2 (ps.map tr)
    let (m, _) ← m.closeHole dbg start df false
    some (m, start)
  else none

/-- extrude.rs:56-64 -/
def extrudeFace (dbg : Bool) (m : Mesh VP EP FP) (de : EP) (df : FP) (tr : VP → VP) (f : Nat) : Option (Mesh VP EP FP × Nat) := do
  let x ← m.face f
  let (m, _) ← m.removeFace dbg f
  m.extrude dbg de df tr x.edge

/-- extrude.rs:81-96 -/
def extrudeTri (dbg : Bool) (m : Mesh VP EP FP) (de : EP) (df : FP) (tr : VP → VP) (e : Nat) : Option (Mesh VP EP FP × Nat) := do
  if ← m.isBoundarySelf e then do
    let n ← m.nextId e
    let l ← m.edgesFace n
    let ps ← m.originPays l
    let (m, start) ← m.loftTriClosed dbg de df e (ps.map tr)
    let (m, _) ← m.closeHole dbg start df false
    some (m, start)
  else none

/-- extrude.rs:67-75 -/
def extrudeTriFace (dbg : Bool) (m : Mesh VP EP FP) (de : EP) (df : FP) (tr : VP → VP) (f : Nat) : Option (Mesh VP EP FP × Nat) := do
  let x ← m.face f
  let (m, _) ← m.removeFace dbg f
  m.extrudeTri dbg de df tr x.edge

/-- `circular_tuple_windows` of pairs followed by `rotate_right(1)`, extrude.rs:112-118: the pairs (last, first), (first, second), … -/
def windows (mid : VP → VP → VP) (l : List VP) : List VP :=
  match l, l.getLast? with
  | x :: xs, some z => List.zipWith mid (z :: x :: xs).dropLast (x :: xs)
  | _, _ => []

/-- extrude.rs:102-122; `mid a b` is `a.lerped(&b, 1/2)` -/
def extrudeTri2 (dbg : Bool) (m : Mesh VP EP FP) (de : EP) (df : FP) (tr : VP → VP) (mid : VP → VP → VP) (e : Nat) : Option (Mesh VP EP FP × Nat) := do
  if ← m.isBoundarySelf e then do
    let n ← m.nextId e
    let l ← m.edgesFace n
    let ps ← m.originPays l
    let (m, start) ← m.loftTriClosed dbg de df e (windows mid (ps.map tr))
    let (m, _) ← m.closeHole dbg start df false
    some (m, start)
  else none

/-- extrude.rs:19-33: the loop over the faces -/
def extrudeFaces (dbg : Bool) (de : EP) (df : FP) (tr : VP → VP) : List Nat → Mesh VP EP FP → Option (Mesh VP EP FP)
  | [], m => some m
  | f :: fs, m => do
    let x ← m.face f
    let _ ← m.edge x.edge
    let e ← m.twinId x.edge
    if ← m.isBoundarySelf e then do
      let (m, _) ← m.extrude dbg de df tr e
      extrudeFaces dbg de df tr fs m
    else extrudeFaces dbg de df tr fs m

/-- extrude.rs:19-33 -/
def extrudeBoundary (dbg : Bool) (m : Mesh VP EP FP) (de : EP) (df : FP) (tr : VP → VP) : Option (Mesh VP EP FP) :=
  extrudeFaces dbg de df tr m.faceIds m

end Verif.Mesh
