import Verif.Model.Triangulation
/-
Triangulation of faces: fan (/repo/src/tesselate/convex.rs), quadrilaterals (/repo/src/tesselate/fixed_n.rs) and
ear clipping (/repo/src/tesselate/ear_clipping.rs).

Faces are lists of vertices, with their positions in the plane where needed. The debug assertions about planarity, convexity and simplicity of the
face at the start of the functions are left out.
-/
namespace Verif.Geom
variable {K : Type} [Field K] [LinearOrder K]

/-- itertools' tuple_windows for pairs -/
def windows2 {A : Type} : List A → List (A × A)
  | [] => []
  | a :: l => match l with
    | [] => []
    | b :: _ => (a, b) :: windows2 l

/-- fan_triangulation, /repo/src/tesselate/convex.rs:5-18; the unwrap panics if there are no vertices -/
def fan (t : Triangulation) (ids : List Nat) : Option Triangulation := do
  let center ← ids.head?
  some ((windows2 (ids.drop 1)).foldl (fun t p => t.insertTriangle center p.1 p.2) t)

/-- distance_squared -/
def distSq (a b : P2 K) : K := (a.x - b.x) * (a.x - b.x) + (a.y - b.y) * (a.y - b.y)

/-- min_weight_quad, /repo/src/tesselate/fixed_n.rs:59-96 -/
def minWeightQuad (σ : Sgn K) (vs : List (P2 K × Nat)) (t : Triangulation) : Option Triangulation :=
  match vs with
  | [v0, v1, v2, v3] =>
    let w02 := distSq v0.1 v2.1
    let w13 := distSq v1.1 v3.1
    if w02 ≤ w13 then
      if convex σ v1.1 v2.1 v0.1 && convex σ v3.1 v0.1 v2.1 then
        some ((t.insertTriangle v0.2 v1.2 v2.2).insertTriangle v0.2 v2.2 v3.2)
      else
        some ((t.insertTriangle v1.2 v2.2 v3.2).insertTriangle v1.2 v3.2 v0.2)
    else
      if convex σ v0.1 v3.1 v1.1 && convex σ v2.1 v1.1 v3.1 then
        some ((t.insertTriangle v1.2 v2.2 v3.2).insertTriangle v1.2 v3.2 v0.2)
      else
        some ((t.insertTriangle v0.2 v1.2 v2.2).insertTriangle v0.2 v2.2 v3.2)
  | _ => none

/-- try_min_weight_small_direct, /repo/src/tesselate/fixed_n.rs:36-56 -/
def tryMinWeightSmall (σ : Sgn K) (vs : List (P2 K × Nat)) (t : Triangulation) : Option (Triangulation × Bool) :=
  match vs with
  | [v0, v1, v2] => some (t.insertTriangle v0.2 v1.2 v2.2, true)
  | [_, _, _, _] => (minWeightQuad σ vs t).map fun t => (t, true)
  | _ => some (t, false)

/-- result of a computation that may panic or never end -/
inductive Outcome (A : Type)
  | done (a : A)
  | panic
  | hang
deriving DecidableEq

namespace Outcome
def bind {A B : Type} : Outcome A → (A → Outcome B) → Outcome B
  | done a, f => f a
  | panic, _ => panic
  | hang, _ => hang
instance : Monad Outcome where
  pure := done
  bind := bind
def ofOption {A : Type} : Option A → Outcome A
  | some a => done a
  | none => panic
end Outcome

/-- state of the loop of ear_clipping_direct; `draws` counts the random numbers used -/
structure EarState where
  tri : Triangulation
  clipped : List Bool
  ia : Nat
  n : Nat
  fails : Nat
  succ : Nat
  draws : Nat
deriving DecidableEq

/-- `while clipped[i] { i = (i + 1) % n0 }`, lines 55-57, 59-61, 93-95 -/
def nextLive (clipped : List Bool) (n0 : Nat) : Nat → Nat → Outcome Nat
  | 0, _ => .hang
  | f + 1, i => match clipped[i]? with
    | none => .panic
    | some true => nextLive clipped n0 f ((i + 1) % n0)
    | some false => .done i

/-- triangle_empty, lines 34-41 -/
def triangleEmpty (σ : Sgn K) (vs : List (P2 K × Nat)) (a b c : Nat) (av bv cv : P2 K) : Bool :=
  vs.zipIdx.all fun p => p.2 == a || p.2 == b || p.2 == c || !isInsideTriangle σ p.1.1 av bv cv

/-- one round of the loop of ear_clipping_direct, lines 53-97. `rnd` is the source of random numbers if `randomize` is set. -/
def earStep (dbg : Bool) (σ : Sgn K) (eps : K) (rnd : Option (Nat → Nat)) (vs : List (P2 K × Nat)) (s : EarState) : Outcome EarState := do
  let n0 := vs.length
  let ib ← nextLive s.clipped n0 n0 ((s.ia + 1) % n0)
  let ic ← nextLive s.clipped n0 n0 ((ib + 1) % n0)
  if dbg && (s.ia == ib || ib == ic || ic == s.ia) then .panic
  else
    let a ← Outcome.ofOption vs[s.ia]?
    let b ← Outcome.ofOption vs[ib]?
    let c ← Outcome.ofOption vs[ic]?
    let rejected := !convex σ b.1 a.1 c.1 || !triangleEmpty σ vs s.ia ib ic a.1 b.1 c.1 || (decide (s.succ ≥ 2) && collinear σ b.1 a.1 c.1 eps)
    if rejected && decide (s.fails + 1 ≤ s.n) then .done { s with fails := s.fails + 1, ia := ib }
    else if rejected && decide (s.succ < 2) then .panic
    else
      let succ := if rejected then 0 else s.succ
      let clipped := s.clipped.set ib true
      let s := { s with tri := s.tri.insertTriangle a.2 c.2 b.2, clipped := clipped, n := s.n - 1, fails := 0, succ := succ + 1 }
      match rnd with
      | none => .done s
      | some f => do
        let ia ← nextLive clipped n0 n0 (f s.draws % n0)
        .done { s with ia := ia, draws := s.draws + 1 }

def earLoop (dbg : Bool) (σ : Sgn K) (eps : K) (rnd : Option (Nat → Nat)) (vs : List (P2 K × Nat)) : Nat → EarState → Outcome Triangulation
  | 0, s => if s.n > 2 then .hang else .done s.tri
  | f + 1, s => if s.n > 2 then do earLoop dbg σ eps rnd vs f (← earStep dbg σ eps rnd vs s) else .done s.tri

/-- ear_clipping_direct, lines 27-98; the loop is cut off after `fuel` rounds -/
def earClipping (dbg : Bool) (σ : Sgn K) (eps : K) (rnd : Option (Nat → Nat)) (vs : List (P2 K × Nat)) (t : Triangulation) (fuel : Nat) : Outcome Triangulation :=
  if vs.length < 3 then .done t
  else earLoop dbg σ eps rnd vs fuel
    { tri := t, clipped := List.replicate vs.length false, ia := match rnd with | none => 0 | some f => f 0 % vs.length,
      n := vs.length, fails := 0, succ := 0, draws := 1 }

end Verif.Geom
