import Verif.Lemmas.NoGapsLoft
import Verif.Model.Subdivision
/-
Subdivision does not delete vertices either.
-/
namespace Verif.Mesh
variable {VP EP FP : Type} {m : Mesh VP EP FP} (g : m.NoGaps)
include g

theorem NoGaps.insertEdgeNoCheck (i : Nat) (ep1 : EP) (o : Nat) (ep2 : EP) : Post (m.insertEdgeNoCheck i ep1 o ep2) fun r => r.1.NoGaps :=
  Post.read fun _ => Post.read fun _ => Post.read fun _ => Post.read fun _ => Post.read fun _ => Post.read fun _ =>
    Post.bind (fun r => r.1.NoGaps) (g.insertEdgeNoUpdateNoCheck _ _ _ _ _ _ _ _ _ _) fun _ g => Post.bind NoGaps (g.updE _ _) fun _ g => Post.bind NoGaps (g.updE _ _) fun _ g =>
    Post.bind NoGaps (g.updE _ _) fun _ g => Post.bind NoGaps (g.updE _ _) fun _ g => .some g

theorem NoGaps.subdivideUnsafe (e : Nat) (vp : VP) (ep : EP) : Post (m.subdivideUnsafe e vp ep) fun r => r.1.NoGaps :=
  Post.read fun _ => Post.bind NoGaps (g.allocV.allocE.putE _ _) fun _ g => Post.bind NoGaps (g.putV _ _) fun _ g =>
    Post.bind NoGaps (g.updE _ _) fun _ g => Post.bind NoGaps (g.updE _ _) fun _ g => .some g

theorem NoGaps.subdivideUnsafeTryFixup (e : Nat) (ep : EP) : Post (m.subdivideUnsafeTryFixup e ep) fun r => r.1.NoGaps := by
  refine Post.read fun _ => Post.read fun _ => Post.read fun _ => Post.read fun r => ?_
  cases r with
  | none => exact .some g
  | some y => exact Post.read fun _ => Post.bind NoGaps (g.allocE.putE _ _) fun _ g => Post.bind NoGaps (g.updE _ _) fun _ g => Post.bind NoGaps (g.updE _ _) fun _ g => Post.bind NoGaps (g.updE _ _) fun _ g => Post.bind NoGaps (g.updE _ _) fun _ g => .some g

theorem NoGaps.splitEdge (de : EP) (interp : Interp VP EP FP) (e : Nat) (old : HE EP) (v0 v1 v2 : Nat) : Post (m.splitEdge de interp e old v0 v1 v2) NoGaps := by
  refine Post.bind (fun r => r.1.NoGaps) (g.subdivideUnsafeTryFixup e de) fun r g => ?_
  obtain ⟨m, r⟩ := r
  cases r with
  | some _ => exact .some g
  | none => exact Post.read fun _ => Post.read fun _ => Post.bind (fun r => r.1.NoGaps) (g.subdivideUnsafe _ _ _) fun _ g => .some g

theorem NoGaps.cutCorner (dbg : Bool) (de : EP) (fp : FP) (e : Nat) : Post (m.cutCorner dbg de fp e) NoGaps :=
  Post.read fun _ => Post.read fun _ => Post.bind (fun r => r.1.NoGaps) (g.insertEdgeNoCheck _ _ _ _) fun _ g => Post.bind (fun r => r.1.NoGaps) (g.closeHole dbg _ _ _) fun _ g => .some g

theorem NoGaps.subdivideFace (dbg : Bool) (de : EP) (interp : Interp VP EP FP) (f : Nat) : Post (subdivideFace dbg de interp m f) NoGaps := by
  refine Post.read fun l => ?_
  match l with
  | [a, b, c] =>
    exact Post.read fun _ => Post.read fun _ => Post.read fun _ => Post.bind NoGaps (g.splitEdge _ _ _ _ _ _ _) fun _ g => Post.bind NoGaps (g.splitEdge _ _ _ _ _ _ _) fun _ g => Post.bind NoGaps (g.splitEdge _ _ _ _ _ _ _) fun _ g =>
      Post.bind (fun r => r.1.NoGaps) (g.removeFace dbg _) fun _ g => Post.bind NoGaps (g.cutCorner _ _ _ _) fun _ g => Post.bind NoGaps (g.cutCorner _ _ _ _) fun _ g => Post.bind NoGaps (g.cutCorner _ _ _ _) fun _ g =>
      Post.read fun _ => Post.read fun _ => Post.bind (fun r => r.1.NoGaps) (g.closeHole dbg _ _ _) fun _ g => .some g
  | [] => exact .none
  | [_] => exact .none
  | [_, _] => exact .none
  | _ :: _ :: _ :: _ :: _ => exact .none

omit g in
theorem NoGaps.subdivideFaces (dbg : Bool) (de : EP) (interp : Interp VP EP FP) : ∀ (fs : List Nat) {m : Mesh VP EP FP}, m.NoGaps → Post (subdivideFaces dbg de interp fs m) NoGaps
  | [], _, g => .some g
  | _ :: fs, _, g => Post.bind NoGaps (g.subdivideFace dbg de interp _) fun _ g => NoGaps.subdivideFaces dbg de interp fs g

omit g in
theorem NoGaps.frequencyLoop {step : Mesh VP EP FP → Option (Mesh VP EP FP)} (h : ∀ m : Mesh VP EP FP, m.NoGaps → Post (step m) NoGaps) : ∀ (k b : Nat) {m : Mesh VP EP FP}, m.NoGaps → Post (frequencyLoop step k b m) NoGaps
  | 0, _, _, _ => .none
  | k + 1, _, m, g => Post.ite (.some g) (Post.bind NoGaps (h m g) fun _ g => Post.ite (NoGaps.frequencyLoop h k _ g) .none)

theorem NoGaps.subdivisionFrequency (dbg : Bool) (de : EP) (interp : Interp VP EP FP) (b c : Nat) : Post (subdivisionFrequency dbg de interp m b c) NoGaps :=
  Post.ite .none (Post.bind NoGaps (NoGaps.frequencyLoop (fun _ g => NoGaps.subdivideFaces dbg de interp _ g) _ _ g) fun _ g => Post.read fun _ => .some g)

end Verif.Mesh
