import Verif.Model.Mesh
/- A run that passes all debug assertions gives the same result in a release build. -/
namespace Verif
variable {α β : Type}

/-- `b` agrees with every successful run of `a`. -/
structure Le (a b : Option α) : Prop where
  h : ∀ r, a = some r → b = some r

theorem Le.refl (a : Option α) : Le a a := ⟨fun _ h => h⟩
theorem Le.bind {a b : Option α} {f g : α → Option β} (h : Le a b) (k : ∀ x, Le (f x) (g x)) : Le (a >>= f) (b >>= g) := by
  refine ⟨fun r hr => ?_⟩
  cases ha : a with
  | none => simp [ha] at hr
  | some x =>
    rw [h.h x ha]
    simp [ha] at hr ⊢
    exact (k x).h r hr
theorem Le.bind' {a b : Option α} {f g : α → Option β} (h : Le a b) (k : ∀ x, Le (f x) (g x)) : Le (a.bind f) (b.bind g) := h.bind k
theorem Le.dassert (c d : Bool) : Le (dassert true c) (dassert false d) := by
  refine ⟨fun r _ => ?_⟩; cases r; simp [Verif.dassert]
theorem Le.dassertM (c d : Option Bool) : Le (dassertM true c) (dassertM false d) := by
  refine ⟨fun r _ => ?_⟩; cases r; simp [Verif.dassertM]
theorem Le.map {a b : Option α} (f : α → β) (h : Le a b) : Le (a.map f) (b.map f) := by
  refine ⟨fun r hr => ?_⟩
  cases ha : a with
  | none => simp [ha] at hr
  | some x => rw [h.h x ha]; simp [ha] at hr ⊢; exact hr
theorem Le.ite {c : Prop} [Decidable c] {a b a' b' : Option α} (h : Le a a') (k : Le b b') :
    Le (if c then a else b) (if c then a' else b') := by
  split <;> assumption

namespace Mesh
variable {VP EP FP : Type} (m : Mesh VP EP FP)

macro "le" : tactic => `(tactic| repeat' (first
  | exact Le.refl _ | exact Le.dassert _ _ | exact Le.dassertM _ _ | assumption | refine Le.bind ?_ ?_ | refine Le.bind' ?_ ?_
  | refine Le.map _ ?_ | refine Le.ite ?_ ?_ | intro _))

theorem rot_le (a e : Nat) : Le (m.rot true a e) (m.rot false a e) := by unfold rot; le

theorem walk_le {s s' : Nat → Option Nat} (h : ∀ x, Le (s x) (s' x)) (a : Nat) : ∀ k c, Le (walk s a k c) (walk s' a k c) := by
  intro k
  induction k with
  | zero => intro c; exact Le.refl _
  | succ k ih => intro c; unfold walk; have := h c; have := ih; le; exact ih _

theorem walkFind_le {s s' : Nat → Option Nat} (h : ∀ x, Le (s x) (s' x)) (p : Nat → Option Bool) (a : Nat) :
    ∀ k c, Le (walkFind s p a k c) (walkFind s' p a k c) := by
  intro k
  induction k with
  | zero => intro c; exact Le.refl _
  | succ k ih => intro c; unfold walkFind; have := h c; have := ih; le; exact ih _

theorem edgesOut_le (v : Nat) : Le (m.edgesOut true v) (m.edgesOut false v) := by
  unfold edgesOut; le; split
  · le
  · have := walk_le (m.rot_le ‹_›) ‹_› m.fuel ‹_›; le

theorem edgesOutFind_le (v : Nat) (p : Nat → Option Bool) : Le (m.edgesOutFind true v p) (m.edgesOutFind false v p) := by
  unfold edgesOutFind; le; split
  · le
  · have := walkFind_le (m.rot_le ‹_›) p ‹_› m.fuel ‹_›; le

theorem sharedEdge_le (v w : Nat) : Le (m.sharedEdge true v w) (m.sharedEdge false v w) := m.edgesOutFind_le _ _

theorem outgoingBoundaryEdge_le (v : Nat) : Le (m.outgoingBoundaryEdge true v) (m.outgoingBoundaryEdge false v) := by
  unfold outgoingBoundaryEdge
  refine Le.bind (Le.dassertM _ _) (fun _ => m.edgesOutFind_le _ _)

theorem ingoingBoundaryEdge_le (v : Nat) : Le (m.ingoingBoundaryEdge true v) (m.ingoingBoundaryEdge false v) := by
  unfold ingoingBoundaryEdge
  refine Le.bind (Le.dassertM _ _) (fun _ => Le.bind (m.edgesOutFind_le _ _) (fun r => ?_))
  split <;> le

theorem setFace_le (e : Nat) (f : Option Nat) : Le (m.setFace true e f) (m.setFace false e f) := by unfold setFace; le
theorem deleteFace_le (e : Nat) : Le (m.deleteFace true e) (m.deleteFace false e) := by unfold deleteFace; le

theorem insertEdgeNoUpdate_le (n1 p1 o1 : Nat) (f1 : Option Nat) (ep1 : EP) (n2 p2 o2 : Nat) (f2 : Option Nat) (ep2 : EP) :
    Le (m.insertEdgeNoUpdate true n1 p1 o1 f1 ep1 n2 p2 o2 f2 ep2) (m.insertEdgeNoUpdate false n1 p1 o1 f1 ep1 n2 p2 o2 f2 ep2) := by
  unfold insertEdgeNoUpdate; le

theorem addVertexViaEdge_le (i o : Nat) (vp : VP) (ep1 ep2 : EP) :
    Le (m.addVertexViaEdge true i o vp ep1 ep2) (m.addVertexViaEdge false i o vp ep1 ep2) := by
  unfold addVertexViaEdge; le

theorem addVertexViaVertex_le (v : Nat) (vp : VP) (ep1 ep2 : EP) :
    Le (m.addVertexViaVertex true v vp ep1 ep2) (m.addVertexViaVertex false v vp ep1 ep2) := by
  unfold addVertexViaVertex
  refine Le.bind ?_ ?_
  · have := m.edgesOutFind_le v m.isBoundarySelf; le
  · intro x; refine Le.bind (Le.dassertM _ _) fun _ => Le.bind (Le.dassertM _ _) fun _ => m.addVertexViaEdge_le _ _ _ _ _

theorem inserter_le (b : Bool) (v : Nat) : Le (m.inserter true b v) (m.inserter false b v) := by
  unfold inserter
  have := m.ingoingBoundaryEdge_le v
  have := m.outgoingBoundaryEdge_le v
  le
  split <;> le

theorem insertEdgeBetween_le (a : Nat) (ep0 : EP) (b : Nat) (ep1 : EP) :
    Le (m.insertEdgeBetween true a ep0 b ep1) (m.insertEdgeBetween false a ep0 b ep1) := by
  unfold insertEdgeBetween
  have := m.inserter_le false a
  have := m.inserter_le true a
  have := m.inserter_le false b
  have := m.inserter_le true b
  le

theorem insertEdge_le (a : Nat) (ep0 : EP) (b : Nat) (ep1 : EP) :
    Le (m.insertEdge true a ep0 b ep1) (m.insertEdge false a ep0 b ep1) := by
  have := @insertEdgeNoUpdate_le VP EP FP m
  le

theorem setFaceLoop_le (f a : Nat) : ∀ k c (m : Mesh VP EP FP), Le (setFaceLoop true f a k c m) (setFaceLoop false f a k c m) := by
  intro k
  induction k with
  | zero => intro c m; exact Le.refl _
  | succ k ih =>
    intro c m; unfold setFaceLoop
    refine Le.bind (m.setFace_le _ _) fun x => Le.bind (Le.refl _) fun n => Le.ite (Le.refl _) (ih _ _)

theorem closeHole_le (e : Nat) (fp : FP) (c : Bool) : Le (m.closeHole true e fp c) (m.closeHole false e fp c) := by
  unfold closeHole
  have := @setFaceLoop_le VP EP FP
  le
  apply this

theorem closeFace_le (a : Nat) (ep1 : EP) (b : Nat) (ep2 : EP) (fp : FP) (c : Bool) :
    Le (m.closeFace true a ep1 b ep2 fp c) (m.closeFace false a ep1 b ep2 fp c) := by
  unfold closeFace
  refine Le.bind (m.insertEdge_le _ _ _ _) fun x => ?_
  have := @setFaceLoop_le VP EP FP
  le
  apply this

theorem deleteFaces_le : ∀ (l : List Nat) (m : Mesh VP EP FP), Le (deleteFaces true l m) (deleteFaces false l m) := by
  intro l
  induction l with
  | nil => intro m; exact Le.refl _
  | cons e l ih => intro m; unfold deleteFaces; exact Le.bind (m.deleteFace_le _) fun _ => ih _

theorem removeFace_le (f : Nat) : Le (m.removeFace true f) (m.removeFace false f) := by
  unfold removeFace
  have := @deleteFaces_le VP EP FP
  le
  apply this

end Mesh
end Verif
