import Verif.Model.Primitives
import Verif.Props.Build
/-
The construction functions do not delete vertices: if the vertices are numbered without gaps then they are so afterwards.
-/
namespace Verif.Mesh
variable {VP EP FP A B : Type}

/-- a condition on the result, if there is one -/
def Post (x : Option A) (Q : A → Prop) : Prop := ∀ a, x = some a → Q a

theorem Post.some {a : A} {Q : A → Prop} (h : Q a) : Post (some a) Q := fun _ e => Option.some.inj e ▸ h

theorem Post.none {Q : A → Prop} : Post (none : Option A) Q := fun _ e => nomatch e

theorem Post.bind {x : Option A} {f : A → Option B} {Q : B → Prop} (R : A → Prop) (hx : Post x R) (hf : ∀ a, R a → Post (f a) Q) : Post (x >>= f) Q := by
  intro b hb
  obtain ⟨a, h1, h2⟩ := Option.bind_eq_some_iff.mp hb
  exact hf a (hx a h1) b h2

/-- reading -/
theorem Post.read {x : Option A} {f : A → Option B} {Q : B → Prop} (hf : ∀ a, Post (f a) Q) : Post (x >>= f) Q := Post.bind (fun _ => True) (fun _ _ => trivial) fun a _ => hf a

theorem Post.ite {c : Prop} [Decidable c] {x y : Option A} {Q : A → Prop} (h1 : Post x Q) (h2 : Post y Q) : Post (if c then x else y) Q := by
  split <;> assumption

/-- the vertices are numbered without gaps -/
def NoGaps (m : Mesh VP EP FP) : Prop := m.vs.deleted = []

theorem NoGaps.compact {m : Mesh VP EP FP} (h : m.NoGaps) : m.vs.len = m.vs.capacity := by
  rw [NoGaps] at h
  simp [Store.len, Store.capacity, h]

theorem noGaps_empty : (empty : Mesh VP EP FP).NoGaps := rfl

variable {m : Mesh VP EP FP} (g : m.NoGaps)
include g

theorem NoGaps.updE (e : Nat) (f : HE EP → HE EP) : Post (m.updE e f) NoGaps := Post.read fun _ => Post.read fun _ => .some g
theorem NoGaps.updF (i : Nat) (f : FC FP → FC FP) : Post (m.updF i f) NoGaps := Post.read fun _ => Post.read fun _ => .some g

omit g in
theorem modify_deleted {α : Type} {s s' : Store α} {i : Nat} {v : α} (h : s.modify i v = some s') : s'.deleted = s.deleted := by
  simp only [Store.modify] at h
  split at h
  · cases h; rfl
  · cases h

theorem NoGaps.updV (v : Nat) (f : VX VP → VX VP) : Post (m.updV v f) NoGaps := by
  refine Post.read fun x => Post.bind (fun vs => vs.deleted = m.vs.deleted) (fun s hs => modify_deleted hs) fun vs h => .some (h.trans g)

theorem NoGaps.allocV : m.allocV.1.NoGaps := by
  have h : m.vs.deleted = [] := g
  simp only [Mesh.allocV, NoGaps, Store.allocate, h]

theorem NoGaps.allocE : m.allocE.1.NoGaps := g

theorem NoGaps.putV (v : Nat) (x : VX VP) : Post (m.putV v x) NoGaps := by
  intro m' h
  simp only [Mesh.putV, Store.set] at h
  split at h
  · cases h; exact g
  · cases h

theorem NoGaps.putE (e : Nat) (x : HE EP) : Post (m.putE e x) NoGaps := Post.ite .none (Post.read fun _ => .some g)
theorem NoGaps.pushF (x : FC FP) : Post (m.pushF x) fun r => r.1.NoGaps := Post.read fun _ => .some g
theorem NoGaps.dropF (f : Nat) : Post (m.dropF f) NoGaps := Post.read fun _ => .some g
theorem NoGaps.setFace (dbg : Bool) (e : Nat) (f : Option Nat) : Post (m.setFace dbg e f) NoGaps := Post.read fun _ => Post.read fun _ => g.updE _ _
theorem NoGaps.deleteFace (dbg : Bool) (e : Nat) : Post (m.deleteFace dbg e) NoGaps := Post.read fun _ => Post.read fun _ => g.updE _ _

theorem NoGaps.insertEdgeNoUpdateNoCheck (a b : Option Nat) (c : Nat) (d : Option Nat) (e : EP) (a' b' : Option Nat) (c' : Nat) (d' : Option Nat) (e' : EP) :
    Post (m.insertEdgeNoUpdateNoCheck a b c d e a' b' c' d' e') fun r => r.1.NoGaps :=
  Post.bind NoGaps (g.allocE.allocE.putE _ _) fun _ g => Post.bind NoGaps (g.putE _ _) fun _ g => .some g

theorem NoGaps.addVertex (vp : VP) : Post (m.addVertex vp) fun r => r.1.NoGaps := Post.bind NoGaps (g.allocV.putV _ _) fun _ g => .some g

theorem NoGaps.addIsolatedEdge (a : VP) (epa : EP) (b : VP) (epb : EP) : Post (m.addIsolatedEdge a epa b epb) fun r => r.1.NoGaps :=
  Post.bind (fun r => r.1.NoGaps) (g.allocV.allocV.insertEdgeNoUpdateNoCheck _ _ _ _ _ _ _ _ _ _) fun _ g =>
    Post.bind NoGaps (g.putV _ _) fun _ g => Post.bind NoGaps (g.putV _ _) fun _ g => .some g

theorem NoGaps.addVertexViaEdge (dbg : Bool) (i o : Nat) (vp : VP) (ep1 ep2 : EP) : Post (m.addVertexViaEdge dbg i o vp ep1 ep2) fun r => r.1.NoGaps :=
  Post.read fun _ => Post.read fun _ => Post.bind (fun r => r.1.NoGaps) (g.allocV.insertEdgeNoUpdateNoCheck _ _ _ _ _ _ _ _ _ _) fun _ g =>
    Post.bind NoGaps (g.putV _ _) fun _ g => Post.bind NoGaps (g.updE _ _) fun _ g => Post.bind NoGaps (g.updE _ _) fun _ g => .some g

theorem NoGaps.addVertexViaVertex (dbg : Bool) (v : Nat) (vp : VP) (ep1 ep2 : EP) : Post (m.addVertexViaVertex dbg v vp ep1 ep2) fun r => r.1.NoGaps :=
  Post.read fun _ => Post.read fun _ => Post.read fun _ => g.addVertexViaEdge dbg _ _ _ _ _

theorem NoGaps.insertEdgeNoUpdate (dbg : Bool) (a b c : Nat) (d : Option Nat) (e : EP) (a' b' c' : Nat) (d' : Option Nat) (e' : EP) :
    Post (m.insertEdgeNoUpdate dbg a b c d e a' b' c' d' e') fun r => r.1.NoGaps :=
  Post.read fun _ => Post.read fun _ => Post.read fun _ => Post.read fun _ => Post.read fun _ => Post.read fun _ => Post.read fun _ => Post.read fun _ => g.insertEdgeNoUpdateNoCheck _ _ _ _ _ _ _ _ _ _

theorem NoGaps.insertEdge (dbg : Bool) (a : Nat) (ep1 : EP) (b : Nat) (ep2 : EP) : Post (m.insertEdge dbg a ep1 b ep2) fun r => r.1.NoGaps :=
  Post.read fun _ => Post.read fun _ => Post.read fun _ => Post.read fun _ => Post.read fun _ => Post.read fun _ => Post.read fun _ => Post.read fun _ =>
    Post.bind (fun r => r.1.NoGaps) (g.insertEdgeNoUpdate dbg _ _ _ _ _ _ _ _ _ _) fun _ g => Post.bind NoGaps (g.updE _ _) fun _ g => Post.bind NoGaps (g.updE _ _) fun _ g =>
    Post.bind NoGaps (g.updE _ _) fun _ g => Post.bind NoGaps (g.updE _ _) fun _ g => Post.read fun _ => Post.read fun _ => Post.read fun _ => Post.read fun _ => .some g

theorem NoGaps.insertEdgeBetween (dbg : Bool) (a : Nat) (ep0 : EP) (b : Nat) (ep1 : EP) : Post (m.insertEdgeBetween dbg a ep0 b ep1) fun r => r.1.NoGaps := by
  refine Post.read fun _ => Post.read fun _ => Post.read fun _ => Post.read fun _ => Post.read fun n0 => Post.read fun p0 => Post.read fun n1 => Post.read fun p1 =>
    Post.bind (fun r => r.1.NoGaps) (g.insertEdgeNoUpdateNoCheck _ _ _ _ _ _ _ _ _ _) fun _ g => Post.bind NoGaps ?_ fun _ g => Post.bind NoGaps ?_ fun _ g => Post.bind NoGaps ?_ fun _ g => Post.bind NoGaps ?_ fun _ g => .some g
  · cases n0 with
    | none => exact g.updV _ _
    | some _ => exact g.updE _ _
  · cases p0 with
    | none => exact .some g
    | some _ => exact g.updE _ _
  · cases n1 with
    | none => exact g.updV _ _
    | some _ => exact g.updE _ _
  · cases p1 with
    | none => exact .some g
    | some _ => exact g.updE _ _

omit g in
theorem NoGaps.setFaceLoop (dbg : Bool) (f first : Nat) : ∀ (k cur : Nat) {m : Mesh VP EP FP}, m.NoGaps → Post (setFaceLoop dbg f first k cur m) NoGaps
  | 0, _, _, _ => .none
  | k + 1, cur, _, g => Post.bind NoGaps (g.setFace dbg cur (some f)) fun _ g => Post.read fun n => Post.ite (.some g) (NoGaps.setFaceLoop dbg f first k n g)

theorem NoGaps.closeHole (dbg : Bool) (e : Nat) (fp : FP) (curved : Bool) : Post (m.closeHole dbg e fp curved) fun r => r.1.NoGaps :=
  Post.bind (fun r => r.1.NoGaps) (g.pushF _) fun _ g => Post.read fun _ => Post.bind NoGaps (NoGaps.setFaceLoop dbg _ _ _ _ g) fun _ g => .some g

theorem NoGaps.closeFace (dbg : Bool) (a : Nat) (ep1 : EP) (b : Nat) (ep2 : EP) (fp : FP) (curved : Bool) : Post (m.closeFace dbg a ep1 b ep2 fp curved) fun r => r.1.NoGaps :=
  Post.bind (fun r => r.1.NoGaps) (g.insertEdge dbg _ _ _ _) fun _ g => Post.bind (fun r => r.1.NoGaps) (g.pushF _) fun _ g => Post.read fun _ => Post.bind NoGaps (NoGaps.setFaceLoop dbg _ _ _ _ g) fun _ g => .some g

theorem NoGaps.closeFaceVertices (dbg : Bool) (a : Nat) (ep1 : EP) (b : Nat) (ep2 : EP) (c : Nat) (fp : FP) (curved : Bool) : Post (m.closeFaceVertices dbg a ep1 b ep2 c fp curved) fun r => r.1.NoGaps :=
  Post.read fun _ => Post.read fun _ => Post.read fun _ => Post.read fun _ => Post.read fun _ => Post.read fun _ => g.closeFace dbg _ _ _ _ _ _

omit g in
theorem NoGaps.deleteFaces (dbg : Bool) : ∀ (es : List Nat) {m : Mesh VP EP FP}, m.NoGaps → Post (deleteFaces dbg es m) NoGaps
  | [], _, g => .some g
  | e :: es, _, g => Post.bind NoGaps (g.deleteFace dbg e) fun _ g => NoGaps.deleteFaces dbg es g

theorem NoGaps.removeFace (dbg : Bool) (f : Nat) : Post (m.removeFace dbg f) fun r => r.1.NoGaps :=
  Post.read fun _ => Post.read fun es => Post.bind NoGaps (NoGaps.deleteFaces dbg es g) fun _ g => Post.bind NoGaps (g.dropF _) fun _ g => .some g

theorem NoGaps.flipEdge (e : Nat) : Post (m.flipEdge e) NoGaps := by
  refine Post.read fun _ => Post.read fun _ => Post.read fun h => Post.read fun t => Post.bind NoGaps (g.updE _ _) fun _ g => Post.bind NoGaps (g.updE _ _) fun _ g => Post.bind NoGaps (g.updE _ _) fun _ g =>
    Post.bind NoGaps (g.updE _ _) fun _ g => Post.bind NoGaps (g.updE _ _) fun _ g => Post.bind NoGaps (g.updE _ _) fun _ g => Post.bind NoGaps (g.updV _ _) fun _ g => Post.bind NoGaps (g.updV _ _) fun _ g => Post.bind NoGaps ?_ fun _ g => ?_
  · cases h.face with
    | none => exact .some g
    | some _ => exact g.updF _ _
  · cases t.face with
    | none => exact .some g
    | some _ => exact g.updF _ _

omit g in
theorem Post.map {x : Option A} {f : A → B} {Q : B → Prop} (h : Post x fun a => Q (f a)) : Post (x.map f) Q := by
  intro b hb
  obtain ⟨a, h1, rfl⟩ := Option.map_eq_some_iff.mp hb
  exact h a h1

omit g in
theorem NoGaps.pathLoop (dbg : Bool) (de : EP) : ∀ (ps : List VP) {m : Mesh VP EP FP} (i o : Nat), m.NoGaps → Post (pathLoop dbg de ps m i o) fun r => r.1.NoGaps
  | [], _, _, _, g => .some g
  | p :: ps, _, i, o, g => Post.bind (fun r => r.1.NoGaps) (g.addVertexViaEdge dbg _ _ _ _ _) fun _ g => Post.read fun _ => Post.read fun _ => NoGaps.pathLoop dbg de ps _ _ g

theorem NoGaps.insertPath (dbg : Bool) (de : EP) (ps : List VP) : Post (m.insertPath dbg de ps) fun r => r.1.NoGaps := by
  match ps with
  | [] => exact .none
  | [_] => exact .none
  | p0 :: p1 :: rest =>
    exact Post.bind (fun r => r.1.NoGaps) (g.addIsolatedEdge _ _ _ _) fun _ g => Post.read fun _ => Post.read fun _ => Post.read fun _ => Post.bind (fun r => r.1.NoGaps) (NoGaps.pathLoop dbg de rest _ _ g) fun _ g => .some g

theorem NoGaps.insertLoop (dbg : Bool) (de : EP) (ps : List VP) : Post (m.insertLoop dbg de ps) fun r => r.1.NoGaps :=
  Post.bind (fun r => r.1.NoGaps) (g.insertPath dbg de ps) fun _ g => Post.bind (fun r => r.1.NoGaps) (g.insertEdge dbg _ _ _ _) fun _ g => .some g

theorem NoGaps.insertPolygon (dbg : Bool) (de : EP) (df : FP) (ps : List VP) : Post (m.insertPolygon dbg de df ps) fun r => r.1.NoGaps :=
  Post.bind (fun r => r.1.NoGaps) (g.insertLoop dbg de ps) fun _ g => Post.bind (fun r => r.1.NoGaps) (g.closeHole dbg _ _ _) fun _ g => Post.read fun _ => .some g

/-- none of the operations deletes vertices -/
theorem NoGaps.step (dbg : Bool) (op : MeshProps.Op VP EP FP) : Post (op.step dbg m) NoGaps := by
  cases op with
  | addVertex => exact .map (g.addVertex _)
  | addIsolatedEdge => exact .map (g.addIsolatedEdge _ _ _ _)
  | addVertexViaEdge => exact .map (g.addVertexViaEdge dbg _ _ _ _ _)
  | addVertexViaVertex => exact .map (g.addVertexViaVertex dbg _ _ _ _)
  | insertEdge => exact .map (g.insertEdge dbg _ _ _ _)
  | insertEdgeBetween => exact .map (g.insertEdgeBetween dbg _ _ _ _)
  | closeHole => exact .map (g.closeHole dbg _ _ _)
  | closeFace => exact .map (g.closeFace dbg _ _ _ _ _ _)
  | removeFace => exact .map (g.removeFace dbg _)
  | flipEdge => exact g.flipEdge _

omit g in
theorem NoGaps.run (dbg : Bool) : ∀ (ops : List (MeshProps.Op VP EP FP)) {m : Mesh VP EP FP}, m.NoGaps → Post (MeshProps.run dbg ops m) NoGaps
  | [], _, g => .some g
  | op :: ops, _, g => Post.bind NoGaps (g.step dbg op) fun _ g => NoGaps.run dbg ops g

/-! ### The payloads of the vertices -/

/-- the payloads of the vertices, in order -/
def payloads (m : Mesh VP EP FP) : List (Option VP) := m.vs.data.map fun o => o.map VX.payload

omit g in
theorem pay_allocPut {m m1 m2 : Mesh VP EP FP} (g : m.NoGaps) (h : m1.vs = m.allocV.1.vs) {x : VX VP} (h2 : m1.putV m.allocV.2 x = some m2) : m2.NoGaps ∧ m2.payloads = m.payloads ++ [some x.payload] := by
  have hd : m.vs.deleted = [] := g
  have e : m.allocV.1.vs = ⟨m.vs.data ++ [none], []⟩ ∧ m.allocV.2 = m.vs.data.length := by simp [Mesh.allocV, Store.allocate, hd]
  rw [e.1] at h
  rw [e.2] at h2
  simp only [Mesh.putV, Store.set, h] at h2
  simp at h2
  subst h2
  exact ⟨rfl, by simp [payloads, List.set_append]⟩

section
omit g

variable {s : Store (VX VP)}

theorem vs_updE {m : Mesh VP EP FP} (h : m.vs = s) (e : Nat) (f : HE EP → HE EP) : Post (m.updE e f) fun m => m.vs = s := Post.read fun _ => Post.read fun _ => .some h
theorem vs_putE {m : Mesh VP EP FP} (h : m.vs = s) (e : Nat) (x : HE EP) : Post (m.putE e x) fun m => m.vs = s := Post.ite .none (Post.read fun _ => .some h)
theorem vs_pushF {m : Mesh VP EP FP} (h : m.vs = s) (x : FC FP) : Post (m.pushF x) fun r => r.1.vs = s := Post.read fun _ => .some h
theorem vs_setFace {m : Mesh VP EP FP} (h : m.vs = s) (dbg : Bool) (e : Nat) (f : Option Nat) : Post (m.setFace dbg e f) fun m => m.vs = s := Post.read fun _ => Post.read fun _ => vs_updE h _ _

theorem vs_insertEdgeNoUpdateNoCheck {m : Mesh VP EP FP} (h : m.vs = s) (a b : Option Nat) (c : Nat) (d : Option Nat) (e : EP) (a' b' : Option Nat) (c' : Nat) (d' : Option Nat) (e' : EP) :
    Post (m.insertEdgeNoUpdateNoCheck a b c d e a' b' c' d' e') fun r => r.1.vs = s :=
  Post.bind (fun m => m.vs = s) (vs_putE (m := m.allocE.1.allocE.1) h _ _) fun _ g => Post.bind (fun m => m.vs = s) (vs_putE g _ _) fun _ g => .some g

theorem vs_insertEdge {m : Mesh VP EP FP} (h : m.vs = s) (dbg : Bool) (a : Nat) (ep1 : EP) (b : Nat) (ep2 : EP) : Post (m.insertEdge dbg a ep1 b ep2) fun r => r.1.vs = s :=
  Post.read fun _ => Post.read fun _ => Post.read fun _ => Post.read fun _ => Post.read fun _ => Post.read fun _ => Post.read fun _ => Post.read fun _ =>
    Post.bind (fun r => r.1.vs = s) (Post.read fun _ => Post.read fun _ => Post.read fun _ => Post.read fun _ => Post.read fun _ => Post.read fun _ => Post.read fun _ => Post.read fun _ => vs_insertEdgeNoUpdateNoCheck h _ _ _ _ _ _ _ _ _ _) fun _ g =>
    Post.bind (fun m => m.vs = s) (vs_updE g _ _) fun _ g => Post.bind (fun m => m.vs = s) (vs_updE g _ _) fun _ g =>
    Post.bind (fun m => m.vs = s) (vs_updE g _ _) fun _ g => Post.bind (fun m => m.vs = s) (vs_updE g _ _) fun _ g => Post.read fun _ => Post.read fun _ => Post.read fun _ => Post.read fun _ => .some g

theorem vs_setFaceLoop (dbg : Bool) (f first : Nat) : ∀ (k cur : Nat) {m : Mesh VP EP FP}, m.vs = s → Post (setFaceLoop dbg f first k cur m) fun m => m.vs = s
  | 0, _, _, _ => .none
  | k + 1, cur, _, h => Post.bind (fun m => m.vs = s) (vs_setFace h dbg cur (some f)) fun _ g => Post.read fun n => Post.ite (.some g) (vs_setFaceLoop dbg f first k n g)

theorem vs_closeHole {m : Mesh VP EP FP} (h : m.vs = s) (dbg : Bool) (e : Nat) (fp : FP) (curved : Bool) : Post (m.closeHole dbg e fp curved) fun r => r.1.vs = s :=
  Post.bind (fun r => r.1.vs = s) (vs_pushF h _) fun _ g => Post.read fun _ => Post.bind (fun m => m.vs = s) (vs_setFaceLoop dbg _ _ _ _ g) fun _ g => .some g

/-- the vertices are numbered without gaps and have the payloads `l` -/
def Has (l : List (Option VP)) (m : Mesh VP EP FP) : Prop := m.NoGaps ∧ m.payloads = l

theorem Has.of_vs {l : List (Option VP)} {m m' : Mesh VP EP FP} (h : m.Has l) (e : m'.vs = m.vs) : m'.Has l := ⟨by rw [NoGaps, e]; exact h.1, by rw [payloads, e]; exact h.2⟩

theorem Has.addVertexViaEdge {l : List (Option VP)} {m : Mesh VP EP FP} (h : m.Has l) (dbg : Bool) (i o : Nat) (vp : VP) (ep1 ep2 : EP) : Post (m.addVertexViaEdge dbg i o vp ep1 ep2) fun r => r.1.Has (l ++ [some vp]) :=
  Post.read fun _ => Post.read fun _ => Post.bind (fun r => r.1.vs = m.allocV.1.vs) (vs_insertEdgeNoUpdateNoCheck rfl _ _ _ _ _ _ _ _ _ _) fun _ e =>
    Post.bind (Has (l ++ [some vp])) (fun m' hm => by obtain ⟨h1, h2⟩ := pay_allocPut h.1 e hm; exact ⟨h1, by rw [h2, h.2]⟩) fun m2 k =>
      Post.bind (fun m => m.vs = m2.vs) (vs_updE rfl _ _) fun _ e => Post.bind (fun m => m.vs = m2.vs) (vs_updE e _ _) fun _ e => .some (k.of_vs e)

theorem Has.pathLoop (dbg : Bool) (de : EP) : ∀ (ps : List VP) {l : List (Option VP)} {m : Mesh VP EP FP} (i o : Nat), m.Has l → Post (pathLoop dbg de ps m i o) fun r => r.1.Has (l ++ ps.map some)
  | [], l, _, _, _, g => Post.some (by rw [List.map_nil, List.append_nil]; exact g)
  | p :: ps, l, _, i, o, g => Post.bind (fun r => r.1.Has (l ++ [some p])) (g.addVertexViaEdge dbg _ _ _ _ _) fun _ g => Post.read fun n => Post.read fun x => by
    have := Has.pathLoop dbg de ps n x.twin g
    rw [List.map_cons, List.append_cons]
    exact this

theorem Has.addIsolatedEdge {l : List (Option VP)} {m : Mesh VP EP FP} (h : m.Has l) (a : VP) (epa : EP) (b : VP) (epb : EP) : Post (m.addIsolatedEdge a epa b epb) fun r => r.1.Has (l ++ [some a, some b]) := by
  have hd : m.vs.deleted = [] := h.1
  have e1 : m.allocV.1.allocV.1.vs = ⟨m.vs.data ++ [none, none], []⟩ ∧ m.allocV.2 = m.vs.data.length ∧ m.allocV.1.allocV.2 = m.vs.data.length + 1 := by simp [Mesh.allocV, Store.allocate, hd]
  refine Post.bind (fun r => r.1.vs = m.allocV.1.allocV.1.vs) (vs_insertEdgeNoUpdateNoCheck rfl _ _ _ _ _ _ _ _ _ _) fun r e => ?_
  intro r' hr
  obtain ⟨m1, h1, hr⟩ := Option.bind_eq_some_iff.mp hr
  obtain ⟨m2, h2, hr⟩ := Option.bind_eq_some_iff.mp hr
  cases hr
  rw [e1.1] at e
  replace h1 : r.1.putV m.allocV.2 _ = some m1 := h1
  replace h2 : m1.putV m.allocV.1.allocV.2 _ = some m2 := h2
  rw [e1.2.1] at h1
  rw [e1.2.2] at h2
  simp only [Mesh.putV, Store.set, e] at h1
  simp at h1
  subst h1
  simp only [Mesh.putV, Store.set] at h2
  simp at h2
  subst h2
  refine ⟨rfl, ?_⟩
  rw [← h.2]
  simp [payloads, List.set_append]

theorem Has.insertPolygon {l : List (Option VP)} {m : Mesh VP EP FP} (h : m.Has l) (dbg : Bool) (de : EP) (df : FP) (ps : List VP) : Post (m.insertPolygon dbg de df ps) fun r => r.1.Has (l ++ ps.map some) := by
  refine Post.bind (fun r => r.1.Has (l ++ ps.map some)) (Post.bind (fun r => r.1.Has (l ++ ps.map some)) ?_ fun r k => Post.bind (fun r' => r'.1.vs = r.1.vs) (vs_insertEdge rfl dbg _ _ _ _) fun _ e => .some (k.of_vs e))
    fun r k => Post.bind (fun r' => r'.1.vs = r.1.vs) (vs_closeHole rfl dbg _ _ _) fun _ e => Post.read fun _ => .some (k.of_vs e)
  match ps with
  | [] => exact .none
  | [_] => exact .none
  | p0 :: p1 :: rest =>
    refine Post.bind (fun r => r.1.Has (l ++ [some p0, some p1])) (h.addIsolatedEdge _ _ _ _) fun _ g => Post.read fun _ => Post.read fun e => Post.read fun t =>
      Post.bind (fun r => r.1.Has (l ++ (p0 :: p1 :: rest).map some)) ?_ fun _ g => .some g
    have := Has.pathLoop dbg de rest e t g
    rw [List.append_assoc] at this
    exact this

theorem has_empty : (empty : Mesh VP EP FP).Has [] := ⟨rfl, rfl⟩

end

end Verif.Mesh
