import Verif.Spec.Box
import Verif.Lemmas.KernelRfl
import Verif.Lemmas.Decide
import Verif.Lemmas.MeshTransform
/-
The boxes of /repo/examples/box.rs are always the same meshes up to payloads: three of them, computed with the names of the corners as payloads.
-/
namespace Verif.R3
open Mesh
variable {VP EP FP VP' EP' FP' : Type}

/-- a mesh with its payloads replaced -/
def dress {P : Type} (s : Mesh P Unit Unit) (q : P → VP) (de : EP) (df : FP) : Mesh VP EP FP where
  hs := ⟨s.hs.data.map (Option.map fun h => ⟨h.next, h.twin, h.prev, h.origin, h.face, de⟩), s.hs.deleted⟩
  vs := ⟨s.vs.data.map (Option.map fun h => ⟨h.edge, q h.payload⟩), s.vs.deleted⟩
  fs := ⟨s.fs.data.map (Option.map fun h => ⟨h.edge, h.curved, df⟩), s.fs.deleted⟩

theorem get?_map {α β : Type} (s : Store α) (f : α → β) (i : Nat) : (Store.mk (s.data.map (Option.map f)) s.deleted).get? i = (s.get? i).map f := by
  simp only [Store.get?, List.getElem?_map]
  cases s.data[i]? with
  | none => rfl
  | some o => cases o <;> rfl

theorem storeOK_map {α β : Type} {s : Store α} (f : α → β) (h : StoreOK s) : StoreOK (Store.mk (s.data.map (Option.map f)) s.deleted) := by
  refine ⟨h.1, fun i => ?_⟩
  rw [← h.2 i]
  simp only [List.getElem?_map]
  cases s.data[i]? with
  | none => simp
  | some o => cases o <;> simp

section
variable {P : Type} (s : Mesh P Unit Unit) (q : P → VP) (de : EP) (df : FP)

theorem dress_topo : (dress s q de df).topo = s.topo := by
  have h1 : ∀ e, (dress s q de df).hs.get? e = (s.hs.get? e).map fun h => ⟨h.next, h.twin, h.prev, h.origin, h.face, de⟩ := fun e => get?_map _ _ _
  have h2 : ∀ e, (dress s q de df).vs.get? e = (s.vs.get? e).map fun h => ⟨h.edge, q h.payload⟩ := fun e => get?_map _ _ _
  have h3 : ∀ e, (dress s q de df).fs.get? e = (s.fs.get? e).map fun h => ⟨h.edge, h.curved, df⟩ := fun e => get?_map _ _ _
  simp only [topo, h1, h2, h3]
  congr 1
  · funext e; cases s.hs.get? e <;> simp
  · funext e; cases s.vs.get? e <;> simp
  · funext e; cases s.fs.get? e <;> simp
  · funext e; cases s.hs.get? e <;> rfl
  · funext e; cases s.hs.get? e <;> rfl
  · funext e; cases s.hs.get? e <;> rfl
  · funext e; cases s.hs.get? e <;> rfl
  · funext e; cases s.hs.get? e <;> rfl
  · funext e; cases s.vs.get? e <;> rfl
  · funext e; cases s.fs.get? e <;> rfl

variable {s} in
theorem dress_good (g : s.Good) : (dress s q de df).Good :=
  ⟨storeOK_map _ g.1, storeOK_map _ g.2, storeOK_map _ g.3, by rw [dress_topo]; exact g.4⟩

theorem dress_vpay (v : Nat) : (dress s q de df).vpay v = (s.vpay v).map q := by
  show Option.map _ ((dress s q de df).vs.get? v) = _
  rw [show (dress s q de df).vs.get? v = (s.vs.get? v).map fun h => ⟨h.edge, q h.payload⟩ from get?_map _ _ _, Option.map_map, vpay, Option.map_map]; rfl
end

/-! ### the three meshes -/

def skelVertices : Mesh Corner Unit Unit :=
    ⟨⟨[some ⟨2, 1, 6, 0, some 0, ()⟩, some ⟨14, 0, 9, 1, some 4, ()⟩, some ⟨4, 3, 0, 1, some 0, ()⟩, some ⟨8, 2, 12, 2, some 1, ()⟩, some ⟨6, 5, 2, 2, some 0, ()⟩,
    some ⟨13, 4, 17, 3, some 3, ()⟩, some ⟨0, 7, 4, 3, some 0, ()⟩, some ⟨16, 6, 15, 0, some 2, ()⟩, some ⟨10, 9, 3, 1, some 1, ()⟩, some ⟨1, 8, 22, 4, some 4, ()⟩,
    some ⟨12, 11, 8, 4, some 1, ()⟩, some ⟨23, 10, 21, 5, some 5, ()⟩, some ⟨3, 13, 10, 5, some 1, ()⟩, some ⟨20, 12, 5, 2, some 3, ()⟩, some ⟨22, 15, 1, 0, some 4, ()⟩,
    some ⟨7, 14, 18, 6, some 2, ()⟩, some ⟨18, 17, 7, 3, some 2, ()⟩, some ⟨5, 16, 20, 7, some 3, ()⟩, some ⟨15, 19, 16, 7, some 2, ()⟩, some ⟨21, 18, 23, 6, some 5, ()⟩,
    some ⟨17, 21, 13, 5, some 3, ()⟩, some ⟨11, 20, 19, 7, some 5, ()⟩, some ⟨9, 23, 14, 6, some 4, ()⟩, some ⟨19, 22, 11, 4, some 5, ()⟩], []⟩,
    ⟨[some ⟨some 0, (true, true, true)⟩, some ⟨some 1, (false, true, true)⟩, some ⟨some 3, (false, false, true)⟩, some ⟨some 5, (true, false, true)⟩, some ⟨some 9, (false, true, false)⟩,
    some ⟨some 11, (false, false, false)⟩, some ⟨some 15, (true, true, false)⟩, some ⟨some 17, (true, false, false)⟩], []⟩,
    ⟨[some ⟨4, false, ()⟩, some ⟨10, false, ()⟩, some ⟨16, false, ()⟩, some ⟨13, false, ()⟩, some ⟨14, false, ()⟩, some ⟨19, false, ()⟩], []⟩⟩

def skelLoft : Mesh Corner Unit Unit :=
    ⟨⟨[some ⟨10, 1, 9, 0, some 1, ()⟩, some ⟨6, 0, 3, 1, some 0, ()⟩, some ⟨14, 3, 11, 1, some 2, ()⟩, some ⟨1, 2, 5, 2, some 0, ()⟩, some ⟨18, 5, 15, 2, some 3, ()⟩,
    some ⟨3, 4, 6, 3, some 0, ()⟩, some ⟨5, 7, 1, 0, some 0, ()⟩, some ⟨8, 6, 19, 3, some 4, ()⟩, some ⟨22, 9, 7, 0, some 4, ()⟩, some ⟨0, 8, 12, 4, some 1, ()⟩,
    some ⟨12, 11, 0, 1, some 1, ()⟩, some ⟨2, 10, 16, 5, some 2, ()⟩, some ⟨9, 13, 10, 5, some 1, ()⟩, some ⟨17, 12, 23, 4, some 5, ()⟩, some ⟨16, 15, 2, 2, some 2, ()⟩,
    some ⟨4, 14, 20, 6, some 3, ()⟩, some ⟨11, 17, 14, 6, some 2, ()⟩, some ⟨21, 16, 13, 5, some 5, ()⟩, some ⟨20, 19, 4, 3, some 3, ()⟩, some ⟨7, 18, 22, 7, some 4, ()⟩,
    some ⟨15, 21, 18, 7, some 3, ()⟩, some ⟨23, 20, 17, 6, some 5, ()⟩, some ⟨19, 23, 8, 4, some 4, ()⟩, some ⟨13, 22, 21, 7, some 5, ()⟩], []⟩,
    ⟨[some ⟨some 0, (false, false, false)⟩, some ⟨some 1, (true, false, false)⟩, some ⟨some 3, (true, true, false)⟩, some ⟨some 5, (false, true, false)⟩, some ⟨some 9, (false, false, true)⟩,
    some ⟨some 11, (true, false, true)⟩, some ⟨some 15, (true, true, true)⟩, some ⟨some 19, (false, true, true)⟩], []⟩,
    ⟨[some ⟨1, false, ()⟩, some ⟨10, false, ()⟩, some ⟨14, false, ()⟩, some ⟨18, false, ()⟩, some ⟨8, false, ()⟩, some ⟨13, false, ()⟩], []⟩⟩

/-- the bottom of the prism, with the half-edge `0` around it -/
def skelBase : Mesh Corner Unit Unit :=
    ⟨⟨[some ⟨2, 1, 7, 0, none, ()⟩, some ⟨6, 0, 3, 1, some 0, ()⟩, some ⟨4, 3, 0, 1, none, ()⟩, some ⟨1, 2, 5, 2, some 0, ()⟩, some ⟨7, 5, 2, 2, none, ()⟩, some ⟨3, 4, 6, 3, some 0, ()⟩,
    some ⟨5, 7, 1, 0, some 0, ()⟩, some ⟨0, 6, 4, 3, none, ()⟩], []⟩,
    ⟨[some ⟨some 0, (false, false, false)⟩, some ⟨some 1, (true, false, false)⟩, some ⟨some 3, (true, true, false)⟩, some ⟨some 5, (false, true, false)⟩], []⟩,
    ⟨[some ⟨1, false, ()⟩], []⟩⟩

def skelPrism : Mesh Corner Unit Unit :=
    ⟨⟨[some ⟨8, 1, 11, 0, some 1, ()⟩, some ⟨6, 0, 3, 1, some 0, ()⟩, some ⟨18, 3, 9, 1, some 4, ()⟩, some ⟨1, 2, 5, 2, some 0, ()⟩, some ⟨14, 5, 19, 2, some 3, ()⟩,
    some ⟨3, 4, 6, 3, some 0, ()⟩, some ⟨5, 7, 1, 0, some 0, ()⟩, some ⟨10, 6, 15, 3, some 2, ()⟩, some ⟨12, 9, 0, 1, some 1, ()⟩, some ⟨2, 8, 22, 4, some 4, ()⟩,
    some ⟨16, 11, 7, 0, some 2, ()⟩, some ⟨0, 10, 12, 5, some 1, ()⟩, some ⟨11, 13, 8, 4, some 1, ()⟩, some ⟨23, 12, 17, 5, some 5, ()⟩, some ⟨20, 15, 4, 3, some 3, ()⟩,
    some ⟨7, 14, 16, 6, some 2, ()⟩, some ⟨15, 17, 10, 5, some 2, ()⟩, some ⟨13, 16, 21, 6, some 5, ()⟩, some ⟨22, 19, 2, 2, some 4, ()⟩, some ⟨4, 18, 20, 7, some 3, ()⟩,
    some ⟨19, 21, 14, 6, some 3, ()⟩, some ⟨17, 20, 23, 7, some 5, ()⟩, some ⟨9, 23, 18, 7, some 4, ()⟩, some ⟨21, 22, 13, 4, some 5, ()⟩], []⟩,
    ⟨[some ⟨some 0, (false, false, false)⟩, some ⟨some 1, (true, false, false)⟩, some ⟨some 3, (true, true, false)⟩, some ⟨some 5, (false, true, false)⟩, some ⟨some 9, (true, false, true)⟩,
    some ⟨some 11, (false, false, true)⟩, some ⟨some 15, (false, true, true)⟩, some ⟨some 19, (true, true, true)⟩], []⟩,
    ⟨[some ⟨1, false, ()⟩, some ⟨8, false, ()⟩, some ⟨10, false, ()⟩, some ⟨14, false, ()⟩, some ⟨18, false, ()⟩, some ⟨13, false, ()⟩], []⟩⟩

def Way.skel : Way → Mesh Corner Unit Unit
  | .vertices => skelVertices
  | .loft => skelLoft
  | .prism => skelPrism
  | .cuboid => skelLoft

/-- the payloads of the corners -/
def tag {K : Type} [Neg K] (vp : K → K → K → VP) (x y z : K) (k : Corner) : VP := vp (onSide k.1 x) (onSide k.2.1 y) (onSide k.2.2 z)

theorem boxVertices_eq {K : Type} [Neg K] (dbg : Bool) (de : EP) (df : FP) (vp : K → K → K → VP) (x y z : K) :
    boxVertices dbg de df vp x y z = some (dress skelVertices (tag vp x y z) de df) := by
  cases dbg <;> kernel_rfl

theorem boxLoft_eq {K : Type} [Neg K] (dbg : Bool) (de : EP) (df : FP) (vp : K → K → K → VP) (x y z : K) :
    boxLoft dbg de df vp x y z = some (dress skelLoft (tag vp x y z) de df) := by
  cases dbg <;> kernel_rfl

theorem cuboid_eq {K : Type} [Neg K] (dbg : Bool) (de : EP) (df : FP) (vp : K → K → K → VP) (x y z : K) :
    cuboid dbg de df vp x y z = some (dress skelLoft (tag vp x y z) de df) := by
  cases dbg <;> kernel_rfl

theorem base_eq (dbg : Bool) (de : EP) (df : FP) (q : Corner → VP) :
    (empty : Mesh VP EP FP).insertPolygon dbg de df [q (false, false, false), q (true, false, false), q (true, true, false), q (false, true, false)] = some (dress skelBase q de df, 0) := by
  cases dbg <;> kernel_rfl

theorem prism_eq (dbg : Bool) (de : EP) (df : FP) (q : Corner → VP) (tr : VP → VP) :
    (dress skelBase q de df).extrude dbg de df tr 0 = some (dress skelPrism (fun k => if k.2.2 then tr (q (k.1, k.2.1, false)) else q k) de df, 13) := by
  cases dbg <;> kernel_rfl

theorem base_face (de : EP) (df : FP) (q : Corner → VP) : (do
    let t ← (dress skelBase q de df).twinId 0
    let fo ← (dress skelBase q de df).faceOf t
    fo) = some 0 := by kernel_rfl

theorem base_pos (de : EP) (df : FP) (q : Corner → VP) (pos : VP → V3) :
    facePos pos (dress skelBase q de df) 0 = some [pos (q (false, false, false)), pos (q (false, true, false)), pos (q (true, true, false)), pos (q (true, false, false))] := by
  kernel_rfl

attribute [irreducible] skelVertices skelLoft skelBase skelPrism

end Verif.R3
