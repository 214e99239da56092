import Verif.Lemmas.Fine
import Verif.Lemmas.NoGapsLoft
/-
The faces of a new mesh are the faces listed.
-/
namespace Verif.R3
open Mesh MeshProps
variable {VP EP FP : Type} {m : Mesh VP EP FP} {pos : VP → V3} {de : EP} {df : FP} {vs : List (Nat × VP)} {fl : List (List Nat)}

/-- the faces of a new mesh are, up to the choice of the first corner, the listed ones -/
theorem adds_faces (a : Adds empty m de df [] [] vs fl) : ∃ L : List (Nat × List Nat), L.map Prod.snd = fl ∧ (L.map Prod.fst).Perm m.faceIds ∧ ∀ p ∈ L, ∃ us, m.faceVertices p.1 = some us ∧ p.2 ~r us := by
  obtain ⟨es, fs, G, h⟩ := a
  have g := G.good
  refine ⟨fs.map fun p => (p.1, p.2.map m.topo.org), by rw [← h, List.map_map]; rfl, ?_, ?_⟩
  · have e : (fs.map fun p => (p.1, p.2.map m.topo.org)).map Prod.fst = fs.map Prod.fst := by rw [List.map_map]; rfl
    rw [e]
    refine (List.perm_ext_iff_of_nodup G.nodupF (nodup_faceIds m)).mpr fun f => ?_
    rw [R3.mem_faceIds]
    constructor
    · intro hf
      obtain ⟨p, hp, rfl⟩ := List.mem_map.mp hf
      obtain ⟨h1, h2, -, -⟩ := G.newF p hp
      obtain ⟨x, hx⟩ := List.exists_mem_of_ne_nil _ h1
      exact g.wf.fac_live x p.1 (h2.live x hx) (h2.fac x hx)
    · intro hf
      refine Classical.byContradiction fun hn => ?_
      have h1 := G.faces f fun p hp e => hn (List.mem_map.mpr ⟨p, hp, e.symm⟩)
      obtain ⟨x, hx⟩ := hf
      have hx' : m.face f = some x := hx
      rw [h1] at hx'
      simp [face, empty, Store.get?, Store.empty] at hx'
  · intro p hp
    obtain ⟨q, hq, rfl⟩ := List.mem_map.mp hp
    obtain ⟨h1, h2, -, -⟩ := G.newF q hq
    obtain ⟨us, k1, k2, -⟩ := faceVertices_loop g (fun _ => (0 : V3)) h2 h1
    exact ⟨us, k1, k2⟩

/-- a new mesh without boundary -/
theorem adds_watertight (a : Adds empty m de df [] [] vs fl) : Watertight m := by
  obtain ⟨es, fs, G, h⟩ := a
  intro e he
  have hes : e ∈ es := by
    refine Classical.byContradiction fun hn => ?_
    have h1 := G.edges e (by simp) hn
    obtain ⟨x, hx⟩ := he
    have hx' : m.edge e = some x := hx
    rw [h1] at hx'
    simp [edge, empty, Store.get?, Store.empty] at hx'
  obtain ⟨p, hp, hep⟩ := ((G.cover e).mp (.inr hes)).resolve_left (by simp)
  obtain ⟨-, hL, -, -⟩ := G.newF p hp
  rw [hL.fac e hep]
  simp

theorem volume_rotated {l l' : List V3} (hp : Planar l) (h : l ~r l') : 1 / 3 * dot (l.headD 0) (areaVec l) = 1 / 3 * dot (l'.headD 0) (areaVec l') := by
  rw [← areaVec_rotation h]
  by_cases h0 : l = []
  · subst h0
    rw [List.isRotated_nil_iff'.mp h]
  have h0' : l' ≠ [] := fun e => h0 (by rw [e] at h; exact List.isRotated_nil_iff.mp h)
  have m1 : l.headD 0 ∈ l := by
    cases l with
    | nil => exact absurd rfl h0
    | cons a l => simp
  have m2 : l'.headD 0 ∈ l := by
    rw [h.mem_iff]
    cases l' with
    | nil => exact absurd rfl h0'
    | cons a l => simp
  have := planar_perp hp m1 m2
  simp only [dot, Pi.sub_apply] at this ⊢
  linarith

/-- the volume of a new mesh is that of the list of its faces -/
theorem adds_volume (a : Adds empty m de df [] [] vs fl) (hp : ∀ F ∈ fl, Planar (F.map (posOf pos m))) : meshVolume pos m = volume (fl.map (List.map (posOf pos m))) := by
  obtain ⟨L, h1, h2, h3⟩ := adds_faces a
  subst h1
  rw [meshVolume, volume, volume, List.map_map, List.map_map, List.map_map, ← (h2.map _).sum_eq, List.map_map]
  congr 1
  refine List.map_congr_left fun p hpL => ?_
  obtain ⟨us, k1, k2⟩ := h3 p hpL
  simp only [Function.comp, k1, Option.getD_some]
  exact (volume_rotated (hp p.2 (List.mem_map.mpr ⟨p, hpL, rfl⟩)) (k2.map _)).symm

end Verif.R3
