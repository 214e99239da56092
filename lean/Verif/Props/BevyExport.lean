import Verif.Spec.BevyExport
import Verif.Props.Export
/-
C110: meshes for Bevy.
-/
namespace Verif.R3
open Geom Mesh
variable {VP EP FP W : Type}

theorem bevyIndices_fits {size : Nat} (hs : size = 1 ∨ size = 2 ∨ size = 4) {idx : List Nat} (h : ∀ k ∈ idx, k < 2 ^ (8 * size)) : ∃ i, bevyIndices size idx = some i ∧ i.numbers = idx ∧ ∀ k ∈ idx, k < i.bound := by
  have key : ∀ {n : Nat}, (∀ k ∈ idx, k < n) → idx.map (· % n) = idx := fun h => by
    conv_rhs => rw [← List.map_id idx]
    exact List.map_congr_left fun k hk => Nat.mod_eq_of_lt (h k hk)
  rcases hs with rfl | rfl | rfl
  · have h' : ∀ k ∈ idx, k < 2 ^ 16 := fun k hk => (h k hk).trans (by norm_num)
    exact ⟨.u16 (idx.map (· % 2 ^ 16)), by simp [bevyIndices], key h', h'⟩
  · exact ⟨.u16 (idx.map (· % 2 ^ 16)), by simp [bevyIndices], key h, h⟩
  · exact ⟨.u32 (idx.map (· % 2 ^ 32)), by simp [bevyIndices], key h, h⟩

theorem removeAll (l : List BevyAttr) : ∀ b : BevyMesh, l.foldl BevyMesh.remove b = { b with attributes := b.attributes.filter fun q => decide (q.1 ∉ l) } := by
  induction l with
  | nil => intro b; simp
  | cons a l ih =>
    intro b
    rw [List.foldl_cons, ih]
    simp only [BevyMesh.remove, List.filter_filter]
    congr 1
    refine List.filter_congr fun q _ => ?_
    simp only [List.mem_cons, not_or, ← Bool.decide_and]
    exact decide_eq_decide.mpr and_comm

/-- removing leaves nothing -/
theorem removed (b : BevyMesh) : bevyRemoveAttributes b = { b with indices := none, attributes := [] } := by
  simp only [bevyRemoveAttributes, removeAll]
  congr 1
  rw [List.filter_eq_nil_iff]
  intro q hq
  simpa using ⟨q.2, hq⟩

theorem fetch_lt {ps l : List VP} {idx : List Nat} (h : fetch ps idx = some l) : ∀ k ∈ idx, k < ps.length := by
  intro k hk
  induction idx generalizing l with
  | nil => cases hk
  | cons a idx ih =>
    simp only [fetch, List.mapM_cons, Option.bind_eq_bind, Option.bind_eq_some_iff] at h
    obtain ⟨x, hx, y, hy, -⟩ := h
    rcases List.mem_cons.mp hk with rfl | hk
    · exact (List.getElem?_eq_some_iff.mp hx).1
    · exact ih hy hk

/-- the last steps -/
theorem finish (pos nrm : VP → V3) {b : BevyMesh} {size : Nat} (hs : size = 1 ∨ size = 2 ∨ size = 4) {idx : List Nat} {vs : List VP} (h : ∀ k ∈ idx, k < vs.length) (hl : vs.length ≤ 2 ^ (8 * size)) :
    ∃ i, bevyIndices size idx = some i ∧ Holds pos nrm ((({ bevyRemoveAttributes b with indices := some i } : BevyMesh).insert .position (vs.map fun vp => toArray (pos vp))).insert .normal (vs.map fun vp => toArray (nrm vp))) idx vs := by
  obtain ⟨i, h1, h2, h3⟩ := bevyIndices_fits hs fun k hk => (h k hk).trans_le hl
  refine ⟨i, h1, ⟨i, rfl, h2, h3⟩, ?_, ?_, fun a h1 h2 => ?_⟩
  · simp [removed, BevyMesh.insert, BevyMesh.remove, toArray]
  · simp [removed, BevyMesh.insert, BevyMesh.remove, toArray, List.lookup, show (BevyAttr.normal == BevyAttr.position) = false from rfl]
  · have e1 : (a == BevyAttr.position) = false := beq_false_of_ne h1
    have e2 : (a == BevyAttr.normal) = false := beq_false_of_ne h2
    simp [removed, BevyMesh.insert, BevyMesh.remove, List.lookup, e1, e2]

section
variable {tri : Nat → Triangulation → Outcome Triangulation} {dbg : Bool} {eps : ℝ} {pos nrm : VP → V3} {setN : VP → V3 → VP} {size : Nat} {m : Mesh VP EP FP} {dflt : VP} {b : BevyMesh}

/-- C110: whatever the Bevy mesh contained before, afterwards it contains the buffers of the triangulation, and nothing else; its topology and usage stay. -/
theorem c110_replaced (ht : b.topology = .triangleList) (hu : b.mainWorld = true) (hs : size = 1 ∨ size = 2 ∨ size = 4) {idx : List Nat} {vs : List VP} (h : triangulateMesh tri m dflt = .done (idx, vs)) (hi : ∀ k ∈ idx, k < vs.length)
    (hl : vs.length ≤ 2 ^ (8 * size)) : ∃ b', bevySetEx tri dbg eps pos nrm setN size m dflt false b = .done b' ∧ Holds pos nrm b' idx vs ∧ b'.topology = .triangleList ∧ b'.mainWorld = true := by
  obtain ⟨i, h1, h2⟩ := finish (b := b) pos nrm hs hi hl
  refine ⟨_, ?_, h2, ?_, ?_⟩
  · simp [bevySetEx, bevyBuffers, ht, hu, h, h1, bind, Outcome.bind, Outcome.ofOption]
  · simp [removed, BevyMesh.insert, ht]
  · simp [removed, BevyMesh.insert, hu]

/-- C110: the same for flat normals. -/
theorem c110_replaced_flat (ht : b.topology = .triangleList) (hu : b.mainWorld = true) (hs : size = 1 ∨ size = 2 ∨ size = 4) {idx : List Nat} {vs : List VP} (h : triangulateFlat tri dbg eps pos setN m = .done (idx, vs))
    (hi : ∀ k ∈ idx, k < vs.length) (hl : vs.length ≤ 2 ^ (8 * size)) :
    ∃ b', bevySetEx tri dbg eps pos nrm setN size m dflt true b = .done b' ∧ Holds pos nrm b' idx vs ∧ b'.topology = .triangleList ∧ b'.mainWorld = true := by
  obtain ⟨i, h1, h2⟩ := finish (b := b) pos nrm hs hi hl
  refine ⟨_, ?_, h2, ?_, ?_⟩
  · simp [bevySetEx, bevyBuffers, ht, hu, h, h1, hl, bind, Outcome.bind, Outcome.ofOption]
  · simp [removed, BevyMesh.insert, ht]
  · simp [removed, BevyMesh.insert, hu]

/-- C110 for meshes numbered without gaps whose faces are triangulated properly (C90), with indices of 8, 16 or 32 bits: the Bevy mesh shows the faces. -/
theorem c110_shows_partial (ht : b.topology = .triangleList) (hu : b.mainWorld = true) (hs : size = 1 ∨ size = 2 ∨ size = 4) (g : m.Good) (hd : m.vs.len = m.vs.capacity) (hc : m.vs.capacity ≤ 2 ^ (8 * size)) (h : Runs tri m (Tiled pos m) m.faceIds) :
    ∃ b' idx vs, bevySetEx tri dbg eps pos nrm setN size m dflt false b = .done b' ∧ Holds pos nrm b' idx vs ∧ Shows pos m m.faceIds idx vs := by
  obtain ⟨idx, vs, h1, h2, h3⟩ := c90_partial g hd dflt h
  obtain ⟨us, -, l, h4, -⟩ := id h2
  obtain ⟨b', k1, k2, -⟩ := c110_replaced (dbg := dbg) (eps := eps) (nrm := nrm) (setN := setN) ht hu hs h1 (fetch_lt h4) (by omega)
  exact ⟨b', idx, vs, k1, k2, h2⟩

/-- C110 with flat normals: every mesh whose faces are triangulated properly and have no more corners than there are indices. -/
theorem c110_flat_partial (ht : b.topology = .triangleList) (hu : b.mainWorld = true) (hs : size = 1 ∨ size = 2 ∨ size = 4) (g : m.Good) (hc : (m.faceIds.map fun f => ((m.faceVertices f).getD []).length).sum ≤ 2 ^ (8 * size))
    (hn : ∀ f, m.topo.F f → ∃ n, faceNormal dbg eps pos m f = some n) (h : Runs tri m (Tiled pos m) m.faceIds) :
    ∃ b' idx vs, bevySetEx tri dbg eps pos nrm setN size m dflt true b = .done b' ∧ Holds pos nrm b' idx vs ∧ ShowsFlat pos setN m m.faceIds idx vs := by
  obtain ⟨idx, vs, h1, h2, h3⟩ := c91_flat setN g hn h
  obtain ⟨us, -, l, h4, -⟩ := id h2
  obtain ⟨b', k1, k2, -⟩ := c110_replaced_flat (nrm := nrm) (dflt := dflt) ht hu hs h1 (fetch_lt h4) (by omega)
  exact ⟨b', idx, vs, k1, k2, h2⟩

/-- C110 for `to_bevy_ex`: a new Bevy mesh of triangles. -/
theorem c110_new_partial (hs : size = 1 ∨ size = 2 ∨ size = 4) (g : m.Good) (hd : m.vs.len = m.vs.capacity) (hc : m.vs.capacity ≤ 2 ^ (8 * size)) (h : Runs tri m (Tiled pos m) m.faceIds) :
    ∃ b' idx vs, toBevyEx tri dbg eps pos nrm setN size m dflt false true = .done b' ∧ b'.topology = .triangleList ∧ b'.mainWorld = true ∧ Holds pos nrm b' idx vs ∧ Shows pos m m.faceIds idx vs := by
  obtain ⟨idx, vs, h1, h2, h3⟩ := c90_partial g hd dflt h
  obtain ⟨us, -, l, h4, -⟩ := id h2
  obtain ⟨b', k1, k2, k3, k4⟩ := c110_replaced (b := ⟨.triangleList, true, none, []⟩) (dbg := dbg) (eps := eps) (nrm := nrm) (setN := setN) rfl rfl hs h1 (fetch_lt h4) (by omega)
  exact ⟨b', idx, vs, k1, k3, k4, k2, h2⟩

/-- C110 fails for usages other than `MAIN_WORLD` … -/
theorem c110_usage_panics (flat : Bool) (hu : b.mainWorld = false) : bevySetEx tri dbg eps pos nrm setN size m dflt flat b = .panic := by
  simp only [bevySetEx, hu]
  split <;> rfl

/-- … and hence for meshes made for the render world only … -/
theorem c110_render_world_panics (flat : Bool) : toBevyEx tri dbg eps pos nrm setN size m dflt flat false = .panic := c110_usage_panics flat rfl

theorem set_done {flat : Bool} {b' : BevyMesh} (h : bevySetEx tri dbg eps pos nrm setN size m dflt flat b = .done b') : ∃ (idx : List Nat) (vs : List VP) (i : BevyIndices), bevyIndices size idx = some i ∧
    b' = (({ bevyRemoveAttributes b with indices := some i } : BevyMesh).insert .position (vs.map fun vp => toArray (pos vp))).insert .normal (vs.map fun vp => toArray (nrm vp)) := by
  simp only [bevySetEx] at h
  split at h
  · cases h
  · split at h
    · cases h
    · revert h
      generalize bevyBuffers tri dbg eps pos setN size m dflt flat = x
      intro h
      cases x with
      | panic => cases h
      | hang => cases h
      | done r =>
        cases hb : bevyIndices size r.1 with
        | none => simp [bind, Outcome.bind, hb, Outcome.ofOption] at h
        | some i =>
          refine ⟨r.1, r.2, i, hb, ?_⟩
          simp only [bind, Outcome.bind, hb, Outcome.ofOption, Outcome.done.injEq] at h
          exact h.symm

/-- … and for 64-bit indices, whatever the mesh. -/
theorem c110_wide_panics (flat : Bool) (b' : BevyMesh) : bevySetEx tri dbg eps pos nrm setN 8 m dflt flat b ≠ .done b' := by
  intro h
  obtain ⟨idx, vs, i, h1, -⟩ := set_done h
  simp [bevyIndices] at h1

/-- C110 fails with flat normals if the corners of the faces are more than there are indices, even if the vertices are not. -/
theorem c110_flat_panics {idx : List Nat} {vs : List VP} (h : triangulateFlat tri dbg eps pos setN m = .done (idx, vs)) (hl : 2 ^ (8 * size) < vs.length) : bevySetEx tri dbg eps pos nrm setN size m dflt true b = .panic := by
  simp only [bevySetEx, bevyBuffers, h, Outcome.bind, if_neg (not_le.mpr hl), if_true]
  split
  · rfl
  · split <;> rfl

/-- C110 fails for texture coordinates: they are not part of the Bevy mesh. -/
theorem c110_uv_violated (flat : Bool) {b' : BevyMesh} (h : bevySetEx tri dbg eps pos nrm setN size m dflt flat b = .done b') : b'.attributes.lookup .uv = none := by
  obtain ⟨idx, vs, i, -, rfl⟩ := set_done h
  simp [removed, BevyMesh.insert, BevyMesh.remove, List.lookup, show (BevyAttr.uv == BevyAttr.position) = false from rfl, show (BevyAttr.uv == BevyAttr.normal) = false from rfl]
end

/-- a Bevy mesh that has been used before -/
def usedMesh : BevyMesh := ⟨.triangleList, true, some (.u16 [0, 1, 2]), [(.position, [[1, 2, 3]]), (.uv, [[0, 1]]), (.other 7, [])]⟩

/-- non-vacuity of `c110_shows_partial`: the pentagon with the dent replaces what the mesh contained -/
example (dbg : Bool) (nrm : Nat → V3) (setN : Nat → V3 → Nat) : ∃ b' idx vs, bevySetEx (fun f => triangulateFace exact dbg (place dent5) pentMesh f (fun _ => .panic) .minWeight) dbg exact.eps (place dent5) nrm setN 4 pentMesh 0 false usedMesh = .done b' ∧
    Holds (place dent5) nrm b' idx vs ∧ Shows (place dent5) pentMesh [0] idx vs := by
  have := c110_shows_partial (b := usedMesh) (size := 4) (m := pentMesh) (pos := place dent5) (dbg := dbg) (eps := exact.eps) (nrm := nrm) (setN := setN) (dflt := 0) rfl rfl (by simp) (goodB_ok (by decide +kernel)) (by decide +kernel) (by decide +kernel)
    (min_weight_runs (S := exact) (dbg := dbg) (pos := place dent5) rfl exact_symm (fun f hf => by
      have := mem_faceIds.mpr hf
      rw [pent_faces, List.mem_singleton] at this
      subst this
      obtain ⟨qs, -, A⟩ := pent_ready (ps := dent5) rfl (by decide +kernel) (flat3_simple (by decide) (by decide +kernel) (by decide +kernel)) dbg
      exact ⟨_, qs, A⟩) (fun _ _ => .panic))
  rw [pent_faces] at this
  exact this

/-- what is removed was there -/
example : usedMesh.attributes.lookup .uv ≠ none := by simp [usedMesh, List.lookup, show (BevyAttr.uv == BevyAttr.position) = false from rfl]

end Verif.R3
