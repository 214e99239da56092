import Verif.Lemmas.Decide
import Verif.Lemmas.DebugRelease
/- From the combinatorial structure and the payloads back to the stored records. -/
namespace Verif.Mesh
variable {VP EP FP : Type}

theorem edge_is {m : Mesh VP EP FP} {x : Nat} {p : EP} (hE : m.topo.E x) (hp : m.epay x = some p) :
    m.edge x = some ⟨m.topo.nxt x, m.topo.twn x, m.topo.prv x, m.topo.org x, m.topo.fac x, p⟩ := by
  obtain ⟨y, h1, h2, h3, h4, h5, h6, h7⟩ := edge_eq hE
  rw [h1, ← h2, ← h3, ← h4, ← h5, ← h6]
  rw [hp] at h7
  injection h7 with h7
  rw [h7]

theorem vertex_is {m : Mesh VP EP FP} {x : Nat} {p : VP} (hp : m.vpay x = some p) :
    m.vertex x = some ⟨m.topo.vrep x, p⟩ := by
  simp only [vpay] at hp
  cases h : m.vs.get? x with
  | none => simp [h] at hp
  | some y => simp [h] at hp; simp [vertex, h, topo, ← hp]

theorem face_is {m : Mesh VP EP FP} {x : Nat} {p : FP} {c : Bool} (hp : m.fpay x = some p) (hc : m.fcurved x = some c) :
    m.face x = some ⟨m.topo.frep x, c, p⟩ := by
  simp only [fpay, fcurved] at hp hc
  cases h : m.fs.get? x with
  | none => simp [h] at hp
  | some y => simp [h] at hp hc; simp [face, h, topo, ← hp, ← hc]

theorem edge_none {m : Mesh VP EP FP} {x : Nat} : m.edge x = none ↔ ¬ m.topo.E x := by
  cases h : m.hs.get? x <;> simp [edge, topo, h]
theorem vertex_none {m : Mesh VP EP FP} {x : Nat} : m.vertex x = none ↔ ¬ m.topo.V x := by
  cases h : m.vs.get? x <;> simp [vertex, topo, h]
theorem face_none {m : Mesh VP EP FP} {x : Nat} : m.face x = none ↔ ¬ m.topo.F x := by
  cases h : m.fs.get? x <;> simp [face, topo, h]
theorem epay_none {m : Mesh VP EP FP} {x : Nat} : m.epay x = none ↔ ¬ m.topo.E x := by
  cases h : m.hs.get? x <;> simp [epay, topo, h]
theorem vpay_none {m : Mesh VP EP FP} {x : Nat} : m.vpay x = none ↔ ¬ m.topo.V x := by
  cases h : m.vs.get? x <;> simp [vpay, topo, h]
theorem fpay_none {m : Mesh VP EP FP} {x : Nat} : m.fpay x = none ↔ ¬ m.topo.F x := by
  cases h : m.fs.get? x <;> simp [fpay, topo, h]

/-- If links and payload of a half-edge agree, so do the records. -/
theorem edge_same {m m' : Mesh VP EP FP} {x : Nat} (hp : m'.epay x = m.epay x)
    (h : m.topo.E x → m'.topo.nxt x = m.topo.nxt x ∧ m'.topo.twn x = m.topo.twn x ∧ m'.topo.prv x = m.topo.prv x ∧
      m'.topo.org x = m.topo.org x ∧ m'.topo.fac x = m.topo.fac x) : m'.edge x = m.edge x := by
  cases hx : m.epay x with
  | none =>
    rw [edge_none.mpr (epay_none.mp hx), edge_none.mpr (epay_none.mp (by rw [hp, hx]))]
  | some p =>
    have hE : m.topo.E x := by
      refine Classical.byContradiction fun h => ?_
      rw [epay_none.mpr h] at hx; simp at hx
    have hE' : m'.topo.E x := by
      refine Classical.byContradiction fun h => ?_
      rw [← hp, epay_none.mpr h] at hx; simp at hx
    obtain ⟨h1, h2, h3, h4, h5⟩ := h hE
    rw [edge_is hE hx, edge_is hE' (by rw [hp, hx]), h1, h2, h3, h4, h5]

theorem vertex_same {m m' : Mesh VP EP FP} {x : Nat} (hp : m'.vpay x = m.vpay x)
    (h : m.topo.V x → m'.topo.vrep x = m.topo.vrep x) : m'.vertex x = m.vertex x := by
  cases hx : m.vpay x with
  | none =>
    rw [vertex_none.mpr (vpay_none.mp hx), vertex_none.mpr (vpay_none.mp (by rw [hp, hx]))]
  | some p =>
    have hV : m.topo.V x := by
      refine Classical.byContradiction fun h => ?_
      rw [vpay_none.mpr h] at hx; simp at hx
    rw [vertex_is hx, vertex_is (by rw [hp, hx]), h hV]

theorem face_same {m m' : Mesh VP EP FP} {x : Nat} (hp : m'.fpay x = m.fpay x) (hc : m'.fcurved x = m.fcurved x)
    (h : m.topo.F x → m'.topo.frep x = m.topo.frep x) : m'.face x = m.face x := by
  cases hx : m.fpay x with
  | none =>
    rw [face_none.mpr (fpay_none.mp hx), face_none.mpr (fpay_none.mp (by rw [hp, hx]))]
  | some p =>
    have hF : m.topo.F x := by
      refine Classical.byContradiction fun h => ?_
      rw [fpay_none.mpr h] at hx; simp at hx
    have : ∃ c, m.fcurved x = some c := by
      obtain ⟨y, hy⟩ := hF
      exact ⟨y.curved, by simp [fcurved, hy]⟩
    obtain ⟨c, hc'⟩ := this
    rw [face_is hx hc', face_is (by rw [hp, hx]) (by rw [hc, hc']), h hF]

theorem E_of_edge {m : Mesh VP EP FP} {x : Nat} {h : HE EP} (hx : m.edge x = some h) : m.topo.E x := ⟨h, hx⟩

/-- the record of a live half-edge -/
theorem edge_rec {m : Mesh VP EP FP} {x : Nat} (hE : m.topo.E x) :
    ∃ p, m.epay x = some p ∧ m.edge x = some ⟨m.topo.nxt x, m.topo.twn x, m.topo.prv x, m.topo.org x, m.topo.fac x, p⟩ := by
  obtain ⟨y, h1, -, -, -, -, -, h7⟩ := edge_eq hE
  exact ⟨_, h7, edge_is hE h7⟩

end Verif.Mesh
