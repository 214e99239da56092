import Verif.Props.Solids
import Verif.Lemmas.Decide
/-
C64: the uv sphere.  C65: the icosahedron.  C66: the dodecahedron.
-/
namespace Verif

/-- the quadrilaterals between consecutive rows of `k` vertices each -/
def rowFaces (k : Nat) : List Nat → List (List Nat) → List (List Nat)
  | _, [] => []
  | V, W :: Ws => hemFaces 2 2 k (cyc V) (cyc W) ++ rowFaces k W Ws

theorem turn_nodup {V : List Nat} (h : V.Nodup) : (turn V).Nodup := by
  have hp : (turn V).Perm V := by
    refine ((List.reverse_perm _).append (List.reverse_perm _)).trans ?_
    rw [List.take_append_drop]
  exact hp.nodup_iff.mpr h

theorem rot_ring {α : Type} (f : α → Nat) : ∀ (V : List Nat) (t : α) (B : List α), 2 ≤ V.length → (t :: B).map f = turn V → (B ++ [t]).map f = ring V
  | a :: b :: l, t, B, _, h => by
    simp only [turn, List.map_cons, List.take_succ_cons, List.take_zero, List.drop_succ_cons, List.drop_zero, List.reverse_cons, List.reverse_nil, List.nil_append,
      List.cons_append, List.cons.injEq] at h
    simp [ring, h.1, h.2]

namespace Mesh
variable {VP EP FP : Type} {m m' : Mesh VP EP FP}

theorem adds_rows (de : EP) (df : FP) (dbg : Bool) {k : Nat} (hk : 3 ≤ k) : ∀ (rows : List (List VP)) {m : Mesh VP EP FP} (_ : m.Good) {start : Nat} {R : List Nat}
    (_ : Loop m.topo (R ++ [start]) none) {U : List Nat} (_ : (R ++ [start]).map m.topo.org = ring U) (_ : U.length = k) (_ : (R ++ [start]).length = k) (_ : U.Nodup)
    (_ : ∀ r ∈ rows, r.length = k),
    ∃ m' ret R' Ws, uvRows dbg de df rows m start = some (m', ret) ∧ Ws.map List.length = rows.map List.length ∧
      Adds m m' de df (R ++ [start]) (R' ++ [ret]) (List.zipWith List.zip Ws rows).flatten (rowFaces k U Ws) ∧
      (R' ++ [ret]).map m'.topo.org = ring (Ws.getLastD U) ∧ (Ws.getLastD U).Nodup ∧ (Ws.getLastD U).length = k
  | [], m, g, start, R, hLo, U, hU, hUl, hRl, hnd, _ => by
    refine ⟨m, start, R, [], rfl, rfl, ⟨[], [], Grow.refl g hLo, rfl⟩, hU, hnd, hUl⟩
  | r :: rows, m, g, start, R, hLo, U, hU, hUl, hRl, hnd, hr => by
    have hrl := hr r (by simp)
    obtain ⟨m1, ret1, R1, W, h1, h2, h3, h4⟩ := adds_loftBack g hLo de df hU (by omega) dbg (n := 2) (nm := 2) (k := k) (by omega) (by omega) (by omega) r (by omega) (by omega) (by omega)
    have hW : W.Nodup := by
      obtain ⟨_, _, G, -⟩ := h3
      exact G.zip_nodup h2
    have hR1 : (R1 ++ [ret1]).length = k := by
      have := congrArg List.length h4
      simp only [ring, List.length_map, List.length_append, List.length_take, List.length_reverse, List.length_drop] at this ⊢
      omega
    obtain ⟨m', ret, R', Ws, k1, k2, k3, k4, k5, k6⟩ := adds_rows de df dbg hk rows h3.good h3.loop h4 (by omega) hR1 hW (fun r' h' => hr r' (by simp [h']))
    have hlast : (W :: Ws).getLastD U = Ws.getLastD W := by cases Ws <;> rfl
    refine ⟨m', ret, R', W :: Ws, ?_, ?_, ?_, ?_, ?_, ?_⟩
    · simp [uvRows, h1, k1]
    · simp [h2, k2]
    · have := h3.trans k3
      simpa [rowFaces] using this
    · rw [hlast]; exact k4
    · rw [hlast]; exact k5
    · rw [hlast]; exact k6

end Mesh
end Verif

namespace Verif.MeshProps
open Mesh
variable {VP EP FP : Type}

theorem rows_sum (k : Nat) : ∀ (Ws : List (List Nat)) (V : List Nat), V.length = k → (∀ W ∈ Ws, W.length = k) → 1 ≤ k →
    ((rowFaces k V Ws).map List.length).sum = 4 * k * Ws.length ∧ (rowFaces k V Ws).length = k * Ws.length
  | [], _, _, _, _ => by simp [rowFaces]
  | W :: Ws, V, hV, hW, hk => by
    have hWk := hW W (by simp)
    obtain ⟨h1, h2⟩ := rows_sum k Ws W hWk (fun x hx => hW x (by simp [hx])) hk
    simp only [rowFaces, List.map_append, List.sum_append, List.length_append, h1, h2, List.length_cons, hem_length]
    rw [hem_sum k _ _ (by simp [cyc]; omega) (by simp [cyc]; omega)]
    constructor <;> simp [Nat.mul_add] <;> omega

/-- `uv_sphere`: `n - 1` rows of `m` vertices and two poles; `m` triangles at each pole and `n - 2` rows of `m` quadrilaterals; closed. -/
theorem c64_uv_sphere (dbg : Bool) (de : EP) (df : FP) (vp : Nat → Nat → VP) {n m : Nat} (hn : 2 ≤ n) (hm : 3 ≤ m) :
    ∃ s V Ws a b, uvSphere dbg de df vp n m = some s ∧ V.length = m ∧ Ws.length = n - 2 ∧ (∀ W ∈ Ws, W.length = m) ∧
      Adds empty s de df [] [] (V.zip ((List.range m).map (vp 1)) ++ [(a, vp 0 0)] ++
          (List.zipWith List.zip Ws ((List.range (n - 2)).map fun i => (List.range m).map (vp (i + 2)))).flatten ++ [(b, vp n 0)])
        (fanFaces V a ++ rowFaces m V Ws ++ fanFaces (turn (Ws.getLastD V)) b) ∧
      s.vs.len = (n - 1) * m + 2 ∧ s.fs.len = n * m ∧ s.hs.len = 2 * (2 * n - 1) * m := by
  obtain ⟨m1, e, A, t, B, V, es, h1, h2, h3, h4, h5, h6, h7⟩ := loop_two (m := (empty : Mesh VP EP FP)) good_empty dbg de ((List.range m).map (vp 1)) (by simpa using hm)
  have hVm : V.length = m := by simpa using h3
  have htE : m1.topo.E t := h2.loopB.live t (by simp)
  obtain ⟨m2, a, k1, k2⟩ := adds_apex h2.good h2.loopA (h5 ▸ h4) dbg de df (vp 0 0)
  rw [h5] at k2
  obtain ⟨j1, j2⟩ := h2.symm.close k2
  have j3 : Adds empty m2 de df [] (B ++ [t]) (V.zip ((List.range m).map (vp 1)) ++ [(a, vp 0 0)]) (fanFaces V a) := Adds.rot (A := [t]) (B := B) j1
  have horg : (B ++ [t]).map m2.topo.org = ring V := by
    refine rot_ring _ V t B (by omega) ?_
    rw [← h6]
    exact List.map_congr_left j2
  have hBl : (B ++ [t]).length = m := by
    have := congrArg List.length horg
    simp only [ring, List.length_map, List.length_append, List.length_take, List.length_reverse, List.length_drop] at this ⊢
    omega
  obtain ⟨m3, ret, R', Ws, q1, q2, q3, q4, q5, q6⟩ := adds_rows de df dbg hm ((List.range (n - 2)).map fun i => (List.range m).map (vp (i + 2))) j3.good j3.loop horg hVm hBl h4
    (by intro r hr; obtain ⟨i, -, rfl⟩ := List.mem_map.mp hr; simp)
  have hB := j3.trans q3
  have hB' : Adds empty m3 de df [] (ret :: R') _ _ := Adds.rot (A := R') (B := [ret]) hB
  have horg2 := ring_rot m3.topo.org (Ws.getLastD V) ret R' (by omega) q4
  obtain ⟨s, b, r1, r2⟩ := adds_apex hB'.good hB'.loop (by rw [horg2]; exact turn_nodup q5) dbg de df (vp n 0)
  rw [horg2] at r2
  have hfull := hB'.trans r2
  have hWsl : Ws.length = n - 2 := by
    have := congrArg List.length q2
    simpa using this
  have hWs : ∀ W ∈ Ws, W.length = m := by
    intro W hW
    have : W.length ∈ Ws.map List.length := List.mem_map.mpr ⟨W, hW, rfl⟩
    rw [q2, List.map_map] at this
    obtain ⟨i, -, hi⟩ := List.mem_map.mp this
    simpa using hi.symm
  have hc := hfull.counts good_empty
  have hz : ∀ (Ws : List (List Nat)) (rows : List (List VP)), (∀ W ∈ Ws, W.length = m) → (∀ r ∈ rows, r.length = m) → Ws.length = rows.length →
      ((List.zipWith List.zip Ws rows).flatten).length = m * Ws.length := by
    intro Ws
    induction Ws with
    | nil => intro rows _ _ _; simp
    | cons W Ws ih =>
      intro rows h1 h2 h3
      cases rows with
      | nil => simp at h3
      | cons r rows =>
        simp only [List.zipWith_cons_cons, List.flatten_cons, List.length_append, List.length_zip, h1 W (by simp), h2 r (by simp), List.length_cons,
          ih rows (fun x hx => h1 x (by simp [hx])) (fun x hx => h2 x (by simp [hx])) (by simpa using h3), Nat.mul_add]
        simp; omega
  obtain ⟨s1, s2⟩ := fan_sum V a
  obtain ⟨s3, s4⟩ := fan_sum (turn (Ws.getLastD V)) b
  obtain ⟨s5, s6⟩ := rows_sum m Ws V hVm hWs (by omega)
  obtain ⟨d, rfl⟩ : ∃ d, n = d + 2 := ⟨n - 2, by omega⟩
  refine ⟨s, V, Ws, a, b, ?_, hVm, hWsl, hWs, hfull, ?_, ?_, ?_⟩
  · have hlt : ¬ (d + 2 < 2 ∨ m < 3) := by omega
    simp [uvSphere, hlt, h1, twinId_eq htE, h7, k1, r1] at q1 ⊢
    simp [q1, r1]
  · rw [hc.1]
    have := hz Ws ((List.range (d + 2 - 2)).map fun i => (List.range m).map (vp (i + 2))) hWs (by intro r hr; obtain ⟨i, -, rfl⟩ := List.mem_map.mp hr; simp) (by simpa using hWsl)
    have e1 : (empty : Mesh VP EP FP).vs.len = 0 := rfl
    have e2 : (d + 2 - 1) * m = d * m + m := by rw [show d + 2 - 1 = d + 1 by omega, Nat.add_mul, Nat.one_mul]
    have e3 : m * (d + 2 - 2) = d * m := by rw [Nat.add_sub_cancel, Nat.mul_comm]
    simp only [List.length_append, this, hWsl, e1, e2, e3, List.length_zip, List.length_map, List.length_range, hVm, List.length_cons, List.length_nil]
    omega
  · rw [hc.2.2]
    have e1 : (empty : Mesh VP EP FP).fs.len = 0 := rfl
    have e2 : (d + 2) * m = d * m + 2 * m := Nat.add_mul ..
    have e3 : m * (d + 2 - 2) = d * m := by rw [Nat.add_sub_cancel, Nat.mul_comm]
    simp only [List.length_append, s2, s4, s6, length_turn, hWsl, hVm, q6, e1, e2, e3]
    omega
  · rw [hc.2.1]
    simp only [List.map_append, List.sum_append, s1, s3, s5, length_turn, hWsl, hVm, q6]
    have e1 : (empty : Mesh VP EP FP).hs.len = 0 := rfl
    have e2 : 2 * (2 * (d + 2) - 1) * m = 4 * (d * m) + 6 * m := by
      have : 2 * (2 * (d + 2) - 1) = 4 * d + 6 := by omega
      rw [this, Nat.add_mul, Nat.mul_assoc]
    have e3 : 4 * m * (d + 2 - 2) = 4 * (d * m) := by rw [Nat.add_sub_cancel, Nat.mul_assoc, Nat.mul_comm m d]
    rw [e1, e2, e3]
    omega

/-- with fewer rings or columns it panics -/
theorem c64_uv_sphere_panics (dbg : Bool) (de : EP) (df : FP) (vp : Nat → Nat → VP) {n m : Nat} (h : n < 2 ∨ m < 3) : uvSphere dbg de df vp n m = none := by
  simp [uvSphere, h]

example : ∃ s, uvSphere true () () (fun i j => (i, j)) 4 5 = some (s : Mesh (Nat × Nat) Unit Unit) ∧ s.Good ∧ s.vs.len = 17 ∧ s.fs.len = 20 ∧ s.hs.len = 70 :=
  ⟨_, (Option.some_get (by decide +kernel)).symm, goodB_ok (by decide +kernel), by decide +kernel, by decide +kernel, by decide +kernel⟩

/-- `regular_icosahedron`: twelve corners, twenty triangles, thirty edges. -/
theorem c65_icosahedron {K : Type} [Neg K] [Zero K] (dbg : Bool) (de : EP) (df : FP) (vp : K → K → K → VP) (long short : K) :
    ∃ m' a b c d e z a' b' c' d' e' z', regularIcosahedron dbg de df vp long short = some m' ∧
      Adds empty m' de df [] [] [(a, vp 0 long (-short)), (b, vp long short 0), (c, vp short 0 long), (d, vp (-short) 0 long), (e, vp (-long) short 0), (z, vp 0 long short),
          (a', vp short 0 (-long)), (b', vp long (-short) 0), (c', vp 0 (-long) short), (d', vp (-long) (-short) 0), (e', vp (-short) 0 (-long)), (z', vp 0 (-long) (-short))]
        [[b, a, z], [a, e, z], [e, d, z], [d, c, z], [c, b, z],
         [a, b, a'], [b, b', a'], [b, c, b'], [c, c', b'], [c, d, c'], [d, d', c'], [d, e, d'], [e, e', d'], [e, a, e'], [a, a', e'],
         [a', b', z'], [b', c', z'], [c', d', z'], [d', e', z'], [e', a', z']] ∧
      m'.vs.len = 12 ∧ m'.hs.len = 60 ∧ m'.fs.len = 20 := by
  obtain ⟨m1, e, A, t, B, V, es, h1, h2, h3, h4, h5, h6, h7⟩ := loop_two (m := (empty : Mesh VP EP FP)) good_empty dbg de [vp 0 long (-short), vp long short 0, vp short 0 long, vp (-short) 0 long, vp (-long) short 0] (by simp)
  have htE : m1.topo.E t := h2.loopB.live t (by simp)
  obtain ⟨m2, z, k1, k2⟩ := adds_apex h2.good h2.loopB (by rw [h6]; exact turn_nodup h4) dbg de df (vp 0 long short)
  rw [h6] at k2
  obtain ⟨j1, j2⟩ := h2.close k2
  have htE2 : m2.topo.E t ∧ m2.topo.twn t = e := by
    obtain ⟨_, _, G, -⟩ := k2
    exact ⟨G.Eold htE, by rw [(G.twn_org htE).1, h7]⟩
  have horg : (e :: A).map m2.topo.org = V := by
    rw [← h5]; exact List.map_congr_left j2
  have hl : (e :: A).length = 5 := by
    have := congrArg List.length horg
    simpa [h3] using this
  obtain ⟨m3, ret, R', W, q1, q2, q3, q4⟩ := adds_loftTri j1.good j1.loop de df dbg (fun _ => j1.loop.no_loop j1.good.wf (by rw [horg]; exact h4))
    [vp short 0 (-long), vp long (-short) 0, vp 0 (-long) short, vp (-long) (-short) 0, vp (-short) 0 (-long)] (by rw [hl]; rfl) (fun _ => by simp)
  rw [horg] at q3
  have hWn : W.Nodup := by
    obtain ⟨_, _, G, -⟩ := q3
    exact G.zip_nodup q2
  obtain ⟨m', z', r1, r2⟩ := adds_apex q3.good q3.loop (by rw [q4]; exact hWn) dbg de df (vp 0 (-long) (-short))
  rw [q4] at r2
  have hfull := (j1.trans q3).trans r2
  have hc := hfull.counts good_empty
  match V, h3, W, q2 with
  | [a, b, c, d, e], _, [a', b', c', d', e'], _ =>
    refine ⟨m', a, b, c, d, e, z, a', b', c', d', e', z', ?_, hfull, ?_, ?_, ?_⟩
    · simp [regularIcosahedron, h1, k1, twinId_eq htE2.1, htE2.2, q1, r1]
    · simpa [empty, Store.len, Store.empty] using hc.1
    · simpa [empty, Store.len, Store.empty, fanFaces, triFaces, turn, cyc] using hc.2.1
    · simpa [empty, Store.len, Store.empty, fanFaces, triFaces, turn, cyc] using hc.2.2

example : ∃ s, regularIcosahedron true () () (fun x y z => (x, y, z)) 16 10 = some (s : Mesh (Int × Int × Int) Unit Unit) ∧ s.Good ∧ s.vs.len = 12 ∧ s.fs.len = 20 ∧ s.hs.len = 60 :=
  ⟨_, (Option.some_get (by decide +kernel)).symm, goodB_ok (by decide +kernel), by decide +kernel, by decide +kernel, by decide +kernel⟩

/-- `dodecahedron` panics in debug builds: the half-edge from vertex 1 to vertex 0, where the second row of pentagons is attached, lies in the first pentagon, not on its boundary.
    In release builds the first two faces share one loop of half-edges and the outside of the first pentagon stays open.  The mesh does not look at the payloads. -/
theorem c66_dodecahedron_false :
    dodecahedron true () () (fun x y z => (x, y, z)) (10 : Int) 16 6 = (none : Option (Mesh (Int × Int × Int) Unit Unit)) ∧
    ∃ m, dodecahedron false () () (fun x y z => (x, y, z)) (10 : Int) 16 6 = some (m : Mesh (Int × Int × Int) Unit Unit) ∧ ¬ m.topo.WF ∧
      m.topo.F 0 ∧ m.topo.fac (m.topo.frep 0) = some 1 ∧ m.isBoundarySelf 0 = some true := by
  refine ⟨by decide +kernel, _, (Option.some_get (by decide +kernel)).symm, ?_, ⟨_, (Option.some_get (by decide +kernel)).symm⟩, by decide +kernel, by decide +kernel⟩
  intro w
  have := (w.frep_ok 0 ⟨_, (Option.some_get (by decide +kernel)).symm⟩).2
  exact absurd this (by decide +kernel)

/-- What is left of it: in release builds there are 20 vertices, 60 half-edges and 12 faces. -/
theorem c66_dodecahedron_partial :
    ∃ m, dodecahedron false () () (fun x y z => (x, y, z)) (10 : Int) 16 6 = some (m : Mesh (Int × Int × Int) Unit Unit) ∧ m.vs.len = 20 ∧ m.hs.len = 60 ∧ m.fs.len = 12 :=
  ⟨_, (Option.some_get (by decide +kernel)).symm, by decide +kernel, by decide +kernel, by decide +kernel⟩

end Verif.MeshProps
