import Verif.Lemmas.SolidGeo
/-
C69: geodesic spheres. C70: the regular solids are regular.
Real arithmetic; `0 < eps ≤ 1` stands for the machine epsilon.
-/
namespace Verif.R3
open Mesh MeshProps
variable {VP EP FP : Type} {pos : VP → V3} {fromPos : V3 → VP}

/-- a closed triangle mesh whose corners are at distance `r` from the origin, whose edges all have length `l` and whose faces face outwards; the origin is the mean of its corners -/
structure Regular (pos : VP → V3) (r l : ℝ) (m : Mesh VP EP FP) : Prop where
  good : m.Good
  tri : m.topo.TriMesh
  sphere : OnSphere pos r m
  outward : Outward pos m
  edges : ∀ e, m.topo.E e → len (posOf pos m (m.topo.org e) - posOf pos m (m.topo.org (m.topo.twn e))) = l
  centre : centroid pos m = 0

theorem Solid.regular {m : Mesh VP EP FP} {D q n r l : ℝ} (s : Solid pos m D q n) (hD : 0 < D) (hr : 0 ≤ r) (hl : 0 ≤ l) (h1 : n = r * r) (h2 : 2 * (n - q) = l * l) : Regular pos r l m := by
  refine ⟨s.good, s.tri, fun v hv => ?_, fun e he => ?_, fun e he => ?_, s.centre⟩
  · rw [len, s.norm v hv, h1, Real.sqrt_mul_self hr]
  · rw [s.det e he]; exact hD
  · have k1 := s.norm _ (s.tri.wf.org_live e he)
    have k2 := s.norm _ (s.tri.wf.org_live _ (s.tri.wf.twn_live e he))
    have k3 := s.dot e he
    generalize posOf pos m (m.topo.org e) = A at *
    generalize posOf pos m (m.topo.org (m.topo.twn e)) = B at *
    have : R3.dot (A - B) (A - B) = l * l := by
      rw [← h2]
      have : R3.dot (A - B) (A - B) = R3.dot A A - 2 * R3.dot A B + R3.dot B B := by simp only [R3.dot, Pi.sub_apply]; ring
      rw [this, k1, k2, k3]; ring
    rw [len, this, Real.sqrt_mul_self hl]

theorem sqrt_ico : √(10 + 2 * √5) * √(10 + 2 * √5) = 4 * (phi + 2) := by
  rw [Real.mul_self_sqrt (by positivity), phi]; ring

/-- C70: `regular_icosahedron(l)` is regular: edge length `l`, and the radius is `icosahedron_a2r(l)`. -/
theorem c70_icosahedron (hp : ∀ x, pos (fromPos x) = x) (dbg : Bool) (de : EP) (df : FP) {l : ℝ} (hl : 0 < l) :
    ∃ m : Mesh VP EP FP, icosahedron dbg de df fromPos l = some m ∧ Regular pos (icosahedronA2r l) l m := by
  obtain ⟨m, h1, -, -, -, h2⟩ := icosahedron_solid (EP := EP) (FP := FP) (pos := pos) hp dbg de df hl
  have hb := phi_bounds
  have hq := sqrt_ico
  refine ⟨m, h1, h2.regular ?_ ?_ hl.le ?_ ?_⟩
  · have : 0 < phi := by linarith
    positivity
  · rw [icosahedronA2r]; positivity
  · rw [icosahedronA2r]
    have : √(10 + 2 * √5) * l / 4 * (√(10 + 2 * √5) * l / 4) = (√(10 + 2 * √5) * √(10 + 2 * √5)) * (l * l) / 16 := by ring
    rw [this, hq]; ring
  · ring

/-- C70: `icosahedron_r2a` and `icosahedron_a2r` are inverse to each other. -/
theorem c70_r2a (x : ℝ) : icosahedronA2r (icosahedronR2a x) = x ∧ icosahedronR2a (icosahedronA2r x) = x := by
  have h : √(10 + 2 * √5) ≠ 0 := (Real.sqrt_pos.mpr (by positivity)).ne'
  constructor <;> · simp only [icosahedronA2r, icosahedronR2a]; field_simp

/-- C70: `regular_tetrahedron(l)` is regular with edge length `l`. -/
theorem c70_tetrahedron (hp : ∀ x, pos (fromPos x) = x) (dbg : Bool) (de : EP) (df : FP) {l : ℝ} (hl : 0 < l) :
    ∃ m : Mesh VP EP FP, tetrahedron dbg de df fromPos l = some m ∧ Regular pos (√(3 / 8) * l) l m := by
  obtain ⟨m, h1, -, -, -, h2⟩ := tetrahedron_solid (EP := EP) (FP := FP) (pos := pos) hp dbg de df hl
  have h20 : 0 < √2 := Real.sqrt_pos.mpr (by norm_num)
  refine ⟨m, h1, h2.regular (by positivity) (by positivity) hl.le ?_ ?_⟩
  · have : √(3 / 8) * l * (√(3 / 8) * l) = (√(3 / 8) * √(3 / 8)) * (l * l) := by ring
    rw [this, Real.mul_self_sqrt (by norm_num)]; ring
  · ring

/-- C70: `regular_octahedron(radius)` is regular with the given radius. -/
theorem c70_octahedron (hp : ∀ x, pos (fromPos x) = x) (dbg : Bool) (de : EP) (df : FP) {r : ℝ} (hr : 0 < r) :
    ∃ m : Mesh VP EP FP, octahedron dbg de df fromPos r = some m ∧ Regular pos r (√2 * r) m := by
  obtain ⟨m, h1, -, -, -, h2⟩ := octahedron_solid (EP := EP) (FP := FP) (pos := pos) hp dbg de df hr
  refine ⟨m, h1, h2.regular (by positivity) hr.le (by positivity) rfl ?_⟩
  have : √2 * r * (√2 * r) = (√2 * √2) * (r * r) := by ring
  rw [this, Real.mul_self_sqrt (by norm_num)]; ring

example : ∃ m : Mesh V3 Unit Unit, icosahedron true () () id 2 = some m ∧ Regular id (icosahedronA2r 2) 2 m := c70_icosahedron (fun _ => rfl) true () () (by norm_num)

/-- what `geodesic_*` should return: a closed triangle mesh on the sphere of radius `r` with `v0 + e0 (4^k - 1) / 3` vertices, `e0 * 4^k` edges and `f0 * 4^k` faces -/
structure Geodesic (pos : VP → V3) (r : ℝ) (k e0 f0 : Nat) (m : Mesh VP EP FP) : Prop where
  good : m.Good
  tri : m.topo.TriMesh
  faces : m.fs.len = f0 * 4 ^ k
  edges : m.hs.len = 2 * (e0 * 4 ^ k)
  euler : m.vs.len + m.fs.len = e0 * 4 ^ k + 2
  sphere : OnSphere pos r m

theorem geodesic_run (hp : ∀ x, pos (fromPos x) = x) {eps r : ℝ} (he : 0 < eps) (he1 : eps ≤ 1) (hr : 0 < r) {de : EP} {m : Mesh VP EP FP} {D q n : ℝ} (s : Solid pos m D q n)
    (hn : 0 < n) (hq : 0 ≤ q ∨ q = -n / 3) (dbg : Bool) (k : Nat) :
    ∃ m', geodesic dbg eps de pos fromPos r (2 ^ k) m = some m' ∧ m'.Good ∧ m'.topo.TriMesh ∧ Refined pos r eps k m m' := by
  have hJ : Acute pos m ∨ Equi pos m := by
    rcases hq with h | h
    · exact .inl ⟨fun v hv => by rw [s.norm v hv]; exact hn, fun e hE => by rw [s.dot e hE]; exact h⟩
    · exact .inr ⟨n, hn, s.norm, fun e hE => by rw [s.dot e hE, h]⟩
  obtain ⟨m', h1, h2, h3, h4⟩ := geo_frequency (de := de) hp he he1 hr s.good s.tri hJ dbg k
  refine ⟨m', ?_, h2, h3, h4⟩
  rw [geodesic, if_neg, h1]
  rintro ⟨-, h⟩
  refine h fun d => ?_
  rw [s.centre]; simpa using he

theorem geodesic_ok (hp : ∀ x, pos (fromPos x) = x) {eps r : ℝ} (he : 0 < eps) (he1 : eps ≤ 1) (hr : 0 < r) {de : EP} {m : Mesh VP EP FP} {D q : ℝ} (s : Solid pos m D q (r * r))
    (hq : 0 ≤ q) (dbg : Bool) (k : Nat) {v0 e0 f0 : Nat} (hv : m.vs.len = v0) (hE : m.hs.len = 2 * e0) (hf : m.fs.len = f0) (heu : v0 + f0 = e0 + 2) {v : ℝ} (hD : v * (r * r * r) ≤ D) (hv0 : 0 < v) :
    ∃ m', geodesic dbg eps de pos fromPos r (2 ^ k) m = some m' ∧ Geodesic pos r k e0 f0 m' ∧ (√eps * 4 ^ k ≤ v → Outward pos m') := by
  obtain ⟨m', h1, h2, h3, h4⟩ := geodesic_run (de := de) hp he he1 hr s (mul_pos hr hr) (.inl hq) dbg k
  refine ⟨m', h1, ⟨h2, h3, by rw [h4.faces, hf], by rw [h4.edges, hE]; ring, ?_, ?_⟩, ?_⟩
  · have e1 := h4.euler
    have e2 := h4.edges
    rw [hE] at e1 e2
    have : 2 * e0 * 4 ^ k = 2 * (e0 * 4 ^ k) := by ring
    omega
  · intro x hx
    have : dot (posOf pos m' x) (posOf pos m' x) = r * r := by
      rcases h4.new x hx with h | h
      · rw [posOf, (h4.old x h).2]; exact s.norm x h
      · exact h
    rw [len, this, Real.sqrt_mul_self hr.le]
  · intro hk e hE'
    have := (h4.vol v hk ⟨s.norm, fun e h => by rw [s.det e h]; exact hD⟩).vol e hE'
    refine lt_of_lt_of_le ?_ this
    positivity

/-- C69: `geodesic_icosahedron(radius, 2^k)` (and its alias `icosphere`): a closed triangle mesh with `10 * 4^k + 2` vertices, `30 * 4^k` edges and `20 * 4^k` faces, all vertices on the sphere.
All faces face outwards as long as no edge is so short that `slerp` no longer interpolates. -/
theorem c69_icosahedron (hp : ∀ x, pos (fromPos x) = x) {eps r : ℝ} (he : 0 < eps) (he1 : eps ≤ 1) (hr : 0 < r) (dbg : Bool) (de : EP) (df : FP) (k : Nat) :
    ∃ m : Mesh VP EP FP, geodesicIcosahedron dbg eps de df pos fromPos r (2 ^ k) = some m ∧ Geodesic pos r k 30 20 m ∧ m.vs.len = 10 * 4 ^ k + 2 ∧
      (√eps * 4 ^ k ≤ 3 / 4 → Outward pos m) := by
  have hq := sqrt_ico
  have hs : 0 < √(10 + 2 * √5) := Real.sqrt_pos.mpr (by positivity)
  obtain ⟨hb1, hb2⟩ := phi_bounds
  have hl : 0 < icosahedronR2a r := by rw [icosahedronR2a]; positivity
  obtain ⟨m, h1, h2, h3, h4, h5⟩ := icosahedron_solid (EP := EP) (FP := FP) (pos := pos) hp dbg de df hl
  obtain ⟨S, hS⟩ : ∃ S, icosahedronR2a r / 2 = S := ⟨_, rfl⟩
  have hSr : 2 * r = √(10 + 2 * √5) * S := by
    rw [← hS, icosahedronR2a]; field_simp; norm_num
  rw [hS] at h5
  have hS0 : 0 < S := by rw [← hS]; linarith
  have hn : (phi + 2) * (S * S) = r * r := by
    have : (2 * r) * (2 * r) = (√(10 + 2 * √5) * √(10 + 2 * √5)) * (S * S) := by rw [hSr]; ring
    rw [hq] at this; linarith
  rw [hn] at h5
  have hD : 3 / 4 * (r * r * r) ≤ 2 * (phi * phi) * (S * S * S) := by
    have hw : √(10 + 2 * √5) ≤ 3.82 := by
      rw [show (10 : ℝ) + 2 * √5 = 4 * (phi + 2) by rw [phi]; ring]
      exact Real.sqrt_le_iff.mpr ⟨by norm_num, by nlinarith⟩
    have hr' : r ≤ 1.91 * S := by nlinarith
    have : r * r * r ≤ 3.6181 * (S * S) * (1.91 * S) := by
      rw [← hn]
      exact mul_le_mul (mul_le_mul_of_nonneg_right (by linarith) (by positivity)) hr' hr.le (by positivity)
    rw [phi_sq]
    have hS3 : 0 < S * S * S := by positivity
    nlinarith
  obtain ⟨m', k1, k2, k3⟩ := geodesic_ok (de := de) hp he he1 hr h5 (mul_nonneg (by linarith) (by positivity)) dbg k h2 (e0 := 30) (by rw [h3]) h4 (by norm_num) hD (by norm_num)
  refine ⟨m', by rw [geodesicIcosahedron, h1]; exact k1, k2, ?_, k3⟩
  have := k2.euler; have := k2.faces; omega

/-- the positions themselves as payloads, 64-bit floating point: 128 subdivisions -/
example : ∃ m : Mesh V3 Unit Unit, geodesicIcosahedron true (1 / 2 ^ 52) () () id id 3 128 = some m ∧ m.vs.len = 163842 ∧ m.fs.len = 327680 ∧ OnSphere id 3 m ∧ Outward id m := by
  obtain ⟨m, h1, h2, h3, h4⟩ := c69_icosahedron (VP := V3) (pos := id) (fromPos := id) (fun _ => rfl) (eps := 1 / 2 ^ 52) (r := 3) (by norm_num) (by norm_num) (by norm_num) true () () 7
  refine ⟨m, by simpa using h1, by simpa using h3, by simpa using h2.faces, h2.sphere, h4 ?_⟩
  rw [show (1 / 2 ^ 52 : ℝ) = (1 / 2 ^ 26) ^ 2 by norm_num, Real.sqrt_sq (by norm_num)]; norm_num

/-- C69: `geodesic_octahedron(radius, 2^k)`: a closed triangle mesh with `4 * 4^k + 2` vertices, `12 * 4^k` edges and `8 * 4^k` faces, all vertices on the sphere. -/
theorem c69_octahedron (hp : ∀ x, pos (fromPos x) = x) {eps r : ℝ} (he : 0 < eps) (he1 : eps ≤ 1) (hr : 0 < r) (dbg : Bool) (de : EP) (df : FP) (k : Nat) :
    ∃ m : Mesh VP EP FP, geodesicOctahedron dbg eps de df pos fromPos r (2 ^ k) = some m ∧ Geodesic pos r k 12 8 m ∧ m.vs.len = 4 * 4 ^ k + 2 ∧
      (√eps * 4 ^ k ≤ 1 → Outward pos m) := by
  obtain ⟨m, h1, h2, h3, h4, h5⟩ := octahedron_solid (EP := EP) (FP := FP) (pos := pos) hp dbg de df hr
  obtain ⟨m', k1, k2, k3⟩ := geodesic_ok (de := de) (v := 1) hp he he1 hr h5 (le_refl _) dbg k h2 (e0 := 12) (by rw [h3]) h4 (by norm_num) (by rw [one_mul]) (by norm_num)
  refine ⟨m', by rw [geodesicOctahedron, h1]; exact k1, k2, ?_, k3⟩
  have := k2.euler; have := k2.faces; omega

/-- C69, the part that holds for `geodesic_tetrahedron(radius, 2^k)`: a closed triangle mesh with `2 * 4^k + 2` vertices and `4 * 4^k` faces; all vertices but the first four are on the sphere. -/
theorem c69_tetrahedron_partial (hp : ∀ x, pos (fromPos x) = x) {eps r : ℝ} (he : 0 < eps) (he1 : eps ≤ 1) (hr : 0 < r) (dbg : Bool) (de : EP) (df : FP) (k : Nat) :
    ∃ m0 m : Mesh VP EP FP, tetrahedron dbg de df fromPos r = some m0 ∧ m0.vs.len = 4 ∧ geodesicTetrahedron dbg eps de df pos fromPos r (2 ^ k) = some m ∧ m.Good ∧ m.topo.TriMesh ∧
      m.fs.len = 4 * 4 ^ k ∧ m.hs.len = 12 * 4 ^ k ∧ m.vs.len = 2 * 4 ^ k + 2 ∧
      (∀ v, m0.topo.V v → m.topo.V v ∧ len (posOf pos m v) = √(3 / 8) * r) ∧ ∀ v, m.topo.V v → ¬ m0.topo.V v → len (posOf pos m v) = r := by
  obtain ⟨m, h1, h2, h3, h4, h5⟩ := tetrahedron_solid (EP := EP) (FP := FP) (pos := pos) hp dbg de df hr
  obtain ⟨m', k1, k2, k3, k4⟩ := geodesic_run (de := de) hp he he1 hr h5 (by positivity) (.inr (by ring)) dbg k
  refine ⟨m, m', h1, h2, by rw [geodesicTetrahedron, h1]; exact k1, k2, k3, by rw [k4.faces, h4], by rw [k4.edges, h3], ?_, ?_, ?_⟩
  · have := k4.euler
    have := k4.faces
    have := k4.edges
    rw [h4] at *
    rw [h3] at *
    omega
  · intro v hv
    obtain ⟨a, b⟩ := k4.old v hv
    refine ⟨a, ?_⟩
    have : dot (posOf pos m' v) (posOf pos m' v) = √(3 / 8) * r * (√(3 / 8) * r) := by
      rw [posOf, b, show √(3 / 8) * r * (√(3 / 8) * r) = (√(3 / 8) * √(3 / 8)) * (r * r) by ring, Real.mul_self_sqrt (by norm_num)]
      exact (h5.norm v hv).trans (by ring)
    rw [len, this, Real.sqrt_mul_self (by positivity)]
  · intro v hv hv'
    rw [len, (k4.new v hv).resolve_left hv', Real.sqrt_mul_self hr.le]

/-- C69 does not hold for `geodesic_tetrahedron`: the radius is passed on as an edge length, so that the four original corners are too close to the centre, for every radius and every `k`. -/
theorem c69_tetrahedron_false (hp : ∀ x, pos (fromPos x) = x) {eps r : ℝ} (he : 0 < eps) (he1 : eps ≤ 1) (hr : 0 < r) (dbg : Bool) (de : EP) (df : FP) (k : Nat) :
    ∃ m : Mesh VP EP FP, geodesicTetrahedron dbg eps de df pos fromPos r (2 ^ k) = some m ∧ ¬ OnSphere pos r m := by
  obtain ⟨m0, m, h1, h2, h3, -, -, -, -, -, h4, -⟩ := c69_tetrahedron_partial (EP := EP) (FP := FP) hp he he1 hr dbg de df k
  refine ⟨m, h3, fun hs => ?_⟩
  obtain ⟨v, hv⟩ : ∃ v, m0.topo.V v := by
    obtain ⟨m0', a, b, c, d, k1, k2, -⟩ := c63_tetrahedron (EP := EP) (FP := FP) dbg de df (vp3 fromPos) (1 / 2 * r) (1 / 2 * r / √2)
    have : m0 = m0' := Option.some.inj (h1.symm.trans k1)
    exact ⟨a, this ▸ (k2.verts a).mpr ⟨_, by simp; exact .inl rfl, rfl⟩⟩
  obtain ⟨a, b⟩ := h4 v hv
  rw [hs v a] at b
  have : √(3 / 8) < 1 := by
    rw [Real.sqrt_lt' (by norm_num)]; norm_num
  nlinarith

example : ∃ m : Mesh V3 Unit Unit, geodesicOctahedron true (1 / 2 ^ 52) () () id id 3 128 = some m ∧ m.vs.len = 65538 ∧ m.fs.len = 131072 ∧ OnSphere id 3 m ∧ Outward id m := by
  obtain ⟨m, h1, h2, h3, h4⟩ := c69_octahedron (VP := V3) (pos := id) (fromPos := id) (fun _ => rfl) (eps := 1 / 2 ^ 52) (r := 3) (by norm_num) (by norm_num) (by norm_num) true () () 7
  refine ⟨m, by simpa using h1, by simpa using h3, by simpa using h2.faces, h2.sphere, h4 ?_⟩
  rw [show (1 / 2 ^ 52 : ℝ) = (1 / 2 ^ 26) ^ 2 by norm_num, Real.sqrt_sq (by norm_num)]; norm_num

example : ∃ m : Mesh V3 Unit Unit, geodesicTetrahedron true (1 / 2 ^ 52) () () id id 1 4 = some m ∧ m.Good ∧ m.vs.len = 34 ∧ ¬ OnSphere id 1 m := by
  obtain ⟨m, h1, h2⟩ := c69_tetrahedron_false (VP := V3) (EP := Unit) (FP := Unit) (pos := id) (fromPos := id) (fun _ => rfl) (eps := 1 / 2 ^ 52) (r := 1) (by norm_num) (by norm_num) (by norm_num) true () () 2
  obtain ⟨m0, m', -, -, h3, h4, -, -, -, h5, -⟩ :=
    c69_tetrahedron_partial (VP := V3) (EP := Unit) (FP := Unit) (pos := id) (fromPos := id) (fun _ => rfl) (eps := 1 / 2 ^ 52) (r := 1) (by norm_num) (by norm_num) (by norm_num) true () () 2
  obtain rfl : m = m' := Option.some.inj (h1.symm.trans h3)
  exact ⟨m, by simpa using h1, h4, by simpa using h5, h2⟩

/-- C69: any other number of subdivisions is refused. -/
theorem c69_refused {eps r : ℝ} {de : EP} {dbg : Bool} {n : Nat} (h : ¬ ∃ k, n = 2 ^ k) (m : Mesh VP EP FP) : geodesic dbg eps de pos fromPos r n m = none := by
  rw [geodesic]
  split
  · rfl
  · exact c52_refused (.inr h)

end Verif.R3
