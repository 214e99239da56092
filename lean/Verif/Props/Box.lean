import Verif.Lemmas.Box
import Verif.Props.Face3d
import Verif.Props.IsoFull
/-
C113: all ways of building a box give the box, and `is_isomorphic_by_pos` tells boxes apart exactly by their size and handedness.
-/
namespace Verif.R3
open Mesh MeshProps
variable {VP EP FP VP' EP' FP' : Type}

/-! ### the three meshes are boxes -/

/-- the vertex with a given payload -/
def vertexAt (s : Mesh Corner Unit Unit) (k : Corner) : Nat := ((List.range 8).find? fun v => s.vpay v = some k).getD 0

/-- the half-edges of the faces, rotated such that they start as in `Side.corners` -/
def sideLoop (s : Mesh Corner Unit Unit) (i : Side) : Option (Nat × List Nat) :=
  s.faceIds.findSome? fun f => do
    let es ← s.faceEdges f
    let es ← (List.range 4).findSome? fun j => if (es.rotate j).map s.topo.org = i.corners.map (vertexAt s) then some (es.rotate j) else none
    some (f, es)

instance : Fintype Side := ⟨{.left, .right, .front, .back, .bottom, .top}, fun s => by cases s <;> decide⟩
instance : Fintype Way := ⟨{.vertices, .loft, .prism, .cuboid}, fun s => by cases s <;> decide⟩

def stepsB (f : Nat → Nat) : List Nat → Nat → Nat → Bool
  | [], x, y => x == y
  | a :: l, x, y => x == a && stepsB f l (f a) y

theorem stepsB_ok {f : Nat → Nat} : ∀ {l : List Nat} {x y : Nat}, stepsB f l x y = true → Steps f l x y
  | [], x, y, h => by simpa [stepsB, Steps] using h
  | a :: l, x, y, h => by
    simp only [stepsB, Bool.and_eq_true, beq_iff_eq] at h
    exact ⟨h.1, stepsB_ok h.2⟩

def loopB (s : Mesh Corner Unit Unit) (L : List Nat) (f : Nat) : Bool :=
  decide L.Nodup && L.all (fun e => (s.edge e).isSome) && L.all (fun e => decide (s.topo.fac e = some f)) && stepsB s.topo.nxt L (L.headD 0) (L.headD 0)

theorem loopB_ok {s : Mesh Corner Unit Unit} {L : List Nat} {f : Nat} (h : loopB s L f = true) : Loop s.topo L (some f) := by
  simp only [loopB, Bool.and_eq_true, decide_eq_true_eq, List.all_eq_true] at h
  exact ⟨h.1.1.1, fun e he => Option.isSome_iff_exists.mp (h.1.1.2 e he), h.1.2, _, stepsB_ok h.2⟩

def sideFace (s : Mesh Corner Unit Unit) (i : Side) : Nat := ((sideLoop s i).getD (0, [])).1
def sideEdges (s : Mesh Corner Unit Unit) (i : Side) : List Nat := ((sideLoop s i).getD (0, [])).2

theorem skel_good (w : Way) : w.skel.Good := goodB_ok (by cases w <;> decide +kernel)
theorem skel_vertices (w : Way) : w.skel.vertexIds = List.range 8 := by cases w <;> decide +kernel
theorem skel_faces (w : Way) : w.skel.faceIds = List.range 6 := by cases w <;> decide +kernel
theorem skel_closed (w : Way) : ∀ e ∈ w.skel.edgeIds, w.skel.topo.fac e ≠ none := by cases w <;> decide +kernel
theorem skel_at (w : Way) : ∀ k, w.skel.vpay (vertexAt w.skel k) = some k := by cases w <;> decide +kernel
theorem skel_onto (w : Way) : ∀ v < 8, ∃ k, vertexAt w.skel k = v := by cases w <;> decide +kernel
theorem skel_lt (w : Way) : ∀ k, vertexAt w.skel k < 8 := by cases w <;> decide +kernel
theorem skel_side (w : Way) : ∀ i, loopB w.skel (sideEdges w.skel i) (sideFace w.skel i) = true ∧ (sideEdges w.skel i).map w.skel.topo.org = i.corners.map (vertexAt w.skel) := by
  cases w <;> decide +kernel
theorem skel_face_inj (w : Way) : ∀ i j, sideFace w.skel i = sideFace w.skel j → i = j := by cases w <;> decide +kernel
theorem skel_face_onto (w : Way) : ∀ f < 6, ∃ i, sideFace w.skel i = f := by cases w <;> decide +kernel
theorem skel_face_lt (w : Way) : ∀ i, sideFace w.skel i < 6 := by cases w <;> decide +kernel

theorem isBox_dress (w : Way) {q : Corner → VP} (de : EP) (df : FP) {pos : VP → V3} {x y z : ℝ} (hq : ∀ k, pos (q k) = boxCorner x y z k) : IsBox pos x y z (dress w.skel q de df) := by
  refine ⟨dress_good _ _ _ (skel_good w), ?_, vertexAt w.skel, sideFace w.skel, ?_, ?_, ?_, skel_face_inj w, ?_, ?_⟩
  · intro e he
    rw [dress_topo] at he ⊢
    exact skel_closed w e (mem_edgeIds.mpr he)
  · intro k k' h
    have h1 := skel_at w k
    rw [h, skel_at w k'] at h1
    exact (Option.some.inj h1).symm
  · intro v
    rw [dress_topo, ← mem_vertexIds, skel_vertices, List.mem_range]
    exact ⟨skel_onto w v, fun ⟨k, hk⟩ => hk ▸ skel_lt w k⟩
  · intro k
    rw [posOf, dress_vpay, skel_at]
    exact hq k
  · intro f
    rw [dress_topo, ← mem_faceIds, skel_faces, List.mem_range]
    exact ⟨skel_face_onto w f, fun ⟨k, hk⟩ => hk ▸ skel_face_lt w k⟩
  · intro s
    rw [dress_topo]
    exact ⟨_, loopB_ok (skel_side w s).1, (skel_side w s).2⟩

/-! ### the prism goes upwards -/

theorem base_normal {x y : ℝ} (hx : 0 < x) (hy : 0 < y) (z : ℝ) (dbg : Bool) {eps : ℝ} (he : 0 < eps) (de : EP) (df : FP) {q : Corner → VP} {pos : VP → V3}
    (hq : ∀ a b, pos (q (a, b, false)) = boxCorner x y z (a, b, false)) : faceNormal dbg eps pos (dress skelBase q de df) 0 = some (xyz 0 0 (-(4 * x * y))) := by
  have hf : (dress skelBase q de df).face 0 = some ⟨(dress skelBase q de df).topo.frep 0, false, df⟩ := by kernel_rfl
  have hl := base_pos de df q pos
  simp only [hq] at hl
  have hp : isPlanar2 [boxCorner x y z (false, false, false), boxCorner x y z (false, true, false), boxCorner x y z (true, true, false), boxCorner x y z (true, false, false)] eps = some true := by
    refine c72_planar (by simp) ⟨xyz 0 0 (-z), xyz 0 0 1, ?_, ?_⟩ he
    · intro h; have := congrFun h 2; simp [xyz] at this
    · intro p hp
      simp only [List.mem_cons, List.not_mem_nil, or_false] at hp
      rcases hp with rfl | rfl | rfl | rfl <;> simp [boxCorner, onSide, xyz, dot]
  have hn : newell [boxCorner x y z (false, false, false), boxCorner x y z (false, true, false), boxCorner x y z (true, true, false), boxCorner x y z (true, false, false)] = xyz 0 0 (-(4 * x * y)) := by
    rw [newell_eq, areaVec]
    funext d
    fin_cases d <;> simp [Geom.sides, Geom.pairs, cross, boxCorner, onSide, xyz] <;> ring
  cases dbg <;> simp [faceNormal, hf, hl, hp, hn]

theorem normalize_down {a : ℝ} (h : 0 < a) : normalize (xyz 0 0 (-a)) = xyz 0 0 (-1) := by
  have hl : len (xyz 0 0 (-a)) = a := by
    rw [len, show dot (xyz 0 0 (-a)) (xyz 0 0 (-a)) = a * a by simp [dot, xyz], Real.sqrt_mul_self h.le]
  rw [normalize, if_neg (by rw [hl]; exact h.ne'), hl]
  funext d
  fin_cases d <;> simp [xyz, h.ne']

theorem boxPrism_eq {x y : ℝ} (hx : 0 < x) (hy : 0 < y) (z : ℝ) (dbg : Bool) {eps : ℝ} (he : 0 < eps) (de : EP) (df : FP) {pos : VP → V3} {fromPos : V3 → VP} {shift : V3 → VP → VP} (hp : ∀ p, pos (fromPos p) = p) :
    boxPrism dbg eps de df pos fromPos shift x y z =
      some (dress skelPrism (fun k => if k.2.2 then shift (xyz 0 0 (z * 2)) (fromPos (boxCorner x y z (k.1, k.2.1, false))) else fromPos (boxCorner x y z k)) de df) := by
  have h1 := base_eq (EP := EP) (FP := FP) dbg de df (fun k => fromPos (boxCorner x y z k))
  have h2 := base_face de df (fun k => fromPos (boxCorner x y z k))
  have h3 := base_normal hx hy z dbg he de df (q := fun k => fromPos (boxCorner x y z k)) (pos := pos) (fun a b => hp _)
  have h4 := prism_eq dbg de df (fun k => fromPos (boxCorner x y z k)) (shift (xyz 0 0 (z * 2)))
  have h5 : -((z * 2) • normalize (xyz 0 0 (-(4 * x * y)))) = xyz 0 0 (z * 2) := by
    rw [normalize_down (by positivity)]
    funext d
    fin_cases d <;> simp [xyz]
  rw [boxPrism, insertPrism]
  have e : [fromPos (xyz (-x) (-y) (-z)), fromPos (xyz x (-y) (-z)), fromPos (xyz x y (-z)), fromPos (xyz (-x) y (-z))] = [fromPos (boxCorner x y z (false, false, false)), fromPos (boxCorner x y z (true, false, false)),
      fromPos (boxCorner x y z (true, true, false)), fromPos (boxCorner x y z (false, true, false))] := rfl
  rw [e, h1]
  simp only [Option.bind_eq_bind, Option.bind_eq_some_iff] at h2
  simp only [Option.bind_eq_bind, Option.bind_some]
  obtain ⟨t, ht, fo, hfo, rfl⟩ := h2
  simp only [ht, hfo, Option.bind_some, prismShift, h3, h5, Option.bind_eq_bind, h4]

/-- every way gives one of the three meshes, with the positions of the corners -/
theorem build_eq (w : Way) {x y z : ℝ} (hx : 0 < x) (hy : 0 < y) (dbg : Bool) {eps : ℝ} (he : 0 < eps) (de : EP) (df : FP) {pos : VP → V3} {fromPos : V3 → VP} {shift : V3 → VP → VP}
    (hp : ∀ p, pos (fromPos p) = p) (hs : ∀ t v, pos (shift t v) = pos v + t) :
    ∃ q : Corner → VP, (∀ k, pos (q k) = boxCorner x y z k) ∧ w.build dbg eps de df pos fromPos shift x y z = some (dress w.skel q de df) := by
  cases w with
  | vertices => exact ⟨tag (fun a b c => fromPos (xyz a b c)) x y z, fun k => hp _, by simp only [Way.build, Way.skel]; exact boxVertices_eq dbg de df _ x y z⟩
  | loft => exact ⟨tag (fun a b c => fromPos (xyz a b c)) x y z, fun k => hp _, by simp only [Way.build, Way.skel]; exact boxLoft_eq dbg de df _ x y z⟩
  | cuboid => exact ⟨tag (fun a b c => fromPos (xyz a b c)) x y z, fun k => hp _, by simp only [Way.build, Way.skel]; exact cuboid_eq dbg de df _ x y z⟩
  | prism =>
    refine ⟨_, ?_, boxPrism_eq hx hy z dbg he de df hp⟩
    rintro ⟨a, b, c⟩
    cases c
    · exact hp _
    · simp only [if_true, hs, hp]
      funext d
      fin_cases d <;> simp [boxCorner, onSide, xyz]
      ring

/-- C113: every way of building a box gives the box, in both builds -/
theorem c113_box (w : Way) {x y z : ℝ} (hx : 0 < x) (hy : 0 < y) (dbg : Bool) {eps : ℝ} (he : 0 < eps) (de : EP) (df : FP) {pos : VP → V3} {fromPos : V3 → VP} {shift : V3 → VP → VP}
    (hp : ∀ p, pos (fromPos p) = p) (hs : ∀ t v, pos (shift t v) = pos v + t) :
    ∃ m, w.build dbg eps de df pos fromPos shift x y z = some m ∧ IsBox pos x y z m := by
  obtain ⟨q, h1, h2⟩ := build_eq w (z := z) hx hy dbg he de df hp hs
  exact ⟨_, h2, isBox_dress w de df h1⟩

/-- C113: the corners of the sides are listed counterclockwise seen from outside; the areas and the volume (the sum over the sides of a third of the product of the area and the distance from the centre) are those of the box -/
theorem c113_outwards (x y z : ℝ) :
    (∀ s : Side, areaVec (s.corners.map (boxCorner x y z)) = s.area x y z) ∧
    ∑ s : Side, (∑ k : Fin 4, dot (boxCorner x y z (s.corners[k.val]'(by cases s <;> exact k.2))) (s.area x y z)) / 4 / 3 = (2 * x) * (2 * y) * (2 * z) := by
  constructor
  · intro s
    rw [areaVec]
    funext d
    cases s <;> fin_cases d <;> simp [Side.corners, Side.area, Geom.sides, Geom.pairs, cross, boxCorner, onSide, xyz] <;> ring
  · rw [show (Finset.univ : Finset Side) = {.left, .right, .front, .back, .bottom, .top} from rfl]
    simp [Fin.sum_univ_four, Side.corners, Side.area, boxCorner, onSide, xyz, dot]
    ring

/-! ### comparing boxes -/

theorem findLoop_congr {same same' : Nat → Nat → Bool} {ws : List Nat} : ∀ (l : List Nat) (res : List (Nat × Nat)) (used : List Nat), (∀ v ∈ l, ∀ w ∈ ws, same v w = same' v w) →
    findLoop same ws l res used = findLoop same' ws l res used
  | [], _, _, _ => rfl
  | v :: l, res, used, h => by
    have hf : ws.find? (same v) = ws.find? (same' v) := List.find?_congr fun w hw => h v (by simp) w hw
    rw [findLoop, findLoop, hf]
    cases ws.find? (same' v) with
    | none => rfl
    | some w =>
      simp only
      rw [findLoop_congr l _ _ fun v hv w hw => h v (by simp [hv]) w hw]

/-- the corner at a vertex of one of the three meshes -/
def Way.at (w : Way) (v : Nat) : Corner := (w.skel.vpay v).getD (true, true, true)

theorem dress_vertexIds (w : Way) (q : Corner → VP) (de : EP) (df : FP) : (dress w.skel q de df).vertexIds = List.range 8 := by cases w <;> kernel_rfl

theorem dress_pos {w : Way} {q : Corner → VP} {de : EP} {df : FP} {v : Nat} (hv : v < 8) : ∃ x, (dress w.skel q de df).vertex v = some x ∧ x.payload = q (w.at v) := by
  have h : (w.skel.vpay v).isSome = true := by
    revert v
    cases w <;> decide +kernel
  obtain ⟨k, hk⟩ := Option.isSome_iff_exists.mp h
  have h1 := dress_vpay w.skel q de df v
  rw [hk] at h1
  obtain ⟨x, hx, hx'⟩ := Option.map_eq_some_iff.mp h1
  exact ⟨x, hx, by rw [hx', Way.at, hk]; rfl⟩

/-- the kept (`true`) and reversed directions of a box that has been mirrored -/
def flip (u k : Corner) : Corner := (u.1 == k.1, u.2.1 == k.2.1, u.2.2 == k.2.2)
def mirror (u : Corner) (p : V3) : V3 := xyz (onSide u.1 (p 0)) (onSide u.2.1 (p 1)) (onSide u.2.2 (p 2))
/-- an even number of directions is reversed -/
def Even3 (u : Corner) : Prop := (u.1 ^^ u.2.1 ^^ u.2.2) = true
instance (u : Corner) : Decidable (Even3 u) := inferInstanceAs (Decidable (_ = true))

theorem mirror_corner (u k : Corner) (x y z : ℝ) : mirror u (boxCorner x y z k) = boxCorner x y z (flip u k) := by
  obtain ⟨a, b, c⟩ := u
  obtain ⟨a', b', c'⟩ := k
  cases a <;> cases b <;> cases c <;> cases a' <;> cases b' <;> cases c' <;> simp [mirror, boxCorner, flip, onSide, xyz]

/-- the matching found by `find_payload_isomorphism` -/
def isoTable (w w' : Way) (u : Corner) : List (Nat × Nat) := (findLoop (fun v v' => decide (w.at v = flip u (w'.at v'))) (List.range 8) (List.range 8) [] []).getD []

theorem isoTable_found (w w' : Way) (u : Corner) : findLoop (fun v v' => decide (w.at v = flip u (w'.at v'))) (List.range 8) (List.range 8) [] [] = some (isoTable w w' u) := by
  revert u w w'
  decide +kernel

/-- the answer of the comparison: a mirrored box differs in the first face that is looked at -/
def verdict (w : Way) (u : Corner) : Diff := if Even3 u then .equivalent else .noFace (match w with | .vertices => 0 | _ => 1)

/-- `is_isomorphic` of two of the meshes under the matching of the corners -/
abbrev Compared (w w' : Way) (s s' : Mesh Corner Unit Unit) : Prop := ∀ (VP EP FP VP' EP' FP' : Type) (q : Corner → VP) (de : EP) (df : FP) (q' : Corner → VP') (de' : EP') (df' : FP') (dbg a b c : Bool),
  isIsomorphic dbg (dress s q de df) (dress s' q' de' df') (isoTable w w' (a, b, c)) (fun _ _ => true) (fun _ _ => true) (fun _ _ => true) = some (verdict w (a, b, c))

theorem compared_vertices_vertices : Compared .vertices .vertices skelVertices skelVertices := by
  intro VP EP FP VP' EP' FP' q de df q' de' df' dbg a b c
  cases dbg <;> cases a <;> cases b <;> cases c <;> kernel_rfl

theorem compared_vertices_loft : Compared .vertices .loft skelVertices skelLoft := by
  intro VP EP FP VP' EP' FP' q de df q' de' df' dbg a b c
  cases dbg <;> cases a <;> cases b <;> cases c <;> kernel_rfl

theorem compared_vertices_prism : Compared .vertices .prism skelVertices skelPrism := by
  intro VP EP FP VP' EP' FP' q de df q' de' df' dbg a b c
  cases dbg <;> cases a <;> cases b <;> cases c <;> kernel_rfl

theorem compared_loft_vertices : Compared .loft .vertices skelLoft skelVertices := by
  intro VP EP FP VP' EP' FP' q de df q' de' df' dbg a b c
  cases dbg <;> cases a <;> cases b <;> cases c <;> kernel_rfl

theorem compared_loft_loft : Compared .loft .loft skelLoft skelLoft := by
  intro VP EP FP VP' EP' FP' q de df q' de' df' dbg a b c
  cases dbg <;> cases a <;> cases b <;> cases c <;> kernel_rfl

theorem compared_loft_prism : Compared .loft .prism skelLoft skelPrism := by
  intro VP EP FP VP' EP' FP' q de df q' de' df' dbg a b c
  cases dbg <;> cases a <;> cases b <;> cases c <;> kernel_rfl

theorem compared_prism_vertices : Compared .prism .vertices skelPrism skelVertices := by
  intro VP EP FP VP' EP' FP' q de df q' de' df' dbg a b c
  cases dbg <;> cases a <;> cases b <;> cases c <;> kernel_rfl

theorem compared_prism_loft : Compared .prism .loft skelPrism skelLoft := by
  intro VP EP FP VP' EP' FP' q de df q' de' df' dbg a b c
  cases dbg <;> cases a <;> cases b <;> cases c <;> kernel_rfl

theorem compared_prism_prism : Compared .prism .prism skelPrism skelPrism := by
  intro VP EP FP VP' EP' FP' q de df q' de' df' dbg a b c
  cases dbg <;> cases a <;> cases b <;> cases c <;> kernel_rfl

theorem dress_iso (w w' : Way) : Compared w w' w.skel w'.skel := by
  cases w <;> cases w'
  · exact compared_vertices_vertices
  · exact compared_vertices_loft
  · exact compared_vertices_prism
  · exact compared_vertices_loft
  · exact compared_loft_vertices
  · exact compared_loft_loft
  · exact compared_loft_prism
  · exact compared_loft_loft
  · exact compared_prism_vertices
  · exact compared_prism_loft
  · exact compared_prism_prism
  · exact compared_prism_loft
  · exact compared_loft_vertices
  · exact compared_loft_loft
  · exact compared_loft_prism
  · exact compared_loft_loft

theorem about_iff {x y z eps : ℝ} (he : 0 < eps) (hx : eps ≤ 2 * x) (hy : eps ≤ 2 * y) (hz : eps ≤ 2 * z) (k k' : Corner) : isAbout (boxCorner x y z k) (boxCorner x y z k') eps ↔ k = k' := by
  have key : ∀ (a b : Bool) (t : ℝ), eps ≤ 2 * t → (|onSide a t - onSide b t| < eps ↔ a = b) := by
    intro a b t ht
    have h0 : 0 < t := by linarith
    cases a <;> cases b <;> simp only [onSide, if_true, if_false, Bool.false_eq_true, sub_self, abs_zero, he, reduceCtorEq, iff_false, not_lt]
    · rw [abs_of_neg (by linarith)]; linarith
    · rw [abs_of_pos (by linarith)]; linarith
  obtain ⟨a, b, c⟩ := k
  obtain ⟨a', b', c'⟩ := k'
  simp only [isAbout, Prod.mk.injEq]
  rw [← key a a' x hx, ← key b b' y hy, ← key c c' z hz]
  constructor
  · intro h
    exact ⟨by simpa [boxCorner, xyz] using h 0, by simpa [boxCorner, xyz] using h 1, by simpa [boxCorner, xyz] using h 2⟩
  · rintro ⟨h0, h1, h2⟩ d
    fin_cases d
    · simpa [boxCorner, xyz] using h0
    · simpa [boxCorner, xyz] using h1
    · simpa [boxCorner, xyz] using h2

theorem samePos_dress {w w' : Way} {q : Corner → VP} {de : EP} {df : FP} {q' : Corner → VP'} {de' : EP'} {df' : FP'} {pos : VP → V3} {pos' : VP' → V3} {eps : ℝ} {v v' : Nat} (hv : v < 8) (hv' : v' < 8) :
    samePos eps pos pos' (dress w.skel q de df) (dress w'.skel q' de' df') v v' = true ↔ isAbout (pos (q (w.at v))) (pos' (q' (w'.at v'))) eps := by
  obtain ⟨x, h1, h2⟩ := dress_pos (w := w) (q := q) (de := de) (df := df) hv
  obtain ⟨x', h1', h2'⟩ := dress_pos (w := w') (q := q') (de := de') (df := df') hv'
  simp only [samePos, h1, h1', h2, h2', decide_eq_true_eq]

theorem compare_dress (w w' : Way) (u : Corner) (dbg : Bool) {q : Corner → VP} (de : EP) (df : FP) {q' : Corner → VP'} (de' : EP') (df' : FP') {pos : VP → V3} {pos' : VP' → V3} {x y z eps : ℝ}
    (he : 0 < eps) (hx : eps ≤ 2 * x) (hy : eps ≤ 2 * y) (hz : eps ≤ 2 * z) (hq : ∀ k, pos (q k) = boxCorner x y z k) (hq' : ∀ k, pos' (q' k) = boxCorner x y z (flip u k)) :
    isIsomorphicByPos dbg eps pos pos' (dress w.skel q de df) (dress w'.skel q' de' df') = some (verdict w u) := by
  have hs : ∀ v ∈ List.range 8, ∀ v' ∈ List.range 8, samePos eps pos pos' (dress w.skel q de df) (dress w'.skel q' de' df') v v' = decide (w.at v = flip u (w'.at v')) := by
    intro v hv v' hv'
    rw [Bool.eq_iff_iff, samePos_dress (List.mem_range.mp hv) (List.mem_range.mp hv'), hq, hq', about_iff he hx hy hz, decide_eq_true_eq]
  rw [isIsomorphicByPos, isIsomorphicBy, findPayloadIsomorphism, dress_vertexIds, dress_vertexIds, findLoop_congr _ _ _ hs, isoTable_found]
  exact dress_iso w w' VP EP FP VP' EP' FP' q de df q' de' df' dbg u.1 u.2.1 u.2.2

theorem map_dress {s : Mesh Corner Unit Unit} (q : Corner → VP) (de : EP) (df : FP) (fv : VP → VP) : (dress s q de df).mapPayloads fv id id = dress s (fun k => fv (q k)) de df := by
  simp only [mapPayloads, dress, Store.mapLive, List.map_map]
  congr 2
  · refine List.map_congr_left fun o _ => ?_
    cases o <;> rfl
  · refine List.map_congr_left fun o _ => ?_
    cases o <;> rfl
  · refine List.map_congr_left fun o _ => ?_
    cases o <;> rfl

/-- C113: boxes of the same size compare as equivalent, whichever way they have been built, even if one of them has been turned by half a turn around an axis (`u` reverses two directions); with an odd number of reversed
directions (a mirrored box, that is a box inside out) they do not -/
theorem c113_compare (w w' : Way) (u : Corner) {x y z : ℝ} {eps eps' eps'' : ℝ} (he : 0 < eps) (hx : eps ≤ 2 * x) (hy : eps ≤ 2 * y) (hz : eps ≤ 2 * z) (he' : 0 < eps') (he'' : 0 < eps'') (dbg dbg' dbg'' : Bool)
    (de : EP) (df : FP) {pos : VP → V3} {fromPos : V3 → VP} {shift : V3 → VP → VP} (hp : ∀ p, pos (fromPos p) = p) (hs : ∀ t v, pos (shift t v) = pos v + t)
    (de' : EP') (df' : FP') {pos' : VP' → V3} {fromPos' : V3 → VP'} {shift' : V3 → VP' → VP'} (hp' : ∀ p, pos' (fromPos' p) = p) (hs' : ∀ t v, pos' (shift' t v) = pos' v + t)
    {fv : VP' → VP'} (hf : ∀ v, pos' (fv v) = mirror u (pos' v)) :
    ∃ m m', w.build dbg' eps' de df pos fromPos shift x y z = some m ∧ w'.build dbg'' eps'' de' df' pos' fromPos' shift' x y z = some m' ∧
      (Even3 u → isIsomorphicByPos dbg eps pos pos' m (m'.mapPayloads fv id id) = some .equivalent) ∧
      (¬ Even3 u → ∃ f, isIsomorphicByPos dbg eps pos pos' m (m'.mapPayloads fv id id) = some (.noFace f)) := by
  obtain ⟨q, h1, h2⟩ := build_eq w (x := x) (y := y) (z := z) (by linarith) (by linarith) dbg' he' de df hp hs
  obtain ⟨q', h1', h2'⟩ := build_eq w' (x := x) (y := y) (z := z) (by linarith) (by linarith) dbg'' he'' de' df' hp' hs'
  have hc := compare_dress w w' u dbg (q := q) de df (q' := fun k => fv (q' k)) de' df' (pos := pos) (pos' := pos') he hx hy hz h1 (fun k => by rw [hf, h1', mirror_corner])
  rw [← map_dress] at hc
  refine ⟨_, _, h2, h2', fun hu => ?_, fun hu => ?_⟩
  · rw [hc]; unfold verdict; rw [if_pos hu]
  · exact ⟨_, by rw [hc]; unfold verdict; rw [if_neg hu]⟩

/-- C113: boxes with different sizes do not compare as equivalent -/
theorem c113_sizes (w w' : Way) {x y z x' y' z' : ℝ} (hx : 0 < x) (hy : 0 < y) (hz : 0 < z) (hx' : 0 < x') (hy' : 0 < y') (hz' : 0 < z') {eps eps' eps'' : ℝ} (hd : eps ≤ |x - x'| ∨ eps ≤ |y - y'| ∨ eps ≤ |z - z'|)
    (he' : 0 < eps') (he'' : 0 < eps'') (dbg dbg' dbg'' : Bool)
    (de : EP) (df : FP) {pos : VP → V3} {fromPos : V3 → VP} {shift : V3 → VP → VP} (hp : ∀ p, pos (fromPos p) = p) (hs : ∀ t v, pos (shift t v) = pos v + t)
    (de' : EP') (df' : FP') {pos' : VP' → V3} {fromPos' : V3 → VP'} {shift' : V3 → VP' → VP'} (hp' : ∀ p, pos' (fromPos' p) = p) (hs' : ∀ t v, pos' (shift' t v) = pos' v + t) :
    ∃ m m', w.build dbg' eps' de df pos fromPos shift x y z = some m ∧ w'.build dbg'' eps'' de' df' pos' fromPos' shift' x' y' z' = some m' ∧ isIsomorphicByPos dbg eps pos pos' m m' = some .noVertex := by
  obtain ⟨q, h1, h2⟩ := build_eq w (z := z) hx hy dbg' he' de df hp hs
  obtain ⟨q', h1', h2'⟩ := build_eq w' (z := z') hx' hy' dbg'' he'' de' df' hp' hs'
  refine ⟨_, _, h2, h2', ?_⟩
  have key : ∀ (a b : Bool) (t t' : ℝ), 0 < t → 0 < t' → |t - t'| ≤ |onSide a t - onSide b t'| := by
    intro a b t t' h h'
    cases a <;> cases b <;> simp only [onSide, if_true, if_false, Bool.false_eq_true]
    · rw [show -t - -t' = -(t - t') by ring, abs_neg]
    · rw [abs_le]; rw [abs_of_neg (by linarith)]; constructor <;> linarith
    · rw [abs_le]; rw [abs_of_pos (by linarith)]; constructor <;> linarith
    · exact le_rfl
  have hn : ∀ k k', ¬ isAbout (pos (q k)) (pos' (q' k')) eps := by
    intro k k' h
    rw [h1, h1'] at h
    have e0 : |onSide k.1 x - onSide k'.1 x'| < eps := by simpa [boxCorner, xyz] using h 0
    have e1 : |onSide k.2.1 y - onSide k'.2.1 y'| < eps := by simpa [boxCorner, xyz] using h 1
    have e2 : |onSide k.2.2 z - onSide k'.2.2 z'| < eps := by simpa [boxCorner, xyz] using h 2
    rcases hd with hd | hd | hd
    · linarith [key k.1 k'.1 x x' hx hx']
    · linarith [key k.2.1 k'.2.1 y y' hy hy']
    · linarith [key k.2.2 k'.2.2 z z' hz hz']
  have hs : ∀ v ∈ List.range 8, ∀ v' ∈ List.range 8, samePos eps pos pos' (dress w.skel q de df) (dress w'.skel q' de' df') v v' = (fun _ _ => false) v v' := by
    intro v hv v' hv'
    rw [Bool.eq_iff_iff, samePos_dress (List.mem_range.mp hv) (List.mem_range.mp hv')]
    exact ⟨fun h => absurd h (hn _ _), fun h => by simp at h⟩
  rw [isIsomorphicByPos, isIsomorphicBy, findPayloadIsomorphism, dress_vertexIds, dress_vertexIds, findLoop_congr _ _ _ hs]
  rfl

/-- the conditions can be fulfilled -/
example : ∃ m m', Way.vertices.build true 1 () () id id (fun t v => v + t) 1 2 3 = some m ∧ Way.prism.build true 1 () () id id (fun t v => v + t) 1 2 3 = some m' ∧
    isIsomorphicByPos true 1 id id m (m'.mapPayloads (mirror (true, false, false)) id id) = some .equivalent := by
  obtain ⟨m, m', h1, h2, h3, -⟩ := c113_compare .vertices .prism (true, false, false) (x := 1) (y := 2) (z := 3) (eps := 1) (eps' := 1) (eps'' := 1) (by norm_num) (by norm_num) (by norm_num) (by norm_num) (by norm_num) (by norm_num)
    true true true () () (pos := id) (fromPos := id) (shift := fun t v => v + t) (fun _ => rfl) (fun _ _ => rfl) () () (pos' := id) (fromPos' := id) (shift' := fun t v => v + t) (fun _ => rfl) (fun _ _ => rfl)
    (fv := mirror (true, false, false)) (fun _ => rfl)
  exact ⟨m, m', h1, h2, h3 (by decide)⟩

end Verif.R3
