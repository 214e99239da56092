import Verif.Spec.FlipYZ
import Verif.Props.MeshTransform
import Verif.Props.Box
/-
C116: swizzles and `flip_yz`.
-/
namespace Verif.R3
open Mesh MeshProps
variable {VP EP FP : Type}

/-- C116: a swizzle moves the coordinates as its name says, keeps dot products and lengths, can be undone, and keeps or reverses the handedness -/
theorem c116_swizzle (s : Swizzle) (a b : V3) : (∀ d, s.apply a d = a (s.axis d)) ∧ dot (s.apply a) (s.apply b) = dot a b ∧ len (s.apply a) = len a ∧ s.inv.apply (s.apply a) = a ∧
    cross (s.apply a) (s.apply b) = if s.even then s.apply (cross a b) else -s.apply (cross a b) := by
  have hd : ∀ a b : V3, dot (s.apply a) (s.apply b) = dot a b := by
    intro a b
    cases s <;> simp [dot, Swizzle.apply, xyz, Fin.sum_univ_three] <;> ring
  refine ⟨fun d => ?_, hd a b, by rw [len, hd, len], ?_, ?_⟩
  · cases s <;> fin_cases d <;> rfl
  · funext d
    cases s <;> fin_cases d <;> rfl
  · funext d
    cases s <;> fin_cases d <;> simp [cross, Swizzle.apply, Swizzle.even, xyz] <;> ring

theorem xzy_linear (a b : V3) (c : ℝ) : Swizzle.xzy.apply (a + b) = Swizzle.xzy.apply a + Swizzle.xzy.apply b ∧ Swizzle.xzy.apply (a - b) = Swizzle.xzy.apply a - Swizzle.xzy.apply b ∧
    Swizzle.xzy.apply (c • a) = c • Swizzle.xzy.apply a ∧ Swizzle.xzy.apply (-a) = -Swizzle.xzy.apply a ∧ Swizzle.xzy.apply 0 = 0 := by
  refine ⟨?_, ?_, ?_, ?_, ?_⟩ <;> funext d <;> fin_cases d <;> simp [Swizzle.apply, xyz]

theorem areaVec_xzy (l : List V3) : areaVec (l.map Swizzle.xzy.apply) = -Swizzle.xzy.apply (areaVec l) := by
  rw [areaVec, areaVec, Geom.sides_map, List.map_map, (xzy_linear _ 0 _).2.2.1, ← smul_neg]
  congr 1
  generalize Geom.sides l = s
  induction s with
  | nil => simp [(xzy_linear 0 0 0).2.2.2.2]
  | cons p s ih =>
    rw [List.map_cons, List.sum_cons, ih, List.map_cons, List.sum_cons, (xzy_linear _ _ 0).1]
    have := (c116_swizzle .xzy p.1 p.2).2.2.2.2
    simp only [Swizzle.even, Bool.false_eq_true, if_false] at this
    simp only [Function.comp_apply, this]
    abel

theorem isPlanar_xzy (l : List V3) (eps : ℝ) : isPlanar (l.map Swizzle.xzy.apply) eps = isPlanar l eps := by
  match l with
  | [] => rfl
  | [_] => rfl
  | [_, _] => rfl
  | a :: b :: c :: l =>
    simp only [isPlanar, List.map_cons, Option.some.injEq]
    rw [← List.map_cons, List.all_map]
    congr 1
    funext v
    simp only [Function.comp_apply, ← (xzy_linear _ _ 0).2.1]
    have h1 := (c116_swizzle .xzy (b - a) (c - a)).2.2.2.2
    simp only [Swizzle.even, Bool.false_eq_true, if_false] at h1
    rw [h1, ← (xzy_linear _ 0 0).2.2.2.1, (c116_swizzle .xzy _ _).2.1]
    have h2 : ∀ p q : V3, dot p (-q) = -dot p q := fun p q => by simp [dot, Fin.sum_univ_three]; ring
    rw [h2, abs_neg]

theorem facePos_map (pos : VP → V3) (fv : VP → VP) (h : V3 → V3) (hp : ∀ p, pos (fv p) = h (pos p)) (m : Mesh VP EP FP) (f : Nat) :
    facePos pos (m.mapPayloads fv id id) f = (facePos pos m f).map (List.map h) := by
  simp only [facePos, mp_faceVertices, Option.bind_eq_bind]
  cases m.faceVertices f with
  | none => rfl
  | some vs =>
    simp only [Option.bind_some]
    have hc : (fun v => ((m.mapPayloads fv id id).vertex v).map fun x => pos x.payload) = fun v => ((m.vertex v).map fun x => pos x.payload).map h := by
      funext v
      rw [mp_vertex, Option.map_map, Option.map_map]
      congr 1
      funext x
      exact hp _
    rw [hc]
    induction vs with
    | nil => rfl
    | cons v vs ih =>
      simp only [List.mapM_cons, Option.bind_eq_bind, ih]
      cases (m.vertex v).map fun x => pos x.payload with
      | none => rfl
      | some x => cases vs.mapM (fun v => (m.vertex v).map fun x => pos x.payload) <;> simp

/-- C116: `flip_yz` exchanges the y and the z coordinate of every vertex and changes nothing else: no link, no payload of an edge or face; a second time it restores the mesh -/
theorem c116_flip {pos : VP → V3} {setPos : VP → V3 → VP} (h1 : ∀ p q, pos (setPos p q) = q) (h2 : ∀ p, setPos p (pos p) = p) (h3 : ∀ p q r, setPos (setPos p q) r = setPos p r) (m : Mesh VP EP FP) :
    (flipYZ pos setPos m).topo = m.topo ∧ (∀ e, (flipYZ pos setPos m).edge e = m.edge e) ∧ (∀ f, (flipYZ pos setPos m).face f = m.face f) ∧ ((flipYZ pos setPos m).Good ↔ m.Good) ∧
      (∀ v, ((flipYZ pos setPos m).vpay v).map pos = (m.vpay v).map fun p => xyz (pos p 0) (pos p 2) (pos p 1)) ∧
      flipYZ pos setPos (flipYZ pos setPos m) = m := by
  refine ⟨mp_topo .., fun e => ?_, fun f => ?_, mp_good .., fun v => ?_, ?_⟩
  · rw [flipYZ, mp_edge]; cases m.edge e <;> rfl
  · rw [flipYZ, mp_face]; cases m.face f <;> rfl
  · rw [flipYZ, mp_vpay, Option.map_map]
    congr 1
    funext p
    simp [h1, Swizzle.apply]
  · rw [flipYZ, flipYZ, c96_compose]
    have e1 : ((fun p => setPos p (Swizzle.xzy.apply (pos p))) ∘ fun p => setPos p (Swizzle.xzy.apply (pos p))) = id := by
      funext p
      have := (c116_swizzle .xzy (pos p) 0).2.2.2.1
      simp only [Swizzle.inv] at this
      simp only [Function.comp_apply, h1, h3, this, h2, id]
    rw [e1]
    exact c96_identity m

/-- C116: `flip_yz` is a reflection: it turns every face over, i.e. the normal is the reflected normal multiplied by -1; it panics exactly where it did before -/
theorem c116_normal {pos : VP → V3} {setPos : VP → V3 → VP} (h1 : ∀ p q, pos (setPos p q) = q) (m : Mesh VP EP FP) (dbg : Bool) (eps : ℝ) (f : Nat) :
    faceNormal dbg eps pos (flipYZ pos setPos m) f = (faceNormal dbg eps pos m f).map fun n => -Swizzle.xzy.apply n := by
  have hf := facePos_map (EP := EP) (FP := FP) pos (fun p => setPos p (Swizzle.xzy.apply (pos p))) Swizzle.xzy.apply (fun p => h1 _ _) m f
  simp only [faceNormal, flipYZ, hf, mp_face, Option.bind_eq_bind]
  cases m.face f with
  | none => rfl
  | some x =>
    cases facePos pos m f with
    | none => rfl
    | some l =>
      simp only [Option.map_some, Option.bind_some, isPlanar2, isPlanar_xzy, newell_eq, areaVec_xzy]
      cases hb : (dbg && !x.curved) with
      | false => rfl
      | true =>
        simp only [if_true]
        cases isPlanar l (√eps) with
        | none => rfl
        | some b => cases b <;> rfl

/-- C116: the enclosed volume changes its sign: a solid is turned inside out -/
theorem c116_volume (faces : List (List V3)) : volume (faces.map fun F => F.map Swizzle.xzy.apply) = -volume faces := by
  rw [volume, volume, List.map_map]
  induction faces with
  | nil => simp
  | cons F faces ih =>
    rw [List.map_cons, List.sum_cons, ih, List.map_cons, List.sum_cons]
    have hh : (F.map Swizzle.xzy.apply).headD 0 = Swizzle.xzy.apply (F.headD 0) := by
      cases F with
      | nil => simp [(xzy_linear 0 0 0).2.2.2.2]
      | cons a F => rfl
    simp only [Function.comp_apply, areaVec_xzy, hh]
    rw [← (xzy_linear _ 0 0).2.2.2.1, (c116_swizzle .xzy _ _).2.1]
    have h2 : ∀ p q : V3, dot p (-q) = -dot p q := fun p q => by simp [dot, Fin.sum_univ_three]; ring
    rw [h2]
    ring

/-- C116: the normals stored in the vertices are left behind: they fit the new faces only if they are perpendicular to the mirror -/
theorem c116_stored (p : PNU) (n : V3) (hn : p.normal = n) :
    let q : PNU := { p with position := Swizzle.xzy.apply p.position }
    q.normal = -Swizzle.xzy.apply n ↔ n 0 = 0 ∧ n 1 = -n 2 := by
  subst hn
  constructor
  · intro h
    have h0 := congrFun h 0
    have h1 := congrFun h 1
    simp [Swizzle.apply, xyz] at h0 h1
    constructor
    · linarith
    · exact h1
  · rintro ⟨h0, h1⟩
    funext d
    fin_cases d <;> simp [Swizzle.apply, xyz, h0, h1]

example : ∃ m : Mesh PNU Unit Unit, boxVertices true () () (fun a b c => PNU.fromPos (xyz a b c)) (1 : ℝ) 2 3 = some m ∧
    flipYZ PNU.position (fun p q => { p with position := q }) (flipYZ PNU.position (fun p q => { p with position := q }) m) = m ∧ flipYZ PNU.position (fun p q => { p with position := q }) m ≠ m := by
  rw [boxVertices_eq]
  refine ⟨_, rfl, (c116_flip (pos := PNU.position) (setPos := fun p q => { p with position := q }) (fun _ _ => rfl) (fun _ => rfl) (fun _ _ _ => rfl) _).2.2.2.2.2, fun h => ?_⟩
  have h0 := (c116_flip (pos := PNU.position) (setPos := fun p q => { p with position := q }) (fun _ _ => rfl) (fun _ => rfl) (fun _ _ _ => rfl)
    (dress skelVertices (tag (fun a b c => PNU.fromPos (xyz a b c)) (1 : ℝ) 2 3) () ())).2.2.2.2.1 0
  rw [h, dress_vpay] at h0
  have hv : skelVertices.vpay 0 = some (true, true, true) := by decide +kernel
  rw [hv] at h0
  simp only [Option.map_some, Option.some.injEq] at h0
  have := congrFun h0 1
  simp [tag, PNU.fromPos, onSide, xyz] at this

end Verif.R3
