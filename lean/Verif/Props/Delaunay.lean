import Verif.Lemmas.DelaunayRun
import Verif.Lemmas.Decide
import Verif.Props.Sweep
/-
C76: the Delaunay triangulator of monotone chains.
-/
set_option linter.unusedSectionVars false
namespace Verif.GeomProps
open Geom Triangulation
variable {K : Type} [Field K] [LinearOrder K] [IsStrictOrderedRing K] (σ : Sgn K) (ps : List (P2 K)) {ids : List Nat}

/-- C76: `legalize_triangle` ends: with every number of steps that is not smaller than the one of the model the result is the same. -/
theorem c76_enough_steps (con : List (Nat × Nat)) (o : Opp) (t : Triangulation) {x y z : Nat} (hlen : ids.length = ps.length) (hx : x < ids.length) (hy : y < ids.length) (hz : z < ids.length) (fuel : Nat) (hf : legalizeFuel ids ≤ fuel) :
    legalizeTriangle σ ps ids con o t x y z = (do
      let s ← stackEdge con ([], []) x y
      let s ← stackEdge con s y z
      let s ← stackEdge con s z x
      legalizeLoop σ ps ids con fuel s o t) := by
  rw [hlen] at hx hy hz
  simp only [legalizeTriangle, Option.bind_eq_bind]
  cases f1 : stackEdge con ([], []) x y with
  | none => rfl
  | some s1 =>
    obtain ⟨o1, w1⟩ := stackEdge_some con (stackOk_nil _) hx hy f1
    simp only [Option.bind_some]
    cases f2 : stackEdge con s1 y z with
    | none => rfl
    | some s2 =>
      obtain ⟨o2, w2⟩ := stackEdge_some con o1 hy hz f2
      simp only [Option.bind_some]
      cases f3 : stackEdge con s2 z x with
      | none => rfl
      | some s3 =>
        obtain ⟨o3, w3⟩ := stackEdge_some con o2 hz hx f3
        simp only [Option.bind_some]
        have : todo ps.length ([], []) = ps.length * ps.length := by simp [todo]
        have : legalizeFuel ids = ps.length * ps.length + 1 := by rw [legalizeFuel, hlen]
        exact legalizeLoop_fuel σ ps ids con _ _ _ _ _ o3 (by omega) (by omega)

/-- C76: no assertion fails for a chain of different vertices, in debug and in release builds, and both give the same result. The stack is the one of the linear triangulator. The triangles come from those of the
linear triangulator by flips: there are as many, a new one is never clockwise, and the volume under the triangles lifted to the paraboloid, which is smallest for a Delaunay triangulation, does not grow. -/
theorem c76_chain (hn : ids.Nodup) (hlen : ids.length = ps.length) (ep : K) (v0 : Nat) (l : List (Bool × Nat)) (hd : (v0 :: l.map Prod.snd).Nodup) (hl : ∀ x ∈ v0 :: l.map Prod.snd, x < ids.length) (t : Triangulation) :
    ∃ (c : DelChain) (t' : Triangulation) (ts' : List (Nat × Nat × Nat)), (∀ dbg, feed (delaunay σ ep dbg ps ids) l ((delaunay σ ep dbg ps ids).new v0) t = some (c, t')) ∧
      (c.d, c.stack) = (runC (angPosOf σ ep ps) (angNegOf σ ep ps) l (.none, [v0])).2 ∧ Emits t t' ids ts' ∧ Flipped ps (runC (angPosOf σ ep ps) (angNegOf σ ep ps) l (.none, [v0])).1 ts' := by
  obtain ⟨r, -, hr⟩ := exists_future l [v0] (fun _ => 0) (List.nodup_cons.mp hd).2 (by
    intro x hx
    simp only [List.mem_singleton]
    rintro rfl
    exact (List.nodup_cons.mp hd).1 (List.mem_map_of_mem hx))
  have := feed_run σ ps hn hlen (r := r) (t0 := t) ep l (c := ⟨[v0], .none, [], fun _ => none, some v0, none⟩) (t := t) (ts := [])
    ⟨by simp, by simp, by simpa using hl v0 (by simp), by simp [Towards], ⟨emits_nil _ _, by simp, by simp⟩⟩ (fun x hx => hl _ (List.mem_cons_of_mem _ (List.mem_map_of_mem hx))) hr
  rw [List.nil_append] at this
  exact this

/-- C76: the Delaunay triangulator finishes exactly where the linear triangulator does, with as many triangles. -/
theorem c76_like_linear (hn : ids.Nodup) (hlen : ids.length = ps.length) (ep : K) (v0 : Nat) (l : List (Bool × Nat)) (hd : (v0 :: l.map Prod.snd).Nodup) (hl : ∀ x ∈ v0 :: l.map Prod.snd, x < ids.length) (t : Triangulation) :
    ∃ (c : DelChain) (t' : Triangulation) (ts' : List (Nat × Nat × Nat)) (c1 : LChain) (t1 : Triangulation) (ts1 : List (Nat × Nat × Nat)),
      (∀ dbg, feed (delaunay σ ep dbg ps ids) l ((delaunay σ ep dbg ps ids).new v0) t = some (c, t')) ∧ Emits t t' ids ts' ∧
      feed (linear (angPosOf σ ep ps) (angNegOf σ ep ps) ids) l ((linear (angPosOf σ ep ps) (angNegOf σ ep ps) ids).new v0) t = some (c1, t1) ∧ Emits t t1 ids ts1 ∧
      ((∃ dbg, (delaunay σ ep dbg ps ids).finish c t' ≠ none) ↔ (linear (angPosOf σ ep ps) (angNegOf σ ep ps) ids).finish c1 t1 ≠ none) ∧ c.stack = c1.stack ∧ Flipped ps ts1 ts' := by
  obtain ⟨c, t', ts', h1, h2, h3, h4⟩ := c76_chain σ ps hn hlen ep v0 l hd hl t
  obtain ⟨c1, t1, g1, -⟩ := c43_chain (angPosOf σ ep ps) (angNegOf σ ep ps) ids v0 l t (hl v0 (by simp)) (fun x hx => hl _ (List.mem_cons_of_mem _ (List.mem_map_of_mem hx)))
  obtain ⟨e1, e2⟩ := linear_feed (angPosOf σ ep ps) (angNegOf σ ep ps) ids l ⟨[v0], .none, some v0, none⟩ c1 t t1 ⟨by simp, by simp⟩ g1
  simp only at e1 e2
  have hs : c.stack = c1.stack := by rw [← h2] at e1; simp only [Prod.mk.injEq] at e1; exact e1.2.symm
  refine ⟨c, t', ts', c1, t1, _, h1, h3, g1, e2, ?_, hs, h4⟩
  simp only [delaunay, linear, hs]
  constructor
  · rintro ⟨-, h⟩
    split at h
    · simp [*]
    · exact absurd rfl h
  · intro h
    refine ⟨true, ?_⟩
    split at h
    · simp [*]
    · exact absurd rfl h

/-- C76: legalizing keeps every constrained edge: with respect to the triangles listed before, a constrained directed edge is a side as often as after. -/
theorem c76_constrained (hn : ids.Nodup) {t0 t t' : Triangulation} {con : List (Nat × Nat)} {o o' : Opp} {x y z : Nat} (ho : OppAl t0 o) (h : legalizeTriangle σ ps ids con o t x y z = some (o', t'))
    {ts : List (Nat × Nat × Nat)} (hts : Emits t0 t ids ts) : ∃ ts', Emits t0 t' ids ts' ∧ ts'.length = ts.length ∧ ∀ p : Nat × Nat, edgeKey p.1 p.2 ∈ con → (ts.flatMap triSides).count p ≤ (ts'.flatMap triSides).count p := by
  obtain ⟨ts', h1, h2, -, h3⟩ := (legalizeTriangle_law σ ps hn ho h).2 ts hts
  exact ⟨ts', h1, h2, h3⟩

/-- C76 for `sweep_line_triangulation` with the Delaunay triangulator on polygons with at most 8 vertices: as C53, if the sweep does not panic. -/
theorem c76_sweep {tol eps : K} (htol : 0 ≤ tol) {dbg : Bool} (hnd : ids.Nodup) (hids : ids.length = ps.length) (hn : ps.length ≤ maxIx) {t t' : Triangulation} {tys : List VType}
    (h : sweepDelaunay σ tol eps dbg ps ids t = some (t', tys)) : ∃ ts, Emits t t' ids ts ∧
      (ts.map fun x => tri2 (posOf ps x.1) (posOf ps x.2.1) (posOf ps x.2.2)).sum = area2 ps ∧ ts.length + 2 * tys.countP isStart = ps.length + 2 * tys.countP isMerge ∧
      (tys.countP isStart = tys.countP isMerge + 1 → ts.length = ps.length - 2 ∧ IsTriangulation ps.length ts) := by
  simp only [sweepDelaunay, Option.bind_eq_bind, Option.bind_eq_some_iff] at h
  obtain ⟨es, h1, ⟨q, tys'⟩, h2, h3⟩ := h
  simp at h3
  obtain ⟨rfl, rfl⟩ := h3
  obtain ⟨-, ts, e1, -, e3, e4, e5⟩ := c53_sweep_partial (delaunayLawful σ eps dbg ps hnd) htol hids hn (eventQueue_sorted h1) h2
  exact ⟨ts, e1, e3, e4, e5⟩

/-- The Delaunay triangulator has the fault of C53 as well: the sweep panics for a simple pentagon, because `last_opposite` unwraps `None` (delaunay.rs:448-460). -/
theorem c76_panics : ∀ dbg, sweepDelaunay (strict ℚ) 0 0 dbg leftThenSplit [0, 1, 2, 3, 4] (.new []) = none := by
  intro dbg; cases dbg <;> decide +kernel

/-- a flat quadrilateral: the linear triangulator takes the long diagonal, the Delaunay triangulator the short one -/
def flatQuad : List (P2 ℚ) := [⟨0, 10⟩, ⟨-20, 6⟩, ⟨0, 0⟩, ⟨20, 5⟩]

example : (sweepLinear (strict ℚ) 0 0 true flatQuad [0, 1, 2, 3] (.new [])).map (·.1.indices) = some [0, 1, 3, 1, 2, 3] ∧
    (sweepDelaunay (strict ℚ) 0 0 true flatQuad [0, 1, 2, 3] (.new [])).map (·.1.indices) = some [1, 2, 0, 2, 3, 0] ∧ lift flatQuad [(1, 2, 0), (2, 3, 0)] < lift flatQuad [(0, 1, 3), (1, 2, 3)] := by
  refine ⟨?_, ?_, ?_⟩ <;> decide +kernel

end Verif.GeomProps
