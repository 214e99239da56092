import Verif.Lemmas.PathBuilder
import Verif.Spec.PathBuilder
import Verif.Lemmas.Decide
/- The states the path builder goes through. -/
namespace Verif
namespace Mesh
variable {VP EP FP : Type}

theorem IsPath.congr {m m1 : Mesh VP EP FP} {ef ef' eb eb' : Nat → EP} {p : Nat → Option VP} {N : Nat} {v f b : Nat → Nat}
    (h : IsPath m m1 ef eb p N v f b) (hf : ∀ i < N, ef i = ef' i) (hb : ∀ i < N, eb i = eb' i) : IsPath m m1 ef' eb' p N v f b :=
  { h with
    newF := fun i hi => by rw [← hf i hi]; exact h.newF i hi
    newB := fun i hi => by rw [← hb i hi]; exact h.newB i hi }

theorem IsCycle.congr {m m1 : Mesh VP EP FP} {ef ef' eb eb' : Nat → EP} {p : Nat → Option VP} {N : Nat} {v f b : Nat → Nat} {fb : Option Nat}
    (h : IsCycle m m1 ef eb p N v f b fb) (hf : ∀ i < N, ef i = ef' i) (hb : ∀ i < N, eb i = eb' i) : IsCycle m m1 ef' eb' p N v f b fb :=
  { h with
    newF := fun i hi => by rw [← hf i hi]; exact h.newF i hi
    newB := fun i hi => by rw [← hb i hi]; exact h.newB i hi }

end Mesh
open Mesh
variable {VP EP FP P : Type}

/-- the state after placing the first vertex -/
structure Placed (m : Mesh VP EP FP) (vp : VP) (B : PathBuilder VP EP FP) (v0 : Nat) : Prop where
  good : B.mesh.Good
  fresh : ¬ m.topo.V v0
  topo : B.mesh.topo = m.topo.addVertex v0
  hs : B.mesh.hs = m.hs
  fs : B.mesh.fs = m.fs
  vpay : ∀ x, B.mesh.vpay x = if x = v0 then some vp else m.vpay x
  closed : B.closed = false
  hasFace : B.hasFace = false
  startV : B.startV = some v0
  currentV : B.currentV = some v0
  startE : B.startE = none
  currentE : B.currentE = none

/-- the state after `N > 0` strokes to new vertices -/
structure Drawn (K : Kit VP EP P) (m : Mesh VP EP FP) (ef : Nat → EP) (p : Nat → Option VP) (N : Nat) (B : PathBuilder VP EP FP)
    (v f b : Nat → Nat) : Prop where
  path : IsPath m B.mesh ef (fun _ => K.de) p N v f b
  good : B.mesh.Good
  closed : B.closed = false
  hasFace : B.hasFace = false
  startV : B.startV = some (v 0)
  currentV : B.currentV = some (v N)
  startE : B.startE = some (b 0, f 0)
  currentE : B.currentE = some (f (N - 1), b (N - 1))

/-- `N` strokes have been drawn -/
def State (K : Kit VP EP P) (m : Mesh VP EP FP) (ef : Nat → EP) (p : Nat → Option VP) (N : Nat) (B : PathBuilder VP EP FP) : Prop :=
  if N = 0 then ∃ vp v0, p 0 = some vp ∧ Placed m vp B v0 else ∃ v f b, Drawn K m ef p N B v f b

/-- the closed path -/
structure Looped (K : Kit VP EP P) (m : Mesh VP EP FP) (ef : Nat → EP) (p : Nat → Option VP) (n : Nat) (B : PathBuilder VP EP FP)
    (v f b : Nat → Nat) : Prop where
  cycle : IsCycle m B.mesh ef (fun _ => K.de) p n v f b none
  good : B.mesh.Good
  faces : ∀ x, B.mesh.face x = m.face x
  closed : B.closed = true
  hasFace : B.hasFace = false
  startE : B.startE = some (b 0, f 0)

theorem start_state {K : Kit VP EP P} {m : Mesh VP EP FP} (g : m.Good) (ef : Nat → EP) {p : Nat → Option VP} {p0 : P}
    (hp : p 0 = some (K.fromPos p0)) : ∃ B, PathBuilder.start K m p0 = some B ∧ State K m ef p 0 B := by
  obtain ⟨m1, v0, a1, a2, a3, a4, a5, a6, a7⟩ := addVertex_spec g (K.fromPos p0)
  have hv : m1.vertex v0 = some ⟨none, K.fromPos p0⟩ := by
    rw [vertex_is (p := K.fromPos p0) (by simp [a7]), a4]; simp [Topo.addVertex]
  refine ⟨⟨m1, false, false, some v0, some v0, none, none⟩, ?_, ?_⟩
  · simp [PathBuilder.start, a1, PathBuilder.startAt, hv]
  · rw [State, if_pos rfl]
    exact ⟨_, v0, hp, a2, a3, a4, a5, a6, a7, rfl, rfl, rfl, rfl, rfl, rfl⟩

theorem moveTo_state {K : Kit VP EP P} {m : Mesh VP EP FP} (g : m.Good) (ef : Nat → EP) {p : Nat → Option VP} {p0 : P}
    (hp : p 0 = some (K.fromPos p0)) : ∃ B, (PathBuilder.new m).moveToNew K p0 = some B ∧ State K m ef p 0 B := by
  obtain ⟨m1, v0, a1, a2, a3, a4, a5, a6, a7⟩ := addVertex_spec g (K.fromPos p0)
  refine ⟨⟨m1, false, false, some v0, some v0, none, none⟩, ?_, ?_⟩
  · simp [PathBuilder.moveToNew, PathBuilder.new, a1]
  · rw [State, if_pos rfl]
    exact ⟨_, v0, hp, a2, a3, a4, a5, a6, a7, rfl, rfl, rfl, rfl, rfl, rfl⟩

/-- a straight line to a new vertex -/
theorem line_state {K : Kit VP EP P} {m : Mesh VP EP FP} (g : m.Good) {ef : Nat → EP} {p : Nat → Option VP} {N : Nat}
    {B : PathBuilder VP EP FP} (h : State K m ef p N B) (dbg : Bool) {q : P} (hq : p (N + 1) = some (K.fromPos q)) :
    ∃ B1 w B' v f b, B.addPos K q = some (B1, w) ∧ B1.lineTo dbg K w = some B' ∧
      Drawn K m (fun i => if i = N then K.de else ef i) p (N + 1) B' v f b := by
  by_cases hN : N = 0
  · subst hN
    rw [State, if_pos rfl] at h
    obtain ⟨vp, v0, hp0, h⟩ := h
    obtain ⟨m2, m3, v1, e0, e1, a1, a2, a3, a4⟩ := isPath_first g h.good h.fresh h.topo h.hs h.fs h.vpay dbg K.de p hp0 hq
    have n01 : v1 ≠ v0 := fun hc => by have := a4.injV 1 (by omega) 0 (by omega) (by simpa using hc); omega
    refine ⟨{ B with mesh := m2 }, v1, { B with mesh := m3, closed := false, currentE := some (e0, e1), startE := some (e1, e0), currentV := some v1 },
      _, _, _, ?_, ?_, ⟨a4.congr (fun i hi => ?_) (fun _ _ => rfl), a3, rfl, h.hasFace, by simp [h.startV], rfl, rfl, rfl⟩⟩
    · simp [PathBuilder.addPos, a1]
    · simp [PathBuilder.lineTo, PathBuilder.lineToEx, h.closed, h.currentE, h.startE, h.startV, h.currentV, a2, n01]
    · rw [if_pos (by omega)]
  · rw [State, if_neg hN] at h
    obtain ⟨v, f, b, h⟩ := h
    obtain ⟨m2, m3, vn, e0, e1, a1, a2, a3, a4⟩ := h.path.step g h.good hq dbg K.de
    have n01 : vn ≠ v 0 := fun hc => by
      have := a4.injV (N + 1) (by omega) 0 (by omega) (by simpa using hc); omega
    refine ⟨{ B with mesh := m2 }, vn, { B with mesh := m3, closed := false, currentE := some (e0, e1), currentV := some vn },
      _, _, _, ?_, ?_, ⟨a4.congr (fun _ _ => rfl) (fun i hi => ite_self _), a3, rfl, h.hasFace, by simp [h.startV], by simp, ?_, by simp⟩⟩
    · simp [PathBuilder.addPos, a1]
    · simp [PathBuilder.lineTo, PathBuilder.lineToEx, h.closed, h.currentE, h.startV, h.currentV, a2, n01]
    · simp [h.startE, (show ¬ 0 = N by omega)]

theorem setCurve_drawn {K : Kit VP EP P} {m : Mesh VP EP FP} {ef : Nat → EP} {p : Nat → Option VP} {N : Nat}
    {B : PathBuilder VP EP FP} {v f b : Nat → Nat} (h : Drawn K m ef p N B v f b) (k : EP → EP) :
    ∃ B', B.setCurve k = some B' ∧ Drawn K m (fun i => if i = N - 1 then k (ef (N - 1)) else ef i) p N B' v f b := by
  obtain ⟨m2, a1, a2, a3⟩ := h.path.pay h.good (j := N - 1) (by have := h.path.pos; omega) k
  exact ⟨{ B with mesh := m2 }, by simp [PathBuilder.setCurve, h.currentE, a1], a3, a2, h.closed, h.hasFace, h.startV, h.currentV, h.startE, h.currentE⟩

theorem Drawn.congr {K : Kit VP EP P} {m : Mesh VP EP FP} {ef ef' : Nat → EP} {p : Nat → Option VP} {N : Nat}
    {B : PathBuilder VP EP FP} {v f b : Nat → Nat} (h : Drawn K m ef p N B v f b) (he : ∀ i < N, ef i = ef' i) :
    Drawn K m ef' p N B v f b :=
  { h with path := h.path.congr he (fun _ _ => rfl) }

/-- a stroke to a new vertex -/
theorem stroke_state {K : Kit VP EP P} {m : Mesh VP EP FP} (g : m.Good) {ef : Nat → EP} {p : Nat → Option VP} {N : Nat}
    {B : PathBuilder VP EP FP} (h : State K m ef p N B) (dbg : Bool) (s : Stroke P) {q : P} (hq : p (N + 1) = some (K.fromPos q))
    (hs : ef N = s.pay K) : ∃ B', s.toPos dbg K B q = some B' ∧ State K m ef p (N + 1) B' := by
  obtain ⟨B1, w, B2, v, f, b, h1, h2, h3⟩ := line_state g h dbg hq
  have fin : ∀ B' k, B2.setCurve k = some B' → Drawn K m (fun i => if i = N then k K.de else if i = N then K.de else ef i) p (N + 1) B' v f b →
      k K.de = ef N → State K m ef p (N + 1) B' := by
    intro B' k _ h4 hk
    rw [State, if_neg (by omega)]
    refine ⟨v, f, b, h4.congr fun i _ => ?_⟩
    by_cases hi : i = N
    · subst hi; simp [hk]
    · simp [hi]
  cases s with
  | line =>
    refine ⟨B2, by simp [Stroke.toPos, PathBuilder.line, h1, h2], ?_⟩
    rw [State, if_neg (by omega)]
    refine ⟨v, f, b, h3.congr fun i _ => ?_⟩
    by_cases hi : i = N
    · subst hi; simp [hs, Stroke.pay]
    · simp [hi]
  | quad c =>
    obtain ⟨B3, k1, k2⟩ := setCurve_drawn h3 (K.quad c)
    refine ⟨B3, by simp [Stroke.toPos, PathBuilder.quad, PathBuilder.quadTo, h1, h2, k1], fin B3 _ k1 ?_ hs.symm⟩
    simpa using k2
  | cubic c1 c2 =>
    obtain ⟨B3, k1, k2⟩ := setCurve_drawn h3 (K.cubic c1 c2)
    refine ⟨B3, by simp [Stroke.toPos, PathBuilder.cubic, PathBuilder.cubicTo, h1, h2, k1], fin B3 _ k1 ?_ hs.symm⟩
    simpa using k2

theorem draw_state {K : Kit VP EP P} {m : Mesh VP EP FP} (g : m.Good) {ef : Nat → EP} {p : Nat → Option VP} (dbg : Bool) :
    ∀ (l : List (Stroke P × P)) {N : Nat} {B : PathBuilder VP EP FP}, State K m ef p N B →
      (∀ j x, l[j]? = some x → p (N + 1 + j) = some (K.fromPos x.2) ∧ ef (N + j) = x.1.pay K) →
      ∃ B', Stroke.draw dbg K B l = some B' ∧ State K m ef p (N + l.length) B' := by
  intro l
  induction l with
  | nil => intro N B h _; exact ⟨B, rfl, h⟩
  | cons x l ih =>
    obtain ⟨s, q⟩ := x
    intro N B h hl
    have h0 := hl 0 (s, q) rfl
    obtain ⟨B1, a1, a2⟩ := stroke_state g h dbg s (q := q) h0.1 h0.2
    obtain ⟨B', b1, b2⟩ := ih a2 (fun j x hj => by
      have := hl (j + 1) x (by simpa using hj)
      rw [show N + 1 + 1 + j = N + 1 + (j + 1) by omega, show N + 1 + j = N + (j + 1) by omega]; exact this)
    refine ⟨B', by simp [Stroke.draw, a1, b1], ?_⟩
    rw [List.length_cons, show N + (l.length + 1) = N + 1 + l.length by omega]; exact b2

/-- a stroke back to the start -/
theorem last_state {K : Kit VP EP P} {m : Mesh VP EP FP} (g : m.Good) {ef : Nat → EP} {p : Nat → Option VP} {N : Nat}
    {B : PathBuilder VP EP FP} {v f b : Nat → Nat} (h : Drawn K m ef p N B v f b) (hN : 2 ≤ N) (dbg : Bool) (s : Stroke P) (hs : ef N = s.pay K) :
    ∃ B' f b, s.toVertex dbg K B (v 0) = some B' ∧ Looped K m ef p (N + 1) B' v f b := by
  obtain ⟨m2, e0, e1, a1, a2, a3, a4⟩ := h.path.stepClose g h.good hN dbg K.de
  have hb : ∀ i < N + 1, (fun i => if i = N then K.de else (fun _ : Nat => K.de) i) i = K.de := fun i _ => ite_self _
  have hl : B.lineTo dbg K (v 0) = some { B with mesh := m2, closed := true, currentE := some (e0, e1), currentV := some (v 0) } := by
    simp [PathBuilder.lineTo, PathBuilder.lineToEx, h.closed, h.currentE, h.startV, h.currentV, a1]
  have curve : ∀ k : EP → EP, k K.de = ef N → ∃ B',
      (({ B with mesh := m2, closed := true, currentE := some (e0, e1), currentV := some (v 0) } : PathBuilder VP EP FP).setCurve k) = some B' ∧
      Looped K m ef p (N + 1) B' v (fun i => if i = N then e0 else f i) (fun i => if i = N then e1 else b i) := by
    intro k hk
    obtain ⟨m3, c1, c2, c3, c4⟩ := a3.pay a2 (j := N) (by omega) k
    simp only [if_true] at c1
    refine ⟨{ B with mesh := m3, closed := true, currentE := some (e0, e1), currentV := some (v 0) }, by simp [PathBuilder.setCurve, c1],
      c3.congr (fun i _ => ?_) hb, c2, fun x => by rw [← a4]; exact c4 x, rfl, h.hasFace, by simp [h.startE, (show ¬ 0 = N by omega)]⟩
    by_cases hi : i = N
    · subst hi; simp [hk]
    · simp [hi]
  cases s with
  | line =>
    refine ⟨_, (fun i => if i = N then e0 else f i), (fun i => if i = N then e1 else b i), hl, a3.congr (fun i _ => ?_) hb, a2, a4, rfl, h.hasFace,
      by simp [h.startE, (show ¬ 0 = N by omega)]⟩
    by_cases hi : i = N
    · subst hi; simp [hs, Stroke.pay]
    · simp [hi]
  | quad c =>
    obtain ⟨B', c1, c2⟩ := curve (K.quad c) hs.symm
    exact ⟨B', _, _, by simp [Stroke.toVertex, PathBuilder.quadTo, hl, c1], c2⟩
  | cubic x y =>
    obtain ⟨B', c1, c2⟩ := curve (K.cubic x y) hs.symm
    exact ⟨B', _, _, by simp [Stroke.toVertex, PathBuilder.cubicTo, hl, c1], c2⟩

/-- filling the closed path -/
theorem Looped.fill {K : Kit VP EP P} {m : Mesh VP EP FP} (g : m.Good) {ef : Nat → EP} {p : Nat → Option VP} {n : Nat}
    {B : PathBuilder VP EP FP} {v f b : Nat → Nat} (h : Looped K m ef p n B v f b) (hn : 3 ≤ n) (dbg : Bool) (fp : FP) :
    ∃ m' F, B.close dbg K fp = some ({ B with hasFace := true, mesh := m' }, some F) ∧ m'.Good ∧
      IsCycle m m' ef (fun _ => K.de) p n v f b (some F) ∧
      m.face F = none ∧ m'.face F = some { edge := b 0, curved := false, payload := fp } ∧ (∀ x, x ≠ F → m'.face x = m.face x) ∧
      m'.faceVertices F = some ((List.range n).map (fun i => v ((n - i) % n))) := by
  obtain ⟨m', F, a1, a2, a3, a4, a5, a6, a7, -⟩ := h.cycle.fill g h.good h.faces hn dbg fp
  exact ⟨m', F, by simp [PathBuilder.close, h.closed, h.startE, a1], a2, a3, a4, a5, a6, a7⟩

end Verif
