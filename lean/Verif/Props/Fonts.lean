import Verif.Lemmas.Ring
import Verif.Lemmas.Decide
import Verif.Props.PathBuilder
import Verif.Model.Curve
import Mathlib.Algebra.BigOperators.Group.List.Basic
import Mathlib.Tactic.NormNum
import Mathlib.Tactic.Linarith
import Mathlib.Algebra.Module.Prod
import Mathlib.Tactic.LinearCombination
import Mathlib.Tactic.FieldSimp
import Mathlib.Tactic.Ring
import Mathlib.Data.Rat.Defs
/- C101: drawing text. -/
namespace Verif.MeshProps
open Mesh
variable {VP EP FP P S G : Type}

@[simp] theorem outline_p0 (s : Stroke P) (a b : P) : (s.outline a b).p0 = a := by cases s <;> rfl
@[simp] theorem outline_p1 (s : Stroke P) (a b : P) : (s.outline a b).p1 = b := by cases s <;> rfl

/-- the second half of a step: the payload of `cur_e` -/
theorem step_eq [DecidableEq P] (dbg : Bool) (K : Kit VP EP P) (df : FP) (place : P → P) (g g1 : GlyphPen VP EP FP P) (s : Stroke P) (a b : P) (e : Nat)
    (hd : (s.outline a b).degenerate = false) (h : g.edge dbg K df place (s.outline a b) = some (g1, e)) :
    ∃ k : Option (EP → EP), (k.elim K.de (· K.de)) = (s.map place).pay K ∧
      g.step dbg K df place (s.outline a b) =
        k.elim (some g1) (fun k => (g1.mesh.updE e (fun h => { h with payload := k h.payload })).map fun m => { g1 with mesh := m }) := by
  refine ⟨(s.outline a b).curve K place, ?_, ?_⟩
  · cases s <;> rfl
  · rw [GlyphPen.step, hd]
    simp only [Bool.false_eq_true, if_false, h, Option.bind_eq_bind, Option.bind_some]
    cases (s.outline a b).curve K place with
    | none => rfl
    | some k =>
      simp only [Option.elim_some]
      cases g1.mesh.updE e (fun h => { h with payload := k h.payload }) <;> rfl

/-- the state after `N > 0` curves of a contour -/
structure Inking (K : Kit VP EP P) (m : Mesh VP EP FP) (ef : Nat → EP) (p : Nat → Option VP) (start : P) (N : Nat) (g : GlyphPen VP EP FP P)
    (v f b : Nat → Nat) : Prop where
  path : IsPath m g.mesh ef (fun _ => K.de) p N v f b
  good : g.mesh.Good
  first : g.first = some start
  cur : ∃ q, g.cur = some q
  curV : g.curV = some (v N)
  startV : g.startV = some (v 0)
  prevV : g.prevV = some (v (N - 1))

theorem Inking.pay {K : Kit VP EP P} {m : Mesh VP EP FP} {ef : Nat → EP} {p : Nat → Option VP} {start : P} {N : Nat} {g : GlyphPen VP EP FP P}
    {v f b : Nat → Nat} (h : Inking K m ef p start (N + 1) g v f b) (he : ef N = K.de) (k : Option (EP → EP)) :
    ∃ g', k.elim (some g) (fun k => (g.mesh.updE (f N) (fun h => { h with payload := k h.payload })).map fun m => { g with mesh := m }) = some g' ∧
      Inking K m (fun i => if i = N then k.elim K.de (· K.de) else ef i) p start (N + 1) g' v f b := by
  cases k with
  | none =>
    refine ⟨g, rfl, { h with path := h.path.congr (fun i _ => ?_) (fun _ _ => rfl) }⟩
    by_cases hi : i = N
    · subst hi; simp [he]
    · simp [hi]
  | some k =>
    obtain ⟨m2, a1, a2, a3⟩ := h.path.pay h.good (j := N) (by omega) k
    exact ⟨{ g with mesh := m2 }, by simp [a1], by simpa [he] using a3, a2, h.first, h.cur, h.curV, h.startV, h.prevV⟩

/-- the first curve of a contour -/
theorem ink_first [DecidableEq P] {K : Kit VP EP P} {m : Mesh VP EP FP} (g : m.Good) (dbg : Bool) (df : FP) (place : P → P) (s : Stroke P) (a q : P)
    (hd : (s.outline a q).degenerate = false) {p : Nat → Option VP} (h0 : p 0 = some (K.fromPos (place a))) (h1 : p 1 = some (K.fromPos (place q))) :
    ∃ g' v f b, (GlyphPen.new m).step dbg K df place (s.outline a q) = some g' ∧
      Inking K m (fun _ => (s.map place).pay K) p a 1 g' v f b := by
  obtain ⟨m1, v, f, b, c1, c2, c3, c4⟩ := isPath_isolated g dbg K.de _ _ h0 h1
  have he : (GlyphPen.new m).edge dbg K df place (s.outline a q) = some (⟨m1, some a, some q, some (v 1), some (v 0), some (v 0)⟩, f 0) := by
    simp [GlyphPen.edge, GlyphPen.new, c1, c2]
  obtain ⟨k, k1, k2⟩ := step_eq dbg K df place _ _ s a q _ hd he
  have I : Inking K m (fun _ => K.de) p a (0 + 1) ⟨m1, some a, some q, some (v 1), some (v 0), some (v 0)⟩ v f b :=
    ⟨c4, c3, rfl, ⟨_, rfl⟩, rfl, rfl, rfl⟩
  obtain ⟨g', e1, e2⟩ := I.pay rfl k
  refine ⟨g', v, f, b, by rw [k2, ← e1], { e2 with path := e2.path.congr (fun i hi => ?_) (fun _ _ => rfl) }⟩
  rw [if_pos (by omega), k1]

/-- a further curve of a contour -/
theorem Inking.next [DecidableEq P] {K : Kit VP EP P} {m : Mesh VP EP FP} (gm : m.Good) {ef : Nat → EP} {p : Nat → Option VP} {start : P} {N : Nat}
    {g : GlyphPen VP EP FP P} {v f b : Nat → Nat} (h : Inking K m ef p start N g v f b) (dbg : Bool) (df : FP) (place : P → P) (s : Stroke P) (a q : P)
    (hd : (s.outline a q).degenerate = false) (hq : q ≠ start) (hp : p (N + 1) = some (K.fromPos (place q))) (hs : ef N = (s.map place).pay K) :
    ∃ g' v' f' b', g.step dbg K df place (s.outline a q) = some g' ∧ Inking K m ef p start (N + 1) g' v' f' b' := by
  have pos := h.path.pos
  obtain ⟨m2, vn, e1, e2, a1, a2, a3⟩ := h.path.stepVia gm h.good hp dbg K.de
  obtain ⟨q0, hq0⟩ := h.cur
  have he : g.edge dbg K df place (s.outline a q) = some ({ g with mesh := m2, cur := some q, curV := some vn, prevV := g.curV }, e1) := by
    simp [GlyphPen.edge, hq0, h.first, hq.symm, h.curV, a1]
  obtain ⟨k, k1, k2⟩ := step_eq dbg K df place _ _ s a q _ hd he
  have I : Inking K m (fun i => if i = N then K.de else ef i) p start (N + 1)
      { g with mesh := m2, cur := some q, curV := some vn, prevV := g.curV } (fun i => if i = N + 1 then vn else v i)
      (fun i => if i = N then e1 else f i) (fun i => if i = N then e2 else b i) :=
    ⟨a3.congr (fun _ _ => rfl) (fun _ _ => ite_self _), a2, h.first, ⟨_, rfl⟩, by simp, by simp [h.startV], by simp [h.curV]⟩
  obtain ⟨g', c1, c2⟩ := I.pay (by simp) k
  simp only [if_true] at c1
  refine ⟨g', _, _, _, by rw [k2, ← c1], { c2 with path := c2.path.congr (fun i _ => ?_) (fun _ _ => rfl) }⟩
  by_cases hi : i = N
  · subst hi; simp [k1, hs]
  · simp [hi]

/-- the last curve of a contour: it closes the face, and its curve is put on the half-edge that runs backwards -/
theorem Inking.last [DecidableEq P] {K : Kit VP EP P} {m : Mesh VP EP FP} (gm : m.Good) {ef : Nat → EP} {p : Nat → Option VP} {start : P} {N : Nat}
    {g : GlyphPen VP EP FP P} {v f b : Nat → Nat} (h : Inking K m ef p start N g v f b) (hN : 2 ≤ N) (dbg : Bool) (df : FP) (place : P → P)
    (s : Stroke P) (a : P) (hd : (s.outline a start).degenerate = false) :
    ∃ m' f' b' F, g.step dbg K df place (s.outline a start) = some (GlyphPen.new m') ∧ m'.Good ∧
      m.Ring m' (fun i => if i = N then K.de else ef i) (fun i => if i = N then (s.map place).pay K else K.de) p (N + 1) v f' b' F df := by
  obtain ⟨m2, F, e1, e2, a1, a2, a3⟩ := h.path.closeVertices gm h.good hN dbg K.de df
  obtain ⟨q0, hq0⟩ := h.cur
  have he : g.edge dbg K df place (s.outline a start) = some (GlyphPen.new m2, e2) := by
    simp [GlyphPen.edge, hq0, h.first, h.curV, h.startV, h.prevV, a1, GlyphPen.new]
  obtain ⟨k, k1, k2⟩ := step_eq dbg K df place _ _ s a start _ hd he
  cases k with
  | none =>
    refine ⟨m2, _, _, F, k2, a2, a3.congr (fun _ _ => rfl) (fun i _ => ?_)⟩
    by_cases hi : i = N
    · subst hi; simp [← k1]
    · simp [hi]
  | some k =>
    obtain ⟨m3, c1, c2, c3⟩ := a3.payB a2 (j := N) (by omega) k
    simp only [if_true] at c1
    refine ⟨m3, _, _, F, by rw [k2]; simp [GlyphPen.new, c1], c2, c3.congr (fun _ _ => rfl) (fun i _ => ?_)⟩
    by_cases hi : i = N
    · subst hi; simp [← k1]
    · simp [hi]

theorem steps_append [DecidableEq P] (dbg : Bool) (K : Kit VP EP P) (df : FP) (place : P → P) : ∀ (cs ds : List (Outline P)) (g : GlyphPen VP EP FP P),
    g.steps dbg K df place (cs ++ ds) = (g.steps dbg K df place cs).bind fun g => g.steps dbg K df place ds := by
  intro cs
  induction cs with
  | nil => intro ds g; rfl
  | cons c cs ih =>
    intro ds g
    simp only [List.cons_append, GlyphPen.steps, Option.bind_eq_bind]
    cases g.step dbg K df place c with
    | none => rfl
    | some g' => simp [ih]

/-- the rest of a contour -/
theorem Inking.rest [DecidableEq P] {K : Kit VP EP P} {m : Mesh VP EP FP} (gm : m.Good) {ef : Nat → EP} {p : Nat → Option VP} (c : Contour P)
    (dbg : Bool) (df : FP) (place : P → P) : ∀ (l : List (Stroke P × P)) {N : Nat} {g : GlyphPen VP EP FP P} {v f b : Nat → Nat} (a : P),
      Inking K m ef p c.start N g v f b → 2 ≤ N + l.length → (∀ o ∈ c.curvesFrom a l, o.degenerate = false) → (∀ x ∈ l, x.2 ≠ c.start) →
      (∀ j x, l[j]? = some x → p (N + 1 + j) = some (K.fromPos (place x.2)) ∧ ef (N + j) = (x.1.map place).pay K) →
      ∃ m' v f b F, g.steps dbg K df place (c.curvesFrom a l) = some (GlyphPen.new m') ∧ m'.Good ∧
        m.Ring m' (fun i => if i = N + l.length then K.de else ef i) (fun i => if i = N + l.length then (c.last.map place).pay K else K.de) p
          (N + l.length + 1) v f b F df := by
  intro l
  induction l with
  | nil =>
    intro N g v f b a h hN hd _ _
    obtain ⟨m', f', b', F, h1, h2, h3⟩ := h.last gm hN dbg df place c.last a (hd _ (by simp [Contour.curvesFrom]))
    exact ⟨m', v, f', b', F, by simp [Contour.curvesFrom, GlyphPen.steps, h1], h2, h3⟩
  | cons x l ih =>
    obtain ⟨s, q⟩ := x
    intro N g v f b a h hN hd hne hl
    have h0 := hl 0 (s, q) rfl
    obtain ⟨g1, v1, f1, b1, c1, c2⟩ := h.next gm dbg df place s a q (hd _ (by simp [Contour.curvesFrom])) (hne _ List.mem_cons_self) h0.1 h0.2
    have eN : N + ((s, q) :: l).length = N + 1 + l.length := by simp; omega
    rw [eN] at hN ⊢
    obtain ⟨m', v', f', b', F, d1, d2, d3⟩ := ih q c2 hN (fun o ho => hd o (by simp [Contour.curvesFrom, ho])) (fun x hx => hne x (List.mem_cons_of_mem _ hx))
      (fun j x hj => by
        have := hl (j + 1) x (by simpa using hj)
        rw [show N + 1 + 1 + j = N + 1 + (j + 1) by omega, show N + 1 + j = N + (j + 1) by omega]; exact this)
    exact ⟨m', v', f', b', F, by simp [Contour.curvesFrom, GlyphPen.steps, c1, d1], d2, d3⟩

/-- **C101, one contour, exactly**: what the curves of a closed contour do to the mesh: a filled polygon; every curve but the last is
    on the half-edge that runs along it; the last one is, with the same control points, on the half-edge that runs backwards. -/
theorem c101_contour [DecidableEq P] {K : Kit VP EP P} {m : Mesh VP EP FP} (g : m.Good) (dbg : Bool) (df : FP) (place : P → P) (c : Contour P)
    (hc : c.Proper) (hd : ∀ o ∈ c.curves, o.degenerate = false) :
    ∃ m' v f b F, (GlyphPen.new m).steps dbg K df place c.curves = some (GlyphPen.new m') ∧ m'.Good ∧
      m.Ring m' (fun i => if i = c.strokes.length then K.de else strokePays K (c.map place).all i)
        (fun i => if i = c.strokes.length then (c.last.map place).pay K else K.de)
        (pointPays K (c.map place).points) (c.strokes.length + 1) v f b F df := by
  obtain ⟨start, l, last⟩ := c
  obtain ⟨hl, hne⟩ := hc
  cases l with
  | nil => simp at hl
  | cons x l =>
    obtain ⟨s, q⟩ := x
    have hd0 := hd (s.outline start q) (by simp [Contour.curves, Contour.curvesFrom])
    obtain ⟨g1, v, f, b, a1, a2⟩ := ink_first (K := K) g dbg df place s start q hd0
      (p := pointPays K ((⟨start, (s, q) :: l, last⟩ : Contour P).map place).points) rfl rfl
    have a3 : Inking K m (strokePays K ((⟨start, (s, q) :: l, last⟩ : Contour P).map place).all)
        (pointPays K ((⟨start, (s, q) :: l, last⟩ : Contour P).map place).points) start 1 g1 v f b :=
      { a2 with path := a2.path.congr (fun i hi => by
          have : i = 0 := by omega
          subst this; rfl) (fun _ _ => rfl) }
    obtain ⟨m', v', f', b', F, d1, d2, d3⟩ := a3.rest g ⟨start, (s, q) :: l, last⟩ dbg df place l q (by simpa [Nat.add_comm] using hl)
      (fun o ho => hd o (by simp only [Contour.curves, Contour.curvesFrom]; exact List.mem_cons_of_mem _ ho))
      (fun x hx => hne x (List.mem_cons_of_mem _ hx)) (fun j x hj => by
        have hlt : j < l.length := by
          rcases Nat.lt_or_ge j l.length with h | h
          · exact h
          · rw [List.getElem?_eq_none h] at hj; cases hj
        refine ⟨?_, ?_⟩
        · rw [pointPays, show 1 + 1 + j = j + 1 + 1 by omega]; simp [Contour.points, Contour.map, hj]
        · rw [strokePays, show 1 + j = j + 1 by omega, Contour.all, List.getElem?_append_left (by simpa [Contour.map] using hlt)]
          simp [Contour.map, hj])
    have e : ((s, q) :: l).length = 1 + l.length := by simp; omega
    refine ⟨m', v', f', b', F, ?_, d2, ?_⟩
    · rw [Contour.curves]
      simp only [Contour.curvesFrom, GlyphPen.steps, a1, Option.bind_eq_bind, Option.bind_some]
      exact d1
    · simp only [e]
      exact d3

theorem map_points (h : P → P) (c : Contour P) : (c.map h).points.length = c.strokes.length + 1 := by
  simp [Contour.points, Contour.map]

theorem all_last (c : Contour P) : c.all[c.strokes.length]? = some c.last := by simp [Contour.all]

/-- **C101, one contour**: unless the last curve is a cubic one with two different control points, the contour is drawn as it should be.
    Missing for the full property: contours that end with a cubic curve (`c101_cubic_violated`). -/
theorem c101_contour_partial [DecidableEq P] {K : Kit VP EP P} {m : Mesh VP EP FP} (g : m.Good) (dbg : Bool) (df : FP) (place : P → P) (c : Contour P)
    (hc : c.Proper) (hd : ∀ o ∈ c.curves, o.degenerate = false) (hl : c.last.reverse = c.last) :
    ∃ m', (GlyphPen.new m).steps dbg K df place c.curves = some (GlyphPen.new m') ∧ Inked K df m m' (c.map place) := by
  obtain ⟨m', v, f, b, F, h1, h2, h3⟩ := c101_contour (K := K) g dbg df place c hc hd
  refine ⟨m', h1, h2, _, _, v, f, b, F, by rw [map_points]; exact h3, fun i s hs => ?_⟩
  by_cases hi : i = c.strokes.length
  · subst hi
    have : (c.map place).strokes.length = c.strokes.length := by simp [Contour.map]
    rw [← this, all_last] at hs
    injection hs with hs
    subst hs
    refine .inr ⟨by simp, ?_⟩
    simp only [if_true]
    show _ = ((c.last.map place).reverse).pay K
    have : (c.last.map place).reverse = c.last.map place := by
      cases hcl : c.last with
      | cubic x y =>
        rw [hcl] at hl
        simp only [Stroke.reverse, Stroke.cubic.injEq] at hl
        simp [Stroke.reverse, Stroke.map, hl.1]
      | _ => rfl
    rw [this]
  · refine .inl ⟨?_, ?_⟩
    · simp only [hi, if_false, strokePays, hs, Option.elim_some]
    · simp only [hi, if_false]

/-- **C101, violated**: if the last curve of a contour is told apart from the reversals of its curves (a cubic curve with two
    different control points), the contour is not drawn as it should be, on any mesh. -/
theorem c101_cubic_violated [DecidableEq P] {K : Kit VP EP P} {m : Mesh VP EP FP} (g : m.Good) (dbg : Bool) (df : FP) (place : P → P) (c : Contour P)
    (hc : c.Proper) (hd : ∀ o ∈ c.curves, o.degenerate = false) (h0 : (c.last.map place).pay K ≠ K.de)
    (hr : ∀ s ∈ (c.map place).all, s.reverse.pay K ≠ (c.last.map place).pay K) :
    ∃ m', (GlyphPen.new m).steps dbg K df place c.curves = some (GlyphPen.new m') ∧ m'.Good ∧ ¬ Inked K df m m' (c.map place) := by
  obtain ⟨m', v, f, b, F, h1, h2, h3⟩ := c101_contour (K := K) g dbg df place c hc hd
  refine ⟨m', h1, h2, ?_⟩
  rintro ⟨-, ef, eb, v', f', b', F', h4, h5⟩
  have hB := h3.newB c.strokes.length (by omega)
  simp only [if_true] at hB
  rw [map_points] at h4
  have hlen : (c.map place).all.length = c.strokes.length + 1 := by simp [Contour.all, Contour.map]
  by_cases hx : ∃ i < c.strokes.length + 1, b c.strokes.length = f' i
  · obtain ⟨i, hi, hx⟩ := hx
    have := h4.newF i hi
    rw [← hx, hB] at this
    injection this with this
    injection this with _ _ _ _ this
    cases this
  · by_cases hy : ∃ i < c.strokes.length + 1, b c.strokes.length = b' i
    · obtain ⟨i, hi, hy⟩ := hy
      have := h4.newB i hi
      rw [← hy, hB] at this
      injection this with this
      injection this with _ _ _ _ _ this
      obtain ⟨s, hs⟩ : ∃ s, (c.map place).all[i]? = some s := ⟨_, List.getElem?_eq_getElem (by rw [hlen]; exact hi)⟩
      rcases h5 i s hs with ⟨-, h6⟩ | ⟨-, h6⟩
      · exact h0 (this.trans h6)
      · exact hr s (List.mem_of_getElem? hs) (h6.symm.trans this.symm)
    · have := h4.edges (b c.strokes.length) fun i hi => ⟨fun hc => hx ⟨i, hi, hc⟩, fun hc => hy ⟨i, hi, hc⟩⟩
      rw [hB, h3.freshB _ (by omega)] at this
      cases this

/-- lines of length zero are skipped -/
theorem steps_filter [DecidableEq P] (dbg : Bool) (K : Kit VP EP P) (df : FP) (place : P → P) : ∀ (cs : List (Outline P)) (g : GlyphPen VP EP FP P),
    g.steps dbg K df place cs = g.steps dbg K df place (cs.filter fun o => !o.degenerate) := by
  intro cs
  induction cs with
  | nil => intro g; rfl
  | cons c cs ih =>
    intro g
    cases hd : c.degenerate with
    | true =>
      rw [List.filter_cons_of_neg (by simp [hd]), ← ih, GlyphPen.steps, GlyphPen.step, hd]
      rfl
    | false =>
      rw [List.filter_cons_of_pos (by simp [hd])]
      simp only [GlyphPen.steps, Option.bind_eq_bind]
      cases g.step dbg K df place c with
      | none => rfl
      | some g' => simp [ih]

theorem inkedAll_append {K : Kit VP EP P} {fp : FP} : ∀ (cs ds : List (Contour P)) {m m1 m2 : Mesh VP EP FP}, InkedAll K fp cs m m1 → InkedAll K fp ds m1 m2 →
    InkedAll K fp (cs ++ ds) m m2 := by
  intro cs
  induction cs with
  | nil => intro ds m m1 m2 h1 h2; have h1 : m1 = m := h1; subst h1; exact h2
  | cons c cs ih =>
    intro ds m m1 m2 h1 h2
    obtain ⟨m', h3, h4⟩ := h1
    exact ⟨m', h3, ih ds h4 h2⟩

/-- what is asked of the contours of a glyph -/
def Plain (c : Contour P) : Prop := c.Proper ∧ c.last.reverse = c.last

/-- the curves of an outline are these contours one after the other, with lines of length zero anywhere in between -/
def Traces [DecidableEq P] (cs : List (Outline P)) (l : List (Contour P)) : Prop := cs.filter (fun o => !o.degenerate) = l.flatMap Contour.curves

/-- **C101, one glyph** -/
theorem c101_glyph_partial [DecidableEq P] {K : Kit VP EP P} {m : Mesh VP EP FP} (g : m.Good) (dbg : Bool) (df : FP) (place : P → P) (cs : List (Outline P))
    (l : List (Contour P)) (ht : Traces cs l) (hl : ∀ c ∈ l, Plain c) :
    ∃ m', (GlyphPen.new m).steps dbg K df place cs = some (GlyphPen.new m') ∧ m'.Good ∧ InkedAll K df (l.map (Contour.map place)) m m' := by
  rw [steps_filter, ht]
  have hd : ∀ o ∈ l.flatMap Contour.curves, o.degenerate = false := by
    intro o ho
    rw [← ht, List.mem_filter] at ho
    simpa using ho.2
  clear ht
  induction l generalizing m with
  | nil => exact ⟨m, rfl, g, rfl⟩
  | cons c l ih =>
    obtain ⟨m1, a1, a2⟩ := c101_contour_partial (K := K) g dbg df place c (hl c List.mem_cons_self).1
      (fun o ho => hd o (by simp only [List.flatMap_cons, List.mem_append]; exact .inl ho)) (hl c List.mem_cons_self).2
    obtain ⟨m2, b1, b2, b3⟩ := ih a2.1 (fun c hc => hl c (List.mem_cons_of_mem _ hc))
      (fun o ho => hd o (by simp only [List.flatMap_cons, List.mem_append]; exact .inr ho))
    exact ⟨m2, by rw [List.flatMap_cons, steps_append, a1]; exact b1, b2, m1, a2, b3⟩

section text
variable [AddCommMonoid S] [SMul S P] [Add P]

/-- the contours of a text whose first glyph comes after `last` -/
def textFrom (F : FontData G P S) (fromX : S → P) (contours : G → List (Contour P)) : S → Option G → List G → List (Contour P)
  | _, _, [] => []
  | x, last, g :: gs =>
    (contours g).map (Contour.map (F.place fromX (x + last.elim 0 (F.kern · g)))) ++
      textFrom F fromX contours (x + last.elim 0 (F.kern · g) + F.advance g) (some g) gs

theorem textFrom_eq (F : FontData G P S) (fromX : S → P) (contours : G → List (Contour P)) : ∀ (gs pre : List G) (l : G),
    textFrom F fromX contours (penPos F (pre ++ l :: gs) pre.length + F.advance l) (some l) gs =
      (gs.zipIdx (pre.length + 1)).flatMap fun gi => (contours gi.1).map (Contour.map (F.place fromX (penPos F (pre ++ l :: gs) gi.2))) := by
  intro gs
  induction gs with
  | nil => intro pre l; rfl
  | cons g gs ih =>
    intro pre l
    have key : penPos F (pre ++ l :: g :: gs) pre.length + F.advance l + F.kern l g = penPos F (pre ++ l :: g :: gs) (pre.length + 1) := by
      have t1 : (pre ++ l :: g :: gs).take (pre.length + 1) = (pre ++ l :: g :: gs).take pre.length ++ [l] := by
        rw [List.take_add_one]; simp
      have t2 : ((pre ++ l :: g :: gs).zip (pre ++ l :: g :: gs).tail).take (pre.length + 1) =
          ((pre ++ l :: g :: gs).zip (pre ++ l :: g :: gs).tail).take pre.length ++ [(l, g)] := by
        rw [List.take_add_one, List.getElem?_zip_eq_some (z := (l, g)) |>.mpr ⟨(by simp : (pre ++ l :: g :: gs)[pre.length]? = some l), by
          rw [List.getElem?_tail]; simp [List.getElem?_append_right]⟩]
        rfl
      rw [penPos, penPos, t1, t2]
      simp only [List.map_append, List.sum_append, List.map_cons, List.map_nil, List.sum_cons, List.sum_nil, add_zero]
      ac_rfl
    have := ih (pre ++ [l]) g
    simp only [List.append_assoc, List.singleton_append, List.length_append, List.length_singleton] at this
    rw [textFrom, List.zipIdx_cons, List.flatMap_cons]
    simp only [Option.elim_some]
    rw [key, this]

theorem textFrom_text (F : FontData G P S) (fromX : S → P) (contours : G → List (Contour P)) (text : List G) :
    textFrom F fromX contours 0 none text = textContours F fromX contours text := by
  cases text with
  | nil => rfl
  | cons g gs =>
    have := textFrom_eq F fromX contours gs [] g
    have h0 : penPos F (g :: gs) 0 = 0 := by simp [penPos]
    simp only [List.nil_append, List.length_nil, h0, Nat.zero_add] at this
    rw [textFrom, textContours, List.zipIdx_cons, List.flatMap_cons]
    simp only [Option.elim_none, add_zero, h0]
    rw [this]
    rfl

/-- **C101**: a text whose glyphs consist of closed contours of at least three curves, none of which ends with an asymmetric cubic
    curve, is drawn without a panic: one filled polygon per contour, in order, each glyph at the sum of the advances and kerns
    before it, with the curves of the outline.  Glyphs without an outline (spaces) only advance.
    Missing for the full property: contours that end with a cubic curve (`c101_cubic_violated`) and contours of one or two curves
    (`c101_two_curves`, `c101_one_curve`). -/
theorem c101_text_partial [DecidableEq P] {K : Kit VP EP P} {m : Mesh VP EP FP} (g : m.Good) (dbg : Bool) (df : FP) (F : FontData G P S) (fromX : S → P)
    (contours : G → List (Contour P)) (text : List G) (hg : ∀ g ∈ text, Traces ((F.outline g).getD []) (contours g))
    (hc : ∀ g ∈ text, ∀ c ∈ contours g, Plain c) :
    ∃ m', layoutText dbg K df F fromX m text = some m' ∧ m'.Good ∧ InkedAll K df (textContours F fromX contours text) m m' := by
  rw [← textFrom_text, layoutText]
  generalize (0 : S) = x
  generalize (none : Option G) = last
  induction text generalizing m x last with
  | nil => exact ⟨m, rfl, g, rfl⟩
  | cons c text ih =>
    obtain ⟨m1, a1, a2, a3⟩ : ∃ m1, drawGlyph dbg K df F fromX m (x + last.elim 0 (F.kern · c)) c = some m1 ∧ m1.Good ∧
        InkedAll K df ((contours c).map (Contour.map (F.place fromX (x + last.elim 0 (F.kern · c))))) m m1 := by
      have ht := hg c List.mem_cons_self
      rw [drawGlyph]
      cases ho : F.outline c with
      | none =>
        rw [ho] at ht
        have : contours c = [] := by
          cases hcc : contours c with
          | nil => rfl
          | cons d ds =>
            rw [hcc] at ht
            simp only [Traces, Option.getD_none, List.filter_nil, List.flatMap_cons] at ht
            have : d.curves = [] := by
              have := congrArg List.length ht
              simp only [List.length_nil, List.length_append] at this
              exact List.length_eq_zero_iff.mp (by omega)
            exfalso
            rw [Contour.curves] at this
            cases hs : d.strokes with
            | nil => simp [hs, Contour.curvesFrom] at this
            | cons y ys => obtain ⟨y1, y2⟩ := y; simp [hs, Contour.curvesFrom] at this
        rw [this]
        exact ⟨m, rfl, g, rfl⟩
      | some cs =>
        rw [ho] at ht
        obtain ⟨m', b1, b2, b3⟩ := c101_glyph_partial (K := K) g dbg df (F.place fromX (x + last.elim 0 (F.kern · c))) cs (contours c) ht (hc c List.mem_cons_self)
        exact ⟨m', by simp only [b1, Option.bind_eq_bind, Option.bind_some]; rfl, b2, b3⟩
    obtain ⟨m2, b1, b2, b3⟩ := ih a2 (fun g h => hg g (List.mem_cons_of_mem _ h)) (fun g h => hc g (List.mem_cons_of_mem _ h))
      (x + last.elim 0 (F.kern · c) + F.advance c) (some c)
    refine ⟨m2, ?_, b2, inkedAll_append _ _ a3 b3⟩
    cases last with
    | none =>
      simp only [Option.elim_none, add_zero] at a1 b1
      simp only [layoutLoop, a1, Option.bind_eq_bind, Option.bind_some]
      exact b1
    | some l =>
      simp only [Option.elim_some] at a1 b1
      simp only [layoutLoop, a1, Option.bind_eq_bind, Option.bind_some]
      exact b1

end text

/-! ### Examples and what goes wrong -/

/-- payloads of the mesh with curved edges (curved_edge_payload): the curve of the half-edge -/
def inkKit (P : Type) : Kit P (Geom.Curve P) P :=
  { fromPos := id, pos := id, de := .linear, quad := fun c _ => .quadratic c, cubic := fun c1 c2 _ => .cubic c1 c2 }

/-- a triangle with a quadratic side -/
def inkTriangle (x : Int) : Contour (Int × Int) := ⟨(x, 0), [(.line, (x + 2, 0)), (.quad (x + 3, 3), (x, 2))], .line⟩

def inkFont : FontData Nat (Int × Int) Int :=
  { outline := fun g => if g = 0 then none else some (.line (0, 0) (0, 0) :: (inkTriangle 0).curves), advance := fun _ => 4, kern := fun g h => if g = h then -1 else 0, scale := 1 }

theorem inkTriangle_plain (x : Int) : Plain (inkTriangle x) := by
  refine ⟨⟨by simp [inkTriangle], ?_⟩, rfl⟩
  intro y hy
  simp only [inkTriangle, List.mem_cons, List.not_mem_nil, or_false] at hy
  rcases hy with rfl | rfl <;> simp [inkTriangle]

-- "A A A" with kerning
example (dbg : Bool) : ∃ m', layoutText dbg (inkKit (Int × Int)) () inkFont (fun x => (x, 0)) Mesh.empty [1, 0, 1, 1] = some m' ∧ m'.Good ∧
    InkedAll (inkKit (Int × Int)) () [inkTriangle 0, inkTriangle 8, inkTriangle 11] Mesh.empty m' := by
  obtain ⟨m', h1, h2, h3⟩ := c101_text_partial (K := inkKit (Int × Int)) (m := (Mesh.empty : Mesh _ _ Unit)) good_empty dbg () inkFont (fun x => (x, 0))
    (fun g => if g = 0 then [] else [inkTriangle 0]) [1, 0, 1, 1]
    (by intro g hg; by_cases h : g = 0 <;> simp only [Traces, inkFont, h, if_true, if_false] <;> decide +kernel)
    (by
      intro g _ c hc
      by_cases h : g = 0
      · simp [h] at hc
      · simp only [h, if_false, List.mem_singleton] at hc; subst hc; exact inkTriangle_plain 0)
  exact ⟨m', h1, h2, h3⟩

/-- a contour that ends with a cubic curve -/
def inkCubic : Contour (Int × Int) := ⟨(0, 0), [(.line, (2, 0)), (.line, (2, 2))], .cubic (2, 3) (0, 1)⟩

example (dbg : Bool) : ∃ m', (GlyphPen.new (Mesh.empty : Mesh (Int × Int) (Geom.Curve (Int × Int)) Unit)).steps dbg (inkKit _) () id inkCubic.curves =
      some (GlyphPen.new m') ∧ m'.Good ∧ ¬ Inked (inkKit _) () Mesh.empty m' inkCubic :=
  c101_cubic_violated (K := inkKit (Int × Int)) good_empty dbg () id inkCubic ⟨by decide, by decide +kernel⟩ (by decide +kernel) (by decide +kernel) (by decide +kernel)

/-- **C101, violated**: the cubic curve and the curve with the same control points and swapped ends do not go through the same points. -/
theorem c101_cubic_points (c1 c2 : ℚ × ℚ) (h1 : c1 = (0, 1)) (h2 : c2 = (1, 0)) :
    ∃ t : ℚ, 0 ≤ t ∧ t ≤ 1 ∧ ∀ s : ℚ, 0 ≤ s → s ≤ 1 →
      (Geom.Curve.cubic c1 c2).pointAt (0, 0) (1, 0) s ≠ (Geom.Curve.cubic c1 c2).pointAt (1, 0) (0, 0) t := by
  subst h1 h2
  refine ⟨1 / 3, by norm_num, by norm_num, fun s h0 h1 h => ?_⟩
  simp only [Geom.Curve.pointAt, Prod.smul_mk, Prod.mk_add_mk, smul_eq_mul, Prod.mk.injEq] at h
  obtain ⟨hx, hy⟩ := h
  have : (s - 1 / 3) ^ 2 * (s - 4 / 3) = 0 := by linear_combination hy / 3
  rcases mul_eq_zero.mp this with h | h
  · have : s = 1 / 3 := by have := pow_eq_zero_iff (two_ne_zero) |>.mp h; linarith
    subst this; norm_num at hx
  · linarith

/-- two cubic curves that make an "O" -/
def inkO : List (Outline (Int × Int)) := [.cubic (0, 0) (0, 1) (1, 1) (1, 0), .cubic (1, 0) (1, -1) (0, -1) (0, 0)]

/-- **C101, violated**: a contour of two curves panics in debug mode. -/
theorem c101_two_curves : ((GlyphPen.new (Mesh.empty : Mesh (Int × Int) (Geom.Curve (Int × Int)) Unit)).steps true (inkKit _) () id inkO).isSome = false ∧
    ((GlyphPen.new (Mesh.empty : Mesh (Int × Int) (Geom.Curve (Int × Int)) Unit)).steps false (inkKit _) () id inkO).isSome = true := by
  constructor <;> decide +kernel

/-- **C101, violated**: a contour of one curve is not filled, and the next contour is attached to it and not filled either: two
    curves that do not belong together are joined by an edge. -/
theorem c101_one_curve (dbg : Bool) :
    ((GlyphPen.new (Mesh.empty : Mesh (Int × Int) (Geom.Curve (Int × Int)) Unit)).steps dbg (inkKit _) () id
      (.quad (0, 0) (1, 1) (0, 0) :: (inkTriangle 5).curves)).map (fun p => (p.mesh.vs.len, p.mesh.hs.len, p.mesh.fs.len)) = some (5, 8, 0) := by
  cases dbg <;> decide +kernel

/-- **C101, holes**: a contour inside another one is filled as well, it does not cut a hole. -/
theorem c101_hole (dbg : Bool) :
    ((GlyphPen.new (Mesh.empty : Mesh (Int × Int) (Geom.Curve (Int × Int)) Unit)).steps dbg (inkKit _) () id
      ([.line (0, 0) (9, 0), .line (9, 0) (0, 9), .line (0, 9) (0, 0)] ++ [.line (1, 1) (1, 3), .line (1, 3) (3, 1), .line (3, 1) (1, 1)])).map
        (fun p => p.mesh.faceIds.map p.mesh.faceVertices) = some [some [2, 0, 1], some [5, 3, 4]] := by
  cases dbg <;> decide +kernel

/-- **C101, violated**: glyphs are drawn at the size the advances are made for only if the height of a line is 3/4 of the em square. -/
theorem c101_scales {S : Type} [Field S] [CharZero S] (M : Metrics S) (h : M.height ≠ 0) (u : M.unitsPerEm ≠ 0) (s : M.size ≠ 0) :
    M.outlineScale = M.advanceScale ↔ 4 * M.height = 3 * M.unitsPerEm := by
  rw [Metrics.outlineScale, Metrics.advanceScale]
  field_simp
  constructor
  · intro h; linear_combination h / 24
  · intro h; linear_combination 24 * h

example : (⟨1000, 1000, 12⟩ : Metrics ℚ).outlineScale = 16 / 1000 ∧ (⟨1000, 1000, 12⟩ : Metrics ℚ).advanceScale = 12 / 1000 := by
  constructor <;> norm_num [Metrics.outlineScale, Metrics.advanceScale]

end Verif.MeshProps
