import Verif.Model.Delaunay
import Verif.Lemmas.ChainRun
/-
Flips inside the buffer, and the loops of the Delaunay triangulator.
-/
set_option linter.unusedSectionVars false
namespace Verif.Geom
open Triangulation

/-! ### Replacing a triangle -/

theorem flat_set : ∀ (us : List (Nat × Nat × Nat)) (i a b c : Nat), flat (us.set i (a, b, c)) = (((flat us).set (3 * i) a).set (3 * i + 1) b).set (3 * i + 2) c := by
  intro us
  induction us with
  | nil => intro i a b c; simp [flat]
  | cons u us ih =>
    intro i a b c
    obtain ⟨x, y, z⟩ := u
    cases i with
    | zero => simp [flat]
    | succ i =>
      rw [show 3 * (i + 1) = 3 * i + 3 by omega, show 3 * i + 3 + 1 = (3 * i + 1) + 3 by omega, show 3 * i + 3 + 2 = (3 * i + 2) + 3 by omega]
      simp [flat, ih]

theorem set_app (l m : List Nat) (k x : Nat) : (l ++ m).set (l.length + k) x = l ++ m.set k x := by
  rw [List.set_append_right _ _ (by omega), Nat.add_sub_cancel_left]

theorem mapM_set {A B : Type} (g : A → Option B) : ∀ (ts : List A) (us : List B) (i : Nat) (x : A) (y : B), ts.mapM g = some us → g x = some y → (ts.set i x).mapM g = some (us.set i y) := by
  intro ts
  induction ts with
  | nil => intro us i x y h _; simp at h; subst h; simp
  | cons t ts ih =>
    intro us i x y h hx
    simp only [List.mapM_cons, Option.bind_eq_bind, Option.bind_eq_some_iff] at h
    obtain ⟨u, h1, us', h2, h3⟩ := h
    simp at h3; subst h3
    cases i with
    | zero => simp [h2, hx]
    | succ i => simp [ih us' i x y h2 hx, h1]

theorem mapM_get {A B : Type} (g : A → Option B) : ∀ (ts : List A) (us : List B), ts.mapM g = some us → ∀ (i : Nat) (u : B), us[i]? = some u → ∃ x, ts[i]? = some x ∧ g x = some u := by
  intro ts
  induction ts with
  | nil => intro us h i u hu; simp at h; subst h; simp at hu
  | cons t ts ih =>
    intro us h i u hu
    simp only [List.mapM_cons, Option.bind_eq_bind, Option.bind_eq_some_iff] at h
    obtain ⟨u', h1, us', h2, h3⟩ := h
    simp at h3; subst h3
    cases i with
    | zero => simp at hu; subst hu; exact ⟨t, by simp, h1⟩
    | succ i => simpa using ih us' h2 i u (by simpa using hu)

/-- corner `(o + k) % 3` of a triangle -/
def corner (x : Nat × Nat × Nat) (k : Nat) : Nat := if k % 3 = 0 then x.1 else if k % 3 = 1 then x.2.1 else x.2.2

theorem flat_corner (us : List (Nat × Nat × Nat)) (i k : Nat) : (flat us)[3 * i + k % 3]? = (us[i]?).map (corner · k) := by
  obtain ⟨h1, h2, h3⟩ := flat_get us i
  have : k % 3 = 0 ∨ k % 3 = 1 ∨ k % 3 = 2 := by omega
  rcases this with h | h | h <;> simp only [h, corner] <;> simp [*]

/-- the sides of a triangle, beginning with corner `o` -/
theorem sides_corner (x : Nat × Nat × Nat) (o : Nat) : List.Perm (triSides x) (triSides (corner x o, corner x (o + 1), corner x (o + 2))) := by
  obtain ⟨p, q, r⟩ := x
  have : o % 3 = 0 ∨ o % 3 = 1 ∨ o % 3 = 2 := by omega
  rcases this with h | h | h
  · have h1 : (o + 1) % 3 = 1 := by omega
    have h2 : (o + 2) % 3 = 2 := by omega
    simp [corner, h, h1, h2]
  · have h1 : (o + 1) % 3 = 2 := by omega
    have h2 : (o + 2) % 3 = 0 := by omega
    simp only [corner, h, h1, h2]
    exact (GeomProps.sides_rot (p0 := q) (p1 := r) (p2 := p) (x := p) (y := q) (z := r) (by simp)).symm
  · have h1 : (o + 1) % 3 = 0 := by omega
    have h2 : (o + 2) % 3 = 1 := by omega
    simp only [corner, h, h1, h2]
    exact (GeomProps.sides_rot (p0 := r) (p1 := p) (p2 := q) (x := p) (y := q) (z := r) (by simp)).symm

theorem flip_ok {t t' : Triangulation} {a b ab ba : Nat} (h : t.flipEdge a b ab ba = some (t', true)) : ∃ o o' c d, o < 3 ∧ o' < 3 ∧ offsetOf t.indices a ab = some o ∧ offsetOf t.indices a ba = some o' ∧
    t.indices[ab + o % 3]? = some a ∧ t.indices[ab + (o + 1) % 3]? = some b ∧ t.indices[ab + (o + 2) % 3]? = some c ∧
    t.indices[ba + o' % 3]? = some a ∧ t.indices[ba + (o' + 1) % 3]? = some d ∧ t.indices[ba + (o' + 2) % 3]? = some b ∧ ab + 2 < t.indices.length ∧ ba + 2 < t.indices.length ∧
    t' = { t with indices := (((((t.indices.set ab a).set (ab + 1) d).set (ab + 2) c).set ba d).set (ba + 1) b).set (ba + 2) c } := by
  have off : ∀ {l : List Nat} {a p o : Nat}, offsetOf l a p = some o → o < 3 := by
    intro l a p o h
    simp only [offsetOf, Option.bind_eq_bind, Option.bind_eq_some_iff] at h
    obtain ⟨x, _, h⟩ := h
    split at h
    · simp at h; omega
    · simp only [Option.bind_eq_some_iff] at h
      obtain ⟨y, _, h⟩ := h
      split at h <;> simp at h <;> omega
  unfold flipEdge at h
  obtain ⟨o, h1, h⟩ := Option.bind_eq_some_iff.mp h
  obtain ⟨x, h2, h⟩ := Option.bind_eq_some_iff.mp h
  split at h
  · simp at h
  rename_i hx
  obtain ⟨y, h3, h⟩ := Option.bind_eq_some_iff.mp h
  split at h
  · simp at h
  rename_i hy
  obtain ⟨o', h4, h⟩ := Option.bind_eq_some_iff.mp h
  obtain ⟨x', h5, h⟩ := Option.bind_eq_some_iff.mp h
  split at h
  · simp at h
  rename_i hx'
  obtain ⟨y', h6, h⟩ := Option.bind_eq_some_iff.mp h
  split at h
  · simp at h
  rename_i hy'
  obtain ⟨c, h7, h⟩ := Option.bind_eq_some_iff.mp h
  obtain ⟨d, h8, h⟩ := Option.bind_eq_some_iff.mp h
  split at h
  · simp at h
  rename_i hl
  simp only [Option.some.injEq, Prod.mk.injEq, and_true] at h
  have k1 := off h1
  have k2 := off h4
  simp only [ne_eq, Decidable.not_not] at hx hy hx' hy'
  subst hx hy hx' hy'
  exact ⟨o, o', c, d, k1, k2, h1, h4, by rw [Nat.mod_eq_of_lt k1]; exact h2, h3, h7, by rw [Nat.mod_eq_of_lt k2]; exact h5, h8, h6, by omega, by omega, h.symm⟩

theorem sides_set {ts : List (Nat × Nat × Nat)} {i : Nat} {x : Nat × Nat × Nat} (y : Nat × Nat × Nat) (h : ts[i]? = some x) : List.Perm ((ts.set i y).flatMap triSides ++ triSides x) (ts.flatMap triSides ++ triSides y) := by
  induction ts generalizing i with
  | nil => simp at h
  | cons t ts ih =>
    cases i with
    | zero =>
      simp at h; subst h
      simp only [List.set_cons_zero, List.flatMap_cons]
      apply List.perm_iff_count.mpr
      intro e
      simp only [List.count_append]; omega
    | succ i =>
      have := ih (i := i) (by simpa using h)
      simp only [List.set_cons_succ, List.flatMap_cons, List.append_assoc]
      exact this.append_left _

/-- A flip that succeeds, seen by the list of triangles: the edge `a b` is replaced by `c d`. -/
theorem flip_emits {ids : List Nat} (hn : ids.Nodup) {t0 t t' : Triangulation} {ts : List (Nat × Nat × Nat)} (he : Emits t0 t ids ts) {a b a' b' i j : Nat} (ha : ids[a]? = some a') (hb : ids[b]? = some b')
    (h : t.flipEdge a' b' (t0.indices.length + 3 * i) (t0.indices.length + 3 * j) = some (t', true)) :
    ∃ ts' c d, Emits t0 t' ids ts' ∧ ts'.length = ts.length ∧ List.Perm (ts'.flatMap triSides ++ [(a, b), (b, a)]) (ts.flatMap triSides ++ [(c, d), (d, c)]) := by
  obtain ⟨us, h1, rfl⟩ := he
  obtain ⟨o, o', c', d', lo, lo', of, of', e1, e2, e3, e4, e5, e6, l1, l2, rfl⟩ := flip_ok h
  have hget : ∀ i k y, (t0.indices ++ flat us)[t0.indices.length + 3 * i + k % 3]? = some y → ∃ x, ts[i]? = some x ∧ ids[corner x k]? = some y := by
    intro i k y hy
    rw [List.getElem?_append_right (by omega), show t0.indices.length + 3 * i + k % 3 - t0.indices.length = 3 * i + k % 3 by omega, flat_corner] at hy
    simp only [Option.map_eq_some_iff] at hy
    obtain ⟨⟨p, q, r⟩, h2, h3⟩ := hy
    obtain ⟨x, h4, h5⟩ := mapM_get _ _ _ h1 _ _ h2
    rw [mapTri_some] at h5
    refine ⟨x, h4, ?_⟩
    subst h3
    simp only [corner]
    split
    · exact h5.1
    · split
      · exact h5.2.1
      · exact h5.2.2
  have inj : ∀ {x y z : Nat}, ids[x]? = some z → ids[y]? = some z → x = y := by
    intro x y z hx hy
    exact (List.getElem?_inj (List.getElem?_eq_some_iff.mp hx).1 hn).mp (hx.trans hy.symm)
  obtain ⟨X, x1, f1⟩ := hget i o a' e1
  obtain ⟨X2, x2, f2⟩ := hget i (o + 1) b' e2
  obtain ⟨X3, x3, f3⟩ := hget i (o + 2) c' e3
  obtain ⟨Y, y1, g1⟩ := hget j o' a' e4
  obtain ⟨Y2, y2, g2⟩ := hget j (o' + 1) d' e5
  obtain ⟨Y3, y3, g3⟩ := hget j (o' + 2) b' e6
  rw [x1] at x2 x3
  rw [y1] at y2 y3
  simp only [Option.some.injEq] at x2 x3 y2 y3
  subst x2 x3 y2 y3
  have k2 := inj f2 hb
  have k6 := inj g3 hb
  have s1 := sides_corner X o
  have s2 := sides_corner Y o'
  rw [inj f1 ha, inj f2 hb] at s1
  rw [inj g1 ha, inj g3 hb] at s2
  rw [inj f1 ha] at f1
  rw [inj f2 hb] at f2
  generalize hcc : corner X (o + 2) = c at *
  generalize hdd : corner Y (o' + 1) = d at *
  have m1 : mapTri (fun i => ids[i]?) (a, d, c) = some (a', d', c') := mapTri_some.mpr ⟨ha, g2, f3⟩
  have m2 : mapTri (fun i => ids[i]?) (d, b, c) = some (d', b', c') := mapTri_some.mpr ⟨g2, hb, f3⟩
  refine ⟨(ts.set i (a, d, c)).set j (d, b, c), c, d, ⟨(us.set i (a', d', c')).set j (d', b', c'), mapM_set _ _ _ _ _ _ (mapM_set _ _ _ _ _ _ h1 m1) m2, ?_⟩, by simp, ?_⟩
  · congr 1
    rw [flat_set, flat_set]
    simp only [Nat.add_assoc]
    simp only [set_app]
  · by_cases hij : i = j
    · subst hij
      have hXY : X = Y := by rw [x1] at y1; simpa using y1
      subst hXY
      have hoo : o = o' := by rw [of] at of'; simpa using of'
      subst hoo
      have e1 : c = b := by rw [← hcc, ← k6]
      have e2 : d = b := by rw [← hdd, ← k2]
      rw [List.set_set]
      have p1 := sides_set (d, b, c) x1
      rw [List.perm_iff_count] at *
      intro e
      have q1 := p1 e
      have q3 := s1 e
      simp only [List.count_append, triSides, List.count_cons, List.count_nil, e1, e2] at q1 q3 ⊢
      omega
    · have p1 := sides_set (d, b, c) (ts := ts.set i (a, d, c)) (i := j) (x := Y) (by rw [List.getElem?_set_ne hij]; exact y1)
      have p2 := sides_set (a, d, c) x1
      rw [List.perm_iff_count] at *
      intro e
      have q1 := p1 e
      have q2 := p2 e
      have q3 := s1 e
      have q4 := s2 e
      simp only [List.count_append, triSides, List.count_cons, List.count_nil] at q1 q2 q3 q4 ⊢
      omega

/-! ### Legalizing -/

/-- flips of edges that are not in `con` -/
def Flips (t0 : Triangulation) (ids : List Nat) (con : List (Nat × Nat)) (t t' : Triangulation) : Prop :=
  ∀ ts, Emits t0 t ids ts → ∃ ts', Emits t0 t' ids ts' ∧ ts'.length = ts.length ∧ (∀ f, Anti f → triSum f ts' = triSum f ts) ∧
    ∀ p, edgeKey p.1 p.2 ∈ con → (ts.flatMap triSides).count p ≤ (ts'.flatMap triSides).count p

theorem flips_refl (t0 : Triangulation) (ids : List Nat) (con : List (Nat × Nat)) (t : Triangulation) : Flips t0 ids con t t := fun ts h => ⟨ts, h, rfl, fun _ _ => rfl, fun _ _ => Nat.le_refl _⟩

theorem Flips.trans {t0 : Triangulation} {ids : List Nat} {con : List (Nat × Nat)} {t t' t'' : Triangulation} (h : Flips t0 ids con t t') (h' : Flips t0 ids con t' t'') : Flips t0 ids con t t'' := by
  intro ts hts
  obtain ⟨ts1, a1, a2, a3, a4⟩ := h ts hts
  obtain ⟨ts2, b1, b2, b3, b4⟩ := h' ts1 a1
  exact ⟨ts2, b1, b2.trans a2, fun f hf => (b3 f hf).trans (a3 f hf), fun p hp => (a4 p hp).trans (b4 p hp)⟩

theorem Flips.delta {t0 : Triangulation} {ids : List Nat} {con : List (Nat × Nat)} {t t' : Triangulation} (h : Flips t0 ids con t t') : Delta t0 ids t t' (fun _ => 0) 0 := by
  intro ts hts
  obtain ⟨ts1, a1, a2, a3, -⟩ := h ts hts
  exact ⟨ts1, a1, fun f hf => by rw [a3 f hf]; simp, by omega⟩

/-- the positions stored for the edges are those of triangles behind `t0` -/
def OppAl (t0 : Triangulation) (o : Opp) : Prop := ∀ k c p, o k = some (c, p) → ∃ i, p = t0.indices.length + 3 * i

theorem OppAl.put {t0 : Triangulation} {o : Opp} (h : OppAl t0 o) {k x : Nat × Nat} (hx : ∃ i, x.2 = t0.indices.length + 3 * i) : OppAl t0 (o.put k x) := by
  intro k' c p hk
  simp only [Opp.put] at hk
  split at hk
  · simp at hk; subst hk; exact hx
  · exact h k' c p hk

theorem OppAl.del {t0 : Triangulation} {o : Opp} (h : OppAl t0 o) (k : Nat × Nat) : OppAl t0 (o.del k) := by
  intro k' c p hk
  simp only [Opp.del] at hk
  split at hk
  · simp at hk
  · exact h k' c p hk

theorem triSum_eq (f : Nat → Nat → Int) (ts : List (Nat × Nat × Nat)) : triSum f ts = ((ts.flatMap triSides).map fun p => f p.1 p.2).sum := by
  rw [sum_triSides (fun p => f p.1 p.2)]; rfl

section
variable {K : Type} [Field K] [LinearOrder K] (σ : Sgn K) (eps : K) (dbg : Bool) (ps : List (P2 K)) {ids : List Nat} (hn : ids.Nodup) {t0 : Triangulation} {con : List (Nat × Nat)}

include hn in
theorem legalizeEdge_law {o o' : Opp} {t t' : Triangulation} {a b : Nat} {r : Option (Nat × Nat × Nat × Nat)} (ho : OppAl t0 o) (hk : edgeKey a b ∉ con)
    (h : legalizeEdge σ ps ids o t a b = some (o', t', r)) : OppAl t0 o' ∧ Flips t0 ids con t t' := by
  unfold legalizeEdge at h
  cases h1 : o (a, b) with
  | none => rw [h1] at h; simp at h; obtain ⟨rfl, rfl, -⟩ := h; exact ⟨ho, flips_refl _ _ _ _⟩
  | some x =>
    obtain ⟨c, ab⟩ := x
    rw [h1] at h
    simp only [Option.bind_eq_bind, Option.bind_eq_some_iff] at h
    obtain ⟨p1, -, p2, -, p3, -, h⟩ := h
    cases h2 : o (b, a) with
    | none => rw [h2] at h; simp at h; obtain ⟨rfl, rfl, -⟩ := h; exact ⟨ho, flips_refl _ _ _ _⟩
    | some y =>
      obtain ⟨d, ba⟩ := y
      rw [h2] at h
      simp only [Option.bind_eq_some_iff] at h
      obtain ⟨q, -, h⟩ := h
      split at h
      · simp at h; obtain ⟨rfl, rfl, -⟩ := h; exact ⟨ho, flips_refl _ _ _ _⟩
      split at h
      · simp only [Option.bind_eq_some_iff] at h
        obtain ⟨a', ha, b', hb, ⟨t1, ok⟩, h3, h4⟩ := h
        cases ok with
        | false => simp at h4
        | true =>
          simp at h4
          obtain ⟨rfl, rfl, -⟩ := h4
          obtain ⟨i, rfl⟩ := ho _ _ _ h1
          obtain ⟨j, rfl⟩ := ho _ _ _ h2
          refine ⟨((((((((ho.del _).del _).put ⟨i, rfl⟩).put ⟨i, rfl⟩).put ⟨i, rfl⟩).put ⟨j, rfl⟩).put ⟨j, rfl⟩).put ⟨j, rfl⟩), ?_⟩
          intro ts hts
          obtain ⟨ts', c', d', e1, e2, e3⟩ := flip_emits hn hts ha hb h3
          refine ⟨ts', e1, e2, ?_, ?_⟩
          · intro f hf
            have := (e3.map fun p => f p.1 p.2).sum_eq
            simp only [List.map_append, List.sum_append, List.map_cons, List.map_nil, List.sum_cons, List.sum_nil] at this
            have f1 := hf a b
            have f2 := hf c' d'
            rw [triSum_eq, triSum_eq]; omega
          · intro p hp
            have := List.perm_iff_count.mp e3 p
            simp only [List.count_append, List.count_cons, List.count_nil] at this
            have n1 : (a, b) ≠ p := by rintro rfl; exact hk hp
            have n2 : (b, a) ≠ p := by rintro rfl; simp only [edgeKey, min_comm b a, max_comm b a] at hp; exact hk hp
            simp only [beq_iff_eq, n1, n2, if_false] at this
            omega
      · simp at h; obtain ⟨rfl, rfl, -⟩ := h; exact ⟨ho, flips_refl _ _ _ _⟩

/-- no constrained edge is on the stack -/
def Free (con : List (Nat × Nat)) (s : List (Nat × Nat) × List (Nat × Nat)) : Prop := ∀ e ∈ s.2, edgeKey e.1 e.2 ∉ con

theorem stackEdge_free {s s' : List (Nat × Nat) × List (Nat × Nat)} {a b : Nat} (hs : Free con s) (h : stackEdge con s a b = some s') : Free con s' := by
  unfold stackEdge at h
  split at h
  · simp at h
  split at h
  · simp at h; subst h; exact hs
  split at h
  · simp at h; subst h; exact hs
  rename_i hk
  simp at h; subst h
  intro e he
  rcases List.mem_cons.mp he with rfl | he
  · exact hk
  · exact hs e he

include hn in
theorem legalizeLoop_law : ∀ (fuel : Nat) (s : List (Nat × Nat) × List (Nat × Nat)) (o o' : Opp) (t t' : Triangulation), OppAl t0 o → Free con s →
    legalizeLoop σ ps ids con fuel s o t = some (o', t') → OppAl t0 o' ∧ Flips t0 ids con t t' := by
  intro fuel
  induction fuel with
  | zero =>
    intro s o o' t t' ho _ h
    obtain ⟨seen, st⟩ := s
    cases st with
    | nil => simp [legalizeLoop] at h; obtain ⟨rfl, rfl⟩ := h; exact ⟨ho, flips_refl _ _ _ _⟩
    | cons e st => simp [legalizeLoop] at h
  | succ fuel ih =>
    intro s o o' t t' ho hf h
    obtain ⟨seen, st⟩ := s
    cases st with
    | nil => simp [legalizeLoop] at h; obtain ⟨rfl, rfl⟩ := h; exact ⟨ho, flips_refl _ _ _ _⟩
    | cons e st =>
      obtain ⟨a, b⟩ := e
      rw [legalizeLoop] at h
      simp only [Option.bind_eq_bind, Option.bind_eq_some_iff] at h
      obtain ⟨⟨o1, t1, r⟩, h1, h⟩ := h
      obtain ⟨ho1, hf1⟩ := legalizeEdge_law σ ps hn ho (hf (a, b) (by simp)) h1
      have hst : Free con (seen, st) := fun e he => hf e (by simp only at he ⊢; simp [he])
      cases r with
      | none =>
        obtain ⟨h2, h3⟩ := ih _ _ _ _ _ ho1 hst h
        exact ⟨h2, hf1.trans h3⟩
      | some q =>
        obtain ⟨a, b, c, d⟩ := q
        simp only [Option.bind_eq_some_iff] at h
        obtain ⟨s1, g1, s2, g2, s3, g3, s4, g4, s5, g5, h⟩ := h
        obtain ⟨h2, h3⟩ := ih _ _ _ _ _ ho1 (stackEdge_free (stackEdge_free (stackEdge_free (stackEdge_free (stackEdge_free hst g1) g2) g3) g4) g5) h
        exact ⟨h2, hf1.trans h3⟩

include hn in
theorem legalizeTriangle_law {o o' : Opp} {t t' : Triangulation} {x y z : Nat} (ho : OppAl t0 o) (h : legalizeTriangle σ ps ids con o t x y z = some (o', t')) :
    OppAl t0 o' ∧ Flips t0 ids con t t' := by
  simp only [legalizeTriangle, Option.bind_eq_bind, Option.bind_eq_some_iff] at h
  obtain ⟨s1, g1, s2, g2, s3, g3, h⟩ := h
  exact legalizeLoop_law σ ps hn _ _ _ _ _ _ ho (stackEdge_free (stackEdge_free (stackEdge_free (s := ([], [])) (by intro e he; simp at he) g1) g2) g3) h

theorem al_length {t : Triangulation} (h : Al t0 ids t) : ∃ i, t.indices.length = t0.indices.length + 3 * i := by
  obtain ⟨ts, us, -, rfl⟩ := h
  exact ⟨us.length, by simp [flat_length]⟩

theorem insertOpp_law {o o' : Opp} {t t' : Triangulation} {a b c : Nat} (ho : OppAl t0 o) (ha : Al t0 ids t) (h : insertOpp dbg ids o t a b c = some (o', t')) : OppAl t0 o' ∧ Emits t t' ids [(a, b, c)] := by
  simp only [insertOpp, Option.bind_eq_bind, Option.bind_eq_some_iff] at h
  obtain ⟨t1, h1, h2⟩ := h
  split at h2
  · simp at h2
  simp at h2
  obtain ⟨rfl, rfl⟩ := h2
  obtain ⟨i, hi⟩ := al_length ha
  exact ⟨((ho.put ⟨i, hi⟩).put ⟨i, hi⟩).put ⟨i, hi⟩, emits_local h1⟩

include hn in
theorem join_law {v : Nat} {d : Dir} {a b x y : Nat} {o o' : Opp} {t t' : Triangulation} (ho : OppAl t0 o) (ha : Al t0 ids t) (h : DelChain.join σ dbg ps ids con v d a b x y o t = some (o', t')) :
    OppAl t0 o' ∧ Delta t0 ids t t' (fun f => if d = .left then f a v + f v b + f b a else f a b + f b v + f v a) 1 := by
  unfold DelChain.join at h
  split at h
  · rename_i hd
    simp only [Option.bind_eq_bind, Option.bind_eq_some_iff] at h
    obtain ⟨⟨o1, t1⟩, h1, h2⟩ := h
    obtain ⟨k1, k2⟩ := insertOpp_law dbg ho ha h1
    obtain ⟨k3, k4⟩ := legalizeTriangle_law σ ps hn k1 h2
    refine ⟨k3, ((delta_of_emits k2).trans k4.delta).congr ?_ (by simp)⟩
    intro f _; simp [triSum, hd]
  · rename_i hd
    simp only [Option.bind_eq_bind, Option.bind_eq_some_iff] at h
    obtain ⟨⟨o1, t1⟩, h1, h2⟩ := h
    obtain ⟨k1, k2⟩ := insertOpp_law dbg ho ha h1
    obtain ⟨k3, k4⟩ := legalizeTriangle_law σ ps hn k1 h2
    refine ⟨k3, ((delta_of_emits k2).trans k4.delta).congr ?_ (by simp)⟩
    intro f _; simp [triSum, hd]

namespace DelChain
variable (ep : K)
include hn in
theorem same_law (v : Nat) (d : Dir) : ∀ (st : List Nat) (o : Opp) (t : Triangulation) (st' : List Nat) (o' : Opp) (t' : Triangulation), OppAl t0 o → Al t0 ids t →
    sameLoop σ ep dbg ps ids con v d st o t = some (st', o', t') → OppAl t0 o' ∧
    ∃ rest, st' = v :: rest ∧ rest ≠ [] ∧ rest <:+ st ∧
      ∀ a, st.head? = some a → Delta t0 ids t t' (fun f => LChain.eps d * (f a v - psum f st + psum f st')) (st.length + 1 - st'.length) := by
  intro st
  induction st with
  | nil => intro o t st' o' t' _ _ h; simp [sameLoop] at h
  | cons a st ih =>
    intro o t st' o' t' ho hal h
    cases st with
    | nil =>
      simp [sameLoop] at h
      obtain ⟨rfl, rfl, rfl⟩ := h
      refine ⟨ho, [a], rfl, by simp, by simp, ?_⟩
      intro b hb
      simp at hb; subst hb
      refine (delta_refl t0 ids t).congr ?_ (by simp)
      intro f hf
      have := hf a v
      simp only [psum]
      have e : f a v - 0 + (f v a + 0) = 0 := by omega
      rw [e, Int.mul_zero]
    | cons b st =>
      have stop : some (v :: a :: b :: st, o, t) = some (st', o', t') → OppAl t0 o' ∧ ∃ rest, st' = v :: rest ∧ rest ≠ [] ∧ rest <:+ a :: b :: st ∧
          ∀ c, (a :: b :: st).head? = some c → Delta t0 ids t t' (fun f => LChain.eps d * (f c v - psum f (a :: b :: st) + psum f st')) ((a :: b :: st).length + 1 - st'.length) := by
        intro h
        simp only [Option.some.injEq, Prod.mk.injEq] at h
        obtain ⟨rfl, rfl, rfl⟩ := h
        refine ⟨ho, a :: b :: st, rfl, by simp, by simp, ?_⟩
        intro c hc
        simp at hc; subst hc
        refine (delta_refl t0 ids t).congr ?_ (by simp)
        intro f hf
        have := hf a v
        simp only [psum]
        have e : f a v - (f a b + psum f (b :: st)) + (f v a + (f a b + psum f (b :: st))) = 0 := by omega
        rw [e, Int.mul_zero]
      have pop : ∀ (o1 : Opp) (t1 : Triangulation), join σ dbg ps ids con v d a b b a o t = some (o1, t1) →
          sameLoop σ ep dbg ps ids con v d (b :: st) o1 t1 = some (st', o', t') → OppAl t0 o' ∧ ∃ rest, st' = v :: rest ∧ rest ≠ [] ∧ rest <:+ a :: b :: st ∧
          ∀ c, (a :: b :: st).head? = some c → Delta t0 ids t t' (fun f => LChain.eps d * (f c v - psum f (a :: b :: st) + psum f st')) ((a :: b :: st).length + 1 - st'.length) := by
        intro o1 t1 h1 h2
        obtain ⟨j1, j2⟩ := join_law σ dbg ps hn ho hal h1
        obtain ⟨e0, rest, e1, e2, e3, e4⟩ := ih _ _ _ _ _ j1 (j2.al hal) h2
        refine ⟨e0, rest, e1, e2, e3.trans (List.suffix_cons _ _), ?_⟩
        intro c hc
        simp at hc; subst hc
        refine (j2.trans (e4 b rfl)).congr ?_ ?_
        · intro f hf
          have h1 := hf a v
          have h2 := hf b v
          have h3 := hf a b
          simp only [LChain.eps]
          split <;> simp only [psum] <;> omega
        · simp only [List.length_cons]; push_cast; omega
      rw [sameLoop] at h
      split at h
      · split at h
        · exact stop h
        · simp only [Option.bind_eq_bind, Option.bind_eq_some_iff] at h
          obtain ⟨⟨o1, t1⟩, h1, h2⟩ := h
          exact pop o1 t1 h1 h2
      · split at h
        · exact stop h
        · simp only [Option.bind_eq_bind, Option.bind_eq_some_iff] at h
          obtain ⟨⟨o1, t1⟩, h1, h2⟩ := h
          exact pop o1 t1 h1 h2

include hn in
theorem opp_loop_law (v : Nat) (d : Dir) : ∀ (l : List Nat) (o : Opp) (t : Triangulation) (o' : Opp) (t' : Triangulation), OppAl t0 o → Al t0 ids t → oppLoop σ dbg ps ids con v d l o t = some (o', t') →
    OppAl t0 o' ∧ ∀ a z, l.head? = some a → l.getLast? = some z → Delta t0 ids t t' (fun f => LChain.eps d * (f a v - f z v - psum f l)) (l.length - 1) := by
  intro l
  induction l with
  | nil => intro o t o' t' ho _ h; simp [oppLoop] at h; obtain ⟨rfl, rfl⟩ := h; exact ⟨ho, by simp⟩
  | cons a l ih =>
    intro o t o' t' ho hal h
    cases l with
    | nil =>
      simp [oppLoop] at h; obtain ⟨rfl, rfl⟩ := h
      refine ⟨ho, ?_⟩
      intro x z hx hz
      simp at hx hz; subst hx; subst hz
      exact (delta_refl t0 ids t).congr (by intro f _; simp [psum]) (by simp)
    | cons b l =>
      rw [oppLoop] at h
      simp only [Option.bind_eq_bind, Option.bind_eq_some_iff] at h
      obtain ⟨⟨o1, t1⟩, h1, h2⟩ := h
      obtain ⟨j1, j2⟩ := join_law σ dbg ps hn ho hal h1
      obtain ⟨e1, e2⟩ := ih _ _ _ _ j1 (j2.al hal) h2
      refine ⟨e1, ?_⟩
      intro c z hc hz
      simp only [List.head?_cons, Option.some.injEq] at hc; subst hc
      rw [List.getLast?_cons_cons] at hz
      refine (j2.trans (e2 b z rfl hz)).congr ?_ ?_
      · intro f hf
        have h1 := hf a v
        have h2 := hf b v
        have h3 := hf a b
        simp only [LChain.eps]
        split <;> simp only [psum] <;> omega
      · simp only [List.length_cons]; push_cast; omega

/-- a chain is a single vertex or has a direction -/
structure Good (t0 : Triangulation) (c : DelChain) : Prop where
  one : c.d = .none → c.stack.length = 1
  two : c.d ≠ .none → 2 ≤ c.stack.length
  opp : OppAl t0 c.opp

def rEnd (c : DelChain) : Nat := (if c.d = .right then c.stack.head? else c.stack.getLast?).getD 0
def lEnd (c : DelChain) : Nat := (if c.d = .right then c.stack.getLast? else c.stack.head?).getD 0
def pend (f : Nat → Nat → Int) (c : DelChain) : Int := if c.d = .right then psum f c.stack else -psum f c.stack

include hn in
theorem add_law {v : Nat} {c c' : DelChain} {d : Dir} {t t' : Triangulation} (hg : c.Good t0) (hal : Al t0 ids t) (h : c.add σ ep dbg ps ids v d t = some (c', t')) :
    c'.d = d ∧ c'.lastLeft = c.lastLeft ∧ c'.lastRight = c.lastRight ∧ c'.stack.head? = some v ∧ 2 ≤ c'.stack.length ∧
    c'.stack.getLast? = (if c.d = d ∨ c.d = .none then c.stack.getLast? else c.stack.head?) ∧ OppAl t0 c'.opp ∧
      ∀ a z, c.stack.head? = some a → c.stack.getLast? = some z →
        Delta t0 ids t t' (fun f => LChain.eps d * (f (if c.d = d then a else z) v + (if c.d = d then -1 else 1) * psum f c.stack + psum f c'.stack)) (c.stack.length + 1 - c'.stack.length) := by
  unfold add at h
  split at h
  · rename_i hnn
    have h1 := hg.one hnn
    obtain ⟨a, ha⟩ := List.length_eq_one_iff.mp h1
    rw [ha] at h
    simp at h
    obtain ⟨rfl, rfl⟩ := h
    refine ⟨rfl, rfl, rfl, by simp, by simp, by simp [hnn, ha], hg.opp, ?_⟩
    intro x z hx hz
    rw [ha] at hx hz
    simp at hx hz; subst hx; subst hz
    refine (delta_refl t0 ids t).congr ?_ (by simp [h1])
    intro f hf
    have := hf a v
    simp [ha, psum]; right; omega
  · rename_i hnn
    split at h
    · rename_i hcd
      simp only [Option.bind_eq_bind, Option.bind_eq_some_iff] at h
      obtain ⟨l, hl, ⟨st, o1, t1⟩, h1, h2⟩ := h
      simp at h2
      obtain ⟨rfl, rfl⟩ := h2
      obtain ⟨e0, rest, e2, e3, e4, e7⟩ := same_law σ dbg ps hn ep v d _ _ _ _ _ _ hg.opp hal h1
      refine ⟨hcd, rfl, rfl, by simp [e2], ?_, ?_, e0, ?_⟩
      · rw [e2]; simp only [List.length_cons]; have := List.length_pos_of_ne_nil e3; omega
      · simp only [hcd, true_or, if_true]
        obtain ⟨p, hp⟩ := e4
        rw [e2, ← hp, List.getLast?_append_of_ne_nil _ e3]
        obtain ⟨x, rest, rfl⟩ := List.exists_cons_of_ne_nil e3
        rw [List.getLast?_cons_cons]
      · intro a z ha hz
        refine (e7 a ha).congr ?_ rfl
        intro f hf
        simp only [hcd, if_true]
        congr 1; omega
    · rename_i hcd
      have h2 := hg.two hnn
      obtain ⟨a, b, l, hst⟩ : ∃ a b l, c.stack = a :: b :: l := by
        cases hst : c.stack with
        | nil => rw [hst] at h2; simp at h2
        | cons a l => cases l with
          | nil => rw [hst] at h2; simp at h2
          | cons b l => exact ⟨a, b, l, rfl⟩
      rw [hst] at h
      simp only [Option.bind_eq_bind, Option.bind_eq_some_iff] at h
      obtain ⟨l0, hl0, ⟨o1, t1⟩, h1, h3⟩ := h
      simp only [Option.some.injEq, Prod.mk.injEq] at h3
      obtain ⟨rfl, rfl⟩ := h3
      obtain ⟨e0, e4⟩ := opp_loop_law σ dbg ps hn v d _ _ _ _ _ hg.opp hal h1
      refine ⟨rfl, rfl, rfl, by simp, by simp, by simp [hcd, hnn, hst], e0, ?_⟩
      intro x z hx hz
      rw [hst] at hx hz
      refine (e4 z x (by rw [List.head?_reverse]; exact hz) (by rw [List.getLast?_reverse]; exact hx)).congr ?_ ?_
      · intro f hf
        rw [psum_reverse hf]
        simp only [List.head?_cons, Option.some.injEq] at hx; subst hx
        simp only [hcd, if_false, hst]
        have := hf a v
        simp only [show psum f [v, a] = f v a by simp [psum]]
        congr 1; omega
      · rw [List.length_reverse, hst]; simp only [List.length_cons, List.length_nil]; omega

theorem ends {c : DelChain} (hg : c.Good t0) : ∃ a z, c.stack.head? = some a ∧ c.stack.getLast? = some z ∧ 1 ≤ c.stack.length := by
  have : 1 ≤ c.stack.length := by
    by_cases h : c.d = .none
    · rw [hg.one h]
    · have := hg.two h; omega
  cases hst : c.stack with
  | nil => rw [hst] at this; simp at this
  | cons a l => exact ⟨a, (a :: l).getLast (by simp), rfl, List.getLast?_eq_some_getLast _, by simp⟩
end DelChain
end

/-- the Delaunay triangulator keeps the balance of the sides -/
def delaunayLawful {K : Type} [Field K] [LinearOrder K] (σ : Sgn K) (ep : K) (dbg : Bool) (ps : List (P2 K)) {ids : List Nat} (hn : ids.Nodup) : Lawful (delaunay σ ep dbg ps ids) ids where
  good t0 c := DelChain.Good t0 c
  rEnd := DelChain.rEnd
  lEnd := DelChain.lEnd
  pend := DelChain.pend
  pendN c := (DelChain.stack c).length - 1
  new_law t0 v := ⟨⟨by simp [delaunay], by simp [delaunay], by intro k c p h; simp [delaunay] at h⟩, by simp [delaunay, DelChain.rEnd], by simp [delaunay, DelChain.lEnd], by simp [delaunay, DelChain.pend, psum], by simp [delaunay]⟩
  left_law t0 c v t c' t' hg hal h := by
    have hg' : DelChain.Good t0 { (show DelChain from c) with lastLeft := some v } := ⟨hg.one, hg.two, hg.opp⟩
    obtain ⟨h1, -, -, h2, h3, h4, h5, e1⟩ := DelChain.add_law σ dbg ps hn ep hg' hal h
    obtain ⟨a, z, ha, hz, hlen⟩ := DelChain.ends hg
    refine ⟨⟨fun h => by rw [h1] at h; simp at h, fun _ => h3, h5⟩, ?_, ?_, ?_, ?_, (e1 a z ha hz).congr ?_ ?_⟩
    · simp only [DelChain.rEnd, h1, h4]
      cases hd : DelChain.d c <;> simp [ha, hz]
    · simp [DelChain.lEnd, h1, h2]
    · simp [delaunay, h1]
    · omega
    · intro f hf
      simp only [DelChain.pend, DelChain.lEnd, LChain.eps, h1]
      cases hd : DelChain.d c <;> simp [ha, hz]
      · omega
      · omega
      · have := hg.one hd
        obtain ⟨x, hx⟩ := List.length_eq_one_iff.mp this
        rw [hx] at ha hz ⊢
        simp at ha hz; subst ha; subst hz
        simp [psum]
    · simp only; omega
  right_law t0 c v t c' t' hg hal h := by
    have hg' : DelChain.Good t0 { (show DelChain from c) with lastRight := some v } := ⟨hg.one, hg.two, hg.opp⟩
    obtain ⟨h1, -, -, h2, h3, h4, h5, e1⟩ := DelChain.add_law σ dbg ps hn ep hg' hal h
    obtain ⟨a, z, ha, hz, hlen⟩ := DelChain.ends hg
    refine ⟨⟨fun h => by rw [h1] at h; simp at h, fun _ => h3, h5⟩, ?_, ?_, ?_, (e1 a z ha hz).congr ?_ ?_⟩
    · simp [DelChain.rEnd, h1, h2]
    · simp only [DelChain.lEnd, h1, h4]
      cases hd : DelChain.d c <;> simp [ha, hz]
      have := hg.one hd
      obtain ⟨x, hx⟩ := List.length_eq_one_iff.mp this
      rw [hx] at ha hz
      simp at ha hz; rw [← ha, ← hz]
    · omega
    · intro f hf
      have f1 := hf a v
      have f2 := hf z v
      simp only [DelChain.pend, DelChain.rEnd, LChain.eps, h1]
      cases hd : DelChain.d c <;> simp [ha, hz]
      · omega
      · omega
      · have := hg.one hd
        obtain ⟨x, hx⟩ := List.length_eq_one_iff.mp this
        rw [hx] at ha hz ⊢
        simp at ha hz; subst ha; subst hz
        simp [psum]; omega
    · simp only; omega
  finish_law t0 c t t' hg h1 h := by
    simp only [delaunay] at h
    split at h
    · rename_i hl
      simp at h; subst h
      obtain ⟨a, b, hst⟩ := List.length_eq_two.mp (show (DelChain.stack c).length = 2 by omega)
      refine (delta_refl t0 ids t).congr ?_ (by simp [hst])
      intro f hf
      have := hf a b
      simp only [DelChain.pend, DelChain.rEnd, DelChain.lEnd, hst]
      cases hd : DelChain.d c <;> simp [psum] <;> omega
    · simp at h
  opp_law t0 c r hg h hr := by
    simp only [delaunay, DelChain.lastOpposite, Option.bind_eq_bind, Option.bind_eq_some_iff] at h hr
    obtain ⟨x, -, h2⟩ := h
    split at h2
    · rename_i h3
      simp at h2; subst h2
      simp at hr
      simp only [DelChain.rEnd, if_neg hr]
      rw [show (DelChain.stack c).getLast? = some x from h3.symm]; rfl
    · simp at h2

end Verif.Geom
