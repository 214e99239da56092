import Verif.Spec.Mesh
/- What the composite construction functions should build. -/
namespace Verif.Topo

/-- the result of `insert_vertices_into_edge`: the chain of `k` edges sits between `prv e` and `e` -/
structure Split (t0 t : Topo) (e k : Nat) (v f b : Nat → Nat) : Prop where
  pos : 0 < k
  freshV : ∀ i < k, ¬ t0.V (v i)
  freshF : ∀ i < k, ¬ t0.E (f i)
  freshB : ∀ i < k, ¬ t0.E (b i)
  injV : ∀ i < k, ∀ j < k, v i = v j → i = j
  injF : ∀ i < k, ∀ j < k, f i = f j → i = j
  injB : ∀ i < k, ∀ j < k, b i = b j → i = j
  disj : ∀ i < k, ∀ j < k, f i ≠ b j
  E : ∀ x, t.E x ↔ t0.E x ∨ ∃ i < k, x = f i ∨ x = b i
  V : ∀ x, t.V x ↔ t0.V x ∨ ∃ i < k, x = v i
  F : ∀ x, t.F x ↔ t0.F x
  frep : ∀ x, t.frep x = t0.frep x
  vrepN : ∀ i < k, t.vrep (v i) = some (b i)
  vrepO : ∀ x, (∀ i < k, x ≠ v i) → t.vrep x = if x = t0.org e then some (f 0) else t0.vrep x
  fF : ∀ i < k, t.nxt (f i) = (if i + 1 = k then e else f (i + 1)) ∧ t.prv (f i) = (if i = 0 then t0.prv e else f (i - 1)) ∧
    t.twn (f i) = b i ∧ t.org (f i) = (if i = 0 then t0.org e else v (i - 1)) ∧ t.fac (f i) = t0.fac e
  fB : ∀ i < k, t.nxt (b i) = (if i = 0 then t0.twn (t0.prv e) else b (i - 1)) ∧
    t.prv (b i) = (if i + 1 = k then t0.twn e else b (i + 1)) ∧
    t.twn (b i) = f i ∧ t.org (b i) = v i ∧ t.fac (b i) = t0.fac (t0.twn e)
  old : ∀ x, t0.E x → t.nxt x = (if x = t0.twn e then b (k - 1) else if x = t0.prv e then f 0 else t0.nxt x) ∧
    t.prv x = (if x = e then f (k - 1) else if x = t0.twn (t0.prv e) then b 0 else t0.prv x) ∧
    t.twn x = t0.twn x ∧ t.org x = (if x = e then v (k - 1) else t0.org x) ∧ t.fac x = t0.fac x

end Verif.Topo
namespace Verif.Mesh
variable {VP EP FP : Type}

/-- `m'` is `m` with a new path `v 0, …, v N`; `f i` runs from `v i` to `v (i+1)`, `b i` back;
    they carry the payloads `ef i` and `eb i`. -/
structure IsPath (m m' : Mesh VP EP FP) (ef eb : Nat → EP) (p : Nat → Option VP) (N : Nat) (v f b : Nat → Nat) : Prop where
  pos : 0 < N
  freshV : ∀ i ≤ N, m.vertex (v i) = none
  freshF : ∀ i < N, m.edge (f i) = none
  freshB : ∀ i < N, m.edge (b i) = none
  injV : ∀ i ≤ N, ∀ j ≤ N, v i = v j → i = j
  injF : ∀ i < N, ∀ j < N, f i = f j → i = j
  injB : ∀ i < N, ∀ j < N, b i = b j → i = j
  disj : ∀ i < N, ∀ j < N, f i ≠ b j
  newV : ∀ i ≤ N, ∃ q, p i = some q ∧ m'.vertex (v i) = some ⟨some (if i = 0 then f 0 else b (i - 1)), q⟩
  newF : ∀ i < N, m'.edge (f i) = some
    { next := if i + 1 = N then b i else f (i + 1), twin := b i, prev := if i = 0 then b 0 else f (i - 1)
      origin := v i, face := none, payload := ef i }
  newB : ∀ i < N, m'.edge (b i) = some
    { next := if i = 0 then f 0 else b (i - 1), twin := f i, prev := if i + 1 = N then f i else b (i + 1)
      origin := v (i + 1), face := none, payload := eb i }
  edges : ∀ x, (∀ i < N, x ≠ f i ∧ x ≠ b i) → m'.edge x = m.edge x
  vertices : ∀ x, (∀ i ≤ N, x ≠ v i) → m'.vertex x = m.vertex x
  faces : ∀ x, m'.face x = m.face x

/-- `m'` is `m` with a new cycle `v 0, …, v (n-1)`; `f i` runs from `v i` to the next vertex, `b i` back;
    they carry the payloads `ef i` and `eb i`; the half-edges `b i` belong to `fb`. -/
structure IsCycle (m m' : Mesh VP EP FP) (ef eb : Nat → EP) (p : Nat → Option VP) (n : Nat) (v f b : Nat → Nat) (fb : Option Nat) : Prop where
  freshV : ∀ i < n, m.vertex (v i) = none
  freshF : ∀ i < n, m.edge (f i) = none
  freshB : ∀ i < n, m.edge (b i) = none
  injV : ∀ i < n, ∀ j < n, v i = v j → i = j
  injF : ∀ i < n, ∀ j < n, f i = f j → i = j
  injB : ∀ i < n, ∀ j < n, b i = b j → i = j
  disj : ∀ i < n, ∀ j < n, f i ≠ b j
  newV : ∀ i < n, ∃ q e, p i = some q ∧ m'.vertex (v i) = some ⟨some e, q⟩
  newF : ∀ i < n, m'.edge (f i) = some
    { next := f ((i + 1) % n), twin := b i, prev := f ((i + (n - 1)) % n), origin := v i, face := none, payload := ef i }
  newB : ∀ i < n, m'.edge (b i) = some
    { next := b ((i + (n - 1)) % n), twin := f i, prev := b ((i + 1) % n), origin := v ((i + 1) % n), face := fb, payload := eb i }
  edges : ∀ x, (∀ i < n, x ≠ f i ∧ x ≠ b i) → m'.edge x = m.edge x
  vertices : ∀ x, (∀ i < n, x ≠ v i) → m'.vertex x = m.vertex x

/-- `m'` is `m` with the hole `h 0, …, h (n-1)` filled by a fan of triangles around the new vertex `v`:
    triangle `g i` has the half-edges `h i → a i → b i`, where `a i` runs to `v` and `b i` from `v`.
    Everything else is unchanged. -/
structure HoleFilled (m m' : Mesh VP EP FP) (de : EP) (df : FP) (apex : VP) (h : Nat → Nat) (n v : Nat) (a b g : Nat → Nat) : Prop where
  freshV : m.vertex v = none
  freshA : ∀ i < n, m.edge (a i) = none
  freshB : ∀ i < n, m.edge (b i) = none
  freshG : ∀ i < n, m.face (g i) = none
  injA : ∀ i < n, ∀ j < n, a i = a j → i = j
  injB : ∀ i < n, ∀ j < n, b i = b j → i = j
  injG : ∀ i < n, ∀ j < n, g i = g j → i = j
  disj : ∀ i < n, ∀ j < n, a i ≠ b j
  newV : m'.vertex v = some ⟨some (b 0), apex⟩
  hole : ∀ i < n, m'.edge (h i) = (m.edge (h i)).map fun r => { r with next := a i, prev := b i, face := some (g i) }
  newA : ∀ i < n, ∃ o, m.originId (h ((i + 1) % n)) = some o ∧ m'.edge (a i) = some
    { next := b i, twin := b ((i + 1) % n), prev := h i, origin := o, face := some (g i), payload := de }
  newB : ∀ i < n, m'.edge (b i) = some
    { next := h i, twin := a ((i + (n - 1)) % n), prev := a i, origin := v, face := some (g i), payload := de }
  newG : ∀ i < n, ∃ r, (r = h i ∨ r = a i ∨ r = b i) ∧ m'.face (g i) = some { edge := r, curved := false, payload := df }
  edges : ∀ x, (∀ i < n, x ≠ h i ∧ x ≠ a i ∧ x ≠ b i) → m'.edge x = m.edge x
  vertices : ∀ x, x ≠ v → m'.vertex x = m.vertex x
  faces : ∀ x, (∀ i < n, x ≠ g i) → m'.face x = m.face x

/-- payloads after splitting -/
structure SplitPay (m m' : Mesh VP EP FP) (p : Nat → Option (EP × EP × VP)) (k : Nat) (v f b : Nat → Nat) : Prop where
  edges : ∀ x, m.topo.E x → m'.epay x = m.epay x
  vertices : ∀ x, m.topo.V x → m'.vpay x = m.vpay x
  fs : m'.fs = m.fs
  new : ∀ i < k, ∃ q, p i = some q ∧ m'.epay (f i) = some q.1 ∧ m'.epay (b i) = some q.2.1 ∧ m'.vpay (v i) = some q.2.2

/-- `a` maps the live ids in increasing order onto `0, …, n-1` -/
structure OrderIso (live : Nat → Prop) (n : Nat) (a : Nat → Nat) : Prop where
  mono : ∀ x y, live x → live y → x < y → a x < a y
  lt : ∀ x, live x → a x < n
  surj : ∀ j < n, ∃ x, live x ∧ a x = j

/-- `m'` is `m` with edge, vertex and face ids renamed by `a`, `b`, `c` and payloads mapped -/
structure Renamed {VP' EP' FP' : Type} (fv : VP → VP') (fe : EP → EP') (ff : FP → FP') (m : Mesh VP EP FP) (m' : Mesh VP' EP' FP')
    (a b c : Nat → Nat) : Prop where
  edge : ∀ x r, m.edge x = some r → m'.edge (a x) = some
    { next := a r.next, twin := a r.twin, prev := a r.prev, origin := b r.origin, face := r.face.map c, payload := fe r.payload }
  vertex : ∀ x r, m.vertex x = some r → m'.vertex (b x) = some ⟨r.edge.map a, fv r.payload⟩
  face : ∀ x r, m.face x = some r → m'.face (c x) = some ⟨a r.edge, false, ff r.payload⟩

end Verif.Mesh
