import Verif.Lemmas.MeshOps3
import Verif.Model.Subdivision
/- What the half-edge operations used by loop subdivision do, without assuming a consistent mesh. -/
namespace Verif.Topo

/-- `e` gets a new second half `n` starting in the new vertex `v` -/
def splitHalf (t : Topo) (e v n : Nat) : Topo :=
  { t with
    E := fun x => x = n ∨ t.E x
    V := fun x => x = v ∨ t.V x
    nxt := fun x => if x = n then t.nxt e else if x = e then n else t.nxt x
    prv := fun x => if x = n then e else if x = t.nxt e then n else t.prv x
    twn := fun x => if x = n then t.twn e else t.twn x
    org := fun x => if x = n then v else t.org x
    fac := fun x => if x = n then t.fac e else t.fac x
    vrep := fun x => if x = v then some n else t.vrep x }

/-- `e` gets a new second half `n` starting in the middle of its twin, whose second half is `y` -/
def fixHalf (t : Topo) (e y n : Nat) : Topo :=
  { t with
    E := fun x => x = n ∨ t.E x
    nxt := fun x => if x = n then t.nxt e else if x = e then n else t.nxt x
    prv := fun x => if x = n then e else if x = t.nxt e then n else t.prv x
    twn := fun x => if x = n then t.twn e else if x = t.twn e then n else if x = e then y else t.twn x
    org := fun x => if x = n then t.org y else t.org x
    fac := fun x => if x = n then t.fac e else t.fac x }

/-- a new pair of half-edges between the end of `a` and the end of `b` -/
def join (t : Topo) (a b e1 e2 : Nat) : Topo :=
  { t with
    E := fun x => x = e1 ∨ x = e2 ∨ t.E x
    nxt := fun x => if x = e1 then t.nxt b else if x = e2 then t.nxt a else if x = a then e1 else if x = b then e2 else t.nxt x
    prv := fun x => if x = e1 then a else if x = e2 then b else if x = t.nxt b then e1 else if x = t.nxt a then e2 else t.prv x
    twn := fun x => if x = e1 then e2 else if x = e2 then e1 else t.twn x
    org := fun x => if x = e1 then t.org (t.nxt a) else if x = e2 then t.org (t.nxt b) else t.org x
    fac := fun x => if x = e1 then none else if x = e2 then none else t.fac x }

end Verif.Topo

namespace Verif.Mesh
variable {VP EP FP : Type}

theorem allocPutE {m : Mesh VP EP FP} (g : m.StOK) (h : HE EP) (hn : m.topo.E h.next) (hp : m.topo.E h.prev) :
    ∃ m' n, m.allocE.2 = n ∧ m.allocE.1.putE n h = some m' ∧ m'.StOK ∧ ¬ m.topo.E n ∧ m'.vs = m.vs ∧ m'.fs = m.fs ∧
      (∀ x, m'.epay x = if x = n then some h.payload else m.epay x) ∧
      m'.topo = { m.topo with
        E := fun x => x = n ∨ m.topo.E x
        nxt := fun x => if x = n then h.next else m.topo.nxt x
        prv := fun x => if x = n then h.prev else m.topo.prv x
        twn := fun x => if x = n then h.twin else m.topo.twn x
        org := fun x => if x = n then h.origin else m.topo.org x
        fac := fun x => if x = n then h.face else m.topo.fac x } := by
  obtain ⟨a1, a2, a3, a4, -⟩ := Store.allocate_spec g.hs
  have dead : ∀ x, m.topo.E x → x ≠ m.hs.allocate.2 := by
    rintro x ⟨y, hy⟩ rfl; rw [a2] at hy; cases hy
  obtain ⟨s, b1, b2, b3⟩ := putE_spec (m := m.allocE.1) (e := m.hs.allocate.2) a1 (by simp) (h := h) (dead _ hn) (dead _ hp)
  refine ⟨_, m.hs.allocate.2, rfl, b1, ⟨by simpa using b2, g.vs, g.fs⟩, not_E_of a2, rfl, rfl, ?_, ?_⟩
  · intro x; simp only [epay, b3]; split
    · rfl
    · simp only [allocE, a4]
  · apply Topo.ext' <;> intro x <;> simp only [topo, b3, allocE, a4]
    all_goals
      by_cases hx : x = m.hs.allocate.2 <;> simp [hx]

theorem allocPutEV {m : Mesh VP EP FP} (g : m.StOK) (h : Nat → HE EP) (vp : VP) (hn : ∀ v, m.topo.E (h v).next) (hp : ∀ v, m.topo.E (h v).prev) :
    ∃ m' m1 v n, m.allocV.2 = v ∧ m.allocV.1.allocE.2 = n ∧ m.allocV.1.allocE.1.putE n (h v) = some m1 ∧ m1.putV v { edge := some n, payload := vp } = some m' ∧ m'.StOK ∧
      ¬ m.topo.E n ∧ ¬ m.topo.V v ∧ m'.fs = m.fs ∧ (∀ x, m'.epay x = if x = n then some (h v).payload else m.epay x) ∧ (∀ x, m'.vpay x = if x = v then some vp else m.vpay x) ∧
      m'.topo = { m.topo with
        E := fun x => x = n ∨ m.topo.E x
        V := fun x => x = v ∨ m.topo.V x
        nxt := fun x => if x = n then (h v).next else m.topo.nxt x
        prv := fun x => if x = n then (h v).prev else m.topo.prv x
        twn := fun x => if x = n then (h v).twin else m.topo.twn x
        org := fun x => if x = n then (h v).origin else m.topo.org x
        fac := fun x => if x = n then (h v).face else m.topo.fac x
        vrep := fun x => if x = v then some n else m.topo.vrep x } := by
  obtain ⟨a1, a2, a3, a4, -⟩ := Store.allocate_spec g.hs
  obtain ⟨c1, c2, c3, c4, -⟩ := Store.allocate_spec g.vs
  have dead : ∀ x, m.topo.E x → x ≠ m.hs.allocate.2 := by
    rintro x ⟨y, hy⟩ rfl; rw [a2] at hy; cases hy
  obtain ⟨s, b1, b2, b3⟩ := putE_spec (m := m.allocV.1.allocE.1) (e := m.hs.allocate.2) a1 (by simp) (h := h m.vs.allocate.2) (dead _ (hn _)) (dead _ (hp _))
  obtain ⟨s', d1, d2, d3⟩ := putV_spec (m := { m.allocV.1.allocE.1 with hs := s }) (v := m.vs.allocate.2) c1 (by simp) { edge := some m.hs.allocate.2, payload := vp }
  refine ⟨_, _, m.vs.allocate.2, m.hs.allocate.2, rfl, rfl, b1, d1, ⟨by simpa using b2, by simpa using d2, g.fs⟩, not_E_of a2, not_V_of c2, rfl, ?_, ?_, ?_⟩
  · intro x; simp only [epay, b3]; split
    · rfl
    · simp only [allocE, allocV, a4]
  · intro x; simp only [vpay, d3]; split
    · rfl
    · simp only [allocE, allocV, c4]
  · apply Topo.ext' <;> intro x <;> simp only [topo, b3, d3, allocE, allocV, a4, c4]
    all_goals first
      | (by_cases hx : x = m.hs.allocate.2 <;> simp [hx]; done)
      | (by_cases hx : x = m.vs.allocate.2 <;> simp [hx]; done)

theorem setTwin_topo {m : Mesh VP EP FP} (g : m.StOK) {e : Nat} (he : m.topo.E e) (n : Nat) :
    ∃ m', m.setTwin e n = some m' ∧ m'.StOK ∧ SamePay m m' ∧ m'.vs = m.vs ∧ m'.fs = m.fs ∧ m'.fuel = m.fuel ∧
      m'.topo = { m.topo with twn := fun x => if x = e then n else m.topo.twn x } := by
  obtain ⟨m', h1, h2, h3, h4, h5, h6, h7⟩ := updE_topo g he (fun h => { h with twin := n }) id id (fun _ => n) id id
    (by simp) (by simp) (by simp) (by simp) (by simp) (by simp)
  refine ⟨m', h1, h2, h3, h4, h5, h6, ?_⟩
  rw [h7]; apply Topo.ext' <;> intro x <;> simp <;> grind

theorem subdivideUnsafe_topo {m : Mesh VP EP FP} (g : m.StOK) {e : Nat} (he : m.topo.E e) (hn : m.topo.E (m.topo.nxt e)) (vp : VP) (ep : EP) :
    ∃ m' v n, m.subdivideUnsafe e vp ep = some (m', n) ∧ m'.StOK ∧ ¬ m.topo.E n ∧ ¬ m.topo.V v ∧ m'.topo = m.topo.splitHalf e v n ∧ m'.fs = m.fs ∧
      (∀ x, m'.epay x = if x = n then some ep else m.epay x) ∧ (∀ x, m'.vpay x = if x = v then some vp else m.vpay x) := by
  obtain ⟨h, hh, h1, h2, h3, h4, h5, -⟩ := edge_eq he
  obtain ⟨m2, m1, v, n, rfl, rfl, a3, a4, a5, a6, a7, a8, a9, a10, a11⟩ := allocPutEV g
    (fun v => { next := h.next, twin := h.twin, prev := e, origin := v, face := h.face, payload := ep }) vp (fun _ => by rw [h1]; exact hn) (fun _ => he)
  generalize hve : m.allocV.2 = v at *
  generalize hne : m.allocV.1.allocE.2 = n at *
  have live : ∀ x, m.topo.E x → m2.topo.E x := by intro x hx; rw [a11]; exact .inr hx
  obtain ⟨m3, b1, b2, b3, b4, b5, -, b6⟩ := setPrev_topo a5 (live _ hn) n
  obtain ⟨m4, c1, c2, c3, c4, c5, -, c6⟩ := setNext_topo b2 (e := e) (by rw [b6]; exact live _ he) n
  refine ⟨m4, v, n, ?_, c2, a6, a7, ?_, by rw [c5, b5, a8], ?_, ?_⟩
  · rw [subdivideUnsafe, hh]
    simp only [Option.bind_eq_bind, Option.bind_some]
    rw [hne, hve, a3]
    simp only [Option.bind_some, a4]
    rw [h1, b1]
    simp only [Option.bind_some, c1]
  · have e1 : e ≠ n := fun h => a6 (h ▸ he)
    have e2 : m.topo.nxt e ≠ n := fun h => a6 (h ▸ hn)
    rw [c6, b6, a11]
    apply Topo.ext' <;> intro x <;> simp only [Topo.splitHalf] <;> grind
  · intro x; rw [c3.epay, b3.epay, a9]
  · intro x; rw [c3.vpay, b3.vpay, a10]

/-- the part of `subdivide_unsafe_try_fixup` after the search -/
theorem fixup_topo {m : Mesh VP EP FP} (g : m.StOK) {e y : Nat} (he : m.topo.E e) (hn : m.topo.E (m.topo.nxt e)) (ht : m.topo.E (m.topo.twn e)) (hy : m.topo.E y)
    (hne : m.topo.twn e ≠ e) (ep : EP) {o : Nat} (hf : m.topo.E (m.topo.nxt (m.topo.twn e))) (ho : m.topo.org (m.topo.nxt (m.topo.twn e)) = o)
    (hl : fixupLoop m e (m.topo.twn e) o m.fuel (m.topo.nxt (m.topo.twn e)) = some (some y)) :
    ∃ m' n, m.subdivideUnsafeTryFixup e ep = some (m', some n) ∧ m'.StOK ∧ ¬ m.topo.E n ∧ m'.topo = m.topo.fixHalf e y n ∧ m'.vs = m.vs ∧ m'.fs = m.fs ∧
      (∀ x, m'.epay x = if x = n then some ep else m.epay x) := by
  obtain ⟨h, hh, h1, h2, h3, h4, h5, -⟩ := edge_eq he
  obtain ⟨ot, hot, o1, -⟩ := edge_eq ht
  obtain ⟨fs, hfs, -, -, -, f4, -⟩ := edge_eq hf
  obtain ⟨yr, hyr, -, -, -, y4, -⟩ := edge_eq hy
  obtain ⟨m1, n, rfl, a2, a3, a4, a5, a6, a7, a8⟩ := allocPutE g { next := h.next, twin := h.twin, prev := e, origin := yr.origin, face := h.face, payload := ep } (by rw [h1]; exact hn) he
  generalize hnn : m.allocE.2 = n at *
  have live : ∀ x, m.topo.E x → m1.topo.E x := by intro x hx; rw [a8]; exact .inr hx
  obtain ⟨m2, b1, b2, b3, b4, b5, -, b6⟩ := setTwin_topo a3 (live _ he) y
  obtain ⟨m3, c1, c2, c3, c4, c5, -, c6⟩ := setTwin_topo b2 (e := m.topo.twn e) (by rw [b6]; exact live _ ht) n
  obtain ⟨m4, d1, d2, d3, d4, d5, -, d6⟩ := setPrev_topo c2 (e := m.topo.nxt e) (by rw [c6, b6]; exact live _ hn) n
  obtain ⟨m5, e1, e2, e3, e4, e5, -, e6⟩ := setNext_topo d2 (e := e) (by rw [d6, c6, b6]; exact live _ he) n
  refine ⟨m5, n, ?_, e2, a4, ?_, by rw [e4, d4, c4, b4, a5], by rw [e5, d5, c5, b5, a6], ?_⟩
  · rw [subdivideUnsafeTryFixup, hh]
    simp only [Option.bind_eq_bind, Option.bind_some, h3, hot, o1, hfs, f4, ho, hl, hyr, hnn]
    rw [h3] at a2
    rw [a2]
    simp only [Option.bind_some, b1, c1, h1, d1, e1]
  · have n1 : e ≠ n := fun h => a4 (h ▸ he)
    have n2 : m.topo.nxt e ≠ n := fun h => a4 (h ▸ hn)
    have n3 : m.topo.twn e ≠ n := fun h => a4 (h ▸ ht)
    rw [e6, d6, c6, b6, a8]
    apply Topo.ext' <;> intro x <;> simp only [Topo.fixHalf, h1, h3, h5, y4] <;> grind
  · intro x; rw [e3.epay, d3.epay, c3.epay, b3.epay, a7]

theorem insertEdgeNoCheck_join {m : Mesh VP EP FP} (g : m.StOK) {a b : Nat} (ha : m.topo.E a) (hb : m.topo.E b) (hna : m.topo.E (m.topo.nxt a)) (hnb : m.topo.E (m.topo.nxt b))
    (hva : m.topo.V (m.topo.org (m.topo.nxt a))) (hvb : m.topo.V (m.topo.org (m.topo.nxt b))) (hab : m.topo.nxt a ≠ m.topo.nxt b) (ep1 ep2 : EP) :
    ∃ m' e1 e2, m.insertEdgeNoCheck a ep1 b ep2 = some (m', e1, e2) ∧ m'.StOK ∧ ¬ m.topo.E e1 ∧ ¬ m.topo.E e2 ∧ e1 ≠ e2 ∧
      m'.topo = m.topo.join a b e1 e2 ∧ m'.vs = m.vs ∧ m'.fs = m.fs ∧
      (∀ x, m'.epay x = if x = e1 then some ep1 else if x = e2 then some ep2 else m.epay x) := by
  obtain ⟨m0, e1, e2, i1, i2, i3, i4, i5, i6, i7, i8, i9⟩ := insertEdgeNoUpdateNoCheck_topo g
    (some (m.topo.nxt b)) (some a) (m.topo.org (m.topo.nxt a)) none ep1
    (some (m.topo.nxt a)) (some b) (m.topo.org (m.topo.nxt b)) none ep2
    (by rintro x ⟨⟩; exact hnb) (by rintro x ⟨⟩; exact ha) (by rintro x ⟨⟩; exact hna) (by rintro x ⟨⟩; exact hb)
  have live : ∀ x, m.topo.E x → m0.topo.E x := by
    intro x hx; rw [i9]; exact .inr (.inr hx)
  obtain ⟨m1, a1, a2, a3, a4, a5, -, a6⟩ := setPrev_topo i2 (live _ hnb) e1
  obtain ⟨m2, b1, b2, b3, b4, b5, -, b6⟩ := setPrev_topo a2 (e := m.topo.nxt a) (by rw [a6]; exact live _ hna) e2
  obtain ⟨m3, c1, c2, c3, c4, c5, -, c6⟩ := setNext_topo b2 (e := a) (by rw [b6, a6]; exact live _ ha) e1
  obtain ⟨m4, d1, d2, d3, d4, d5, -, d6⟩ := setNext_topo c2 (e := b) (by rw [c6, b6, a6]; exact live _ hb) e2
  have hne : a ≠ b := fun h => hab (by rw [h])
  refine ⟨m4, e1, e2, ?_, d2, i4, i5, i3, ?_, by rw [d4, c4, b4, a4, i6], by rw [d5, c5, b5, a5, i7], ?_⟩
  · obtain ⟨xa, hxa, -⟩ := edge_eq ha
    obtain ⟨xb, hxb, -⟩ := edge_eq hb
    obtain ⟨ya, hya, -⟩ := edge_eq hna
    obtain ⟨yb, hyb, -⟩ := edge_eq hnb
    obtain ⟨va, hva⟩ := hva
    obtain ⟨vb, hvb⟩ := hvb
    have hva' : m.vertex (m.topo.org (m.topo.nxt a)) = some va := hva
    have hvb' : m.vertex (m.topo.org (m.topo.nxt b)) = some vb := hvb
    simp only [insertEdgeNoCheck, hxa, hxb, targetVertex, targetId, nextId_eq ha, nextId_eq hb, originId_eq hna, originId_eq hnb, Option.bind_eq_bind, Option.bind_some,
      hva', hvb', fwd, hya, hyb, i1, a1, b1, c1, d1]
  · have la : a ≠ e1 ∧ a ≠ e2 := ⟨fun h => i4 (h ▸ ha), fun h => i5 (h ▸ ha)⟩
    have lb : b ≠ e1 ∧ b ≠ e2 := ⟨fun h => i4 (h ▸ hb), fun h => i5 (h ▸ hb)⟩
    have lna : m.topo.nxt a ≠ e1 ∧ m.topo.nxt a ≠ e2 := ⟨fun h => i4 (h ▸ hna), fun h => i5 (h ▸ hna)⟩
    have lnb : m.topo.nxt b ≠ e1 ∧ m.topo.nxt b ≠ e2 := ⟨fun h => i4 (h ▸ hnb), fun h => i5 (h ▸ hnb)⟩
    clear live
    rw [d6, c6, b6, a6, i9]
    clear d6 c6 b6 a6 i9
    apply Topo.ext' <;> intro x <;> simp only [Topo.join, Option.getD_some]
    · grind
    · grind
  · intro x
    rw [d3.epay, c3.epay, b3.epay, a3.epay, i8]

/-- closing a hole whose loop is known -/
theorem closeHole_orbit {m : Mesh VP EP FP} (g : m.StOK) {e : Nat} {l : List Nat} (hl : IsOrbit m.topo.nxt e l) (hE : ∀ x ∈ l, m.topo.E x)
    (hf : ∀ x ∈ l, m.topo.fac x = none) (dbg : Bool) (fp : FP) (curved : Bool) :
    ∃ m' f, m.closeHole dbg e fp curved = some (m', f) ∧ m'.StOK ∧ ¬ m.topo.F f ∧
      m'.topo = m.topo.addFace f e (· ∈ l) ∧ m'.vs = m.vs ∧ (∀ x, m'.epay x = m.epay x) ∧
      (∀ x, m'.fpay x = if x = f then some fp else m.fpay x) ∧
      (∀ x, m'.fcurved x = if x = f then some curved else m.fcurved x) := by
  obtain ⟨m1, f, a1, a2, a3, a4, a5, a6, a7, a8⟩ := pushF_topo g e curved fp
  have hlen : l.length ≤ m1.fuel := by
    rw [fuel, a4]
    exact nodup_length_le_bound hl.nodup (fun x hx => live_lt_fuel (hE x hx))
  have hmem : e ∈ l := by obtain ⟨t, ht⟩ := hl.head; rw [ht]; simp
  have hN : ∀ x ∈ l, m.topo.E (m.topo.nxt x) := by
    intro x hx
    apply hE
    rw [hl.mem_iff] at hx ⊢
    exact hx.tail
  obtain ⟨m2, b1, b2, b3, b4, b5, b6⟩ := setFaceLoop_aux (t0 := m.topo) hl hN hE dbg (fun _ => hf) (f := f) (F := m1.topo.F) (frep := m1.topo.frep) l.length 0 m1.fuel m1 (by omega) hl.pos hlen a2
    (by rw [a8]; simp)
  refine ⟨m2, f, ?_, b2, a3, ?_, by rw [b4, a5], ?_, ?_, ?_⟩
  · obtain ⟨y, hy, -⟩ := edge_eq (hE e hmem)
    have : m1.edge e = some y := by rw [edge, a4]; exact hy
    simp only [itr] at b1
    simp [closeHole, a1, this, b1]
  · rw [b6, a8]; rfl
  · intro x; rw [b3.epay, epay, a4]; rfl
  · intro x; rw [b3.fpay, a6]
  · intro x; rw [b3.fcurved, a7]

/-- removing a face whose loop is known -/
theorem removeFace_orbit {m : Mesh VP EP FP} (g : m.StOK) {f : Nat} (hF : m.topo.F f) {l : List Nat} (hl : IsOrbit m.topo.nxt (m.topo.frep f) l) (hE : ∀ x ∈ l, m.topo.E x)
    (hf : ∀ x ∈ l, m.topo.fac x ≠ none) (dbg : Bool) :
    ∃ m' fp, m.removeFace dbg f = some (m', fp) ∧ m'.StOK ∧ m.fpay f = some fp ∧
      m'.topo = { m.topo with
        F := fun x => x ≠ f ∧ m.topo.F x
        fac := fun x => if x ∈ l then none else m.topo.fac x
        frep := fun x => if x = f then 0 else m.topo.frep x } ∧ m'.vs = m.vs ∧ (∀ x, m'.epay x = m.epay x) ∧
      (∀ x, m'.fpay x = if x = f then none else m.fpay x) ∧
      (∀ x, m'.fcurved x = if x = f then none else m.fcurved x) := by
  obtain ⟨x, hx⟩ := id hF
  have hrep : m.topo.frep f = x.edge := by simp [topo, hx]
  have hmem : m.topo.frep f ∈ l := by obtain ⟨t, ht⟩ := hl.head; rw [ht]; simp
  have hlen : l.length ≤ m.fuel := nodup_length_le_bound hl.nodup (fun x hx => live_lt_fuel (hE x hx))
  have hfwd : ∀ y ∈ l, m.fwd y = some (m.topo.nxt y) := by
    intro y hy
    have hy' : m.topo.E (m.topo.nxt y) := by
      apply hE
      rw [hl.mem_iff] at hy ⊢
      exact hy.tail
    obtain ⟨z, hz, -⟩ := edge_eq hy'
    simp [fwd, nextId_eq (hE y hy), hz]
  have hw := walk_of_orbit hl hfwd hlen
  obtain ⟨m1, a1, a2, a3, a4, a5, a6⟩ := deleteFaces_spec dbg l g hl.nodup hE (fun _ => hf)
  obtain ⟨m2, b1, b2, b3, b4, b5, b6, b7⟩ := dropF_topo a2 (f := f) (by rw [a6]; exact hF)
  refine ⟨m2, x.payload, ?_, b2, by simp [fpay, hx], by rw [b7, a6], by rw [b4, a4], ?_, ?_, ?_⟩
  · have h1 : m.face f = some x := hx
    obtain ⟨z, hz, -⟩ := edge_eq (hE _ hmem)
    rw [hrep] at hz hw
    simp [removeFace, faceEdges, edgesFace, h1, hz, hw, a1, b1]
  · intro y; rw [epay, b3]; exact a3.epay y
  · intro y; rw [b5, a3.fpay]
  · intro y; rw [b6, a3.fcurved]

end Verif.Mesh
