import Verif.Lemmas.MeshOps
/- Single assignments, described by what they do to the combinatorial structure. -/
namespace Verif.Mesh
variable {VP EP FP : Type}

/-- intact storage -/
structure StOK (m : Mesh VP EP FP) : Prop where
  hs : m.hs.OK []
  vs : m.vs.OK []
  fs : m.fs.OK []

/-- same payloads and same storage sizes -/
structure SamePay (m m' : Mesh VP EP FP) : Prop where
  epay : ∀ x, m'.epay x = m.epay x
  vpay : ∀ x, m'.vpay x = m.vpay x
  fpay : ∀ x, m'.fpay x = m.fpay x
  fcurved : ∀ x, m'.fcurved x = m.fcurved x

theorem SamePay.refl (m : Mesh VP EP FP) : SamePay m m := ⟨fun _ => rfl, fun _ => rfl, fun _ => rfl, fun _ => rfl⟩
theorem SamePay.trans {m1 m2 m3 : Mesh VP EP FP} (h : SamePay m1 m2) (k : SamePay m2 m3) : SamePay m1 m3 :=
  ⟨fun x => by rw [k.epay, h.epay], fun x => by rw [k.vpay, h.vpay], fun x => by rw [k.fpay, h.fpay],
   fun x => by rw [k.fcurved, h.fcurved]⟩

theorem Good.stOK {m : Mesh VP EP FP} (g : m.Good) : m.StOK := ⟨g.hsOK, g.vsOK, g.fsOK⟩
theorem StOK.good {m : Mesh VP EP FP} (g : m.StOK) (w : m.topo.WF) : m.Good :=
  ⟨storeOK_iff.mpr g.hs, storeOK_iff.mpr g.vs, storeOK_iff.mpr g.fs, w⟩

theorem updE_topo {m : Mesh VP EP FP} (g : m.StOK) {e : Nat} (he : m.topo.E e) (f : HE EP → HE EP)
    (fn fp ft fo : Nat → Nat) (ff : Option Nat → Option Nat)
    (hn : ∀ h, (f h).next = fn h.next) (hp : ∀ h, (f h).prev = fp h.prev) (ht : ∀ h, (f h).twin = ft h.twin)
    (ho : ∀ h, (f h).origin = fo h.origin) (hf : ∀ h, (f h).face = ff h.face) (hy : ∀ h, (f h).payload = h.payload) :
    ∃ m', m.updE e f = some m' ∧ m'.StOK ∧ SamePay m m' ∧ m'.vs = m.vs ∧ m'.fs = m.fs ∧ m'.fuel = m.fuel ∧
      m'.topo = { m.topo with
        nxt := fun x => if x = e then fn (m.topo.nxt e) else m.topo.nxt x
        prv := fun x => if x = e then fp (m.topo.prv e) else m.topo.prv x
        twn := fun x => if x = e then ft (m.topo.twn e) else m.topo.twn x
        org := fun x => if x = e then fo (m.topo.org e) else m.topo.org x
        fac := fun x => if x = e then ff (m.topo.fac e) else m.topo.fac x } := by
  obtain ⟨h, hh⟩ := he
  obtain ⟨s, h1, h2, h3, h4, -⟩ := updE_spec g.hs hh f
  refine ⟨_, h1, ⟨h2, g.vs, g.fs⟩, ⟨?_, fun _ => rfl, fun _ => rfl, fun _ => rfl⟩, rfl, rfl, h4, ?_⟩
  · intro x; simp only [epay, h3]; split
    · subst x; simp [hh, hy]
    · rfl
  · apply Topo.ext' <;> intro x <;> simp only [topo, h3]
    · split
      · subst x; simp [hh]
      · rfl
    all_goals
      by_cases hx : x = e
      · subst x; simp [*]
      · simp [hx]

theorem setNext_topo {m : Mesh VP EP FP} (g : m.StOK) {e : Nat} (he : m.topo.E e) (n : Nat) :
    ∃ m', m.setNext e n = some m' ∧ m'.StOK ∧ SamePay m m' ∧ m'.vs = m.vs ∧ m'.fs = m.fs ∧ m'.fuel = m.fuel ∧
      m'.topo = { m.topo with nxt := fun x => if x = e then n else m.topo.nxt x } := by
  obtain ⟨m', h1, h2, h3, h4, h5, h6, h7⟩ := updE_topo g he (fun h => { h with next := n }) (fun _ => n) id id id id
    (by simp) (by simp) (by simp) (by simp) (by simp) (by simp)
  refine ⟨m', h1, h2, h3, h4, h5, h6, ?_⟩
  rw [h7]; apply Topo.ext' <;> intro x <;> simp <;> grind

theorem setPrev_topo {m : Mesh VP EP FP} (g : m.StOK) {e : Nat} (he : m.topo.E e) (n : Nat) :
    ∃ m', m.setPrev e n = some m' ∧ m'.StOK ∧ SamePay m m' ∧ m'.vs = m.vs ∧ m'.fs = m.fs ∧ m'.fuel = m.fuel ∧
      m'.topo = { m.topo with prv := fun x => if x = e then n else m.topo.prv x } := by
  obtain ⟨m', h1, h2, h3, h4, h5, h6, h7⟩ := updE_topo g he (fun h => { h with prev := n }) id (fun _ => n) id id id
    (by simp) (by simp) (by simp) (by simp) (by simp) (by simp)
  refine ⟨m', h1, h2, h3, h4, h5, h6, ?_⟩
  rw [h7]; apply Topo.ext' <;> intro x <;> simp <;> grind

theorem setOrigin_topo {m : Mesh VP EP FP} (g : m.StOK) {e : Nat} (he : m.topo.E e) (n : Nat) :
    ∃ m', m.setOrigin e n = some m' ∧ m'.StOK ∧ SamePay m m' ∧ m'.vs = m.vs ∧ m'.fs = m.fs ∧ m'.fuel = m.fuel ∧
      m'.topo = { m.topo with org := fun x => if x = e then n else m.topo.org x } := by
  obtain ⟨m', h1, h2, h3, h4, h5, h6, h7⟩ := updE_topo g he (fun h => { h with origin := n }) id id id (fun _ => n) id
    (by simp) (by simp) (by simp) (by simp) (by simp) (by simp)
  refine ⟨m', h1, h2, h3, h4, h5, h6, ?_⟩
  rw [h7]; apply Topo.ext' <;> intro x <;> simp <;> grind

theorem setFace_topo {m : Mesh VP EP FP} (g : m.StOK) {e : Nat} (he : m.topo.E e) (dbg : Bool)
    (hd : dbg = true → m.topo.fac e = none) (f : Option Nat) :
    ∃ m', m.setFace dbg e f = some m' ∧ m'.StOK ∧ SamePay m m' ∧ m'.vs = m.vs ∧ m'.fs = m.fs ∧ m'.fuel = m.fuel ∧
      m'.topo = { m.topo with fac := fun x => if x = e then f else m.topo.fac x } := by
  obtain ⟨m', h1, h2, h3, h4, h5, h6, h7⟩ := updE_topo g he (fun h => { h with face := f }) id id id id (fun _ => f)
    (by simp) (by simp) (by simp) (by simp) (by simp) (by simp)
  obtain ⟨x, hx, -, -, -, -, hx1, -⟩ := edge_eq he
  refine ⟨m', ?_, h2, h3, h4, h5, h6, ?_⟩
  · have : dassert dbg x.face.isNone = some () := by
      cases dbg
      · rfl
      · simp [dassert, hx1, hd rfl]
    simp [setFace, hx, this, h1]
  · rw [h7]; apply Topo.ext' <;> intro x <;> simp <;> grind

theorem deleteFace_topo {m : Mesh VP EP FP} (g : m.StOK) {e : Nat} (he : m.topo.E e) (dbg : Bool)
    (hd : dbg = true → m.topo.fac e ≠ none) :
    ∃ m', m.deleteFace dbg e = some m' ∧ m'.StOK ∧ SamePay m m' ∧ m'.vs = m.vs ∧ m'.fs = m.fs ∧ m'.fuel = m.fuel ∧
      m'.topo = { m.topo with fac := fun x => if x = e then none else m.topo.fac x } := by
  obtain ⟨m', h1, h2, h3, h4, h5, h6, h7⟩ := updE_topo g he (fun h => { h with face := none }) id id id id (fun _ => none)
    (by simp) (by simp) (by simp) (by simp) (by simp) (by simp)
  obtain ⟨x, hx, -, -, -, -, hx1, -⟩ := edge_eq he
  refine ⟨m', ?_, h2, h3, h4, h5, h6, ?_⟩
  · have : dassert dbg x.face.isSome = some () := by
      cases dbg
      · rfl
      · have := hd rfl
        rw [← hx1] at this
        simp only [dassert, Bool.true_and]
        cases h : x.face <;> simp_all
    simp [deleteFace, hx, this, h1]
  · rw [h7]; apply Topo.ext' <;> intro x <;> simp <;> grind

theorem setVertexEdge_topo {m : Mesh VP EP FP} (g : m.StOK) {v : Nat} (hv : m.topo.V v) (e : Nat) :
    ∃ m', m.setVertexEdge v e = some m' ∧ m'.StOK ∧ SamePay m m' ∧ m'.hs = m.hs ∧ m'.fs = m.fs ∧
      m'.topo = { m.topo with vrep := fun x => if x = v then some e else m.topo.vrep x } := by
  obtain ⟨h, hh⟩ := hv
  obtain ⟨s, h1, h2, h3, h4, -⟩ := updV_spec g.vs hh (fun x => { x with edge := some e })
  refine ⟨_, h1, ⟨g.hs, h2, g.fs⟩, ⟨fun _ => rfl, ?_, fun _ => rfl, fun _ => rfl⟩, rfl, rfl, ?_⟩
  · intro x; simp only [vpay, h3]; split
    · subst x; simp [hh]
    · rfl
  · apply Topo.ext' <;> intro x <;> simp only [topo, h3]
    · split
      · subst x; simp [hh]
      · rfl
    · by_cases hx : x = v <;> simp [hx]

theorem setFaceEdge_topo {m : Mesh VP EP FP} (g : m.StOK) {f : Nat} (hf : m.topo.F f) (e : Nat) :
    ∃ m', m.setFaceEdge f e = some m' ∧ m'.StOK ∧ SamePay m m' ∧ m'.hs = m.hs ∧ m'.vs = m.vs ∧
      m'.topo = { m.topo with frep := fun x => if x = f then e else m.topo.frep x } := by
  obtain ⟨h, hh⟩ := hf
  obtain ⟨s, h1, h2, h3, h4, -⟩ := updF_spec g.fs hh (fun x => { x with edge := e })
  refine ⟨_, h1, ⟨g.hs, g.vs, h2⟩, ⟨fun _ => rfl, fun _ => rfl, ?_, ?_⟩, rfl, rfl, ?_⟩
  · intro x; simp only [fpay, h3]; split
    · subst x; simp [hh]
    · rfl
  · intro x; simp only [fcurved, h3]; split
    · subst x; simp [hh]
    · rfl
  · apply Topo.ext' <;> intro x <;> simp only [topo, h3]
    · split
      · subst x; simp [hh]
      · rfl
    · by_cases hx : x = f <;> simp [hx]

/-- `faces.push`: a fresh face; nothing else changes. -/
theorem pushF_topo {m : Mesh VP EP FP} (g : m.StOK) (e : Nat) (curved : Bool) (fp : FP) :
    ∃ m' f, m.pushF { edge := e, curved := curved, payload := fp } = some (m', f) ∧ m'.StOK ∧ ¬ m.topo.F f ∧
      m'.hs = m.hs ∧ m'.vs = m.vs ∧
      (∀ x, m'.fpay x = if x = f then some fp else m.fpay x) ∧
      (∀ x, m'.fcurved x = if x = f then some curved else m.fcurved x) ∧
      m'.topo = { m.topo with
        F := fun x => x = f ∨ m.topo.F x
        frep := fun x => if x = f then e else m.topo.frep x } := by
  obtain ⟨s, f, h1, h2, h3, -, h4, -⟩ := Store.push_spec g.fs (⟨e, curved, fp⟩ : FC FP)
  refine ⟨{ m with fs := s }, f, by simp [pushF, h1], ⟨g.hs, g.vs, h2⟩, not_F_of h3, rfl, rfl, ?_, ?_, ?_⟩
  · intro x; simp only [fpay, h4]; split <;> simp
  · intro x; simp only [fcurved, h4]; split <;> simp
  · apply Topo.ext' <;> intro x <;> simp only [topo, h4]
    · by_cases hx : x = f <;> simp [hx]
    · by_cases hx : x = f <;> simp [hx]

theorem dropF_topo {m : Mesh VP EP FP} (g : m.StOK) {f : Nat} (hf : m.topo.F f) :
    ∃ m', m.dropF f = some m' ∧ m'.StOK ∧ m'.hs = m.hs ∧ m'.vs = m.vs ∧
      (∀ x, m'.fpay x = if x = f then none else m.fpay x) ∧
      (∀ x, m'.fcurved x = if x = f then none else m.fcurved x) ∧
      m'.topo = { m.topo with
        F := fun x => x ≠ f ∧ m.topo.F x
        frep := fun x => if x = f then 0 else m.topo.frep x } := by
  obtain ⟨h, hh⟩ := hf
  obtain ⟨s, h1, h2, h3, -⟩ := Store.delete_spec g.fs hh
  refine ⟨{ m with fs := s }, by simp [dropF, h1], ⟨g.hs, g.vs, h2⟩, rfl, rfl, ?_, ?_, ?_⟩
  · intro x; simp only [fpay, h3]; split <;> simp
  · intro x; simp only [fcurved, h3]; split <;> simp
  · apply Topo.ext' <;> intro x <;> simp only [topo, h3]
    · by_cases hx : x = f <;> simp [hx]
    · by_cases hx : x = f <;> simp [hx]

theorem insertEdgeNoUpdateNoCheck_topo {m : Mesh VP EP FP} (g : m.StOK)
    (next1 prev1 : Option Nat) (origin1 : Nat) (face1 : Option Nat) (ep1 : EP)
    (next2 prev2 : Option Nat) (origin2 : Nat) (face2 : Option Nat) (ep2 : EP)
    (hn1 : ∀ x, next1 = some x → m.topo.E x) (hp1 : ∀ x, prev1 = some x → m.topo.E x)
    (hn2 : ∀ x, next2 = some x → m.topo.E x) (hp2 : ∀ x, prev2 = some x → m.topo.E x) :
    ∃ m' e1 e2, m.insertEdgeNoUpdateNoCheck next1 prev1 origin1 face1 ep1 next2 prev2 origin2 face2 ep2
        = some (m', e1, e2) ∧ m'.StOK ∧ e1 ≠ e2 ∧ ¬ m.topo.E e1 ∧ ¬ m.topo.E e2 ∧ m'.vs = m.vs ∧ m'.fs = m.fs ∧
      (∀ x, m'.epay x = if x = e1 then some ep1 else if x = e2 then some ep2 else m.epay x) ∧
      m'.topo = { m.topo with
        E := fun x => x = e1 ∨ x = e2 ∨ m.topo.E x
        nxt := fun x => if x = e1 then next1.getD e2 else if x = e2 then next2.getD e1 else m.topo.nxt x
        prv := fun x => if x = e1 then prev1.getD e2 else if x = e2 then prev2.getD e1 else m.topo.prv x
        twn := fun x => if x = e1 then e2 else if x = e2 then e1 else m.topo.twn x
        org := fun x => if x = e1 then origin1 else if x = e2 then origin2 else m.topo.org x
        fac := fun x => if x = e1 then face1 else if x = e2 then face2 else m.topo.fac x } := by
  obtain ⟨hs, e1, e2, i1, i2, i3, i4, i5, i6⟩ := insertEdgeNoUpdateNoCheck_spec (m := m) g.hs
    next1 prev1 origin1 face1 ep1 next2 prev2 origin2 face2 ep2 hn1 hp1 hn2 hp2
  refine ⟨_, e1, e2, i1, ⟨i2, g.vs, g.fs⟩, i3, not_E_of i4, not_E_of i5, rfl, rfl, ?_, ?_⟩
  · intro x; simp only [epay, i6]; split
    · rfl
    · split <;> rfl
  · apply Topo.ext' <;> intro x <;> simp only [topo, i6]
    all_goals
      by_cases x1 : x = e1
      · simp [x1]
      · by_cases x2 : x = e2 <;> simp [x1, x2, i3.symm]

end Verif.Mesh
