import Verif.Lemmas.MeshOps3
/- An executable sufficient test for consistency, used to present concrete example meshes. -/
namespace Verif.Mesh
variable {VP EP FP : Type}

def liveE (m : Mesh VP EP FP) : List Nat := (List.range m.hs.data.length).filter m.hs.has
def liveV (m : Mesh VP EP FP) : List Nat := (List.range m.vs.data.length).filter m.vs.has
def liveF (m : Mesh VP EP FP) : List Nat := (List.range m.fs.data.length).filter m.fs.has

def storeB {α : Type} (s : Store α) : Bool :=
  decide s.deleted.Nodup && (List.range s.data.length).all (fun i => (s.data[i]?).isSome && ((s.data[i]?).join.isNone == s.deleted.contains i))
    && s.deleted.all (fun i => decide (i < s.data.length))

def wfB (m : Mesh VP EP FP) : Bool :=
  let t := m.topo
  let n := m.hs.data.length
  m.liveE.all (fun e =>
    m.hs.has (t.twn e) && t.twn e != e && t.twn (t.twn e) == e &&
    m.hs.has (t.nxt e) && m.hs.has (t.prv e) && t.prv (t.nxt e) == e && t.nxt (t.prv e) == e && t.nxt e != e &&
    t.org (t.nxt e) == t.org (t.twn e) && m.vs.has (t.org e) &&
    (match t.fac e with | none => true | some f => m.fs.has f) && t.fac (t.nxt e) == t.fac e &&
    m.liveE.all (fun b =>
      (t.fac e == none || t.fac e != t.fac b || ((List.range n).map (fun i => itr t.nxt i e)).contains b) &&
      (t.org e != t.org b || ((List.range n).map (fun i => itr t.rot i e)).contains b))) &&
  m.liveV.all (fun v => match t.vrep v with
    | some e => m.hs.has e && t.org e == v
    | none => m.liveE.all (fun e => t.org e != v)) &&
  m.liveF.all (fun f => m.hs.has (t.frep f) && t.fac (t.frep f) == some f)

def goodB (m : Mesh VP EP FP) : Bool := storeB m.hs && storeB m.vs && storeB m.fs && wfB m

theorem storeB_ok {α : Type} {s : Store α} (h : storeB s = true) : StoreOK s := by
  simp only [storeB, Bool.and_eq_true, decide_eq_true_eq, List.all_eq_true, List.mem_range] at h
  obtain ⟨⟨h1, h2⟩, h3⟩ := h
  refine ⟨h1, fun i => ⟨fun hi => ?_, fun hi => ?_⟩⟩
  · have hlt : i < s.data.length := (List.getElem?_eq_some_iff.mp hi).1
    have := (h2 i hlt).2
    rw [hi] at this
    simpa using this
  · have hlt := h3 i hi
    have h4 := h2 i hlt
    have hc : s.deleted.contains i = true := by simpa using hi
    rw [hc] at h4
    rcases hx : s.data[i]? with _ | _ | y
    · simp [hx] at h4
    · rfl
    · simp [hx] at h4

theorem mem_liveE {m : Mesh VP EP FP} {e : Nat} : e ∈ m.liveE ↔ m.topo.E e := by
  simp only [liveE, List.mem_filter, List.mem_range, Store.has_iff]
  constructor
  · exact fun h => h.2
  · rintro ⟨x, hx⟩; exact ⟨Store.get?_lt hx, x, hx⟩
theorem mem_liveV {m : Mesh VP EP FP} {e : Nat} : e ∈ m.liveV ↔ m.topo.V e := by
  simp only [liveV, List.mem_filter, List.mem_range, Store.has_iff]
  constructor
  · exact fun h => h.2
  · rintro ⟨x, hx⟩; exact ⟨Store.get?_lt hx, x, hx⟩
theorem mem_liveF {m : Mesh VP EP FP} {e : Nat} : e ∈ m.liveF ↔ m.topo.F e := by
  simp only [liveF, List.mem_filter, List.mem_range, Store.has_iff]
  constructor
  · exact fun h => h.2
  · rintro ⟨x, hx⟩; exact ⟨Store.get?_lt hx, x, hx⟩

theorem reach_of_contains {f : Nat → Nat} {a b n : Nat}
    (h : ((List.range n).map (fun i => itr f i a)).contains b = true) : Reach f a b := by
  simp at h
  obtain ⟨i, -, hi⟩ := h
  exact reach_iff_itr.mpr ⟨i, hi⟩

theorem wfB_ok {m : Mesh VP EP FP} (h : wfB m = true) : m.topo.WF := by
  simp only [wfB, Bool.and_eq_true, List.all_eq_true, mem_liveE, mem_liveV, mem_liveF] at h
  obtain ⟨⟨hE, hV⟩, hF⟩ := h
  simp only [Store.has_iff, bne_iff_ne, beq_iff_eq, Bool.or_eq_true] at hE hF
  have hasE : ∀ e, (∃ a, m.hs.get? e = some a) → m.topo.E e := fun e h => h
  refine ⟨?_, ?_, ?_, ?_, ?_, ?_, ?_, ?_, ?_, ?_, ?_, ?_, ?_, ?_, ?_, ?_, ?_⟩
  · intro e he; exact (hE e he).1.1.1.1.1.1.1.1.1.1.1.1
  · intro e he; exact (hE e he).1.1.1.1.1.1.1.1.1.1.1.2
  · intro e he; exact (hE e he).1.1.1.1.1.1.1.1.1.1.2
  · intro e he; exact (hE e he).1.1.1.1.1.1.1.1.1.2
  · intro e he; exact (hE e he).1.1.1.1.1.1.1.1.2
  · intro e he; exact (hE e he).1.1.1.1.1.1.1.2
  · intro e he; exact (hE e he).1.1.1.1.1.1.2
  · intro e he; exact (hE e he).1.1.1.1.1.2
  · intro e he; exact (hE e he).1.1.1.1.2
  · intro e he; exact (hE e he).1.1.1.2
  · intro e f he hf
    have := (hE e he).1.1.2
    rw [hf] at this
    exact Store.has_iff.mp this
  · intro e he; exact (hE e he).1.2
  · intro v e hv hr
    have := hV v hv
    rw [hr] at this
    simp [Store.has_iff] at this
    exact this
  · intro v e hv hr he
    have := hV v hv
    rw [hr] at this
    simp only [List.all_eq_true, mem_liveE, bne_iff_ne] at this
    exact this e he
  · intro f hf; exact hF f hf
  · intro a b f ha hb hfa hfb
    have := ((hE a ha).2 b hb).1
    rw [hfa, hfb] at this
    rcases this with (h | h) | h
    · simp at h
    · simp at h
    · exact reach_of_contains h
  · intro a b ha hb hab
    have := ((hE a ha).2 b hb).2
    rcases this with h | h
    · exact absurd hab h
    · exact reach_of_contains h

theorem goodB_ok {m : Mesh VP EP FP} (h : goodB m = true) : m.Good := by
  simp only [goodB, Bool.and_eq_true] at h
  exact ⟨storeB_ok h.1.1.1, storeB_ok h.1.1.2, storeB_ok h.1.2, wfB_ok h.2⟩

theorem good_empty : (empty : Mesh VP EP FP).Good := goodB_ok rfl

instance {m : Mesh VP EP FP} {e : Nat} : Decidable (m.topo.E e) := decidable_of_iff _ (Store.has_iff (s := m.hs) (i := e))
instance {m : Mesh VP EP FP} {e : Nat} : Decidable (m.topo.V e) := decidable_of_iff _ (Store.has_iff (s := m.vs) (i := e))
instance {m : Mesh VP EP FP} {e : Nat} : Decidable (m.topo.F e) := decidable_of_iff _ (Store.has_iff (s := m.fs) (i := e))

end Verif.Mesh
