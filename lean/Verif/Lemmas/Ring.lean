import Verif.Props.CloseVertices
import Mathlib.Data.Nat.ModEq
import Verif.Lemmas.PathState
import Verif.Spec.Fonts
/- Closing a path by `close_face_vertices`. -/
namespace Verif
namespace Mesh
variable {VP EP FP : Type}
open MeshProps

/-- going around the outer side of the cycle, from any place -/
theorem IsCycle.orbitAt {m m' : Mesh VP EP FP} {ef eb : Nat → EP} {p : Nat → Option VP} {n : Nat} {v f b : Nat → Nat} {fb : Option Nat}
    (h : IsCycle m m' ef eb p n v f b fb) {j : Nat} (hj : j < n) : IsOrbit m'.topo.nxt (f j) ((List.range n).map fun i => f ((j + i) % n)) := by
  have hn : 0 < n := by omega
  have it : ∀ i, itr m'.topo.nxt i (f j) = f ((j + i) % n) := by
    intro i
    induction i with
    | zero => simp [itr, Nat.mod_eq_of_lt hj]
    | succ i ih =>
      rw [itr_succ, ih, nxt_of (h.newF _ (Nat.mod_lt _ hn))]
      show f _ = f _
      rw [Nat.mod_add_mod, Nat.add_assoc]
  refine ⟨?_, by simpa using hn, ?_, ?_⟩
  · simp only [List.length_map, List.length_range]
    exact List.map_congr_left fun i _ => (it i).symm
  · simp only [List.length_map, List.length_range]
    rw [it n, Nat.add_mod_right, Nat.mod_eq_of_lt hj]
  · rw [List.nodup_iff_pairwise_ne, List.pairwise_map]
    refine List.Pairwise.imp_of_mem ?_ (List.nodup_iff_pairwise_ne.mp List.nodup_range)
    intro i k hi hk hik hc
    rw [List.mem_range] at hi hk
    have := h.injF _ (Nat.mod_lt _ hn) _ (Nat.mod_lt _ hn) hc
    have := Nat.ModEq.add_left_cancel' j (show j + i ≡ j + k [MOD n] from this)
    rw [Nat.ModEq, Nat.mod_eq_of_lt hi, Nat.mod_eq_of_lt hk] at this
    exact hik this

/-- the first edge of a path with `add_isolated_edge` -/
theorem isPath_isolated {m : Mesh VP EP FP} (g : m.Good) (dbg : Bool) (de : EP) (q0 q1 : VP) {p : Nat → Option VP} (h0 : p 0 = some q0) (h1 : p 1 = some q1) :
    ∃ m' v f b, m.addIsolatedEdge q0 de q1 de = some (m', v 0, v 1) ∧ m'.sharedEdge dbg (v 0) (v 1) = some (some (f 0)) ∧ m'.Good ∧
      IsPath m m' (fun _ => de) (fun _ => de) p 1 v f b := by
  obtain ⟨m', v, f, b, a1, a2, a3⟩ := insertPath_spec g dbg de [q0, q1] (by simp)
  obtain ⟨m1, v0, v1, e0, e1, c1, -, c2, c3, c4, -, -, c7, c8, c9, c10, c11, c12, c13, -⟩ := c04_add_isolated_edge g q0 de q1 de
  simp only [insertPath, c1, Option.bind_eq_bind, Option.bind_some] at a1
  cases hs : m1.sharedEdge dbg v0 v1 with
  | none => simp [hs] at a1
  | some r =>
    cases r with
    | none => simp [hs] at a1
    | some e =>
      simp only [hs, Option.bind_some] at a1
      cases ht : m1.twinId e with
      | none => simp [ht] at a1
      | some t =>
        simp only [ht, Option.bind_some, pathLoop, Option.some.injEq, Prod.mk.injEq] at a1
        obtain ⟨rfl, hb, hf⟩ := a1
        have hf : e = f 0 := hf
        subst hf
        have a3' : IsPath m m1 (fun _ => de) (fun _ => de) (fun i => [q0, q1][i]?) 1 v f b := a3
        have hF := a3'.newF 0 (by omega)
        have hB := a3'.newB 0 (by omega)
        obtain ⟨r, k1, k2, -⟩ := c17_shared_edge (m := m1) a2 (v := v0) ⟨_, c8⟩ v1
        rw [k1 dbg] at hs
        injection hs with hs
        obtain ⟨-, k3, k4⟩ := k2 _ hs
        rw [org_of hF] at k3
        rw [twn_of hF] at k4
        simp only at k3 k4
        rw [org_of hB] at k4
        have k4 : v 1 = v1 := k4
        refine ⟨m1, v, f, b, by rw [c1, ← k3, ← k4], by rw [k4, k3, k1 dbg, hs], a2, { a3' with newV := ?_ }⟩
        intro i hi
        obtain ⟨q, q1', q2⟩ := a3'.newV i hi
        refine ⟨q, ?_, q2⟩
        have : i = 0 ∨ i = 1 := by omega
        rcases this with rfl | rfl
        · rw [h0, ← q1']; rfl
        · rw [h1, ← q1']; rfl

/-- a further edge of a path with `add_vertex_via_vertex` -/
theorem IsPath.stepVia {m m1 : Mesh VP EP FP} {ef eb : Nat → EP} {p : Nat → Option VP} {N : Nat} {v f b : Nat → Nat}
    (h : IsPath m m1 ef eb p N v f b) (g : m.Good) (g1 : m1.Good) {q : VP} (hq : p (N + 1) = some q) (dbg : Bool) (de : EP) :
    ∃ m2 vn e1 e2, m1.addVertexViaVertex dbg (v N) q de de = some (m2, vn, e1, e2) ∧ m2.Good ∧
      IsPath m m2 (fun i => if i = N then de else ef i) (fun i => if i = N then de else eb i) p (N + 1)
        (fun i => if i = N + 1 then vn else v i) (fun i => if i = N then e1 else f i) (fun i => if i = N then e2 else b i) := by
  have pos := h.pos
  obtain ⟨m2, vn, e1, e2, a1, a2, a3, -⟩ := c06_add_vertex_via_vertex g1 (h.soleOut_last g) dbg q de de
  have hB := h.newB (N - 1) (by omega)
  have e0 : N - 1 + 1 = N := by omega
  rw [e0] at hB
  simp only [if_true] at hB
  rw [prv_of hB] at a3
  exact ⟨m2, vn, e1, e2, a1, a2, h.extend hq a3⟩

theorem _root_.Verif.MeshProps.EdgeInserted.symm {m m' : Mesh VP EP FP} {a b e1 e2 : Nat} {ep1 ep2 : EP} (h : EdgeInserted m m' a b e1 e2 ep1 ep2)
    (hab : a ≠ b) (hn : m.topo.nxt a ≠ m.topo.nxt b) : EdgeInserted m m' b a e2 e1 ep2 ep1 where
  fresh1 := h.fresh2
  fresh2 := h.fresh1
  ne := h.ne.symm
  new1 := h.new2
  new2 := h.new1
  old := fun x y hx => by
    rw [h.old x y hx]
    congr 2
    · by_cases h1 : x = a
      · subst h1; simp [hab]
      · simp [h1]
    · by_cases h1 : x = m.topo.nxt a
      · subst h1; simp [hn]
      · simp [h1]
  gone := fun x h1 h2 => h.gone x h2 h1
  vertices := h.vertices
  faces := h.faces

/-- closing the path and its face with `close_face_vertices` -/
theorem IsPath.closeVertices {m m1 : Mesh VP EP FP} {ef eb : Nat → EP} {p : Nat → Option VP} {N : Nat} {v f b : Nat → Nat}
    (h : IsPath m m1 ef eb p N v f b) (g : m.Good) (g1 : m1.Good) (hN : 2 ≤ N) (dbg : Bool) (de : EP) (fp : FP) :
    ∃ m2 F e1 e2, m1.closeFaceVertices dbg (v (N - 1)) de (v N) de (v 0) fp false = some (m2, F, e1, e2) ∧ m2.Good ∧
      m.Ring m2 (fun i => if i = N then de else ef i) (fun i => if i = N then de else eb i) p (N + 1) v
        (fun i => if i = N then e1 else f i) (fun i => if i = N then e2 else b i) F fp := by
  have w := g1.wf
  have hF := h.newF (N - 1) (by omega)
  have hB := h.newB (N - 1) (by omega)
  have hF0 := h.newF 0 (by omega)
  have hB0 := h.newB 0 (by omega)
  have eN : N - 1 + 1 = N := by omega
  rw [eN] at hF hB
  simp only [if_true] at hF hB hF0 hB0
  have Ea := E_of_some hF
  have Eb := E_of_some hB0
  have hab : f (N - 1) ≠ b 0 := h.disj _ (by omega) _ (by omega)
  have ta : m1.topo.org (m1.topo.twn (f (N - 1))) = v N := by rw [twn_of hF]; exact org_of hB
  have tb : m1.topo.org (m1.topo.twn (b 0)) = v 0 := by rw [twn_of hB0]; exact org_of hF0
  have back : ∀ k, k ≤ N - 1 → Reach m1.topo.nxt (b (N - 1)) (b (N - 1 - k)) := by
    intro k
    induction k with
    | zero => intro _; exact .refl _
    | succ k ih =>
      intro hk
      refine (ih (by omega)).trans (Reach.one' ?_)
      rw [nxt_of (h.newB _ (by omega))]
      show (if N - 1 - k = 0 then f 0 else b (N - 1 - k - 1)) = _
      rw [if_neg (by omega)]
      congr 1
  have hr : Reach m1.topo.nxt (f (N - 1)) (b 0) := by
    have := back (N - 1) (Nat.le_refl _)
    rw [Nat.sub_self] at this
    exact (Reach.one' (nxt_of hF)).trans this
  have hn : ∀ e, m1.topo.E e → m1.topo.org e = m1.topo.org (m1.topo.twn (f (N - 1))) → m1.topo.org (m1.topo.twn e) ≠ m1.topo.org (m1.topo.twn (b 0)) := by
    intro e he ho
    rw [ta] at ho
    rw [tb]
    rcases h.out g (Nat.le_refl N) he ho with ⟨hc, -⟩ | ⟨-, rfl⟩
    · omega
    · rw [twn_of hB]
      show m1.topo.org (f (N - 1)) ≠ _
      rw [org_of hF]
      intro hc
      have := h.injV (N - 1) (by omega) 0 (by omega) hc
      omega
  have hua : ∀ e, m1.topo.E e → m1.topo.org e = m1.topo.org (f (N - 1)) → m1.topo.org (m1.topo.twn e) = m1.topo.org (m1.topo.twn (f (N - 1))) → e = f (N - 1) := by
    intro e he ho ht
    rw [org_of hF] at ho
    rw [ta] at ht
    rcases h.out g (show N - 1 ≤ N by omega) he ho with ⟨-, hc⟩ | ⟨h0, rfl⟩
    · exact hc
    · rw [twn_of (h.newB _ (by omega))] at ht
      have ht : m1.topo.org (f (N - 1 - 1)) = v N := ht
      rw [org_of (h.newF _ (by omega))] at ht
      have := h.injV (N - 1 - 1) (by omega) N (by omega) ht
      omega
  have hsb : ∀ e, m1.topo.E e → m1.topo.org (m1.topo.twn e) = m1.topo.org (m1.topo.twn (b 0)) → m1.topo.fac e = none → e = b 0 := by
    intro e he ht _
    rw [tb] at ht
    rcases h.out g (Nat.zero_le N) (w.twn_live _ he) ht with ⟨-, hc⟩ | ⟨hc, -⟩
    · rw [← w.twn_twn _ he, hc, twn_of hF0]
    · omega
  have hc := corners_of_loop w Ea Eb hr hn
  obtain ⟨m2, m3, F, e1, e2, l, k1, k2, k3, k4, k5, k6, -⟩ := c11_close_face g1 Ea Eb hab (fac_of hF) (fac_of hB0) dbg (fun _ => hc) de de fp false
  obtain ⟨m2', e1', e2', j1, j2, -⟩ := c07_insert_edge g1 Ea Eb hab (fac_of hF) (fac_of hB0) dbg (fun _ => hc) de de
  have : m2' = m2 := by rw [k3] at j1; injection j1 with j1; injection j1 with j1 _; exact j1.symm
  subst this
  have hv := c58_finds g1 Ea Eb (org_of hF) ta (by rw [← ta]; intro e he ho; exact hua e he (by rw [ho, org_of hF])) tb (fac_of hB0)
    ⟨f (N - 1), reach_nxt_symm w Ea hr, org_of hF⟩ (fun e h1 h2 h3 _ => hsb e h1 (by rw [h2, tb]) h3) dbg de de fp false
  have hnn : m1.topo.nxt (f (N - 1)) ≠ m1.topo.nxt (b 0) := fun hc => hab (by rw [← w.prv_nxt _ Ea, hc, w.prv_nxt _ Eb])
  obtain ⟨f', hf'⟩ : ∃ f', f' = fun i => if i = N then e1 else f i := ⟨_, rfl⟩
  obtain ⟨b', hb'⟩ : ∃ b', b' = fun i => if i = N then e2 else b i := ⟨_, rfl⟩
  have C : IsCycle m m2' (fun i => if i = N then de else ef i) (fun i => if i = N then de else eb i) p (N + 1) v f' b' none := by
    rw [hf', hb']; exact h.close hN (k4.symm hab hnn)
  have fN : f' (N - 1) = f (N - 1) := by rw [hf']; exact if_neg (by omega)
  have hl : l = (List.range (N + 1)).map fun i => f' ((N - 1 + i) % (N + 1)) := by
    obtain ⟨l', a1, a2, -⟩ := edgesFace_spec j2.wf (E_of_some (by have := C.newF (N - 1) (by omega); rw [fN] at this; exact this) : m2'.topo.E (f (N - 1)))
    rw [k5] at a1
    injection a1 with a1
    rw [a1]
    have := C.orbitAt (j := N - 1) (by omega)
    rw [fN] at this
    exact a2.unique this
  have hmem : ∀ x, x ∈ l ↔ ∃ i < N + 1, x = f' i := by
    intro x
    rw [hl]
    simp only [List.mem_map, List.mem_range]
    constructor
    · rintro ⟨i, hi, rfl⟩; exact ⟨_, Nat.mod_lt _ (by omega), rfl⟩
    · rintro ⟨i, hi, rfl⟩
      by_cases c : i < N - 1
      · refine ⟨i + 2, by omega, ?_⟩
        rw [show N - 1 + (i + 2) = i + (N + 1) by omega, Nat.add_mod_right, Nat.mod_eq_of_lt hi]
      · refine ⟨i - (N - 1), by omega, ?_⟩
        rw [show N - 1 + (i - (N - 1)) = i by omega, Nat.mod_eq_of_lt hi]
  refine ⟨m3, F, e1, e2, by rw [hv, k1], k2, ?_⟩
  rw [← hf', ← hb']
  refine ⟨C.freshV, C.freshF, C.freshB, C.injV, C.injF, C.injB, C.disj, ?_, ?_, ?_, ?_, ?_, ?_, ?_, ?_⟩
  · intro i hi
    obtain ⟨q, e, a1, a2⟩ := C.newV i hi
    exact ⟨q, e, a1, by rw [k6.vertices, a2]⟩
  · intro i hi
    rw [k6.onLoop _ _ (C.newF i hi) ((hmem _).mpr ⟨i, hi, rfl⟩)]
  · intro i hi
    rw [k6.offLoop _ (by rw [hmem]; rintro ⟨j, hj, hc⟩; exact C.disj j hj i hi hc.symm)]
    exact C.newB i hi
  · intro x hx
    rw [k6.offLoop _ (by rw [hmem]; rintro ⟨j, hj, hc⟩; exact (hx j hj).1 hc)]
    exact C.edges x hx
  · intro x hx
    rw [k6.vertices]; exact C.vertices x hx
  · rw [← h.faces, ← k4.faces]; exact k6.fresh
  · refine ⟨N - 1, by omega, ?_⟩
    rw [k6.newF, fN]
  · intro x hx
    rw [k6.faces x hx, k4.faces, h.faces]

/-- the payload of a half-edge without a face -/
theorem Ring.payB {m m1 : Mesh VP EP FP} {ef eb : Nat → EP} {p : Nat → Option VP} {n : Nat} {v f b : Nat → Nat} {F : Nat} {fp : FP}
    (h : m.Ring m1 ef eb p n v f b F fp) (g1 : m1.Good) {j : Nat} (hj : j < n) (k : EP → EP) :
    ∃ m2, m1.updE (b j) (fun h => { h with payload := k h.payload }) = some m2 ∧ m2.Good ∧
      m.Ring m2 ef (fun i => if i = j then k (eb j) else eb i) p n v f b F fp := by
  obtain ⟨m2, a1, a2, a3, a4, a5⟩ := updPay_spec g1 (h.newB j hj) k
  refine ⟨m2, a1, a2, h.freshV, h.freshF, h.freshB, h.injV, h.injF, h.injB, h.disj, ?_, ?_, ?_, ?_, ?_, h.freshFace, ?_, ?_⟩
  · intro i hi; rw [a4]; exact h.newV i hi
  · intro i hi
    rw [a3, if_neg (fun hc => h.disj i hi j hj hc)]; exact h.newF i hi
  · intro i hi
    rw [a3]
    by_cases c : i = j
    · subst c; simp
    · rw [if_neg (fun hc => c (h.injB i hi j hj hc)), h.newB i hi, if_neg c]
  · intro x hx
    rw [a3, if_neg (hx j hj).2]; exact h.edges x hx
  · intro x hx; rw [a4]; exact h.vertices x hx
  · obtain ⟨i, hi, h'⟩ := h.face
    exact ⟨i, hi, by rw [a5, h']⟩
  · intro x hx; rw [a5]; exact h.faces x hx

theorem Ring.congr {m m1 : Mesh VP EP FP} {ef eb ef' eb' : Nat → EP} {p : Nat → Option VP} {n : Nat} {v f b : Nat → Nat} {F : Nat} {fp : FP}
    (h : m.Ring m1 ef eb p n v f b F fp) (h1 : ∀ i < n, ef i = ef' i) (h2 : ∀ i < n, eb i = eb' i) : m.Ring m1 ef' eb' p n v f b F fp :=
  { h with
    newF := fun i hi => by rw [← h1 i hi]; exact h.newF i hi
    newB := fun i hi => by rw [← h2 i hi]; exact h.newB i hi }

end Mesh
end Verif
