import Verif.Spec.Winged
import Verif.Props.Check
/-
C111: what is printed of a mesh for debugging.
-/
namespace Verif.MeshProps
open Mesh
variable {VP EP FP : Type} {m m' : Mesh VP EP FP} {order : List Winged → List Winged}

theorem mem_insertWinged {w x : Winged} (l : List Winged) : x ∈ insertWinged w l ↔ x = w ∨ x ∈ l := by
  induction l with
  | nil => simp [insertWinged]
  | cons v l ih =>
    rw [insertWinged]
    split
    · simp
    · simp only [List.mem_cons, ih]; exact or_left_comm

theorem insertWinged_sorted {w : Winged} {l : List Winged} (h : (l.map Winged.id).Pairwise (· < ·)) (hw : ∀ x ∈ l, x.id ≠ w.id) : ((insertWinged w l).map Winged.id).Pairwise (· < ·) := by
  induction l with
  | nil => simp [insertWinged]
  | cons v l ih =>
    rw [List.map_cons, List.pairwise_cons] at h
    have hv := hw v (by simp)
    rw [insertWinged]
    split
    · rename_i hle
      simp only [List.map_cons, List.pairwise_cons, List.mem_cons, forall_eq_or_imp]
      exact ⟨⟨by omega, fun a ha => by have := h.1 a ha; omega⟩, h.1, h.2⟩
    · rename_i hle
      rw [List.map_cons, List.pairwise_cons]
      refine ⟨?_, ih h.2 fun x hx => hw x (by simp [hx])⟩
      intro a ha
      obtain ⟨x, hx, rfl⟩ := List.mem_map.mp ha
      rcases (mem_insertWinged l).mp hx with rfl | hx
      · omega
      · exact h.1 _ (List.mem_map_of_mem hx)

theorem mem_sortWinged {x : Winged} (l : List Winged) : x ∈ l.foldr insertWinged [] ↔ x ∈ l := by
  induction l with
  | nil => simp
  | cons v l ih => rw [List.foldr_cons, mem_insertWinged, ih, List.mem_cons]

theorem sortWinged_sorted {l : List Winged} (h : (l.map Winged.id).Nodup) : ((l.foldr insertWinged []).map Winged.id).Pairwise (· < ·) := by
  induction l with
  | nil => simp
  | cons v l ih =>
    rw [List.map_cons, List.nodup_cons] at h
    refine insertWinged_sorted (ih h.2) fun x hx he => h.1 ?_
    rw [← he]
    exact List.mem_map_of_mem ((mem_sortWinged l).mp hx)

theorem sorted_ext {l l' : List Nat} (h : l.Pairwise (· < ·)) (h' : l'.Pairwise (· < ·)) (hm : ∀ x, x ∈ l ↔ x ∈ l') : l = l' := by
  induction l generalizing l' with
  | nil => cases l' with
    | nil => rfl
    | cons a l' => exact absurd ((hm a).mpr (by simp)) (by simp)
  | cons a l ih =>
    cases l' with
    | nil => exact absurd ((hm a).mp (by simp)) (by simp)
    | cons b l' =>
      rw [List.pairwise_cons] at h h'
      have hab : a = b := by
        rcases List.mem_cons.mp ((hm a).mp (by simp)) with e | e
        · exact e
        · rcases List.mem_cons.mp ((hm b).mpr (by simp)) with e' | e'
          · exact e'.symm
          · have := h.1 _ e'; have := h'.1 _ e; omega
      subst hab
      congr 1
      refine ih h.2 h'.2 fun x => ?_
      have := hm x
      simp only [List.mem_cons] at this
      constructor
      · intro hx
        exact (this.mp (.inr hx)).resolve_left (by have := h.1 _ hx; omega)
      · intro hx
        exact (this.mpr (.inr hx)).resolve_left (by have := h'.1 _ hx; omega)

/-- the entry of a half-edge -/
def entry (t : Topo) (e : Nat) : Winged := ⟨e, t.twn e, t.org e, t.org (t.twn e), t.prv e, t.fac e, t.nxt e, t.prv (t.twn e), t.fac (t.twn e), t.nxt (t.twn e)⟩

theorem entry_describes {t : Topo} {e : Nat} (h : t.E e) : (entry t e).Describes t := ⟨h, rfl, rfl, rfl, rfl, rfl, rfl, rfl, rfl, rfl⟩

theorem pairStep_eq (w : m.topo.WF) {e : Nat} (he : m.topo.E e) (l : List Winged) :
    m.pairStep l e = some (if l.any fun x => x.id == m.topo.twn e then l else l ++ [entry m.topo e]) := by
  have ht := w.twn_live e he
  obtain ⟨h, hh⟩ := he
  obtain ⟨t, ht⟩ := ht
  have e1 : m.edge e = some h := hh
  have e2 : m.topo.twn e = h.twin := by simp [topo, hh]
  rw [e2] at ht
  have e3 : m.edge h.twin = some t := ht
  simp only [pairStep, e1, e3, Option.bind_eq_bind, Option.bind_some, entry, topo, hh, ht]
  split <;> rfl

theorem pair_fold (w : m.topo.WF) : ∀ (l : List Nat) (acc : List Nat), (acc ++ l).Pairwise (· < ·) → (∀ e, e ∈ acc ++ l ↔ m.topo.E e) →
    l.foldlM m.pairStep ((acc.filter fun e => e < m.topo.twn e).map (entry m.topo)) = some (((acc ++ l).filter fun e => e < m.topo.twn e).map (entry m.topo)) := by
  intro l
  induction l with
  | nil => intro acc _ _; simp
  | cons e l ih =>
    intro acc hs hm
    have he := (hm e).mp (by simp)
    rw [List.foldlM_cons, pairStep_eq w he, Option.bind_eq_bind, Option.bind_some]
    have h1 := ih (acc ++ [e]) (by simpa using hs) (by simpa using hm)
    rw [List.append_assoc, List.singleton_append] at h1
    rw [← h1]
    congr 1
    rw [List.filter_append, List.map_append]
    have ht := w.twn_live e he
    have hne := w.twn_ne e he
    have htt := w.twn_twn e he
    rw [List.pairwise_append] at hs
    have key : (((acc.filter fun e => e < m.topo.twn e).map (entry m.topo)).any fun x => x.id == m.topo.twn e) = decide (m.topo.twn e < e) := by
      rw [Bool.eq_iff_iff]
      simp only [List.any_map, List.any_eq_true, List.mem_filter, decide_eq_true_eq, Function.comp, entry, beq_iff_eq]
      constructor
      · rintro ⟨x, ⟨hx, -⟩, rfl⟩
        exact hs.2.2 _ hx e (by simp)
      · intro hlt
        refine ⟨_, ⟨?_, by rw [htt]; exact hlt⟩, rfl⟩
        rcases List.mem_append.mp ((hm _).mpr ht) with h | h
        · exact h
        · rcases List.mem_cons.mp h with h | h
          · exact absurd h hne
          · have := (List.pairwise_cons.mp hs.2.1).1 _ h; omega
    rw [key]
    by_cases hlt : m.topo.twn e < e
    · rw [if_pos (by simpa using hlt)]
      simp [show ¬ e < m.topo.twn e by omega]
    · rw [if_neg (by simpa using hlt)]
      simp [show e < m.topo.twn e by omega]

theorem lists_count (g : m.Good) {l : List Winged} (h : ListsEdges m.topo l) : 2 * l.length = m.hs.len := by
  have w := g.wf
  have hid : (l.map Winged.id).Nodup := h.sorted.imp fun hh => Nat.ne_of_lt hh
  have htw : l.map Winged.twin = (l.map Winged.id).map m.topo.twn := by
    rw [List.map_map]
    exact List.map_congr_left fun x hx => (h.describes x hx).twin
  have hlive : ∀ e ∈ l.map Winged.id, m.topo.E e := by
    intro e he
    obtain ⟨x, hx, rfl⟩ := List.mem_map.mp he
    exact (h.describes x hx).live
  have htn : (l.map Winged.twin).Nodup := by
    rw [htw, List.nodup_iff_pairwise_ne, List.pairwise_map]
    refine List.Pairwise.imp_of_mem ?_ (List.nodup_iff_pairwise_ne.mp hid)
    intro a b ha hb hab hc
    exact hab (by rw [← w.twn_twn _ (hlive a ha), hc, w.twn_twn _ (hlive b hb)])
  have hnd : (l.map Winged.id ++ l.map Winged.twin).Nodup := by
    rw [List.nodup_append]
    refine ⟨hid, htn, fun a ha b hb hab => h.once a ⟨ha, hab ▸ hb⟩⟩
  have h1 := nodup_length_le (l' := m.edgeIds) hnd (by
    intro x hx
    rw [mem_edgeIds]
    rcases List.mem_append.mp hx with hx | hx
    · exact hlive x hx
    · rw [htw] at hx
      obtain ⟨y, hy, rfl⟩ := List.mem_map.mp hx
      exact w.twn_live _ (hlive y hy))
  have h2 := nodup_length_le (l' := l.map Winged.id ++ l.map Winged.twin) (nodup_edgeIds m) (by
    intro x hx
    exact List.mem_append.mpr (h.all x (mem_edgeIds.mp hx)))
  rw [len_eq_edgeIds g]
  simp only [List.length_append, List.length_map] at h1 h2
  omega

/-- C111: `pair_edges` lists every edge of a consistent mesh exactly once, in ascending order, with the right links, in whatever order the hash map yields its entries. -/
theorem c111_pairs (g : m.Good) (ho : ∀ l, (order l).Perm l) : ∃ l, m.pairEdges order = some l ∧ ListsEdges m.topo l ∧ 2 * l.length = m.hs.len := by
  have w := g.wf
  have hf := pair_fold w m.edgeIds [] (by rw [List.nil_append]; exact Store.iterFrom_sorted 0 m.hs.data) (fun e => by simpa using mem_edgeIds)
  simp only [List.filter_nil, List.map_nil, List.nil_append] at hf
  generalize hL : ((m.edgeIds.filter fun e => decide (e < m.topo.twn e)).map (entry m.topo)) = L at hf
  have hmem : ∀ x, x ∈ (order L).foldr insertWinged [] ↔ ∃ e, m.topo.E e ∧ e < m.topo.twn e ∧ entry m.topo e = x := by
    intro x
    rw [mem_sortWinged, (ho L).mem_iff, ← hL]
    simp [mem_edgeIds, and_assoc]
  have hids : L.map Winged.id = m.edgeIds.filter fun e => decide (e < m.topo.twn e) := by
    rw [← hL, List.map_map]
    exact List.map_id' _
  have hnd : ((order L).map Winged.id).Nodup := by
    rw [((ho L).map _).nodup_iff, hids]
    exact (nodup_edgeIds m).filter _
  have H : ListsEdges m.topo ((order L).foldr insertWinged []) := by
    refine ⟨?_, sortWinged_sorted hnd, ?_, ?_⟩
    · intro x hx
      obtain ⟨e, he, -, rfl⟩ := (hmem x).mp hx
      exact entry_describes he
    · intro e he
      have hne := w.twn_ne e he
      by_cases hlt : e < m.topo.twn e
      · exact .inl (List.mem_map.mpr ⟨_, (hmem _).mpr ⟨e, he, hlt, rfl⟩, rfl⟩)
      · refine .inr (List.mem_map.mpr ⟨_, (hmem _).mpr ⟨m.topo.twn e, w.twn_live e he, ?_, rfl⟩, w.twn_twn e he⟩)
        rw [w.twn_twn e he]; omega
    · rintro e ⟨h1, h2⟩
      obtain ⟨x, hx, rfl⟩ := List.mem_map.mp h1
      obtain ⟨y, hy, hxy⟩ := List.mem_map.mp h2
      obtain ⟨a, ha, ha', rfl⟩ := (hmem x).mp hx
      obtain ⟨b, hb, hb', rfl⟩ := (hmem y).mp hy
      have : m.topo.twn b = a := hxy
      rw [← this, w.twn_twn b hb] at ha'
      omega
  exact ⟨_, by simp only [pairEdges, hf, Option.bind_eq_bind, Option.bind_some], H, lists_count g H⟩

/-- the half-edges of the entries and their links determine those of the mesh -/
theorem lists_same {s t : Topo} {l : List Winged} (ws : s.WF) (hs : ListsEdges s l) (wt : t.WF) (ht : ListsEdges t l) (e : Nat) (he : s.E e) :
    t.E e ∧ s.nxt e = t.nxt e ∧ s.prv e = t.prv e ∧ s.twn e = t.twn e ∧ s.org e = t.org e ∧ s.fac e = t.fac e := by
  rcases hs.all e he with h | h
  · obtain ⟨x, hx, rfl⟩ := List.mem_map.mp h
    have a := hs.describes x hx
    have b := ht.describes x hx
    exact ⟨b.live, a.next.symm.trans b.next, a.prev.symm.trans b.prev, a.twin.symm.trans b.twin, a.origin.symm.trans b.origin, a.face.symm.trans b.face⟩
  · obtain ⟨x, hx, rfl⟩ := List.mem_map.mp h
    have a := hs.describes x hx
    have b := ht.describes x hx
    refine ⟨?_, a.twinNext.symm.trans b.twinNext, a.twinPrev.symm.trans b.twinPrev, ?_, a.target.symm.trans b.target, a.twinFace.symm.trans b.twinFace⟩
    · rw [b.twin]; exact wt.twn_live _ b.live
    · have e1 := ws.twn_twn _ a.live
      have e2 := wt.twn_twn _ b.live
      rw [← a.twin] at e1
      rw [← b.twin] at e2
      rw [e1, e2]

theorem iter_lookup {α β : Type} {s s' : Store α} {f : α → β} (h : (s.iter.map fun p => (p.1, f p.2)) = s'.iter.map fun p => (p.1, f p.2)) (i : Nat) : (s.get? i).map f = (s'.get? i).map f := by
  have key : ∀ (s : Store α) (b : β), (s.get? i).map f = some b ↔ (i, b) ∈ s.iter.map fun p => (p.1, f p.2) := by
    intro s b
    simp only [Option.map_eq_some_iff, List.mem_map, Prod.mk.injEq, Prod.exists]
    constructor
    · rintro ⟨a, h1, h2⟩
      exact ⟨i, a, Store.mem_iter.mpr h1, rfl, h2⟩
    · rintro ⟨j, a, h1, rfl, h2⟩
      exact ⟨a, Store.mem_iter.mp h1, h2⟩
  refine Option.ext fun b => ?_
  rw [key s b, key s' b, h]

/-- C111: a consistent mesh is printed without a panic and without an error; the printed edges are the edges of the mesh. -/
theorem c111_printed (g : m.Good) (hc : m.check = some true) (ho : ∀ l, (order l).Perm l) : ∃ p, m.debugFmt order = some p ∧ p.error = false ∧ ListsEdges m.topo p.edges ∧
    (∀ v e vp, (v, e, vp) ∈ p.vertices ↔ m.vs.get? v = some ⟨e, vp⟩) ∧ (∀ f e, (f, e) ∈ p.faces ↔ m.topo.F f ∧ m.topo.frep f = e) := by
  obtain ⟨l, h1, h2, -⟩ := c111_pairs g ho
  refine ⟨⟨_, _, _, _⟩, by simp only [debugFmt, h1, hc, Option.bind_eq_bind, Option.bind_some]; rfl, rfl, h2, ?_, ?_⟩
  · intro v e vp
    simp only [List.mem_map, Prod.mk.injEq, Prod.exists]
    constructor
    · rintro ⟨j, ⟨e', vp'⟩, ha, rfl, rfl, rfl⟩
      exact Store.mem_iter.mp ha
    · intro h
      exact ⟨v, ⟨e, vp⟩, Store.mem_iter.mpr h, rfl, rfl, rfl⟩
  · intro f e
    simp only [List.mem_map, Prod.mk.injEq, Prod.exists]
    constructor
    · rintro ⟨j, x, ha, rfl, rfl⟩
      have := Store.mem_iter.mp ha
      exact ⟨⟨x, this⟩, by simp [topo, this]⟩
    · rintro ⟨⟨x, hx⟩, rfl⟩
      exact ⟨f, x, Store.mem_iter.mpr hx, rfl, by simp [topo, hx]⟩

/-- C111: consistent meshes of which the same is printed have the same connectivity and the same vertex payloads. -/
theorem c111_determines {order' : List Winged → List Winged} (g : m.Good) (g' : m'.Good) (ho : ∀ l, (order l).Perm l) (ho' : ∀ l, (order' l).Perm l) {p : Printed VP} (h : m.debugFmt order = some p) (h' : m'.debugFmt order' = some p) :
    SameTopo m.topo m'.topo ∧ ∀ v, m.vpay v = m'.vpay v := by
  obtain ⟨l, h1, h2, -⟩ := c111_pairs g ho
  obtain ⟨l', h1', h2', -⟩ := c111_pairs g' ho'
  simp only [debugFmt, h1, Option.bind_eq_bind, Option.bind_some, Option.bind_eq_some_iff, Option.some.injEq] at h
  simp only [debugFmt, h1', Option.bind_eq_bind, Option.bind_some, Option.bind_eq_some_iff, Option.some.injEq] at h'
  obtain ⟨c, -, rfl⟩ := h
  obtain ⟨c', -, e⟩ := h'
  simp only [Printed.mk.injEq] at e
  obtain ⟨ev, rfl, ef, -⟩ := e
  have kv := iter_lookup (f := fun x : VX VP => (x.edge, x.payload)) ev
  have kf := iter_lookup (f := fun x : FC FP => x.edge) ef
  have a := lists_same g.wf h2 g'.wf h2'
  have b := lists_same g'.wf h2' g.wf h2
  refine ⟨⟨fun e => ⟨fun h => (a e h).1, fun h => (b e h).1⟩, ?_, ?_, fun e h => (a e h).2, ?_, ?_⟩, ?_⟩
  · intro v
    have := kv v
    simp only [topo]
    cases h3 : m.vs.get? v <;> cases h4 : m'.vs.get? v <;> simp_all
  · intro f
    have := kf f
    simp only [topo]
    cases h3 : m.fs.get? f <;> cases h4 : m'.fs.get? f <;> simp_all
  · intro v _
    have := kv v
    simp only [topo]
    cases h3 : m.vs.get? v <;> cases h4 : m'.vs.get? v <;> simp_all
  · intro f _
    have := kf f
    simp only [topo]
    cases h3 : m.fs.get? f <;> cases h4 : m'.fs.get? f <;> simp_all
  · intro v
    have := kv v
    simp only [vpay]
    cases h3 : m.vs.get? v <;> cases h4 : m'.vs.get? v <;> simp_all

theorem fold_none : ∀ (l : List Nat) (acc : List Winged), (∀ e ∈ l, m.topo.E e) → (∃ e ∈ l, ¬m.topo.E (m.topo.twn e)) → l.foldlM m.pairStep acc = none := by
  intro l
  induction l with
  | nil => rintro _ _ ⟨_, h, -⟩; cases h
  | cons x l ih =>
    intro acc hl hb
    rw [List.foldlM_cons, Option.bind_eq_bind]
    by_cases hx : m.topo.E (m.topo.twn x)
    · cases hs : m.pairStep acc x with
      | none => rfl
      | some r =>
        rw [Option.bind_some]
        refine ih r (fun e he => hl e (by simp [he])) ?_
        obtain ⟨e, he, hne⟩ := hb
        rcases List.mem_cons.mp he with rfl | he
        · exact absurd hx hne
        · exact ⟨e, he, hne⟩
    · obtain ⟨h, hh⟩ := hl x (by simp)
      have e1 : m.edge x = some h := hh
      have e2 : m.topo.twn x = h.twin := by simp [topo, hh]
      rw [e2] at hx
      have e3 : m.edge h.twin = none := edge_none.mpr hx
      simp [pairStep, e1, e3]

/-- C111 fails for broken meshes, for which the output shows an error: if the twin of a half-edge is deleted, printing the mesh panics. -/
theorem c111_dangling_panics (order : List Winged → List Winged) (hd : ∃ e, m.topo.E e ∧ ¬m.topo.E (m.topo.twn e)) : m.debugFmt order = none := by
  have := fold_none m.edgeIds [] (fun e he => mem_edgeIds.mp he) (by obtain ⟨e, h1, h2⟩ := hd; exact ⟨e, mem_edgeIds.mpr h1, h2⟩)
  simp [debugFmt, pairEdges, this]

/-! non-vacuity: the triangle of `Props/Check.lean`, whatever the order of the hash map; a mesh with a deleted half-edge -/

example : ∃ m, triangle = some m ∧ m.debugFmt List.reverse = some ⟨[(0, some 0, 10), (1, some 1, 11), (2, some 3, 12)],
    [⟨0, 1, 0, 1, 4, some 0, 2, 3, none, 5⟩, ⟨2, 3, 1, 2, 0, some 0, 4, 5, none, 1⟩, ⟨4, 5, 2, 0, 2, some 0, 0, 1, none, 3⟩], [(0, 2)], false⟩ :=
  ⟨triangle.get (by decide +kernel), by decide +kernel, by decide +kernel⟩

def cutMesh : Mesh Nat Nat Nat := { triangle.get (by decide +kernel) with hs := ⟨(triangle.get (by decide +kernel)).hs.data.set 1 none, [1]⟩ }

example : cutMesh.topo.E 0 ∧ ¬cutMesh.topo.E (cutMesh.topo.twn 0) := by
  constructor
  · exact mem_edgeIds.mp (by decide +kernel)
  · exact fun h => absurd (mem_edgeIds.mpr h) (by decide +kernel)

end Verif.MeshProps
