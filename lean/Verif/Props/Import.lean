import Verif.Model.Import
import Verif.Spec.Builder
import Verif.Props.Path
/-
C25: importing a mesh.
-/
namespace Verif.Topo

/-- `t'` is `t` with ids renamed, except for the choice of representatives -/
structure Shape (t t' : Topo) (a b c : Nat → Nat) : Prop where
  E : ∀ y, t'.E y ↔ ∃ x, t.E x ∧ a x = y
  V : ∀ y, t'.V y ↔ ∃ x, t.V x ∧ b x = y
  F : ∀ y, t'.F y ↔ ∃ x, t.F x ∧ c x = y
  injE : ∀ x y, t.E x → t.E y → a x = a y → x = y
  injV : ∀ x y, t.V x → t.V y → b x = b y → x = y
  injF : ∀ x y, t.F x → t.F y → c x = c y → x = y
  nxt : ∀ x, t.E x → t'.nxt (a x) = a (t.nxt x)
  prv : ∀ x, t.E x → t'.prv (a x) = a (t.prv x)
  twn : ∀ x, t.E x → t'.twn (a x) = a (t.twn x)
  org : ∀ x, t.E x → t'.org (a x) = b (t.org x)
  fac : ∀ x, t.E x → t'.fac (a x) = (t.fac x).map c

/-- `t'` is `t` with ids renamed -/
structure Iso (t t' : Topo) (a b c : Nat → Nat) : Prop extends Shape t t' a b c where
  vrep : ∀ x, t.V x → t'.vrep (b x) = (t.vrep x).map a
  frep : ∀ x, t.F x → t'.frep (c x) = a (t.frep x)

theorem reach_map {f g a : Nat → Nat} {P : Nat → Prop} (hP : ∀ x, P x → P (f x)) (h : ∀ x, P x → g (a x) = a (f x)) {x y : Nat}
    (hr : Reach f x y) (hx : P x) : Reach g (a x) (a y) := by
  induction hr with
  | refl => exact .refl _
  | head hh ih => exact .head (by rw [h _ hx]; exact ih (hP _ hx))

theorem Iso.wf {t t' : Topo} {a b c : Nat → Nat} (I : Iso t t' a b c) (w : t.WF) : t'.WF := by
  have lE : ∀ x, t.E x → t'.E (a x) := fun x hx => (I.E _).mpr ⟨x, hx, rfl⟩
  have lV : ∀ x, t.V x → t'.V (b x) := fun x hx => (I.V _).mpr ⟨x, hx, rfl⟩
  have lF : ∀ x, t.F x → t'.F (c x) := fun x hx => (I.F _).mpr ⟨x, hx, rfl⟩
  have facinv : ∀ x y f, t.E x → t.E y → (t.fac x).map c = some f → (t.fac y).map c = some f → t.fac x = t.fac y := by
    intro x y f hx hy h1 h2
    cases fx : t.fac x with
    | none => simp [fx] at h1
    | some u =>
      cases fy : t.fac y with
      | none => simp [fy] at h2
      | some v =>
        simp [fx] at h1; simp [fy] at h2
        rw [I.injF u v (w.fac_live _ _ hx fx) (w.fac_live _ _ hy fy) (h1.trans h2.symm)]
  constructor
  · intro y hy; obtain ⟨x, hx, rfl⟩ := (I.E y).mp hy
    rw [I.twn x hx]; exact lE _ (w.twn_live _ hx)
  · intro y hy; obtain ⟨x, hx, rfl⟩ := (I.E y).mp hy
    rw [I.twn x hx]; exact fun hc => w.twn_ne _ hx (I.injE _ _ (w.twn_live _ hx) hx hc)
  · intro y hy; obtain ⟨x, hx, rfl⟩ := (I.E y).mp hy
    rw [I.twn x hx, I.twn _ (w.twn_live _ hx), w.twn_twn _ hx]
  · intro y hy; obtain ⟨x, hx, rfl⟩ := (I.E y).mp hy
    rw [I.nxt x hx]; exact lE _ (w.nxt_live _ hx)
  · intro y hy; obtain ⟨x, hx, rfl⟩ := (I.E y).mp hy
    rw [I.prv x hx]; exact lE _ (w.prv_live _ hx)
  · intro y hy; obtain ⟨x, hx, rfl⟩ := (I.E y).mp hy
    rw [I.nxt x hx, I.prv _ (w.nxt_live _ hx), w.prv_nxt _ hx]
  · intro y hy; obtain ⟨x, hx, rfl⟩ := (I.E y).mp hy
    rw [I.prv x hx, I.nxt _ (w.prv_live _ hx), w.nxt_prv _ hx]
  · intro y hy; obtain ⟨x, hx, rfl⟩ := (I.E y).mp hy
    rw [I.nxt x hx]; exact fun hc => w.nxt_ne _ hx (I.injE _ _ (w.nxt_live _ hx) hx hc)
  · intro y hy; obtain ⟨x, hx, rfl⟩ := (I.E y).mp hy
    rw [I.nxt x hx, I.org _ (w.nxt_live _ hx), I.twn x hx, I.org _ (w.twn_live _ hx), w.org_nxt _ hx]
  · intro y hy; obtain ⟨x, hx, rfl⟩ := (I.E y).mp hy
    rw [I.org x hx]; exact lV _ (w.org_live _ hx)
  · intro y f hy hf; obtain ⟨x, hx, rfl⟩ := (I.E y).mp hy
    rw [I.fac x hx, Option.map_eq_some_iff] at hf
    obtain ⟨g, h1, rfl⟩ := hf
    exact lF _ (w.fac_live _ _ hx h1)
  · intro y hy; obtain ⟨x, hx, rfl⟩ := (I.E y).mp hy
    rw [I.nxt x hx, I.fac _ (w.nxt_live _ hx), I.fac x hx, w.fac_nxt _ hx]
  · intro u y hu hy; obtain ⟨v, hv, rfl⟩ := (I.V u).mp hu
    rw [I.vrep v hv, Option.map_eq_some_iff] at hy
    obtain ⟨e, h1, rfl⟩ := hy
    obtain ⟨h2, h3⟩ := w.vrep_some _ _ hv h1
    exact ⟨lE _ h2, by rw [I.org _ h2, h3]⟩
  · intro u y hu hn hy; obtain ⟨v, hv, rfl⟩ := (I.V u).mp hu
    obtain ⟨x, hx, rfl⟩ := (I.E y).mp hy
    rw [I.vrep v hv, Option.map_eq_none_iff] at hn
    rw [I.org x hx]
    exact fun hc => w.vrep_none _ _ hv hn hx (I.injV _ _ (w.org_live _ hx) hv hc)
  · intro u hu; obtain ⟨f, hf, rfl⟩ := (I.F u).mp hu
    obtain ⟨h1, h2⟩ := w.frep_ok f hf
    rw [I.frep f hf]
    exact ⟨lE _ h1, by rw [I.fac _ h1, h2]; rfl⟩
  · intro u v f hu hv h1 h2
    obtain ⟨x, hx, rfl⟩ := (I.E u).mp hu
    obtain ⟨y, hy, rfl⟩ := (I.E v).mp hv
    rw [I.fac x hx] at h1
    rw [I.fac y hy] at h2
    have heq := facinv x y f hx hy h1 h2
    cases fx : t.fac x with
    | none => simp [fx] at h1
    | some g => exact reach_map w.nxt_live I.nxt (w.loop x y g hx hy fx (heq ▸ fx)) hx
  · intro u v hu hv ho
    obtain ⟨x, hx, rfl⟩ := (I.E u).mp hu
    obtain ⟨y, hy, rfl⟩ := (I.E v).mp hv
    rw [I.org x hx, I.org y hy] at ho
    refine reach_map (P := t.E) (fun x hx => w.nxt_live _ (w.twn_live _ hx)) (fun x hx => ?_)
      (w.wheel x y hx hy (I.injV _ _ (w.org_live _ hx) (w.org_live _ hy) ho)) hx
    show t'.nxt (t'.twn (a x)) = a (t.nxt (t.twn x))
    rw [I.twn x hx, I.nxt _ (w.twn_live _ hx)]

end Verif.Topo
namespace Verif.Mesh

theorem allocAll_eq {β : Type} (ids : List Nat) : ∀ k, allocAll ids (⟨List.replicate k none, []⟩ : Store β) =
    (⟨List.replicate (k + ids.length) none, []⟩, ids.zipIdx k) := by
  induction ids with
  | nil => intro k; rfl
  | cons i ids ih =>
    intro k
    have h : (⟨List.replicate k none, []⟩ : Store β).allocate = (⟨List.replicate (k + 1) none, []⟩, k) := by
      simp [Store.allocate, List.replicate_succ']
    simp only [allocAll, h, ih (k + 1), List.zipIdx_cons, List.length_cons]
    rw [show k + 1 + ids.length = k + (ids.length + 1) by omega]

theorem lookup_zipIdx {ids : List Nat} : ∀ k i, i ∈ ids → (ids.zipIdx k).lookup i = some (k + ids.idxOf i) := by
  induction ids with
  | nil => intro k i h; simp at h
  | cons j ids ih =>
    intro k i h
    rw [List.zipIdx_cons, List.lookup_cons, List.idxOf_cons]
    by_cases hc : i = j
    · subst hc; simp
    · have hm : i ∈ ids := by simpa [hc] using h
      have h1 : (i == j) = false := by simp [hc]
      have h2 : (j == i) = false := by simp [Ne.symm hc]
      simp only [h1, h2, ih (k + 1) i hm, cond_false]
      rw [show k + 1 + ids.idxOf i = k + (ids.idxOf i + 1) by omega]

theorem fillAll_eq {α β : Type} {ids : List (Nat × Nat)} {g : Nat → α → Option β} {G : Nat × α → β} (l : List (Nat × α)) :
    ∀ (pre : List β), (∀ j (h : j < l.length), ids.lookup (l[j].1) = some (pre.length + j)) →
    (∀ p ∈ l, ∀ j, ids.lookup p.1 = some j → g j p.2 = some (G p)) →
    fillAll ids g l ⟨pre.map some ++ List.replicate l.length none, []⟩ = some ⟨(pre ++ l.map G).map some, []⟩ := by
  induction l with
  | nil => intro pre _ _; simp [fillAll]
  | cons q l ih =>
    intro pre h1 h2
    obtain ⟨i, x⟩ := q
    have h0 := h1 0 (by simp)
    simp only [List.getElem_cons_zero, Nat.add_zero] at h0
    have hg := h2 (i, x) (by simp) _ h0
    have hs : (⟨pre.map some ++ List.replicate (l.length + 1) none, []⟩ : Store β).set pre.length (G (i, x)) =
        some ⟨(pre ++ [G (i, x)]).map some ++ List.replicate l.length none, []⟩ := by
      have hget : (pre.map some ++ List.replicate (l.length + 1) (none : Option β))[pre.length]? = some none := by
        rw [List.getElem?_append_right (by simp)]; simp
      simp only [Store.set, hget]
      rw [List.set_append_right _ _ (by simp)]
      simp [List.replicate_succ]
    simp only [fillAll, h0, hg, hs, Option.bind_eq_bind, Option.bind_some, List.length_cons]
    rw [ih (pre ++ [G (i, x)]) ?_ (fun p hp j hj => h2 p (by simp [hp]) j hj)]
    · simp
    · intro j hj
      have := h1 (j + 1) (by simp; omega)
      simp only [List.getElem_cons_succ] at this
      rw [this]; simp; omega

/-- position of an id in the iteration order of a store -/
def pos {α : Type} (s : Store α) (i : Nat) : Nat := (s.iter.map Prod.fst).idxOf i

theorem pos_getElem {α : Type} {s : Store α} {j : Nat} (h : j < s.iter.length) : pos s (s.iter[j].1) = j := by
  have hs := Store.iterFrom_sorted 0 s.data
  have hn : (s.iter.map Prod.fst).Nodup := hs.imp (fun h => Nat.ne_of_lt h)
  have := hn.idxOf_getElem j (by simpa using h)
  simpa [pos] using this

theorem pos_lt {α : Type} {s : Store α} {i : Nat} {x : α} (h : s.get? i = some x) : pos s i < s.iter.length := by
  have : i ∈ s.iter.map Prod.fst := by
    rw [List.mem_map]; exact ⟨(i, x), Store.mem_iter.mpr h, rfl⟩
  simpa [pos] using List.idxOf_lt_length_of_mem this

theorem iter_pos {α : Type} {s : Store α} {i : Nat} {x : α} (h : s.get? i = some x) : s.iter[pos s i]? = some (i, x) := by
  have hm := Store.mem_iter.mpr h
  obtain ⟨j, hj, he⟩ := List.getElem_of_mem hm
  have := pos_getElem hj
  rw [he] at this
  dsimp only at this
  rw [this, List.getElem?_eq_getElem hj, he]

theorem pos_iso {α : Type} (s : Store α) : OrderIso (fun i => ∃ x, s.get? i = some x) s.iter.length (pos s) := by
  have hs : (s.iter.map Prod.fst).Pairwise (· < ·) := Store.iterFrom_sorted 0 s.data
  refine ⟨?_, fun i ⟨x, h⟩ => pos_lt h, ?_⟩
  · rintro i j ⟨x, hx⟩ ⟨y, hy⟩ hij
    refine Classical.byContradiction fun hc => ?_
    have h1 := iter_pos hx
    have h2 := iter_pos hy
    have l1 := pos_lt hx
    have l2 := pos_lt hy
    rcases Nat.lt_or_ge (pos s j) (pos s i) with hlt | hge
    · have := List.pairwise_iff_getElem.mp hs (pos s j) (pos s i) (by simpa using l2) (by simpa using l1) hlt
      simp only [List.getElem_map] at this
      rw [List.getElem?_eq_getElem l1] at h1
      rw [List.getElem?_eq_getElem l2] at h2
      injection h1 with h1; injection h2 with h2
      rw [h1, h2] at this
      dsimp only at this
      omega
    · have he : pos s i = pos s j := by omega
      rw [he, h2] at h1
      injection h1 with h1
      injection h1 with h1
      omega
  · intro j hj
    exact ⟨s.iter[j].1, ⟨s.iter[j].2, Store.mem_iter.mp (List.getElem_mem hj)⟩, pos_getElem hj⟩

theorem lookup_pos {α : Type} {s : Store α} {i : Nat} {x : α} (h : s.get? i = some x) :
    ((s.iter.map Prod.fst).zipIdx 0).lookup i = some (pos s i) := by
  rw [lookup_zipIdx 0 i (by rw [List.mem_map]; exact ⟨(i, x), Store.mem_iter.mpr h, rfl⟩), Nat.zero_add]; rfl

/-- a store without gaps -/
def packed {β : Type} (l : List β) : Store β := ⟨l.map some, []⟩

theorem packed_get {β : Type} (l : List β) (i : Nat) : (packed l).get? i = l[i]? := by
  simp only [packed, Store.get?, List.getElem?_map]
  cases l[i]? <;> rfl

theorem packed_ok {β : Type} (l : List β) : StoreOK (packed l) := by
  rw [storeOK_iff]
  constructor <;> simp [packed]

theorem fill_packed {α β : Type} {s : Store α} {g : Nat → α → Option β} {G : Nat × α → β}
    (h : ∀ i x, s.get? i = some x → g (pos s i) x = some (G (i, x))) :
    fillAll ((s.iter.map Prod.fst).zipIdx 0) g s.iter ⟨List.replicate (0 + (s.iter.map Prod.fst).length) none, []⟩ = some (packed (s.iter.map G)) := by
  have := fillAll_eq (ids := (s.iter.map Prod.fst).zipIdx 0) (g := g) (G := G) s.iter [] ?_ ?_
  · simpa [packed] using this
  · intro j hj
    have := lookup_pos (Store.mem_iter.mp (List.getElem_mem hj))
    have h2 := pos_getElem hj
    simp only [List.get_eq_getElem] at this
    rw [this, h2]; simp
  · rintro ⟨i, x⟩ hp j hj
    have hx := Store.mem_iter.mp hp
    rw [lookup_pos hx] at hj
    injection hj with hj
    rw [← hj]
    exact h i x hx

variable {VP EP FP VP' EP' FP' : Type}

/-- the result of an import -/
def imported (fv : VP → VP') (fe : EP → EP') (ff : FP → FP') (m : Mesh VP EP FP) : Mesh VP' EP' FP' where
  hs := packed (m.hs.iter.map fun p => { next := pos m.hs p.2.next, twin := pos m.hs p.2.twin, prev := pos m.hs p.2.prev
                                         origin := pos m.vs p.2.origin, face := p.2.face.map (pos m.fs), payload := fe p.2.payload })
  vs := packed (m.vs.iter.map fun p => ⟨p.2.edge.map (pos m.hs), fv p.2.payload⟩)
  fs := packed (m.fs.iter.map fun p => ⟨pos m.hs p.2.edge, false, ff p.2.payload⟩)

theorem importMesh_eq {m : Mesh VP EP FP} (g : m.Good) (hv : ∀ x, m.topo.V x → m.topo.vrep x ≠ none)
    (fv : VP → VP') (fe : EP → EP') (ff : FP → FP') : m.importMesh fv fe ff = some (imported fv fe ff m) := by
  have w := g.wf
  have aV : allocAll m.vertexIds (Store.empty : Store (VX VP')) = _ := allocAll_eq m.vertexIds 0
  have aF : allocAll m.faceIds (Store.empty : Store (FC FP')) = _ := allocAll_eq m.faceIds 0
  have aE : allocAll m.edgeIds (Store.empty : Store (HE EP')) = _ := allocAll_eq m.edgeIds 0
  have lk : ∀ e, m.topo.E e → (m.edgeIds.zipIdx 0).lookup e = some (pos m.hs e) := by
    rintro e ⟨x, hx⟩; exact lookup_pos hx
  simp only [importMesh, aV, aF, aE, Option.bind_eq_bind]
  simp only [vertexIds, faceIds] at *
  rw [fill_packed (G := fun p => ⟨p.2.edge.map (pos m.hs), fv p.2.payload⟩) ?_]
  · rw [Option.bind_some]
    rw [fill_packed (G := fun p => ⟨pos m.hs p.2.edge, false, ff p.2.payload⟩) ?_]
    · rw [Option.bind_some]
      simp only [edgeIds]
      rw [fill_packed (G := fun p => { next := pos m.hs p.2.next, twin := pos m.hs p.2.twin, prev := pos m.hs p.2.prev
                                       origin := pos m.vs p.2.origin, face := p.2.face.map (pos m.fs), payload := fe p.2.payload }) ?_]
      · rfl
      · intro i x hx
        have hE : m.topo.E i := ⟨x, hx⟩
        have hx' : m.edge i = some x := hx
        have h1 := lk _ (w.nxt_live _ hE)
        have h2 := lk _ (w.prv_live _ hE)
        have h3 := lk _ (w.twn_live _ hE)
        rw [nxt_of hx'] at h1
        rw [prv_of hx'] at h2
        rw [twn_of hx'] at h3
        have hv := w.org_live _ hE
        rw [org_of hx'] at hv
        obtain ⟨y, hy⟩ := hv
        have h4 := lookup_pos hy
        have hmono := (pos_iso m.hs)
        have inj : ∀ u v, m.topo.E u → m.topo.E v → pos m.hs u = pos m.hs v → u = v := by
          intro u v hu hv hc
          rcases Nat.lt_trichotomy u v with h | h | h
          · have := hmono.mono u v hu hv h; omega
          · exact h
          · have := hmono.mono v u hv hu h; omega
        have n1 : pos m.hs x.next ≠ pos m.hs i := fun hc => w.nxt_ne _ hE (by
          rw [nxt_of hx']; exact inj _ _ (by have := w.nxt_live _ hE; rwa [nxt_of hx'] at this) hE hc)
        have n2 : pos m.hs x.prev ≠ pos m.hs i := fun hc => by
          have hp := w.prv_live _ hE
          rw [prv_of hx'] at hp
          have := inj _ _ hp hE hc
          have h5 := w.nxt_prv _ hE
          rw [prv_of hx', this] at h5
          exact w.nxt_ne _ hE h5
        have h6 : lookupFace ((m.fs.iter.map Prod.fst).zipIdx 0) x.face = some (x.face.map (pos m.fs)) := by
          cases hf : x.face with
          | none => rfl
          | some f =>
            have := w.fac_live _ f hE (by rw [fac_of hx', hf])
            obtain ⟨z, hz⟩ := this
            simp [lookupFace, lookup_pos hz]
        simp only [edgeIds] at h1 h2 h3
        simp only [importEdge, h4, h6, h1, h2, h3, Option.bind_eq_bind, Option.bind_some, n1, n2, or_self, if_false]
    · intro i x hx
      have hF : m.topo.F i := ⟨x, hx⟩
      have h1 := (w.frep_ok _ hF).1
      have h2 : m.topo.frep i = x.edge := by simp [topo, hx]
      rw [h2] at h1
      simp only [importFace, lk _ h1, Option.bind_eq_bind, Option.bind_some]
  · intro i x hx
    have hV : m.topo.V i := ⟨x, hx⟩
    have h2 : m.topo.vrep i = x.edge := by simp [topo, hx]
    cases he : x.edge with
    | none => exact absurd (h2.trans he) (hv i hV)
    | some e =>
      have h1 := (w.vrep_some _ _ hV (h2.trans he)).1
      simp only [importVertex, he, lk _ h1, Option.bind_eq_bind, Option.bind_some, Option.map_some]

theorem iter_len {α : Type} {s : Store α} (h : StoreOK s) : s.iter.length = s.len := by
  have h1 := Store.length_eq (storeOK_iff.mp h)
  simp only [Store.len, h1, List.length_nil]
  omega

theorem ne_none_iff {α : Type} {o : Option α} : o ≠ none ↔ ∃ x, o = some x := by
  cases o <;> simp

theorem imported_renamed (fv : VP → VP') (fe : EP → EP') (ff : FP → FP') (m : Mesh VP EP FP) :
    Renamed fv fe ff m (imported fv fe ff m) (pos m.hs) (pos m.vs) (pos m.fs) := by
  refine ⟨fun x r h => ?_, fun x r h => ?_, fun x r h => ?_⟩
  · show (packed _).get? _ = _
    rw [packed_get, List.getElem?_map, iter_pos h]; rfl
  · show (packed _).get? _ = _
    rw [packed_get, List.getElem?_map, iter_pos h]; rfl
  · show (packed _).get? _ = _
    rw [packed_get, List.getElem?_map, iter_pos h]; rfl

theorem OrderIso.inj {live : Nat → Prop} {n : Nat} {a : Nat → Nat} (h : OrderIso live n a) {x y : Nat} (hx : live x) (hy : live y)
    (e : a x = a y) : x = y := by
  rcases Nat.lt_trichotomy x y with h1 | h1 | h1
  · have := h.mono x y hx hy h1; omega
  · exact h1
  · have := h.mono y x hy hx h1; omega

/-- a renaming onto consecutive ids is an isomorphism -/
theorem Renamed.iso {fv : VP → VP'} {fe : EP → EP'} {ff : FP → FP'} {m : Mesh VP EP FP} {m' : Mesh VP' EP' FP'} {a b c : Nat → Nat}
    (R : Renamed fv fe ff m m' a b c) {ne nv nf : Nat} (oE : OrderIso m.topo.E ne a) (oV : OrderIso m.topo.V nv b) (oF : OrderIso m.topo.F nf c)
    (hE : ∀ y, m'.topo.E y → y < ne) (hV : ∀ y, m'.topo.V y → y < nv) (hF : ∀ y, m'.topo.F y → y < nf) :
    Topo.Iso m.topo m'.topo a b c where
  E y := ⟨fun h => oE.surj y (hE y h), fun ⟨x, ⟨r, hr⟩, he⟩ => he ▸ ⟨_, R.edge x r hr⟩⟩
  V y := ⟨fun h => oV.surj y (hV y h), fun ⟨x, ⟨r, hr⟩, he⟩ => he ▸ ⟨_, R.vertex x r hr⟩⟩
  F y := ⟨fun h => oF.surj y (hF y h), fun ⟨x, ⟨r, hr⟩, he⟩ => he ▸ ⟨_, R.face x r hr⟩⟩
  injE _ _ hx hy h := oE.inj hx hy h
  injV _ _ hx hy h := oV.inj hx hy h
  injF _ _ hx hy h := oF.inj hx hy h
  nxt x := fun ⟨r, hr⟩ => by rw [nxt_of (R.edge x r hr), nxt_of hr]
  prv x := fun ⟨r, hr⟩ => by rw [prv_of (R.edge x r hr), prv_of hr]
  twn x := fun ⟨r, hr⟩ => by rw [twn_of (R.edge x r hr), twn_of hr]
  org x := fun ⟨r, hr⟩ => by rw [org_of (R.edge x r hr), org_of hr]
  fac x := fun ⟨r, hr⟩ => by rw [fac_of (R.edge x r hr), fac_of hr]
  vrep x := fun ⟨r, hr⟩ => by
    have h1 : m'.vs.get? (b x) = _ := R.vertex x r hr
    simp [topo, h1, hr]
  frep x := fun ⟨r, hr⟩ => by
    have h1 : m'.fs.get? (c x) = _ := R.face x r hr
    simp [topo, h1, hr]

end Verif.Mesh
namespace Verif.MeshProps
open Mesh
variable {VP EP FP VP' EP' FP' : Type}

/-- C25: importing a consistent mesh without isolated vertices succeeds. The result is consistent, its ids are consecutive
from zero, and it is the source mesh under renamings of edges, vertices and faces that keep the order of ids. -/
theorem c25_import {m : Mesh VP EP FP} (g : m.Good) (hv : ∀ x r, m.vertex x = some r → r.edge ≠ none)
    (fv : VP → VP') (fe : EP → EP') (ff : FP → FP') :
    ∃ m' a b c, m.importMesh fv fe ff = some m' ∧ m'.Good ∧
      OrderIso (fun x => m.edge x ≠ none) m.hs.len a ∧ OrderIso (fun x => m.vertex x ≠ none) m.vs.len b ∧
      OrderIso (fun x => m.face x ≠ none) m.fs.len c ∧
      (∀ y, m'.edge y ≠ none ↔ y < m.hs.len) ∧ (∀ y, m'.vertex y ≠ none ↔ y < m.vs.len) ∧ (∀ y, m'.face y ≠ none ↔ y < m.fs.len) ∧
      Renamed fv fe ff m m' a b c := by
  have hv' : ∀ x, m.topo.V x → m.topo.vrep x ≠ none := by
    rintro x ⟨r, hr⟩
    have : m.topo.vrep x = r.edge := by simp [topo, hr]
    rw [this]; exact hv x r hr
  have R := imported_renamed fv fe ff m
  have oE := pos_iso m.hs
  have oV := pos_iso m.vs
  have oF := pos_iso m.fs
  rw [iter_len g.hs] at oE
  rw [iter_len g.vs] at oV
  rw [iter_len g.fs] at oF
  have kE : ∀ y, (imported fv fe ff m).edge y ≠ none ↔ y < m.hs.len := by
    intro y
    show (packed _).get? y ≠ none ↔ _
    rw [packed_get, ← iter_len g.hs]; simp
  have kV : ∀ y, (imported fv fe ff m).vertex y ≠ none ↔ y < m.vs.len := by
    intro y
    show (packed _).get? y ≠ none ↔ _
    rw [packed_get, ← iter_len g.vs]; simp
  have kF : ∀ y, (imported fv fe ff m).face y ≠ none ↔ y < m.fs.len := by
    intro y
    show (packed _).get? y ≠ none ↔ _
    rw [packed_get, ← iter_len g.fs]; simp
  have I := R.iso oE oV oF (fun y h => (kE y).mp (ne_none_iff.mpr h)) (fun y h => (kV y).mp (ne_none_iff.mpr h))
    (fun y h => (kF y).mp (ne_none_iff.mpr h))
  refine ⟨imported fv fe ff m, pos m.hs, pos m.vs, pos m.fs, importMesh_eq g hv' fv fe ff,
    ⟨packed_ok _, packed_ok _, packed_ok _, I.wf g.wf⟩, ?_, ?_, ?_, kE, kV, kF, R⟩
  · exact ⟨fun x y hx hy => oE.mono x y (ne_none_iff.mp hx) (ne_none_iff.mp hy), fun x hx => oE.lt x (ne_none_iff.mp hx),
      fun j hj => (oE.surj j hj).imp fun x hx => ⟨ne_none_iff.mpr hx.1, hx.2⟩⟩
  · exact ⟨fun x y hx hy => oV.mono x y (ne_none_iff.mp hx) (ne_none_iff.mp hy), fun x hx => oV.lt x (ne_none_iff.mp hx),
      fun j hj => (oV.surj j hj).imp fun x hx => ⟨ne_none_iff.mpr hx.1, hx.2⟩⟩
  · exact ⟨fun x y hx hy => oF.mono x y (ne_none_iff.mp hx) (ne_none_iff.mp hy), fun x hx => oF.lt x (ne_none_iff.mp hx),
      fun j hj => (oF.surj j hj).imp fun x hx => ⟨ne_none_iff.mpr hx.1, hx.2⟩⟩

theorem fillAll_none {α β : Type} {ids : List (Nat × Nat)} {g : Nat → α → Option β} {l : List (Nat × α)} {p : Nat × α} (hp : p ∈ l)
    (h : ∀ j, g j p.2 = none) : ∀ s, fillAll ids g l s = none := by
  induction l with
  | nil => simp at hp
  | cons q l ih =>
    intro s
    rw [List.mem_cons] at hp
    rcases hp with rfl | hp
    · obtain ⟨i, x⟩ := p
      simp only [fillAll, Option.bind_eq_bind]
      cases ids.lookup i with
      | none => rfl
      | some j =>
        have := h j
        dsimp only at this
        simp [this]
    · obtain ⟨i, x⟩ := q
      simp only [fillAll, Option.bind_eq_bind]
      cases ids.lookup i with
      | none => rfl
      | some j =>
        simp only [Option.bind_some]
        cases g j x with
        | none => rfl
        | some y =>
          simp only [Option.bind_some]
          cases s.set j y with
          | none => rfl
          | some s => simp [ih hp s]

/-- the restriction of C25 is needed: any mesh with an isolated vertex makes the import panic -/
theorem c25_isolated_panics {m : Mesh VP EP FP} {x : Nat} {r : VX VP} (h : m.vertex x = some r) (he : r.edge = none)
    (fv : VP → VP') (fe : EP → EP') (ff : FP → FP') : m.importMesh fv fe ff = none := by
  have : ∀ em j, importVertex em fv j r = none := by intro em j; simp [importVertex, he]
  simp only [importMesh, Option.bind_eq_bind]
  rw [fillAll_none (p := (x, r)) (Store.mem_iter.mpr h) (this _)]
  rfl

/-- a mesh with gaps in its edge and face ids: a triangle whose face was removed, then added again next to another component -/
def gappy : Option (Mesh Nat Nat Nat) := do
  let m ← triangle
  let (m, f) ← m.closeHole true 1 7 true
  let (m, _) ← m.removeFace true 0
  let _ := f
  some m

example : ∃ m m', gappy = some m ∧ m.Good ∧ m.face 0 = none ∧ m.face 1 ≠ none ∧
    m.importMesh id id id = some m' ∧ m'.face 0 = some ⟨1, false, 7⟩ ∧ m'.face 1 = none :=
  ⟨gappy.get (by decide +kernel), ((gappy.get (by decide +kernel)).importMesh id id id).get (by decide +kernel), by simp,
    goodB_ok (by decide +kernel), by decide +kernel, by decide +kernel, by simp, by decide +kernel, by decide +kernel⟩

end Verif.MeshProps
