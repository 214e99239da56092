import Verif.Props.Iso
/-
C55: is_isomorphic.
-/
namespace Verif.Mesh
variable {VP EP FP VP' EP' FP' : Type}

/-- face `g` of `m'` corresponds to face `f` of `m` under the vertex map `iso` -/
def FaceMatch (m : Mesh VP EP FP) (m' : Mesh VP' EP' FP') (iso : List (Nat × Nat)) (cf : Nat → Nat → Bool) (f g : Nat) : Prop :=
  m'.topo.F g ∧ cf f g = true ∧ ∃ vs us ws, m.faceVertices f = some vs ∧ vs.mapM (fun v => iso.lookup v) = some us ∧ m'.faceVertices g = some ws ∧ us ~r ws

/-- half-edge `e'` of `m'` corresponds to half-edge `e` of `m` under the vertex map `iso` -/
def EdgeMatch (m : Mesh VP EP FP) (m' : Mesh VP' EP' FP') (iso : List (Nat × Nat)) (ce : Nat → Nat → Bool) (e e' : Nat) : Prop :=
  m'.topo.E e' ∧ ce e e' = true ∧ iso.lookup (m.topo.org e) = some (m'.topo.org e') ∧
    iso.lookup (m.topo.org (m.topo.twn e)) = some (m'.topo.org (m'.topo.twn e'))

theorem matchFace_some {vs : List Nat} {l : List (Nat × List Nat)} {g : Nat} (h : matchFace vs l = some g) :
    ∃ ws, (g, ws) ∈ l ∧ vs ~r ws := by
  induction l with
  | nil => simp [matchFace] at h
  | cons p l ih =>
    obtain ⟨a, ws⟩ := p
    rw [matchFace] at h
    by_cases hc : equalUpToRotation vs ws = true
    · rw [if_pos hc] at h
      injection h with h; subst h
      exact ⟨ws, by simp, ((MeshProps.c30_rotation_partial _ _).mp hc).2⟩
    · rw [if_neg hc] at h
      obtain ⟨ws', h1, h2⟩ := ih h
      exact ⟨ws', by simp [h1], h2⟩

theorem lookup_isSome_cons {l : List (Nat × Nat)} {a b x : Nat} (h : (l.lookup x).isSome) : (((a, b) :: l).lookup x).isSome := by
  by_cases hc : x = a
  · subst hc; simp
  · rw [lookup_ne hc]; exact h

theorem lookup_cons_cases {l : List (Nat × Nat)} {a b x y : Nat} (h : ((a, b) :: l).lookup x = some y) : (x = a ∧ y = b) ∨ l.lookup x = some y := by
  by_cases hc : x = a
  · subst hc; left; simp at h; exact ⟨rfl, h.symm⟩
  · rw [lookup_ne hc] at h; exact .inr h

theorem isoFaces_sound {m : Mesh VP EP FP} {m' : Mesh VP' EP' FP'} {iso : List (Nat × Nat)} {cf : Nat → Nat → Bool} {others : List (Nat × List Nat)}
    (ho : ∀ p ∈ others, m'.topo.F p.1 ∧ m'.faceVertices p.1 = some p.2) : ∀ (fs : List Nat) (fi fi' : List (Nat × Nat)),
    isoFaces m iso cf others fs fi = some (.inl fi') → (∀ f g, fi.lookup f = some g → FaceMatch m m' iso cf f g) →
    (∀ f g, fi'.lookup f = some g → FaceMatch m m' iso cf f g) ∧ (∀ f, f ∈ fs ∨ (fi.lookup f).isSome → (fi'.lookup f).isSome) := by
  intro fs
  induction fs with
  | nil => intro fi fi' h hf; simp [isoFaces] at h; subst h; exact ⟨hf, by simp⟩
  | cons f fs ih =>
    intro fi fi' h hf
    rw [isoFaces] at h
    by_cases hc : (fi.lookup f).isSome
    · rw [if_pos hc] at h
      obtain ⟨k1, k2⟩ := ih fi fi' h hf
      refine ⟨k1, fun x hx => k2 x ?_⟩
      rcases hx with hx | hx
      · rw [List.mem_cons] at hx
        rcases hx with rfl | hx
        · exact .inr hc
        · exact .inl hx
      · exact .inr hx
    · rw [if_neg hc] at h
      simp only [Option.bind_eq_bind] at h
      cases h1 : m.faceVertices f with
      | none => simp [h1] at h
      | some vs =>
        cases h2 : vs.mapM (fun v => iso.lookup v) with
        | none => simp [h1, h2] at h
        | some us =>
          simp only [h1, h2, Option.bind_some] at h
          cases h3 : matchFace us others with
          | none => simp [h3] at h
          | some g =>
            simp only [h3] at h
            cases h4 : cf f g with
            | false => simp [h4] at h
            | true =>
              simp only [h4, Bool.not_true, Bool.false_eq_true, if_false] at h
              obtain ⟨ws, w1, w2⟩ := matchFace_some h3
              obtain ⟨o1, o2⟩ := ho _ w1
              obtain ⟨k1, k2⟩ := ih _ fi' h (fun x y hxy => by
                rcases lookup_cons_cases hxy with ⟨rfl, rfl⟩ | hxy
                · exact ⟨o1, h4, vs, us, ws, h1, h2, o2, w2⟩
                · exact hf x y hxy)
              refine ⟨k1, fun x hx => k2 x ?_⟩
              rcases hx with hx | hx
              · rw [List.mem_cons] at hx
                rcases hx with rfl | hx
                · right; simp
                · exact .inl hx
              · exact .inr (lookup_isSome_cons hx)

theorem edgeFaceIds_eq {m : Mesh VP EP FP} (w : m.topo.WF) {e : Nat} (he : m.topo.E e) :
    m.edgeFaceIds e = some ((m.topo.fac e).toList ++ (m.topo.fac (m.topo.twn e)).toList) := by
  obtain ⟨x, hx⟩ := he
  have hx' : m.edge e = some x := hx
  have ht := w.twn_live e ⟨x, hx⟩
  rw [twn_of hx'] at ht
  obtain ⟨y, hy⟩ := ht
  have hy' : m.edge x.twin = some y := hy
  simp [edgeFaceIds, hx', hy', fac_of hx', twn_of hx', fac_of hy']

theorem mapM_mem {α β : Type} {f : α → Option β} {l : List α} {r : List β} (h : l.mapM f = some r) : ∀ y ∈ r, ∃ x ∈ l, f x = some y := by
  induction l generalizing r with
  | nil => simp at h; subst h; simp
  | cons a l ih =>
    rw [List.mapM_cons] at h
    cases h1 : f a with
    | none => simp [h1] at h
    | some b =>
      cases h2 : l.mapM f with
      | none => simp [h1, h2] at h
      | some r' =>
        simp [h1, h2] at h
        subst h
        intro y hy
        rw [List.mem_cons] at hy
        rcases hy with rfl | hy
        · exact ⟨a, by simp, h1⟩
        · obtain ⟨x, x1, x2⟩ := ih h2 y hy
          exact ⟨x, by simp [x1], x2⟩

/-- the matches found so far -/
structure IsoOK (m : Mesh VP EP FP) (m' : Mesh VP' EP' FP') (iso : List (Nat × Nat)) (ce cf : Nat → Nat → Bool) (s : IsoState) : Prop where
  edges : ∀ e e', s.edges.lookup e = some e' → EdgeMatch m m' iso ce e e'
  faces : ∀ f g, s.faces.lookup f = some g → FaceMatch m m' iso cf f g
  both : ∀ e, (s.edges.lookup e).isSome → ∀ f, m.topo.fac e = some f → (s.faces.lookup f).isSome

theorem isoEdges_sound {m : Mesh VP EP FP} {m' : Mesh VP' EP' FP'} (g : m.Good) (g' : m'.Good) {iso : List (Nat × Nat)} {ce cf : Nat → Nat → Bool} (dbg : Bool)
    {v u : Nat} (hu : iso.lookup v = some u) (hV : m'.topo.V u) : ∀ (es : List Nat) (s s' : IsoState), (∀ e ∈ es, m.topo.E e ∧ m.topo.org e = v) →
    isoEdges dbg m m' iso ce cf u es s = some (.inl s') → IsoOK m m' iso ce cf s →
    IsoOK m m' iso ce cf s' ∧ (∀ e, e ∈ es ∨ (s.edges.lookup e).isSome → (s'.edges.lookup e).isSome) := by
  have w := g.wf
  have w' := g'.wf
  intro es
  induction es with
  | nil => intro s s' _ h I; simp [isoEdges] at h; subst h; exact ⟨I, by simp⟩
  | cons e es ih =>
    intro s s' hE h I
    obtain ⟨he, hev⟩ := hE e (by simp)
    rw [isoEdges] at h
    by_cases hc : (s.edges.lookup e).isSome
    · rw [if_pos hc] at h
      obtain ⟨k1, k2⟩ := ih s s' (fun x hx => hE x (by simp [hx])) h I
      refine ⟨k1, fun x hx => k2 x ?_⟩
      rcases hx with hx | hx
      · rw [List.mem_cons] at hx
        rcases hx with rfl | hx
        · exact .inr hc
        · exact .inl hx
      · exact .inr hx
    · rw [if_neg hc] at h
      rw [targetVertex_eq w he] at h
      simp only [Option.bind_eq_bind, Option.bind_some] at h
      cases h1 : iso.lookup (m.topo.org (m.topo.twn e)) with
      | none => simp [h1] at h
      | some t' =>
        obtain ⟨r, r1, r2, -⟩ := MeshProps.c17_shared_edge g' hV t'
        simp only [h1, Option.bind_some, r1 dbg] at h
        cases r with
        | none => simp at h
        | some e' =>
          obtain ⟨q1, q2, q3⟩ := r2 e' rfl
          simp only [] at h
          cases h2 : ce e e' with
          | false => simp [h2] at h
          | true =>
            rw [edgeFaceIds_eq w' q1, edgeFaceIds_eq w he] at h
            simp only [h2, Bool.not_true, Bool.false_eq_true, if_false, Option.bind_some] at h
            cases h3 : ((m'.topo.fac e').toList ++ (m'.topo.fac (m'.topo.twn e')).toList).mapM (fun g => (m'.faceVertices g).bind fun x => some (g, x)) with
            | none => simp [h3] at h
            | some others =>
              simp only [h3, Option.bind_some] at h
              have ho : ∀ p ∈ others, m'.topo.F p.1 ∧ m'.faceVertices p.1 = some p.2 := by
                intro p hp
                obtain ⟨x, x1, x2⟩ := mapM_mem h3 p hp
                cases h4 : m'.faceVertices x with
                | none => simp [h4] at x2
                | some ws =>
                  simp [h4] at x2
                  subst x2
                  refine ⟨?_, h4⟩
                  simp only [List.mem_append, Option.mem_toList] at x1
                  rcases x1 with x1 | x1
                  · exact w'.fac_live _ _ q1 x1
                  · exact w'.fac_live _ _ (w'.twn_live _ q1) x1
              cases h5 : isoFaces m iso cf others ((m.topo.fac e).toList ++ (m.topo.fac (m.topo.twn e)).toList) s.faces with
              | none => simp [h5] at h
              | some res =>
                cases res with
                | inr d => simp [h5] at h
                | inl fi =>
                  simp only [h5, Option.bind_some] at h
                  obtain ⟨f1, f2⟩ := isoFaces_sound ho _ _ _ h5 I.faces
                  have I' : IsoOK m m' iso ce cf ⟨(e, e') :: s.edges, fi⟩ := by
                    refine ⟨?_, f1, ?_⟩
                    · intro x y hxy
                      rcases lookup_cons_cases hxy with ⟨rfl, rfl⟩ | hxy
                      · exact ⟨q1, h2, by rw [hev, q2]; exact hu, by rw [h1, q3]⟩
                      · exact I.edges x y hxy
                    · intro x hx f hf
                      dsimp only at hx ⊢
                      by_cases hxe : x = e
                      · subst hxe
                        exact f2 f (.inl (by simp [hf]))
                      · rw [lookup_ne hxe] at hx
                        exact f2 f (.inr (I.both x hx f hf))
                  obtain ⟨k1, k2⟩ := ih _ s' (fun x hx => hE x (by simp [hx])) h I'
                  refine ⟨k1, fun x hx => k2 x ?_⟩
                  rcases hx with hx | hx
                  · rw [List.mem_cons] at hx
                    rcases hx with rfl | hx
                    · right; simp
                    · exact .inl hx
                  · exact .inr (lookup_isSome_cons hx)

theorem isoVertices_sound {m : Mesh VP EP FP} {m' : Mesh VP' EP' FP'} (g : m.Good) (g' : m'.Good) {iso : List (Nat × Nat)} {cv ce cf : Nat → Nat → Bool} (dbg : Bool) :
    ∀ (vs : List Nat) (s s' : IsoState), (∀ v ∈ vs, m.topo.V v) →
    isoVertices dbg m m' iso cv ce cf vs s = some (.inl s') → IsoOK m m' iso ce cf s →
    IsoOK m m' iso ce cf s' ∧ (∀ e, (m.topo.E e ∧ m.topo.org e ∈ vs) ∨ (s.edges.lookup e).isSome → (s'.edges.lookup e).isSome) ∧
      (∀ v ∈ vs, ∃ u, iso.lookup v = some u ∧ m'.topo.V u ∧ cv v u = true) := by
  intro vs
  induction vs with
  | nil => intro s s' _ h I; simp [isoVertices] at h; subst h; exact ⟨I, by simp, by simp⟩
  | cons v vs ih =>
    intro s s' hV h I
    rw [isoVertices] at h
    simp only [Option.bind_eq_bind] at h
    cases h1 : iso.lookup v with
    | none => simp [h1] at h
    | some u =>
      cases h2 : m'.vertex u with
      | none => simp [h1, h2] at h
      | some x =>
        simp only [h1, h2, Option.bind_some] at h
        cases h3 : cv v u with
        | false => simp [h3] at h
        | true =>
          simp only [h3, Bool.not_true, Bool.false_eq_true, if_false] at h
          obtain ⟨l, l1, -, l3, -⟩ := MeshProps.c16_edges_out g (hV v (by simp))
          simp only [l1 dbg, Option.bind_some] at h
          cases h4 : isoEdges dbg m m' iso ce cf u l s with
          | none => simp [h4] at h
          | some res =>
            cases res with
            | inr d => simp [h4] at h
            | inl s1 =>
              simp only [h4, Option.bind_some] at h
              obtain ⟨a1, a2⟩ := isoEdges_sound g g' dbg h1 ⟨x, h2⟩ l s s1 (fun e he => (l3 e).mp he) h4 I
              obtain ⟨b1, b2, b3⟩ := ih s1 s' (fun v hv => hV v (by simp [hv])) h a1
              refine ⟨b1, fun e he => b2 e ?_, ?_⟩
              · rcases he with ⟨e1, e2⟩ | he
                · rw [List.mem_cons] at e2
                  rcases e2 with e2 | e2
                  · exact .inr (a2 e (.inl ((l3 e).mpr ⟨e1, e2⟩)))
                  · exact .inl ⟨e1, e2⟩
                · exact .inr (a2 e (.inr he))
              · intro y hy
                rw [List.mem_cons] at hy
                rcases hy with rfl | hy
                · exact ⟨u, h1, ⟨x, h2⟩, h3⟩
                · exact b3 y hy

theorem isoFaces_ne {m : Mesh VP EP FP} {iso : List (Nat × Nat)} {cf : Nat → Nat → Bool} {others : List (Nat × List Nat)} : ∀ (fs : List Nat) (fi : List (Nat × Nat)),
    isoFaces m iso cf others fs fi ≠ some (.inr .equivalent) := by
  intro fs
  induction fs with
  | nil => intro fi; simp [isoFaces]
  | cons f fs ih =>
    intro fi
    rw [isoFaces]
    split
    · exact ih fi
    · refine bind_ne fun vs => bind_ne fun us => ?_
      split
      · simp
      · split
        · simp
        · exact ih _

theorem isoEdges_ne {m : Mesh VP EP FP} {m' : Mesh VP' EP' FP'} {iso : List (Nat × Nat)} {ce cf : Nat → Nat → Bool} {dbg : Bool} {u : Nat} :
    ∀ (es : List Nat) (s : IsoState), isoEdges dbg m m' iso ce cf u es s ≠ some (.inr .equivalent) := by
  intro es
  induction es with
  | nil => intro s; simp [isoEdges]
  | cons e es ih =>
    intro s
    rw [isoEdges]
    split
    · exact ih s
    · refine bind_ne fun t => bind_ne fun t' => bind_ne fun r => ?_
      cases r with
      | none => simp
      | some e' =>
        dsimp only
        split
        · simp
        · refine bind_ne fun gs => bind_ne fun others => bind_ne fun fs => ?_
          cases h : isoFaces m iso cf others fs s.faces with
          | none => simp
          | some res =>
            cases res with
            | inl fi => exact ih _
            | inr d =>
              rw [Option.bind_eq_bind, Option.bind_some]
              intro hc
              injection hc with hc
              injection hc with hc
              exact isoFaces_ne _ _ (hc ▸ h)

theorem isoVertices_ne {m : Mesh VP EP FP} {m' : Mesh VP' EP' FP'} {iso : List (Nat × Nat)} {cv ce cf : Nat → Nat → Bool} {dbg : Bool} :
    ∀ (vs : List Nat) (s : IsoState), isoVertices dbg m m' iso cv ce cf vs s ≠ some (.inr .equivalent) := by
  intro vs
  induction vs with
  | nil => intro s; simp [isoVertices]
  | cons v vs ih =>
    intro s
    rw [isoVertices]
    refine bind_ne fun u => bind_ne fun _ => ?_
    split
    · simp
    · refine bind_ne fun es => ?_
      cases h : isoEdges dbg m m' iso ce cf u es s with
      | none => simp
      | some res =>
        cases res with
        | inl fi => exact ih _
        | inr d =>
          rw [Option.bind_eq_bind, Option.bind_some]
          intro hc
          injection hc with hc
          injection hc with hc
          exact isoEdges_ne _ _ (hc ▸ h)

theorem isIso_sound {m : Mesh VP EP FP} {m' : Mesh VP' EP' FP'} {iso : List (Nat × Nat)} {cv ce cf : Nat → Nat → Bool} {dbg : Bool}
    (h : isIsomorphic dbg m m' iso cv ce cf = some .equivalent) : m.vs.len = m'.vs.len ∧ m.hs.len = m'.hs.len ∧ m.fs.len = m'.fs.len ∧
      ∃ s, isoVertices dbg m m' iso cv ce cf m.vertexIds ⟨[], []⟩ = some (.inl s) := by
  unfold isIsomorphic at h
  by_cases hv : m.vs.len = m'.vs.len
  · by_cases he : m.hs.len = m'.hs.len
    · by_cases hf : m.fs.len = m'.fs.len
      · rw [if_neg (by simpa using hv), if_neg (by simpa using he), if_neg (by simpa using hf)] at h
        cases h1 : isoVertices dbg m m' iso cv ce cf m.vertexIds ⟨[], []⟩ with
        | none => simp [h1] at h
        | some res =>
          cases res with
          | inl s => exact ⟨hv, he, hf, s, rfl⟩
          | inr d =>
            simp [h1] at h
            exact absurd h1 (h ▸ isoVertices_ne _ _)
      · rw [if_neg (by simpa using hv), if_neg (by simpa using he), if_pos hf] at h; simp at h
    · rw [if_neg (by simpa using hv), if_pos he] at h; simp at h
  · rw [if_pos hv] at h; simp at h

end Verif.Mesh
namespace Verif.MeshProps
open Mesh
variable {VP EP FP VP' EP' FP' : Type}

/-- C55: if `is_isomorphic` reports equivalence, every vertex, half-edge and face of the first mesh has a counterpart in the second
one under the given vertex map, for which the comparison function holds. -/
theorem c55_sound {m : Mesh VP EP FP} {m' : Mesh VP' EP' FP'} (g : m.Good) (g' : m'.Good) {iso : List (Nat × Nat)} {cv ce cf : Nat → Nat → Bool} {dbg : Bool}
    (h : isIsomorphic dbg m m' iso cv ce cf = some .equivalent) :
    (∀ v, m.topo.V v → ∃ u, iso.lookup v = some u ∧ m'.topo.V u ∧ cv v u = true) ∧
    (∀ e, m.topo.E e → ∃ e', EdgeMatch m m' iso ce e e') ∧ (∀ f, m.topo.F f → ∃ f', FaceMatch m m' iso cf f f') := by
  obtain ⟨-, -, -, s, hs⟩ := isIso_sound h
  obtain ⟨I, h1, h2⟩ := isoVertices_sound g g' dbg m.vertexIds ⟨[], []⟩ s (fun v hv => mem_vertexIds.mp hv) hs ⟨by simp, by simp, by simp⟩
  have hE : ∀ e, m.topo.E e → (s.edges.lookup e).isSome := fun e he => h1 e (.inl ⟨he, mem_vertexIds.mpr (g.wf.org_live _ he)⟩)
  refine ⟨fun v hv => h2 v (mem_vertexIds.mpr hv), fun e he => ?_, fun f hf => ?_⟩
  · obtain ⟨e', he'⟩ := Option.isSome_iff_exists.mp (hE e he)
    exact ⟨e', I.edges e e' he'⟩
  · obtain ⟨k1, k2⟩ := g.wf.frep_ok f hf
    obtain ⟨f', hf'⟩ := Option.isSome_iff_exists.mp (I.both _ (hE _ k1) f k2)
    exact ⟨f', I.faces f f' hf'⟩

/-- C55: for simple meshes and an injective vertex map, reported equivalence means that vertices are adjacent in one mesh iff they are in the other. -/
theorem c55_adjacent_iff {m : Mesh VP EP FP} {m' : Mesh VP' EP' FP'} (g : m.Good) (g' : m'.Good) {iso : List (Nat × Nat)} {cv ce cf : Nat → Nat → Bool} {dbg : Bool}
    (h : isIsomorphic dbg m m' iso cv ce cf = some .equivalent) (hS : m.topo.Simple) (hi : ∀ v v' u, iso.lookup v = some u → iso.lookup v' = some u → v = v')
    {a b a' b' : Nat} (ha : iso.lookup a = some a') (hb : iso.lookup b = some b') : m.topo.Adj a b ↔ m'.topo.Adj a' b' := by
  obtain ⟨-, hE, -⟩ := c55_sound g g' h
  obtain ⟨-, hl, -⟩ := isIso_sound h
  constructor
  · rintro ⟨e, h1, rfl, rfl⟩
    obtain ⟨e', k1, -, k3, k4⟩ := hE e h1
    rw [ha] at k3; rw [hb] at k4
    injection k3 with k3; injection k4 with k4
    exact ⟨e', k1, k3.symm, k4.symm⟩
  · rintro ⟨e', h1, h2, h3⟩
    -- the counterparts of the half-edges of `m` are all half-edges of `m'`
    have : ∃ φ : Nat → Nat, ∀ e, m.topo.E e → EdgeMatch m m' iso ce e (φ e) := by
      refine ⟨fun e => if h : m.topo.E e then (hE e h).choose else 0, fun e he => ?_⟩
      simp only [dif_pos he]; exact (hE e he).choose_spec
    obtain ⟨φ, hφ⟩ := this
    have hnd : (m.edgeIds.map φ).Nodup := by
      rw [List.nodup_iff_pairwise_ne, List.pairwise_map]
      refine List.Pairwise.imp_of_mem ?_ (nodup_edgeIds m)
      intro x y hx hy hxy hc
      obtain ⟨-, -, p1, p2⟩ := hφ x (mem_edgeIds.mp hx)
      obtain ⟨-, -, q1, q2⟩ := hφ y (mem_edgeIds.mp hy)
      rw [hc] at p1 p2
      exact hxy (hS.noParallel x y (mem_edgeIds.mp hx) (mem_edgeIds.mp hy) (hi _ _ _ p1 q1) (hi _ _ _ p2 q2))
    have hm := same_of_len hnd (l' := m'.edgeIds) (by
      intro x hx
      obtain ⟨e, he, rfl⟩ := List.mem_map.mp hx
      exact mem_edgeIds.mpr (hφ e (mem_edgeIds.mp he)).1) (by rw [List.length_map, ← len_eq_edgeIds g, ← len_eq_edgeIds g', hl]) e' (mem_edgeIds.mpr h1)
    obtain ⟨e, he, rfl⟩ := List.mem_map.mp hm
    obtain ⟨-, -, p1, p2⟩ := hφ e (mem_edgeIds.mp he)
    rw [h2] at p1; rw [h3] at p2
    exact ⟨e, mem_edgeIds.mp he, hi _ _ _ p1 ha, hi _ _ _ p2 hb⟩

end Verif.MeshProps

namespace Verif

theorem IsOrbit.rotate {f : Nat → Nat} {a : Nat} {l : List Nat} (h : IsOrbit f a l) (k : Nat) : IsOrbit f (itr f k a) (l.rotate k) := by
  have per : ∀ i, itr f (i % l.length) a = itr f i a := by
    intro i
    induction i using Nat.strongRecOn with
    | ind i ih =>
      by_cases hk : i < l.length
      · rw [Nat.mod_eq_of_lt hk]
      · have h1 : i = (i - l.length) + l.length := by omega
        rw [h1, Nat.add_mod_right, itr_add, h.close]
        exact ih _ (by have := h.pos; omega)
  refine ⟨?_, by simpa using h.pos, ?_, by simpa using h.nodup⟩
  · apply List.ext_getElem
    · simp
    · intro i h1 h2
      have h1' : i < l.length := by simpa using h1
      rw [List.getElem_rotate, h.getElem, per]
      simp [itr_add]
  · rw [List.length_rotate, ← itr_add, Nat.add_comm, itr_add, h.close]

/-- the orbit started elsewhere is a rotation -/
theorem IsOrbit.isRotated {f : Nat → Nat} {a b : Nat} {l l' : List Nat} (h : IsOrbit f a l) (h' : IsOrbit f b l') (hr : Reach f a b) : l ~r l' := by
  obtain ⟨k, rfl⟩ := reach_iff_itr.mp hr
  exact ⟨k, (h.rotate k).unique h'⟩

theorem IsOrbit.map {f g φ : Nat → Nat} {a : Nat} {l : List Nat} {P : Nat → Prop} (h : IsOrbit f a l) (hP : ∀ x, P x → P (f x)) (ha : P a)
    (hφ : ∀ x, P x → g (φ x) = φ (f x)) (hi : ∀ x y, P x → P y → φ x = φ y → x = y) : IsOrbit g (φ a) (l.map φ) := by
  have it : ∀ i, itr g i (φ a) = φ (itr f i a) := by
    intro i
    induction i with
    | zero => rfl
    | succ i ih => rw [itr_succ, itr_succ, ih, hφ _ (itr_closed hP ha i)]
  refine ⟨?_, by simpa using h.pos, ?_, ?_⟩
  · apply List.ext_getElem
    · simp
    · intro i h1 h2
      simp [h.getElem, it]
  · rw [List.length_map, it, h.close]
  · rw [List.nodup_iff_pairwise_ne, List.pairwise_map]
    refine List.Pairwise.imp_of_mem ?_ h.nodup
    intro x y hx hy hxy hc
    exact hxy (hi x y (((h.mem_iff x).mp hx).closed hP ha) (((h.mem_iff y).mp hy).closed hP ha) hc)

namespace Mesh
variable {VP EP FP VP' EP' FP' : Type}

theorem faceVertices_spec {m : Mesh VP EP FP} (g : m.Good) {f : Nat} (hf : m.topo.F f) :
    ∃ l, m.faceVertices f = some (l.map fun e => m.topo.org (m.topo.twn e)) ∧ IsOrbit m.topo.nxt (m.topo.frep f) l ∧
      (∀ x ∈ l, m.topo.E x ∧ m.topo.fac x = some f) := by
  obtain ⟨l, h1, -, h3, h4⟩ := MeshProps.c15_face_edges g hf
  refine ⟨l, ?_, h4, fun x hx => (h3 x).mp hx⟩
  simp only [faceVertices, h1, Option.bind_eq_bind, Option.bind_some]
  exact mapM_some (fun x hx => targetVertex_eq g.wf ((h3 x).mp hx).1)

/-- the vertex list of the corresponding face -/
theorem faceVertices_shape {m : Mesh VP EP FP} {m' : Mesh VP' EP' FP'} (g : m.Good) (g' : m'.Good) {a b c : Nat → Nat}
    (S : m.topo.Shape m'.topo a b c) {f : Nat} (hf : m.topo.F f) :
    ∃ vs ws, m.faceVertices f = some vs ∧ (∀ v ∈ vs, m.topo.V v) ∧ vs ≠ [] ∧ m'.topo.F (c f) ∧ m'.faceVertices (c f) = some ws ∧ vs.map b ~r ws := by
  have w := g.wf
  have w' := g'.wf
  obtain ⟨l, h1, h2, h3⟩ := faceVertices_spec g hf
  have hf' : m'.topo.F (c f) := (S.F _).mpr ⟨f, hf, rfl⟩
  obtain ⟨l', k1, k2, k3⟩ := faceVertices_spec g' hf'
  obtain ⟨r1, r2⟩ := w.frep_ok f hf
  obtain ⟨s1, s2⟩ := w'.frep_ok (c f) hf'
  have r1' : m'.topo.E (a (m.topo.frep f)) := (S.E _).mpr ⟨_, r1, rfl⟩
  refine ⟨_, _, h1, ?_, ?_, hf', k1, ?_⟩
  · intro v hv
    obtain ⟨e, he, rfl⟩ := List.mem_map.mp hv
    exact w.org_live _ (w.twn_live _ (h3 e he).1)
  · intro hc
    have := h2.pos
    rw [List.map_eq_nil_iff] at hc
    simp [hc] at this
  · have o := h2.map (g := m'.topo.nxt) (φ := a) (P := m.topo.E) w.nxt_live r1 S.nxt S.injE
    have hr := o.isRotated k2 (w'.loop _ _ (c f) r1' s1 (by rw [S.fac _ r1, r2]; rfl) s2)
    have := hr.map (fun e => m'.topo.org (m'.topo.twn e))
    rw [List.map_map] at this
    rw [List.map_map]
    rw [show l.map (b ∘ fun e => m.topo.org (m.topo.twn e)) = l.map ((fun e => m'.topo.org (m'.topo.twn e)) ∘ a) from ?_]
    · exact this
    · apply List.map_congr_left
      intro e he
      have hE := (h3 e he).1
      simp only [Function.comp]
      rw [S.twn _ hE, S.org _ (w.twn_live _ hE)]

/-- in a simple mesh a face is determined by the cyclic sequence of its vertices -/
theorem face_of_vertices {m : Mesh VP EP FP} (g : m.Good) (hS : m.topo.Simple) {f f' : Nat} (hf : m.topo.F f) (hf' : m.topo.F f') {ws ws' : List Nat}
    (h1 : m.faceVertices f = some ws) (h2 : m.faceVertices f' = some ws') (hr : ws ~r ws') : f = f' := by
  have w := g.wf
  obtain ⟨l, a1, a2, a3⟩ := faceVertices_spec g hf
  obtain ⟨l', b1, b2, b3⟩ := faceVertices_spec g hf'
  rw [h1] at a1; rw [h2] at b1
  injection a1 with a1; injection b1 with b1
  subst a1 b1
  obtain ⟨k, hk⟩ := hr
  rw [← List.map_rotate] at hk
  have o := a2.rotate k
  have len : (l.rotate k).length = l'.length := by simpa using congrArg List.length hk
  have mem : ∀ x ∈ l.rotate k, m.topo.E x ∧ m.topo.fac x = some f := fun x hx => a3 x (List.mem_rotate.mp hx)
  -- elements at the same position have the same target
  have key : ∀ i, (h : i < l'.length) → m.topo.org (m.topo.twn (itr m.topo.nxt i (itr m.topo.nxt k (m.topo.frep f)))) =
      m.topo.org (m.topo.twn (itr m.topo.nxt i (m.topo.frep f'))) := by
    intro i hi
    have hi' : i < (l.rotate k).length := by omega
    rw [← o.getElem hi', ← b2.getElem hi]
    have := List.getElem_of_eq hk (i := i) (by simpa using hi')
    simpa using this
  have hx : itr m.topo.nxt k (m.topo.frep f) ∈ l.rotate k := (o.mem_iff _).mpr (.refl _)
  have hy : m.topo.frep f' ∈ l' := (b2.mem_iff _).mpr (.refl _)
  obtain ⟨x1, x2⟩ := mem _ hx
  obtain ⟨y1, y2⟩ := b3 _ hy
  generalize itr m.topo.nxt k (m.topo.frep f) = x at *
  generalize m.topo.frep f' = y at *
  have len2 : 2 ≤ l'.length := by
    have := b2.pos
    by_cases hc : l'.length = 1
    · have := b2.close
      rw [hc] at this
      exact absurd this (w.nxt_ne _ y1)
    · omega
  have k0 := key 0 (by omega)
  have k1 := key 1 (by omega)
  simp only [itr] at k0 k1
  have := hS.noParallel _ _ (w.nxt_live _ x1) (w.nxt_live _ y1) (by rw [w.org_nxt _ x1, w.org_nxt _ y1, k0]) k1
  have h3 := w.fac_nxt _ x1
  rw [this, w.fac_nxt _ y1, x2, y2] at h3
  simpa using h3.symm

theorem matchFace_found {us : List Nat} {l : List (Nat × List Nat)} {f : Nat} (hne : us ≠ []) (h : ∃ ws, (f, ws) ∈ l ∧ us ~r ws)
    (hu : ∀ g ws, (g, ws) ∈ l → us ~r ws → g = f) : matchFace us l = some f := by
  induction l with
  | nil => obtain ⟨ws, h, -⟩ := h; simp at h
  | cons p l ih =>
    obtain ⟨g, ws⟩ := p
    rw [matchFace]
    by_cases hc : equalUpToRotation us ws = true
    · rw [if_pos hc, hu g ws (by simp) ((MeshProps.c30_rotation_partial _ _).mp hc).2]
    · rw [if_neg hc]
      apply ih
      · obtain ⟨ws', h1, h2⟩ := h
        rw [List.mem_cons] at h1
        rcases h1 with h1 | h1
        · injection h1 with h1 h3; subst h3
          exact absurd ((MeshProps.c30_rotation_partial _ _).mpr ⟨hne, h2⟩) hc
        · exact ⟨ws', h1, h2⟩
      · intro g' ws' h1; exact hu g' ws' (by simp [h1])

theorem isoFaces_complete {m : Mesh VP EP FP} {m' : Mesh VP' EP' FP'} (g : m.Good) (g' : m'.Good) (hS : m'.topo.Simple) {a b c : Nat → Nat}
    (S : m.topo.Shape m'.topo a b c) {iso : List (Nat × Nat)} (hb : ∀ v, m.topo.V v → iso.lookup v = some (b v)) {cf : Nat → Nat → Bool}
    (hc : ∀ f, m.topo.F f → cf f (c f) = true) {others : List (Nat × List Nat)}
    (ho : ∀ p ∈ others, m'.topo.F p.1 ∧ m'.faceVertices p.1 = some p.2) : ∀ (fs : List Nat) (fi : List (Nat × Nat)),
    (∀ f ∈ fs, m.topo.F f ∧ ∀ ws, m'.faceVertices (c f) = some ws → (c f, ws) ∈ others) → ∃ fi', isoFaces m iso cf others fs fi = some (.inl fi') := by
  intro fs
  induction fs with
  | nil => intro fi _; exact ⟨fi, rfl⟩
  | cons f fs ih =>
    intro fi hfs
    rw [isoFaces]
    by_cases h : (fi.lookup f).isSome
    · rw [if_pos h]; exact ih fi (fun x hx => hfs x (by simp [hx]))
    · obtain ⟨hF, hin⟩ := hfs f (by simp)
      obtain ⟨vs, ws, h1, h2, h3, h4, h5, h6⟩ := faceVertices_shape g g' S hF
      have hm : vs.mapM (fun v => iso.lookup v) = some (vs.map b) := mapM_some (fun v hv => hb v (h2 v hv))
      have hf : matchFace (vs.map b) others = some (c f) := matchFace_found (by simpa using h3) ⟨ws, hin ws h5, h6⟩ (by
        intro x xs hx hr
        obtain ⟨x1, x2⟩ := ho _ hx
        exact face_of_vertices g' hS x1 h4 x2 h5 (hr.symm.trans h6))
      rw [if_neg h, h1]
      simp only [Option.bind_eq_bind, Option.bind_some, hm, hf, hc f hF, Bool.not_true, Bool.false_eq_true, if_false]
      exact ih _ (fun x hx => hfs x (by simp [hx]))

theorem isoEdges_complete {m : Mesh VP EP FP} {m' : Mesh VP' EP' FP'} (g : m.Good) (g' : m'.Good) (hS : m'.topo.Simple) {a b c : Nat → Nat}
    (S : m.topo.Shape m'.topo a b c) {iso : List (Nat × Nat)} (hb : ∀ v, m.topo.V v → iso.lookup v = some (b v)) {ce cf : Nat → Nat → Bool}
    (he : ∀ e, m.topo.E e → ce e (a e) = true) (hc : ∀ f, m.topo.F f → cf f (c f) = true) (dbg : Bool) {v : Nat} (hv : m.topo.V v) :
    ∀ (es : List Nat) (s : IsoState), (∀ e ∈ es, m.topo.E e ∧ m.topo.org e = v) → ∃ s', isoEdges dbg m m' iso ce cf (b v) es s = some (.inl s') := by
  have w := g.wf
  have w' := g'.wf
  intro es
  induction es with
  | nil => intro s _; exact ⟨s, rfl⟩
  | cons e es ih =>
    intro s hes
    rw [isoEdges]
    by_cases h : (s.edges.lookup e).isSome
    · rw [if_pos h]; exact ih s (fun x hx => hes x (by simp [hx]))
    · obtain ⟨hE, hv'⟩ := hes e (by simp)
      have hE' : m'.topo.E (a e) := (S.E _).mpr ⟨e, hE, rfl⟩
      have ht := w.twn_live _ hE
      have ht' : m'.topo.E (a (m.topo.twn e)) := (S.E _).mpr ⟨_, ht, rfl⟩
      have h1 := hb _ (w.org_live _ ht)
      obtain ⟨r, r1, r2, r3⟩ := MeshProps.c17_shared_edge g' ((S.V _).mpr ⟨v, hv, rfl⟩) (b (m.topo.org (m.topo.twn e)))
      have ex1 : m'.topo.org (a e) = b v := by rw [S.org _ hE, hv']
      have ex2 : m'.topo.org (m'.topo.twn (a e)) = b (m.topo.org (m.topo.twn e)) := by rw [S.twn _ hE, S.org _ ht]
      have hr : r = some (a e) := by
        cases r with
        | none => exact absurd ⟨a e, hE', ex1, ex2⟩ (r3.mp rfl)
        | some e' =>
          obtain ⟨q1, q2, q3⟩ := r2 e' rfl
          rw [hS.noParallel e' (a e) q1 hE' (by rw [q2, ex1]) (by rw [q3, ex2])]
      have live : ∀ f, f ∈ (m.topo.fac e).toList ++ (m.topo.fac (m.topo.twn e)).toList → m.topo.F f := by
        intro f hf
        simp only [List.mem_append, Option.mem_toList] at hf
        rcases hf with hf | hf
        · exact w.fac_live _ _ hE hf
        · exact w.fac_live _ _ ht hf
      have hids : (m'.topo.fac (a e)).toList ++ (m'.topo.fac (m'.topo.twn (a e))).toList =
          ((m.topo.fac e).toList ++ (m.topo.fac (m.topo.twn e)).toList).map c := by
        rw [S.twn _ hE, S.fac _ hE, S.fac _ ht]
        cases m.topo.fac e <;> cases m.topo.fac (m.topo.twn e) <;> simp
      obtain ⟨F, hF⟩ : ∃ F : Nat → List Nat, ∀ f, m.topo.F f → m'.faceVertices (c f) = some (F f) := by
        refine ⟨fun f => (m'.faceVertices (c f)).getD [], fun f hf => ?_⟩
        obtain ⟨vs, ws, -, -, -, -, h5, -⟩ := faceVertices_shape g g' S hf
        simp [h5]
      have ho : (((m.topo.fac e).toList ++ (m.topo.fac (m.topo.twn e)).toList).map c).mapM (fun g => (m'.faceVertices g).bind fun x => some (g, x)) =
          some (((m.topo.fac e).toList ++ (m.topo.fac (m.topo.twn e)).toList).map fun f => (c f, F f)) := by
        generalize (m.topo.fac e).toList ++ (m.topo.fac (m.topo.twn e)).toList = fs at live ⊢
        clear ih hes h
        induction fs with
        | nil => rfl
        | cons f fs ih =>
          rw [List.map_cons, List.mapM_cons, ih (fun x hx => live x (by simp [hx])), hF f (live f (by simp))]
          rfl
      obtain ⟨fi, hfi⟩ := isoFaces_complete g g' hS S hb hc (others := ((m.topo.fac e).toList ++ (m.topo.fac (m.topo.twn e)).toList).map fun f => (c f, F f)) (by
        intro p hp
        obtain ⟨f, hf, rfl⟩ := List.mem_map.mp hp
        exact ⟨(S.F _).mpr ⟨f, live f hf, rfl⟩, hF f (live f hf)⟩)
        ((m.topo.fac e).toList ++ (m.topo.fac (m.topo.twn e)).toList) s.faces (by
        intro f hf
        refine ⟨live f hf, fun ws hws => ?_⟩
        rw [hF f (live f hf)] at hws
        injection hws with hws; subst hws
        exact List.mem_map.mpr ⟨f, hf, rfl⟩)
      rw [if_neg h, targetVertex_eq w hE]
      simp only [Option.bind_eq_bind, Option.bind_some, h1, r1 dbg, hr, he e hE, Bool.not_true, Bool.false_eq_true, if_false]
      rw [edgeFaceIds_eq w' hE', edgeFaceIds_eq w hE, hids]
      simp only [Option.bind_some, ho, hfi]
      exact ih _ (fun x hx => hes x (by simp [hx]))

theorem isoVertices_complete {m : Mesh VP EP FP} {m' : Mesh VP' EP' FP'} (g : m.Good) (g' : m'.Good) (hS : m'.topo.Simple) {a b c : Nat → Nat}
    (S : m.topo.Shape m'.topo a b c) {iso : List (Nat × Nat)} (hb : ∀ v, m.topo.V v → iso.lookup v = some (b v)) {cv ce cf : Nat → Nat → Bool}
    (hv : ∀ v, m.topo.V v → cv v (b v) = true) (he : ∀ e, m.topo.E e → ce e (a e) = true) (hc : ∀ f, m.topo.F f → cf f (c f) = true) (dbg : Bool) :
    ∀ (vs : List Nat) (s : IsoState), (∀ v ∈ vs, m.topo.V v) → ∃ s', isoVertices dbg m m' iso cv ce cf vs s = some (.inl s') := by
  intro vs
  induction vs with
  | nil => intro s _; exact ⟨s, rfl⟩
  | cons v vs ih =>
    intro s hvs
    have hV := hvs v (by simp)
    obtain ⟨x, hx⟩ := (S.V _).mpr ⟨v, hV, rfl⟩
    have hx' : m'.vertex (b v) = some x := hx
    obtain ⟨l, l1, -, l3, -⟩ := MeshProps.c16_edges_out g hV
    obtain ⟨s1, h1⟩ := isoEdges_complete g g' hS S hb he hc dbg hV l s (fun e he => (l3 e).mp he)
    rw [isoVertices, hb v hV]
    simp only [Option.bind_eq_bind, Option.bind_some, hx', hv v hV, l1 dbg, h1, Bool.not_true, Bool.false_eq_true, if_false]
    exact ih _ (fun x hx => hvs x (by simp [hx]))

theorem len_of_bij {l l' : List Nat} {b : Nat → Nat} (h : l.Nodup) (h' : l'.Nodup) (hi : ∀ x ∈ l, ∀ y ∈ l, b x = b y → x = y) (hm : ∀ y, y ∈ l' ↔ ∃ x ∈ l, b x = y) :
    l.length = l'.length := by
  have hnd : (l.map b).Nodup := by
    rw [List.nodup_iff_pairwise_ne, List.pairwise_map]
    refine List.Pairwise.imp_of_mem ?_ h
    intro x y hx hy hxy hc
    exact hxy (hi x hx y hy hc)
  have h1 := nodup_length_le hnd (l' := l') (fun x hx => by
    obtain ⟨y, hy, rfl⟩ := List.mem_map.mp hx
    exact (hm _).mpr ⟨y, hy, rfl⟩)
  have h2 := nodup_length_le h' (l' := l.map b) (fun x hx => by
    obtain ⟨y, hy, rfl⟩ := (hm _).mp hx
    exact List.mem_map.mpr ⟨y, hy, rfl⟩)
  rw [List.length_map] at h1 h2
  omega

end Mesh
end Verif
namespace Verif.MeshProps
open Mesh
variable {VP EP FP VP' EP' FP' : Type}

/-- C55: a renamed copy without loops and parallel edges is recognised under the renaming of its vertices. -/
theorem c55_complete {m : Mesh VP EP FP} {m' : Mesh VP' EP' FP'} (g : m.Good) (g' : m'.Good) (hS : m'.topo.Simple) {a b c : Nat → Nat}
    (S : m.topo.Shape m'.topo a b c) {iso : List (Nat × Nat)} (hb : ∀ v, m.topo.V v → iso.lookup v = some (b v)) {cv ce cf : Nat → Nat → Bool}
    (hv : ∀ v, m.topo.V v → cv v (b v) = true) (he : ∀ e, m.topo.E e → ce e (a e) = true) (hc : ∀ f, m.topo.F f → cf f (c f) = true) (dbg : Bool) :
    isIsomorphic dbg m m' iso cv ce cf = some .equivalent := by
  have l1 : m.vs.len = m'.vs.len := by
    rw [len_eq_vertexIds g, len_eq_vertexIds g']
    exact len_of_bij (nodup_vertexIds m) (nodup_vertexIds m') (fun x hx y hy => S.injV x y (mem_vertexIds.mp hx) (mem_vertexIds.mp hy))
      (fun y => by rw [mem_vertexIds, S.V]; simp only [mem_vertexIds])
  have l2 : m.hs.len = m'.hs.len := by
    rw [len_eq_edgeIds g, len_eq_edgeIds g']
    exact len_of_bij (nodup_edgeIds m) (nodup_edgeIds m') (fun x hx y hy => S.injE x y (mem_edgeIds.mp hx) (mem_edgeIds.mp hy))
      (fun y => by rw [mem_edgeIds, S.E]; simp only [mem_edgeIds])
  have l3 : m.fs.len = m'.fs.len := by
    rw [len_eq_faceIds g, len_eq_faceIds g']
    exact len_of_bij (nodup_faceIds m) (nodup_faceIds m') (fun x hx y hy => S.injF x y (mem_faceIds.mp hx) (mem_faceIds.mp hy))
      (fun y => by rw [mem_faceIds, S.F]; simp only [mem_faceIds])
  obtain ⟨s, hs⟩ := isoVertices_complete g g' hS S hb hv he hc dbg m.vertexIds ⟨[], []⟩ (fun v hv => mem_vertexIds.mp hv)
  simp [isIsomorphic, l1, l2, l3, hs]

end Verif.MeshProps

namespace Verif.Mesh
variable {VP EP FP VP' EP' FP' : Type}

theorem isoFaces_total {m : Mesh VP EP FP} (g : m.Good) {iso : List (Nat × Nat)} (hi : ∀ v, m.topo.V v → ∃ u, iso.lookup v = some u) {cf : Nat → Nat → Bool}
    {others : List (Nat × List Nat)} : ∀ (fs : List Nat) (fi : List (Nat × Nat)), (∀ f ∈ fs, m.topo.F f) → isoFaces m iso cf others fs fi ≠ none := by
  intro fs
  induction fs with
  | nil => intro fi _; simp [isoFaces]
  | cons f fs ih =>
    intro fi hfs
    have ih' := fun fi => ih fi (fun x hx => hfs x (by simp [hx]))
    rw [isoFaces]
    by_cases h : (fi.lookup f).isSome
    · rw [if_pos h]; exact ih' fi
    · obtain ⟨l, h1, -, h3⟩ := faceVertices_spec g (hfs f (by simp))
      obtain ⟨us, hus⟩ : ∃ us, (l.map fun e => m.topo.org (m.topo.twn e)).mapM (fun v => iso.lookup v) = some us := by
        refine ⟨_, mapM_some (q := fun v => (iso.lookup v).getD 0) (fun v hv => ?_)⟩
        obtain ⟨e, he, rfl⟩ := List.mem_map.mp hv
        obtain ⟨u, hu⟩ := hi _ (g.wf.org_live _ (g.wf.twn_live _ (h3 e he).1))
        simp [hu]
      rw [if_neg h, h1]
      simp only [Option.bind_eq_bind, Option.bind_some, hus]
      cases matchFace us others with
      | none => simp
      | some x =>
        dsimp only
        by_cases hc : cf f x = true
        · simp only [hc, Bool.not_true, Bool.false_eq_true, if_false]; exact ih' _
        · simp [hc]

theorem isoEdges_total {m : Mesh VP EP FP} {m' : Mesh VP' EP' FP'} (g : m.Good) (g' : m'.Good) {iso : List (Nat × Nat)}
    (hi : ∀ v, m.topo.V v → ∃ u, iso.lookup v = some u) {ce cf : Nat → Nat → Bool} (dbg : Bool) {u : Nat} (hu : m'.topo.V u) :
    ∀ (es : List Nat) (s : IsoState), (∀ e ∈ es, m.topo.E e) → isoEdges dbg m m' iso ce cf u es s ≠ none := by
  have w := g.wf
  have w' := g'.wf
  intro es
  induction es with
  | nil => intro s _; simp [isoEdges]
  | cons e es ih =>
    intro s hes
    have ih' := fun s => ih s (fun x hx => hes x (by simp [hx]))
    have hE := hes e (by simp)
    have ht := w.twn_live _ hE
    rw [isoEdges]
    by_cases h : (s.edges.lookup e).isSome
    · rw [if_pos h]; exact ih' s
    · obtain ⟨t, ht1⟩ := hi _ (w.org_live _ ht)
      obtain ⟨r, r1, r2, -⟩ := MeshProps.c17_shared_edge g' hu t
      rw [if_neg h, targetVertex_eq w hE]
      simp only [Option.bind_eq_bind, Option.bind_some, ht1, r1 dbg]
      cases r with
      | none => simp
      | some e' =>
        obtain ⟨q1, -, -⟩ := r2 e' rfl
        dsimp only
        by_cases hc : ce e e' = true
        · simp only [hc, Bool.not_true, Bool.false_eq_true, if_false]
          rw [edgeFaceIds_eq w' q1, edgeFaceIds_eq w hE]
          simp only [Option.bind_some]
          obtain ⟨others, ho⟩ : ∃ o, ((m'.topo.fac e').toList ++ (m'.topo.fac (m'.topo.twn e')).toList).mapM (fun g => (m'.faceVertices g).bind fun x => some (g, x)) = some o := by
            refine ⟨_, mapM_some (q := fun g => (g, (m'.faceVertices g).getD [])) (fun f hf => ?_)⟩
            have : m'.topo.F f := by
              simp only [List.mem_append, Option.mem_toList] at hf
              rcases hf with hf | hf
              · exact w'.fac_live _ _ q1 hf
              · exact w'.fac_live _ _ (w'.twn_live _ q1) hf
            obtain ⟨l, h1, -⟩ := faceVertices_spec g' this
            simp [h1]
          simp only [ho, Option.bind_some]
          cases h5 : isoFaces m iso cf others ((m.topo.fac e).toList ++ (m.topo.fac (m.topo.twn e)).toList) s.faces with
          | none =>
            refine absurd h5 (isoFaces_total g hi _ _ (fun f hf => ?_))
            simp only [List.mem_append, Option.mem_toList] at hf
            rcases hf with hf | hf
            · exact w.fac_live _ _ hE hf
            · exact w.fac_live _ _ ht hf
          | some res =>
            cases res with
            | inl fi => exact ih' _
            | inr d => simp
        · simp [hc]

theorem isoVertices_total {m : Mesh VP EP FP} {m' : Mesh VP' EP' FP'} (g : m.Good) (g' : m'.Good) {iso : List (Nat × Nat)}
    (hi : ∀ v, m.topo.V v → ∃ u, iso.lookup v = some u ∧ m'.topo.V u) {cv ce cf : Nat → Nat → Bool} (dbg : Bool) :
    ∀ (vs : List Nat) (s : IsoState), (∀ v ∈ vs, m.topo.V v) → isoVertices dbg m m' iso cv ce cf vs s ≠ none := by
  intro vs
  induction vs with
  | nil => intro s _; simp [isoVertices]
  | cons v vs ih =>
    intro s hvs
    have ih' := fun s => ih s (fun x hx => hvs x (by simp [hx]))
    obtain ⟨u, h1, x, hx⟩ := hi v (hvs v (by simp))
    have hx' : m'.vertex u = some x := hx
    rw [isoVertices, h1]
    simp only [Option.bind_eq_bind, Option.bind_some, hx']
    by_cases hc : cv v u = true
    · simp only [hc, Bool.not_true, Bool.false_eq_true, if_false]
      obtain ⟨l, l1, -, l3, -⟩ := MeshProps.c16_edges_out g (hvs v (by simp))
      simp only [l1 dbg, Option.bind_some]
      cases h4 : isoEdges dbg m m' iso ce cf u l s with
      | none => exact absurd h4 (isoEdges_total g g' (fun v hv => let ⟨u, h, _⟩ := hi v hv; ⟨u, h⟩) dbg ⟨x, hx⟩ l s (fun e he => ((l3 e).mp he).1))
      | some res =>
        cases res with
        | inl s => exact ih' _
        | inr d => simp
    · simp [hc]

end Verif.Mesh
namespace Verif.MeshProps
open Mesh
variable {VP EP FP VP' EP' FP' : Type}

/-- C55: with a vertex map that is defined on all vertices and maps to vertices the comparison never panics. -/
theorem c55_total {m : Mesh VP EP FP} {m' : Mesh VP' EP' FP'} (g : m.Good) (g' : m'.Good) {iso : List (Nat × Nat)}
    (hi : ∀ v, m.topo.V v → ∃ u, iso.lookup v = some u ∧ m'.topo.V u) (cv ce cf : Nat → Nat → Bool) (dbg : Bool) :
    isIsomorphic dbg m m' iso cv ce cf ≠ none := by
  unfold isIsomorphic
  split
  · simp
  · split
    · simp
    · split
      · simp
      · cases h : isoVertices dbg m m' iso cv ce cf m.vertexIds ⟨[], []⟩ with
        | none => exact absurd h (isoVertices_total g g' hi dbg _ _ (fun v hv => mem_vertexIds.mp hv))
        | some res => cases res <;> simp

/-- the sample is accepted under the identity, and rejected under a map that is not an isomorphism -/
example : ∃ m, sample = some m ∧ m.Good ∧ m.topo.Simple ∧
    isIsomorphic true m m [(0, 0), (1, 1), (2, 2), (3, 3)] (fun _ _ => true) (fun _ _ => true) (fun _ _ => true) = some .equivalent ∧
    isIsomorphic true m m [(0, 3), (1, 1), (2, 2), (3, 0)] (fun _ _ => true) (fun _ _ => true) (fun _ _ => true) = some (.noEdge 0) :=
  ⟨sample.get (by decide +kernel), by decide +kernel, goodB_ok (by decide +kernel), simpleB_ok (by decide +kernel), by decide +kernel, by decide +kernel⟩

end Verif.MeshProps
