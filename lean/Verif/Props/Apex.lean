import Verif.Props.Path
/-
C24: filling a hole with an apex vertex.
-/
namespace Verif.Topo

/-- the half-edges `h 0, …, h (n-1)` form a boundary loop that visits no vertex twice -/
structure Hole (t : Topo) (h : Nat → Nat) (n : Nat) : Prop where
  pos : 2 ≤ n
  live : ∀ i < n, t.E (h i)
  bnd : ∀ i < n, t.fac (h i) = none
  nxt : ∀ i, i + 1 < n → t.nxt (h i) = h (i + 1)
  back : t.nxt (h (n - 1)) = h 0
  simple : ∀ i < n, ∀ j < n, t.org (h i) = t.org (h j) → i = j

/-- the triangle over `e`: `e → a → b → e` with apex `v`, forming the face `g` -/
structure Tri (t0 t : Topo) (e v g a b : Nat) : Prop where
  freshG : ¬ t0.F g
  freshA : ¬ t0.E a
  freshB : ¬ t0.E b
  n1 : t.nxt e = a
  n2 : t.nxt a = b
  n3 : t.nxt b = e
  f1 : t.fac e = some g
  oa : t.org a = t0.org (t0.twn e)
  ob : t.org b = v
  gF : t.F g
  rep : t.frep g = e ∨ t.frep g = a ∨ t.frep g = b

/-- state while the hole is being filled: the triangles over `h i`, `i > j` exist -/
structure Apex (t0 t : Topo) (h : Nat → Nat) (n v j : Nat) (a b g : Nat → Nat) : Prop where
  hj : j < n
  chain : ∀ i < j, t.nxt (h i) = h (i + 1)
  last : t.nxt (h j) = a j
  cd : t.nxt (a j) = b 0
  d0 : t.nxt (b 0) = h 0
  cE : t.E (a j)
  cN : ¬ t0.E (a j)
  dE : t.E (b 0)
  dN : ¬ t0.E (b 0)
  ne : a j ≠ b 0
  bnd : t.fac (a j) = none
  orgd : t.org (b 0) = v
  adj : ∀ e, t.E e → t.org e = v → ∀ i, 1 ≤ i → i ≤ j → t.org (t.twn e) ≠ t0.org (h i)
  tri : ∀ i, j < i → i < n → Tri t0 t (h i) v (g i) (a i) (b i)
  twn : ∀ i, j ≤ i → i + 1 < n → t.twn (b (i + 1)) = a i
  twn0 : t.twn (b 0) = a (n - 1)
  new : ∀ x, t.E x → ¬ t0.E x → (∃ i, j ≤ i ∧ i < n ∧ x = a i) ∨ (∃ i, j < i ∧ i < n ∧ x = b i) ∨ x = b 0
  newF : ∀ x, t.F x → ¬ t0.F x → ∃ i, j < i ∧ i < n ∧ x = g i
  Eold : ∀ x, t0.E x → t.E x
  old : ∀ x, t0.E x → t.twn x = t0.twn x ∧ t.org x = t0.org x
  oldl : ∀ x, t0.E x → (∀ i < n, x ≠ h i) → t.nxt x = t0.nxt x ∧ t.prv x = t0.prv x ∧ t.fac x = t0.fac x
  V : ∀ x, t.V x ↔ x = v ∨ t0.V x
  vrep : ∀ x, x ≠ v → t.vrep x = t0.vrep x
  vrepv : t.vrep v = some (b 0)
  F : ∀ x, t0.F x → t.F x ∧ t.frep x = t0.frep x

theorem Hole.inj {t : Topo} {h : Nat → Nat} {n : Nat} (H : Hole t h n) {i j : Nat} (hi : i < n) (hj : j < n) (e : h i = h j) : i = j :=
  H.simple i hi j hj (by rw [e])

theorem Apex.start {t : Topo} (w : t.WF) {h : Nat → Nat} {n v e1 e2 : Nat} (H : Hole t h n) (hv : ¬ t.V v) (h1 : ¬ t.E e1) (h2 : ¬ t.E e2)
    (h12 : e1 ≠ e2) : Apex t (t.addDangling (h (n - 1)) (h 0) v e1 e2) h n v (n - 1) (fun _ => e1) (fun _ => e2) (fun _ => 0) := by
  have pos := H.pos
  have ne1 : ∀ x, t.E x → x ≠ e1 := fun x hx hc => h1 (hc ▸ hx)
  have ne2 : ∀ x, t.E x → x ≠ e2 := fun x hx hc => h2 (hc ▸ hx)
  have nv : ∀ x, t.E x → t.org x ≠ v := fun x hx hc => hv (hc ▸ w.org_live x hx)
  have hne : h (n - 1) ≠ h 0 := fun hc => by have := H.inj (by omega) (by omega) hc; omega
  refine ⟨by omega, ?_, ?_, ?_, ?_, .inl rfl, h1, .inr (.inl rfl), h2, h12, ?_, ?_, ?_, ?_, ?_, ?_, ?_, ?_,
    fun x hx => .inr (.inr hx), ?_, ?_, ?_, ?_, ?_, ?_⟩
  · intro i hi
    have hE := H.live i (by omega)
    have : h i ≠ h (n - 1) := fun hc => by have := H.inj (by omega) (by omega) hc; omega
    simp [addDangling, ne1 _ hE, ne2 _ hE, this, H.nxt i (by omega)]
  · have hE := H.live (n - 1) (by omega)
    simp [addDangling, ne1 _ hE, ne2 _ hE]
  · simp [addDangling]
  · simp [addDangling, h12.symm]
  · simp [addDangling]
  · simp [addDangling, h12.symm]
  · intro e he ho i h1i hi
    have hEi := H.live i (by omega)
    rcases he with rfl | rfl | he
    · simp only [addDangling, if_true] at ho
      exact absurd ho (nv _ (H.live 0 (by omega)))
    · simp only [addDangling, h12.symm, if_true, if_false]
      intro hc
      have := H.simple 0 (by omega) i (by omega) hc
      omega
    · simp only [addDangling, ne1 _ he, ne2 _ he, if_false] at ho
      exact absurd ho (nv _ he)
  · intro i hi hi'; omega
  · intro i hi hi'; omega
  · simp [addDangling, h12.symm]
  · intro x hx hn
    rcases hx with rfl | rfl | hx
    · exact .inl ⟨n - 1, by omega, by omega, rfl⟩
    · exact .inr (.inr rfl)
    · exact absurd hx hn
  · intro x hx hn; exact absurd hx hn
  · intro x hx; simp [addDangling, ne1 _ hx, ne2 _ hx]
  · intro x hx hh
    simp [addDangling, ne1 _ hx, ne2 _ hx, hh (n - 1) (by omega), hh 0 (by omega)]
  · intro x; rfl
  · intro x hx; simp [addDangling, hx]
  · simp [addDangling]
  · intro x hx; exact ⟨hx, rfl⟩

theorem itr3 {f : Nat → Nat} {a b c : Nat} (h1 : f a = b) (h2 : f b = c) (h3 : f c = a) (ab : a ≠ b) (ac : a ≠ c) (bc : b ≠ c) :
    IsOrbit f a [a, b, c] := by
  refine ⟨?_, by simp, ?_, ?_⟩
  · simp [List.range, List.range.loop, itr, h1, h2]
  · simp [itr, h1, h2, h3]
  · simp [ab, ac, bc]

theorem Apex.step {t0 t : Topo} (w0 : t0.WF) (w : t.WF) {h : Nat → Nat} {n v j e1 e2 f : Nat} {a b g : Nat → Nat} (H : Hole t0 h n)
    (hv : ¬ t0.V v) (A : Apex t0 t h n v (j + 1) a b g) (n1 : ¬ t.E e1) (n2 : ¬ t.E e2) (n12 : e1 ≠ e2) (nf : ¬ t.F f)
    {l : List Nat} (hl : IsOrbit (t.insertEdge (a (j + 1)) (h j) e1 e2).nxt (a (j + 1)) l) :
    Apex t0 ((t.insertEdge (a (j + 1)) (h j) e1 e2).addFace f (a (j + 1)) (· ∈ l)) h n v j
      (fun i => if i = j then e2 else a i) (fun i => if i = j + 1 then e1 else b i) (fun i => if i = j + 1 then f else g i) := by
  have pos := H.pos
  have hj := A.hj
  have ne1 : ∀ x, t.E x → x ≠ e1 := fun x hx hc => n1 (hc ▸ hx)
  have ne2 : ∀ x, t.E x → x ≠ e2 := fun x hx hc => n2 (hc ▸ hx)
  have hE : ∀ i < n, t.E (h i) := fun i hi => A.Eold _ (H.live i hi)
  have hinj : ∀ i < n, ∀ k < n, i ≠ k → h i ≠ h k := fun i hi k hk hik hc => hik (H.inj hi hk hc)
  have cE := A.cE
  have dE := A.dE
  have cN := A.cN
  have dN := A.dN
  have cj : t.nxt (h j) = h (j + 1) := A.chain j (by omega)
  have cl := A.last
  have ccd := A.cd
  have cdne := A.ne
  have Abnd := A.bnd
  have tri := A.tri
  have Anew := A.new
  have Atwn := A.twn
  have Atwn0 := A.twn0
  have twc : t.org (t.twn (a (j + 1))) = v := by rw [← w.org_nxt _ cE, ccd, A.orgd]
  have bne : ∀ i, j + 1 < i → i < n → t.E (a i) ∧ t.E (b i) ∧ a i ≠ a (j + 1) ∧ b i ≠ a (j + 1) ∧ t.fac (a i) = some (g i) ∧ t.fac (b i) = some (g i) := by
    intro i hi hi'
    have T := tri i hi hi'
    have hEi := hE i hi'
    have hEa : t.E (a i) := T.n1 ▸ w.nxt_live _ hEi
    have hEb : t.E (b i) := T.n2 ▸ w.nxt_live _ hEa
    have fa : t.fac (a i) = some (g i) := by rw [← T.n1, w.fac_nxt _ hEi, T.f1]
    have fb : t.fac (b i) = some (g i) := by rw [← T.n2, w.fac_nxt _ hEa, fa]
    exact ⟨hEa, hEb, (fun hc => by rw [hc, Abnd] at fa; cases fa), (fun hc => by rw [hc, Abnd] at fb; cases fb), fa, fb⟩
  generalize hcc : a (j + 1) = c at *
  have hc : ∀ i < n, h i ≠ c := fun i hi hc => cN (hc ▸ H.live i hi)
  have hd : ∀ i < n, h i ≠ b 0 := fun i hi hc => dN (hc ▸ H.live i hi)
  have bnd : t.fac (h (j + 1)) = none := by rw [← w.fac_nxt _ (hE _ hj), cl, Abnd]
  have bndj : t.fac (h j) = none := by rw [← w.fac_nxt _ (hE j (by omega)), cj, bnd]
  have orgj1 : t.org (t.twn (h j)) = t0.org (h (j + 1)) := by
    rw [← w.org_nxt _ (hE j (by omega)), cj, (A.old _ (H.live _ hj)).2]
  -- the new triangle
  have u1 : (t.insertEdge c (h j) e1 e2).nxt c = e1 := by simp [insertEdge, ne1 _ cE, ne2 _ cE]
  have u2 : (t.insertEdge c (h j) e1 e2).nxt e1 = h (j + 1) := by simp [insertEdge, cj]
  have u3 : (t.insertEdge c (h j) e1 e2).nxt (h (j + 1)) = c := by
    simp [insertEdge, ne1 _ (hE _ hj), ne2 _ (hE _ hj), hc _ hj, hinj (j + 1) hj j (by omega) (by omega), cl]
  have hl3 : l = [c, e1, h (j + 1)] := hl.unique (itr3 u1 u2 u3 (ne1 _ cE) (hc _ hj).symm (ne1 _ (hE _ hj)).symm)
  have mem : ∀ x, x ∈ l ↔ x = c ∨ x = e1 ∨ x = h (j + 1) := by intro x; simp [hl3]
  have e2l : e2 ∉ l := by
    rw [mem]; rintro (h | h | h)
    · exact ne2 _ cE h.symm
    · exact n12 h.symm
    · exact ne2 _ (hE _ hj) h.symm
  have dl : b 0 ∉ l := by
    rw [mem]; rintro (h | h | h)
    · exact cdne h.symm
    · exact ne1 _ dE h
    · exact hd _ hj h.symm
  have hil : ∀ i < n, i ≠ j + 1 → h i ∉ l := by
    intro i hi hij
    rw [mem]; rintro (h | h | h)
    · exact hc i hi h
    · exact ne1 _ (hE i hi) h
    · exact hinj i hi _ hj hij h
  have e2N : ¬ t0.E e2 := fun hx => n2 (A.Eold _ hx)
  have e1N : ¬ t0.E e1 := fun hx => n1 (A.Eold _ hx)
  have z0 : ¬ (0 : Nat) = j + 1 := by omega
  refine ⟨by omega, ?_, ?_, ?_, ?_, ?_, ?_, ?_, ?_, ?_, ?_, ?_, ?_, ?_, ?_, ?_, ?_, ?_,
    fun x hx => .inr (.inr (A.Eold x hx)), ?_, ?_, ?_, ?_, ?_, ?_⟩ <;> (try simp only [if_true, if_neg z0])
  · intro i hi
    have hE := hE i (by omega)
    simp [addFace, insertEdge, ne1 _ hE, ne2 _ hE, hc i (by omega), hinj i (by omega) j (by omega) (by omega), A.chain i (by omega)]
  · have hE := hE j (by omega)
    simp [addFace, insertEdge, ne1 _ hE, ne2 _ hE, hc j (by omega)]
  · simp [addFace, insertEdge, n12.symm, ccd]
  · simp [addFace, insertEdge, ne1 _ dE, ne2 _ dE, cdne.symm, (hd j (by omega)).symm, A.d0]
  · exact .inr (.inl rfl)
  · exact e2N
  · exact .inr (.inr dE)
  · exact dN
  · exact (ne2 _ dE).symm
  · simp [addFace, insertEdge, e2l]
  · simp [addFace, insertEdge, ne1 _ dE, ne2 _ dE, A.orgd]
  · intro e he ho i h1i hi
    have hEi := H.live i (by omega)
    rcases he with rfl | rfl | he
    · simp only [addFace, insertEdge, if_true, n12.symm, if_false]
      rw [orgj1]
      intro hc
      have := H.simple (j + 1) hj i (by omega) hc
      omega
    · exfalso
      simp only [addFace, insertEdge, if_true, n12.symm, if_false] at ho
      rw [orgj1] at ho
      exact hv (ho ▸ w0.org_live _ (H.live _ hj))
    · simp only [addFace, insertEdge, ne1 _ he, ne2 _ he, if_false, ne1 _ (w.twn_live _ he), ne2 _ (w.twn_live _ he)] at ho ⊢
      exact A.adj e he ho i h1i (by omega)
  · intro i hi hi'
    by_cases hij : i = j + 1
    · subst hij
      simp only [if_true, if_neg (show ¬ j + 1 = j by omega), hcc]
      refine ⟨fun hf => nf (A.F _ hf).1, cN, e1N, u3, u1, u2, ?_, ?_, ?_, .inl rfl, ?_⟩
      · simp [addFace, (mem _).mpr (.inr (.inr rfl))]
      · simp only [addFace, insertEdge, ne1 _ cE, ne2 _ cE, if_false]
        rw [← cl, w.org_nxt _ (hE _ hi')]
        have htw := w0.twn_live _ (H.live _ hi')
        rw [(A.old _ (H.live _ hi')).1, (A.old _ htw).2]
      · simp [addFace, insertEdge, twc]
      · simp [addFace]
    · rw [if_neg hij, if_neg hij, if_neg (show ¬ i = j by omega)]
      have T := tri i (by omega) hi'
      have hEi := hE i hi'
      obtain ⟨hEa, hEb, ac, bc, fa, fb⟩ := bne i (by omega) hi'
      have aj : a i ≠ h j := fun hc => by rw [hc, bndj] at fa; cases fa
      have bj : b i ≠ h j := fun hc => by rw [hc, bndj] at fb; cases fb
      have gf : g i ≠ f := fun hc => nf (hc ▸ T.gF)
      refine ⟨T.freshG, T.freshA, T.freshB, ?_, ?_, ?_, ?_, ?_, ?_, .inr T.gF, ?_⟩
      · simp [addFace, insertEdge, ne1 _ hEi, ne2 _ hEi, hc i hi', hinj i hi' j (by omega) (by omega), T.n1]
      · simp [addFace, insertEdge, ne1 _ hEa, ne2 _ hEa, ac, aj, T.n2]
      · simp [addFace, insertEdge, ne1 _ hEb, ne2 _ hEb, bc, bj, T.n3]
      · simp [addFace, insertEdge, ne1 _ hEi, ne2 _ hEi, hil i hi' hij, T.f1]
      · simp [addFace, insertEdge, ne1 _ hEa, ne2 _ hEa, T.oa]
      · simp [addFace, insertEdge, ne1 _ hEb, ne2 _ hEb, T.ob]
      · simp only [addFace, insertEdge, if_neg gf]; exact T.rep
  · intro i hi hi'
    by_cases hij : i = j
    · subst hij
      simp [addFace, insertEdge]
    · rw [if_neg (by omega), if_neg (by omega)]
      obtain ⟨hEa, hEb, -⟩ := bne (i + 1) (by omega) hi'
      simp only [addFace, insertEdge, ne1 _ hEb, ne2 _ hEb, if_false]
      exact Atwn i (by omega) hi'
  · rw [if_neg (by omega)]
    simp only [addFace, insertEdge, ne1 _ dE, ne2 _ dE, if_false]
    exact Atwn0
  · intro x hx hn
    rcases hx with rfl | rfl | hx
    · exact .inr (.inl ⟨j + 1, by omega, hj, by simp⟩)
    · exact .inl ⟨j, by omega, by omega, by simp⟩
    · rcases Anew x hx hn with ⟨i, hi, hi', rfl⟩ | ⟨i, hi, hi', rfl⟩ | rfl
      · exact .inl ⟨i, by omega, hi', by rw [if_neg (by omega)]⟩
      · exact .inr (.inl ⟨i, by omega, hi', by rw [if_neg (by omega)]⟩)
      · exact .inr (.inr rfl)
  · intro x hx hn
    rcases hx with rfl | hx
    · exact ⟨j + 1, by omega, hj, by simp⟩
    · obtain ⟨i, hi, hi', rfl⟩ := A.newF x hx hn
      exact ⟨i, by omega, hi', by rw [if_neg (by omega)]⟩
  · intro x hx
    have hE := A.Eold x hx
    simp [addFace, insertEdge, ne1 _ hE, ne2 _ hE, A.old x hx]
  · intro x hx hh
    have hE := A.Eold x hx
    have xc : x ≠ c := fun hc => cN (hc ▸ hx)
    have xd : x ≠ b 0 := fun hc => dN (hc ▸ hx)
    have xl : x ∉ l := by
      rw [mem]; rintro (h | h | h)
      · exact xc h
      · exact ne1 _ hE h
      · exact hh _ hj h
    simp [addFace, insertEdge, ne1 _ hE, ne2 _ hE, xl, cj, ccd, xc, xd, hh j (by omega), hh (j + 1) hj, A.oldl x hx hh]
  · intro x; exact A.V x
  · intro x hx; exact A.vrep x hx
  · exact A.vrepv
  · intro x hx
    have hF := A.F x hx
    refine ⟨.inr hF.1, ?_⟩
    have : x ≠ f := fun hc => nf (hc ▸ hF.1)
    simp [addFace, insertEdge, this, hF.2]

/-- all triangles exist -/
structure Filled (t0 t : Topo) (h : Nat → Nat) (n v : Nat) (a b g : Nat → Nat) : Prop where
  tri : ∀ i < n, Tri t0 t (h i) v (g i) (a i) (b i)
  twn : ∀ i, i + 1 < n → t.twn (b (i + 1)) = a i
  twn0 : t.twn (b 0) = a (n - 1)
  new : ∀ x, t.E x → ¬ t0.E x → (∃ i < n, x = a i) ∨ (∃ i < n, x = b i)
  newF : ∀ x, t.F x → ¬ t0.F x → ∃ i < n, x = g i
  Eold : ∀ x, t0.E x → t.E x
  old : ∀ x, t0.E x → t.twn x = t0.twn x ∧ t.org x = t0.org x
  oldl : ∀ x, t0.E x → (∀ i < n, x ≠ h i) → t.nxt x = t0.nxt x ∧ t.prv x = t0.prv x ∧ t.fac x = t0.fac x
  V : ∀ x, t.V x ↔ x = v ∨ t0.V x
  vrep : ∀ x, x ≠ v → t.vrep x = t0.vrep x
  vrepv : t.vrep v = some (b 0)
  F : ∀ x, t0.F x → t.F x ∧ t.frep x = t0.frep x

theorem Apex.finish {t0 t : Topo} (w0 : t0.WF) (w : t.WF) {h : Nat → Nat} {n v f : Nat} {a b g : Nat → Nat} (H : Hole t0 h n)
    (A : Apex t0 t h n v 0 a b g) (nf : ¬ t.F f) {l : List Nat} (hl : IsOrbit t.nxt (h 0) l) :
    Filled t0 (t.addFace f (h 0) (· ∈ l)) h n v a b (fun i => if i = 0 then f else g i) := by
  have pos := H.pos
  have hE : ∀ i < n, t.E (h i) := fun i hi => A.Eold _ (H.live i hi)
  have hl3 : l = [h 0, a 0, b 0] := hl.unique (itr3 A.last A.cd A.d0 (fun hc => A.cN (hc ▸ H.live 0 (by omega)))
    (fun hc => A.dN (hc ▸ H.live 0 (by omega))) A.ne)
  have mem : ∀ x, x ∈ l ↔ x = h 0 ∨ x = a 0 ∨ x = b 0 := by intro x; simp [hl3]
  have bnd0 : t.fac (h 0) = none := by rw [← w.fac_nxt _ (hE 0 (by omega)), A.last, A.bnd]
  have bndl : ∀ x ∈ l, t.fac x = none := by
    intro x hx
    rcases (mem x).mp hx with rfl | rfl | rfl
    · exact bnd0
    · exact A.bnd
    · rw [← A.cd, w.fac_nxt _ A.cE, A.bnd]
  refine ⟨?_, fun i hi => A.twn i (by omega) hi, A.twn0, ?_, ?_, A.Eold, A.old, ?_, A.V, A.vrep, A.vrepv, ?_⟩
  · intro i hi
    by_cases h0 : i = 0
    · subst h0
      simp only [if_true]
      refine ⟨fun hf => nf (A.F _ hf).1, A.cN, A.dN, A.last, A.cd, A.d0, ?_, ?_, A.orgd, .inl rfl, ?_⟩
      · simp [addFace, (mem _).mpr (.inl rfl)]
      · simp only [addFace]
        rw [← A.last, w.org_nxt _ (hE _ hi)]
        have htw := w0.twn_live _ (H.live _ hi)
        rw [(A.old _ (H.live _ hi)).1, (A.old _ htw).2]
      · simp [addFace]
    · rw [if_neg h0]
      have T := A.tri i (by omega) hi
      have gf : g i ≠ f := fun hc => nf (hc ▸ T.gF)
      have hil : h i ∉ l := fun hc => by have := T.f1.symm.trans (bndl _ hc); cases this
      refine ⟨T.freshG, T.freshA, T.freshB, T.n1, T.n2, T.n3, ?_, T.oa, T.ob, .inr T.gF, ?_⟩
      · simp [addFace, hil, T.f1]
      · simp only [addFace, if_neg gf]; exact T.rep
  · intro x hx hn
    rcases A.new x hx hn with ⟨i, -, hi, rfl⟩ | ⟨i, -, hi, rfl⟩ | rfl
    · exact .inl ⟨i, hi, rfl⟩
    · exact .inr ⟨i, hi, rfl⟩
    · exact .inr ⟨0, by omega, rfl⟩
  · intro x hx hn
    rcases hx with rfl | hx
    · exact ⟨0, by omega, by simp⟩
    · obtain ⟨i, hi, hi', rfl⟩ := A.newF x hx hn
      exact ⟨i, hi', by rw [if_neg (by omega)]⟩
  · intro x hx hh
    have xl : x ∉ l := by
      rw [mem]; rintro (h | h | h)
      · exact hh _ (by omega) h
      · exact A.cN (h ▸ hx)
      · exact A.dN (h ▸ hx)
    simp [addFace, xl, A.oldl x hx hh]
  · intro x hx
    have hF := A.F x hx
    refine ⟨.inr hF.1, ?_⟩
    have : x ≠ f := fun hc => nf (hc ▸ hF.1)
    simp [addFace, this, hF.2]

end Verif.Topo

namespace Verif.Mesh
open Verif.Topo
variable {VP EP FP : Type}

/-- payloads while a hole is being filled -/
structure Pay (m0 m : Mesh VP EP FP) (de : EP) (df : FP) (apex : VP) (v : Nat) : Prop where
  e : ∀ x, m0.topo.E x → m.epay x = m0.epay x
  eN : ∀ x, m.topo.E x → ¬ m0.topo.E x → m.epay x = some de
  v : ∀ x, m.vpay x = if x = v then some apex else m0.vpay x
  f : ∀ x, m0.topo.F x → m.fpay x = m0.fpay x ∧ m.fcurved x = m0.fcurved x
  fN : ∀ x, m.topo.F x → ¬ m0.topo.F x → m.fpay x = some df ∧ m.fcurved x = some false

theorem apexLoop_spec {m0 : Mesh VP EP FP} (g0 : m0.Good) {h : Nat → Nat} {n v : Nat} (H : Hole m0.topo h n) (hv : ¬ m0.topo.V v)
    (dbg : Bool) (de : EP) (df : FP) (apex : VP) {origin : Nat} (ho : m0.topo.org (h 0) = origin) :
    ∀ (j k : Nat) (m : Mesh VP EP FP) (a b g : Nat → Nat), j < k → m.Good → Apex m0.topo m.topo h n v j a b g → Pay m0 m de df apex v →
    ∃ m' a b g, apexLoop dbg de df origin k m (h j) = some (m', h 0) ∧ m'.Good ∧ Apex m0.topo m'.topo h n v 0 a b g ∧
      Pay m0 m' de df apex v := by
  intro j
  induction j with
  | zero =>
    intro k m a b g hk gm A P
    obtain ⟨k, rfl⟩ : ∃ k', k = k' + 1 := ⟨k - 1, by omega⟩
    have pos := H.pos
    obtain ⟨p, -, hr⟩ := edge_rec (A.Eold _ (H.live 0 (by omega)))
    refine ⟨m, a, b, g, ?_, gm, A, P⟩
    simp only [apexLoop, hr, Option.bind_eq_bind, Option.bind_some]
    rw [if_pos (by rw [(A.old _ (H.live 0 (by omega))).2, ho])]
  | succ j ih =>
    intro k m a b g hk gm A P
    obtain ⟨k, rfl⟩ : ∃ k', k = k' + 1 := ⟨k - 1, by omega⟩
    have pos := H.pos
    have hj := A.hj
    have w := gm.wf
    have hE : ∀ i < n, m.topo.E (h i) := fun i hi => A.Eold _ (H.live i hi)
    obtain ⟨p, -, hr⟩ := edge_rec (hE _ hj)
    have hoj : ¬ m.topo.org (h (j + 1)) = origin := by
      rw [(A.old _ (H.live _ hj)).2, ← ho]
      intro hc
      have := H.simple _ hj 0 (by omega) hc
      omega
    have cj := A.chain j (by omega)
    have hpr : m.topo.prv (h (j + 1)) = h j := by rw [← cj, w.prv_nxt _ (hE j (by omega))]
    have bnd : m.topo.fac (h (j + 1)) = none := by rw [← w.fac_nxt _ (hE _ hj), A.last, A.bnd]
    have bndj : m.topo.fac (h j) = none := by rw [← w.fac_nxt _ (hE j (by omega)), cj, bnd]
    have hreach : Reach m.topo.nxt (a (j + 1)) (h j) := by
      have : ∀ i, i ≤ j → Reach m.topo.nxt (a (j + 1)) (h i) := by
        intro i
        induction i with
        | zero => intro _; exact (Reach.one' A.cd).trans (Reach.one' A.d0)
        | succ i ih => intro hi; exact (ih (by omega)).trans (Reach.one' (A.chain i (by omega)))
      exact this j (by omega)
    have twc : m.topo.org (m.topo.twn (a (j + 1))) = v := by rw [← w.org_nxt _ A.cE, A.cd, A.orgd]
    have orgj1 : m.topo.org (m.topo.twn (h j)) = m0.topo.org (h (j + 1)) := by
      rw [← w.org_nxt _ (hE j (by omega)), cj, (A.old _ (H.live _ hj)).2]
    have hcor := MeshProps.corners_of_loop w A.cE (hE j (by omega)) hreach (by
      intro e he ho
      rw [orgj1]
      rw [twc] at ho
      exact A.adj e he ho (j + 1) (by omega) (by omega))
    obtain ⟨m', f, e1, e2, l, c1, c2, c3, c4, c5, c6, c7, c8, c9, c10, c11, c12⟩ := closeFace_spec gm A.cE (hE j (by omega))
      (fun hc => A.cN (hc ▸ H.live j (by omega))) A.bnd bndj dbg (fun _ => hcor) de de df false
    have A' := Apex.step g0.wf w H hv A c3 c4 c5 c6 c7
    rw [← c8] at A'
    have P' : Pay m0 m' de df apex v := by
      refine ⟨?_, ?_, ?_, ?_, ?_⟩
      · intro x hx
        have hx' := A.Eold x hx
        rw [c10, if_neg (fun hc : x = e1 => c3 (hc ▸ hx')), if_neg (fun hc : x = e2 => c4 (hc ▸ hx')), P.e x hx]
      · intro x hx hn
        rw [c8] at hx
        rw [c10]
        by_cases h1 : x = e1
        · simp [h1]
        · by_cases h2 : x = e2
          · simp [h2]
          · rcases hx with hx | hx | hx
            · exact absurd hx h1
            · exact absurd hx h2
            · rw [if_neg h1, if_neg h2, P.eN x hx hn]
      · intro x; rw [← P.v, vpay, vpay, c9]
      · intro x hx
        have : x ≠ f := fun hc => c6 (hc ▸ (A.F x hx).1)
        rw [c11, c12, if_neg this, if_neg this]
        exact P.f x hx
      · intro x hx hn
        rw [c8] at hx
        rw [c11, c12]
        by_cases h1 : x = f
        · simp [h1]
        · rcases hx with hx | hx
          · exact absurd hx h1
          · rw [if_neg h1, if_neg h1]; exact P.fN x hx hn
    obtain ⟨m'', a', b', g', d1, d2⟩ := ih k m' _ _ _ (by omega) c2 A' P'
    refine ⟨m'', a', b', g', ?_, d2⟩
    simp only [apexLoop, hr, Option.bind_eq_bind, Option.bind_some, if_neg hoj, hpr, nextId_eq (hE j (by omega)), cj,
      nextId_eq (hE (j + 1) hj), A.last, c1]
    exact d1

theorem hole_length_le {m : Mesh VP EP FP} {h : Nat → Nat} {n : Nat} (H : Hole m.topo h n) : n ≤ m.fuel := by
  have := nodup_length_le_bound (l := (List.range n).map h) (n := m.fuel) ?_ ?_
  · simpa using this
  · rw [List.nodup_iff_pairwise_ne, List.pairwise_map]
    refine List.Pairwise.imp_of_mem ?_ (List.nodup_iff_pairwise_ne.mp List.nodup_range)
    intro i j hi hj hij hc
    rw [List.mem_range] at hi hj
    exact hij (H.inj hi hj hc)
  · intro x hx
    simp only [List.mem_map, List.mem_range] at hx
    obtain ⟨i, hi, rfl⟩ := hx
    exact live_lt_fuel (H.live i hi)

theorem fillHoleApex_spec {m : Mesh VP EP FP} (g0 : m.Good) {h : Nat → Nat} {n : Nat} (H : Hole m.topo h n)
    (dbg : Bool) (de : EP) (df : FP) (apex : VP) :
    ∃ m' v a b g, m.fillHoleApex dbg de df (h 0) apex = some (m', v) ∧ m'.Good ∧ ¬ m.topo.V v ∧
      Filled m.topo m'.topo h n v a b g ∧ Pay m m' de df apex v := by
  have pos := H.pos
  have w := g0.wf
  obtain ⟨p, -, hr⟩ := edge_rec (H.live 0 (by omega))
  have hpr : m.topo.prv (h 0) = h (n - 1) := by rw [← H.back, w.prv_nxt _ (H.live _ (by omega))]
  obtain ⟨m1, v, e1, e2, a1, a2, a3, a4, a5, a6, a7, a8, a9, a10⟩ := addVertexViaEdge_spec g0 (H.live (n - 1) (by omega)) H.back
    (H.bnd (n - 1) (by omega)) dbg apex de de
  have A1 := Apex.start w H a3 a4 a5 a6
  rw [← a7] at A1
  have P1 : Pay m m1 de df apex v := by
    refine ⟨?_, ?_, a9, ?_, ?_⟩
    · intro x hx
      rw [a10, if_neg (fun hc : x = e1 => a4 (hc ▸ hx)), if_neg (fun hc : x = e2 => a5 (hc ▸ hx))]
    · intro x hx hn
      rw [a7] at hx
      rw [a10]
      rcases hx with rfl | rfl | hx
      · simp
      · simp
      · exact absurd hx hn
    · intro x hx; simp [fpay, fcurved, a8]
    · intro x hx hn
      rw [a7] at hx
      exact absurd hx hn
  obtain ⟨m2, a, b, g, b1, b2, b3, b4⟩ := apexLoop_spec g0 H a3 dbg de df apex rfl (n - 1) m.fuel m1 _ _ _
    (by have := hole_length_le H; omega) a2 A1 P1
  have bnd0 : m2.topo.fac (h 0) = none := by
    rw [← b2.wf.fac_nxt _ (b3.Eold _ (H.live 0 (by omega))), b3.last, b3.bnd]
  obtain ⟨m3, f, l, c1, c2, c3, c4, c5, c6, c7, c8, c9⟩ := closeHole_spec b2 (b3.Eold _ (H.live 0 (by omega))) bnd0 dbg df false
  have F3 := b3.finish w b2.wf H c3 c4
  rw [← c5] at F3
  refine ⟨m3, v, a, b, _, ?_, c2, a3, F3, ?_⟩
  · simp [fillHoleApex, originId, prevId, hr, hpr, a1, b1, c1]
  · refine ⟨?_, ?_, ?_, ?_, ?_⟩
    · intro x hx; rw [c7, b4.e x hx]
    · intro x hx hn
      rw [c5] at hx
      rw [c7, b4.eN x hx hn]
    · intro x; rw [← b4.v, vpay, vpay, c6]
    · intro x hx
      have : x ≠ f := fun hc => c3 (hc ▸ (b3.F x hx).1)
      rw [c8, c9, if_neg this, if_neg this]
      exact b4.f x hx
    · intro x hx hn
      rw [c5] at hx
      rw [c8, c9]
      by_cases h1 : x = f
      · simp [h1]
      · rcases hx with hx | hx
        · exact absurd hx h1
        · rw [if_neg h1, if_neg h1]; exact b4.fN x hx hn

end Verif.Mesh

namespace Verif.Mesh
open Verif.Topo
variable {VP EP FP : Type}

theorem Filled.inner {t0 t : Topo} (w : t.WF) {h : Nat → Nat} {n v : Nat} {a b g : Nat → Nat} (H : Hole t0 h n)
    (F : Filled t0 t h n v a b g) {i : Nat} (hi : i < n) :
    t.E (h i) ∧ t.E (a i) ∧ t.E (b i) ∧ t.fac (a i) = some (g i) ∧ t.fac (b i) = some (g i) ∧
    t.prv (h i) = b i ∧ t.prv (a i) = h i ∧ t.prv (b i) = a i := by
  have T := F.tri i hi
  have hE := F.Eold _ (H.live i hi)
  have hA : t.E (a i) := T.n1 ▸ w.nxt_live _ hE
  have hB : t.E (b i) := T.n2 ▸ w.nxt_live _ hA
  refine ⟨hE, hA, hB, ?_, ?_, ?_, ?_, ?_⟩
  · rw [← T.n1, w.fac_nxt _ hE, T.f1]
  · rw [← T.n2, w.fac_nxt _ hA, ← T.n1, w.fac_nxt _ hE, T.f1]
  · have := w.prv_nxt _ hB; rwa [T.n3] at this
  · have := w.prv_nxt _ hE; rwa [T.n1] at this
  · have := w.prv_nxt _ hA; rwa [T.n2] at this

theorem Filled.orbit {t0 t : Topo} {h : Nat → Nat} {n v : Nat} {a b g : Nat → Nat} (H : Hole t0 h n)
    (F : Filled t0 t h n v a b g) {i : Nat} (hi : i < n) (hab : a i ≠ b i) : IsOrbit t.nxt (h i) [h i, a i, b i] := by
  have T := F.tri i hi
  exact itr3 T.n1 T.n2 T.n3 (fun hc => T.freshA (hc ▸ H.live i hi)) (fun hc => T.freshB (hc ▸ H.live i hi)) hab

theorem holeFilled {m m' : Mesh VP EP FP} (g0 : m.Good) (g1 : m'.Good) {h : Nat → Nat} {n v : Nat} {a b g : Nat → Nat}
    (H : Hole m.topo h n) {de : EP} {df : FP} {apex : VP} (hv : ¬ m.topo.V v)
    (F : Filled m.topo m'.topo h n v a b g) (P : Pay m m' de df apex v) : HoleFilled m m' de df apex h n v a b g := by
  have pos := H.pos
  have w := g1.wf
  have twnb : ∀ i < n, m'.topo.twn (b i) = a ((i + (n - 1)) % n) := by
    intro i hi
    rw [pred_mod hi]
    by_cases h0 : i = 0
    · subst h0; simpa using F.twn0
    · rw [if_neg h0]
      have := F.twn (i - 1) (by omega)
      rwa [show i - 1 + 1 = i by omega] at this
  have twna : ∀ i < n, m'.topo.twn (a i) = b ((i + 1) % n) := by
    intro i hi
    have hlt : (i + 1) % n < n := Nat.mod_lt _ (by omega)
    have h1 := twnb _ hlt
    have : ((i + 1) % n + (n - 1)) % n = i := by
      rw [Nat.mod_add_mod, show i + 1 + (n - 1) = i + n by omega, Nat.add_mod_right, Nat.mod_eq_of_lt hi]
    rw [this] at h1
    rw [← h1, w.twn_twn _ (Filled.inner w H F hlt).2.2.1]
  have hab : ∀ i < n, ∀ j < n, a i ≠ b j := by
    intro i hi j hj hc
    have h1 := (F.tri i hi).oa
    rw [hc, (F.tri j hj).ob] at h1
    exact hv (h1 ▸ g0.wf.org_live _ (g0.wf.twn_live _ (H.live i hi)))
  have inA : ∀ i < n, ∀ j < n, a i = a j → i = j := by
    intro i hi j hj hc
    have h1 := (Filled.inner w H F hi).2.2.2.2.2.2.1
    rw [hc, (Filled.inner w H F hj).2.2.2.2.2.2.1] at h1
    exact H.inj hi hj h1.symm
  have inB : ∀ i < n, ∀ j < n, b i = b j → i = j := by
    intro i hi j hj hc
    have h1 := (F.tri i hi).n3
    rw [hc, (F.tri j hj).n3] at h1
    exact H.inj hi hj h1.symm
  refine ⟨vertex_none.mpr hv, fun i hi => edge_none.mpr (F.tri i hi).freshA, fun i hi => edge_none.mpr (F.tri i hi).freshB,
    fun i hi => face_none.mpr (F.tri i hi).freshG, inA, inB, ?_, hab, ?_, ?_, ?_, ?_, ?_, ?_, ?_, ?_⟩
  · intro i hi j hj hc
    have hE := (Filled.inner w H F hi).1
    have hE' := (Filled.inner w H F hj).1
    have hr := w.loop _ _ _ hE hE' (F.tri i hi).f1 (hc ▸ (F.tri j hj).f1)
    rw [← (Filled.orbit H F hi (hab i hi i hi)).mem_iff] at hr
    simp only [List.mem_cons, List.not_mem_nil, or_false] at hr
    rcases hr with hr | hr | hr
    · exact (H.inj hj hi hr).symm
    · exact absurd (hr ▸ H.live j hj) (F.tri i hi).freshA
    · exact absurd (hr ▸ H.live j hj) (F.tri i hi).freshB
  · have : m'.vpay v = some apex := by rw [P.v]; simp
    rw [vertex_is this, F.vrepv]
  · intro i hi
    obtain ⟨k1, -, -, -, -, k6, -, -⟩ := Filled.inner w H F hi
    obtain ⟨p, q1, q2⟩ := edge_rec (H.live i hi)
    have hp : m'.epay (h i) = some p := by rw [P.e _ (H.live i hi), q1]
    have T := F.tri i hi
    rw [q2, edge_is k1 hp, T.n1, k6, T.f1, (F.old _ (H.live i hi)).1, (F.old _ (H.live i hi)).2]
    rfl
  · intro i hi
    obtain ⟨-, k1, -, k3, -, -, k6, -⟩ := Filled.inner w H F hi
    have T := F.tri i hi
    have hlt : (i + 1) % n < n := Nat.mod_lt _ (by omega)
    refine ⟨_, originId_eq (H.live _ hlt), ?_⟩
    have hn : m.topo.nxt (h i) = h ((i + 1) % n) := by
      rw [succ_mod hi]
      by_cases hc : i + 1 = n
      · rw [if_pos hc]
        have := H.back
        rwa [show n - 1 = i by omega] at this
      · rw [if_neg hc]; exact H.nxt i (by omega)
    rw [edge_is k1 (P.eN _ k1 T.freshA), T.n2, twna i hi, k6, T.oa, k3, ← hn, g0.wf.org_nxt _ (H.live i hi)]
  · intro i hi
    obtain ⟨-, -, k1, -, k3, -, -, k6⟩ := Filled.inner w H F hi
    have T := F.tri i hi
    rw [edge_is k1 (P.eN _ k1 T.freshB), T.n3, twnb i hi, k6, T.ob, k3]
  · intro i hi
    have T := F.tri i hi
    obtain ⟨p1, p2⟩ := P.fN _ T.gF T.freshG
    exact ⟨_, T.rep, face_is p1 p2⟩
  · intro x hx
    by_cases hE : m.topo.E x
    · refine edge_same (P.e x hE) (fun _ => ?_)
      have h1 := F.oldl x hE (fun i hi => (hx i hi).1)
      have h2 := F.old x hE
      exact ⟨h1.1, h2.1, h1.2.1, h2.2, h1.2.2⟩
    · rw [edge_none.mpr hE, edge_none]
      intro hE'
      rcases F.new x hE' hE with ⟨i, hi, hc⟩ | ⟨i, hi, hc⟩
      · exact (hx i hi).2.1 hc
      · exact (hx i hi).2.2 hc
  · intro x hx
    exact vertex_same (by rw [P.v, if_neg hx]) (fun _ => F.vrep x hx)
  · intro x hx
    by_cases hF : m.topo.F x
    · exact face_same (P.f x hF).1 (P.f x hF).2 (fun _ => (F.F x hF).2)
    · rw [face_none.mpr hF, face_none]
      intro hF'
      obtain ⟨i, hi, hc⟩ := F.newF x hF' hF
      exact hx i hi hc

theorem nodup_map_range {f : Nat → Nat} {n : Nat} (h : ∀ i < n, ∀ j < n, f i = f j → i = j) : ((List.range n).map f).Nodup := by
  rw [List.nodup_iff_pairwise_ne, List.pairwise_map]
  refine List.Pairwise.imp_of_mem ?_ (List.nodup_iff_pairwise_ne.mp List.nodup_range)
  intro i j hi hj hij hc
  rw [List.mem_range] at hi hj
  exact hij (h i hi j hj hc)

theorem HoleFilled.lens {m m' : Mesh VP EP FP} {de : EP} {df : FP} {apex : VP} {h a b g : Nat → Nat} {n v : Nat}
    (hl : ∀ i < n, m.topo.E (h i)) (F : HoleFilled m m' de df apex h n v a b g) (g0 : m.Good) (g1 : m'.Good) :
    m'.vs.len = m.vs.len + 1 ∧ m'.hs.len = m.hs.len + 2 * n ∧ m'.fs.len = m.fs.len + n := by
  refine ⟨?_, ?_, ?_⟩
  · refine len_add g0.vs g1.vs (l := [v]) (by simp) (by simpa [vertex] using F.freshV) ?_
    intro x
    by_cases hx : x = v
    · subst hx; exact ⟨fun _ => .inr (by simp), fun _ => ⟨_, F.newV⟩⟩
    · have := F.vertices x hx
      simp only [vertex] at this
      simp [this, hx]
  · have := len_add g0.hs g1.hs (l := (List.range n).map a ++ (List.range n).map b) ?_ ?_ ?_
    · simp at this; omega
    · rw [List.nodup_append]
      refine ⟨nodup_map_range F.injA, nodup_map_range F.injB, ?_⟩
      intro x hx y hy hxy
      simp only [List.mem_map, List.mem_range] at hx hy
      obtain ⟨i, hi, rfl⟩ := hx
      obtain ⟨j, hj, rfl⟩ := hy
      exact F.disj i hi j hj hxy
    · intro x hx
      simp only [List.mem_append, List.mem_map, List.mem_range] at hx
      rcases hx with ⟨i, hi, rfl⟩ | ⟨i, hi, rfl⟩
      · exact F.freshA i hi
      · exact F.freshB i hi
    · intro x
      simp only [List.mem_append, List.mem_map, List.mem_range]
      by_cases hx : ∃ i, i < n ∧ a i = x
      · obtain ⟨i, hi, rfl⟩ := hx
        obtain ⟨o, -, k⟩ := F.newA i hi
        exact ⟨fun _ => .inr (.inl ⟨i, hi, rfl⟩), fun _ => ⟨_, k⟩⟩
      · by_cases hy : ∃ i, i < n ∧ b i = x
        · obtain ⟨i, hi, rfl⟩ := hy
          exact ⟨fun _ => .inr (.inr ⟨i, hi, rfl⟩), fun _ => ⟨_, F.newB i hi⟩⟩
        · by_cases hz : ∃ i, i < n ∧ h i = x
          · obtain ⟨i, hi, rfl⟩ := hz
            have := F.hole i hi
            obtain ⟨r, hr⟩ := hl i hi
            have hr' : m.edge (h i) = some r := hr
            rw [hr'] at this
            exact ⟨fun _ => .inl ⟨r, hr⟩, fun _ => ⟨_, this⟩⟩
          · have := F.edges x (fun i hi => ⟨fun hc => hz ⟨i, hi, hc.symm⟩, fun hc => hx ⟨i, hi, hc.symm⟩, fun hc => hy ⟨i, hi, hc.symm⟩⟩)
            simp only [edge] at this
            simp [this, hx, hy]
  · have := len_add g0.fs g1.fs (l := (List.range n).map g) (nodup_map_range F.injG) ?_ ?_
    · simpa using this
    · intro x hx
      simp only [List.mem_map, List.mem_range] at hx
      obtain ⟨i, hi, rfl⟩ := hx
      exact F.freshG i hi
    · intro x
      simp only [List.mem_map, List.mem_range]
      by_cases hx : ∃ i, i < n ∧ g i = x
      · obtain ⟨i, hi, rfl⟩ := hx
        obtain ⟨r, -, k⟩ := F.newG i hi
        exact ⟨fun _ => .inr ⟨i, hi, rfl⟩, fun _ => ⟨_, k⟩⟩
      · have := F.faces x (fun i hi hc => hx ⟨i, hi, hc.symm⟩)
        simp only [face] at this
        simp [this, hx]

end Verif.Mesh
namespace Verif.MeshProps
open Mesh
variable {VP EP FP : Type}

/-! ### C24 -/

/-- `fill_hole_apex` on a boundary loop `h 0, …, h (n-1)` that visits no vertex twice (in both build modes): one new vertex, `n`
    new edges, `n` new faces with three half-edges each, a consistent mesh, and no half-edge of the former hole nor any new
    half-edge on the boundary.
    Missing for the full property: holes that pass through a vertex twice, see `c24_pinched`. -/
theorem c24_fill_hole_apex_partial {m : Mesh VP EP FP} (gm : m.Good) {h : Nat → Nat} {n : Nat}
    (hl : m.edgesFace (h 0) = some ((List.range n).map h)) (hb : m.isBoundarySelf (h 0) = some true)
    (hs : ∀ i < n, ∀ j < n, m.originId (h i) = m.originId (h j) → i = j)
    (dbg : Bool) (de : EP) (df : FP) (apex : VP) :
    ∃ m' v a b g, m.fillHoleApex dbg de df (h 0) apex = some (m', v) ∧ m'.Good ∧ HoleFilled m m' de df apex h n v a b g ∧
      m'.vs.len = m.vs.len + 1 ∧ m'.hs.len = m.hs.len + 2 * n ∧ m'.fs.len = m.fs.len + n ∧
      (∀ i < n, ∃ l, m'.faceEdges (g i) = some l ∧ l.length = 3 ∧ ∀ x, x ∈ l ↔ x = h i ∨ x = a i ∨ x = b i) ∧
      (∀ x, m'.isBoundarySelf x = some true → m.isBoundarySelf x = some true ∧ ∀ i < n, x ≠ h i) := by
  have w := gm.wf
  have hE0 : m.topo.E (h 0) := by
    cases hr : m.edge (h 0) with
    | none => simp [isBoundarySelf, hr] at hb
    | some r => exact E_of_some hr
  have hb0 : m.topo.fac (h 0) = none := by
    obtain ⟨p, -, hr⟩ := edge_rec hE0
    simpa [isBoundarySelf, hr] using hb
  obtain ⟨l, l1, l2, l3, -⟩ := edgesFace_spec w hE0
  rw [hl] at l1
  injection l1 with l1
  have hlen : l.length = n := by rw [← l1]; simp
  have hget : ∀ i < n, itr m.topo.nxt i (h 0) = h i := by
    intro i hi
    have h1 := l2.eq
    rw [hlen, ← l1, List.map_inj_left] at h1
    exact (h1 i (List.mem_range.mpr hi)).symm
  have hpos : 0 < n := by
    have := l2.pos; rw [← hlen]; exact this
  have hn2 : 2 ≤ n := by
    refine Classical.byContradiction fun hc => ?_
    have : n = 1 := by omega
    have hcl := l2.close
    rw [hlen, this] at hcl
    exact w.nxt_ne _ hE0 hcl
  have hlive : ∀ i < n, m.topo.E (h i) := by
    intro i hi
    refine l3 _ ?_
    rw [← l1, List.mem_map]
    exact ⟨i, List.mem_range.mpr hi, rfl⟩
  have hnx : ∀ i < n, m.topo.nxt (h i) = itr m.topo.nxt (i + 1) (h 0) := by
    intro i hi; rw [itr_succ, hget i hi]
  have hbnd : ∀ i < n, m.topo.fac (h i) = none := by
    intro i
    induction i with
    | zero => intro _; exact hb0
    | succ i ih =>
      intro hi
      rw [← hget _ hi, ← hnx i (by omega), w.fac_nxt _ (hlive i (by omega)), ih (by omega)]
  have H : Topo.Hole m.topo h n := by
    refine ⟨hn2, hlive, hbnd, fun i hi => by rw [hnx i (by omega), hget _ hi], ?_, ?_⟩
    · rw [hnx _ (by omega), show n - 1 + 1 = l.length by omega]; exact l2.close
    · intro i hi j hj hc
      exact hs i hi j hj (by rw [originId_eq (hlive i hi), originId_eq (hlive j hj), hc])
  obtain ⟨m', v, a, b, g, r1, r2, r3, r4, r5⟩ := fillHoleApex_spec gm H dbg de df apex
  have HF := holeFilled gm r2 H r3 r4 r5
  refine ⟨m', v, a, b, g, r1, r2, HF, (HF.lens hlive gm r2).1, (HF.lens hlive gm r2).2.1, (HF.lens hlive gm r2).2.2, ?_, ?_⟩
  · intro i hi
    have T := r4.tri i hi
    obtain ⟨l', q1, q2, q3, q4⟩ := c15_face_edges r2 T.gF
    have horb := Filled.orbit H r4 hi (HF.disj i hi i hi)
    have hmem : ∀ x, x ∈ l' ↔ x = h i ∨ x = a i ∨ x = b i := by
      intro x
      rw [q3]
      obtain ⟨k1, k2, k3, k4, k5, -⟩ := Filled.inner r2.wf H r4 hi
      constructor
      · rintro ⟨hx, hfx⟩
        have := (horb.mem_iff x).mpr (r2.wf.loop _ _ _ k1 hx T.f1 hfx)
        simpa using this
      · rintro (rfl | rfl | rfl)
        · exact ⟨k1, T.f1⟩
        · exact ⟨k2, k4⟩
        · exact ⟨k3, k5⟩
    refine ⟨l', q1, ?_, hmem⟩
    have h1 := nodup_length_le q2 (l' := [h i, a i, b i]) (by intro x hx; simpa using (hmem x).mp hx)
    have h2 := nodup_length_le horb.nodup (l' := l') (by intro x hx; exact (hmem x).mpr (by simpa using hx))
    simp at h1 h2
    omega
  · intro x hx
    have : ∀ i < n, x ≠ h i ∧ x ≠ a i ∧ x ≠ b i := by
      intro i hi
      refine ⟨?_, ?_, ?_⟩
      · rintro rfl
        obtain ⟨r, hr⟩ := hlive i hi
        have hr' : m.edge (h i) = some r := hr
        simp [isBoundarySelf, HF.hole i hi, hr'] at hx
      · rintro rfl
        obtain ⟨o, -, k⟩ := HF.newA i hi
        simp [isBoundarySelf, k] at hx
      · rintro rfl
        simp [isBoundarySelf, HF.newB i hi] at hx
    refine ⟨?_, fun i hi => (this i hi).1⟩
    have he := HF.edges x this
    simpa [isBoundarySelf, he] using hx

/-- a path with two edges; its boundary loop passes through the middle vertex twice -/
def pinched : Option (Mesh Nat Nat Nat) := do
  let (m, _, _) ← (empty : Mesh Nat Nat Nat).addIsolatedEdge 10 0 11 0
  let (m, _) ← m.addVertexViaEdge true 0 1 12 0 0
  some m

/-- The hole has four half-edges, yet `fill_hole_apex` only adds two faces, one of them with five half-edges. -/
theorem c24_pinched : ∃ m, pinched = some m ∧ m.Good ∧ m.edgesFace 2 = some [2, 3, 1, 0] ∧ m.isBoundarySelf 2 = some true ∧
    ∀ dbg, ∃ m' v, m.fillHoleApex dbg 0 0 2 13 = some (m', v) ∧ m'.Good ∧ m'.fs.len = m.fs.len + 2 ∧
      m'.hs.len = m.hs.len + 2 * 2 ∧ m'.numFaceEdges 1 = some 5 := by
  refine ⟨pinched.get (by decide +kernel), by decide +kernel, goodB_ok (by decide +kernel), by decide +kernel, by decide +kernel, ?_⟩
  rintro (_ | _)
  · exact ⟨((pinched.get (by decide +kernel)).fillHoleApex false 0 0 2 13 |>.get (by decide +kernel)).1, 3, by decide +kernel,
      goodB_ok (by decide +kernel), by decide +kernel, by decide +kernel, by decide +kernel⟩
  · exact ⟨((pinched.get (by decide +kernel)).fillHoleApex true 0 0 2 13 |>.get (by decide +kernel)).1, 3, by decide +kernel,
      goodB_ok (by decide +kernel), by decide +kernel, by decide +kernel, by decide +kernel⟩

/-- the outside of a triangle is such a hole -/
example : ∃ m h, triangle = some m ∧ m.Good ∧ m.edgesFace (h 0) = some ((List.range 3).map h) ∧ m.isBoundarySelf (h 0) = some true ∧
    (∀ i < 3, ∀ j < 3, m.originId (h i) = m.originId (h j) → i = j) ∧
    ∃ m' v, m.fillHoleApex true 0 0 (h 0) 13 = some (m', v) ∧ m'.vs.len = 4 ∧ m'.hs.len = 12 ∧ m'.fs.len = 4 := by
  refine ⟨triangle.get (by decide +kernel), fun i => [1, 5, 3].getD i 0, by decide +kernel, goodB_ok (by decide +kernel), by decide +kernel,
    by decide +kernel, by decide +kernel, ?_⟩
  exact ⟨((triangle.get (by decide +kernel)).fillHoleApex true 0 0 1 13 |>.get (by decide +kernel)).1, 3, by decide +kernel,
    by decide +kernel, by decide +kernel, by decide +kernel⟩

end Verif.MeshProps
