import Verif.Lemmas.SubdivisionRun
import Verif.Lemmas.Decide
import Verif.Props.Apex
/-! Loop subdivision: C52, C56, C57. -/
namespace Verif.Mesh
variable {VP EP FP : Type}

/-- counting the elements of a store -/
theorem len_of_list {α : Type} {s : Store α} (h : StoreOK s) {l : List Nat} (hl : l.Nodup) (hs : ∀ x, (∃ a, s.get? x = some a) ↔ x ∈ l) : s.len = l.length := by
  have h1 := Store.length_eq (storeOK_iff.mp h)
  have h2 : s.len = (s.iter.map Prod.fst).length := by
    simp only [List.length_map, Store.len, h1, List.length_nil]
    omega
  rw [h2]
  apply List.Perm.length_eq
  rw [List.perm_ext_iff_of_nodup _ hl]
  · intro x
    rw [← hs]
    simp only [List.mem_map, Prod.exists, exists_and_right, exists_eq_right]
    exact ⟨fun ⟨v, h⟩ => ⟨v, Store.mem_iter.mp h⟩, fun ⟨v, h⟩ => ⟨v, Store.mem_iter.mpr h⟩⟩
  · rw [List.nodup_iff_pairwise_ne]
    exact (Store.iterFrom_sorted 0 s.data).imp (fun h => Nat.ne_of_lt h)

/-- the elements of a store -/
theorem exists_list {α : Type} {s : Store α} (h : StoreOK s) : ∃ l : List Nat, l.Nodup ∧ (∀ x, (∃ a, s.get? x = some a) ↔ x ∈ l) ∧ s.len = l.length := by
  have h1 : ∀ x, (∃ a, s.get? x = some a) ↔ x ∈ s.iter.map Prod.fst := by
    intro x
    simp only [List.mem_map, Prod.exists, exists_and_right, exists_eq_right]
    exact ⟨fun ⟨v, h⟩ => ⟨v, Store.mem_iter.mpr h⟩, fun ⟨v, h⟩ => ⟨v, Store.mem_iter.mp h⟩⟩
  have h2 : (s.iter.map Prod.fst).Nodup := by
    rw [List.nodup_iff_pairwise_ne]
    exact (Store.iterFrom_sorted 0 s.data).imp (fun h => Nat.ne_of_lt h)
  exact ⟨_, h2, h1, len_of_list h h2 h1⟩

theorem nodup_map {f : Nat → Nat} {l : List Nat} (h : l.Nodup) (hi : ∀ x ∈ l, ∀ y ∈ l, f x = f y → x = y) : (l.map f).Nodup := by
  rw [List.nodup_iff_pairwise_ne, List.pairwise_map]
  refine List.Pairwise.imp_of_mem ?_ h
  intro x y hx hy hxy hc
  exact hxy (hi x hx y hy hc)

theorem nodup_append {l l' : List Nat} (h : l.Nodup) (h' : l'.Nodup) (hd : ∀ x ∈ l, x ∉ l') : (l ++ l').Nodup := by
  rw [List.nodup_append]
  exact ⟨h, h', fun x hx y hy hxy => hd x hx (hxy ▸ hy)⟩

/-- a closed triangle mesh has three half-edges per face -/
theorem tri_lens {m : Mesh VP EP FP} (g : m.Good) (T : m.topo.TriMesh) : m.hs.len = 3 * m.fs.len := by
  obtain ⟨fl, f1, f2, f3⟩ := exists_list g.fs
  have w := T.wf
  have fr : ∀ f ∈ fl, m.topo.E (m.topo.frep f) ∧ m.topo.fc (m.topo.frep f) = f := by
    intro f hf
    obtain ⟨h1, h2⟩ := w.frep_ok f ((f2 f).mpr hf)
    exact ⟨h1, by rw [Topo.fc, h2]; rfl⟩
  have hn : ∀ f ∈ fl, m.topo.fc (m.topo.nxt (m.topo.frep f)) = f := fun f hf => by rw [T.fc_nxt (fr f hf).1, (fr f hf).2]
  have hp : ∀ f ∈ fl, m.topo.fc (m.topo.prv (m.topo.frep f)) = f := fun f hf => by rw [T.fc_prv (fr f hf).1, (fr f hf).2]
  have ne1 : ∀ f ∈ fl, m.topo.nxt (m.topo.frep f) ≠ m.topo.frep f := fun f hf => w.nxt_ne _ (fr f hf).1
  have ne2 : ∀ f ∈ fl, m.topo.prv (m.topo.frep f) ≠ m.topo.frep f := fun f hf h => ne1 f hf (by have := w.nxt_prv _ (fr f hf).1; rwa [h] at this)
  have ne3 : ∀ f ∈ fl, m.topo.prv (m.topo.frep f) ≠ m.topo.nxt (m.topo.frep f) := fun f hf h => by
    rw [← T.nxt_nxt (fr f hf).1] at h
    exact w.nxt_ne _ (w.nxt_live _ (fr f hf).1) h
  have := len_of_list g.hs (l := fl.map m.topo.frep ++ (fl.map (fun f => m.topo.nxt (m.topo.frep f)) ++ fl.map (fun f => m.topo.prv (m.topo.frep f)))) ?_ ?_
  · rw [this, f3]; simp; omega
  · refine nodup_append (nodup_map f1 ?_) (nodup_append (nodup_map f1 ?_) (nodup_map f1 ?_) ?_) ?_
    · intro x hx y hy h; rw [← (fr x hx).2, h, (fr y hy).2]
    · intro x hx y hy h; rw [← hn x hx, h, hn y hy]
    · intro x hx y hy h; rw [← hp x hx, h, hp y hy]
    · intro x hx hy
      obtain ⟨a, ha, rfl⟩ := List.mem_map.mp hx
      obtain ⟨b, hb, h⟩ := List.mem_map.mp hy
      have : b = a := by rw [← hp b hb, h, hn a ha]
      subst this
      exact ne3 b hb h
    · intro x hx hy
      obtain ⟨a, ha, rfl⟩ := List.mem_map.mp hx
      rcases List.mem_append.mp hy with hy | hy <;> obtain ⟨b, hb, h⟩ := List.mem_map.mp hy
      · have : b = a := by rw [← hn b hb, h, (fr a ha).2]
        subst this
        exact ne1 b hb h
      · have : b = a := by rw [← hp b hb, h, (fr a ha).2]
        subst this
        exact ne2 b hb h
  · intro x
    show m.topo.E x ↔ _
    simp only [List.mem_append, List.mem_map]
    constructor
    · intro hx
      have hf : m.topo.fc x ∈ fl := (f2 _).mp (w.fac_live x _ hx (T.fac hx))
      rcases T.same_face (fr _ hf).1 hx (fr _ hf).2 with h | h | h
      · exact .inl ⟨_, hf, h.symm⟩
      · exact .inr (.inl ⟨_, hf, h.symm⟩)
      · exact .inr (.inr ⟨_, hf, h.symm⟩)
    · rintro (⟨f, hf, rfl⟩ | ⟨f, hf, rfl⟩ | ⟨f, hf, rfl⟩)
      · exact (fr f hf).1
      · exact w.nxt_live _ (fr f hf).1
      · exact w.prv_live _ (fr f hf).1

/-- the numbers of vertices, half-edges and faces after loop subdivision -/
theorem subdivided_lens {m0 m : Mesh VP EP FP} (g0 : m0.Good) (g : m.Good) (T : m0.topo.TriMesh) {n p q μ ci ce : Nat → Nat} (D : Topo.Subdivided m0.topo m.topo n p q μ ci ce) :
    2 * m.vs.len = 2 * m0.vs.len + m0.hs.len ∧ m.hs.len = 4 * m0.hs.len ∧ m.fs.len = 4 * m0.fs.len := by
  obtain ⟨el, e1, e2, e3⟩ := exists_list g0.hs
  obtain ⟨fl, f1, f2, f3⟩ := exists_list g0.fs
  obtain ⟨vl, v1, v2, v3⟩ := exists_list g0.vs
  have e2' : ∀ x, x ∈ el ↔ m0.topo.E x := fun x => (e2 x).symm
  have f2' : ∀ x, x ∈ fl ↔ m0.topo.F x := fun x => (f2 x).symm
  have v2' : ∀ x, x ∈ vl ↔ m0.topo.V x := fun x => (v2 x).symm
  have h3 := tri_lens g0 T
  have ht := T.wf.twn_live
  have htt := T.wf.twn_twn
  have hs : m.hs.len = 4 * m0.hs.len := by
    have := len_of_list g.hs (l := el ++ (el.map n ++ (el.map p ++ el.map q))) ?_ ?_
    · rw [this, e3]; simp; omega
    · have inj := D.inj
      have nE := D.nE
      simp only [← e2'] at inj nE
      refine nodup_append e1 (nodup_append (nodup_map e1 fun x hx y hy => (inj x y hx hy).1) (nodup_append (nodup_map e1 fun x hx y hy => (inj x y hx hy).2.1)
        (nodup_map e1 fun x hx y hy => (inj x y hx hy).2.2.1) ?_) ?_) ?_
      · intro x hx hy
        obtain ⟨a, ha, rfl⟩ := List.mem_map.mp hx
        obtain ⟨b, hb, h⟩ := List.mem_map.mp hy
        exact (inj a b ha hb).2.2.2.2.2 h.symm
      · intro x hx hy
        obtain ⟨a, ha, rfl⟩ := List.mem_map.mp hx
        rcases List.mem_append.mp hy with hy | hy <;> obtain ⟨b, hb, h⟩ := List.mem_map.mp hy
        · exact (inj a b ha hb).2.2.2.1 h.symm
        · exact (inj a b ha hb).2.2.2.2.1 h.symm
      · intro x hx hy
        rcases List.mem_append.mp hy with hy | hy
        · obtain ⟨b, hb, rfl⟩ := List.mem_map.mp hy; exact (nE b hb).1 hx
        · rcases List.mem_append.mp hy with hy | hy <;> obtain ⟨b, hb, rfl⟩ := List.mem_map.mp hy
          · exact (nE b hb).2.1 hx
          · exact (nE b hb).2.2 hx
    · intro x
      show m.topo.E x ↔ _
      rw [D.E]
      simp only [List.mem_append, List.mem_map, e2']
      constructor
      · rintro (h | ⟨e, h, rfl | rfl | rfl⟩)
        · exact .inl h
        · exact .inr (.inl ⟨e, h, rfl⟩)
        · exact .inr (.inr (.inl ⟨e, h, rfl⟩))
        · exact .inr (.inr (.inr ⟨e, h, rfl⟩))
      · rintro (h | ⟨e, h, rfl⟩ | ⟨e, h, rfl⟩ | ⟨e, h, rfl⟩)
        · exact .inl h
        · exact .inr ⟨e, h, .inl rfl⟩
        · exact .inr ⟨e, h, .inr (.inl rfl)⟩
        · exact .inr ⟨e, h, .inr (.inr rfl)⟩
  refine ⟨?_, hs, ?_⟩
  · -- one new vertex per pair of half-edges
    obtain ⟨ml, m1, m2⟩ : ∃ ml : List Nat, ml.Nodup ∧ ∀ e, e ∈ ml ↔ m0.topo.E e ∧ m.topo.vrep (μ e) = some (n e) := by
      refine ⟨el.filter (fun e => decide (m.topo.vrep (μ e) = some (n e))), e1.filter _, fun e => ?_⟩
      rw [List.mem_filter, e2']; simp
    have μt : ∀ e, m0.topo.E e → μ (m0.topo.twn e) = μ e := fun e he => ((D.μμ e _ he (ht e he)).mpr (.inr rfl)).symm
    have excl : ∀ e ∈ ml, m0.topo.twn e ∉ ml := by
      intro e he h
      rw [m2] at he h
      have h1 := h.2
      rw [μt e he.1, he.2] at h1
      exact T.wf.twn_ne e he.1 ((D.inj _ _ he.1 h.1).1 (Option.some.inj h1)).symm
    have c1 : m0.hs.len = 2 * ml.length := by
      have := len_of_list g0.hs (l := ml ++ ml.map m0.topo.twn) ?_ ?_
      · rw [this]; simp; omega
      · refine nodup_append m1 (nodup_map m1 ?_) ?_
        · intro x hx y hy h; rw [← htt x ((m2 x).mp hx).1, h, htt y ((m2 y).mp hy).1]
        · intro x hx hy
          obtain ⟨b, hb, rfl⟩ := List.mem_map.mp hy
          exact excl b hb hx
      · intro x
        show m0.topo.E x ↔ _
        rw [List.mem_append, List.mem_map]
        constructor
        · intro hx
          rcases D.vrepN x hx with h | h
          · exact .inl ((m2 x).mpr ⟨hx, h⟩)
          · exact .inr ⟨m0.topo.twn x, (m2 _).mpr ⟨ht x hx, by rw [μt x hx, h]⟩, htt x hx⟩
        · rintro (h | ⟨y, hy, rfl⟩)
          · exact ((m2 x).mp h).1
          · exact ht y ((m2 y).mp hy).1
    have c2 := len_of_list g.vs (l := vl ++ ml.map μ) ?_ ?_
    · rw [c2, v3, c1]; simp; omega
    · refine nodup_append v1 (nodup_map m1 ?_) ?_
      · intro x hx y hy h
        rcases (D.μμ x y ((m2 x).mp hx).1 ((m2 y).mp hy).1).mp h with h | h
        · exact h
        · exact absurd (h ▸ hy) (excl x hx)
      · intro x hx hy
        obtain ⟨b, hb, rfl⟩ := List.mem_map.mp hy
        exact D.μV b ((m2 b).mp hb).1 ((v2' _).mp hx)
    · intro x
      show m.topo.V x ↔ _
      rw [D.V, List.mem_append, v2', List.mem_map]
      refine or_congr_right ⟨?_, ?_⟩
      · rintro ⟨e, he, rfl⟩
        rcases D.vrepN e he with h | h
        · exact ⟨e, (m2 e).mpr ⟨he, h⟩, rfl⟩
        · exact ⟨m0.topo.twn e, (m2 _).mpr ⟨ht e he, by rw [μt e he, h]⟩, μt e he⟩
      · rintro ⟨e, he, rfl⟩
        exact ⟨e, ((m2 e).mp he).1, rfl⟩
  · have := len_of_list g.fs (l := el.map ci ++ fl.map ce) ?_ ?_
    · rw [this, f3]; rw [e3, f3] at h3; simp; omega
    · refine nodup_append (nodup_map e1 ?_) (nodup_map f1 ?_) ?_
      · intro x hx y hy; exact D.ff.1 x y ((e2' x).mp hx) ((e2' y).mp hy)
      · intro x hx y hy; exact D.ff.2.1 x y ((f2' x).mp hx) ((f2' y).mp hy)
      · intro x hx hy
        obtain ⟨a, ha, rfl⟩ := List.mem_map.mp hx
        obtain ⟨b, hb, h⟩ := List.mem_map.mp hy
        exact D.ff.2.2 a b ((e2' a).mp ha) ((f2' b).mp hb) h.symm
    · intro x
      show m.topo.F x ↔ _
      rw [D.F]
      simp only [List.mem_append, List.mem_map, e2', f2']
      exact or_congr ⟨fun ⟨e, h, h1⟩ => ⟨e, h, h1.symm⟩, fun ⟨e, h, h1⟩ => ⟨e, h, h1.symm⟩⟩ ⟨fun ⟨e, h, h1⟩ => ⟨e, h, h1.symm⟩, fun ⟨e, h, h1⟩ => ⟨e, h, h1.symm⟩⟩

/-- the loop of `subdivision_frequency` with a power of two makes that many rounds -/
theorem frequencyLoop_pow {M : Type} {step : M → Option M} {I : M → Prop} {R : Nat → M → M → Prop} (h0 : ∀ m, R 0 m m)
    (hs : ∀ m, I m → ∃ m', step m = some m' ∧ I m' ∧ ∀ k m'', R k m' m'' → R (k + 1) m m'') (k : Nat) :
    ∀ fuel m, k < fuel → I m → ∃ m', frequencyLoop step fuel (2 ^ k) m = some m' ∧ I m' ∧ R k m m' := by
  induction k with
  | zero =>
    intro fuel m hf hi
    obtain ⟨f, rfl⟩ : ∃ f, fuel = f + 1 := ⟨fuel - 1, by omega⟩
    exact ⟨m, by simp [frequencyLoop], hi, h0 m⟩
  | succ k ih =>
    intro fuel m hf hi
    obtain ⟨f, rfl⟩ : ∃ f, fuel = f + 1 := ⟨fuel - 1, by omega⟩
    obtain ⟨m1, h1, h2, h3⟩ := hs m hi
    obtain ⟨m2, h4, h5, h6⟩ := ih f m1 (by omega) h2
    have hp : 1 ≤ 2 ^ k := Nat.one_le_two_pow
    refine ⟨m2, ?_, h5, h3 _ _ h6⟩
    have a : ¬ 2 ^ (k + 1) ≤ 1 := by rw [Nat.pow_succ]; omega
    have b : 2 ^ (k + 1) % 2 = 0 := by rw [Nat.pow_succ]; omega
    have c : 2 ^ (k + 1) / 2 = 2 ^ k := by rw [Nat.pow_succ]; omega
    simp only [frequencyLoop, if_neg a, h1, Option.bind_eq_bind, Option.bind_some, if_pos b, c, h4]

/-- the test for powers of two -/
theorem and_pred_eq_zero : ∀ b : Nat, 0 < b → (b &&& (b - 1) = 0 ↔ ∃ k, b = 2 ^ k) := by
  intro b
  induction b using Nat.strongRecOn with
  | _ b ih =>
    intro hb
    rcases Nat.mod_two_eq_zero_or_one b with h | h
    · -- even
      obtain ⟨c, rfl⟩ : ∃ c, b = 2 * c := ⟨b / 2, by omega⟩
      have hc : 0 < c := by omega
      have e1 : (2 * c &&& (2 * c - 1)) = 2 * (c &&& (c - 1)) := by
        apply Nat.eq_of_testBit_eq
        intro i
        cases i with
        | zero => simp
        | succ i =>
          have h1 : (2 * c - 1) / 2 = c - 1 := by omega
          have h2 : 2 * c / 2 = c := by omega
          have h3 : 2 * (c &&& (c - 1)) / 2 = c &&& (c - 1) := by omega
          rw [Nat.testBit_and, Nat.testBit_succ, Nat.testBit_succ, Nat.testBit_succ, h1, h2, h3, Nat.testBit_and]
      rw [e1]
      have := ih c (by omega) hc
      constructor
      · intro h
        obtain ⟨k, rfl⟩ := this.mp (by omega)
        exact ⟨k + 1, by rw [Nat.pow_succ]; omega⟩
      · rintro ⟨k, hk⟩
        cases k with
        | zero => omega
        | succ k =>
          rw [Nat.pow_succ] at hk
          have := this.mpr ⟨k, by omega⟩
          omega
    · -- odd
      obtain ⟨c, rfl⟩ : ∃ c, b = 2 * c + 1 := ⟨b / 2, by omega⟩
      have e1 : (2 * c + 1 &&& (2 * c + 1 - 1)) = 2 * c := by
        apply Nat.eq_of_testBit_eq
        intro i
        cases i with
        | zero => simp
        | succ i =>
          have h1 : (2 * c + 1) / 2 = c := by omega
          have h2 : (2 * c + 1 - 1) / 2 = c := by omega
          have h3 : 2 * c / 2 = c := by omega
          rw [Nat.testBit_and, Nat.testBit_succ, Nat.testBit_succ, Nat.testBit_succ, h1, h2, h3, Bool.and_self]
      rw [e1]
      constructor
      · intro h; exact ⟨0, by omega⟩
      · rintro ⟨k, hk⟩
        cases k with
        | zero => omega
        | succ k => rw [Nat.pow_succ] at hk; omega

end Verif.Mesh
namespace Verif.MeshProps
open Mesh
variable {VP EP FP : Type}

/-- C56: loop subdivision of a consistent closed triangle mesh does not panic, splits every triangle in four as described by `Subdivided`, leaves a consistent closed triangle mesh, keeps the
payloads, and adds one vertex per edge. -/
theorem c56_loop {m : Mesh VP EP FP} {de : EP} {Q : Nat → Nat → VP → Prop} {interp : Interp VP EP FP} (g : m.Good) (T : m.topo.TriMesh) (I : InterpOK interp m Q) (dbg : Bool) :
    ∃ m' n p q μ ci ce, loopSubdivision dbg de interp m = some m' ∧ m'.Good ∧ m'.topo.TriMesh ∧ Topo.Subdivided m.topo m'.topo n p q μ ci ce ∧ SubdividedPay m m' de Q μ ci ce ∧
      2 * m'.vs.len = 2 * m.vs.len + m.hs.len ∧ m'.hs.len = 4 * m.hs.len ∧ m'.fs.len = 4 * m.fs.len := by
  obtain ⟨m', n, p, q, μ, ci, ce, h1, h2, h3, h4, h5⟩ := loopSubdivision_spec (de := de) g T I dbg
  exact ⟨m', n, p, q, μ, ci, ce, h1, h2, h3, h4, h5, subdivided_lens g h2 T h4⟩

/-- C52: with a frequency that is a power of two, `subdivision_frequency` succeeds on every consistent closed triangle mesh, and the number of faces is multiplied by the triangulation number.
In particular its final check never fires. -/
theorem c52 {m : Mesh VP EP FP} {de : EP} {interp : Interp VP EP FP} (g : m.Good) (T : m.topo.TriMesh)
    (I : ∀ m : Mesh VP EP FP, m.Good → m.topo.TriMesh → ∃ Q, InterpOK interp m Q) (dbg : Bool) (k : Nat) :
    ∃ m', subdivisionFrequency dbg de interp m (2 ^ k) 0 = some m' ∧ m'.Good ∧ m'.topo.TriMesh ∧ m'.fs.len = m.fs.len * triangulationNumber (2 ^ k) 0 ∧
      m'.hs.len = m.hs.len * triangulationNumber (2 ^ k) 0 ∧ 2 * m'.vs.len + 2 * m'.fs.len + m.hs.len = 2 * m.vs.len + 2 * m.fs.len + m'.hs.len := by
  have hp : 1 ≤ 2 ^ k := Nat.one_le_two_pow
  obtain ⟨m', h1, ⟨h2, h3⟩, h4, h5, h6⟩ := frequencyLoop_pow (step := loopSubdivision dbg de interp) (I := fun m => m.Good ∧ m.topo.TriMesh)
    (R := fun k m m' => m'.fs.len = m.fs.len * (2 ^ k * 2 ^ k) ∧ m'.hs.len = m.hs.len * (2 ^ k * 2 ^ k) ∧
      2 * m'.vs.len + 2 * m'.fs.len + m.hs.len = 2 * m.vs.len + 2 * m.fs.len + m'.hs.len) (fun m => by simp)
    (by
      rintro m ⟨g, T⟩
      obtain ⟨Q, hQ⟩ := I m g T
      obtain ⟨m', n, p, q, μ, ci, ce, h1, h2, h3, h4, h5, h6, h7, h8⟩ := c56_loop (de := de) g T hQ dbg
      refine ⟨m', h1, ⟨h2, h3⟩, ?_⟩
      rintro k m'' ⟨k1, k2, k3⟩
      have e : 2 ^ (k + 1) * 2 ^ (k + 1) = 4 * (2 ^ k * 2 ^ k) := by rw [Nat.pow_succ]; generalize 2 ^ k = x; grind
      refine ⟨?_, ?_, by have := tri_lens g T; omega⟩
      · rw [k1, h8, e]; grind
      · rw [k2, h7, e]; grind)
    k (2 ^ k) m Nat.lt_two_pow_self ⟨g, T⟩
  have e : triangulationNumber (2 ^ k) 0 = 2 ^ k * 2 ^ k := by simp [triangulationNumber]
  refine ⟨m', ?_, h2, h3, by rw [e]; exact h4, by rw [e]; exact h5, h6⟩
  have hz : 2 ^ k &&& (2 ^ k - 1) = 0 := (and_pred_eq_zero _ (by omega)).mpr ⟨k, rfl⟩
  have hc : ¬ (2 ^ k = 0 ∨ (0 : Nat) ≠ 0 ∨ 2 ^ k &&& (2 ^ k - 1) ≠ 0) := by
    rw [hz]; simp
  simp only [subdivisionFrequency, if_neg hc, h1, Option.bind_eq_bind, Option.bind_some, e, h4, beq_self_eq_true]
  cases dbg <;> rfl

/-- C52: every other description is refused. -/
theorem c52_refused {m : Mesh VP EP FP} {de : EP} {interp : Interp VP EP FP} {dbg : Bool} {b c : Nat} (h : c ≠ 0 ∨ ¬ ∃ k, b = 2 ^ k) :
    subdivisionFrequency dbg de interp m b c = none := by
  have : b = 0 ∨ c ≠ 0 ∨ b &&& (b - 1) ≠ 0 := by
    by_cases hb : b = 0
    · exact .inl hb
    · rcases h with h | h
      · exact .inr (.inl h)
      · exact .inr (.inr fun h1 => h ((and_pred_eq_zero b (by omega)).mp h1))
  simp only [subdivisionFrequency, if_pos this]

end Verif.MeshProps
