import Verif.Props.Apex
/-
C23: splitting an edge by new vertices.
-/
namespace Verif.Topo

/-- state after `k` rounds of the loop of `insert_vertices_into_edge`: a chain `f 0, …, f (k-1)` with twins `b i` leaves the
    half-edge `p`; `o` is the vertex `p` ends in -/
structure Chain (t0 t : Topo) (p o : Nat) (f1 f2 : Option Nat) (k : Nat) (v f b : Nat → Nat) : Prop where
  pos : 0 < k
  freshV : ∀ i < k, ¬ t0.V (v i)
  freshF : ∀ i < k, ¬ t0.E (f i)
  freshB : ∀ i < k, ¬ t0.E (b i)
  injV : ∀ i < k, ∀ j < k, v i = v j → i = j
  injF : ∀ i < k, ∀ j < k, f i = f j → i = j
  injB : ∀ i < k, ∀ j < k, b i = b j → i = j
  disj : ∀ i < k, ∀ j < k, f i ≠ b j
  E : ∀ x, t.E x ↔ t0.E x ∨ ∃ i < k, x = f i ∨ x = b i
  V : ∀ x, t.V x ↔ t0.V x ∨ ∃ i < k, x = v i
  F : ∀ x, t.F x ↔ t0.F x
  frep : ∀ x, t.frep x = t0.frep x
  vrepN : ∀ i < k, t.vrep (v i) = some (b i)
  vrepO : ∀ x, (∀ i < k, x ≠ v i) → t.vrep x = if x = o then some (f 0) else t0.vrep x
  fF : ∀ i < k, t.nxt (f i) = (if i + 1 = k then b i else f (i + 1)) ∧ t.prv (f i) = (if i = 0 then p else f (i - 1)) ∧
    t.twn (f i) = b i ∧ t.org (f i) = (if i = 0 then o else v (i - 1)) ∧ t.fac (f i) = f1
  fB : ∀ i < k, t.nxt (b i) = (if i = 0 then t0.twn p else b (i - 1)) ∧ t.prv (b i) = (if i + 1 = k then f i else b (i + 1)) ∧
    t.twn (b i) = f i ∧ t.org (b i) = v i ∧ t.fac (b i) = f2
  old : ∀ x, t0.E x → t.nxt x = (if x = p then f 0 else t0.nxt x) ∧ t.prv x = (if x = t0.twn p then b 0 else t0.prv x) ∧
    t.twn x = t0.twn x ∧ t.org x = t0.org x ∧ t.fac x = t0.fac x

/-- one round -/
def chainStep (t : Topo) (c c' v e1 e2 : Nat) (f1 f2 : Option Nat) : Topo :=
  { t.addDangling c c' v e1 e2 with fac := fun x => if x = e2 then f2 else if x = e1 then f1 else t.fac x }

theorem Chain.start {t : Topo} (w : t.WF) {e v e1 e2 : Nat} {f1 f2 : Option Nat} (he : t.E e) (hv : ¬ t.V v) (h1 : ¬ t.E e1) (h2 : ¬ t.E e2)
    (h12 : e1 ≠ e2) : Chain t { t.chainStep (t.prv e) (t.twn (t.prv e)) v e1 e2 f1 f2 with
        vrep := fun x => if x = t.org e then some e1 else if x = v then some e2 else t.vrep x }
      (t.prv e) (t.org e) f1 f2 1 (fun _ => v) (fun _ => e1) (fun _ => e2) := by
  have ne1 : ∀ x, t.E x → x ≠ e1 := fun x hx hc => h1 (hc ▸ hx)
  have ne2 : ∀ x, t.E x → x ≠ e2 := fun x hx hc => h2 (hc ▸ hx)
  have hp := w.prv_live _ he
  have vo : v ≠ t.org e := fun hc => hv (hc ▸ w.org_live _ he)
  have op : t.org (t.twn (t.prv e)) = t.org e := by rw [← w.org_nxt _ hp, w.nxt_prv _ he]
  refine ⟨by omega, fun _ _ => hv, fun _ _ => h1, fun _ _ => h2, fun i hi j hj _ => by omega, fun i hi j hj _ => by omega,
    fun i hi j hj _ => by omega, fun _ _ _ _ => h12, ?_, ?_, fun _ => .rfl, fun _ => rfl, ?_, ?_, ?_, ?_, ?_⟩
  · intro x
    simp only [chainStep, addDangling]
    constructor
    · rintro (h | h | h)
      · exact .inr ⟨0, by omega, .inl h⟩
      · exact .inr ⟨0, by omega, .inr h⟩
      · exact .inl h
    · rintro (h | ⟨i, -, h | h⟩)
      · exact .inr (.inr h)
      · exact .inl h
      · exact .inr (.inl h)
  · intro x
    simp only [chainStep, addDangling]
    constructor
    · rintro (h | h)
      · exact .inr ⟨0, by omega, h⟩
      · exact .inl h
    · rintro (h | ⟨i, -, h⟩)
      · exact .inr h
      · exact .inl h
  · intro i hi; simp [vo]
  · intro x hx
    simp only [if_neg (hx 0 (by omega))]
  · intro i hi
    have : i = 0 := by omega
    subst this
    simp [chainStep, addDangling, op, h12]
  · intro i hi
    have : i = 0 := by omega
    subst this
    simp [chainStep, addDangling, h12.symm]
  · intro x hx
    simp [chainStep, addDangling, ne1 _ hx, ne2 _ hx]

theorem Chain.step {t0 t : Topo} {p o : Nat} {f1 f2 : Option Nat} {k : Nat} {v f b : Nat → Nat} (hp : t0.E p) (hp' : t0.E (t0.twn p))
    (C : Chain t0 t p o f1 f2 k v f b) (ho : t0.V o) {vn e1 e2 : Nat} (hv : ¬ t.V vn) (h1 : ¬ t.E e1) (h2 : ¬ t.E e2) (h12 : e1 ≠ e2) :
    Chain t0 (t.chainStep (f (k - 1)) (b (k - 1)) vn e1 e2 f1 f2) p o f1 f2 (k + 1)
      (fun i => if i = k then vn else v i) (fun i => if i = k then e1 else f i) (fun i => if i = k then e2 else b i) := by
  have pos := C.pos
  have lE : ∀ x, t0.E x → t.E x := fun x hx => (C.E x).mpr (.inl hx)
  have fE : ∀ i < k, t.E (f i) := fun i hi => (C.E _).mpr (.inr ⟨i, hi, .inl rfl⟩)
  have bE : ∀ i < k, t.E (b i) := fun i hi => (C.E _).mpr (.inr ⟨i, hi, .inr rfl⟩)
  have vV : ∀ i < k, t.V (v i) := fun i hi => (C.V _).mpr (.inr ⟨i, hi, rfl⟩)
  have ne1 : ∀ x, t.E x → x ≠ e1 := fun x hx hc => h1 (hc ▸ hx)
  have ne2 : ∀ x, t.E x → x ≠ e2 := fun x hx hc => h2 (hc ▸ hx)
  have nev : ∀ i < k, v i ≠ vn := fun i hi hc => hv (hc ▸ vV i hi)
  have k1 : k - 1 + 1 = k := by omega
  have hfl := C.fF (k - 1) (by omega)
  have hbl := C.fB (k - 1) (by omega)
  have z : ¬ (0 : Nat) = k := by omega
  refine ⟨by omega, ?_, ?_, ?_, ?_, ?_, ?_, ?_, ?_, ?_, fun x => C.F x, fun x => C.frep x, ?_, ?_, ?_, ?_, ?_⟩
  · intro i hi
    by_cases hc : i = k
    · simp only [if_pos hc]; exact fun hh => hv ((C.V _).mpr (.inl hh))
    · simp only [if_neg hc]; exact C.freshV i (by omega)
  · intro i hi
    by_cases hc : i = k
    · simp only [if_pos hc]; exact fun hh => h1 (lE _ hh)
    · simp only [if_neg hc]; exact C.freshF i (by omega)
  · intro i hi
    by_cases hc : i = k
    · simp only [if_pos hc]; exact fun hh => h2 (lE _ hh)
    · simp only [if_neg hc]; exact C.freshB i (by omega)
  · intro i hi j hj hij
    by_cases hc : i = k <;> by_cases hc' : j = k <;> simp only [hc, hc', if_true, if_false] at hij ⊢
    · exact absurd hij.symm (nev j (by omega))
    · exact absurd hij (nev i (by omega))
    · exact C.injV i (by omega) j (by omega) hij
  · intro i hi j hj hij
    by_cases hc : i = k <;> by_cases hc' : j = k <;> simp only [hc, hc', if_true, if_false] at hij ⊢
    · exact absurd hij.symm (ne1 _ (fE j (by omega)))
    · exact absurd hij (ne1 _ (fE i (by omega)))
    · exact C.injF i (by omega) j (by omega) hij
  · intro i hi j hj hij
    by_cases hc : i = k <;> by_cases hc' : j = k <;> simp only [hc, hc', if_true, if_false] at hij ⊢
    · exact absurd hij.symm (ne2 _ (bE j (by omega)))
    · exact absurd hij (ne2 _ (bE i (by omega)))
    · exact C.injB i (by omega) j (by omega) hij
  · intro i hi j hj
    by_cases hc : i = k <;> by_cases hc' : j = k <;> simp only [hc, hc', if_true, if_false]
    · exact h12
    · exact fun hh => ne1 _ (bE j (by omega)) hh.symm
    · exact ne2 _ (fE i (by omega))
    · exact C.disj i (by omega) j (by omega)
  · intro x
    simp only [chainStep, addDangling, C.E x]
    constructor
    · rintro (h | h | h | ⟨i, hi, h⟩)
      · exact .inr ⟨k, by omega, .inl (by simp [h])⟩
      · exact .inr ⟨k, by omega, .inr (by simp [h])⟩
      · exact .inl h
      · exact .inr ⟨i, by omega, by rwa [if_neg (by omega), if_neg (by omega)]⟩
    · rintro (h | ⟨i, hi, h⟩)
      · exact .inr (.inr (.inl h))
      · by_cases hc : i = k
        · simp only [if_pos hc] at h
          exact h.elim .inl (fun h => .inr (.inl h))
        · simp only [if_neg hc] at h
          exact .inr (.inr (.inr ⟨i, by omega, h⟩))
  · intro x
    simp only [chainStep, addDangling, C.V x]
    constructor
    · rintro (h | h | ⟨i, hi, h⟩)
      · exact .inr ⟨k, by omega, by simp [h]⟩
      · exact .inl h
      · exact .inr ⟨i, by omega, by rwa [if_neg (by omega)]⟩
    · rintro (h | ⟨i, hi, h⟩)
      · exact .inr (.inl h)
      · by_cases hc : i = k
        · simp only [if_pos hc] at h
          exact .inl h
        · simp only [if_neg hc] at h
          exact .inr (.inr ⟨i, by omega, h⟩)
  · intro i hi
    by_cases hc : i = k
    · simp [chainStep, addDangling, hc]
    · simp [chainStep, addDangling, hc, nev i (by omega), C.vrepN i (by omega)]
  · intro x hx
    have hxk := hx k (by omega)
    simp only [if_true] at hxk
    simp only [chainStep, addDangling, if_neg hxk, if_neg z]
    refine C.vrepO x (fun i hi => ?_)
    have := hx i (by omega)
    rwa [if_neg (by omega)] at this
  · intro i hi
    by_cases hc : i = k
    · subst hc
      simp only [if_true, chainStep, addDangling, (show ¬ i = 0 by omega), (show ¬ i - 1 = i by omega), if_false, h12, hbl.2.2.2.1]
      simp
    · have hif := fE i (by omega)
      have hi' := C.fF i (by omega)
      simp only [chainStep, addDangling, hc, if_false, ne1 _ hif, ne2 _ hif, (show ¬ i + 1 = k + 1 by omega), (show ¬ i - 1 = k by omega)]
      refine ⟨?_, ?_, hi'.2.2.1, hi'.2.2.2.1, hi'.2.2.2.2⟩
      · by_cases hl : i + 1 = k
        · rw [if_pos (by rw [show i = k - 1 by omega]), if_pos hl]
        · rw [if_neg (fun hh => by have := C.injF i (by omega) (k-1) (by omega) hh; omega), hi'.1, if_neg hl, if_neg hl]
      · rw [if_neg (C.disj i (by omega) (k - 1) (by omega)), hi'.2.1]
  · intro i hi
    by_cases hc : i = k
    · subst hc
      simp [chainStep, addDangling, (show ¬ i = 0 by omega), (show ¬ i - 1 = i by omega), h12.symm]
    · have hif := bE i (by omega)
      have hi' := C.fB i (by omega)
      simp only [chainStep, addDangling, hc, if_false, ne1 _ hif, ne2 _ hif, (show ¬ i + 1 = k + 1 by omega), (show ¬ i - 1 = k by omega)]
      refine ⟨?_, ?_, hi'.2.2.1, hi'.2.2.2.1, hi'.2.2.2.2⟩
      · rw [if_neg (fun hh => C.disj (k - 1) (by omega) i (by omega) hh.symm), hi'.1]
      · by_cases hl : i + 1 = k
        · rw [if_pos (by rw [show i = k - 1 by omega]), if_pos hl]
        · rw [if_neg (fun hh => by have := C.injB i (by omega) (k-1) (by omega) hh; omega), hi'.2.1, if_neg hl, if_neg hl]
  · intro x hx
    have hx' := lE x hx
    have xf : x ≠ f (k - 1) := fun hc => C.freshF (k - 1) (by omega) (hc ▸ hx)
    have xb : x ≠ b (k - 1) := fun hc => C.freshB (k - 1) (by omega) (hc ▸ hx)
    simp only [chainStep, addDangling, ne1 _ hx', ne2 _ hx', if_false, xf, xb, if_neg z]
    exact C.old x hx

/-- the last five assignments -/
def sealT (t : Topo) (e T vl cl cl' : Nat) : Topo :=
  { t with
    nxt := fun x => if x = T then cl' else if x = cl then e else t.nxt x
    prv := fun x => if x = cl' then T else if x = e then cl else t.prv x
    org := fun x => if x = e then vl else t.org x }

theorem Chain.sealed {t0 t : Topo} (w : t0.WF) {e k : Nat} {v f b : Nat → Nat} (he : t0.E e)
    (C : Chain t0 t (t0.prv e) (t0.org e) (t0.fac e) (t0.fac (t0.twn e)) k v f b) :
    Split t0 (t.sealT e (t0.twn e) (v (k - 1)) (f (k - 1)) (b (k - 1))) e k v f b := by
  have pos := C.pos
  have hT := w.twn_live _ he
  have nf : ∀ i < k, ∀ x, t0.E x → f i ≠ x := fun i hi x hx hc => C.freshF i hi (hc ▸ hx)
  have nb : ∀ i < k, ∀ x, t0.E x → b i ≠ x := fun i hi x hx hc => C.freshB i hi (hc ▸ hx)
  refine ⟨pos, C.freshV, C.freshF, C.freshB, C.injV, C.injF, C.injB, C.disj, C.E, C.V, C.F, C.frep, C.vrepN, C.vrepO, ?_, ?_, ?_⟩
  · intro i hi
    have h := C.fF i hi
    simp only [Topo.sealT, nf i hi _ hT, nf i hi _ he, C.disj i hi (k - 1) (by omega), if_false]
    refine ⟨?_, h.2.1, h.2.2.1, h.2.2.2.1, h.2.2.2.2⟩
    by_cases hl : i + 1 = k
    · rw [if_pos (by rw [show i = k - 1 by omega]), if_pos hl]
    · rw [if_neg (fun hh => by have := C.injF i (by omega) (k-1) (by omega) hh; omega), h.1, if_neg hl, if_neg hl]
  · intro i hi
    have h := C.fB i hi
    have hbf : ¬ b i = f (k - 1) := fun hh => C.disj (k - 1) (by omega) i hi hh.symm
    simp only [Topo.sealT, nb i hi _ hT, nb i hi _ he, hbf, if_false]
    refine ⟨h.1, ?_, h.2.2.1, h.2.2.2.1, h.2.2.2.2⟩
    by_cases hl : i + 1 = k
    · rw [if_pos (by rw [show i = k - 1 by omega]), if_pos hl]
    · rw [if_neg (fun hh => by have := C.injB i (by omega) (k-1) (by omega) hh; omega), h.2.1, if_neg hl, if_neg hl]
  · intro x hx
    have h := C.old x hx
    simp only [Topo.sealT, (nf (k - 1) (by omega) x hx).symm, (nb (k - 1) (by omega) x hx).symm, if_false]
    rw [h.1, h.2.1, h.2.2.2.1]
    exact ⟨rfl, rfl, h.2.2.1, rfl, h.2.2.2.2⟩

/-- If the result is consistent, the previous origin has exactly two edges. -/
theorem Split.degree {t0 t : Topo} (w : t0.WF) {e k : Nat} {v f b : Nat → Nat} (he : t0.E e) (S : Split t0 t e k v f b)
    (w' : t.WF) : t0.rot e ≠ e ∧ t0.rot (t0.rot e) = e := by
  have pos := S.pos
  have hp := w.prv_live _ he
  have hT := w.twn_live _ he
  have hpt := w.twn_live _ hp
  have lE : ∀ x, t0.E x → t.E x := fun x hx => (S.E x).mpr (.inl hx)
  have hb0 := S.fB 0 pos
  simp only [if_true] at hb0
  have hbE : t.E (b 0) := (S.E _).mpr (.inr ⟨0, pos, .inr rfl⟩)
  have hpn := w'.prv_nxt _ hbE
  rw [hb0.1, (S.old _ hpt).2.1, if_pos rfl] at hpn
  have hne : t0.twn (t0.prv e) ≠ e := by
    intro hc
    rw [if_pos hc] at hpn
    exact S.disj _ (by omega) _ pos hpn
  have hTp : t0.twn e ≠ t0.prv e := fun hc => hne (by rw [← hc, w.twn_twn _ he])
  have hrot : t0.rot e ≠ e := by
    intro hc
    refine hTp ?_
    have : t0.nxt (t0.twn e) = e := hc
    rw [← w.prv_nxt _ hT, this]
  refine ⟨hrot, ?_⟩
  -- the predecessor of `twn (prv e)`
  have hq := w.prv_live _ hpt
  have hqn := w.nxt_prv _ hpt
  have hqT : t0.prv (t0.twn (t0.prv e)) = t0.twn e := by
    refine Classical.byContradiction fun hc => ?_
    have hqp : t0.prv (t0.twn (t0.prv e)) ≠ t0.prv e := by
      intro hc'
      rw [hc', w.nxt_prv _ he] at hqn
      exact hne hqn.symm
    have h1 := (S.old _ hq).1
    rw [if_neg hc, if_neg hqp, hqn] at h1
    have h2 := w'.prv_nxt _ (lE _ hq)
    rw [h1, (S.old _ hpt).2.1, if_neg hne, if_pos rfl] at h2
    exact S.freshB 0 pos (h2 ▸ hq)
  show t0.nxt (t0.twn (t0.nxt (t0.twn e))) = e
  rw [← hqT, hqn, w.twn_twn _ hp, w.nxt_prv _ he]

/-- If the previous origin has exactly two edges, the result is consistent. -/
theorem Split.wf {t0 t : Topo} (w : t0.WF) {e k : Nat} {v f b : Nat → Nat} (he : t0.E e) (S : Split t0 t e k v f b)
    (hd : t0.rot e ≠ e) (hd2 : t0.rot (t0.rot e) = e) : t.WF := by
  have pos := S.pos
  have hp := w.prv_live _ he
  have hT := w.twn_live _ he
  have hpt := w.twn_live _ hp
  have lE : ∀ x, t0.E x → t.E x := fun x hx => (S.E x).mpr (.inl hx)
  have lV : ∀ x, t0.V x → t.V x := fun x hx => (S.V x).mpr (.inl hx)
  have fE : ∀ i < k, t.E (f i) := fun i hi => (S.E _).mpr (.inr ⟨i, hi, .inl rfl⟩)
  have bE : ∀ i < k, t.E (b i) := fun i hi => (S.E _).mpr (.inr ⟨i, hi, .inr rfl⟩)
  have vV : ∀ i < k, t.V (v i) := fun i hi => (S.V _).mpr (.inr ⟨i, hi, rfl⟩)
  have nT : t0.nxt (t0.twn e) = t0.twn (t0.prv e) := by
    have h1 : t0.nxt (t0.twn (t0.rot e)) = e := hd2
    have h2 : t0.E (t0.rot e) := w.nxt_live _ hT
    have h3 : t0.twn (t0.rot e) = t0.prv e := by rw [← w.prv_nxt _ (w.twn_live _ h2), h1]
    rw [← h3, w.twn_twn _ h2]; rfl
  have hne : t0.twn (t0.prv e) ≠ e := by
    intro hc; rw [hc] at nT; exact hd nT
  have hTp : t0.twn e ≠ t0.prv e := fun hc => hne (by rw [← hc, w.twn_twn _ he])
  have pT : t0.prv (t0.twn (t0.prv e)) = t0.twn e := by rw [← nT, w.prv_nxt _ hT]
  have op : t0.org (t0.twn (t0.prv e)) = t0.org e := by rw [← w.org_nxt _ hp, w.nxt_prv _ he]
  have z : ∀ P : Nat → Prop, (∀ x, t0.E x → P x) → (∀ i < k, P (f i)) → (∀ i < k, P (b i)) → ∀ x, t.E x → P x := by
    intro P h1 h2 h3 x hx
    rcases (S.E x).mp hx with hx | ⟨i, hi, rfl | rfl⟩
    · exact h1 x hx
    · exact h2 i hi
    · exact h3 i hi
  have k1 : k - 1 + 1 = k := by omega
  -- old half-edges
  have nE : t.twn e = t0.twn e := (S.old e he).2.2.1
  have nx : ∀ x, t0.E x → x ≠ t0.twn e → x ≠ t0.prv e → t.nxt x = t0.nxt x := by
    intro x hx h1 h2; rw [(S.old x hx).1, if_neg h1, if_neg h2]
  have nxT : t.nxt (t0.twn e) = b (k - 1) := by rw [(S.old _ hT).1, if_pos rfl]
  have nxp : t.nxt (t0.prv e) = f 0 := by rw [(S.old _ hp).1, if_neg hTp.symm, if_pos rfl]
  have pr : ∀ x, t0.E x → x ≠ e → x ≠ t0.twn (t0.prv e) → t.prv x = t0.prv x := by
    intro x hx h1 h2; rw [(S.old x hx).2.1, if_neg h1, if_neg h2]
  have pre : t.prv e = f (k - 1) := by rw [(S.old _ he).2.1, if_pos rfl]
  have prp : t.prv (t0.twn (t0.prv e)) = b 0 := by rw [(S.old _ hpt).2.1, if_neg hne, if_pos rfl]
  have og : ∀ x, t0.E x → x ≠ e → t.org x = t0.org x := by
    intro x hx h1; rw [(S.old x hx).2.2.2.1, if_neg h1]
  have oge : t.org e = v (k - 1) := by rw [(S.old _ he).2.2.2.1, if_pos rfl]
  have Tne : t0.twn e ≠ e := w.twn_ne _ he
  have tw : ∀ x, t0.E x → t.twn x = t0.twn x := fun x hx => (S.old x hx).2.2.1
  have fc : ∀ x, t0.E x → t.fac x = t0.fac x := fun x hx => (S.old x hx).2.2.2.2
  have facp : t0.fac (t0.prv e) = t0.fac e := by rw [← w.fac_nxt _ hp, w.nxt_prv _ he]
  -- traversal of the chain
  have rpf : ∀ i < k, Reach t.nxt (t0.prv e) (f i) := by
    intro i
    induction i with
    | zero => intro _; exact Reach.one' nxp
    | succ i ih =>
      intro hi
      have := (S.fF i (by omega)).1
      rw [if_neg (by omega)] at this
      exact (ih (by omega)).trans (Reach.one' this)
  have rfe : ∀ j, j < k → Reach t.nxt (f (k - 1 - j)) e := by
    intro j
    induction j with
    | zero =>
      intro _
      have := (S.fF (k - 1) (by omega)).1
      rw [if_pos k1] at this
      exact Reach.one' this
    | succ j ih =>
      intro hj
      have := (S.fF (k - 1 - (j + 1)) (by omega)).1
      rw [if_neg (by omega), show k - 1 - (j + 1) + 1 = k - 1 - j by omega] at this
      exact (Reach.one' this).trans (ih (by omega))
  have rfe' : ∀ i < k, Reach t.nxt (f i) e := by
    intro i hi
    have := rfe (k - 1 - i) (by omega)
    rwa [show k - 1 - (k - 1 - i) = i by omega] at this
  have rTb : ∀ j, j < k → Reach t.nxt (t0.twn e) (b (k - 1 - j)) := by
    intro j
    induction j with
    | zero => intro _; exact Reach.one' nxT
    | succ j ih =>
      intro hj
      have := (S.fB (k - 1 - j) (by omega)).1
      rw [if_neg (by omega), show k - 1 - j - 1 = k - 1 - (j + 1) by omega] at this
      exact (ih (by omega)).trans (Reach.one' this)
  have rTb' : ∀ i < k, Reach t.nxt (t0.twn e) (b i) := by
    intro i hi
    have := rTb (k - 1 - i) (by omega)
    rwa [show k - 1 - (k - 1 - i) = i by omega] at this
  have rbp : ∀ i < k, Reach t.nxt (b i) (t0.twn (t0.prv e)) := by
    intro i
    induction i with
    | zero =>
      intro _
      have := (S.fB 0 pos).1
      rw [if_pos rfl] at this
      exact Reach.one' this
    | succ i ih =>
      intro hi
      have := (S.fB (i + 1) hi).1
      rw [if_neg (by omega)] at this
      exact (Reach.one' this).trans (ih (by omega))
  have rold : ∀ a c, t0.E a → Reach t0.nxt a c → Reach t.nxt a c := by
    intro a c ha hr
    have : ∀ a c, Reach t0.nxt a c → t0.E a → Reach t.nxt a c := by
      intro a c hr
      induction hr with
      | refl => intro _; exact .refl _
      | @head a c h ih =>
        intro ha
        refine Reach.trans ?_ (ih (w.nxt_live _ ha))
        by_cases h1 : a = t0.twn e
        · subst h1
          rw [nT]
          exact (rTb' 0 pos).trans (rbp 0 pos)
        · by_cases h2 : a = t0.prv e
          · subst h2
            rw [w.nxt_prv _ he]
            exact (rpf 0 pos).trans (rfe' 0 pos)
          · exact Reach.one' (nx a ha h1 h2)
    exact this a c hr ha
  -- each half-edge, its old companion in the same face loop
  have comp : ∀ x, t.E x → ∃ y y', t0.E y ∧ t0.E y' ∧ t0.fac y = t.fac x ∧ t0.fac y' = t.fac x ∧ Reach t.nxt x y ∧ Reach t.nxt y' x := by
    refine z _ ?_ ?_ ?_
    · intro x hx; exact ⟨x, x, hx, hx, (fc x hx).symm, (fc x hx).symm, .refl _, .refl _⟩
    · intro i hi
      exact ⟨e, t0.prv e, he, hp, (S.fF i hi).2.2.2.2.symm, by rw [facp, (S.fF i hi).2.2.2.2], rfe' i hi, rpf i hi⟩
    · intro i hi
      refine ⟨t0.twn (t0.prv e), t0.twn e, hpt, hT, ?_, (S.fB i hi).2.2.2.2.symm, rbp i hi, rTb' i hi⟩
      rw [← nT, w.fac_nxt _ hT, (S.fB i hi).2.2.2.2]
  -- the wheel of an old vertex other than the previous origin
  have hrold : ∀ x, t0.E x → t0.org x ≠ t0.org e → t.rot x = t0.rot x := by
    intro x hx ho
    show t.nxt (t.twn x) = t0.nxt (t0.twn x)
    rw [tw x hx]
    refine nx _ (w.twn_live _ hx) (fun hc => ho ?_) (fun hc => ho ?_)
    · rw [← w.twn_twn _ hx, hc, w.twn_twn _ he]
    · rw [← w.twn_twn _ hx, hc, op]
  have wold : ∀ a c, Reach t0.rot a c → t0.E a → t0.org a ≠ t0.org e → Reach t.rot a c := by
    intro a c hr
    induction hr with
    | refl => intro _ _; exact .refl _
    | @head a c h ih =>
      intro ha ho
      have h2 : t0.E (t0.rot a) := w.nxt_live _ (w.twn_live _ ha)
      have h3 : t0.org (t0.rot a) = t0.org a := by
        show t0.org (t0.nxt (t0.twn a)) = _
        rw [w.org_nxt _ (w.twn_live _ ha), w.twn_twn _ ha]
      exact (Reach.one' (hrold a ha ho)).trans (ih h2 (by rw [h3]; exact ho))
  have oldO : ∀ x, t0.E x → t0.org x = t0.org e → x = e ∨ x = t0.twn (t0.prv e) := by
    intro x hx ho
    have hr := w.wheel e x he hx ho.symm
    have : ∀ a c, Reach t0.rot a c → (a = e ∨ a = t0.rot e) → (c = e ∨ c = t0.rot e) := by
      intro a c hr
      induction hr with
      | refl => exact id
      | head h ih =>
        intro ha
        refine ih ?_
        rcases ha with rfl | rfl
        · exact .inr rfl
        · exact .inl hd2
    rcases this _ _ hr (.inl rfl) with h | h
    · exact .inl h
    · exact .inr (h.trans nT)
  -- where half-edges start, by origin
  have vne : ∀ i < k, ∀ x, t0.V x → v i ≠ x := fun i hi x hx hc => S.freshV i hi (hc ▸ hx)
  have outO : ∀ x, t.E x → t.org x = t0.org e → x = f 0 ∨ x = t0.twn (t0.prv e) := by
    refine z _ ?_ ?_ ?_
    · intro x hx ho
      by_cases hc : x = e
      · subst hc
        rw [oge] at ho
        exact absurd ho (vne _ (by omega) _ (w.org_live _ he))
      · rw [og x hx hc] at ho
        exact .inr ((oldO x hx ho).resolve_left hc)
    · intro i hi ho
      rw [(S.fF i hi).2.2.2.1] at ho
      by_cases h0 : i = 0
      · subst h0; exact .inl rfl
      · rw [if_neg h0] at ho
        exact absurd ho (vne _ (by omega) _ (w.org_live _ he))
    · intro i hi ho
      rw [(S.fB i hi).2.2.2.1] at ho
      exact absurd ho (vne _ (by omega) _ (w.org_live _ he))
  have outV : ∀ j < k, ∀ x, t.E x → t.org x = v j → x = b j ∨ x = (if j + 1 = k then e else f (j + 1)) := by
    intro j hj
    refine z _ ?_ ?_ ?_
    · intro x hx ho
      by_cases hc : x = e
      · subst hc
        rw [oge] at ho
        have := S.injV _ (by omega) _ hj ho
        rw [if_pos (by omega)]
        exact .inr rfl
      · rw [og x hx hc] at ho
        exact absurd ho.symm (vne _ hj _ (w.org_live _ hx))
    · intro i hi ho
      rw [(S.fF i hi).2.2.2.1] at ho
      by_cases h0 : i = 0
      · rw [if_pos h0] at ho
        exact absurd ho.symm (vne _ hj _ (w.org_live _ he))
      · rw [if_neg h0] at ho
        have := S.injV _ (by omega) _ hj ho
        rw [if_neg (by omega), show j + 1 = i by omega]
        exact .inr rfl
    · intro i hi ho
      rw [(S.fB i hi).2.2.2.1] at ho
      have := S.injV _ hi _ hj ho
      subst this
      exact .inl rfl
  have rotF0 : t.rot (f 0) = t0.twn (t0.prv e) := by
    show t.nxt (t.twn (f 0)) = _
    rw [(S.fF 0 pos).2.2.1, (S.fB 0 pos).1, if_pos rfl]
  have rotP : t.rot (t0.twn (t0.prv e)) = f 0 := by
    show t.nxt (t.twn _) = _
    rw [tw _ hpt, w.twn_twn _ hp, nxp]
  have rotB : ∀ j < k, t.rot (b j) = (if j + 1 = k then e else f (j + 1)) := by
    intro j hj
    show t.nxt (t.twn _) = _
    rw [(S.fB j hj).2.2.1, (S.fF j hj).1]
  have rotX : ∀ j < k, t.rot (if j + 1 = k then e else f (j + 1)) = b j := by
    intro j hj
    show t.nxt (t.twn _) = _
    by_cases hl : j + 1 = k
    · rw [if_pos hl, nE, nxT, show k - 1 = j by omega]
    · rw [if_neg hl, (S.fF (j + 1) (by omega)).2.2.1, (S.fB (j + 1) (by omega)).1, if_neg (by omega)]
      rfl
  refine ⟨?_, ?_, ?_, ?_, ?_, ?_, ?_, ?_, ?_, ?_, ?_, ?_, ?_, ?_, ?_, ?_, ?_⟩
  · refine z _ (fun x hx => by rw [tw x hx]; exact lE _ (w.twn_live _ hx)) (fun i hi => ?_) (fun i hi => ?_)
    · rw [(S.fF i hi).2.2.1]; exact bE i hi
    · rw [(S.fB i hi).2.2.1]; exact fE i hi
  · refine z _ (fun x hx => by rw [tw x hx]; exact w.twn_ne _ hx) (fun i hi => ?_) (fun i hi => ?_)
    · rw [(S.fF i hi).2.2.1]; exact (S.disj i hi i hi).symm
    · rw [(S.fB i hi).2.2.1]; exact S.disj i hi i hi
  · refine z _ (fun x hx => by rw [tw x hx, tw _ (w.twn_live _ hx)]; exact w.twn_twn _ hx) (fun i hi => ?_) (fun i hi => ?_)
    · rw [(S.fF i hi).2.2.1, (S.fB i hi).2.2.1]
    · rw [(S.fB i hi).2.2.1, (S.fF i hi).2.2.1]
  · refine z _ (fun x hx => ?_) (fun i hi => ?_) (fun i hi => ?_)
    · by_cases h1 : x = t0.twn e
      · rw [h1, nxT]; exact bE _ (by omega)
      · by_cases h2 : x = t0.prv e
        · rw [h2, nxp]; exact fE _ pos
        · rw [nx x hx h1 h2]; exact lE _ (w.nxt_live _ hx)
    · rw [(S.fF i hi).1]
      split
      · exact lE _ he
      · exact fE _ (by omega)
    · rw [(S.fB i hi).1]
      split
      · exact lE _ hpt
      · exact bE _ (by omega)
  · refine z _ (fun x hx => ?_) (fun i hi => ?_) (fun i hi => ?_)
    · by_cases h1 : x = e
      · rw [h1, pre]; exact fE _ (by omega)
      · by_cases h2 : x = t0.twn (t0.prv e)
        · rw [h2, prp]; exact bE _ pos
        · rw [pr x hx h1 h2]; exact lE _ (w.prv_live _ hx)
    · rw [(S.fF i hi).2.1]
      split
      · exact lE _ hp
      · exact fE _ (by omega)
    · rw [(S.fB i hi).2.1]
      split
      · exact lE _ hT
      · exact bE _ (by omega)
  · refine z _ (fun x hx => ?_) (fun i hi => ?_) (fun i hi => ?_)
    · by_cases h1 : x = t0.twn e
      · rw [h1, nxT, (S.fB (k - 1) (by omega)).2.1, if_pos k1]
      · by_cases h2 : x = t0.prv e
        · rw [h2, nxp, (S.fF 0 pos).2.1, if_pos rfl]
        · have hn := w.nxt_live _ hx
          rw [nx x hx h1 h2, pr _ hn (fun hc => h2 ?_) (fun hc => h1 ?_), w.prv_nxt _ hx]
          · rw [← w.prv_nxt _ hx, hc]
          · rw [← w.prv_nxt _ hx, hc, pT]
    · rw [(S.fF i hi).1]
      by_cases hl : i + 1 = k
      · rw [if_pos hl, pre, show k - 1 = i by omega]
      · rw [if_neg hl, (S.fF (i + 1) (by omega)).2.1, if_neg (by omega)]; rfl
    · rw [(S.fB i hi).1]
      by_cases h0 : i = 0
      · rw [if_pos h0, prp, h0]
      · rw [if_neg h0, (S.fB (i - 1) (by omega)).2.1, if_neg (by omega), show i - 1 + 1 = i by omega]
  · refine z _ (fun x hx => ?_) (fun i hi => ?_) (fun i hi => ?_)
    · by_cases h1 : x = e
      · rw [h1, pre, (S.fF (k - 1) (by omega)).1, if_pos k1]
      · by_cases h2 : x = t0.twn (t0.prv e)
        · rw [h2, prp, (S.fB 0 pos).1, if_pos rfl]
        · have hn := w.prv_live _ hx
          rw [pr x hx h1 h2, nx _ hn (fun hc => h2 ?_) (fun hc => h1 ?_), w.nxt_prv _ hx]
          · rw [← w.nxt_prv _ hx, hc, nT]
          · rw [← w.nxt_prv _ hx, hc, w.nxt_prv _ he]
    · rw [(S.fF i hi).2.1]
      by_cases h0 : i = 0
      · rw [if_pos h0, nxp, h0]
      · rw [if_neg h0, (S.fF (i - 1) (by omega)).1, if_neg (by omega), show i - 1 + 1 = i by omega]
    · rw [(S.fB i hi).2.1]
      by_cases hl : i + 1 = k
      · rw [if_pos hl, nxT, show k - 1 = i by omega]
      · rw [if_neg hl, (S.fB (i + 1) (by omega)).1, if_neg (by omega)]; rfl
  · refine z _ (fun x hx => ?_) (fun i hi => ?_) (fun i hi => ?_)
    · by_cases h1 : x = t0.twn e
      · rw [h1, nxT]; exact fun hc => S.freshB _ (by omega) (hc ▸ hT)
      · by_cases h2 : x = t0.prv e
        · rw [h2, nxp]; exact fun hc => S.freshF _ pos (hc ▸ hp)
        · rw [nx x hx h1 h2]; exact w.nxt_ne _ hx
    · rw [(S.fF i hi).1]
      split
      · exact fun hc => S.freshF i hi (hc ▸ he)
      · exact fun hc => by have := S.injF _ (by omega) _ hi hc; omega
    · rw [(S.fB i hi).1]
      split
      · exact fun hc => S.freshB i hi (hc ▸ hpt)
      · exact fun hc => by have := S.injB _ (by omega) _ hi hc; omega
  · refine z _ (fun x hx => ?_) (fun i hi => ?_) (fun i hi => ?_)
    · by_cases h1 : x = t0.twn e
      · rw [h1, nxT, tw _ hT, w.twn_twn _ he, oge, (S.fB (k - 1) (by omega)).2.2.2.1]
      · by_cases h2 : x = t0.prv e
        · rw [h2, nxp, tw _ hp, og _ hpt hne, op, (S.fF 0 pos).2.2.2.1, if_pos rfl]
        · have hn := w.nxt_live _ hx
          rw [nx x hx h1 h2, tw x hx, og _ hn (fun hc => h2 ?_), og _ (w.twn_live _ hx) (fun hc => h1 ?_), w.org_nxt _ hx]
          · rw [← hc, w.twn_twn _ hx]
          · rw [← w.prv_nxt _ hx, hc]
    · rw [(S.fF i hi).1, (S.fF i hi).2.2.1, (S.fB i hi).2.2.2.1]
      by_cases hl : i + 1 = k
      · rw [if_pos hl, oge, show k - 1 = i by omega]
      · rw [if_neg hl, (S.fF (i + 1) (by omega)).2.2.2.1, if_neg (by omega)]; rfl
    · rw [(S.fB i hi).1, (S.fB i hi).2.2.1, (S.fF i hi).2.2.2.1]
      by_cases h0 : i = 0
      · rw [if_pos h0, if_pos h0, og _ hpt hne, op]
      · rw [if_neg h0, if_neg h0, (S.fB (i - 1) (by omega)).2.2.2.1]
  · refine z _ (fun x hx => ?_) (fun i hi => ?_) (fun i hi => ?_)
    · by_cases h1 : x = e
      · rw [h1, oge]; exact vV _ (by omega)
      · rw [og x hx h1]; exact lV _ (w.org_live _ hx)
    · rw [(S.fF i hi).2.2.2.1]
      split
      · exact lV _ (w.org_live _ he)
      · exact vV _ (by omega)
    · rw [(S.fB i hi).2.2.2.1]; exact vV i hi
  · intro x g hx hg
    rw [S.F]
    obtain ⟨y, -, hy, -, hf, -⟩ := comp x hx
    exact w.fac_live _ _ hy (hf.trans hg)
  · refine z _ (fun x hx => ?_) (fun i hi => ?_) (fun i hi => ?_)
    · rw [fc x hx]
      by_cases h1 : x = t0.twn e
      · rw [h1, nxT, (S.fB (k - 1) (by omega)).2.2.2.2]
      · by_cases h2 : x = t0.prv e
        · rw [h2, nxp, facp, (S.fF 0 pos).2.2.2.2]
        · rw [nx x hx h1 h2, fc _ (w.nxt_live _ hx), w.fac_nxt _ hx]
    · rw [(S.fF i hi).1, (S.fF i hi).2.2.2.2]
      split
      · exact fc e he
      · exact (S.fF _ (by omega)).2.2.2.2
    · rw [(S.fB i hi).1, (S.fB i hi).2.2.2.2]
      split
      · rw [fc _ hpt, ← nT, w.fac_nxt _ hT]
      · exact (S.fB _ (by omega)).2.2.2.2
  · intro u x hu hx
    by_cases hv : ∃ i < k, u = v i
    · obtain ⟨i, hi, rfl⟩ := hv
      rw [S.vrepN i hi] at hx
      injection hx with hx
      subst hx
      exact ⟨bE i hi, (S.fB i hi).2.2.2.1⟩
    · have hv' : ∀ i < k, u ≠ v i := fun i hi hc => hv ⟨i, hi, hc⟩
      have hu0 : t0.V u := ((S.V u).mp hu).resolve_right hv
      rw [S.vrepO u hv'] at hx
      by_cases hc : u = t0.org e
      · rw [if_pos hc] at hx
        injection hx with hx
        subst hx
        refine ⟨fE 0 pos, ?_⟩
        rw [(S.fF 0 pos).2.2.2.1, if_pos rfl, hc]
      · rw [if_neg hc] at hx
        obtain ⟨h1, h2⟩ := w.vrep_some _ _ hu0 hx
        refine ⟨lE _ h1, ?_⟩
        rw [og _ h1 (fun hh => hc (by rw [← h2, hh])), h2]
  · intro u x hu hn hx
    by_cases hv : ∃ i < k, u = v i
    · obtain ⟨i, hi, rfl⟩ := hv
      rw [S.vrepN i hi] at hn
      cases hn
    · have hv' : ∀ i < k, u ≠ v i := fun i hi hc => hv ⟨i, hi, hc⟩
      have hu0 : t0.V u := ((S.V u).mp hu).resolve_right hv
      rw [S.vrepO u hv'] at hn
      by_cases hc : u = t0.org e
      · rw [if_pos hc] at hn; cases hn
      · rw [if_neg hc] at hn
        have h1 := fun x hx => w.vrep_none u x hu0 hn hx
        revert x
        refine z _ (fun x hx => ?_) (fun i hi => ?_) (fun i hi => ?_)
        · by_cases h2 : x = e
          · rw [h2, oge]; exact (hv' _ (by omega)).symm
          · rw [og x hx h2]; exact h1 x hx
        · rw [(S.fF i hi).2.2.2.1]
          split
          · exact fun hh => hc hh.symm
          · exact (hv' _ (by omega)).symm
        · rw [(S.fB i hi).2.2.2.1]; exact (hv' _ (by omega)).symm
  · intro g hg
    rw [S.F] at hg
    obtain ⟨h1, h2⟩ := w.frep_ok g hg
    rw [S.frep]
    exact ⟨lE _ h1, by rw [fc _ h1, h2]⟩
  · intro x y g hx hy hfx hfy
    obtain ⟨x', -, hx1, -, hx2, -, hx3, -⟩ := comp x hx
    obtain ⟨-, y', -, hy1, -, hy2, -, hy3⟩ := comp y hy
    exact (hx3.trans (rold _ _ hx1 (w.loop _ _ g hx1 hy1 (hx2.trans hfx) (hy2.trans hfy)))).trans hy3
  · intro x y hx hy ho
    -- by origin
    by_cases h0 : t.org x = t0.org e
    · rcases outO x hx h0 with rfl | rfl <;> rcases outO y hy (ho ▸ h0) with rfl | rfl
      · exact .refl _
      · exact Reach.one' rotF0
      · exact Reach.one' rotP
      · exact .refl _
    · by_cases hv : ∃ j < k, t.org x = v j
      · obtain ⟨j, hj, hv⟩ := hv
        rcases outV j hj x hx hv with h1 | h1 <;> rcases outV j hj y hy (ho ▸ hv) with h2 | h2 <;> rw [h1, h2]
        · exact .refl _
        · exact Reach.one' (rotB j hj)
        · exact Reach.one' (rotX j hj)
        · exact .refl _
      · have key : ∀ x, t.E x → t.org x ≠ t0.org e → (¬ ∃ j < k, t.org x = v j) → t0.E x ∧ t.org x = t0.org x := by
          refine z _ (fun x hx => ?_) (fun i hi => ?_) (fun i hi => ?_)
          · intro _ hn
            refine ⟨hx, og x hx (fun hc => hn ⟨k - 1, by omega, by rw [hc, oge]⟩)⟩
          · intro h1 h2
            rw [(S.fF i hi).2.2.2.1] at h1 h2
            by_cases h0 : i = 0
            · rw [if_pos h0] at h1; exact absurd rfl h1
            · rw [if_neg h0] at h2; exact absurd ⟨i - 1, by omega, rfl⟩ h2
          · intro h1 h2
            rw [(S.fB i hi).2.2.2.1] at h2
            exact absurd ⟨i, hi, rfl⟩ h2
        obtain ⟨hx0, hx1⟩ := key x hx h0 hv
        obtain ⟨hy0, hy1⟩ := key y hy (ho ▸ h0) (ho ▸ hv)
        exact wold _ _ (w.wheel _ _ hx0 hy0 (by rw [← hx1, ← hy1, ho])) hx0 (by rw [← hx1]; exact h0)

end Verif.Topo

namespace Verif.Mesh
open Verif.Topo
variable {VP EP FP : Type}

theorem addVertexViaEdge_raw {m : Mesh VP EP FP} (g : m.StOK) {input output : Nat} (hi : m.topo.E input) (hE : m.topo.E output)
    (hn : m.topo.E (m.topo.nxt input)) (hto : m.topo.org (m.topo.nxt input) = m.topo.org output) (dbg : Bool) (vp : VP) (ep1 ep2 : EP) :
    ∃ m' v e1 e2, m.addVertexViaEdge dbg input output vp ep1 ep2 = some (m', v, e1, e2) ∧ m'.StOK ∧
      ¬ m.topo.V v ∧ ¬ m.topo.E e1 ∧ ¬ m.topo.E e2 ∧ e1 ≠ e2 ∧
      m'.topo = m.topo.addDangling input output v e1 e2 ∧ m'.fs = m.fs ∧
      (∀ x, m'.vpay x = if x = v then some vp else m.vpay x) ∧
      (∀ x, m'.epay x = if x = e1 then some ep1 else if x = e2 then some ep2 else m.epay x) := by
  have o1 := originId_eq hE
  have o2 : m.targetId input = some (m.topo.org output) := by
    simp only [targetId, nextId_eq hi, Option.bind_eq_bind, Option.bind_some, originId_eq hn, hto]
  obtain ⟨a1, a2, -, a4, -⟩ := Store.allocate_spec g.vs
  generalize ha : m.vs.allocate = A at *
  obtain ⟨s1, v⟩ := A
  dsimp only at *
  obtain ⟨hs, e1, e2, i1, i2, i3, i4, i5, i6⟩ := insertEdgeNoUpdateNoCheck_spec (m := { m with vs := s1 }) g.hs
    none (some input) (m.topo.org output) none ep1 (some output) none v none ep2 (by simp)
    (by rintro x ⟨⟩; exact hi) (by rintro x ⟨⟩; exact hE) (by simp)
  obtain ⟨s2, c1, c2, c3⟩ := putV_spec (m := { m with vs := s1, hs := hs }) (v := v) a1 (by simp)
    { edge := some e2, payload := vp }
  obtain ⟨hI, hI'⟩ := hi
  obtain ⟨hO, hO'⟩ := hE
  have n1 : input ≠ e1 := by rintro rfl; simp [i4] at hI'
  have n2 : input ≠ e2 := by rintro rfl; simp [i5] at hI'
  have n3 : output ≠ e1 := by rintro rfl; simp [i4] at hO'
  have n4 : output ≠ e2 := by rintro rfl; simp [i5] at hO'
  obtain ⟨hs2, j1, j2, j3, -⟩ := updE_spec (m := { m with vs := s2, hs := hs }) i2 (e := input) (h := hI)
    (by rw [i6]; simp [n1, n2, hI']) (fun h => { h with next := e1 })
  obtain ⟨hs3, k1, k2, k3, -⟩ := updE_spec (m := { m with vs := s2, hs := hs2 }) j2 (e := output)
    (h := if output = input then { hI with next := e1 } else hO)
    (by dsimp only; rw [j3, i6]; simp only [n3, n4, hO', if_false]; split <;> rfl) (fun h => { h with prev := e2 })
  have hv := not_V_of a2
  have he1 := not_E_of i4
  have he2 := not_E_of i5
  have ht : ({ m with vs := s2, hs := hs3 } : Mesh VP EP FP).topo = m.topo.addDangling input output v e1 e2 := by
    apply Topo.ext' <;> intro x <;> simp only [topo, Topo.addDangling, k3, j3, i6, c3, a4, Option.getD_none, Option.getD_some] <;> grind
  refine ⟨{ m with vs := s2, hs := hs3 }, v, e1, e2, ?_, ?_, hv, he1, he2, i3, ht, rfl, ?_, ?_⟩
  · simp only [addVertexViaEdge, allocV, o1, o2, ha, Option.bind_eq_bind, Option.bind_some, Option.map_some,
      beq_self_eq_true, dassertM_true, i1, c1, setNext, setPrev, j1, k1]
  · refine ⟨k2, ?_, g.fs⟩
    simpa using c2
  · intro x
    simp only [vpay, c3, a4]; grind
  · intro x
    simp only [epay, k3, j3, i6]; grind

/-- one round on the mesh -/
theorem splitRound {m : Mesh VP EP FP} (g : m.StOK) {c : Nat} (hc : m.topo.E c) (hc' : m.topo.E (m.topo.twn c))
    (hn : m.topo.E (m.topo.nxt c)) (hto : m.topo.org (m.topo.nxt c) = m.topo.org (m.topo.twn c)) (dbg : Bool) (vp : VP) (ep1 ep2 : EP)
    (f1 f2 : Option Nat) :
    ∃ ma mb m' v e1 e2, m.twinId c = some (m.topo.twn c) ∧ m.addVertexViaEdge dbg c (m.topo.twn c) vp ep1 ep2 = some (ma, v, e1, e2) ∧
      ma.setFace dbg e1 f1 = some mb ∧ mb.setFace dbg e2 f2 = some m' ∧ m'.StOK ∧
      ¬ m.topo.V v ∧ ¬ m.topo.E e1 ∧ ¬ m.topo.E e2 ∧ e1 ≠ e2 ∧
      m'.topo = m.topo.chainStep c (m.topo.twn c) v e1 e2 f1 f2 ∧ m'.fs = m.fs ∧
      (∀ x, m'.vpay x = if x = v then some vp else m.vpay x) ∧
      (∀ x, m'.epay x = if x = e1 then some ep1 else if x = e2 then some ep2 else m.epay x) := by
  obtain ⟨ma, v, e1, e2, a1, a2, a3, a4, a5, a6, a7, a8, a9, a10⟩ := addVertexViaEdge_raw g hc hc' hn hto dbg vp ep1 ep2
  obtain ⟨mb, b1, b2, b3, b4, b5, -, b7⟩ := setFace_topo a2 (e := e1) (by rw [a7]; exact .inl rfl) dbg
    (fun _ => by rw [a7]; simp [addDangling]) f1
  obtain ⟨m', c1, c2, c3, c4, c5, -, c7⟩ := setFace_topo b2 (e := e2) (by rw [b7, a7]; exact .inr (.inl rfl)) dbg
    (fun _ => by rw [b7, a7]; simp [addDangling, a6.symm]) f2
  refine ⟨ma, mb, m', v, e1, e2, twinId_eq hc, a1, b1, c1, c2, a3, a4, a5, a6, ?_, by rw [c5, b5, a8], ?_, ?_⟩
  · rw [c7, b7, a7]
    apply Topo.ext' <;> intro x <;> simp only [chainStep, addDangling]
    grind
  · intro x; rw [c3.vpay, b3.vpay, a9]
  · intro x; rw [c3.epay, b3.epay, a10]

theorem SplitPay.step {m0 m m' : Mesh VP EP FP} {p : Nat → Option (EP × EP × VP)} {k : Nat} {v f b : Nat → Nat} {pp o : Nat} {f1 f2 : Option Nat}
    (P : SplitPay m0 m p k v f b) (C : Chain m0.topo m.topo pp o f1 f2 k v f b) {vn e1 e2 : Nat} {q : EP × EP × VP} (hq : p k = some q)
    (a3 : ¬ m.topo.V vn) (a4 : ¬ m.topo.E e1) (a5 : ¬ m.topo.E e2) (a6 : e1 ≠ e2) (hf : m'.fs = m.fs)
    (hv : ∀ x, m'.vpay x = if x = vn then some q.2.2 else m.vpay x)
    (he : ∀ x, m'.epay x = if x = e1 then some q.1 else if x = e2 then some q.2.1 else m.epay x) :
    SplitPay m0 m' p (k + 1) (fun i => if i = k then vn else v i) (fun i => if i = k then e1 else f i) (fun i => if i = k then e2 else b i) := by
  have ne1 : ∀ x, m.topo.E x → x ≠ e1 := fun x hx hc => a4 (hc ▸ hx)
  have ne2 : ∀ x, m.topo.E x → x ≠ e2 := fun x hx hc => a5 (hc ▸ hx)
  have nev : ∀ x, m.topo.V x → x ≠ vn := fun x hx hc => a3 (hc ▸ hx)
  refine ⟨?_, ?_, by rw [hf, P.fs], ?_⟩
  · intro x hx
    have := (C.E x).mpr (.inl hx)
    rw [he, if_neg (ne1 x this), if_neg (ne2 x this), P.edges x hx]
  · intro x hx
    have := (C.V x).mpr (.inl hx)
    rw [hv, if_neg (nev x this), P.vertices x hx]
  · intro i hi
    by_cases hc : i = k
    · subst hc
      refine ⟨q, hq, ?_, ?_, ?_⟩ <;> simp [hv, he, a6.symm]
    · obtain ⟨r, r1, r2, r3, r4⟩ := P.new i (by omega)
      have h1 := (C.E (f i)).mpr (.inr ⟨i, by omega, .inl rfl⟩)
      have h2 := (C.E (b i)).mpr (.inr ⟨i, by omega, .inr rfl⟩)
      have h3 := (C.V (v i)).mpr (.inr ⟨i, by omega, rfl⟩)
      refine ⟨r, r1, ?_, ?_, ?_⟩
      · simp [hc, he, ne1 _ h1, ne2 _ h1, r2]
      · simp [hc, he, ne1 _ h2, ne2 _ h2, r3]
      · simp [hc, hv, nev _ h3, r4]

theorem splitLoop_spec {m0 : Mesh VP EP FP} (g0 : m0.Good) {e : Nat} (he : m0.topo.E e) (dbg : Bool) {f1 f2 : Option Nat}
    {p : Nat → Option (EP × EP × VP)} :
    ∀ (ps : List (EP × EP × VP)) (k : Nat) (m : Mesh VP EP FP) (v f b : Nat → Nat), (∀ j, ps[j]? = p (k + j)) → m.StOK →
      Chain m0.topo m.topo (m0.topo.prv e) (m0.topo.org e) f1 f2 k v f b → SplitPay m0 m p k v f b →
    ∃ m' v' f' b', splitLoop dbg e f1 f2 ps false m (f (k - 1)) (b (k - 1)) (v (k - 1)) =
        some (m', f' (k + ps.length - 1), b' (k + ps.length - 1), v' (k + ps.length - 1)) ∧ m'.StOK ∧
      Chain m0.topo m'.topo (m0.topo.prv e) (m0.topo.org e) f1 f2 (k + ps.length) v' f' b' ∧ SplitPay m0 m' p (k + ps.length) v' f' b' := by
  intro ps
  induction ps with
  | nil => intro k m v f b _ gm C P; exact ⟨m, v, f, b, rfl, gm, C, P⟩
  | cons q ps ih =>
    intro k m v f b hps gm C P
    have pos := C.pos
    have w := g0.wf
    obtain ⟨ep1, ep2, vp⟩ := q
    have hq : p k = some (ep1, ep2, vp) := by have := hps 0; simpa using this.symm
    have hF := C.fF (k - 1) (by omega)
    rw [if_pos (show k - 1 + 1 = k by omega)] at hF
    have hfE := (C.E (f (k - 1))).mpr (.inr ⟨k - 1, by omega, .inl rfl⟩)
    have hbE := (C.E (b (k - 1))).mpr (.inr ⟨k - 1, by omega, .inr rfl⟩)
    obtain ⟨ma, mb, m1, vn, e1, e2, b1, b2, b3, b4, b5, b6, b7, b8, b9, b10, b11, b12, b13⟩ := splitRound gm hfE (by rw [hF.2.2.1]; exact hbE)
      (by rw [hF.1]; exact hbE) (by rw [hF.1, hF.2.2.1]) dbg vp ep1 ep2 f1 f2
    have hp := w.prv_live _ he
    have C' := C.step hp (w.twn_live _ hp) (w.org_live _ he) b6 b7 b8 b9
    rw [hF.2.2.1] at b10
    rw [← b10] at C'
    have P' := P.step C hq b6 b7 b8 b9 b11 b12 b13
    obtain ⟨m2, v', f', b', r1, r2, r3, r4⟩ := ih (k + 1) m1 _ _ _ (by
      intro j; have := hps (j + 1); rw [List.getElem?_cons_succ] at this; rw [this]; congr 1; omega) b5 C' P'
    have hl : k + (((ep1, ep2, vp) :: ps).length) = k + 1 + ps.length := by simp; omega
    rw [hl]
    refine ⟨m2, v', f', b', ?_, r2, r3, r4⟩
    simp only [splitLoop, b1, b2, b3, b4, Option.bind_eq_bind, Option.bind_some, Bool.false_eq_true, if_false]
    simpa using r1

theorem insertVerticesIntoEdge_spec {m : Mesh VP EP FP} (g : m.Good) {e : Nat} (he : m.topo.E e) (dbg : Bool)
    (ps : List (EP × EP × VP)) (hps : ps ≠ []) :
    ∃ m' v f b, m.insertVerticesIntoEdge dbg e ps = some (m', e) ∧ m'.StOK ∧
      Split m.topo m'.topo e ps.length v f b ∧ SplitPay m m' (fun i => ps[i]?) ps.length v f b := by
  have w := g.wf
  obtain ⟨q, ps, rfl⟩ := List.exists_cons_of_ne_nil hps
  obtain ⟨ep1, ep2, vp⟩ := q
  have hp := w.prv_live _ he
  have hT := w.twn_live _ he
  have hpt := w.twn_live _ hp
  obtain ⟨pe, -, hr⟩ := edge_rec he
  obtain ⟨pt, -, hrt⟩ := edge_rec hT
  -- the first round
  obtain ⟨ma, mb, m1, v0, e1, e2, b1, b2, b3, b4, b5, b6, b7, b8, b9, b10, b11, b12, b13⟩ := splitRound g.stOK hp hpt
    (by rw [w.nxt_prv _ he]; exact he) (w.org_nxt _ hp) dbg vp ep1 ep2 (m.topo.fac e) (m.topo.fac (m.topo.twn e))
  have ne1 : ∀ x, m.topo.E x → x ≠ e1 := fun x hx hc => b7 (hc ▸ hx)
  have ne2 : ∀ x, m.topo.E x → x ≠ e2 := fun x hx hc => b8 (hc ▸ hx)
  have he1 : m1.topo.E e := by rw [b10]; exact .inr (.inr he)
  have ho1 : m1.originId e = some (m.topo.org e) := by
    rw [originId_eq he1, b10]
    simp [chainStep, addDangling, ne1 _ he, ne2 _ he]
  have hV1 : m1.topo.V (m.topo.org e) := by rw [b10]; exact .inr (w.org_live _ he)
  obtain ⟨m2, c1, c2, c3, c4, c5, c6⟩ := setVertexEdge_topo b5 hV1 e1
  have C0 := Chain.start (f1 := m.topo.fac e) (f2 := m.topo.fac (m.topo.twn e)) w he b6 b7 b8 b9
  have ht2 : m2.topo = { m.topo.chainStep (m.topo.prv e) (m.topo.twn (m.topo.prv e)) v0 e1 e2 (m.topo.fac e) (m.topo.fac (m.topo.twn e)) with
      vrep := fun x => if x = m.topo.org e then some e1 else if x = v0 then some e2 else m.topo.vrep x } := by
    rw [c6, b10]; rfl
  rw [← ht2] at C0
  have P0 : SplitPay m m2 (fun i => ((ep1, ep2, vp) :: ps)[i]?) 1 (fun _ => v0) (fun _ => e1) (fun _ => e2) := by
    refine ⟨?_, ?_, by rw [c5, b11], ?_⟩
    · intro x hx; rw [c3.epay, b13, if_neg (ne1 x hx), if_neg (ne2 x hx)]
    · intro x hx; rw [c3.vpay, b12, if_neg (fun hc : x = v0 => b6 (hc ▸ hx))]
    · intro i hi
      have : i = 0 := by omega
      subst this
      refine ⟨(ep1, ep2, vp), rfl, ?_, ?_, ?_⟩ <;> simp [c3.epay, c3.vpay, b12, b13, b9.symm]
  obtain ⟨m3, v, f, b, d1, d2, d3, d4⟩ := splitLoop_spec g he dbg ps 1 m2 _ _ _ (by intro j; rw [Nat.add_comm, List.getElem?_cons_succ]) c2 C0 P0
  have hk : 1 + ps.length = ((ep1, ep2, vp) :: ps).length := by simp; omega
  rw [hk] at d1 d3 d4
  generalize hK : ((ep1, ep2, vp) :: ps).length = K at *
  have pos := d3.pos
  have lE : ∀ x, m.topo.E x → m3.topo.E x := fun x hx => (d3.E x).mpr (.inl hx)
  have hfE := (d3.E (f (K - 1))).mpr (.inr ⟨K - 1, by omega, .inl rfl⟩)
  have hbE := (d3.E (b (K - 1))).mpr (.inr ⟨K - 1, by omega, .inr rfl⟩)
  -- the five assignments
  obtain ⟨x1, s1, s2, s3, s4, s5, -, s7⟩ := setNext_topo d2 hfE e
  obtain ⟨x2, t1, t2, t3, t4, t5, -, t7⟩ := setPrev_topo s2 (e := e) (by rw [s7]; exact lE _ he) (f (K - 1))
  obtain ⟨x3, u1, u2, u3, u4, u5, -, u7⟩ := setPrev_topo t2 (e := b (K - 1)) (by rw [t7, s7]; exact hbE) (m.topo.twn e)
  obtain ⟨x4, w1, w2, w3, w4, w5, -, w7⟩ := setNext_topo u2 (e := m.topo.twn e) (by rw [u7, t7, s7]; exact lE _ hT) (b (K - 1))
  obtain ⟨x5, y1, y2, y3, y4, y5, -, y7⟩ := setOrigin_topo w2 (e := e) (by rw [w7, u7, t7, s7]; exact lE _ he) (v (K - 1))
  have ht : x5.topo = m3.topo.sealT e (m.topo.twn e) (v (K - 1)) (f (K - 1)) (b (K - 1)) := by
    rw [y7, w7, u7, t7, s7]
    apply Topo.ext' <;> intro x <;> simp only [sealT]
  have S := d3.sealed w he
  rw [← ht] at S
  refine ⟨x5, v, f, b, ?_, y2, S, ?_⟩
  · simp only [insertVerticesIntoEdge, hr, hrt, Option.bind_eq_bind, Option.bind_some, splitLoop, b1, b2, b3, b4, if_true, ho1, c1]
    simp only [d1, Option.bind_some, s1, t1, u1, w1, y1]
  · refine ⟨?_, ?_, ?_, ?_⟩
    · intro x hx; rw [y3.epay, w3.epay, u3.epay, t3.epay, s3.epay, d4.edges x hx]
    · intro x hx; rw [y3.vpay, w3.vpay, u3.vpay, t3.vpay, s3.vpay, d4.vertices x hx]
    · rw [y5, w5, u5, t5, s5, d4.fs]
    · intro i hi
      obtain ⟨r, r1, r2, r3, r4⟩ := d4.new i hi
      refine ⟨r, r1, ?_, ?_, ?_⟩
      · rw [y3.epay, w3.epay, u3.epay, t3.epay, s3.epay, r2]
      · rw [y3.epay, w3.epay, u3.epay, t3.epay, s3.epay, r3]
      · rw [y3.vpay, w3.vpay, u3.vpay, t3.vpay, s3.vpay, r4]

end Verif.Mesh
namespace Verif.MeshProps
open Mesh
variable {VP EP FP : Type}

/-! ### C23 -/

/-- `insert_vertices_into_edge` never panics, and the mesh is consistent afterwards iff the origin of `e` had exactly two
    edges: `rot e ≠ e` and `rot (rot e) = e` (`rot` turns to the next half-edge around the origin). -/
theorem c23_consistent_iff {m : Mesh VP EP FP} (g : m.Good) {e : Nat} (he : m.topo.E e) (dbg : Bool) (ps : List (EP × EP × VP))
    (hps : ps ≠ []) :
    ∃ m', m.insertVerticesIntoEdge dbg e ps = some (m', e) ∧
      (m'.Good ↔ m.topo.rot e ≠ e ∧ m.topo.rot (m.topo.rot e) = e) := by
  obtain ⟨m', v, f, b, h1, h2, h3, h4⟩ := insertVerticesIntoEdge_spec g he dbg ps hps
  exact ⟨m', h1, fun g' => h3.degree g.wf he g'.wf, fun hd => h2.good (h3.wf g.wf he hd.1 hd.2)⟩

/-- The returned half-edge starts at a new vertex, not at the previous origin. -/
theorem c23_returned {m : Mesh VP EP FP} (g : m.Good) {e : Nat} (he : m.topo.E e) (dbg : Bool) (ps : List (EP × EP × VP))
    (hps : ps ≠ []) :
    ∃ m' r o, m.insertVerticesIntoEdge dbg e ps = some (m', r) ∧ m'.originId r = some o ∧ m.vertex o = none ∧ m.originId e ≠ some o := by
  obtain ⟨m', v, f, b, h1, h2, h3, h4⟩ := insertVerticesIntoEdge_spec g he dbg ps hps
  have pos := h3.pos
  have hE : m'.topo.E e := (h3.E e).mpr (.inl he)
  refine ⟨m', e, v (ps.length - 1), h1, ?_, vertex_none.mpr (h3.freshV _ (by omega)), ?_⟩
  · rw [originId_eq hE, (h3.old e he).2.2.2.1, if_pos rfl]
  · rw [originId_eq he]
    intro hc
    injection hc with hc
    exact h3.freshV _ (by omega) (hc ▸ g.wf.org_live _ he)

/-- If the origin of `e` has exactly two edges, the edge is replaced by a chain through the new vertices with the given
    payloads, the mesh stays consistent, and everything else is unchanged.
    Missing for the full property: other degrees (the result is then inconsistent, `c23_consistent_iff`) and the returned
    half-edge (`c23_returned`). -/
theorem c23_partial {m : Mesh VP EP FP} (g : m.Good) {e : Nat} (he : m.topo.E e) (dbg : Bool) (ps : List (EP × EP × VP))
    (hps : ps ≠ []) (hd : m.topo.rot e ≠ e) (hd2 : m.topo.rot (m.topo.rot e) = e) :
    ∃ m' v f b, m.insertVerticesIntoEdge dbg e ps = some (m', e) ∧ m'.Good ∧
      Topo.Split m.topo m'.topo e ps.length v f b ∧ SplitPay m m' (fun i => ps[i]?) ps.length v f b := by
  obtain ⟨m', v, f, b, h1, h2, h3, h4⟩ := insertVerticesIntoEdge_spec g he dbg ps hps
  exact ⟨m', v, f, b, h1, h2.good (h3.wf g.wf he hd hd2), h3, h4⟩

/-- in a triangle every vertex has two edges; in `sample` the origin of half-edge 0 has three -/
example : ∃ m m', triangle = some m ∧ m.Good ∧ m.topo.E 0 ∧ m.topo.rot 0 ≠ 0 ∧ m.topo.rot (m.topo.rot 0) = 0 ∧
    m.insertVerticesIntoEdge true 0 [(1, 2, 3), (4, 5, 6)] = some (m', 0) ∧ m'.goodB = true := by
  refine ⟨triangle.get (by decide +kernel),
    ((triangle.get (by decide +kernel)).insertVerticesIntoEdge true 0 [(1, 2, 3), (4, 5, 6)] |>.get (by decide +kernel)).1,
    by decide +kernel, goodB_ok (by decide +kernel), ⟨_, rfl⟩, by decide +kernel, by decide +kernel, by decide +kernel, by decide +kernel⟩

example : ∃ m, sample = some m ∧ m.Good ∧ m.topo.E 0 ∧ m.topo.rot (m.topo.rot 0) ≠ 0 ∧
    ∀ dbg, ∃ m', m.insertVerticesIntoEdge dbg 0 [(1, 2, 3)] = some (m', 0) ∧ ¬ m'.Good := by
  refine ⟨sample.get (by decide +kernel), by decide +kernel, goodB_ok (by decide +kernel), ⟨_, rfl⟩, by decide +kernel, fun dbg => ?_⟩
  obtain ⟨m', h1, h2⟩ := c23_consistent_iff (m := sample.get (by decide +kernel)) (goodB_ok (by decide +kernel)) (e := 0) ⟨_, rfl⟩ dbg
    [(1, 2, 3)] (by simp)
  exact ⟨m', h1, fun g => absurd (h2.mp g).2 (by decide +kernel)⟩

end Verif.MeshProps
