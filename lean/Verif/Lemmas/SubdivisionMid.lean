import Verif.Spec.Subdivision
import Verif.Lemmas.Subdivision
/- The states of a mesh during loop subdivision. -/
namespace Verif.Topo

/-- `f` with the value at `a` replaced -/
def upd (f : Nat → Nat) (a b x : Nat) : Nat := if x = a then b else f x

/-- The half-edges in `S` have been split, the corners at the half-edges in `P` cut off, those in `C` closed; the faces in `R` have been removed and those in `G` have got their middle triangle. -/
structure Mid (t0 t : Topo) (S P C R G : List Nat) (n p q μ ci ce : Nat → Nat) : Prop where
  SE : ∀ e ∈ S, t0.E e
  PS : ∀ e ∈ P, e ∈ S ∧ t0.prv e ∈ S
  CP : ∀ e ∈ C, e ∈ P
  PR : ∀ e ∈ P, t0.fc e ∈ R
  GR : ∀ f ∈ G, f ∈ R
  RS : ∀ e, t0.E e → t0.fc e ∈ R → e ∈ S
  GP : ∀ e, t0.E e → t0.fc e ∈ G → e ∈ P
  E : ∀ x, t.E x ↔ t0.E x ∨ (∃ e, e ∈ S ∧ x = n e) ∨ ∃ e, e ∈ P ∧ (x = p e ∨ x = q e)
  V : ∀ x, t.V x ↔ t0.V x ∨ ∃ e, e ∈ S ∧ x = μ e
  F : ∀ x, t.F x ↔ (t0.F x ∧ x ∉ R) ∨ (∃ e, e ∈ C ∧ x = ci e) ∨ ∃ f, f ∈ G ∧ x = ce f
  nE : ∀ e ∈ S, ¬ t0.E (n e)
  pE : ∀ e ∈ P, ¬ t0.E (p e)
  qE : ∀ e ∈ P, ¬ t0.E (q e)
  nn : ∀ a ∈ S, ∀ b ∈ S, n a = n b → a = b
  pp : ∀ a ∈ P, ∀ b ∈ P, p a = p b → a = b
  qq : ∀ a ∈ P, ∀ b ∈ P, q a = q b → a = b
  np : ∀ a ∈ S, ∀ b ∈ P, n a ≠ p b
  nq : ∀ a ∈ S, ∀ b ∈ P, n a ≠ q b
  pq : ∀ a ∈ P, ∀ b ∈ P, p a ≠ q b
  μV : ∀ e ∈ S, ¬ t0.V (μ e)
  μμ : ∀ a ∈ S, ∀ b ∈ S, μ a = μ b ↔ a = b ∨ b = t0.twn a
  cc : ∀ a ∈ C, ∀ b ∈ C, ci a = ci b → a = b
  gg : ∀ a ∈ G, ∀ b ∈ G, ce a = ce b → a = b
  cg : ∀ a ∈ C, ∀ b ∈ G, ci a ≠ ce b
  cR : ∀ a ∈ C, t0.F (ci a) → ci a ∈ R
  gR : ∀ a ∈ G, t0.F (ce a) → ce a ∈ R
  nO : ∀ e, t0.E e → t.nxt e = if e ∈ P then p e else if t0.nxt e ∈ P then q (t0.nxt e) else if e ∈ S then n e else t0.nxt e
  nN : ∀ e ∈ S, t.nxt (n e) = t0.nxt e
  nP : ∀ e ∈ P, t.nxt (p e) = n (t0.prv e)
  nQ : ∀ e ∈ P, t.nxt (q e) = if t0.nxt e ∈ P then q (t0.nxt e) else n e
  pO : ∀ e, t0.E e → t.prv e = if t0.prv e ∈ S then n (t0.prv e) else t0.prv e
  pN : ∀ e ∈ S, t.prv (n e) = if t0.nxt e ∈ P then p (t0.nxt e) else if e ∈ P then q e else e
  pP : ∀ e ∈ P, t.prv (p e) = e
  pQ : ∀ e ∈ P, t.prv (q e) = if t0.prv e ∈ P then q (t0.prv e) else t0.prv e
  tO : ∀ e, t0.E e → t.twn e = if e ∈ S ∧ t0.twn e ∈ S then n (t0.twn e) else t0.twn e
  tN : ∀ e ∈ S, t.twn (n e) = t0.twn e
  tP : ∀ e ∈ P, t.twn (p e) = q e ∧ t.twn (q e) = p e
  oO : ∀ e, t0.E e → t.org e = t0.org e
  oN : ∀ e ∈ S, t.org (n e) = μ e
  oP : ∀ e ∈ P, t.org (p e) = μ e ∧ t.org (q e) = μ (t0.prv e)
  fO : ∀ e, t0.E e → t.fac e = if e ∈ C then some (ci e) else if t0.fc e ∈ R then none else some (t0.fc e)
  fN : ∀ e ∈ S, t.fac (n e) = if t0.nxt e ∈ C then some (ci (t0.nxt e)) else if t0.fc e ∈ R then none else some (t0.fc e)
  fP : ∀ e ∈ P, t.fac (p e) = if e ∈ C then some (ci e) else none
  fQ : ∀ e ∈ P, t.fac (q e) = if t0.fc e ∈ G then some (ce (t0.fc e)) else none
  vrepO : ∀ v, t0.V v → t.vrep v = t0.vrep v
  vrepN : ∀ e ∈ S, t.vrep (μ e) = some (n e) ∨ t0.twn e ∈ S ∧ t.vrep (μ e) = some (n (t0.twn e))
  frepO : ∀ f, t0.F f → f ∉ R → t.frep f = t0.frep f
  frepC : ∀ e ∈ C, t.frep (ci e) = e
  frepM : ∀ f ∈ G, ∃ e, e ∈ P ∧ t0.fc e = f ∧ t.frep (ce f) = q e

theorem TriMesh.fac {t : Topo} (T : t.TriMesh) {e : Nat} (he : t.E e) : t.fac e = some (t.fc e) := by
  have := T.closed e he
  rw [fc]
  cases h : t.fac e <;> simp_all

theorem TriMesh.fc_nxt {t : Topo} (T : t.TriMesh) {e : Nat} (he : t.E e) : t.fc (t.nxt e) = t.fc e := by
  rw [fc, fc, T.wf.fac_nxt e he]

theorem TriMesh.fc_prv {t : Topo} (T : t.TriMesh) {e : Nat} (he : t.E e) : t.fc (t.prv e) = t.fc e := by
  rw [← T.fc_nxt (T.wf.prv_live e he), T.wf.nxt_prv e he]

theorem TriMesh.start {t : Topo} (T : t.TriMesh) : Mid t t [] [] [] [] [] id id id id id id := by
  constructor <;> simp
  intro e he
  exact T.fac he

/-- an edge whose twin has not been split is split -/
theorem Mid.split {t0 t : Topo} (T : t0.TriMesh) {S P C R G : List Nat} {n p q μ ci ce : Nat → Nat} (M : Mid t0 t S P C R G n p q μ ci ce) {e v w : Nat} (he : t0.E e) (hS : e ∉ S)
    (hT : t0.twn e ∉ S) (hw : ¬ t.E w) (hv : ¬ t.V v) : Mid t0 (t.splitHalf e v w) (e :: S) P C R G (upd n e w) p q (upd μ e v) ci ce := by
  have hR : t0.fc e ∉ R := fun h => hS (M.RS e he h)
  have h1 := T.wf.nxt_live e he
  have h2 := T.wf.prv_live e he
  have hP : e ∉ P := fun h => hR (M.PR e h)
  have hPn : t0.nxt e ∉ P := fun h => hR (T.fc_nxt he ▸ M.PR _ h)
  have hPp : t0.prv e ∉ P := fun h => hR (T.fc_prv he ▸ M.PR _ h)
  have hC : e ∉ C := fun h => hP (M.CP e h)
  have hnx : t.nxt e = t0.nxt e := by rw [M.nO e he, if_neg hP, if_neg hPn, if_neg hS]
  have htw : t.twn e = t0.twn e := by rw [M.tO e he, if_neg (fun h => hS h.1)]
  have hfa : t.fac e = some (t0.fc e) := by rw [M.fO e he, if_neg hC, if_neg hR]
  have dO : ∀ x, t0.E x → x ≠ w := fun x hx h => hw (h ▸ (M.E x).mpr (.inl hx))
  have dN : ∀ x ∈ S, n x ≠ w := fun x hx h => hw (h ▸ (M.E _).mpr (.inr (.inl ⟨x, hx, rfl⟩)))
  have dP : ∀ x ∈ P, p x ≠ w := fun x hx h => hw (h ▸ (M.E _).mpr (.inr (.inr ⟨x, hx, .inl rfl⟩)))
  have dQ : ∀ x ∈ P, q x ≠ w := fun x hx h => hw (h ▸ (M.E _).mpr (.inr (.inr ⟨x, hx, .inr rfl⟩)))
  have dV : ∀ x, t0.V x → x ≠ v := fun x hx h => hv (h ▸ (M.V x).mpr (.inl hx))
  have dM : ∀ x ∈ S, μ x ≠ v := fun x hx h => hv (h ▸ (M.V _).mpr (.inr ⟨x, hx, rfl⟩))
  have eS : ∀ x ∈ S, x ≠ e := fun x hx h => hS (h ▸ hx)
  have eP : ∀ x ∈ P, x ≠ e := fun x hx h => hP (h ▸ hx)
  have tne : ∀ x ∈ S, t0.twn x ≠ e := fun x hx h => hT (by rw [← h, T.wf.twn_twn x (M.SE x hx)]; exact hx)
  constructor
  case SE => intro x hx; rcases List.mem_cons.mp hx with rfl | h; exact he; exact M.SE x h
  case PS => intro x hx; exact ⟨.tail _ (M.PS x hx).1, .tail _ (M.PS x hx).2⟩
  case CP => exact M.CP
  case PR => exact M.PR
  case GR => exact M.GR
  case RS => intro x hx h; exact .tail _ (M.RS x hx h)
  case GP => exact M.GP
  case E => intro x; simp only [splitHalf, M.E x, List.mem_cons, upd]; grind
  case V => intro x; simp only [splitHalf, M.V x, List.mem_cons, upd]; grind
  case F => exact M.F
  case nE => intro x hx; simp only [upd]; split; exact fun h => dO _ h rfl; exact M.nE x (by grind)
  case pE => exact M.pE
  case qE => exact M.qE
  case nn => simp only [upd, List.mem_cons]; have := M.nn; grind
  case pp => exact M.pp
  case qq => exact M.qq
  case np => simp only [upd, List.mem_cons]; have := M.np; grind
  case nq => simp only [upd, List.mem_cons]; have := M.nq; grind
  case pq => exact M.pq
  case μV => intro x hx; simp only [upd]; split; exact fun h => dV _ h rfl; exact M.μV x (by grind)
  case μμ => simp only [upd, List.mem_cons]; have := M.μμ; grind
  case cc => exact M.cc
  case gg => exact M.gg
  case cg => exact M.cg
  case cR => exact M.cR
  case gR => exact M.gR
  case nO => intro x hx; simp only [splitHalf, upd, List.mem_cons, M.nO x hx, hnx]; have := dO x hx; have := M.PR (t0.nxt x); grind
  case nN => intro x hx; have := M.nN x; have := M.nE x; simp only [splitHalf, upd, List.mem_cons, hnx] at *; grind
  case nP => intro x hx; have := M.nP x hx; have := M.pE x hx; have := M.PS x hx; simp only [splitHalf, upd, List.mem_cons, hnx] at *; grind
  case nQ => intro x hx; have := M.nQ x hx; have := M.qE x hx; simp only [splitHalf, upd, List.mem_cons, hnx] at *; grind
  case pO => intro x hx; have := M.pO x hx; have := T.wf.prv_nxt e he; have := T.wf.nxt_prv x hx; simp only [splitHalf, upd, List.mem_cons, hnx] at *; grind
  case pN => intro x hx; have := M.pN x; have := M.nE x; simp only [splitHalf, upd, List.mem_cons, hnx] at *; grind
  case pP => intro x hx; have := M.pP x hx; have := M.pE x hx; simp only [splitHalf, upd, List.mem_cons, hnx] at *; grind
  case pQ => intro x hx; have := M.pQ x hx; have := M.qE x hx; simp only [splitHalf, upd, List.mem_cons, hnx] at *; grind
  case tO => intro x hx; have := M.tO x hx; have := tne x; have := T.wf.twn_ne x hx; simp only [splitHalf, upd, List.mem_cons] at *; grind
  case tN => intro x hx; have := M.tN x; simp only [splitHalf, upd, List.mem_cons, htw] at *; grind
  case tP => intro x hx; have := M.tP x hx; simp only [splitHalf] at *; grind
  case oO => intro x hx; have := M.oO x hx; simp only [splitHalf] at *; grind
  case oN => intro x hx; have := M.oN x; simp only [splitHalf, upd, List.mem_cons] at *; grind
  case oP => intro x hx; have := M.oP x hx; have := M.PS x hx; simp only [splitHalf, upd] at *; grind
  case fO => intro x hx; have := M.fO x hx; simp only [splitHalf] at *; grind
  case fN => intro x hx; have := M.fN x; have := M.CP (t0.nxt x); simp only [splitHalf, upd, List.mem_cons, hfa] at *; grind
  case fP => intro x hx; have := M.fP x hx; simp only [splitHalf] at *; grind
  case fQ => intro x hx; have := M.fQ x hx; simp only [splitHalf] at *; grind
  case vrepO => intro x hx; have := M.vrepO x hx; have := dV x hx; simp only [splitHalf] at *; grind
  case vrepN => intro x hx; have := M.vrepN x; have := tne x; simp only [splitHalf, upd, List.mem_cons] at *; grind
  case frepO => exact M.frepO
  case frepC => exact M.frepC
  case frepM => exact M.frepM

/-- an edge whose twin has been split is split at the same vertex -/
theorem Mid.fix {t0 t : Topo} (T : t0.TriMesh) {S P C R G : List Nat} {n p q μ ci ce : Nat → Nat} (M : Mid t0 t S P C R G n p q μ ci ce) {e w : Nat} (he : t0.E e) (hS : e ∉ S)
    (hT : t0.twn e ∈ S) (hw : ¬ t.E w) : Mid t0 (t.fixHalf e (n (t0.twn e)) w) (e :: S) P C R G (upd n e w) p q (upd μ e (μ (t0.twn e))) ci ce := by
  have hR : t0.fc e ∉ R := fun h => hS (M.RS e he h)
  have h1 := T.wf.nxt_live e he
  have h2 := T.wf.prv_live e he
  have h3 := T.wf.twn_live e he
  have hP : e ∉ P := fun h => hR (M.PR e h)
  have hPn : t0.nxt e ∉ P := fun h => hR (T.fc_nxt he ▸ M.PR _ h)
  have hPp : t0.prv e ∉ P := fun h => hR (T.fc_prv he ▸ M.PR _ h)
  have hC : e ∉ C := fun h => hP (M.CP e h)
  have hnx : t.nxt e = t0.nxt e := by rw [M.nO e he, if_neg hP, if_neg hPn, if_neg hS]
  have htw : t.twn e = t0.twn e := by rw [M.tO e he, if_neg (fun h => hS h.1)]
  have hfa : t.fac e = some (t0.fc e) := by rw [M.fO e he, if_neg hC, if_neg hR]
  have hor : t.org (n (t0.twn e)) = μ (t0.twn e) := M.oN _ hT
  have dO : ∀ x, t0.E x → x ≠ w := fun x hx h => hw (h ▸ (M.E x).mpr (.inl hx))
  have dN : ∀ x ∈ S, n x ≠ w := fun x hx h => hw (h ▸ (M.E _).mpr (.inr (.inl ⟨x, hx, rfl⟩)))
  have dP : ∀ x ∈ P, p x ≠ w := fun x hx h => hw (h ▸ (M.E _).mpr (.inr (.inr ⟨x, hx, .inl rfl⟩)))
  have dQ : ∀ x ∈ P, q x ≠ w := fun x hx h => hw (h ▸ (M.E _).mpr (.inr (.inr ⟨x, hx, .inr rfl⟩)))
  have eS : ∀ x ∈ S, x ≠ e := fun x hx h => hS (h ▸ hx)
  have eP : ∀ x ∈ P, x ≠ e := fun x hx h => hP (h ▸ hx)
  have tne : ∀ x, t0.E x → t0.twn x = e → x = t0.twn e := fun x hx h => by rw [← h, T.wf.twn_twn x hx]
  have tt := T.wf.twn_twn e he
  constructor
  case SE => intro x hx; rcases List.mem_cons.mp hx with rfl | h; exact he; exact M.SE x h
  case PS => intro x hx; exact ⟨.tail _ (M.PS x hx).1, .tail _ (M.PS x hx).2⟩
  case CP => exact M.CP
  case PR => exact M.PR
  case GR => exact M.GR
  case RS => intro x hx h; exact .tail _ (M.RS x hx h)
  case GP => exact M.GP
  case E => intro x; simp only [fixHalf, M.E x, List.mem_cons, upd]; grind
  case V => intro x; simp only [fixHalf, M.V x, List.mem_cons, upd]; grind
  case F => exact M.F
  case nE => intro x hx; simp only [upd]; split; exact fun h => dO _ h rfl; exact M.nE x (by grind)
  case pE => exact M.pE
  case qE => exact M.qE
  case nn => simp only [upd, List.mem_cons]; have := M.nn; grind
  case pp => exact M.pp
  case qq => exact M.qq
  case np => simp only [upd, List.mem_cons]; have := M.np; grind
  case nq => simp only [upd, List.mem_cons]; have := M.nq; grind
  case pq => exact M.pq
  case μV => intro x hx; simp only [upd]; split; exact M.μV _ hT; exact M.μV x (by grind)
  case μμ =>
    have h4 := M.μμ _ hT
    have h5 : ∀ x ∈ S, t0.twn x = e ↔ x = t0.twn e := fun x hx => ⟨tne x (M.SE x hx), fun h => by rw [h, tt]⟩
    have h6 : ∀ x ∈ S, μ x = μ (t0.twn e) ↔ x = t0.twn e := fun x hx => by have := h4 x hx; have := eS x hx; grind
    have h7 := M.μμ
    simp only [upd, List.mem_cons]
    intro a ha b hb
    rcases ha with rfl | ha <;> rcases hb with rfl | hb
    · simp
    · have := h6 b hb; have := eS b hb; grind
    · have := h6 a ha; have := eS a ha; have := h5 a ha; grind
    · have := h7 a ha b hb; have := eS a ha; have := eS b hb; grind
  case cc => exact M.cc
  case gg => exact M.gg
  case cg => exact M.cg
  case cR => exact M.cR
  case gR => exact M.gR
  case nO => intro x hx; simp only [fixHalf, upd, List.mem_cons, M.nO x hx, hnx]; have := dO x hx; have := M.PR (t0.nxt x); grind
  case nN => intro x hx; have := M.nN x; have := M.nE x; simp only [fixHalf, upd, List.mem_cons, hnx] at *; grind
  case nP => intro x hx; have := M.nP x hx; have := M.pE x hx; have := M.PS x hx; simp only [fixHalf, upd, List.mem_cons, hnx] at *; grind
  case nQ => intro x hx; have := M.nQ x hx; have := M.qE x hx; simp only [fixHalf, upd, List.mem_cons, hnx] at *; grind
  case pO => intro x hx; have := M.pO x hx; have := T.wf.prv_nxt e he; have := T.wf.nxt_prv x hx; simp only [fixHalf, upd, List.mem_cons, hnx] at *; grind
  case pN => intro x hx; have := M.pN x; have := M.nE x; simp only [fixHalf, upd, List.mem_cons, hnx] at *; grind
  case pP => intro x hx; have := M.pP x hx; have := M.pE x hx; simp only [fixHalf, upd, List.mem_cons, hnx] at *; grind
  case pQ => intro x hx; have := M.pQ x hx; have := M.qE x hx; simp only [fixHalf, upd, List.mem_cons, hnx] at *; grind
  case tO => intro x hx; have := M.tO x hx; have := tne x hx; have := T.wf.twn_ne x hx; have := dO x hx; simp only [fixHalf, upd, List.mem_cons, htw] at *; grind
  case tN => intro x hx; have := M.tN x; have := M.nE x; simp only [fixHalf, upd, List.mem_cons, htw] at *; grind
  case tP => intro x hx; have := M.tP x hx; have := M.pE x hx; have := M.qE x hx; simp only [fixHalf, htw] at *; grind
  case oO => intro x hx; have := M.oO x hx; simp only [fixHalf] at *; grind
  case oN => intro x hx; have := M.oN x; simp only [fixHalf, upd, List.mem_cons, hor] at *; grind
  case oP => intro x hx; have := M.oP x hx; have := M.PS x hx; simp only [fixHalf, upd] at *; grind
  case fO => intro x hx; have := M.fO x hx; simp only [fixHalf] at *; grind
  case fN => intro x hx; have := M.fN x; have := M.CP (t0.nxt x); simp only [fixHalf, upd, List.mem_cons, hfa] at *; grind
  case fP => intro x hx; have := M.fP x hx; simp only [fixHalf] at *; grind
  case fQ => intro x hx; have := M.fQ x hx; simp only [fixHalf] at *; grind
  case vrepO => exact M.vrepO
  case vrepN =>
    intro x hx; have h4 := M.vrepN x; have h5 := M.vrepN _ hT; have h6 := T.wf.twn_ne e he
    simp only [fixHalf, upd, List.mem_cons] at *; grind
  case frepO => exact M.frepO
  case frepC => exact M.frepC
  case frepM => exact M.frepM

/-- a face with split edges is removed -/
theorem Mid.remove {t0 t : Topo} (T : t0.TriMesh) {S P C R G : List Nat} {n p q μ ci ce : Nat → Nat} (M : Mid t0 t S P C R G n p q μ ci ce) {f : Nat} (hF : t0.F f) (hR : f ∉ R)
    (hS : ∀ e, t0.E e → t0.fc e = f → e ∈ S) {l : List Nat} (hl : ∀ x, x ∈ l ↔ ∃ e, t0.E e ∧ t0.fc e = f ∧ (x = e ∨ x = n e)) :
    Mid t0 { t with F := fun x => x ≠ f ∧ t.F x, fac := fun x => if x ∈ l then none else t.fac x, frep := fun x => if x = f then 0 else t.frep x }
      S P C (f :: R) G n p q μ ci ce := by
  have hC : ∀ a ∈ C, ci a ≠ f := fun a ha h => hR (h ▸ M.cR a ha (h ▸ hF))
  have hG : ∀ a ∈ G, ce a ≠ f := fun a ha h => hR (h ▸ M.gR a ha (h ▸ hF))
  have hP : ∀ x ∈ P, t0.fc x ≠ f := fun x hx h => hR (h ▸ M.PR x hx)
  constructor
  case SE => exact M.SE
  case PS => exact M.PS
  case CP => exact M.CP
  case PR => exact fun x hx => .tail _ (M.PR x hx)
  case GR => exact fun x hx => .tail _ (M.GR x hx)
  case RS => intro x hx h; rcases List.mem_cons.mp h with h | h; exact hS x hx h; exact M.RS x hx h
  case GP => exact M.GP
  case E => exact M.E
  case V => exact M.V
  case F => intro x; simp only [M.F x, List.mem_cons]; grind
  case nE => exact M.nE
  case pE => exact M.pE
  case qE => exact M.qE
  case nn => exact M.nn
  case pp => exact M.pp
  case qq => exact M.qq
  case np => exact M.np
  case nq => exact M.nq
  case pq => exact M.pq
  case μV => exact M.μV
  case μμ => exact M.μμ
  case cc => exact M.cc
  case gg => exact M.gg
  case cg => exact M.cg
  case cR => exact fun a ha h => .tail _ (M.cR a ha h)
  case gR => exact fun a ha h => .tail _ (M.gR a ha h)
  case nO => exact M.nO
  case nN => exact M.nN
  case nP => exact M.nP
  case nQ => exact M.nQ
  case pO => exact M.pO
  case pN => exact M.pN
  case pP => exact M.pP
  case pQ => exact M.pQ
  case tO => exact M.tO
  case tN => exact M.tN
  case tP => exact M.tP
  case oO => exact M.oO
  case oN => exact M.oN
  case oP => exact M.oP
  case fO =>
    intro x hx; have h1 := M.fO x hx; have h2 := M.CP x
    have h3 : x ∈ l ↔ t0.fc x = f := by
      rw [hl]
      refine ⟨fun ⟨e, h4, h5, h6⟩ => ?_, fun h => ⟨x, hx, h, .inl rfl⟩⟩
      rcases h6 with rfl | rfl
      · exact h5
      · exact absurd hx (M.nE e (hS e h4 h5))
    simp only [List.mem_cons]; grind
  case fN =>
    intro x hx; have h1 := M.fN x hx; have h2 := M.CP (t0.nxt x); have h7 := T.fc_nxt (M.SE x hx)
    have h3 : n x ∈ l ↔ t0.fc x = f := by
      rw [hl]
      refine ⟨fun ⟨e, h4, h5, h6⟩ => ?_, fun h => ⟨x, M.SE x hx, h, .inr rfl⟩⟩
      rcases h6 with h6 | h6
      · exact absurd (h6 ▸ h4) (M.nE x hx)
      · exact M.nn x hx e (hS e h4 h5) h6 ▸ h5
    simp only [List.mem_cons]; grind
  case fP =>
    intro x hx; have h1 := M.fP x hx
    have h3 : p x ∉ l := by
      rw [hl]
      rintro ⟨e, h4, h5, h6 | h6⟩
      · exact M.pE x hx (h6 ▸ h4)
      · exact M.np e (hS e h4 h5) x hx h6.symm
    simp only [if_neg h3, h1]
  case fQ =>
    intro x hx; have h1 := M.fQ x hx
    have h3 : q x ∉ l := by
      rw [hl]
      rintro ⟨e, h4, h5, h6 | h6⟩
      · exact M.qE x hx (h6 ▸ h4)
      · exact M.nq e (hS e h4 h5) x hx h6.symm
    simp only [if_neg h3, h1]
  case vrepO => exact M.vrepO
  case vrepN => exact M.vrepN
  case frepO => intro x hx h; have := M.frepO x hx; grind
  case frepC => intro x hx; have := M.frepC x hx; have := hC x hx; grind
  case frepM => intro x hx; have := M.frepM x hx; have := hG x hx; simp only [if_neg this]; assumption

/-- where the new edge at a corner ends -/
def outside (t0 : Topo) (P : List Nat) (q : Nat → Nat) (e : Nat) : Nat := if t0.prv e ∈ P then q (t0.prv e) else t0.prv e

/-- a corner is cut off -/
theorem Mid.cut {t0 t : Topo} (T : t0.TriMesh) {S P C R G : List Nat} {n p q μ ci ce : Nat → Nat} (M : Mid t0 t S P C R G n p q μ ci ce) {e w1 w2 : Nat} (he : t0.E e) (hR : t0.fc e ∈ R)
    (hG : t0.fc e ∉ G) (hP : e ∉ P) (hw1 : ¬ t.E w1) (hw2 : ¬ t.E w2) (hw : w1 ≠ w2) :
    Mid t0 (t.join e (outside t0 P q e) w1 w2) S (e :: P) C R G n (upd p e w1) (upd q e w2) μ ci ce := by
  have h1 := T.wf.nxt_live e he
  have h2 := T.wf.prv_live e he
  have hS := M.RS e he hR
  have hS1 : t0.prv e ∈ S := M.RS _ h2 (T.fc_prv he ▸ hR)
  have hC : e ∉ C := fun h => hP (M.CP e h)
  have pne : ∀ x, t0.E x → t0.nxt x = e → x = t0.prv e := fun x hx h => by rw [← h, T.wf.prv_nxt x hx]
  have nne : ∀ x, t0.E x → t0.prv x = e → x = t0.nxt e := fun x hx h => by rw [← h, T.wf.nxt_prv x hx]
  have np := T.wf.nxt_prv e he
  have pn := T.wf.prv_nxt e he
  have ne : t0.prv e ≠ e := fun h => T.wf.nxt_ne e he (by rw [h] at np; exact np)
  have ne1 : t0.nxt e ≠ e := T.wf.nxt_ne e he
  have hnx : t.nxt e = if t0.nxt e ∈ P then q (t0.nxt e) else n e := by rw [M.nO e he, if_neg hP]; simp only [hS, if_true]
  have hnb : t.nxt (outside t0 P q e) = n (t0.prv e) := by
    rw [outside]; split
    · next h => rw [M.nQ _ h, np, if_neg hP]
    · next h => rw [M.nO _ h2, if_neg h, np, if_neg hP, if_pos hS1]
  have hoa : t.org (t.nxt e) = μ e := by
    rw [hnx]; split
    · next h => rw [(M.oP _ h).2, pn]
    · exact M.oN e hS
  have hob : t.org (t.nxt (outside t0 P q e)) = μ (t0.prv e) := by rw [hnb]; exact M.oN _ hS1
  have d1 : ∀ x, t.E x → x ≠ w1 := fun x hx h => hw1 (h ▸ hx)
  have d2 : ∀ x, t.E x → x ≠ w2 := fun x hx h => hw2 (h ▸ hx)
  have lO : ∀ x, t0.E x → t.E x := fun x hx => (M.E x).mpr (.inl hx)
  have lN : ∀ x ∈ S, t.E (n x) := fun x hx => (M.E _).mpr (.inr (.inl ⟨x, hx, rfl⟩))
  have lP : ∀ x ∈ P, t.E (p x) := fun x hx => (M.E _).mpr (.inr (.inr ⟨x, hx, .inl rfl⟩))
  have lQ : ∀ x ∈ P, t.E (q x) := fun x hx => (M.E _).mpr (.inr (.inr ⟨x, hx, .inr rfl⟩))
  have dO1 := fun x hx => d1 x (lO x hx)
  have dO2 := fun x hx => d2 x (lO x hx)
  have dN1 := fun x hx => d1 _ (lN x hx)
  have dN2 := fun x hx => d2 _ (lN x hx)
  have dP1 := fun x hx => d1 _ (lP x hx)
  have dP2 := fun x hx => d2 _ (lP x hx)
  have dQ1 := fun x hx => d1 _ (lQ x hx)
  have dQ2 := fun x hx => d2 _ (lQ x hx)
  have eP : ∀ x ∈ P, x ≠ e := fun x hx h => hP (h ▸ hx)
  have PE : ∀ x ∈ P, t0.E x := fun x hx => M.SE x (M.PS x hx).1
  clear d1 d2 lO lN lP lQ
  constructor
  case SE => exact M.SE
  case PS => intro x hx; rcases List.mem_cons.mp hx with rfl | h; exact ⟨hS, hS1⟩; exact M.PS x h
  case CP => exact fun x hx => .tail _ (M.CP x hx)
  case PR => intro x hx; rcases List.mem_cons.mp hx with rfl | h; exact hR; exact M.PR x h
  case GR => exact M.GR
  case RS => exact M.RS
  case GP => exact fun x hx h => .tail _ (M.GP x hx h)
  case E => intro x; simp only [join, M.E x, List.mem_cons, upd]; grind
  case V => exact M.V
  case F => exact M.F
  case nE => exact M.nE
  case pE => simp only [upd, List.mem_cons]; have := M.pE; grind
  case qE => simp only [upd, List.mem_cons]; have := M.qE; grind
  case nn => exact M.nn
  case pp => simp only [upd, List.mem_cons]; have := M.pp; grind
  case qq => simp only [upd, List.mem_cons]; have := M.qq; grind
  case np => simp only [upd, List.mem_cons]; have := M.np; grind
  case nq => simp only [upd, List.mem_cons]; have := M.nq; grind
  case pq => simp only [upd, List.mem_cons]; have := M.pq; grind
  case μV => exact M.μV
  case μμ => exact M.μμ
  case cc => exact M.cc
  case gg => exact M.gg
  case cg => exact M.cg
  case cR => exact M.cR
  case gR => exact M.gR
  case nO =>
    intro x hx; simp only [join, upd, List.mem_cons, M.nO x hx, hnx, hnb]
    have := dO1 x hx; have := dO2 x hx; have := pne x hx; have := M.qE (t0.prv e); rw [outside]; grind
  case nN =>
    intro x hx; simp only [join, M.nN x hx]
    have := dN1 x hx; have := dN2 x hx; have := M.nE x hx; have := M.nq x hx (t0.prv e); rw [outside]; grind
  case nP =>
    intro x hx; simp only [join, upd, List.mem_cons, hnx, hnb] at *
    rcases hx with rfl | hx
    · simp
    · have := dP1 x hx; have := dP2 x hx; have := M.pE x hx; have := M.pq x hx (t0.prv e); have := eP x hx; have := M.nP x hx; rw [outside]; grind
  case nQ =>
    intro x hx; simp only [join, upd, List.mem_cons, hnx, hnb] at *
    rcases hx with rfl | hx
    · grind
    · have := dQ1 x hx; have := dQ2 x hx; have := M.qE x hx; have := M.qq x hx (t0.prv e); have := eP x hx; have := M.nQ x hx; have := pne x (PE x hx); rw [outside]; grind
  case pO =>
    intro x hx; simp only [join, M.pO x hx, hnx, hnb]
    have := dO1 x hx; have := dO2 x hx; have := M.nE _ hS; have := M.nE _ hS1; have := M.qE (t0.nxt e); grind
  case pN =>
    intro x hx; simp only [join, upd, List.mem_cons, M.pN x hx, hnx, hnb]
    have := dN1 x hx; have := dN2 x hx; have := M.nn x hx _ hS; have := M.nn x hx _ hS1; have := M.nq x hx (t0.nxt e); have := pne x (M.SE x hx); have := eP (t0.nxt x); have := eP x; grind
  case pP =>
    intro x hx; simp only [join, upd, List.mem_cons, hnx, hnb] at *
    rcases hx with rfl | hx
    · grind
    · have := dP1 x hx; have := dP2 x hx; have := M.np _ hS x hx; have := M.np _ hS1 x hx; have := eP x hx; have := M.pP x hx; have := M.pq x hx (t0.nxt e); grind
  case pQ =>
    intro x hx; simp only [join, upd, List.mem_cons, hnx, hnb] at *
    rcases hx with rfl | hx
    · rw [outside]; grind
    · have := dQ1 x hx; have := dQ2 x hx; have := M.nq _ hS x hx; have := M.nq _ hS1 x hx; have := eP x hx; have := M.pQ x hx; have := M.qq x hx (t0.nxt e); have := nne x (PE x hx); have := eP (t0.prv x); grind
  case tO => intro x hx; have := M.tO x hx; have := dO1 x hx; have := dO2 x hx; simp only [join]; grind
  case tN => intro x hx; have := M.tN x hx; have := dN1 x hx; have := dN2 x hx; simp only [join]; grind
  case tP => 
    intro x hx; simp only [join, upd, List.mem_cons] at *
    rcases hx with rfl | hx
    · grind
    · have := M.tP x hx; have := dP1 x hx; have := dP2 x hx; have := dQ1 x hx; have := dQ2 x hx; have := eP x hx; grind
  case oO => intro x hx; have := M.oO x hx; have := dO1 x hx; have := dO2 x hx; simp only [join]; grind
  case oN => intro x hx; have := M.oN x hx; have := dN1 x hx; have := dN2 x hx; simp only [join]; grind
  case oP =>
    intro x hx; simp only [join, upd, List.mem_cons, hoa, hob] at *
    rcases hx with rfl | hx
    · grind
    · have := M.oP x hx; have := dP1 x hx; have := dP2 x hx; have := dQ1 x hx; have := dQ2 x hx; have := eP x hx; grind
  case fO => intro x hx; have := M.fO x hx; have := dO1 x hx; have := dO2 x hx; simp only [join]; grind
  case fN => intro x hx; have := M.fN x hx; have := dN1 x hx; have := dN2 x hx; simp only [join]; grind
  case fP =>
    intro x hx; simp only [join, upd, List.mem_cons] at *
    rcases hx with rfl | hx
    · grind
    · have := M.fP x hx; have := dP1 x hx; have := dP2 x hx; have := eP x hx; grind
  case fQ =>
    intro x hx; simp only [join, upd, List.mem_cons] at *
    rcases hx with rfl | hx
    · grind
    · have := M.fQ x hx; have := dQ1 x hx; have := dQ2 x hx; have := eP x hx; grind
  case vrepO => exact M.vrepO
  case vrepN => exact M.vrepN
  case frepO => exact M.frepO
  case frepC => exact M.frepC
  case frepM =>
    intro x hx; obtain ⟨y, h3, h4, h5⟩ := M.frepM x hx
    refine ⟨y, .tail _ h3, h4, ?_⟩
    have := eP y h3; simp only [join, upd, if_neg this, h5]

/-- a corner is closed -/
theorem Mid.corner {t0 t : Topo} (T : t0.TriMesh) {S P C R G : List Nat} {n p q μ ci ce : Nat → Nat} (M : Mid t0 t S P C R G n p q μ ci ce) {e f : Nat} (hP : e ∈ P) (hC : e ∉ C) (hf : ¬ t.F f)
    {l : List Nat} (hl : ∀ x, x ∈ l ↔ x = e ∨ x = p e ∨ x = n (t0.prv e)) : Mid t0 (t.addFace f e (· ∈ l)) S P (e :: C) R G n p q μ (upd ci e f) ce := by
  have he := M.SE e (M.PS e hP).1
  have hS1 := (M.PS e hP).2
  have np := T.wf.nxt_prv e he
  have pne : ∀ x, t0.E x → t0.nxt x = e → x = t0.prv e := fun x hx h => by rw [← h, T.wf.prv_nxt x hx]
  have dC : ∀ x ∈ C, ci x ≠ f := fun x hx h => hf ((M.F f).mpr (.inr (.inl ⟨x, hx, h.symm⟩)))
  have dG : ∀ x ∈ G, ce x ≠ f := fun x hx h => hf ((M.F f).mpr (.inr (.inr ⟨x, hx, h.symm⟩)))
  have dF : t0.F f → f ∈ R := fun h => Classical.byContradiction fun h1 => hf ((M.F f).mpr (.inl ⟨h, h1⟩))
  have eC : ∀ x ∈ C, x ≠ e := fun x hx h => hC (h ▸ hx)
  constructor
  case SE => exact M.SE
  case PS => exact M.PS
  case CP => intro x hx; rcases List.mem_cons.mp hx with rfl | h; exact hP; exact M.CP x h
  case PR => exact M.PR
  case GR => exact M.GR
  case RS => exact M.RS
  case GP => exact M.GP
  case E => exact M.E
  case V => exact M.V
  case F => intro x; simp only [addFace, M.F x, List.mem_cons, upd]; grind
  case nE => exact M.nE
  case pE => exact M.pE
  case qE => exact M.qE
  case nn => exact M.nn
  case pp => exact M.pp
  case qq => exact M.qq
  case np => exact M.np
  case nq => exact M.nq
  case pq => exact M.pq
  case μV => exact M.μV
  case μμ => exact M.μμ
  case cc => simp only [upd, List.mem_cons]; have := M.cc; grind
  case gg => exact M.gg
  case cg => simp only [upd, List.mem_cons]; have := M.cg; grind
  case cR => simp only [upd, List.mem_cons]; have := M.cR; grind
  case gR => exact M.gR
  case nO => exact M.nO
  case nN => exact M.nN
  case nP => exact M.nP
  case nQ => exact M.nQ
  case pO => exact M.pO
  case pN => exact M.pN
  case pP => exact M.pP
  case pQ => exact M.pQ
  case tO => exact M.tO
  case tN => exact M.tN
  case tP => exact M.tP
  case oO => exact M.oO
  case oN => exact M.oN
  case oP => exact M.oP
  case fO => intro x hx; simp only [addFace, upd, List.mem_cons, hl, M.fO x hx]; have := M.pE e hP; have := M.nE _ hS1; grind
  case fN =>
    intro x hx; simp only [addFace, upd, List.mem_cons, hl, M.fN x hx]
    have := M.nE x hx; have := M.np x hx e hP; have := M.nn x hx _ hS1; have := pne x (M.SE x hx); grind
  case fP => intro x hx; simp only [addFace, upd, List.mem_cons, hl, M.fP x hx]; have := M.pE x hx; have := M.np _ hS1 x hx; have := M.pp x hx e hP; grind
  case fQ => intro x hx; simp only [addFace, hl, M.fQ x hx]; have := M.qE x hx; have := M.nq _ hS1 x hx; have := M.pq e hP x hx; grind
  case vrepO => exact M.vrepO
  case vrepN => exact M.vrepN
  case frepO => intro x hx h; have := M.frepO x hx h; simp only [addFace]; grind
  case frepC => intro x hx; simp only [addFace, upd, List.mem_cons] at *; have := M.frepC x; have := dC x; grind
  case frepM => intro x hx; have := M.frepM x hx; have := dG x hx; simp only [addFace, if_neg this]; assumption

/-- the middle triangle of a face is closed -/
theorem Mid.middle {t0 t : Topo} (T : t0.TriMesh) {S P C R G : List Nat} {n p q μ ci ce : Nat → Nat} (M : Mid t0 t S P C R G n p q μ ci ce) {e0 f0 f : Nat} (h0 : t0.E e0) (h0f : t0.fc e0 = f0)
    (hP : ∀ e, t0.E e → t0.fc e = f0 → e ∈ P) (hG : f0 ∉ G) (hf : ¬ t.F f) {l : List Nat} (hl : ∀ x, x ∈ l ↔ ∃ e, t0.E e ∧ t0.fc e = f0 ∧ x = q e) :
    Mid t0 (t.addFace f (q e0) (· ∈ l)) S P C R (f0 :: G) n p q μ ci (upd ce f0 f) := by
  have dC : ∀ x ∈ C, ci x ≠ f := fun x hx h => hf ((M.F f).mpr (.inr (.inl ⟨x, hx, h.symm⟩)))
  have dG : ∀ x ∈ G, ce x ≠ f := fun x hx h => hf ((M.F f).mpr (.inr (.inr ⟨x, hx, h.symm⟩)))
  have dF : t0.F f → f ∈ R := fun h => Classical.byContradiction fun h1 => hf ((M.F f).mpr (.inl ⟨h, h1⟩))
  have eG : ∀ x ∈ G, x ≠ f0 := fun x hx h => hG (h ▸ hx)
  constructor
  case SE => exact M.SE
  case PS => exact M.PS
  case CP => exact M.CP
  case PR => exact M.PR
  case GR => intro x hx; rcases List.mem_cons.mp hx with rfl | h; exact h0f ▸ M.PR e0 (hP e0 h0 h0f); exact M.GR x h
  case RS => exact M.RS
  case GP => intro x hx h; rcases List.mem_cons.mp h with h | h; exact hP x hx h; exact M.GP x hx h
  case E => exact M.E
  case V => exact M.V
  case F => intro x; simp only [addFace, M.F x, List.mem_cons, upd]; grind
  case nE => exact M.nE
  case pE => exact M.pE
  case qE => exact M.qE
  case nn => exact M.nn
  case pp => exact M.pp
  case qq => exact M.qq
  case np => exact M.np
  case nq => exact M.nq
  case pq => exact M.pq
  case μV => exact M.μV
  case μμ => exact M.μμ
  case cc => exact M.cc
  case gg => simp only [upd, List.mem_cons]; have := M.gg; grind
  case cg => simp only [upd, List.mem_cons]; have := M.cg; grind
  case cR => exact M.cR
  case gR => simp only [upd, List.mem_cons]; have := M.gR; grind
  case nO => exact M.nO
  case nN => exact M.nN
  case nP => exact M.nP
  case nQ => exact M.nQ
  case pO => exact M.pO
  case pN => exact M.pN
  case pP => exact M.pP
  case pQ => exact M.pQ
  case tO => exact M.tO
  case tN => exact M.tN
  case tP => exact M.tP
  case oO => exact M.oO
  case oN => exact M.oN
  case oP => exact M.oP
  case fO =>
    intro x hx
    have : x ∉ l := by rw [hl]; rintro ⟨e, h1, h2, rfl⟩; exact M.qE e (hP e h1 h2) hx
    simp only [addFace, M.fO x hx, if_neg this]
  case fN =>
    intro x hx
    have : n x ∉ l := by rw [hl]; rintro ⟨e, h1, h2, h3⟩; exact M.nq x hx e (hP e h1 h2) h3
    simp only [addFace, M.fN x hx, if_neg this]
  case fP =>
    intro x hx
    have : p x ∉ l := by rw [hl]; rintro ⟨e, h1, h2, h3⟩; exact M.pq x hx e (hP e h1 h2) h3
    simp only [addFace, M.fP x hx, if_neg this]
  case fQ =>
    intro x hx
    have : q x ∈ l ↔ t0.fc x = f0 := by
      rw [hl]; refine ⟨fun ⟨e, h1, h2, h3⟩ => M.qq x hx e (hP e h1 h2) h3 ▸ h2, fun h => ⟨x, M.SE x (M.PS x hx).1, h, rfl⟩⟩
    simp only [addFace, M.fQ x hx, this, upd, List.mem_cons]; grind
  case vrepO => exact M.vrepO
  case vrepN => exact M.vrepN
  case frepO => intro x hx h; have := M.frepO x hx h; simp only [addFace]; grind
  case frepC => intro x hx; have := M.frepC x hx; have := dC x hx; simp only [addFace, if_neg this]; assumption
  case frepM =>
    intro x hx; simp only [addFace, upd, List.mem_cons] at *
    by_cases h : x = f0
    · exact ⟨e0, hP e0 h0 h0f, h ▸ h0f, by simp [h]⟩
    · have hx := hx.resolve_left h
      have h1 := dG x hx
      obtain ⟨y, h2, h3, h4⟩ := M.frepM x hx
      exact ⟨y, h2, h3, by simp [h, h1, h4]⟩

/-- what remains when all faces are done -/
theorem Mid.done {t0 t : Topo} {S P C R G : List Nat} {n p q μ ci ce : Nat → Nat} (M : Mid t0 t S P C R G n p q μ ci ce) (T : t0.TriMesh)
    (hC : ∀ e, t0.E e → e ∈ C) (hG : ∀ f, t0.F f → f ∈ G) (hR : ∀ f ∈ G, t0.F f) : Subdivided t0 t n p q μ ci ce := by
  have hP := fun e he => M.CP e (hC e he)
  have hS := fun e he => (M.PS e (hP e he)).1
  have hn := T.wf.nxt_live
  have hp := T.wf.prv_live
  have ht := T.wf.twn_live
  have PE := fun e he => M.SE e (M.PS e he).1
  have CE := fun e he => PE e (M.CP e he)
  have fl : ∀ e, t0.E e → t0.F (t0.fc e) := fun e he => T.wf.fac_live e _ he (T.fac he)
  constructor
  case E =>
    intro x; rw [M.E]
    constructor
    · rintro (h | ⟨e, h, h1⟩ | ⟨e, h, h1⟩)
      · exact .inl h
      · exact .inr ⟨e, M.SE e h, .inl h1⟩
      · exact .inr ⟨e, PE e h, .inr h1⟩
    · rintro (h | ⟨e, h, h1 | h1⟩)
      · exact .inl h
      · exact .inr (.inl ⟨e, hS e h, h1⟩)
      · exact .inr (.inr ⟨e, hP e h, h1⟩)
  case V =>
    intro x; rw [M.V]
    exact or_congr_right ⟨fun ⟨e, h, h1⟩ => ⟨e, M.SE e h, h1⟩, fun ⟨e, h, h1⟩ => ⟨e, hS e h, h1⟩⟩
  case F =>
    intro x; rw [M.F]
    constructor
    · rintro (h | ⟨e, h, h1⟩ | ⟨e, h, h1⟩)
      · exact absurd (M.GR x (hG x h.1)) h.2
      · exact .inl ⟨e, CE e h, h1⟩
      · exact .inr ⟨e, hR e h, h1⟩
    · rintro (⟨e, h, h1⟩ | ⟨e, h, h1⟩)
      · exact .inr (.inl ⟨e, hC e h, h1⟩)
      · exact .inr (.inr ⟨e, hG e h, h1⟩)
  case nE => exact fun e he => ⟨M.nE e (hS e he), M.pE e (hP e he), M.qE e (hP e he)⟩
  case inj =>
    exact fun a b ha hb => ⟨M.nn a (hS a ha) b (hS b hb), M.pp a (hP a ha) b (hP b hb), M.qq a (hP a ha) b (hP b hb), M.np a (hS a ha) b (hP b hb),
      M.nq a (hS a ha) b (hP b hb), M.pq a (hP a ha) b (hP b hb)⟩
  case μV => exact fun e he => M.μV e (hS e he)
  case μμ => exact fun a b ha hb => M.μμ a (hS a ha) b (hS b hb)
  case ff => exact ⟨fun a b ha hb => M.cc a (hC a ha) b (hC b hb), fun a b ha hb => M.gg a (hG a ha) b (hG b hb), fun a b ha hb => M.cg a (hC a ha) b (hG b hb)⟩
  case nxt =>
    intro e he
    rw [M.nO e he, M.nP e (hP e he), M.nN e (hS e he), M.nQ e (hP e he), if_pos (hP e he), if_pos (hP _ (hn e he))]
    simp
  case prv =>
    intro e he
    rw [M.pO e he, M.pP e (hP e he), M.pN e (hS e he), M.pQ e (hP e he), if_pos (hS _ (hp e he)), if_pos (hP _ (hp e he)), if_pos (hP _ (hn e he))]
    simp
  case twn =>
    intro e he
    rw [M.tO e he, M.tN e (hS e he), (M.tP e (hP e he)).1, (M.tP e (hP e he)).2, if_pos ⟨hS e he, hS _ (ht e he)⟩]
    simp
  case org => exact fun e he => ⟨M.oO e he, M.oN e (hS e he), M.oP e (hP e he)⟩
  case fac =>
    intro e he
    rw [M.fO e he, M.fN e (hS e he), M.fP e (hP e he), M.fQ e (hP e he), if_pos (hC e he), if_pos (hC _ (hn e he)), if_pos (hC e he), if_pos (hG _ (fl e he))]
    simp
  case vrepO => exact M.vrepO
  case vrepN => intro e he; rcases M.vrepN e (hS e he) with h | ⟨-, h⟩; exact .inl h; exact .inr h
  case frepC => exact fun e he => M.frepC e (hC e he)
  case frepM => intro f hf; obtain ⟨e, h1, h2, h3⟩ := M.frepM f (hG f hf); exact ⟨e, PE e h1, h2, h3⟩

end Verif.Topo
