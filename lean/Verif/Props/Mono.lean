import Verif.Lemmas.SweepStep
/-
C43: the linear triangulator of monotone chains.
-/
set_option linter.unusedSectionVars false
namespace Verif.Geom
open Triangulation

theorem emits_local {t t' : Triangulation} {ids : List Nat} {a b c : Nat} (h : t.insertTriangleLocal a b c ids = some t') : Emits t t' ids [(a, b, c)] := by
  simp only [insertTriangleLocal, Option.bind_eq_bind, Option.bind_eq_some_iff] at h
  obtain ⟨a', ha, b', hb, c', hc, h⟩ := h
  simp at h; subst h
  exact ⟨[(a', b', c')], by simp [mapTri, ha, hb, hc], by simp [flat]⟩

theorem local_some (t : Triangulation) {ids : List Nat} {a b c : Nat} (ha : a < ids.length) (hb : b < ids.length) (hc : c < ids.length) : ∃ t', t.insertTriangleLocal a b c ids = some t' := by
  simp [insertTriangleLocal, ha, hb, hc]

namespace LChain

/-- a triangle made of the new vertex and two vertices from the stack -/
def Joins (v : Nat) (st : List Nat) (x : Nat × Nat × Nat) : Prop := ∃ a b, a ∈ st ∧ b ∈ st ∧ (x = (a, v, b) ∨ x = (a, b, v))

/-- 1 for the left and -1 for the right chain -/
def eps (d : Dir) : Int := if d = .left then 1 else -1

variable (angPos angNeg : Nat → Nat → Nat → Bool) (ids : List Nat) (v : Nat)

theorem same_law (d : Dir) : ∀ (st : List Nat) (t : Triangulation) (st' : List Nat) (t' : Triangulation), sameLoop angPos angNeg ids v d st t = some (st', t') →
    ∃ us rest, Emits t t' ids us ∧ st' = v :: rest ∧ rest ≠ [] ∧ rest <:+ st ∧ us.length + st'.length = st.length + 1 ∧ (∀ x ∈ us, Joins v st x) ∧
      ∀ f, Anti f → ∀ a, st.head? = some a → triSum f us = eps d * (f a v - psum f st + psum f st') := by
  intro st
  induction st with
  | nil => intro t st' t' h; simp [sameLoop] at h
  | cons a st ih =>
    intro t st' t' h
    cases st with
    | nil =>
      simp [sameLoop] at h
      obtain ⟨rfl, rfl⟩ := h
      refine ⟨[], [a], emits_nil t ids, rfl, by simp, by simp, by simp, by simp, ?_⟩
      intro f hf b hb
      simp at hb; subst hb
      have := hf a v
      simp [triSum, psum]; right; omega
    | cons b st =>
      have stop : some (v :: a :: b :: st, t) = some (st', t') → ∃ us rest, Emits t t' ids us ∧ st' = v :: rest ∧ rest ≠ [] ∧ rest <:+ a :: b :: st ∧
          us.length + st'.length = (a :: b :: st).length + 1 ∧ (∀ x ∈ us, Joins v (a :: b :: st) x) ∧
          ∀ f, Anti f → ∀ c, (a :: b :: st).head? = some c → triSum f us = eps d * (f c v - psum f (a :: b :: st) + psum f st') := by
        intro h
        simp at h
        obtain ⟨rfl, rfl⟩ := h
        refine ⟨[], a :: b :: st, emits_nil t ids, rfl, by simp, by simp, by simp, by simp, ?_⟩
        intro f hf c hc
        simp at hc; subst hc
        have := hf a v
        simp [triSum, psum]; right; omega
      have pop : ∀ (x : Nat × Nat × Nat) (t1 : Triangulation), (d = .left ∧ x = (a, v, b) ∨ d ≠ .left ∧ x = (a, b, v)) → t.insertTriangleLocal x.1 x.2.1 x.2.2 ids = some t1 →
          sameLoop angPos angNeg ids v d (b :: st) t1 = some (st', t') → ∃ us rest, Emits t t' ids us ∧ st' = v :: rest ∧ rest ≠ [] ∧ rest <:+ a :: b :: st ∧
          us.length + st'.length = (a :: b :: st).length + 1 ∧ (∀ x ∈ us, Joins v (a :: b :: st) x) ∧
          ∀ f, Anti f → ∀ c, (a :: b :: st).head? = some c → triSum f us = eps d * (f c v - psum f (a :: b :: st) + psum f st') := by
        intro x t1 hx h1 h2
        obtain ⟨us, rest, e1, e2, e3, e4, e5, e6, e7⟩ := ih _ _ _ h2
        refine ⟨x :: us, rest, emits_append' (emits_local h1) e1, e2, e3, e4.trans (List.suffix_cons _ _), by simp at e5 ⊢; omega, ?_, ?_⟩
        · intro y hy
          rcases List.mem_cons.mp hy with rfl | hy
          · rcases hx with ⟨-, rfl⟩ | ⟨-, rfl⟩
            · exact ⟨a, b, by simp, by simp, .inl rfl⟩
            · exact ⟨a, b, by simp, by simp, .inr rfl⟩
          · obtain ⟨c, e, h3, h4, h5⟩ := e6 y hy
            exact ⟨c, e, by simp at h3 ⊢; tauto, by simp at h4 ⊢; tauto, h5⟩
        · intro f hf c hc
          simp at hc; subst hc
          rw [triSum_cons, e7 f hf b rfl]
          have h1 := hf a v
          have h2 := hf b v
          have h3 := hf a b
          rcases hx with ⟨hd, rfl⟩ | ⟨hd, rfl⟩
          · simp only [eps, hd, if_true, psum]; omega
          · simp only [eps, hd, if_false, psum]; omega
      rw [sameLoop] at h
      split at h
      · rename_i hd
        split at h
        · exact stop h
        · simp only [Option.bind_eq_bind, Option.bind_eq_some_iff] at h
          obtain ⟨t1, h1, h2⟩ := h
          exact pop (a, v, b) t1 (.inl ⟨hd, rfl⟩) h1 h2
      · rename_i hd
        split at h
        · exact stop h
        · simp only [Option.bind_eq_bind, Option.bind_eq_some_iff] at h
          obtain ⟨t1, h1, h2⟩ := h
          exact pop (a, b, v) t1 (.inr ⟨hd, rfl⟩) h1 h2

theorem same_some (hv : v < ids.length) (d : Dir) : ∀ (st : List Nat) (t : Triangulation), st ≠ [] → (∀ a ∈ st, a < ids.length) → ∃ r, sameLoop angPos angNeg ids v d st t = some r := by
  intro st
  induction st with
  | nil => intro t h; simp at h
  | cons a st ih =>
    intro t _ hb
    cases st with
    | nil => exact ⟨_, rfl⟩
    | cons b st =>
      obtain ⟨t1, h1⟩ := local_some t (hb a (by simp)) hv (hb b (by simp))
      obtain ⟨t2, h2⟩ := local_some t (hb a (by simp)) (hb b (by simp)) hv
      obtain ⟨r1, g1⟩ := ih t1 (by simp) (fun x hx => hb x (by simp at hx ⊢; tauto))
      obtain ⟨r2, g2⟩ := ih t2 (by simp) (fun x hx => hb x (by simp at hx ⊢; tauto))
      rw [sameLoop]
      split
      · split
        · exact ⟨_, rfl⟩
        · rw [h1]; exact ⟨r1, g1⟩
      · split
        · exact ⟨_, rfl⟩
        · rw [h2]; exact ⟨r2, g2⟩

theorem opp_loop_law (d : Dir) : ∀ (l : List Nat) (t t' : Triangulation), oppLoop ids v d l t = some t' → ∃ us, Emits t t' ids us ∧ us.length = l.length - 1 ∧ (∀ x ∈ us, Joins v l x) ∧
    ∀ f, Anti f → ∀ a z, l.head? = some a → l.getLast? = some z → triSum f us = eps d * (f a v - f z v - psum f l) := by
  intro l
  induction l with
  | nil => intro t t' h; simp [oppLoop] at h; subst h; exact ⟨[], emits_nil t ids, rfl, by simp, by simp⟩
  | cons a l ih =>
    intro t t' h
    cases l with
    | nil =>
      simp [oppLoop] at h; subst h
      refine ⟨[], emits_nil t ids, rfl, by simp, ?_⟩
      intro f hf x z hx hz
      simp at hx hz; subst hx; subst hz
      simp [triSum, psum]
    | cons b l =>
      rw [oppLoop] at h
      simp only [Option.bind_eq_bind] at h
      have key : ∀ (x : Nat × Nat × Nat) (t1 : Triangulation), (d = .left ∧ x = (a, v, b) ∨ d ≠ .left ∧ x = (a, b, v)) → t.insertTriangleLocal x.1 x.2.1 x.2.2 ids = some t1 →
          oppLoop ids v d (b :: l) t1 = some t' → ∃ us, Emits t t' ids us ∧ us.length = (a :: b :: l).length - 1 ∧ (∀ x ∈ us, Joins v (a :: b :: l) x) ∧
          ∀ f, Anti f → ∀ c z, (a :: b :: l).head? = some c → (a :: b :: l).getLast? = some z → triSum f us = eps d * (f c v - f z v - psum f (a :: b :: l)) := by
        intro x t1 hx h1 h2
        obtain ⟨us, e1, e2, e3, e4⟩ := ih _ _ h2
        refine ⟨x :: us, emits_append' (emits_local h1) e1, by simp at e2 ⊢; omega, ?_, ?_⟩
        · intro y hy
          rcases List.mem_cons.mp hy with rfl | hy
          · rcases hx with ⟨-, rfl⟩ | ⟨-, rfl⟩
            · exact ⟨a, b, by simp, by simp, .inl rfl⟩
            · exact ⟨a, b, by simp, by simp, .inr rfl⟩
          · obtain ⟨c, e, h3, h4, h5⟩ := e3 y hy
            exact ⟨c, e, by simp at h3 ⊢; tauto, by simp at h4 ⊢; tauto, h5⟩
        · intro f hf c z hc hz
          simp only [List.head?_cons, Option.some.injEq] at hc; subst hc
          rw [List.getLast?_cons_cons] at hz
          rw [triSum_cons, e4 f hf b z rfl hz]
          have h1 := hf a v
          have h2 := hf b v
          have h3 := hf a b
          rcases hx with ⟨hd, rfl⟩ | ⟨hd, rfl⟩
          · simp only [eps, hd, if_true, psum]; omega
          · simp only [eps, hd, if_false, psum]; omega
      split at h
      · rename_i hd
        simp only [Option.bind_eq_some_iff] at h
        obtain ⟨t1, h1, h2⟩ := h
        exact key (a, v, b) t1 (.inl ⟨hd, rfl⟩) h1 h2
      · rename_i hd
        simp only [Option.bind_eq_some_iff] at h
        obtain ⟨t1, h1, h2⟩ := h
        exact key (a, b, v) t1 (.inr ⟨hd, rfl⟩) h1 h2

theorem opp_loop_some (hv : v < ids.length) (d : Dir) : ∀ (l : List Nat) (t : Triangulation), (∀ a ∈ l, a < ids.length) → ∃ t', oppLoop ids v d l t = some t' := by
  intro l
  induction l with
  | nil => intro t _; exact ⟨t, rfl⟩
  | cons a l ih =>
    intro t hb
    cases l with
    | nil => exact ⟨t, rfl⟩
    | cons b l =>
      obtain ⟨t1, h1⟩ := local_some t (hb a (by simp)) hv (hb b (by simp))
      obtain ⟨t2, h2⟩ := local_some t (hb a (by simp)) (hb b (by simp)) hv
      obtain ⟨r1, g1⟩ := ih t1 (fun x hx => hb x (by simp at hx ⊢; tauto))
      obtain ⟨r2, g2⟩ := ih t2 (fun x hx => hb x (by simp at hx ⊢; tauto))
      rw [oppLoop]
      simp only [h1, h2]
      split
      · exact ⟨r1, g1⟩
      · exact ⟨r2, g2⟩

/-- a chain is a single vertex or has a direction -/
structure Good (c : LChain) : Prop where
  one : c.d = .none → c.stack.length = 1
  two : c.d ≠ .none → 2 ≤ c.stack.length

/-- the pending path starts in the newest vertex of the right chain -/
def rEnd (c : LChain) : Nat := (if c.d = .right then c.stack.head? else c.stack.getLast?).getD 0
def lEnd (c : LChain) : Nat := (if c.d = .right then c.stack.getLast? else c.stack.head?).getD 0
def pend (f : Nat → Nat → Int) (c : LChain) : Int := if c.d = .right then psum f c.stack else -psum f c.stack

/-- what `add` does, whatever the direction -/
theorem add_law {c c' : LChain} {d : Dir} {t t' : Triangulation} (hd : d ≠ .none) (hg : c.Good) (h : c.add angPos angNeg ids v d t = some (c', t')) :
    c'.d = d ∧ c'.lastLeft = c.lastLeft ∧ c'.lastRight = c.lastRight ∧ c'.stack.head? = some v ∧ 2 ≤ c'.stack.length ∧
    c'.stack.getLast? = (if c.d = d ∨ c.d = .none then c.stack.getLast? else c.stack.head?) ∧ (∀ x ∈ c'.stack, x = v ∨ x ∈ c.stack) ∧
    ∃ us, Emits t t' ids us ∧ us.length + c'.stack.length = c.stack.length + 1 ∧ (∀ x ∈ us, Joins v c.stack x) ∧
      ∀ f, Anti f → ∀ a z, c.stack.head? = some a → c.stack.getLast? = some z → triSum f us = eps d * (f (if c.d = d then a else z) v + (if c.d = d then -1 else 1) * psum f c.stack + psum f c'.stack) := by
  unfold add at h
  split at h
  · rename_i hn
    have h1 := hg.one hn
    rw [if_pos h1] at h
    simp at h
    obtain ⟨rfl, rfl⟩ := h
    obtain ⟨a, ha⟩ := List.length_eq_one_iff.mp h1
    refine ⟨rfl, rfl, rfl, by simp, by simp [h1], by simp [hn, ha], by simp, [], emits_nil t ids, by simp [h1], by simp, ?_⟩
    intro f hf x z hx hz
    rw [ha] at hx hz
    simp at hx hz; subst hx; subst hz
    have := hf a v
    simp [ha, psum, triSum]; right; omega
  · rename_i hn
    split at h
    · rename_i hcd
      simp only [Option.bind_eq_bind, Option.bind_eq_some_iff] at h
      obtain ⟨⟨st, t1⟩, h1, h2⟩ := h
      simp at h2
      obtain ⟨rfl, rfl⟩ := h2
      obtain ⟨us, rest, e1, e2, e3, e4, e5, e6, e7⟩ := same_law angPos angNeg ids v d _ _ _ _ h1
      refine ⟨hcd, rfl, rfl, by simp [e2], ?_, ?_, ?_, us, e1, e5, e6, ?_⟩
      · rw [e2]; simp only [List.length_cons]; have := List.length_pos_of_ne_nil e3; omega
      · simp only [hcd, true_or, if_true]
        obtain ⟨p, hp⟩ := e4
        rw [e2, ← hp, List.getLast?_append_of_ne_nil _ e3]
        obtain ⟨x, rest, rfl⟩ := List.exists_cons_of_ne_nil e3
        rw [List.getLast?_cons_cons]
      · intro x hx
        simp only [e2, List.mem_cons] at hx
        exact hx.imp id fun h => e4.subset h
      · intro f hf a z ha hz
        rw [e7 f hf a ha]
        simp only [hcd, if_true]
        congr 1; omega
    · rename_i hcd
      have h2 := hg.two hn
      cases hst : c.stack with
      | nil => rw [hst] at h2; simp at h2
      | cons a l => cases l with
        | nil => rw [hst] at h2; simp at h2
        | cons b l =>
          rw [hst] at h
          simp only [Option.bind_eq_bind, Option.bind_eq_some_iff] at h
          obtain ⟨t1, h1, h3⟩ := h
          simp only [Option.some.injEq, Prod.mk.injEq] at h3
          obtain ⟨rfl, rfl⟩ := h3
          obtain ⟨us, e1, e2, e3, e4⟩ := opp_loop_law ids v d _ _ _ h1
          refine ⟨rfl, rfl, rfl, by simp, by simp, by simp [hcd, hn], by simp, us, e1, ?_, ?_, ?_⟩
          · rw [List.length_reverse] at e2; simp only [List.length_cons, List.length_nil] at e2 ⊢; omega
          · intro x hx
            obtain ⟨p, r, h3, h4, h5⟩ := e3 x hx
            exact ⟨p, r, List.mem_reverse.mp h3, List.mem_reverse.mp h4, h5⟩
          · intro f hf x z hx hz
            rw [e4 f hf z x (by rw [List.head?_reverse]; exact hz) (by rw [List.getLast?_reverse]; exact hx), psum_reverse hf]
            simp only [List.head?_cons, Option.some.injEq] at hx; subst hx
            simp only [hcd, if_false]
            have := hf a v
            simp only [show psum f [v, a] = f v a by simp [psum]]
            congr 1; omega

theorem add_some {c : LChain} {d : Dir} (t : Triangulation) (hg : c.Good) (hv : v < ids.length) (hb : ∀ a ∈ c.stack, a < ids.length) : ∃ r, c.add angPos angNeg ids v d t = some r := by
  unfold add
  split
  · rename_i hn; rw [if_pos (hg.one hn)]; exact ⟨_, rfl⟩
  · rename_i hn
    have h2 := hg.two hn
    split
    · obtain ⟨⟨st, t1⟩, h1⟩ := same_some angPos angNeg ids v hv d c.stack t (by intro h; rw [h] at h2; simp at h2) hb
      rw [h1]; exact ⟨_, rfl⟩
    · cases hst : c.stack with
      | nil => rw [hst] at h2; simp at h2
      | cons a l => cases l with
        | nil => rw [hst] at h2; simp at h2
        | cons b l =>
          obtain ⟨t1, h1⟩ := opp_loop_some ids v hv d (a :: b :: l).reverse t (by rw [← hst]; simpa using hb)
          simp only [h1]
          exact ⟨_, rfl⟩

theorem ends {c : LChain} (hg : c.Good) : ∃ a z, c.stack.head? = some a ∧ c.stack.getLast? = some z ∧ 1 ≤ c.stack.length := by
  have : 1 ≤ c.stack.length := by
    by_cases h : c.d = .none
    · rw [hg.one h]
    · have := hg.two h; omega
  cases hst : c.stack with
  | nil => rw [hst] at this; simp at this
  | cons a l => exact ⟨a, (a :: l).getLast (by simp), rfl, List.getLast?_eq_some_getLast _, by simp⟩
end LChain

/-- the linear triangulator keeps the balance of the sides -/
def linearLawful (angPos angNeg : Nat → Nat → Nat → Bool) (ids : List Nat) : Lawful (linear angPos angNeg ids) ids where
  good _ c := LChain.Good c
  rEnd := LChain.rEnd
  lEnd := LChain.lEnd
  pend := LChain.pend
  pendN c := (LChain.stack c).length - 1
  new_law t0 v := ⟨⟨by simp [linear], by simp [linear]⟩, by simp [linear, LChain.rEnd], by simp [linear, LChain.lEnd], by simp [linear, LChain.pend, psum], by simp [linear]⟩
  left_law t0 c v t c' t' hg _ h := by
    have hg' : LChain.Good { (show LChain from c) with lastLeft := some v } := ⟨hg.one, hg.two⟩
    obtain ⟨h1, -, -, h2, h3, h4, -, us, e1, e2, -, e3⟩ := LChain.add_law angPos angNeg ids v (by simp) hg' h
    obtain ⟨a, z, ha, hz, hlen⟩ := LChain.ends hg
    have hsum := fun f hf => e3 f hf a z ha hz
    refine ⟨⟨fun h => by rw [h1] at h; simp at h, fun _ => h3⟩, ?_, ?_, ?_, ?_, (delta_of_emits e1).congr ?_ ?_⟩
    · simp only [LChain.rEnd, h1, h4]
      cases hd : LChain.d c <;> simp [ha, hz]
    · simp [LChain.lEnd, h1, h2]
    · simp [linear, h1]
    · omega
    · intro f hf
      rw [hsum f hf]
      simp only [LChain.pend, LChain.lEnd, LChain.eps, h1]
      cases hd : LChain.d c <;> simp [ha, hz]
      · omega
      · omega
      · have := hg.one hd
        obtain ⟨x, hx⟩ := List.length_eq_one_iff.mp this
        rw [hx] at ha hz ⊢
        simp at ha hz; subst ha; subst hz
        simp [psum]
    · simp only at e2 ⊢; omega
  right_law t0 c v t c' t' hg _ h := by
    have hg' : LChain.Good { (show LChain from c) with lastRight := some v } := ⟨hg.one, hg.two⟩
    obtain ⟨h1, -, -, h2, h3, h4, -, us, e1, e2, -, e3⟩ := LChain.add_law angPos angNeg ids v (by simp) hg' h
    obtain ⟨a, z, ha, hz, hlen⟩ := LChain.ends hg
    have hsum := fun f hf => e3 f hf a z ha hz
    refine ⟨⟨fun h => by rw [h1] at h; simp at h, fun _ => h3⟩, ?_, ?_, ?_, (delta_of_emits e1).congr ?_ ?_⟩
    · simp [LChain.rEnd, h1, h2]
    · simp only [LChain.lEnd, h1, h4]
      cases hd : LChain.d c <;> simp [ha, hz]
      have := hg.one hd
      obtain ⟨x, hx⟩ := List.length_eq_one_iff.mp this
      rw [hx] at ha hz
      simp at ha hz; rw [← ha, ← hz]
    · omega
    · intro f hf
      rw [hsum f hf]
      have f1 := hf a v
      have f2 := hf z v
      simp only [LChain.pend, LChain.rEnd, LChain.eps, h1]
      cases hd : LChain.d c <;> simp [ha, hz]
      · omega
      · omega
      · have := hg.one hd
        obtain ⟨x, hx⟩ := List.length_eq_one_iff.mp this
        rw [hx] at ha hz ⊢
        simp at ha hz; subst ha; subst hz
        simp [psum]; omega
    · simp only at e2 ⊢; omega
  finish_law t0 c t t' hg h1 h := by
    simp only [linear] at h
    split at h
    · rename_i hl
      simp at h; subst h
      obtain ⟨a, b, hst⟩ := List.length_eq_two.mp (show (LChain.stack c).length = 2 by omega)
      refine (delta_refl t0 ids t).congr ?_ (by simp [hst])
      intro f hf
      have := hf a b
      simp only [LChain.pend, LChain.rEnd, LChain.lEnd, hst]
      cases hd : LChain.d c <;> simp [psum] <;> omega
    · simp at h
  opp_law t0 c r hg h hr := by
    simp only [linear, LChain.lastOpposite, Option.bind_eq_bind, Option.bind_eq_some_iff] at h hr
    obtain ⟨x, -, h2⟩ := h
    split at h2
    · rename_i h3
      simp at h2; subst h2
      simp at hr
      simp only [LChain.rEnd, if_neg hr]
      rw [show (LChain.stack c).getLast? = some x from h3.symm]; rfl
    · simp at h2

/-! ### Feeding a chain -/

/-- add vertices to a chain; `true` for the left side -/
def feed (M : MonoTri) : List (Bool × Nat) → M.C → Triangulation → Option (M.C × Triangulation)
  | [], c, t => some (c, t)
  | (true, v) :: l, c, t => do let (c, t) ← M.left c v t; feed M l c t
  | (false, v) :: l, c, t => do let (c, t) ← M.right c v t; feed M l c t

/-- the boundary of the region, from the newest right to the newest left vertex -/
def chainPath : List (Bool × Nat) → List Nat → List Nat
  | [], p => p
  | (true, v) :: l, p => chainPath l (p ++ [v])
  | (false, v) :: l, p => chainPath l (v :: p)

/-- sides that occur as often in one direction as in the other -/
theorem cancels_of_sum {l : List (Nat × Nat)} (h : ∀ f, Anti f → (l.map fun p => f p.1 p.2).sum = 0) : Cancels l := by
  intro p
  have hc : ∀ l : List (Nat × Nat), (l.map fun r => ((if r = p then 1 else 0) - (if r = p.swap then 1 else 0) : Int)).sum = (l.count p : Int) - l.count p.swap := by
    intro l
    induction l with
    | nil => simp
    | cons a l ih =>
      rw [List.map_cons, List.sum_cons, ih, List.count_cons, List.count_cons]
      simp only [beq_iff_eq]
      push_cast
      split <;> split <;> omega
  have h1 := h (fun a b => (if (a, b) = p then 1 else 0) - (if (a, b) = p.swap then 1 else 0)) (by
    intro a b
    obtain ⟨x, y⟩ := p
    simp only [Prod.swap_prod_mk, Prod.mk.injEq]
    have e1 : (if a = x ∧ b = y then (1 : Int) else 0) = if b = y ∧ a = x then 1 else 0 := by simp only [and_comm]
    have e2 : (if a = y ∧ b = x then (1 : Int) else 0) = if b = x ∧ a = y then 1 else 0 := by simp only [and_comm]
    omega)
  have h2 := hc l
  simp only [Prod.mk.eta] at h1
  omega

theorem psum_eq_pairs (f : Nat → Nat → Int) : ∀ l : List Nat, psum f l = ((pairs l).map fun p => f p.1 p.2).sum := by
  intro l
  induction l with
  | nil => rfl
  | cons a l ih => cases l with
    | nil => rfl
    | cons b l => simp [psum, pairs, ih]

theorem sides_sum (f : Nat → Nat → Int) {l : List Nat} {a z : Nat} (ha : l.head? = some a) (hz : l.getLast? = some z) : ((sides l).map fun p => f p.1 p.2).sum = psum f l + f z a := by
  cases l with
  | nil => simp at ha
  | cons b l =>
    simp at ha; subst ha
    rw [sides, ← psum_eq_pairs]
    have := psum_append (f := f) (l := b :: l) (m := [b]) (a := z) (b := b) hz rfl
    rw [this]; simp [psum]

theorem chainPath_ne : ∀ (l : List (Bool × Nat)) (p : List Nat), p ≠ [] → chainPath l p ≠ [] := by
  intro l
  induction l with
  | nil => intro p h; exact h
  | cons x l ih =>
    intro p h
    obtain ⟨b, v⟩ := x
    cases b <;> exact ih _ (by simp)

theorem feed_law {M : MonoTri} {ids : List Nat} (L : Lawful M ids) (t0 : Triangulation) : ∀ (l : List (Bool × Nat)) (c : M.C) (t : Triangulation) (c' : M.C) (t' : Triangulation) (p : List Nat) (ts : List (Nat × Nat × Nat)),
    L.good t0 c → p.head? = some (L.rEnd c) → p.getLast? = some (L.lEnd c) → Emits t0 t ids ts → (∀ f, Anti f → triSum f ts + L.pend f c = psum f p) → (ts.length : Int) + L.pendN c = p.length - 1 →
    (l ≠ [] ∨ 1 ≤ L.pendN c) → feed M l c t = some (c', t') →
    L.good t0 c' ∧ (chainPath l p).head? = some (L.rEnd c') ∧ (chainPath l p).getLast? = some (L.lEnd c') ∧ 1 ≤ L.pendN c' ∧ ∃ ts', Emits t0 t' ids ts' ∧
      (∀ f, Anti f → triSum f ts' + L.pend f c' = psum f (chainPath l p)) ∧ (ts'.length : Int) + L.pendN c' = (chainPath l p).length - 1 := by
  intro l
  induction l with
  | nil =>
    intro c t c' t' p ts hg h1 h2 h3 h4 h5 h6 h
    simp [feed] at h
    obtain ⟨rfl, rfl⟩ := h
    exact ⟨hg, h1, h2, by simpa using h6, ts, h3, h4, h5⟩
  | cons x l ih =>
    intro c t c' t' p ts hg h1 h2 h3 h4 h5 _ h
    obtain ⟨b, v⟩ := x
    cases b
    · simp only [feed, Option.bind_eq_bind, Option.bind_eq_some_iff] at h
      obtain ⟨⟨c1, t1⟩, g1, g2⟩ := h
      obtain ⟨k1, k2, k3, k4, k5⟩ := L.right_law t0 _ _ _ _ _ hg ⟨ts, h3⟩ g1
      obtain ⟨ts1, e1, e2, e3⟩ := k5 ts h3
      refine ih c1 t1 c' t' (v :: p) ts1 k1 (by rw [k2]; rfl) ?_ e1 ?_ ?_ (.inr k4) g2
      · rw [k3, ← h2]
        cases p with
        | nil => simp at h1
        | cons y p => rw [List.getLast?_cons_cons]
      · intro f hf
        rw [psum_cons_head v h1]
        have h7 := e2 f hf
        have := h4 f hf
        simp only at h7
        omega
      · simp only [List.length_cons]; push_cast; omega
    · simp only [feed, Option.bind_eq_bind, Option.bind_eq_some_iff] at h
      obtain ⟨⟨c1, t1⟩, g1, g2⟩ := h
      obtain ⟨k1, k2, k3, k4, k4', k5⟩ := L.left_law t0 _ _ _ _ _ hg ⟨ts, h3⟩ g1
      obtain ⟨ts1, e1, e2, e3⟩ := k5 ts h3
      refine ih c1 t1 c' t' (p ++ [v]) ts1 k1 ?_ (by rw [k3]; simp) e1 ?_ ?_ (.inr k4') g2
      · rw [k2, ← h1]
        cases p with
        | nil => simp at h1
        | cons y p => rfl
      · intro f hf
        rw [psum_append h2 (b := v) rfl]
        have h7 := e2 f hf
        have := h4 f hf
        simp only [psum] at h7 ⊢
        omega
      · simp only [List.length_append, List.length_cons, List.length_nil]; push_cast; omega

theorem chainPath_length : ∀ (l : List (Bool × Nat)) (p : List Nat), (chainPath l p).length = p.length + l.length := by
  intro l
  induction l with
  | nil => simp [chainPath]
  | cons x l ih => intro p; obtain ⟨b, v⟩ := x; cases b <;> simp [chainPath, ih] <;> omega

theorem feed_linear (angPos angNeg : Nat → Nat → Nat → Bool) (ids : List Nat) : ∀ (l : List (Bool × Nat)) (c : LChain) (t : Triangulation) (c' : LChain) (t' : Triangulation) (seen : List Nat), c.Good → (∀ x ∈ c.stack, x ∈ seen) →
    feed (linear angPos angNeg ids) l c t = some (c', t') → ∃ groups : List (List (Nat × Nat × Nat)), groups.length = l.length ∧ Emits t t' ids groups.flatten ∧
      groups.flatten.length + c'.stack.length = c.stack.length + l.length ∧ c'.Good ∧ (∀ x ∈ c'.stack, x ∈ seen ++ l.map Prod.snd) ∧
      ∀ i (h : i < groups.length) v, (l.map Prod.snd)[i]? = some v → ∀ x ∈ groups[i], LChain.Joins v (seen ++ (l.map Prod.snd).take i) x := by
  intro l
  induction l with
  | nil =>
    intro c t c' t' seen hg hs h
    simp [feed] at h
    obtain ⟨rfl, rfl⟩ := h
    exact ⟨[], rfl, emits_nil _ _, by simp, hg, by simpa using hs, by simp⟩
  | cons x l ih =>
    intro c t c' t' seen hg hs h
    obtain ⟨b, v⟩ := x
    have step : ∀ (c0 c1 : LChain) (t1 : Triangulation) (d : Dir), d ≠ .none → c0.Good → c0.stack = c.stack → c0.add angPos angNeg ids v d t = some (c1, t1) → feed (linear angPos angNeg ids) l c1 t1 = some (c', t') →
        ∃ groups : List (List (Nat × Nat × Nat)), groups.length = l.length + 1 ∧ Emits t t' ids groups.flatten ∧
        groups.flatten.length + c'.stack.length = c.stack.length + (l.length + 1) ∧ c'.Good ∧ (∀ x ∈ c'.stack, x ∈ seen ++ (v :: l.map Prod.snd)) ∧
        ∀ i (h : i < groups.length) w, (v :: l.map Prod.snd)[i]? = some w → ∀ x ∈ groups[i], LChain.Joins w (seen ++ (v :: l.map Prod.snd).take i) x := by
      intro c0 c1 t1 d hd hg0 hst h1 h2
      obtain ⟨k1, -, -, k2, k3, k4, k5, us, e1, e2, e3, -⟩ := LChain.add_law angPos angNeg ids v hd hg0 h1
      obtain ⟨groups, g1, g2, g3, g3', g4, g5⟩ := ih c1 t1 c' t' (seen ++ [v]) ⟨fun h => by rw [k1] at h; exact absurd h hd, fun _ => k3⟩ (by
        intro x hx
        rcases k5 x hx with rfl | h
        · simp
        · exact List.mem_append_left _ (hs x (hst ▸ h))) h2
      refine ⟨us :: groups, by simp [g1], ?_, ?_, g3', ?_, ?_⟩
      · rw [List.flatten_cons]; exact emits_append' e1 g2
      · rw [List.flatten_cons, List.length_append]; rw [hst] at e2; omega
      · intro x hx; have := g4 x hx; simpa using this
      · intro i hi w hw x hx
        cases i with
        | zero =>
          simp at hw; subst hw
          simp at hx
          obtain ⟨a, b, ha, hb, hab⟩ := e3 x hx
          exact ⟨a, b, by simpa using hs a (hst ▸ ha), by simpa using hs b (hst ▸ hb), hab⟩
        | succ i =>
          simp at hw hx
          have := g5 i (by simpa using hi) w (by simpa using hw) x hx
          simpa using this
    cases b
    · simp only [feed, Option.bind_eq_bind] at h
      obtain ⟨⟨c1, t1⟩, h1, h2⟩ := Option.bind_eq_some_iff.mp h
      simpa using step { c with lastRight := some v } c1 t1 .right (by simp) ⟨hg.one, hg.two⟩ rfl h1 h2
    · simp only [feed, Option.bind_eq_bind] at h
      obtain ⟨⟨c1, t1⟩, h1, h2⟩ := Option.bind_eq_some_iff.mp h
      simpa using step { c with lastLeft := some v } c1 t1 .left (by simp) ⟨hg.one, hg.two⟩ rfl h1 h2

theorem feed_linear_some (angPos angNeg : Nat → Nat → Nat → Bool) (ids : List Nat) : ∀ (l : List (Bool × Nat)) (c : LChain) (t : Triangulation), c.Good → (∀ x ∈ c.stack, x < ids.length) → (∀ x ∈ l, x.2 < ids.length) →
    ∃ r, feed (linear angPos angNeg ids) l c t = some r := by
  intro l
  induction l with
  | nil => intro c t _ _ _; exact ⟨_, rfl⟩
  | cons x l ih =>
    intro c t hg hs hl
    obtain ⟨b, v⟩ := x
    have hv : v < ids.length := hl (b, v) (by simp)
    have step : ∀ (c0 : LChain) (d : Dir), d ≠ .none → c0.Good → c0.stack = c.stack → ∃ r, (c0.add angPos angNeg ids v d t).bind (fun x => feed (linear angPos angNeg ids) l x.1 x.2) = some r := by
      intro c0 d hd hg0 hst
      obtain ⟨⟨c1, t1⟩, h1⟩ := LChain.add_some angPos angNeg ids v (d := d) t hg0 hv (by rw [hst]; exact hs)
      obtain ⟨k1, -, -, k2, k3, k4, k5, -⟩ := LChain.add_law angPos angNeg ids v hd hg0 h1
      rw [h1]
      refine ih c1 t1 ⟨fun h => by rw [k1] at h; exact absurd h hd, fun _ => k3⟩ ?_ (fun x hx => hl x (by simp [hx]))
      intro x hx
      rcases k5 x hx with rfl | h
      · exact hv
      · exact hs x (hst ▸ h)
    cases b
    · exact step { c with lastRight := some v } .right (by simp) ⟨hg.one, hg.two⟩ rfl
    · exact step { c with lastLeft := some v } .left (by simp) ⟨hg.one, hg.two⟩ rfl
end Verif.Geom

namespace Verif.GeomProps
open Geom Triangulation
variable (angPos angNeg : Nat → Nat → Nat → Bool) (ids : List Nat)

/-- C43: for every sequence of left and right vertices and all outcomes of the orientation tests, adding the vertices succeeds. The number of triangles plus the number of pending vertices is the number of
vertices added. The triangles emitted for a vertex join it to vertices seen before it. -/
theorem c43_chain (v0 : Nat) (l : List (Bool × Nat)) (t : Triangulation) (h0 : v0 < ids.length) (hl : ∀ x ∈ l, x.2 < ids.length) :
    ∃ c t', feed (linear angPos angNeg ids) l ((linear angPos angNeg ids).new v0) t = some (c, t') ∧ ∃ groups : List (List (Nat × Nat × Nat)), groups.length = l.length ∧ Emits t t' ids groups.flatten ∧
      groups.flatten.length + (LChain.stack c).length = (v0 :: l.map Prod.snd).length ∧
      ∀ i (h : i < groups.length) v, (v0 :: l.map Prod.snd)[i + 1]? = some v → ∀ x ∈ groups[i], LChain.Joins v ((v0 :: l.map Prod.snd).take (i + 1)) x := by
  have hg : LChain.Good ⟨[v0], .none, some v0, none⟩ := ⟨by simp, by simp⟩
  obtain ⟨⟨c, t'⟩, h⟩ := feed_linear_some angPos angNeg ids l ⟨[v0], .none, some v0, none⟩ t hg (by simpa using h0) hl
  obtain ⟨groups, g1, g2, g3, -, -, g5⟩ := feed_linear angPos angNeg ids l _ t c t' [v0] hg (by simp) h
  refine ⟨c, t', h, groups, g1, g2, by simp at g3 ⊢; omega, ?_⟩
  intro i hi v hv x hx
  have := g5 i hi v (by simpa using hv) x hx
  simpa using this

/-- C43: finishing succeeds exactly with at most two pending vertices, and then there are two triangles less than vertices. -/
theorem c43_finish (v0 : Nat) (l : List (Bool × Nat)) (hne : l ≠ []) (t t' t'' : Triangulation) (c : LChain)
    (h : feed (linear angPos angNeg ids) l ((linear angPos angNeg ids).new v0) t = some (c, t')) :
    ((linear angPos angNeg ids).finish c t' = some t'' ↔ c.stack.length = 2 ∧ t'' = t') ∧
    ((linear angPos angNeg ids).finish c t' = some t'' → ∃ ts, Emits t t'' ids ts ∧ ts.length + 2 = (v0 :: l.map Prod.snd).length) := by
  have hg : LChain.Good ⟨[v0], .none, some v0, none⟩ := ⟨by simp, by simp⟩
  obtain ⟨groups, g1, g2, g3, g3', g4, -⟩ := feed_linear angPos angNeg ids l _ t c t' [v0] hg (by simp) h
  obtain ⟨-, -, -, g5, -⟩ := feed_law (linearLawful angPos angNeg ids) t l _ t c t' [v0] [] hg rfl rfl (emits_nil _ _) (by intro f _; simp [triSum, linearLawful, LChain.pend, linear, psum]) (by simp [linearLawful, linear]) (.inl hne) h
  have h2 : 2 ≤ c.stack.length := by simp only [linearLawful] at g5; omega
  have e : (linear angPos angNeg ids).finish c t' = some t'' ↔ c.stack.length = 2 ∧ t'' = t' := by
    simp only [linear]
    split
    · simp only [Option.some.injEq]; constructor
      · intro h; exact ⟨by omega, h.symm⟩
      · intro h; exact h.2.symm
    · simp; omega
  refine ⟨e, fun hf => ?_⟩
  obtain ⟨e1, rfl⟩ := e.mp hf
  exact ⟨_, g2, by simp at g3 ⊢; omega⟩

/-- C43: the triangles fill the region between the chains: their sides and the boundary of the region, reversed, cancel. Holds for every lawful triangulator. -/
theorem c43_boundary {M : MonoTri} {ids : List Nat} (L : Lawful M ids) (v0 : Nat) (l : List (Bool × Nat)) (hne : l ≠ []) (t t' t'' : Triangulation) (c : M.C) (h : feed M l (M.new v0) t = some (c, t'))
    (hf : M.finish c t' = some t'') : ∃ ts, Emits t t'' ids ts ∧ Cancels (ts.flatMap triSides ++ (sides (chainPath l [v0])).map Prod.swap) ∧ ts.length + 2 = (chainPath l [v0]).length := by
  obtain ⟨n1, n2, n3, n4, n5⟩ := L.new_law t v0
  obtain ⟨g1, g2, g3, g4, ts, e1, e2, e3⟩ := feed_law L t l _ t c t' [v0] [] n1 (by simp [n2]) (by simp [n3]) (emits_nil _ _) (by intro f _; simp [triSum, n4, psum]) (by simp [n5]) (.inl hne) h
  obtain ⟨ts', k1, k2, k3⟩ := L.finish_law t c t' t'' g1 g4 hf ts e1
  refine ⟨ts', k1, cancels_of_sum ?_, by omega⟩
  intro f hf
  rw [List.map_append, List.sum_append, sum_triSides (fun p => f p.1 p.2), sum_swap (fun p => f p.1 p.2) (fun p => hf _ _), sides_sum f g2 g3]
  have h1 := e2 f hf
  have h2 := k2 f hf
  have h3 := hf (L.lEnd c) (L.rEnd c)
  simp only [triSum] at h1 h2 ⊢
  omega

/-- the chain 0; left 1, right 2, left 3, right 4 -/
example : ∃ c, feed (linear (fun _ _ _ => false) (fun _ _ _ => false) [10, 11, 12, 13, 14]) [(true, 1), (false, 2), (true, 3), (false, 4)] ⟨[0], .none, some 0, none⟩ (.new []) =
    some (c, ⟨[10, 11, 12, 11, 13, 12, 12, 13, 14], 0⟩) ∧ (linear (fun _ _ _ => false) (fun _ _ _ => false) [10, 11, 12, 13, 14]).finish c (.new []) ≠ none := ⟨⟨[4, 3], .right, some 3, some 4⟩, rfl, Option.some_ne_none _⟩

end Verif.GeomProps
