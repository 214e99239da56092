import Verif.Lemmas.SweepSplit
/-
The sweep only appends triangles, so a clockwise triangle stays; and a split that does not see the chain which it has to close panics or emits one.
-/
set_option linter.unusedSectionVars false
namespace Verif.GeomProps
open Geom Triangulation

/-- what holds of the result, if there is one -/
def Post {A : Type} (P : A → Prop) (o : Option A) : Prop := ∀ x, o = some x → P x

theorem Post.bind {A B : Type} {P : A → Prop} {Q : B → Prop} {o : Option A} {f : A → Option B} (h : Post P o) (g : ∀ x, P x → Post Q (f x)) : Post Q (o >>= f) := by
  intro y hy
  obtain ⟨x, h1, h2⟩ := Option.bind_eq_some_iff.mp hy
  exact g x (h x h1) y h2

theorem Post.any {A B : Type} {Q : B → Prop} {o : Option A} {f : A → Option B} (g : ∀ x, Post Q (f x)) : Post Q (o >>= f) := by
  intro y hy
  obtain ⟨x, -, h2⟩ := Option.bind_eq_some_iff.mp hy
  exact g x y h2

theorem Post.some {A : Type} {P : A → Prop} {x : A} (h : P x) : Post P (some x) := by
  intro y hy; cases hy; exact h

theorem Post.none {A : Type} {P : A → Prop} : Post P (none : Option A) := by intro y hy; cases hy

theorem Post.ite {A : Type} {P : A → Prop} {c : Prop} [Decidable c] {a b : Option A} (h : Post P a) (g : Post P b) : Post P (if c then a else b) := by
  split
  · exact h
  · exact g

theorem Post.mono {A : Type} {P Q : A → Prop} {o : Option A} (h : Post P o) (g : ∀ x, P x → Q x) : Post Q o := fun x hx => g x (h x hx)

/-- triangles are appended -/
def Grows (ids : List Nat) (t t' : Triangulation) : Prop := ∃ ts, Emits t t' ids ts

theorem Grows.refl (ids : List Nat) (t : Triangulation) : Grows ids t t := ⟨[], emits_nil t ids⟩

theorem Grows.trans {ids : List Nat} {t t' t'' : Triangulation} (h : Grows ids t t') (h' : Grows ids t' t'') : Grows ids t t'' := by
  obtain ⟨a, h⟩ := h
  obtain ⟨b, h'⟩ := h'
  exact ⟨a ++ b, emits_append' h h'⟩

/-- a triangulator that only appends triangles -/
structure Growing (ids : List Nat) (M : MonoTri) : Prop where
  left : ∀ c v t, Post (fun r : M.C × Triangulation => Grows ids t r.2) (M.left c v t)
  right : ∀ c v t, Post (fun r : M.C × Triangulation => Grows ids t r.2) (M.right c v t)
  finish : ∀ c t, Post (Grows ids t) (M.finish c t)

section
variable {ids : List Nat} {M : MonoTri} (G : Growing ids M) (dbg : Bool) (find : Find M.C)
include G

theorem grows_finishRight (ev : Event) (fx : Option M.C) (t : Triangulation) : Post (Grows ids t) (finishRight M ev fx t) := by
  cases fx with
  | none => exact .some (.refl _ _)
  | some f => exact (G.right f ev.here t).bind fun r hr => (G.finish _ _).mono fun x hx => hr.trans hx

theorem grows_finishLeft (ev : Event) (c : M.C) (fx : Option M.C) (t : Triangulation) : Post (fun r : M.C × Triangulation => Grows ids t r.2) (finishLeft M ev c fx t) := by
  cases fx with
  | none => exact .some (.refl _ _)
  | some f => exact (G.left c ev.here t).bind fun r hr => (G.finish _ _).bind fun x hx => .some (hr.trans hx)

theorem grows_start (ev : Event) (q : Ctx M.C) : Post (fun r => Grows ids q.tri r.tri) (sweepStart dbg M ev q) := .any fun _ => .some (.refl _ _)

theorem grows_splitStacks (ev : Event) (iv : Interval M.C) (t : Triangulation) : Post (fun r : M.C × Triangulation => Grows ids t r.2) (splitStacks M ev iv t) := by
  unfold splitStacks
  split
  · exact .any fun r => (G.right _ _ _).bind fun c hc => (G.finish _ _).bind fun x hx => (G.left _ _ _).mono fun y hy => (hc.trans hx).trans hy
  · exact .ite (G.left _ _ _) (.any fun r => G.left _ _ _)

theorem grows_trySplit (ev : Event) (q : Ctx M.C) : Post (fun r => ∀ q', r = some q' → Grows ids q.tri q'.tri) (sweepTrySplit dbg M find ev q) := by
  unfold sweepTrySplit
  refine .any fun o => ?_
  split
  · exact .some (by simp)
  · refine .any fun r => .any fun line => .ite .none ?_
    refine (grows_splitStacks G ev line q.tri).bind fun a ha => (G.right _ _ _).bind fun b hb => .any fun s => .any fun s' => .some ?_
    intro q' hq
    cases hq
    exact ha.trans hb

theorem grows_end (ev : Event) (q : Ctx M.C) : Post (fun r => Grows ids q.tri r.tri) (sweepEnd M ev q) := by
  unfold sweepEnd
  refine .any fun r => .any fun line => .ite .none ?_
  exact (grows_finishRight G ev _ _).bind fun a ha => (G.left _ _ _).bind fun b hb => (G.finish _ _).bind fun c hc => .some ((ha.trans hb).trans hc)

theorem grows_merge (ev : Event) (q : Ctx M.C) : Post (fun r => Grows ids q.tri r.tri) (sweepMerge dbg M ev q) := by
  unfold sweepMerge
  refine .any fun r => .any fun l => .any fun r' => .any fun l' => .ite .none ?_
  exact (grows_finishRight G ev _ _).bind fun a ha => (grows_finishLeft G ev _ _ _).bind fun b hb => (G.right _ _ _).bind fun c hc => (G.left _ _ _).bind fun d hd => .any fun s =>
    .some (((ha.trans hb).trans hc).trans hd)

theorem grows_regularLeft (ev : Event) (iv : Interval M.C) (s : Status M.C) (t : Triangulation) : Post (fun r => Grows ids t r.tri) (regularLeft dbg M ev iv s t) :=
  (grows_finishLeft G ev _ _ _).bind fun _ ha => (G.left _ _ _).bind fun _ hb => .any fun _ => .some (ha.trans hb)

theorem grows_regularRight (ev : Event) (iv : Interval M.C) (s : Status M.C) (t : Triangulation) : Post (fun r => Grows ids t r.tri) (regularRight dbg M ev iv s t) :=
  (grows_finishRight G ev _ _).bind fun _ ha => (G.right _ _ _).bind fun _ hb => .any fun _ => .some (ha.trans hb)

theorem grows_startOrSplit (ev : Event) (q : Ctx M.C) : Post (fun r => Grows ids q.tri r.1.tri) (sweepStartOrSplit dbg M find ev q) := by
  unfold sweepStartOrSplit
  refine (grows_trySplit G dbg find ev q).bind fun o ho => ?_
  split
  · exact .some (ho _ rfl)
  · exact (grows_start G dbg ev q).bind fun _ h => .some h

theorem grows_regular (ev : Event) (u : Bool) (q : Ctx M.C) : Post (fun r => Grows ids q.tri r.1.tri) (sweepRegular dbg M find ev u q) := by
  unfold sweepRegular
  refine .any fun o => ?_
  split
  · refine .ite (.any fun s => (grows_end G ev _).bind fun _ h => .some h) (.any fun p => .ite (.any fun s => (grows_merge G dbg ev _).bind fun _ h => .some h) ?_)
    exact (grows_regularLeft G dbg ev _ _ _).bind fun _ h => .some h
  · refine .any fun o => ?_
    split
    · refine .ite (.any fun s => (grows_end G ev _).bind fun _ h => .some h) (.any fun p => .ite (.any fun s => (grows_merge G dbg ev _).bind fun _ h => .some h) ?_)
      exact (grows_regularRight G dbg ev _ _ _).bind fun _ h => .some h
    · exact grows_startOrSplit G dbg find ev _

theorem grows_event (ev : Event) (q : Ctx M.C) : Post (fun r => Grows ids q.tri r.1.tri) (sweepEvent dbg M find ev q) := by
  unfold sweepEvent
  split
  · exact (grows_start G dbg ev q).bind fun _ h => .some h
  · refine (grows_trySplit G dbg find ev q).bind fun o ho => ?_
    split
    · exact .some (ho _ rfl)
    · exact .none
  · exact (grows_merge G dbg ev q).bind fun _ h => .some h
  · exact (grows_end G ev q).bind fun _ h => .some h
  · exact grows_regular G dbg find ev _ q
  · exact grows_regular G dbg find ev _ q
  · exact .none

/-- the sweep only appends triangles -/
theorem grows_loop : ∀ (evs : List Event) (q : Ctx M.C), Post (fun r => Grows ids q.tri r.1.tri) (sweepLoop dbg M find evs q)
  | [], _ => .some (.refl _ _)
  | ev :: evs, q => (grows_event G dbg find ev q).bind fun r hr => (grows_loop evs r.1).bind fun _ hs => .some (hr.trans hs)
end

section
variable {dbg : Bool} (M : MonoTri) (find : Find M.C)

theorem loop_head {e : Event} {evs : List Event} {q q2 : Ctx M.C} {tys : List VType} (h : sweepLoop dbg M find (e :: evs) q = some (q2, tys)) :
    ∃ r tys', sweepEvent dbg M find e q = some r ∧ sweepLoop dbg M find evs r.1 = some (q2, tys') := by
  simp only [sweepLoop, Option.bind_eq_bind, Option.bind_eq_some_iff] at h
  obtain ⟨x, x1, y, y1, e1⟩ := h
  cases e1
  exact ⟨x, _, x1, y1⟩

theorem loop_after {post : List Event} {q' : Ctx M.C} : ∀ {pre : List Event} {q q2 : Ctx M.C} {tys tys' : List VType}, sweepLoop dbg M find pre q = some (q', tys') → sweepLoop dbg M find (pre ++ post) q = some (q2, tys) →
    ∃ tys3, sweepLoop dbg M find post q' = some (q2, tys3) := by
  intro pre
  induction pre with
  | nil => intro q q2 tys tys' h1 h2; cases h1; exact ⟨tys, h2⟩
  | cons a pre ih =>
    intro q q2 tys tys' h1 h2
    obtain ⟨x, t1, x1, y1⟩ := loop_head M find h1
    obtain ⟨x', t2, x2, y2⟩ := loop_head M find h2
    rw [x1] at x2
    cases x2
    exact ih y1 y2
end

theorem insert_grows (t : Triangulation) (a b c : Nat) (ids : List Nat) : Post (Grows ids t) (t.insertTriangleLocal a b c ids) := by
  intro t' h
  simp only [insertTriangleLocal, Option.bind_eq_bind, Option.bind_eq_some_iff] at h
  obtain ⟨x, h1, y, h2, z, h3, h⟩ := h
  cases h
  exact ⟨[(a, b, c)], [(x, y, z)], by simp [mapTri, h1, h2, h3], rfl⟩

section
variable (angPos angNeg : Nat → Nat → Nat → Bool) (ids : List Nat)

theorem same_grows (v : Nat) (d : Dir) : ∀ (l : List Nat) (t : Triangulation), Post (fun r : List Nat × Triangulation => Grows ids t r.2) (LChain.sameLoop angPos angNeg ids v d l t)
  | [], _ => .none
  | [_], _ => .some (.refl _ _)
  | a :: b :: rest, t => by
    unfold LChain.sameLoop
    refine .ite (.ite (.some (.refl _ _)) ?_) (.ite (.some (.refl _ _)) ?_)
    · exact (insert_grows _ _ _ _ _).bind fun x hx => (same_grows v d (b :: rest) x).mono fun _ h => hx.trans h
    · exact (insert_grows _ _ _ _ _).bind fun x hx => (same_grows v d (b :: rest) x).mono fun _ h => hx.trans h

theorem add_grows (c : LChain) (v : Nat) (d : Dir) (t : Triangulation) : Post (fun r : LChain × Triangulation => Grows ids t r.2) (c.add angPos angNeg ids v d t) := by
  unfold LChain.add
  refine .ite (.ite (.some (.refl _ _)) .none) (.ite ((same_grows angPos angNeg ids v d _ _).bind fun _ h => .some h) ?_)
  split
  · exact .none
  · exact .some (.refl _ _)
  · refine Post.bind (P := Grows ids t) (fun x hx => ⟨_, linear_opp ids d v _ _ _ hx⟩) fun _ h => .some h

theorem linear_growing : Growing ids (linear angPos angNeg ids) where
  left _ _ _ := add_grows _ _ _ _ _ _ _
  right _ _ _ := add_grows _ _ _ _ _ _ _
  finish _ _ := .ite (.some (.refl _ _)) .none
end

section
variable {K : Type} [Field K] [LinearOrder K] [IsStrictOrderedRing K] (ps : List (P2 K)) (ids : List Nat)

/-- triangles are appended, and one of them is clockwise -/
def Twists (t t' : Triangulation) : Prop := ∃ ts, Emits t t' ids ts ∧ ∃ X ∈ ts, ¬Turns ps X

variable {ps ids}

theorem Twists.before {t t' t'' : Triangulation} (h : Grows ids t t') (h' : Twists ps ids t' t'') : Twists ps ids t t'' := by
  obtain ⟨a, h⟩ := h
  obtain ⟨b, h', X, hX, hT⟩ := h'
  exact ⟨a ++ b, emits_append' h h', X, by simp [hX], hT⟩

theorem Twists.after {t t' t'' : Triangulation} (h : Twists ps ids t t') (h' : Grows ids t' t'') : Twists ps ids t t'' := by
  obtain ⟨a, h, X, hX, hT⟩ := h
  obtain ⟨b, h'⟩ := h'
  exact ⟨a ++ b, emits_append' h h', X, by simp [hX], hT⟩

theorem mem_fanned (d : Dir) (v : Nat) : ∀ (l : List Nat) (p q : Nat), [p, q] <:+: l → triOf d v p q ∈ fanned d v l := by
  intro l p q ⟨s, e, h⟩
  subst h
  induction s with
  | nil => simp [fanned]
  | cons a s ih =>
    obtain ⟨b, m, hm⟩ : ∃ b m, s ++ [p, q] ++ e = b :: m := by cases s <;> simp
    have e1 : a :: s ++ [p, q] ++ e = a :: b :: m := by rw [← hm]; simp
    rw [e1]
    rw [hm] at ih
    simp only [fanned, List.mem_cons]
    exact .inr (by simpa only [fanned] using ih)

/-- a vertex on the right that does not see the whole chain on the left gives a clockwise triangle -/
theorem unseen_twists (angPos angNeg : Nat → Nat → Nat → Bool) {c : LChain} (hd : c.d = .left) {v : Nat} (hs : ¬Sees ps true v c.stack) (t : Triangulation) :
    Post (fun r : LChain × Triangulation => Twists ps ids t r.2) (c.add angPos angNeg ids v .right t) := by
  simp only [Sees, not_forall, not_le] at hs
  obtain ⟨x, y, hxy, hlt⟩ := hs
  unfold LChain.add
  rw [if_neg (by simp [hd]), if_neg (by simp [hd])]
  split
  · exact .none
  · rename_i a ha
    rw [ha] at hxy
    have := hxy.length_le
    simp at this
  · refine Post.bind (P := Twists ps ids t) (fun t' ht => ⟨_, linear_opp ids .right v _ _ _ ht, triOf .right v y x, mem_fanned _ _ _ _ _ ?_, ?_⟩) fun _ h => .some h
    · have := List.reverse_infix.mpr hxy
      simpa using this
    · have := turns_iff (ps := ps) false v y x
      simp only [dirOf, Bool.false_eq_true, if_false] at this
      rw [this, not_le, show tri2 (posOf ps v) (posOf ps y) (posOf ps x) = -tri2 (posOf ps v) (posOf ps x) (posOf ps y) by simp only [tri2]; ring]
      simp only [sideSign, if_true, Bool.false_eq_true, if_false] at hlt ⊢
      linarith

/-- a split into an interval that does not face it panics or emits a clockwise triangle -/
theorem unfaced_twists (angPos angNeg : Nat → Nat → Nat → Bool) (dbg : Bool) {find : Find LChain} {ev : Event} {q : Ctx LChain} {k : Nat} {iv : Interval LChain} (hf : find q.sls ev.here = some (some k))
    (hk : q.sls.ivl k = some iv) (hb : ¬Faced ps ev.here iv) : Post (fun r => ∀ q', r = some q' → Twists ps ids q.tri q'.tri) (sweepTrySplit dbg (linear angPos angNeg ids) find ev q) := by
  have G := linear_growing angPos angNeg ids
  simp only [Faced, Classical.not_imp] at hb
  obtain ⟨hd, hb⟩ := hb
  unfold sweepTrySplit
  rw [hf]
  refine Post.bind (P := fun r => r = some k) (by intro x hx; cases hx; rfl) fun o ho => ?_
  subst ho
  refine Post.bind (P := fun r => r.1 = some iv) ?_ fun r hr => ?_
  · intro x hx
    have : q.sls.left[k]? = some (some iv) := by
      simp only [Status.ivl] at hk
      cases h : q.sls.left[k]? with
      | none => simp [h] at hk
      | some o => simp [h] at hk; rw [hk]
    unfold Status.removeLeft at hx
    erw [this] at hx
    simp only at hx
    split at hx
    · cases hx; rfl
    · cases hx
  obtain ⟨r1, s⟩ := r
  simp only at hr
  subst hr
  refine Post.bind (P := fun r => r = iv) (by intro x hx; cases hx; rfl) fun line hl => ?_
  subst hl
  refine .ite .none ?_
  cases hfx : line.fixup with
  | some f =>
    rw [hfx] at hd hb
    simp only [Option.getD_some] at hd hb
    refine Post.bind (P := fun r => Twists ps ids q.tri r.2) ?_ fun a ha => (G.right _ _ _).bind fun b hb' => .any fun s1 => .any fun s2 => .some ?_
    · unfold splitStacks
      rw [hfx]
      refine Post.bind (P := fun _ => ¬Sees ps true ev.here f.stack) ?_ fun r hr => ?_
      · intro r hr hs
        exact hb ⟨⟨r, hr⟩, hs⟩
      · refine (unseen_twists angPos angNeg (c := { f with lastRight := some ev.here }) hd hr _).bind fun c hc => (G.finish _ _).bind fun x hx => (G.left _ _ _).mono fun y hy => (hc.after hx).after hy
    · intro q' hq; cases hq; exact ha.after hb'
  | none =>
    rw [hfx] at hd hb
    simp only [Option.getD_none] at hd hb
    refine Post.bind (P := fun r => Grows ids q.tri r.2 ∧ ¬Sees ps true ev.here line.chain.stack) ?_ fun a ha =>
      (unseen_twists angPos angNeg (c := { line.chain with lastRight := some ev.here }) hd ha.2 _).bind fun b hb' => .any fun s1 => .any fun s2 => .some ?_
    · unfold splitStacks
      rw [hfx]
      simp only
      rw [if_neg (by simp [linear, hd])]
      refine Post.bind (P := fun _ => ¬Sees ps true ev.here line.chain.stack) ?_ fun r hr => (G.left _ _ _).mono fun _ h => ⟨h, hr⟩
      intro r hr hs
      exact hb ⟨⟨r, hr⟩, hs⟩
    · intro q' hq; cases hq; exact hb'.before ha.1
end
end Verif.GeomProps
