import Verif.Lemmas.DelaunayRun
import Verif.Props.Sweep
/-
A sweep over a polygon that is monotone downwards: there is one interval all the time, and the triangulator is fed with the vertices from top to bottom.
-/
set_option linter.unusedSectionVars false
namespace Verif.Geom
open Triangulation

/-! ### One interval -/

/-- the status with a single interval -/
def single {C : Type} (n : Nat) (iv : Interval C) : Status C := ⟨(List.replicate n none).set iv.left.stop (some iv), (List.replicate n maxIx).set iv.right.stop iv.left.stop⟩

section
variable {C : Type} {n : Nat} {iv : Interval C}

theorem put_new (h1 : iv.left.stop < n) (h2 : iv.right.stop < n) : (Status.new n : Status C).put iv = some (single n iv) := by
  simp [Status.put, Status.new, h1, h2, single]

theorem set_back {A : Type} (x : A) (k : Nat) (y : A) : ((List.replicate n x).set k y).set k x = List.replicate n x := by
  apply List.ext_getElem?
  intro i
  simp only [List.getElem?_set, List.length_set, List.length_replicate, List.getElem?_replicate]
  split <;> simp_all

theorem removeLeft_single (h1 : iv.left.stop < n) (h2 : iv.right.stop < n) : (single n iv).removeLeft iv.left.stop = some (some iv, .new n) := by
  simp [Status.removeLeft, single, h1, h2, set_back, Status.new]

theorem removeLeft_single_ne {v : Nat} (h : v ≠ iv.left.stop) : (single n iv).removeLeft v = some (none, single n iv) := by
  have : ∀ x, (single n iv).left[v]? ≠ some (some x) := by
    intro x
    simp only [single]
    rw [List.getElem?_set_ne (Ne.symm h), List.getElem?_replicate]
    split <;> simp
  unfold Status.removeLeft
  split
  · rename_i x hx; exact absurd hx (this x)
  · rfl

theorem removeRight_single (hn : n ≤ maxIx) (h1 : iv.left.stop < n) (h2 : iv.right.stop < n) : (single n iv).removeRight iv.right.stop = some (some iv, .new n) := by
  have : iv.left.stop ≠ maxIx := by omega
  simp [Status.removeRight, single, h1, h2, set_back, Status.new, this]

theorem peekRight_new {v : Nat} (h : v < n) : (Status.new n : Status C).peekRight v = some none := by
  simp [Status.peekRight, Status.new, h]

theorem peekLeft_new {v : Nat} (h : v < n) : (Status.new n : Status C).peekLeft v = some none := by
  simp [Status.peekLeft, Status.new, h]
end

section
variable {dbg : Bool} {M : MonoTri} {find : Find M.C} {n : Nat} (hn : n ≤ maxIx) {iv : Interval M.C} (hf : iv.fixup = none) (h1 : iv.left.stop < n) (h2 : iv.right.stop < n) {t t' : Triangulation} {c' : M.C}

theorem insert_new {iv : Interval M.C} (h1 : iv.left.stop < n) (h2 : iv.right.stop < n) (hs : iv.sane M = true) : (Status.new n : Status M.C).insert dbg M iv = some (single n iv) := by
  simp [Status.insert, hs, put_new h1 h2]

include hf h1 h2 in
/-- a vertex on the left side -/
theorem event_left {v pv nx : Nat} {ty : VType} (hty : ty = .regular ∨ ty = .undecisive) (hv : v = iv.left.stop) (he : iv.isEnd = false) (hl : M.left iv.chain v t = some (c', t')) (hx : nx < n)
    (hs : Interval.sane M ⟨v, ⟨v, nx⟩, iv.right, c', none⟩ = true) :
    sweepEvent dbg M find ⟨v, pv, nx, ty⟩ ⟨single n iv, t⟩ = some (⟨single n ⟨v, ⟨v, nx⟩, iv.right, c', none⟩, t'⟩, .regular) := by
  have hr : (single n iv).removeLeft v = some (some iv, .new n) := by rw [hv]; exact removeLeft_single h1 h2
  have hp : (Status.new n : Status M.C).peekRight v = some none := peekRight_new (by omega)
  have hi := insert_new (dbg := dbg) (M := M) (n := n) (iv := ⟨v, ⟨v, nx⟩, iv.right, c', none⟩) hx h2 hs
  rcases hty with rfl | rfl <;>
    simp [sweepEvent, sweepRegular, hr, he, hp, regularLeft, finishLeft, hf, hl, hi]

include hf h1 h2 hn in
/-- a vertex on the right side -/
theorem event_right {v pv nx : Nat} {ty : VType} (hty : ty = .regular ∨ ty = .undecisive) (hv : v = iv.right.stop) (hne : v ≠ iv.left.stop) (hl : M.right iv.chain v t = some (c', t')) (hx : pv < n)
    (hs : Interval.sane M ⟨v, iv.left, ⟨v, pv⟩, c', none⟩ = true) :
    sweepEvent dbg M find ⟨v, pv, nx, ty⟩ ⟨single n iv, t⟩ = some (⟨single n ⟨v, iv.left, ⟨v, pv⟩, c', none⟩, t'⟩, .regular) := by
  have hr := removeLeft_single_ne (n := n) (iv := iv) hne
  have hr2 : (single n iv).removeRight v = some (some iv, .new n) := by rw [hv]; exact removeRight_single hn h1 h2
  have he : iv.isEnd = false := by simp only [Interval.isEnd, beq_eq_false_iff_ne]; omega
  have hp : (Status.new n : Status M.C).peekLeft v = some none := peekLeft_new (by omega)
  have hi := insert_new (dbg := dbg) (M := M) (n := n) (iv := ⟨v, iv.left, ⟨v, pv⟩, c', none⟩) h1 hx hs
  rcases hty with rfl | rfl <;>
    simp [sweepEvent, sweepRegular, hr, hr2, he, hp, regularRight, finishRight, hf, hl, hi]

include hf h1 h2 in
/-- the bottom vertex -/
theorem event_end {v pv nx : Nat} (hv : v = iv.left.stop) (he : iv.isEnd = true) (hl : M.left iv.chain v t = some (c', t')) {t'' : Triangulation} (hfin : M.finish c' t' = some t'') :
    sweepEvent dbg M find ⟨v, pv, nx, .end⟩ ⟨single n iv, t⟩ = some (⟨.new n, t''⟩, .end) := by
  have hr : (single n iv).removeLeft v = some (some iv, .new n) := by rw [hv]; exact removeLeft_single h1 h2
  simp [sweepEvent, sweepEnd, hr, he, finishRight, hf, hl, hfin]
end

/-! ### The loop -/

/-- the vertices on both sides, from top to bottom, and the bottom vertex -/
structure Sides (nx pv : Nat → Nat) (v0 : Nat) (l : List (Bool × Nat)) (w : Nat) : Prop where
  left : ∀ pre v post, l = pre ++ (true, v) :: post → v = nx (lastOn v0 true pre)
  right : ∀ pre v post, l = pre ++ (false, v) :: post → v = pv (lastOn v0 false pre)
  bot : w = nx (lastOn v0 true l) ∧ w = pv (lastOn v0 false l)
  /-- no vertex is met twice -/
  once : (v0 :: (l.map Prod.snd ++ [w])).Nodup

/-- the interval after a part of the vertices -/
def spanOf {C : Type} (nx pv : Nat → Nat) (v0 : Nat) (pre : List (Bool × Nat)) (c : C) : Interval C :=
  ⟨((v0 :: pre.map Prod.snd).getLast?).getD 0, ⟨lastOn v0 true pre, nx (lastOn v0 true pre)⟩, ⟨lastOn v0 false pre, pv (lastOn v0 false pre)⟩, c, none⟩

/-- the events -/
def evOf (nx pv : Nat → Nat) (ty : Nat → VType) (v : Nat) : Event := ⟨v, pv v, nx v, ty v⟩

section
variable {dbg : Bool} {M : MonoTri} {find : Find M.C} {n : Nat} {nx pv : Nat → Nat} {ty : Nat → VType} {v0 w : Nat} {l : List (Bool × Nat)}

theorem lastOn_mem (v0 : Nat) (b : Bool) (pre : List (Bool × Nat)) : lastOn v0 b pre ∈ v0 :: pre.map Prod.snd := by
  simp only [lastOn]
  cases h : ((pre.filter fun x => x.1 == b).map Prod.snd).getLast? with
  | none => simp
  | some x =>
    have := List.mem_of_getLast? h
    simp only [List.mem_map, List.mem_filter] at this
    obtain ⟨y, hy, rfl⟩ := this
    exact List.mem_cons_of_mem _ (List.mem_map_of_mem hy.1)

/-- the next vertex of either side is still to come -/
theorem next_mem {f : Nat → Nat} {b : Bool} (hs : ∀ pre v post, l = pre ++ (b, v) :: post → v = f (lastOn v0 b pre)) (hw : w = f (lastOn v0 b l)) :
    ∀ (post pre : List (Bool × Nat)), l = pre ++ post → f (lastOn v0 b pre) ∈ (post.filter fun x => x.1 == b).map Prod.snd ++ [w] := by
  intro post
  induction post with
  | nil => intro pre hl; rw [List.append_nil] at hl; subst hl; simp [← hw]
  | cons x post ih =>
    intro pre hl
    obtain ⟨b', v⟩ := x
    by_cases hb : b' = b
    · subst hb
      simp [← hs pre v post hl]
    · have hb : b' = !b := by cases b <;> cases b' <;> simp_all
      subst hb
      have := ih (pre ++ [(!b, v)]) (by simp [hl])
      rw [lastOn_other] at this
      rw [List.filter_cons_of_neg (by cases b <;> simp)]
      exact this

theorem Sides.next_left (S : Sides nx pv v0 l w) {pre post : List (Bool × Nat)} (h : l = pre ++ post) : nx (lastOn v0 true pre) ∈ (post.filter fun x => x.1 == true).map Prod.snd ++ [w] := next_mem S.left S.bot.1 post pre h

theorem Sides.next_right (S : Sides nx pv v0 l w) {pre post : List (Bool × Nat)} (h : l = pre ++ post) : pv (lastOn v0 false pre) ∈ (post.filter fun x => x.1 == false).map Prod.snd ++ [w] := next_mem S.right S.bot.2 post pre h

theorem rest_mem {b : Bool} {post : List (Bool × Nat)} {x : Nat} (h : x ∈ (post.filter fun x => x.1 == b).map Prod.snd ++ [w]) : x ∈ post.map Prod.snd ++ [w] := by
  simp only [List.mem_append, List.mem_map, List.mem_filter] at h ⊢
  rcases h with ⟨y, hy, rfl⟩ | h
  · exact .inl ⟨y, hy.1, rfl⟩
  · exact .inr h

/-- the vertices of both sides differ, until the bottom is reached -/
theorem Sides.not_end (S : Sides nx pv v0 l w) {pre : List (Bool × Nat)} {x : Bool × Nat} {post : List (Bool × Nat)} (h : l = pre ++ x :: post) : nx (lastOn v0 true pre) ≠ pv (lastOn v0 false pre) := by
  intro he
  have nd := S.once
  rw [h] at nd
  simp only [List.map_append, List.map_cons, List.append_assoc, List.cons_append, List.nodup_cons, List.nodup_append] at nd
  have nd := nd.2.2.1.1
  obtain ⟨b, v⟩ := x
  cases b with
  | true =>
    have h1 := S.left pre v post h
    have h2 := S.next_right h
    rw [List.filter_cons_of_neg (by simp)] at h2
    rw [← he, ← h1] at h2
    exact nd (rest_mem h2)
  | false =>
    have h1 := S.right pre v post h
    have h2 := S.next_left h
    rw [List.filter_cons_of_neg (by simp)] at h2
    rw [he, ← h1] at h2
    exact nd (rest_mem h2)

/-- the interval has not been closed -/
theorem Sides.not_circular (S : Sides nx pv v0 l w) (hc : Cycle n nx pv) (hlt : ∀ x ∈ v0 :: (l.map Prod.snd ++ [w]), x < n) {C : Type} (c : C) {pre post : List (Bool × Nat)} (h : l = pre ++ post) : (spanOf nx pv v0 pre c).isCircular = false := by
  have nd := S.once
  have hm := lastOn_mem v0 true pre
  have h2 := rest_mem (S.next_right h)
  have e1 : lastOn v0 true pre ≠ pv (lastOn v0 false pre) := by
    rw [h, List.map_append, List.append_assoc, ← List.cons_append, List.nodup_append] at nd
    exact nd.2.2 _ hm _ h2
  have hlt' : lastOn v0 true pre < n := by
    apply hlt
    rw [h, List.map_append, List.append_assoc, ← List.cons_append]
    exact List.mem_append_left _ hm
  have e2 : lastOn v0 true pre = lastOn v0 false pre → nx (lastOn v0 true pre) ≠ pv (lastOn v0 false pre) := fun e => by rw [← e]; exact hc.ne _ hlt'
  simp only [Interval.isCircular, spanOf, Bool.or_eq_false_iff, Bool.and_eq_false_iff, beq_eq_false_iff_ne]
  refine ⟨.inl e1, ?_⟩
  by_cases e : lastOn v0 true pre = lastOn v0 false pre
  · exact .inr (e2 e)
  · exact .inl e

theorem getLast_snoc (v0 : Nat) (pre : List (Bool × Nat)) (x : Bool × Nat) : ((v0 :: (pre ++ [x]).map Prod.snd).getLast?).getD 0 = x.2 := by
  rw [List.map_append, ← List.cons_append, List.getLast?_append]; simp

theorem feed_append : ∀ (a b : List (Bool × Nat)) (c : M.C) (t : Triangulation), feed M (a ++ b) c t = (feed M a c t).bind fun r => feed M b r.1 r.2 := by
  intro a
  induction a with
  | nil => intro b c t; rfl
  | cons x a ih =>
    intro b c t
    obtain ⟨b', v⟩ := x
    cases b'
    · simp only [List.cons_append, feed, Option.bind_eq_bind, Option.bind_assoc, ih]
    · simp only [List.cons_append, feed, Option.bind_eq_bind, Option.bind_assoc, ih]

variable (hn : n ≤ maxIx) (hc : Cycle n nx pv) (S : Sides nx pv v0 l w) (hlt : ∀ x ∈ v0 :: (l.map Prod.snd ++ [w]), x < n)
  (hty : ∀ x ∈ l, ty x.2 = .regular ∨ ty x.2 = .undecisive) (hw : ty w = .end) {t0 : Triangulation}
  (San : ∀ pre post c t, l = pre ++ post → feed M pre (M.new v0) t0 = some (c, t) → M.sanity c (lastOn v0 true pre) (lastOn v0 false pre) none = true)

include hn hc S hlt hty hw San in
theorem loop_feed : ∀ (post pre : List (Bool × Nat)) (c : M.C) (t : Triangulation) (c' : M.C) (t' t'' : Triangulation), l = pre ++ post → feed M pre (M.new v0) t0 = some (c, t) →
    feed M (post ++ [(true, w)]) c t = some (c', t') → M.finish c' t' = some t'' →
    sweepLoop dbg M find (post.map (fun x => evOf nx pv ty x.2) ++ [evOf nx pv ty w]) ⟨single n (spanOf nx pv v0 pre c), t⟩ = some (⟨.new n, t''⟩, List.replicate post.length .regular ++ [.end]) := by
  intro post
  induction post with
  | nil =>
    intro pre c t c' t' t'' hl h1 h2 h3
    rw [List.append_nil] at hl
    have hwn : w < n := hlt w (by simp)
    simp only [List.nil_append, feed, Option.bind_eq_bind, Option.bind_eq_some_iff] at h2
    obtain ⟨⟨c1, t1⟩, h2, h4⟩ := h2
    simp at h4; obtain ⟨rfl, rfl⟩ := h4
    have e1 : nx (lastOn v0 true pre) = w := by rw [← hl]; exact S.bot.1.symm
    have e2 : pv (lastOn v0 false pre) = w := by rw [← hl]; exact S.bot.2.symm
    have := event_end (dbg := dbg) (find := find) (n := n) (iv := spanOf nx pv v0 pre c) rfl (by simpa [spanOf, e1]) (by simpa [spanOf, e2]) (v := w) (pv := pv w) (nx := nx w) (by simp [spanOf, e1]) (by simp [spanOf, Interval.isEnd, e1, e2]) h2 h3
    simp only [List.map_nil, List.nil_append, sweepLoop, evOf, hw, this, Option.bind_eq_bind, Option.bind_some, List.length_nil, List.replicate_zero]
  | cons x post ih =>
    intro pre c t c' t' t'' hl h1 h2 h3
    have hl' : l = (pre ++ [x]) ++ post := by simp [hl]
    have hx := hty x (by simp [hl])
    have hlt' : ∀ y ∈ post.map Prod.snd ++ [w], y < n := fun y hy => hlt y (by
      simp only [hl, List.mem_cons, List.mem_append, List.map_append, List.map_cons] at hy ⊢
      rcases hy with hy | hy
      · exact .inr (.inl (.inr (.inr hy)))
      · exact .inr (.inr hy))
    have hxn : x.2 < n := hlt x.2 (by simp [hl])
    have k1 : nx (lastOn v0 true pre) < n := by
      have := rest_mem (S.next_left hl)
      simp only [List.map_cons, List.cons_append, List.mem_cons] at this
      rcases this with e | e
      · rw [e]; exact hxn
      · exact hlt' _ e
    have k2 : pv (lastOn v0 false pre) < n := by
      have := rest_mem (S.next_right hl)
      simp only [List.map_cons, List.cons_append, List.mem_cons] at this
      rcases this with e | e
      · rw [e]; exact hxn
      · exact hlt' _ e
    have hne := S.not_end hl
    have sane : ∀ (c1 : M.C) (t1 : Triangulation), feed M (pre ++ [x]) (M.new v0) t0 = some (c1, t1) → (spanOf nx pv v0 (pre ++ [x]) c1).sane M = true := by
      intro c1 t1 hf
      have hcirc := S.not_circular hc hlt c1 hl'
      simp only [Interval.sane, hcirc, Bool.not_false, Bool.true_and]
      exact San _ _ _ _ hl' hf
    obtain ⟨b, v⟩ := x
    simp only at hx hxn
    cases b with
    | true =>
      simp only [List.cons_append, feed, Option.bind_eq_bind, Option.bind_eq_some_iff] at h2
      obtain ⟨⟨c1, t1⟩, h2, h4⟩ := h2
      have hf : feed M (pre ++ [(true, v)]) (M.new v0) t0 = some (c1, t1) := by rw [feed_append, h1]; simp [feed, h2]
      have hs := sane c1 t1 hf
      have hv := S.left pre v post hl
      have hsp : spanOf nx pv v0 (pre ++ [(true, v)]) c1 = ⟨v, ⟨v, nx v⟩, (spanOf nx pv v0 pre c).right, c1, none⟩ := by
        simp only [spanOf, lastOn_same, show lastOn v0 false (pre ++ [(true, v)]) = lastOn v0 false pre from lastOn_other v0 false pre v, getLast_snoc]
      rw [hsp] at hs
      have := event_left (dbg := dbg) (find := find) (n := n) (iv := spanOf nx pv v0 pre c) rfl k1 k2 (v := v) (pv := pv v) (nx := nx v) (ty := ty v) hx hv (by simpa [spanOf, Interval.isEnd] using hne) h2 (hc.nx_lt v hxn) hs
      rw [← hsp] at this
      have r := ih (pre ++ [(true, v)]) c1 t1 c' t' t'' hl' hf h4 h3
      simp only [List.map_cons, List.cons_append, sweepLoop, evOf] at r ⊢
      simp only [this, Option.bind_eq_bind, Option.bind_some, r, List.length_cons, List.replicate_succ, List.cons_append]
    | false =>
      simp only [List.cons_append, feed, Option.bind_eq_bind, Option.bind_eq_some_iff] at h2
      obtain ⟨⟨c1, t1⟩, h2, h4⟩ := h2
      have hf : feed M (pre ++ [(false, v)]) (M.new v0) t0 = some (c1, t1) := by rw [feed_append, h1]; simp [feed, h2]
      have hs := sane c1 t1 hf
      have hv := S.right pre v post hl
      have hsp : spanOf nx pv v0 (pre ++ [(false, v)]) c1 = ⟨v, (spanOf nx pv v0 pre c).left, ⟨v, pv v⟩, c1, none⟩ := by
        simp only [spanOf, lastOn_same, show lastOn v0 true (pre ++ [(false, v)]) = lastOn v0 true pre from lastOn_other v0 true pre v, getLast_snoc]
      rw [hsp] at hs
      have := event_right (dbg := dbg) (find := find) (n := n) hn (iv := spanOf nx pv v0 pre c) rfl k1 k2 (v := v) (pv := pv v) (nx := nx v) (ty := ty v) hx hv (by rw [hv]; exact hne.symm) h2 (hc.pv_lt v hxn) hs
      rw [← hsp] at this
      have r := ih (pre ++ [(false, v)]) c1 t1 c' t' t'' hl' hf h4 h3
      simp only [List.map_cons, List.cons_append, sweepLoop, evOf] at r ⊢
      simp only [this, Option.bind_eq_bind, Option.bind_some, r, List.length_cons, List.replicate_succ, List.cons_append]

include hn hc S hlt hty hw San in
/-- The sweep of a polygon with two sides does nothing but feed the triangulator. -/
theorem sweep_feed (h0 : ty v0 = .start) (hl : l.length + 2 = n) (h3 : 3 ≤ n) {c' : M.C} {t' t'' : Triangulation} (h : feed M (l ++ [(true, w)]) (M.new v0) t0 = some (c', t')) (hfin : M.finish c' t' = some t'') :
    sweep dbg M find (evOf nx pv ty v0 :: (l.map (fun x => evOf nx pv ty x.2) ++ [evOf nx pv ty w])) t0 = some (⟨.new n, t''⟩, .start :: (List.replicate l.length .regular ++ [.end])) := by
  have hv0 : v0 < n := hlt v0 (by simp)
  have hs : (spanOf nx pv v0 [] (M.new v0)).sane M = true := by
    have hcirc := S.not_circular hc hlt (M.new v0) (pre := []) (post := l) rfl
    simp only [Interval.sane, hcirc, Bool.not_false, Bool.true_and]
    exact San [] l _ t0 rfl rfl
  have hst : sweepStart dbg M (evOf nx pv ty v0) ⟨.new n, t0⟩ = some ⟨single n (spanOf nx pv v0 [] (M.new v0)), t0⟩ := by
    have hi := insert_new (dbg := dbg) (M := M) (n := n) (iv := spanOf nx pv v0 [] (M.new v0)) (hc.nx_lt _ (by simpa [spanOf, lastOn] using hv0)) (hc.pv_lt _ (by simpa [spanOf, lastOn] using hv0)) hs
    have e : spanOf nx pv v0 [] (M.new v0) = ⟨v0, ⟨v0, nx v0⟩, ⟨v0, pv v0⟩, M.new v0, none⟩ := by simp [spanOf, lastOn]
    rw [e] at hi ⊢
    simp [sweepStart, evOf, hi]
  have r := loop_feed (dbg := dbg) (find := find) hn hc S hlt hty hw San l [] (M.new v0) t0 c' t' t'' rfl rfl h hfin
  have hlen : (evOf nx pv ty v0 :: (l.map (fun x => evOf nx pv ty x.2) ++ [evOf nx pv ty w])).length = n := by simp; omega
  have hlast : (evOf nx pv ty v0 :: (l.map (fun x => evOf nx pv ty x.2) ++ [evOf nx pv ty w])).getLast? = some (evOf nx pv ty w) := by
    rw [← List.cons_append, List.getLast?_append]; simp
  have hloop : sweepLoop dbg M find (evOf nx pv ty v0 :: (l.map (fun x => evOf nx pv ty x.2) ++ [evOf nx pv ty w])) ⟨.new n, t0⟩ = some (⟨.new n, t''⟩, .start :: (List.replicate l.length .regular ++ [.end])) := by
    have he : sweepEvent dbg M find (evOf nx pv ty v0) ⟨.new n, t0⟩ = some (⟨single n (spanOf nx pv v0 [] (M.new v0)), t0⟩, .start) := by
      simp only [sweepEvent, show (evOf nx pv ty v0).type = .start from h0, hst, Option.bind_eq_bind, Option.bind_some]
    simp only [sweepLoop, he, r, Option.bind_eq_bind, Option.bind_some]
  simp only [sweep, hlen, hlast, List.head?_cons, Option.bind_eq_bind, Option.bind_some]
  rw [if_neg (by omega), if_neg (by simp [evOf, h0]), if_neg (by simp [evOf, hw])]
  exact hloop
end

/-! ### The checks of the chain -/

section
variable (angPos angNeg : Nat → Nat → Nat → Bool)

/-- the ends of the chain are the last vertices of both sides -/
def Ends (v0 : Nat) (pre : List (Bool × Nat)) (d : Dir) (st : List Nat) : Prop :=
  (pre = [] ∧ d = .none ∧ st = [v0]) ∨ ∃ b, d = dirOf b ∧ 2 ≤ st.length ∧ st.head? = some (lastOn v0 b pre) ∧ st.getLast? = some (lastOn v0 (!b) pre)

theorem ends_step {v0 : Nat} {pre : List (Bool × Nat)} {d : Dir} {st : List Nat} (h : Ends v0 pre d st) (x : Bool × Nat) : Ends v0 (pre ++ [x]) (stepC angPos angNeg (d, st) x).2.1 (stepC angPos angNeg (d, st) x).2.2 := by
  obtain ⟨b', v⟩ := x
  rcases h with ⟨rfl, rfl, rfl⟩ | ⟨b, rfl, h2, h3, h4⟩
  · refine .inr ⟨b', by simp [stepC], by simp [stepC], by simp [stepC, lastOn], by cases b' <;> simp [stepC, lastOn]⟩
  have hn : dirOf b ≠ .none := by cases b <;> simp [dirOf]
  by_cases hb : b = b'
  · subst hb
    simp only [stepC, if_neg hn, if_true]
    have hne : st ≠ [] := by rintro rfl; simp at h2
    obtain ⟨k3, k4, -⟩ := popped_spec angPos angNeg (dirOf b) v st hne
    generalize popped angPos angNeg (dirOf b) v st = q at *
    refine .inr ⟨b, rfl, ?_, by simp [lastOn_same], ?_⟩
    · have := List.length_pos_of_ne_nil k3
      simp only [List.length_cons]; omega
    · obtain ⟨x, q', hq'⟩ := List.exists_cons_of_ne_nil k3
      rw [lastOn_other', ← h4]
      obtain ⟨t, ht⟩ := k4
      rw [← ht, List.getLast?_append_of_ne_nil _ k3, hq', List.getLast?_cons_cons]
  · have hb' : b' = !b := by cases b <;> cases b' <;> simp_all
    subst hb'
    have hd : dirOf b ≠ dirOf (!b) := by cases b <;> simp [dirOf]
    simp only [stepC, if_neg hn, if_neg hd]
    cases st with
    | nil => simp at h2
    | cons a st =>
      simp only [List.head?_cons, Option.some.injEq] at h3
      refine .inr ⟨!b, rfl, by simp, by simp [lastOn_same], ?_⟩
      simp only [Bool.not_not, lastOn_other, List.take_succ_cons, List.take_zero, ← h3]
      simp

theorem ends_run : ∀ (l : List (Bool × Nat)) {v0 : Nat} {pre : List (Bool × Nat)} {d : Dir} {st : List Nat}, Ends v0 pre d st → Ends v0 (pre ++ l) (runC angPos angNeg l (d, st)).2.1 (runC angPos angNeg l (d, st)).2.2 := by
  intro l
  induction l with
  | nil => intro v0 pre d st h; simpa [runC] using h
  | cons x l ih =>
    intro v0 pre d st h
    have := ih (ends_step angPos angNeg h x)
    simpa [runC] using this

theorem linear_sane {v0 : Nat} {pre : List (Bool × Nat)} {c : LChain} (h : Ends v0 pre c.d c.stack) : c.sanity (lastOn v0 true pre) (lastOn v0 false pre) none = true := by
  obtain ⟨st, d, lr, ll⟩ := c
  rcases h with ⟨rfl, h1, h2⟩ | ⟨b, h1, h2, h3, h4⟩
  · simp only at h1 h2; subst h1 h2; simp [LChain.sanity, LChain.first, lastOn]
  · simp only at h1 h2 h3 h4
    cases b <;> simp_all [LChain.sanity, LChain.first, LChain.last, dirOf]

theorem delaunay_sane {v0 : Nat} {pre : List (Bool × Nat)} {c : DelChain} (h : Ends v0 pre c.d c.stack) : c.sanity (lastOn v0 true pre) (lastOn v0 false pre) none = true := by
  obtain ⟨st, d, fi, op, lr, ll⟩ := c
  rcases h with ⟨rfl, h1, h2⟩ | ⟨b, h1, h2, h3, h4⟩
  · simp only at h1 h2; subst h1 h2; simp [DelChain.sanity, DelChain.first, lastOn]
  · simp only at h1 h2 h3 h4
    cases b <;> simp_all [DelChain.sanity, DelChain.first, DelChain.last, dirOf]
end
end Verif.Geom
