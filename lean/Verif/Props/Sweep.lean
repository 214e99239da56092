import Verif.Props.Mono
import Verif.Model.SweepGeom
/-
C44 (status of the sweep line) and C53 (number of triangles of the sweep).
-/
set_option linter.unusedSectionVars false
namespace Verif.Geom
open Triangulation

/-! ### Histories of the status -/

inductive StatusOp (C : Type)
  | insert (iv : Interval C)
  | removeLeft (key : Nat)
  | removeRight (key : Nat)

namespace Status
variable {C : Type}

/-- run operations; the number is the number of live intervals according to what was inserted and what the removals returned -/
def runOps : List (StatusOp C) → Status C → Int → Option (Status C × Int)
  | [], s, m => some (s, m)
  | .insert iv :: l, s, m => do runOps l (← s.put iv) (m + 1)
  | .removeLeft k :: l, s, m => do let (o, s) ← s.removeLeft k; runOps l s (if o.isSome then m - 1 else m)
  | .removeRight k :: l, s, m => do let (o, s) ← s.removeRight k; runOps l s (if o.isSome then m - 1 else m)

/-- intervals are only inserted if neither of their keys is in use -/
def FreshOps : List (StatusOp C) → Status C → Prop
  | [], _ => True
  | .insert iv :: l, s => (s.peekLeft iv.left.stop = some none ∧ s.peekRight iv.right.stop = some none) ∧ ∀ s', s.put iv = some s' → FreshOps l s'
  | .removeLeft k :: l, s => ∀ r, s.removeLeft k = some r → FreshOps l r.2
  | .removeRight k :: l, s => ∀ r, s.removeRight k = some r → FreshOps l r.2

/-- looking up by the left and by the right key gives the same intervals -/
def LookupsAgree (s : Status C) : Prop :=
  (∀ k iv, s.peekLeft k = some (some iv) → iv.left.stop = k ∧ s.peekRight iv.right.stop = some (some iv)) ∧
  (∀ r iv, s.peekRight r = some (some iv) → iv.right.stop = r ∧ s.peekLeft iv.left.stop = some (some iv))

theorem peekLeft_iff {s : Status C} {k : Nat} {iv : Interval C} : s.peekLeft k = some (some iv) ↔ s.ivl k = some iv := at_some.symm

theorem Sync.peekRight {n : Nat} (hn : n ≤ maxIx) {s : Status C} (h : s.Sync n) {k : Nat} {iv : Interval C} (hk : s.ivl k = some iv) : s.peekRight iv.right.stop = some (some iv) := by
  have h1 := (h.left k iv hk).2
  have h2 := h.lt hk
  simp only [Status.peekRight, h1, show k ≠ maxIx by omega, ne_eq, not_false_iff, if_true, Status.peekLeft]
  exact at_some.mp hk

theorem Sync.agree {n : Nat} (hn : n ≤ maxIx) {s : Status C} (h : s.Sync n) : s.LookupsAgree := by
  constructor
  · intro k iv hk
    rw [peekLeft_iff] at hk
    exact ⟨(h.left k iv hk).1, h.peekRight hn hk⟩
  · intro r iv hr
    obtain ⟨k, h1, h2⟩ := peekRight_spec hn h hr
    rw [(h.left k iv h1).1, peekLeft_iff]
    exact ⟨h2, h1⟩

theorem total_count (s : Status C) : s.total (fun _ => 1) = (s.left.countP Option.isSome : Int) := by
  simp only [total]
  induction s.left with
  | nil => rfl
  | cons a l ih => cases a <;> simp [List.countP_cons, ih]; omega

theorem Removed.unfound {n : Nat} (hn : n ≤ maxIx) {s s' : Status C} {k : Nat} {iv : Interval C} (h0 : s.Sync n) (h : Removed n s s' k iv) : s'.peekLeft k = some none ∧ s'.peekRight iv.right.stop = some none := by
  have h1 := h0.lt h.was
  have h2 := h0.stop_lt h.was
  constructor
  · have h3 := h.at_eq k
    rw [if_pos rfl] at h3
    have h4 := List.getElem?_eq_getElem (l := s'.left) (i := k) (by rw [h.sync.lenL]; exact h1)
    simp only [Status.ivl, h4] at h3
    simp only [Status.peekLeft, h4]
    simpa using h3
  · have h4 := List.getElem?_eq_getElem (l := s'.right) (i := iv.right.stop) (by rw [h.sync.lenR]; exact h2)
    rcases h.sync.right _ _ h4 with h5 | ⟨iv', h5, h6⟩
    · simp [Status.peekRight, h4, h5]
    · exfalso
      rw [h.at_eq] at h5
      split at h5
      · simp at h5
      · rename_i hne; exact hne (h0.inj h5 h.was h6)

theorem run_sync {n : Nat} (hn : n ≤ maxIx) : ∀ (l : List (StatusOp C)) (s s' : Status C) (m m' : Int), s.Sync n → s.total (fun _ => 1) = m → FreshOps l s → runOps l s m = some (s', m') →
    s'.Sync n ∧ s'.total (fun _ => 1) = m' := by
  intro l
  induction l with
  | nil => intro s s' m m' hs hm _ h; simp [runOps] at h; obtain ⟨rfl, rfl⟩ := h; exact ⟨hs, hm⟩
  | cons o l ih =>
    intro s s' m m' hs hm hf h
    cases o with
    | insert iv =>
      simp only [runOps, Option.bind_eq_bind, Option.bind_eq_some_iff] at h
      obtain ⟨s1, h1, h2⟩ := h
      obtain ⟨⟨f1, f2⟩, f3⟩ := hf
      have ins := put_spec hs (iv := iv) (by
        cases hk : s.ivl iv.left.stop with
        | none => rfl
        | some x => rw [← peekLeft_iff, f1] at hk; simp at hk) (peekRight_spec hn hs f2) h1
      exact ih s1 s' _ m' ins.sync (by rw [ins.total, hm]) (f3 s1 h1) h2
    | removeLeft k =>
      simp only [runOps, Option.bind_eq_bind, Option.bind_eq_some_iff] at h
      obtain ⟨⟨o, s1⟩, h1, h2⟩ := h
      have hf' := hf _ h1
      cases o with
      | none =>
        obtain ⟨rfl, -⟩ := removeLeft_none h1
        exact ih _ s' _ m' hs hm hf' h2
      | some iv =>
        have hr := removeLeft_some hs h1
        exact ih s1 s' _ m' hr.sync (by rw [hr.total, hm]; simp) hf' h2
    | removeRight k =>
      simp only [runOps, Option.bind_eq_bind, Option.bind_eq_some_iff] at h
      obtain ⟨⟨o, s1⟩, h1, h2⟩ := h
      have hf' := hf _ h1
      cases o with
      | none =>
        obtain ⟨rfl, -⟩ := removeRight_none hn hs h1
        exact ih _ s' _ m' hs hm hf' h2
      | some iv =>
        obtain ⟨j, -, hr⟩ := removeRight_some hs h1
        exact ih s1 s' _ m' hr.sync (by rw [hr.total, hm]; simp) hf' h2
end Status

/-! ### The whole sweep -/

def isStart (t : VType) : Bool := t == .start || t == .startLate
def isMerge (t : VType) : Bool := t == .merge || t == .mergeLate

theorem kinds_sum (tys : List VType) : ((tys.map kind).sum).1 = tys.countP isStart ∧ ((tys.map kind).sum).2.2.1 = tys.countP isMerge := by
  induction tys with
  | nil => exact ⟨rfl, rfl⟩
  | cons a l ih =>
    rw [List.map_cons, List.sum_cons, List.countP_cons, List.countP_cons]
    simp only [Prod.fst_add, Prod.snd_add, ih.1, ih.2]
    cases a <;> simp [kind, isStart, isMerge] <;> omega

theorem events_here {n : Nat} {nx pv : Nat → Nat} : ∀ (evs : List Event) (dn : List Nat), Events n nx pv dn evs → dn.Nodup → ((evs.map Event.here).reverse ++ dn).Nodup ∧ ∀ x ∈ evs.map Event.here, x < n := by
  intro evs
  induction evs with
  | nil => intro dn _ h; exact ⟨by simpa using h, by simp⟩
  | cons ev evs ih =>
    intro dn h hd
    obtain ⟨e1, e2, -, -, -, e6⟩ := h
    obtain ⟨h1, h2⟩ := ih (ev.here :: dn) e6 (List.nodup_cons.mpr ⟨e2, hd⟩)
    refine ⟨by simpa using h1, ?_⟩
    intro x hx
    rw [List.map_cons] at hx
    rcases List.mem_cons.mp hx with rfl | hx
    · exact e1
    · exact h2 x hx

theorem perm_range {l : List Nat} {n : Nat} (h1 : l.Nodup) (h2 : ∀ x ∈ l, x < n) (h3 : l.length = n) : l.Perm (List.range n) := by
  have h := (List.subperm_of_subset h1 (fun x hx => List.mem_range.mpr (h2 x hx))).perm_of_length_le (by simp [h3])
  exact h

theorem total_zero {C : Type} {s : Status C} (h : ∀ k, s.ivl k = none) (g : Interval C → Int) : s.total g = 0 := by
  have : ∀ o ∈ s.left, o = none := by
    intro o ho
    obtain ⟨k, hk, rfl⟩ := List.mem_iff_getElem.mp ho
    have := h k
    simp only [Status.ivl, List.getElem?_eq_getElem hk] at this
    simpa using this
  simp only [Status.total]
  rw [List.map_congr_left (g := fun _ => (0 : Int)) (fun o ho => by rw [this o ho]; rfl)]
  simp

/-- sign of a triple: at most 1, and 1 exactly for triples in cyclic order -/
theorem sgn3_le (t : Nat × Nat × Nat) : sgn (t.1, t.2.1) + sgn (t.2.1, t.2.2) + sgn (t.2.2, t.1) ≤ 1 ∧ (sgn (t.1, t.2.1) + sgn (t.2.1, t.2.2) + sgn (t.2.2, t.1) = 1 → Ccw3 t) := by
  obtain ⟨a, b, c⟩ := t
  simp only [sgn, Ccw3]
  constructor
  · split <;> split <;> split <;> (repeat' split) <;> omega
  · split <;> split <;> split <;> (repeat' split) <;> omega

theorem all_one {A : Type} {g : A → Int} (l : List A) (h1 : ∀ a ∈ l, g a ≤ 1) (h2 : (l.map g).sum = l.length) : ∀ a ∈ l, g a = 1 := by
  have le : ∀ m : List A, (∀ a ∈ m, g a ≤ 1) → (m.map g).sum ≤ m.length := by
    intro m
    induction m with
    | nil => simp
    | cons b m ih =>
      intro h
      have := ih fun a ha => h a (by simp [ha])
      have := h b (by simp)
      simp only [List.map_cons, List.sum_cons, List.length_cons]
      push_cast; omega
  induction l with
  | nil => simp
  | cons b l ih =>
    have hb := h1 b (by simp)
    have hl := le l fun a ha => h1 a (by simp [ha])
    simp only [List.map_cons, List.sum_cons, List.length_cons] at h2
    push_cast at h2
    intro a ha
    rcases List.mem_cons.mp ha with rfl | ha
    · omega
    · exact ih (fun a ha => h1 a (by simp [ha])) (by omega) a ha

theorem sgn_boundary {n : Nat} (hn : 3 ≤ n) : ((sides (List.range n)).map sgn).sum = (n : Int) - 2 := by
  obtain ⟨m, rfl⟩ : ∃ m, n = m + 1 := ⟨n - 1, by omega⟩
  rw [sides_range]
  have h3 : (((List.range m).map fun i => (i, i + 1)).map sgn).sum = m := by
    rw [List.map_map]
    have : (sgn ∘ fun i => (i, i + 1)) = fun _ => 1 := by funext i; simp [sgn]
    rw [this]; simp
  rw [List.map_append, List.sum_append, h3]
  simp [sgn, show 0 < m by omega]
  omega

/-- sides that cancel against the boundary, and the number of triangles of a polygon, give a triangulation -/
theorem isTriangulation_of_count {n : Nat} (hn : 3 ≤ n) {ts : List (Nat × Nat × Nat)} (h1 : ∀ t ∈ ts, t.1 < n ∧ t.2.1 < n ∧ t.2.2 < n) (h2 : Cancels (ts.flatMap triSides ++ (sides (List.range n)).map Prod.swap))
    (h3 : ts.length + 2 = n) : IsTriangulation n ts := by
  refine ⟨h1, ?_, h2⟩
  have e := sum_cancels (R := Int) (by intro x hx; omega) sgn sgn_swap h2
  rw [List.map_append, List.sum_append, sum_triSides, sum_swap sgn sgn_swap, sgn_boundary hn] at e
  have := all_one ts (fun t _ => (sgn3_le t).1) (by omega)
  intro t ht
  exact (sgn3_le t).2 (this t ht)

theorem emits_lt {t t' : Triangulation} {ids : List Nat} {ts : List (Nat × Nat × Nat)} (h : Emits t t' ids ts) : ∀ x ∈ ts, x.1 < ids.length ∧ x.2.1 < ids.length ∧ x.2.2 < ids.length := by
  obtain ⟨us, h1, -⟩ := h
  clear t t'
  induction ts generalizing us with
  | nil => simp
  | cons a ts ih =>
    rw [List.mapM_cons] at h1
    simp only [Option.bind_eq_bind, Option.bind_eq_some_iff] at h1
    obtain ⟨y, hy, ys, hys, -⟩ := h1
    simp only [mapTri, Option.bind_eq_bind, Option.bind_eq_some_iff] at hy
    obtain ⟨p, hp, q, hq, r, hr, -⟩ := hy
    intro x hx
    rcases List.mem_cons.mp hx with rfl | hx
    · exact ⟨(List.getElem?_eq_some_iff.mp hp).1, (List.getElem?_eq_some_iff.mp hq).1, (List.getElem?_eq_some_iff.mp hr).1⟩
    · exact ih ys hys x hx

theorem sides_mod (n : Nat) (h : 3 ≤ n) (f : Nat → Nat → Int) : ((List.range n).map fun i => f i ((i + 1) % n)).sum = ((sides (List.range n)).map fun p => f p.1 p.2).sum := by
  obtain ⟨m, rfl⟩ : ∃ m, n = m + 1 := ⟨n - 1, by omega⟩
  rw [sides_range, List.range_succ, List.map_append, List.map_append, List.sum_append, List.sum_append, List.map_map]
  congr 1
  · congr 1
    apply List.map_congr_left
    intro i hi
    have := List.mem_range.mp hi
    simp only [Function.comp]
    rw [Nat.mod_eq_of_lt (by omega)]
  · simp

theorem sweep_result {M : MonoTri} {ids : List Nat} (L : Lawful M ids) {dbg : Bool} {find : Find M.C} {n : Nat} (hn : 3 ≤ n) (hn' : n ≤ maxIx) {evs : List Event} (hlen : evs.length = n)
    (hev : Events n (fun k => (k + 1) % n) (fun k => (k + n - 1) % n) [] evs) {t : Triangulation} {q : Ctx M.C} {tys : List VType} (h : sweepLoop dbg M find evs ⟨.new n, t⟩ = some (q, tys)) :
    (∀ k, q.sls.ivl k = none) ∧ ∃ ts, Emits t q.tri ids ts ∧ Cancels (ts.flatMap triSides ++ (sides (List.range n)).map Prod.swap) ∧ ts.length + 2 * tys.countP isStart = n + 2 * tys.countP isMerge := by
  have hI := step_loop (L := L) (t0 := t) (cycle_mod hn) hn' evs [] _ _ 0 tys hev (inv_new t) h
  simp only [List.append_nil, zero_add] at hI
  obtain ⟨nd, lt⟩ := events_here evs [] hev (by simp)
  rw [List.append_nil] at nd
  have hmem : ∀ x, x ∈ (evs.map Event.here).reverse ↔ x < n := by
    intro x
    rw [(perm_range nd (fun x hx => lt x (List.mem_reverse.mp hx)) (by simp [hlen])).mem_iff, List.mem_range]
  unfold Inv' at hI
  have hnone : ∀ k, q.sls.ivl k = none := by
    intro k
    cases hk : q.sls.ivl k with
    | none => rfl
    | some iv =>
      have hlt := hI.sync.lt hk
      exact absurd ((hmem k).mpr hlt) ((hI.live k hlt).mp ⟨iv, hk⟩).1
  refine ⟨hnone, ?_⟩
  obtain ⟨cs, c1, c2, ts, e, b1, b2⟩ := hI.bal
  have hcs : cs.Perm (List.range n) := by
    refine (List.perm_ext_iff_of_nodup c1 List.nodup_range).mpr fun x => ?_
    rw [c2, List.mem_range, hmem, hmem]
    exact ⟨fun h => h.1, fun h => ⟨h, h, Nat.mod_lt _ (by omega)⟩⟩
  refine ⟨ts, e, cancels_of_sum ?_, ?_⟩
  · intro f hf
    have h1 := b1 f hf
    rw [total_zero hnone, (hcs.map _).sum_eq, sides_mod n hn f] at h1
    rw [List.map_append, List.sum_append, sum_triSides (fun p => f p.1 p.2), sum_swap (fun p => f p.1 p.2) (fun p => hf _ _)]
    simp only [triSum] at h1 ⊢
    omega
  · have h1 := hI.num
    have h2 := hI.len
    rw [total_zero hnone] at h1 b2
    rw [List.length_reverse, List.length_map, hlen] at h2
    obtain ⟨k1, k2⟩ := kinds_sum tys
    rw [k1] at h1 h2
    rw [k2] at h1 h2 b2
    omega

/-! ### Geometry -/

section
variable {K : Type} [Field K] [LinearOrder K] [IsStrictOrderedRing K]

/-- the types promise what the order of the events says -/
theorem classify_order {tol : K} (htol : 0 ≤ tol) (p h x : P2 K) :
    ((classify tol p h x = .start ∨ classify tol p h x = .split) → p.y < h.y ∧ x.y < h.y) ∧
    (classify tol p h x = .regular → (p.y < h.y ∧ h.y < x.y) ∨ (x.y < h.y ∧ h.y < p.y)) := by
  constructor
  · intro hh
    by_cases a1 : h.y - p.y > tol <;> by_cases a2 : h.y - x.y > tol
    · exact ⟨by linarith, by linarith⟩
    all_goals
      exfalso
      simp only [classify, a1, a2, decide_true, decide_false, Bool.true_and, Bool.false_and, Bool.and_false, Bool.false_or] at hh
      revert hh
      generalize ((h - p).perpDot (x - h)) = cr
      by_cases a5 : cr ≤ tol <;> by_cases a6 : -cr ≤ tol
      · rw [if_neg (show ¬cr > tol from not_lt.mpr a5), if_neg (show ¬cr < -tol from not_lt.mpr (by linarith))]
        (repeat' split) <;> simp
      all_goals
        simp only [a5, a6, decide_false, decide_true, Bool.and_false, Bool.false_eq_true, if_false, Bool.false_and]
        (repeat' split) <;> simp
  · intro hh
    by_cases a1 : h.y - p.y > tol <;> by_cases a2 : h.y - x.y > tol <;> by_cases a3 : p.y - h.y > tol <;> by_cases a4 : x.y - h.y > tol
    all_goals first
      | (exfalso; linarith)
      | exact .inl ⟨by linarith, by linarith⟩
      | exact .inr ⟨by linarith, by linarith⟩
      | (exfalso
         simp only [classify, a1, a2, a3, a4, decide_true, decide_false, Bool.true_and, Bool.false_and, Bool.and_false, Bool.false_or, Bool.true_or, Bool.not_true, Bool.not_false, Bool.and_true,
           Bool.or_true, if_true, Bool.false_eq_true, if_false] at hh
         revert hh
         (repeat' split) <;> simp)

open GeomProps (posOf)

/-- a queue of the events of the polygon, sorted from top to bottom and from right to left; events at the same position in any order -/
structure SortedQueue (tol : K) (ps : List (P2 K)) (evs : List Event) : Prop where
  perm : ∃ es, (List.range ps.length).mapM (eventAt tol ps) = some es ∧ evs.Perm es
  sorted : evs.Pairwise fun a b => eventLe (posOf ps a.here) (posOf ps b.here) = true

theorem mapM_map {A B C : Type} {f : A → Option B} {g : B → C} {h : A → C} (hg : ∀ a b, f a = some b → g b = h a) : ∀ (l : List A) (m : List B), l.mapM f = some m → m.map g = l.map h := by
  intro l
  induction l with
  | nil => intro m hm; simp at hm; subst hm; rfl
  | cons a l ih =>
    intro m hm
    rw [List.mapM_cons] at hm
    simp only [Option.bind_eq_bind, Option.bind_eq_some_iff] at hm
    obtain ⟨b, hb, bs, hbs, hm⟩ := hm
    simp at hm; subst hm
    rw [List.map_cons, List.map_cons, hg a b hb, ih bs hbs]

theorem mapM_mem {A B : Type} {f : A → Option B} : ∀ (l : List A) (m : List B), l.mapM f = some m → ∀ b ∈ m, ∃ a ∈ l, f a = some b := by
  intro l
  induction l with
  | nil => intro m hm; simp at hm; subst hm; simp
  | cons a l ih =>
    intro m hm
    rw [List.mapM_cons] at hm
    simp only [Option.bind_eq_bind, Option.bind_eq_some_iff] at hm
    obtain ⟨b, hb, bs, hbs, hm⟩ := hm
    simp at hm; subst hm
    intro c hc
    rcases List.mem_cons.mp hc with rfl | hc
    · exact ⟨a, by simp, hb⟩
    · obtain ⟨x, h1, h2⟩ := ih bs hbs c hc
      exact ⟨x, by simp [h1], h2⟩

theorem eventAt_here {tol : K} {ps : List (P2 K)} {i : Nat} {e : Event} (h : eventAt tol ps i = some e) : e.here = i ∧ e.prev = (i + ps.length - 1) % ps.length ∧ e.next = (i + 1) % ps.length ∧ i < ps.length ∧
    e.type = classify tol (posOf ps ((i + ps.length - 1) % ps.length)) (posOf ps i) (posOf ps ((i + 1) % ps.length)) := by
  simp only [eventAt, Option.bind_eq_bind, Option.bind_eq_some_iff] at h
  obtain ⟨p, hp, q, hq, r, hr, h⟩ := h
  simp at h; subst h
  exact ⟨rfl, rfl, rfl, (List.getElem?_eq_some_iff.mp hq).1, by simp [posOf, hp, hq, hr]⟩

theorem SortedQueue.events {tol : K} (htol : 0 ≤ tol) {ps : List (P2 K)} {evs : List Event} (h : SortedQueue tol ps evs) :
    evs.length = ps.length ∧ Events ps.length (fun k => (k + 1) % ps.length) (fun k => (k + ps.length - 1) % ps.length) [] evs := by
  obtain ⟨⟨es, h1, h2⟩, h3⟩ := h
  have hmap := mapM_map (g := Event.here) (h := id) (fun a b h => (eventAt_here h).1) _ _ h1
  have hhere : (evs.map Event.here).Perm (List.range ps.length) := by rw [List.map_id] at hmap; rw [← hmap]; exact h2.map _
  refine ⟨by rw [← List.length_map (f := Event.here), hhere.length_eq, List.length_range], ?_⟩
  have hall : ∀ e ∈ evs, eventAt tol ps e.here = some e := by
    intro e he
    obtain ⟨i, -, hi⟩ := mapM_mem _ _ h1 e (h2.mem_iff.mp he)
    rw [(eventAt_here hi).1]; exact hi
  have hnd : (evs.map Event.here).Nodup := hhere.nodup_iff.mpr List.nodup_range
  clear h1 h2 hmap hhere
  have key : ∀ (l : List Event) (dn : List Nat), (∀ e ∈ l, eventAt tol ps e.here = some e) → (l.map Event.here).Nodup → (∀ e ∈ l, e.here ∉ dn) → (∀ d ∈ dn, ∀ e ∈ l, eventLe (posOf ps d) (posOf ps e.here) = true) →
      (l.Pairwise fun a b => eventLe (posOf ps a.here) (posOf ps b.here) = true) → Events ps.length (fun k => (k + 1) % ps.length) (fun k => (k + ps.length - 1) % ps.length) dn l := by
    intro l
    induction l with
    | nil => intros; trivial
    | cons e l ih =>
      intro dn g1 g2 g3 g4 g5
      obtain ⟨-, k2, k3, k4, k5⟩ := eventAt_here (g1 e (by simp))
      rw [List.map_cons, List.nodup_cons] at g2
      rw [List.pairwise_cons] at g5
      refine ⟨k4, g3 e (by simp), k2, k3, ?_, ih _ (fun x hx => g1 x (by simp [hx])) g2.2 ?_ ?_ g5.2⟩
      · have hy : ∀ d ∈ dn, (posOf ps e.here).y ≤ (posOf ps d).y := by
          intro d hd
          have := g4 d hd e (by simp)
          simp only [eventLe, Bool.or_eq_true, Bool.and_eq_true, decide_eq_true_eq] at this
          rcases this with h | h
          · exact h.le
          · exact h.1.ge
        obtain ⟨o1, o2⟩ := classify_order htol (posOf ps ((e.here + ps.length - 1) % ps.length)) (posOf ps e.here) (posOf ps ((e.here + 1) % ps.length))
        rw [← k5] at o1 o2
        cases hty : e.type with
        | start => have := o1 (.inl hty); exact ⟨fun h => absurd (hy _ h) (not_le.mpr this.1), fun h => absurd (hy _ h) (not_le.mpr this.2)⟩
        | split => have := o1 (.inr hty); exact ⟨fun h => absurd (hy _ h) (not_le.mpr this.1), fun h => absurd (hy _ h) (not_le.mpr this.2)⟩
        | regular =>
          rintro ⟨h1, h2⟩
          rcases o2 hty with h | h
          · exact absurd (hy _ h1) (not_le.mpr h.1)
          · exact absurd (hy _ h2) (not_le.mpr h.1)
        | _ => trivial
      · intro x hx hm
        rcases List.mem_cons.mp hm with h | h
        · exact g2.1 (List.mem_map.mpr ⟨x, hx, h⟩)
        · exact g3 x (by simp [hx]) h
      · intro d hd x hx
        rcases List.mem_cons.mp hd with rfl | hd
        · exact g5.1 x hx
        · exact g4 d hd x (by simp [hx])
  exact key evs [] hall hnd (by simp) (by simp) h3

theorem eventLe_total (a b : P2 K) : eventLe a b = true ∨ eventLe b a = true := by
  simp only [eventLe, Bool.or_eq_true, Bool.and_eq_true, decide_eq_true_eq]
  rcases lt_trichotomy a.y b.y with h | h | h
  · exact .inr (.inl h)
  · rcases le_total b.x a.x with h' | h'
    · exact .inl (.inr ⟨h, h'⟩)
    · exact .inr (.inr ⟨h.symm, h'⟩)
  · exact .inl (.inl h)

theorem eventLe_trans {a b c : P2 K} (h1 : eventLe a b = true) (h2 : eventLe b c = true) : eventLe a c = true := by
  simp only [eventLe, Bool.or_eq_true, Bool.and_eq_true, decide_eq_true_eq] at *
  rcases h1 with h1 | ⟨h1, h3⟩ <;> rcases h2 with h2 | ⟨h2, h4⟩
  · exact .inl (h2.trans h1)
  · exact .inl (h2 ▸ h1)
  · exact .inl (h1 ▸ h2)
  · exact .inr ⟨h1.trans h2, h4.trans h3⟩

theorem insEvent_perm (ps : List (P2 K)) (e : Event) : ∀ l, (insEvent ps e l).Perm (e :: l) := by
  intro l
  induction l with
  | nil => exact List.Perm.refl _
  | cons f l ih =>
    rw [insEvent]
    split
    · exact List.Perm.refl _
    · exact (ih.cons f).trans (List.Perm.swap e f l)

theorem insEvent_sorted (ps : List (P2 K)) (e : Event) : ∀ l, (l.Pairwise fun a b => eventLe (posOf ps a.here) (posOf ps b.here) = true) → (insEvent ps e l).Pairwise fun a b => eventLe (posOf ps a.here) (posOf ps b.here) = true := by
  intro l
  induction l with
  | nil => intro _; simp [insEvent]
  | cons f l ih =>
    intro h
    rw [insEvent]
    split
    · rename_i hle
      rw [List.pairwise_cons]
      refine ⟨?_, h⟩
      intro x hx
      rcases List.mem_cons.mp hx with rfl | hx
      · exact hle
      · exact eventLe_trans hle ((List.pairwise_cons.mp h).1 x hx)
    · rename_i hle
      rw [List.pairwise_cons] at h ⊢
      refine ⟨?_, ih h.2⟩
      intro x hx
      rcases List.mem_cons.mp ((insEvent_perm ps e l).mem_iff.mp hx) with rfl | hx
      · exact (eventLe_total _ _).resolve_left hle
      · exact h.1 x hx

theorem eventQueue_sorted {tol : K} {ps : List (P2 K)} {evs : List Event} (h : eventQueue tol ps = some evs) : SortedQueue tol ps evs := by
  simp only [eventQueue, Option.bind_eq_bind, Option.bind_eq_some_iff] at h
  obtain ⟨es, h1, h2⟩ := h
  simp at h2; subst h2
  have key : ∀ l : List Event, (l.foldr (insEvent ps) []).Perm l ∧ (l.foldr (insEvent ps) []).Pairwise fun a b => eventLe (posOf ps a.here) (posOf ps b.here) = true := by
    intro l
    induction l with
    | nil => exact ⟨List.Perm.refl _, List.Pairwise.nil⟩
    | cons e l ih => exact ⟨(insEvent_perm ps e _).trans (ih.1.cons e), insEvent_sorted ps e _ ih.2⟩
  exact ⟨⟨es, h1, (key es).1⟩, (key es).2⟩
end
end Verif.Geom

namespace Verif.GeomProps
open Geom Triangulation
variable {K : Type} [Field K] [LinearOrder K] [IsStrictOrderedRing K]

/-! ### C44 -/

/-- C44 for histories that insert no interval under a key in use: both lookups agree, the number of intervals is the number of insertions less the number of successful removals,
and a removed interval is found by neither key. -/
theorem c44_status_partial {C : Type} {n : Nat} (hn : n ≤ maxIx) (ops : List (StatusOp C)) (s : Status C) (m : Int) (hf : Status.FreshOps ops (.new n)) (h : Status.runOps ops (.new n) 0 = some (s, m)) :
    s.LookupsAgree ∧ (s.left.countP Option.isSome : Int) = m ∧
    (∀ k iv s', s.removeLeft k = some (some iv, s') → s.peekLeft k = some (some iv) ∧ s'.peekLeft iv.left.stop = some none ∧ s'.peekRight iv.right.stop = some none) ∧
    (∀ r iv s', s.removeRight r = some (some iv, s') → s.peekRight r = some (some iv) ∧ s'.peekLeft iv.left.stop = some none ∧ s'.peekRight iv.right.stop = some none) := by
  obtain ⟨h1, h2⟩ := Status.run_sync hn ops _ _ _ _ (Status.sync_new n) (Status.total_new n _) hf h
  refine ⟨h1.agree hn, by rw [← Status.total_count, h2], ?_, ?_⟩
  · intro k iv s' hr
    have hrm := Status.removeLeft_some h1 hr
    rw [(h1.left k iv hrm.was).1]
    exact ⟨Status.peekLeft_iff.mpr hrm.was, hrm.unfound hn h1⟩
  · intro r iv s' hr
    obtain ⟨k, rfl, hrm⟩ := Status.removeRight_some h1 hr
    rw [(h1.left k iv hrm.was).1]
    exact ⟨h1.peekRight hn hrm.was, hrm.unfound hn h1⟩

/-- C44 as stated fails: inserting a second interval with the same left key leaves the right key of the first one pointing to the second one. -/
theorem c44_collision : ∃ s : Status Unit, Status.runOps [.insert ⟨0, ⟨0, 1⟩, ⟨0, 2⟩, (), none⟩, .insert ⟨3, ⟨3, 1⟩, ⟨3, 0⟩, (), none⟩] (.new 4) 0 = some (s, 2) ∧
    s.peekRight 2 = some (some ⟨3, ⟨3, 1⟩, ⟨3, 0⟩, (), none⟩) ∧ s.left.countP Option.isSome = 1 ∧ ¬s.LookupsAgree := by
  refine ⟨⟨[none, some ⟨3, ⟨3, 1⟩, ⟨3, 0⟩, (), none⟩, none, none], [1, maxIx, 1, maxIx]⟩, rfl, rfl, rfl, ?_⟩
  intro h
  have := (h.2 2 ⟨3, ⟨3, 1⟩, ⟨3, 0⟩, (), none⟩ rfl).1
  simp at this

/-- C44: the sweep never inserts under a key in use, so the lookups agree after every number of events, for every polygon, triangulator and search. -/
theorem c44_sweep {M : MonoTri} {ids : List Nat} (L : Lawful M ids) {dbg : Bool} {find : Find M.C} {tol : K} (htol : 0 ≤ tol) {ps : List (P2 K)} (h3 : 3 ≤ ps.length) (hn : ps.length ≤ maxIx) {evs pre post : List Event}
    (hq : SortedQueue tol ps evs) (hsplit : evs = pre ++ post) {t : Triangulation} {q : Ctx M.C} {tys : List VType} (h : sweepLoop dbg M find pre ⟨.new ps.length, t⟩ = some (q, tys)) : q.sls.LookupsAgree := by
  obtain ⟨-, hev⟩ := hq.events htol
  subst hsplit
  have hpre : ∀ (pre post : List Event) (dn : List Nat) (nx pv : Nat → Nat), Events ps.length nx pv dn (pre ++ post) → Events ps.length nx pv dn pre := by
    intro pre
    induction pre with
    | nil => intros; trivial
    | cons e pre ih => intro post dn nx pv h; exact ⟨h.1, h.2.1, h.2.2.1, h.2.2.2.1, h.2.2.2.2.1, ih post _ nx pv h.2.2.2.2.2⟩
  have hI := step_loop (L := L) (t0 := t) (cycle_mod h3) hn pre [] _ _ 0 tys (hpre _ _ _ _ _ hev) (inv_new t) h
  exact hI.sync.agree hn

/-! ### C53 -/

/-- C53: every sweep that ends without a panic, for every lawful triangulator, every search for intervals and every order of events at the same position: no interval is left, the sides of the triangles and the
reversed boundary cancel, the signed areas add up to the area of the polygon, and with one start more than merges there are n-2 triangles, which form a triangulation of the polygon. -/
theorem c53_sweep_partial {M : MonoTri} {ids : List Nat} (L : Lawful M ids) {dbg : Bool} {find : Find M.C} {tol : K} (htol : 0 ≤ tol) {ps : List (P2 K)} (hids : ids.length = ps.length) (hn : ps.length ≤ maxIx)
    {evs : List Event} (hq : SortedQueue tol ps evs) {t : Triangulation} {q : Ctx M.C} {tys : List VType} (h : sweep dbg M find evs t = some (q, tys)) :
    q.sls.left.countP Option.isSome = 0 ∧ ∃ ts, Emits t q.tri ids ts ∧ Cancels (ts.flatMap triSides ++ (sides (List.range ps.length)).map Prod.swap) ∧
      (ts.map fun x => tri2 (posOf ps x.1) (posOf ps x.2.1) (posOf ps x.2.2)).sum = area2 ps ∧
      ts.length + 2 * tys.countP isStart = ps.length + 2 * tys.countP isMerge ∧
      (tys.countP isStart = tys.countP isMerge + 1 → ts.length = ps.length - 2 ∧ IsTriangulation ps.length ts) := by
  obtain ⟨hlen, hev⟩ := hq.events htol
  simp only [sweep] at h
  split at h
  · simp at h
  rename_i h3
  rw [hlen] at h3
  have h3 : 3 ≤ ps.length := by omega
  simp only [Option.bind_eq_bind, Option.bind_eq_some_iff] at h
  obtain ⟨vt, -, lt, -, h⟩ := h
  split at h
  · simp at h
  split at h
  · simp at h
  rw [hlen] at h
  obtain ⟨hnone, ts, e1, e2, e3⟩ := sweep_result L h3 hn hlen hev h
  refine ⟨?_, ts, e1, e2, ?_, e3, ?_⟩
  · have := Status.total_count q.sls
    rw [total_zero hnone] at this
    omega
  · have := sum_cancels (R := K) (by intro x hx; linarith) (fun p => cross (posOf ps p.1) (posOf ps p.2)) (fun p => cross_swap _ _) e2
    rw [List.map_append, List.sum_append, sum_triSides, sum_swap (fun p => cross (posOf ps p.1) (posOf ps p.2)) (fun p => cross_swap _ _), add_neg_eq_zero] at this
    simp only [tri2_eq_cross]
    rw [this]
    conv => rhs; rw [← map_posOf ps]
    rw [area2_eq_sides, sides_map, List.map_map]
    rfl
  · intro hs
    have : ts.length + 2 = ps.length := by omega
    refine ⟨by omega, isTriangulation_of_count h3 ?_ e2 this⟩
    have := emits_lt e1
    rw [hids] at this
    exact this

/-- C53 for `sweep_line_triangulation` with the linear triangulator on polygons with at most 8 vertices. -/
theorem c53_linear_partial (σ : Sgn K) {tol eps : K} (htol : 0 ≤ tol) {dbg : Bool} {ps : List (P2 K)} {ids : List Nat} (hids : ids.length = ps.length) (hn : ps.length ≤ maxIx) {t t' : Triangulation} {tys : List VType}
    (h : sweepLinear σ tol eps dbg ps ids t = some (t', tys)) : ∃ ts, Emits t t' ids ts ∧
      (ts.map fun x => tri2 (posOf ps x.1) (posOf ps x.2.1) (posOf ps x.2.2)).sum = area2 ps ∧ ts.length + 2 * tys.countP isStart = ps.length + 2 * tys.countP isMerge ∧
      (tys.countP isStart = tys.countP isMerge + 1 → ts.length = ps.length - 2 ∧ IsTriangulation ps.length ts) := by
  simp only [sweepLinear, Option.bind_eq_bind, Option.bind_eq_some_iff] at h
  obtain ⟨es, h1, ⟨q, tys'⟩, h2, h3⟩ := h
  simp at h3
  obtain ⟨rfl, rfl⟩ := h3
  obtain ⟨-, ts, e1, -, e3, e4, e5⟩ := c53_sweep_partial (linearLawful _ _ ids) htol hids hn (eventQueue_sorted h1) h2
  exact ⟨ts, e1, e3, e4, e5⟩

/-- a simple polygon with two starts and one merge: three triangles -/
example : sweepLinear (strict ℚ) 0 0 true [⟨0, 0⟩, ⟨4, 1⟩, ⟨5, 5⟩, ⟨2, 2⟩, ⟨1, 6⟩] [0, 1, 2, 3, 4] (.new []) =
    some (⟨[2, 3, 1, 4, 0, 3, 3, 0, 1], 0⟩, [.start, .start, .merge, .regular, .end]) := by decide +kernel

/-- a simple polygon with a split -/
example : sweepLinear (strict ℚ) 0 0 true [⟨0, 10⟩, ⟨-5, 4⟩, ⟨-4, 0⟩, ⟨0, 5⟩, ⟨5, 1⟩] [0, 1, 2, 3, 4] (.new []) =
    some (⟨[0, 1, 3, 3, 4, 0, 1, 2, 3], 0⟩, [.start, .split, .regular, .end, .end]) := by decide +kernel

/-- the pentagon (0,10), (-5,8), (-4,0), (0,5), (5,1) -/
def leftThenSplit : List (P2 ℚ) := [⟨0, 10⟩, ⟨-5, 8⟩, ⟨-4, 0⟩, ⟨0, 5⟩, ⟨5, 1⟩]

/-- The sweep panics for a simple polygon: after the left vertex (-5,8), the chain at the split vertex (0,5) has no right vertex, and `last_opposite` unwraps `None` (monotone/linear.rs:215-222).
The pentagon has positive area, one split, no merge and one start, in exact arithmetic; the behaviour is the same in debug and release builds. -/
theorem c53_panics : (∀ dbg, sweepLinear (strict ℚ) 0 0 dbg leftThenSplit [0, 1, 2, 3, 4] (.new []) = none) ∧
    (eventQueue 0 leftThenSplit).map (·.map Event.type) = some [.start, .regular, .split, .end, .end] ∧ 0 < area2 leftThenSplit := by
  refine ⟨fun dbg => by cases dbg <;> decide +kernel, by decide +kernel, by decide +kernel⟩

/-- A regular left vertex followed by a split in the same interval panics, for every polygon: the chain with the vertices `a`, `b` added to the left has no opposite vertex. -/
theorem c53_no_opposite (angPos angNeg : Nat → Nat → Nat → Bool) (ids : List Nat) (a : Nat) (l : List (Bool × Nat)) (hl : ∀ x ∈ l, x.1 = true) (hne : l ≠ []) (t t' : Triangulation) (c : LChain)
    (h : feed (linear angPos angNeg ids) l ((linear angPos angNeg ids).new a) t = some (c, t')) : (linear angPos angNeg ids).lastOpposite c = none := by
  have key : ∀ (l : List (Bool × Nat)) (c : LChain) (t : Triangulation) (c' : LChain) (t' : Triangulation), (∀ x ∈ l, x.1 = true) → c.Good → c.lastRight = none → (l = [] → c.d = .left) → (c.d = .left ∨ c.d = .none) →
      feed (linear angPos angNeg ids) l c t = some (c', t') → c'.lastRight = none ∧ c'.d = .left := by
    intro l
    induction l with
    | nil => intro c t c' t' _ _ hr hd _ h; simp [feed] at h; obtain ⟨rfl, -⟩ := h; exact ⟨hr, hd rfl⟩
    | cons x l ih =>
      intro c t c' t' hl hg hr _ _ h
      obtain ⟨b, v⟩ := x
      have hb : b = true := hl (b, v) (by simp)
      subst hb
      simp only [feed, Option.bind_eq_bind] at h
      obtain ⟨⟨c1, t1⟩, h1, h2⟩ := Option.bind_eq_some_iff.mp h
      obtain ⟨k1, -, k2, -, k3, -⟩ := LChain.add_law angPos angNeg ids v (c := { c with lastLeft := some v }) (by simp) ⟨hg.one, hg.two⟩ h1
      exact ih c1 t1 c' t' (fun x hx => hl x (by simp [hx])) ⟨fun h => by rw [k1] at h; simp at h, fun _ => k3⟩ (k2.trans hr) (fun _ => k1) (.inl k1) h2
  obtain ⟨h1, h2⟩ := key l ⟨[a], .none, some a, none⟩ t c t' hl ⟨by simp, by simp⟩ rfl (fun h => absurd h hne) (.inr rfl) h
  simp [linear, LChain.lastOpposite, h1, h2]

end Verif.GeomProps
