import Verif.Model.BTree
import Verif.Props.Orders
/-
C124: the search in the b-tree of the sweep line status.
-/
namespace Verif.GeomProps
open Geom
variable {K C : Type} [Field K] [LinearOrder K] [IsStrictOrderedRing K]

/-- the interval `iv` lies between `l` and `r` at the height of the sweep line; its left edge `s` descends through this height -/
structure CutAt (ps : List (P2 K)) (y : K) (iv : Interval C) (s : Sorter K) (l r : K) : Prop where
  start : ps[iv.left.start]? = some s.start
  stop : ps[iv.left.stop]? = some s.stop
  key : s.left = iv.left.stop
  descends : s.stop.y < s.start.y
  spans : Sorter.Spans s y
  left : Sorter.Has s ⟨l, y⟩
  right : iv.right.xAtY ps y = some r
  le : l ≤ r

/-- the intervals of a status at some height of the sweep line: each is stored under the end of its left edge, the left edges have no common point, and the intervals are disjoint -/
structure IntervalsApart (ps : List (P2 K)) (y : K) (left : List (Option (Interval C))) : Prop where
  cut : ∀ k iv, left[k]? = some (some iv) → iv.left.stop = k ∧ ∃ s l r, CutAt ps y iv s l r
  edges : ∀ (k k' : Nat) (iv iv' : Interval C) s s' l l' r r', k ≠ k' → left[k]? = some (some iv) → left[k']? = some (some iv') → CutAt ps y iv s l r → CutAt ps y iv' s' l' r' → (∀ p, ¬ (Sorter.Has s p ∧ Sorter.Has s' p)) ∧ (r < l' ∨ r' < l)

/-- the elements are in order at the height `y` -/
def InOrder (y : K) (t : List (Sorter K)) : Prop := t.Pairwise fun a b => b.xAtY y < a.xAtY y

/-- the tree contains the left edges of the intervals, in order -/
structure TreeOf (ps : List (P2 K)) (y : K) (left : List (Option (Interval C))) (t : List (Sorter K)) : Prop where
  order : InOrder y t
  mem : ∀ e, e ∈ t ↔ ∃ (k : Nat) (iv : Interval C), left[k]? = some (some iv) ∧ Sorter.ofInterval ps iv = some e

section
variable {ps : List (P2 K)} {y : K}

theorem CutAt.x {iv : Interval C} {s : Sorter K} {l r : K} (h : CutAt ps y iv s l r) : l = s.xAtY y := ((c123_x_at_y s).1 h.descends y h.spans l).1 h.left

theorem CutAt.of {iv : Interval C} {s : Sorter K} {l r : K} (h : CutAt ps y iv s l r) : Sorter.ofInterval ps iv = some s := by
  obtain ⟨a, b, c⟩ := s
  have h3 := h.key
  simp only at h3
  simp [Sorter.ofInterval, h.start, h.stop, Sorter.new, h3, h.descends.le]

theorem CutAt.edge {iv : Interval C} {s : Sorter K} {l r : K} (h : CutAt ps y iv s l r) : iv.left.xAtY ps y = some l := by
  rw [h.x]
  simp [BEdge.xAtY, h.start, h.stop, Sorter.xAtY]

theorem CutAt.contains {iv : Interval C} {s : Sorter K} {l r : K} {x : K} (h : CutAt ps y iv s l r) : iv.contains ps ⟨x, y⟩ = some (decide (l ≤ x ∧ x ≤ r)) := by
  simp only [Interval.contains, h.edge, h.right, Option.bind_eq_bind, Option.bind_some, h.le, if_true]
  by_cases hx : x < l
  · simp [hx]
  · simp [hx, not_lt.1 hx]

theorem insert_order {s : Sorter K} : ∀ {t : List (Sorter K)}, (∀ e ∈ t, s.cmp e = compare (e.xAtY y) (s.xAtY y) ∧ e.xAtY y ≠ s.xAtY y) → InOrder y t →
    InOrder y (treeInsert s t).1 ∧ (treeInsert s t).2 = true ∧ ∀ e, e ∈ (treeInsert s t).1 ↔ e = s ∨ e ∈ t
  | [], _, _ => ⟨List.pairwise_singleton _ _, rfl, fun e => by simp [treeInsert]⟩
  | t :: l, h, ho => by
    obtain ⟨h1, h2⟩ := h t (List.mem_cons_self ..)
    obtain ⟨o1, o2⟩ := List.pairwise_cons.1 ho
    rcases lt_or_gt_of_ne h2 with hl | hl
    · have e1 : s.cmp t = .lt := by rw [h1, compare_lt_iff_lt.2 hl]
      simp only [treeInsert, e1]
      refine ⟨List.pairwise_cons.2 ⟨?_, ho⟩, trivial, fun e => by simp⟩
      intro e he
      rcases List.mem_cons.1 he with rfl | he
      · exact hl
      · exact (o1 e he).trans hl
    · have e1 : s.cmp t = .gt := by rw [h1, compare_gt_iff_gt.2 hl]
      obtain ⟨a, b, c⟩ := insert_order (fun e he => h e (List.mem_cons_of_mem _ he)) o2
      simp only [treeInsert, e1]
      refine ⟨List.pairwise_cons.2 ⟨?_, a⟩, b, fun e => ?_⟩
      · intro e he
        rcases (c e).1 he with rfl | he
        · exact hl
        · exact o1 e he
      · simp only [List.mem_cons, c]
        tauto

theorem remove_order {s : Sorter K} : ∀ {t : List (Sorter K)}, (∀ e ∈ t, s.cmp e = compare (e.xAtY y) (s.xAtY y)) → InOrder y t → s ∈ t →
    InOrder y (treeRemove s t).1 ∧ (treeRemove s t).2 = true ∧ ∀ e, e ∈ (treeRemove s t).1 ↔ e ∈ t ∧ e.xAtY y ≠ s.xAtY y
  | [], _, _, hm => by simp at hm
  | t :: l, h, ho, hm => by
    have h1 := h t (List.mem_cons_self ..)
    obtain ⟨o1, o2⟩ := List.pairwise_cons.1 ho
    rcases List.mem_cons.1 hm with rfl | hm'
    · have e1 : s.cmp s = .eq := by rw [h1, compare_eq_iff_eq.2 rfl]
      simp only [treeRemove, e1]
      refine ⟨o2, trivial, fun e => ⟨fun he => ⟨List.mem_cons_of_mem _ he, (o1 e he).ne⟩, ?_⟩⟩
      rintro ⟨he, hne⟩
      rcases List.mem_cons.1 he with rfl | he
      · exact absurd rfl hne
      · exact he
    · have hl := o1 s hm'
      have e1 : s.cmp t = .gt := by rw [h1, compare_gt_iff_gt.2 hl]
      obtain ⟨a, b, c⟩ := remove_order (fun e he => h e (List.mem_cons_of_mem _ he)) o2 hm'
      simp only [treeRemove, e1]
      refine ⟨List.pairwise_cons.2 ⟨fun e he => o1 e ((c e).1 he).1, a⟩, b, fun e => ?_⟩
      simp only [List.mem_cons, c]
      constructor
      · rintro (rfl | ⟨h5, h6⟩)
        · exact ⟨Or.inl rfl, hl.ne'⟩
        · exact ⟨Or.inr h5, h6⟩
      · rintro ⟨rfl | h5, h6⟩
        · exact Or.inl rfl
        · exact Or.inr ⟨h5, h6⟩

/-- left edges without a common point are compared at the height of the sweep line -/
theorem cmp_at {a b : Sorter K} (ha : a.stop.y < a.start.y) (hb : b.stop.y < b.start.y) (sa : Sorter.Spans a y) (sb : Sorter.Spans b y) (h : ∀ p, ¬ (Sorter.Has a p ∧ Sorter.Has b p)) :
    a.cmp b = compare (b.xAtY y) (a.xAtY y) ∧ b.xAtY y ≠ a.xAtY y := by
  refine ⟨?_, fun e => h ⟨a.xAtY y, y⟩ ⟨((c123_x_at_y a).1 ha y sa _).2 rfl, ((c123_x_at_y b).1 hb y sb _).2 e.symm⟩⟩
  have hm : y ≤ min b.start.y a.start.y := le_min sb.2 sa.2
  exact c123_disjoint ha hb h _ _ ⟨sa.1.trans hm, min_le_right _ _⟩ ⟨sb.1.trans hm, min_le_left _ _⟩ sa sb

theorem treeFrom_ok : ∀ {l : List (Option (Interval C))} {t : List (Sorter K)}, (∀ iv, some iv ∈ l → ∃ s, Sorter.ofInterval ps iv = some s) →
    l.Pairwise (fun o o' => ∀ iv iv' s s', o = some iv → o' = some iv' → Sorter.ofInterval ps iv = some s → Sorter.ofInterval ps iv' = some s' → s'.cmp s = compare (s.xAtY y) (s'.xAtY y) ∧ s.xAtY y ≠ s'.xAtY y) →
    (∀ e ∈ t, ∀ iv s, some iv ∈ l → Sorter.ofInterval ps iv = some s → s.cmp e = compare (e.xAtY y) (s.xAtY y) ∧ e.xAtY y ≠ s.xAtY y) → InOrder y t →
    ∃ t', treeFrom ps t l = some t' ∧ InOrder y t' ∧ ∀ e, e ∈ t' ↔ e ∈ t ∨ ∃ iv, some iv ∈ l ∧ Sorter.ofInterval ps iv = some e
  | [], t, _, _, _, ho => ⟨t, rfl, ho, fun e => by simp⟩
  | none :: l, t, h1, h2, h3, ho => by
    obtain ⟨t', a, b, c⟩ := treeFrom_ok (l := l) (t := t) (fun iv hi => h1 iv (List.mem_cons_of_mem _ hi)) (List.pairwise_cons.1 h2).2 (fun e he iv s hi => h3 e he iv s (List.mem_cons_of_mem _ hi)) ho
    exact ⟨t', a, b, fun e => by simp [c]⟩
  | some iv :: l, t, h1, h2, h3, ho => by
    obtain ⟨s, hs⟩ := h1 iv (List.mem_cons_self ..)
    obtain ⟨p1, p2⟩ := List.pairwise_cons.1 h2
    obtain ⟨i1, _, i3⟩ := insert_order (y := y) (s := s) (fun e he => h3 e he iv s (List.mem_cons_self ..) hs) ho
    obtain ⟨t', a, b, c⟩ := treeFrom_ok (l := l) (t := (treeInsert s t).1) (fun iv hi => h1 iv (List.mem_cons_of_mem _ hi)) p2 (by
      intro e he iv' s' hi hs'
      rcases (i3 e).1 he with rfl | he
      · exact p1 _ hi iv iv' _ _ rfl rfl hs hs'
      · exact h3 e he iv' s' (List.mem_cons_of_mem _ hi) hs') i1
    refine ⟨t', by simp [treeFrom, hs, a], b, fun e => ?_⟩
    rw [c, i3]
    simp only [List.mem_cons, Option.some.injEq]
    constructor
    · rintro ((rfl | he) | ⟨iv', hi, he⟩)
      · exact Or.inr ⟨iv, Or.inl rfl, hs⟩
      · exact Or.inl he
      · exact Or.inr ⟨iv', Or.inr hi, he⟩
    · rintro (he | ⟨iv', rfl | hi, he⟩)
      · exact Or.inl (Or.inr he)
      · rw [hs] at he
        exact Or.inl (Or.inl (Option.some.inj he).symm)
      · exact Or.inr ⟨iv', hi, he⟩

theorem findFrom_ok {pos : P2 K} : ∀ {l : List (Option (Interval C))} {n : Nat}, (∀ iv, some iv ∈ l → ∃ b, iv.contains ps pos = some b) →
    (findFrom ps pos n l = some none ∧ ∀ iv, some iv ∈ l → iv.contains ps pos = some false) ∨ ∃ j iv, findFrom ps pos n l = some (some (n + j)) ∧ l[j]? = some (some iv) ∧ iv.contains ps pos = some true
  | [], n, _ => Or.inl ⟨rfl, fun iv h => by simp at h⟩
  | none :: l, n, h => by
    rcases findFrom_ok (l := l) (n := n + 1) (fun iv hi => h iv (List.mem_cons_of_mem _ hi)) with ⟨a, b⟩ | ⟨j, iv, a, b, c⟩
    · exact Or.inl ⟨a, fun iv hi => b iv (by simpa using hi)⟩
    · exact Or.inr ⟨j + 1, iv, by rw [findFrom, a, Nat.add_right_comm, Nat.add_assoc], by simpa using b, c⟩
  | some iv :: l, n, h => by
    obtain ⟨b, hb⟩ := h iv (List.mem_cons_self ..)
    cases b with
    | true => exact Or.inr ⟨0, iv, by simp [findFrom, hb], rfl, hb⟩
    | false =>
      have e : findFrom ps pos n (some iv :: l) = findFrom ps pos (n + 1) l := by simp [findFrom, hb]
      rcases findFrom_ok (l := l) (n := n + 1) (fun iv hi => h iv (List.mem_cons_of_mem _ hi)) with ⟨a, b⟩ | ⟨j, iv', a, b, c⟩
      · refine Or.inl ⟨e.trans a, fun iv' hi => ?_⟩
        rcases List.mem_cons.1 hi with hi | hi
        · cases hi; exact hb
        · exact b iv' hi
      · exact Or.inr ⟨j + 1, iv', by rw [e, a, Nat.add_right_comm, Nat.add_assoc], by simpa using b, c⟩

/-- C124: init_btree collects all left edges, in order. -/
theorem c124_init {left : List (Option (Interval C))} (h : IntervalsApart ps y left) : ∃ t, treeFrom ps [] left = some t ∧ TreeOf ps y left t := by
  obtain ⟨t, a, b, c⟩ := treeFrom_ok (ps := ps) (y := y) (l := left) (t := []) (by
    intro iv hi
    obtain ⟨k, hk⟩ := List.mem_iff_getElem?.1 hi
    obtain ⟨_, s, l, r, hc⟩ := h.cut k iv hk
    exact ⟨s, hc.of⟩) (by
    rw [List.pairwise_iff_getElem]
    intro i j hi hj hij iv iv' s s' e e' hs hs'
    have e := (List.getElem?_eq_getElem hi).trans (congrArg some e)
    have e' := (List.getElem?_eq_getElem hj).trans (congrArg some e')
    obtain ⟨_, a, l, r, hc⟩ := h.cut i iv e
    obtain ⟨_, a', l', r', hc'⟩ := h.cut j iv' e'
    obtain rfl : a = s := Option.some.inj (hc.of.symm.trans hs)
    obtain rfl : a' = s' := Option.some.inj (hc'.of.symm.trans hs')
    exact cmp_at hc'.descends hc.descends hc'.spans hc.spans (h.edges j i iv' iv _ _ _ _ _ _ hij.ne' e' e hc' hc).1) (fun e he => by simp at he) List.Pairwise.nil
  refine ⟨t, a, b, fun e => ?_⟩
  rw [c]
  simp only [List.not_mem_nil, false_or]
  constructor
  · rintro ⟨iv, hi, he⟩
    obtain ⟨k, hk⟩ := List.mem_iff_getElem?.1 hi
    exact ⟨k, iv, hk, he⟩
  · rintro ⟨k, iv, hk, he⟩
    exact ⟨iv, List.mem_iff_getElem?.2 ⟨k, hk⟩, he⟩

theorem cmp_query {e : Sorter K} {x : K} (h : Sorter.Spans e y) : e.cmp ⟨maxIx, ⟨x, y⟩, ⟨x, y⟩⟩ = compare x (e.xAtY y) := by
  simp only [Sorter.cmp, min_eq_left h.2]
  simp [Sorter.xAtY]

/-- the first element of a list in order whose left edge is not to the right of `x` -/
theorem next_ok {x : K} {t : List (Sorter K)} (ho : InOrder y t) (hs : ∀ e ∈ t, Sorter.Spans e y) :
    (treeNext ⟨maxIx, ⟨x, y⟩, ⟨x, y⟩⟩ t = none ∧ ∀ e ∈ t, x < e.xAtY y) ∨
    ∃ e ∈ t, treeNext ⟨maxIx, ⟨x, y⟩, ⟨x, y⟩⟩ t = some e ∧ e.xAtY y ≤ x ∧ ∀ e' ∈ t, e'.xAtY y ≤ x → e'.xAtY y ≤ e.xAtY y := by
  induction t with
  | nil => exact Or.inl ⟨rfl, fun e he => by simp at he⟩
  | cons a t ih =>
    obtain ⟨o1, o2⟩ := List.pairwise_cons.1 ho
    have hq := cmp_query (x := x) (hs a (List.mem_cons_self ..))
    by_cases hx : x < a.xAtY y
    · have e : treeNext ⟨maxIx, ⟨x, y⟩, ⟨x, y⟩⟩ (a :: t) = treeNext ⟨maxIx, ⟨x, y⟩, ⟨x, y⟩⟩ t := by
        simp [treeNext, hq, compare_lt_iff_lt.2 hx]
      rw [e]
      rcases ih o2 (fun e he => hs e (List.mem_cons_of_mem _ he)) with ⟨a1, a2⟩ | ⟨e, a1, a2, a3, a4⟩
      · refine Or.inl ⟨a1, fun e he => ?_⟩
        rcases List.mem_cons.1 he with rfl | he
        · exact hx
        · exact a2 e he
      · refine Or.inr ⟨e, List.mem_cons_of_mem _ a1, a2, a3, fun e' he => ?_⟩
        rcases List.mem_cons.1 he with rfl | he
        · exact fun h => absurd hx (not_lt.2 h)
        · exact a4 e' he
    · have hn : compare x (a.xAtY y) ≠ .lt := fun h => hx (compare_lt_iff_lt.1 h)
      refine Or.inr ⟨a, List.mem_cons_self .., by simp [treeNext, hq, hn], not_lt.1 hx, fun e' he _ => ?_⟩
      rcases List.mem_cons.1 he with rfl | he
      · exact le_rfl
      · exact (o1 e' he).le

theorem sane_ok : ∀ {t : List (Sorter K)}, InOrder y t → (∀ e ∈ t, Sorter.Spans e y ∧ e.stop.y < e.start.y) → treeSane y t = true
  | [], _, _ => rfl
  | [_], _, _ => rfl
  | l :: s :: t, ho, h => by
    obtain ⟨o1, o2⟩ := List.pairwise_cons.1 ho
    obtain ⟨⟨hl, _⟩, hd⟩ := h l (List.mem_cons_self ..)
    have hs := (h s (by simp)).1
    have e : Sorter.xAtY (⟨l.left, ⟨l.xAtY y, y⟩, l.stop⟩ : Sorter K) y = l.xAtY y := by
      by_cases hy : l.stop.y - y = 0
      · have hy' : y = l.stop.y := (sub_eq_zero.1 hy).symm
        have hn : l.stop.y - l.start.y ≠ 0 := (sub_neg.2 hd).ne
        simp only [Sorter.xAtY, hy, if_true, hn, if_false]
        rw [hy']
        field_simp
        ring
      · conv_lhs => rw [Sorter.xAtY]
        simp [hy]
    have c : Sorter.cmp (⟨l.left, ⟨l.xAtY y, y⟩, l.stop⟩ : Sorter K) s = .lt := by
      simp only [Sorter.cmp, min_eq_right hs.2, e]
      exact compare_lt_iff_lt.2 (o1 s (List.mem_cons_self ..))
    simp only [treeSane, Sorter.new, ge_iff_le, hl, if_true, c]
    simpa using sane_ok o2 fun e he => h e (List.mem_cons_of_mem _ he)

theorem tree_cut {left : List (Option (Interval C))} {t : List (Sorter K)} (h : IntervalsApart ps y left) (ht : TreeOf ps y left t) {e : Sorter K} (he : e ∈ t) :
    ∃ iv l r, left[e.left]? = some (some iv) ∧ CutAt ps y iv e l r := by
  obtain ⟨k, iv, hk, ho⟩ := (ht.mem e).1 he
  obtain ⟨h1, s, l, r, hc⟩ := h.cut k iv hk
  obtain rfl : s = e := Option.some.inj (hc.of.symm.trans ho)
  refine ⟨iv, l, r, ?_, hc⟩
  rw [hc.key, h1, hk]

/-- C124: the linear search and the search in the tree find the interval that contains the position, if there is one. Without debug assertions both find nothing otherwise; with them, this only holds if the position is left of all intervals. -/
theorem c124_find_partial {left : List (Option (Interval C))} {t : List (Sorter K)} (dbg : Bool) (x : K) (h : IntervalsApart ps y left) (ht : TreeOf ps y left t) :
    ∃ res, findFrom ps ⟨x, y⟩ 0 left = some res ∧
      (∀ k, res = some k ↔ ∃ iv s l r, left[k]? = some (some iv) ∧ CutAt ps y iv s l r ∧ l ≤ x ∧ x ≤ r) ∧
      ((dbg = false ∨ res ≠ none ∨ ∀ e ∈ t, x < e.xAtY y) → findTree dbg ps ⟨x, y⟩ t left = some res) := by
  have hin : ∀ iv, some iv ∈ left → ∃ (k : Nat) (s : Sorter K) (l r : K), left[k]? = some (some iv) ∧ CutAt ps y iv s l r := by
    intro iv hi
    obtain ⟨k, hk⟩ := List.mem_iff_getElem?.1 hi
    obtain ⟨_, s, l, r, hc⟩ := h.cut k iv hk
    exact ⟨k, s, l, r, hk, hc⟩
  have uniq : ∀ (k k' : Nat) (iv iv' : Interval C) s s' l l' r r', left[k]? = some (some iv) → left[k']? = some (some iv') → CutAt ps y iv s l r → CutAt ps y iv' s' l' r' → l ≤ x → x ≤ r → l' ≤ x → x ≤ r' → k = k' := by
    intro k k' iv iv' s s' l l' r r' a b c d e f g i
    by_contra hn
    rcases (h.edges k k' iv iv' s s' l l' r r' hn a b c d).2 with q | q
    · exact absurd q (not_lt.2 (g.trans f))
    · exact absurd q (not_lt.2 (e.trans i))
  have hsp : ∀ e ∈ t, Sorter.Spans e y ∧ e.stop.y < e.start.y := fun e he => by
    obtain ⟨iv, l, r, _, hc⟩ := tree_cut h ht he
    exact ⟨hc.spans, hc.descends⟩
  have sane := sane_ok ht.order hsp
  have nx := next_ok (x := x) ht.order fun e he => (hsp e he).1
  rcases findFrom_ok (ps := ps) (pos := ⟨x, y⟩) (l := left) (n := 0) (fun iv hi => by
    obtain ⟨k, s, l, r, hk, hc⟩ := hin iv hi
    exact ⟨_, hc.contains⟩) with ⟨a, b⟩ | ⟨k, iv, a, b, c⟩
  · refine ⟨none, a, fun k => ⟨fun hk => (by simp at hk), ?_⟩, fun hcase => ?_⟩
    · rintro ⟨iv, s, l, r, hk, hc, h1, h2⟩
      have := b iv (List.mem_iff_getElem?.2 ⟨k, hk⟩)
      rw [hc.contains] at this
      simp [h1, h2] at this
    · rcases nx with ⟨n1, n2⟩ | ⟨e, n1, n2, n3, n4⟩
      · simp [findTree, sane, n1, a]
      · have hd : dbg = false := by
          rcases hcase with hd | hd | hd
          · exact hd
          · exact absurd rfl hd
          · exact absurd (hd e n1) (not_lt.2 n3)
        obtain ⟨iv, l, r, hk, hc⟩ := tree_cut h ht n1
        have := b iv (List.mem_iff_getElem?.2 ⟨_, hk⟩)
        simp [findTree, hd, n2, hk, this]
  · rw [Nat.zero_add] at a
    obtain ⟨h1, s, l, r, hc⟩ := h.cut k iv b
    rw [hc.contains] at c
    obtain ⟨c1, c2⟩ : l ≤ x ∧ x ≤ r := by simpa using c
    refine ⟨some k, a, fun k' => ⟨fun hk => ?_, ?_⟩, fun _ => ?_⟩
    · cases hk
      exact ⟨iv, s, l, r, b, hc, c1, c2⟩
    · rintro ⟨iv', s', l', r', hk, hc', d1, d2⟩
      exact congrArg some (uniq _ _ _ _ _ _ _ _ _ _ b hk hc hc' c1 c2 d1 d2)
    · have hm : s ∈ t := (ht.mem s).2 ⟨k, iv, b, hc.of⟩
      have hx : s.xAtY y ≤ x := hc.x ▸ c1
      rcases nx with ⟨n1, n2⟩ | ⟨e, n1, n2, n3, n4⟩
      · exact absurd (n2 s hm) (not_lt.2 hx)
      · obtain ⟨iv', l', r', hk, hc'⟩ := tree_cut h ht n1
        have hk' : e.left = k := by
          by_contra hn
          have hle := n4 s hm hx
          rw [← hc.x, ← hc'.x] at hle
          rcases (h.edges _ _ iv' iv _ _ _ _ _ _ hn hk b hc' hc).2 with q | q
          · exact absurd (q.trans_le hle) (not_lt.2 hc'.le)
          · exact absurd (c2.trans_lt q) (not_lt.2 (hc'.x ▸ n3))
        rw [hk', b] at hk
        have hcon : iv.contains ps ⟨x, y⟩ = some true := by rw [hc.contains]; simp [c1, c2]
        simp [findTree, sane, n2, a, hk', b, hcon]

/-- C124: find_by_position without debug assertions, with or without a tree: the interval that contains the position, or nothing. -/
theorem c124_find_by_partial {left : List (Option (Interval C))} {tree : Option (List (Sorter K))} (x : K) (h : IntervalsApart ps y left) (ht : ∀ t, tree = some t → TreeOf ps y left t) :
    ∃ res tree', findBy false ps ⟨x, y⟩ tree left = some (res, tree') ∧ (∀ t, tree' = some t → TreeOf ps y left t) ∧
      ∀ k, res = some k ↔ ∃ iv s l r, left[k]? = some (some iv) ∧ CutAt ps y iv s l r ∧ l ≤ x ∧ x ≤ r := by
  obtain ⟨t0, ht0, hT0⟩ := c124_init h
  cases tree with
  | some t =>
    obtain ⟨res, a, b, c⟩ := c124_find_partial false x h (ht t rfl)
    exact ⟨res, some t, by simp [findBy, c (Or.inl rfl)], ht, b⟩
  | none =>
    obtain ⟨res, a, b, c⟩ := c124_find_partial false x h hT0
    by_cases hl : left.length > 8
    · refine ⟨res, some t0, by simp [findBy, hl, ht0, c (Or.inl rfl)], ?_, b⟩
      rintro t ⟨⟩
      exact hT0
    · exact ⟨res, none, by simp [findBy, hl, a], ht, b⟩

/-- C124: without debug assertions, find_by_position is the linear search that the model of the sweep uses. -/
theorem c124_linear {st : Status C} {tree : Option (List (Sorter K))} {v : Nat} {x : K} (hv : ps[v]? = some ⟨x, y⟩) (h : IntervalsApart ps y st.left) (ht : ∀ t, tree = some t → TreeOf ps y st.left t) :
    (findBy false ps ⟨x, y⟩ tree st.left).map (·.1) = findLinearly ps st v := by
  obtain ⟨t0, ht0, hT0⟩ := c124_init h
  cases tree with
  | some t =>
    obtain ⟨res, a, _, c⟩ := c124_find_partial false x h (ht t rfl)
    simp [findBy, c (Or.inl rfl), findLinearly, hv, a]
  | none =>
    obtain ⟨res, a, _, c⟩ := c124_find_partial false x h hT0
    by_cases hl : st.left.length > 8
    · simp [findBy, hl, ht0, c (Or.inl rfl), findLinearly, hv, a]
    · simp [findBy, hl, findLinearly, hv, a]

/-- C124: the new interval is not in the tree yet, so the assertion in `insert` holds, and the tree is the one of the new status. -/
theorem c124_insert {left : List (Option (Interval C))} {t : List (Sorter K)} {k : Nat} {iv : Interval C} {s : Sorter K} (hk : left[k]? = some none) (hs : Sorter.ofInterval ps iv = some s) (ht : TreeOf ps y left t)
    (h : IntervalsApart ps y (left.set k (some iv))) : (treeInsert s t).2 = true ∧ TreeOf ps y (left.set k (some iv)) (treeInsert s t).1 := by
  have hlt : k < left.length := by
    by_contra hn
    rw [List.getElem?_eq_none (not_lt.1 hn)] at hk
    simp at hk
  have hnew : (left.set k (some iv))[k]? = some (some iv) := by simp [hlt]
  have hold : ∀ (j : Nat) (iv' : Interval C), left[j]? = some (some iv') → j ≠ k ∧ (left.set k (some iv))[j]? = some (some iv') := by
    intro j iv' hj
    have hne : j ≠ k := by
      rintro rfl
      rw [hk] at hj
      simp at hj
    exact ⟨hne, by rw [List.getElem?_set_ne hne.symm, hj]⟩
  obtain ⟨_, s', l, r, hc⟩ := h.cut k iv hnew
  obtain rfl : s' = s := Option.some.inj (hc.of.symm.trans hs)
  obtain ⟨a, b, c⟩ := insert_order (y := y) (s := s') (t := t) (by
    intro e he
    obtain ⟨j, iv', hj, he'⟩ := (ht.mem e).1 he
    obtain ⟨hne, hj'⟩ := hold j iv' hj
    obtain ⟨_, e', l', r', hc'⟩ := h.cut j iv' hj'
    obtain rfl : e' = e := Option.some.inj (hc'.of.symm.trans he')
    exact cmp_at hc.descends hc'.descends hc.spans hc'.spans (h.edges k j iv iv' _ _ _ _ _ _ hne.symm hnew hj' hc hc').1) ht.order
  refine ⟨b, a, fun e => ?_⟩
  rw [c, ht.mem]
  constructor
  · rintro (rfl | ⟨j, iv', hj, he⟩)
    · exact ⟨k, iv, hnew, hs⟩
    · exact ⟨j, iv', (hold j iv' hj).2, he⟩
  · rintro ⟨j, iv', hj, he⟩
    by_cases hjk : j = k
    · subst hjk
      rw [hnew] at hj
      cases hj
      exact Or.inl (Option.some.inj (he.symm.trans hs))
    · rw [List.getElem?_set_ne (Ne.symm hjk)] at hj
      exact Or.inr ⟨j, iv', hj, he⟩

/-- C124: an interval of the status is found in the tree, so the assertion in `remove_left` holds, and the tree is the one of the new status. -/
theorem c124_remove {left : List (Option (Interval C))} {t : List (Sorter K)} {k : Nat} {iv : Interval C} {s : Sorter K} (hk : left[k]? = some (some iv)) (hs : Sorter.ofInterval ps iv = some s) (ht : TreeOf ps y left t)
    (h : IntervalsApart ps y left) : (treeRemove s t).2 = true ∧ TreeOf ps y (left.set k none) (treeRemove s t).1 := by
  obtain ⟨_, s', l, r, hc⟩ := h.cut k iv hk
  obtain rfl : s' = s := Option.some.inj (hc.of.symm.trans hs)
  have other : ∀ (j : Nat) (iv' : Interval C) e, j ≠ k → left[j]? = some (some iv') → Sorter.ofInterval ps iv' = some e → s'.cmp e = compare (e.xAtY y) (s'.xAtY y) ∧ e.xAtY y ≠ s'.xAtY y := by
    intro j iv' e hne hj he
    obtain ⟨_, e', l', r', hc'⟩ := h.cut j iv' hj
    obtain rfl : e' = e := Option.some.inj (hc'.of.symm.trans he)
    exact cmp_at hc.descends hc'.descends hc.spans hc'.spans (h.edges k j iv iv' _ _ _ _ _ _ hne.symm hk hj hc hc').1
  obtain ⟨a, b, c⟩ := remove_order (y := y) (s := s') (t := t) (by
    intro e he
    obtain ⟨j, iv', hj, he'⟩ := (ht.mem e).1 he
    by_cases hjk : j = k
    · subst hjk
      rw [hk] at hj
      cases hj
      obtain rfl : s' = e := Option.some.inj (hs.symm.trans he')
      simp [Sorter.cmp, compare_eq_iff_eq.2]
    · exact (other j iv' e hjk hj he').1) ht.order ((ht.mem s').2 ⟨k, iv, hk, hs⟩)
  refine ⟨b, a, fun e => ?_⟩
  rw [c, ht.mem]
  constructor
  · rintro ⟨⟨j, iv', hj, he⟩, hne⟩
    by_cases hjk : j = k
    · subst hjk
      rw [hk] at hj
      cases hj
      exact absurd (by rw [Option.some.inj (hs.symm.trans he)]) hne
    · exact ⟨j, iv', by rw [List.getElem?_set_ne (Ne.symm hjk), hj], he⟩
  · rintro ⟨j, iv', hj, he⟩
    by_cases hjk : j = k
    · subst hjk
      rw [List.getElem?_set] at hj
      simp only [if_true] at hj
      split at hj <;> simp at hj
    · rw [List.getElem?_set_ne (Ne.symm hjk)] at hj
      exact ⟨⟨j, iv', hj, he⟩, (other j iv' e hjk hj he).2⟩

/-- C124: the tree stays in order while the sweep line moves on. -/
theorem c124_advance {left : List (Option (Interval C))} {t : List (Sorter K)} {y' : K} (h : IntervalsApart ps y left) (h' : IntervalsApart ps y' left) (ht : TreeOf ps y left t) : TreeOf ps y' left t := by
  refine ⟨?_, ht.mem⟩
  refine List.Pairwise.imp_of_mem ?_ ht.order
  intro a b ha hb hab
  obtain ⟨iv, l, r, hk, hc⟩ := tree_cut h ht ha
  obtain ⟨jv, l', r', hj, hd⟩ := tree_cut h ht hb
  have sp : ∀ {e : Sorter K}, e ∈ t → Sorter.Spans e y' := by
    intro e he
    obtain ⟨k, iv, hk, ho⟩ := (ht.mem e).1 he
    obtain ⟨_, s, l, r, hc⟩ := h'.cut k iv hk
    obtain rfl : s = e := Option.some.inj (hc.of.symm.trans ho)
    exact hc.spans
  have hne : a.left ≠ b.left := by
    intro e
    rw [e, hj] at hk
    cases hk
    have := Option.some.inj (hc.of.symm.trans hd.of)
    subst this
    exact lt_irrefl _ hab
  have hs := c123_disjoint hc.descends hd.descends (h.edges _ _ iv jv _ _ _ _ _ _ hne hk hj hc hd).1
  have := hs y y' hc.spans hd.spans (sp ha) (sp hb)
  rw [compare_lt_iff_lt.2 hab] at this
  exact compare_lt_iff_lt.1 this.symm

end

/-- a strip with one interval, and room for eight others -/
def stripPoints : List (P2 ℚ) := [⟨0, 1⟩, ⟨0, 0⟩, ⟨1, 1⟩, ⟨1, 0⟩]
def stripInterval : Interval Unit := ⟨0, ⟨0, 1⟩, ⟨2, 3⟩, (), none⟩
def stripStatus : List (Option (Interval Unit)) := none :: some stripInterval :: List.replicate 7 none

theorem strip_only {k : Nat} {iv : Interval Unit} (h : stripStatus[k]? = some (some iv)) : k = 1 ∧ iv = stripInterval := by
  match k with
  | 0 => simp [stripStatus] at h
  | 1 => simpa [stripStatus, eq_comm] using h
  | k + 2 =>
    simp only [stripStatus, List.getElem?_cons_succ, List.getElem?_replicate] at h
    split at h <;> simp at h

theorem strip_apart : IntervalsApart stripPoints (1 / 2) stripStatus := by
  refine ⟨fun k iv hk => ?_, fun k k' iv iv' s s' l l' r r' hne hk hk' => ?_⟩
  · obtain ⟨rfl, rfl⟩ := strip_only hk
    refine ⟨rfl, ⟨1, ⟨0, 1⟩, ⟨0, 0⟩⟩, 0, 1, ⟨rfl, rfl, rfl, by norm_num, ⟨by norm_num, by norm_num⟩, ⟨1 / 2, by norm_num, by norm_num, by norm_num, by norm_num⟩, by decide +kernel, by norm_num⟩⟩
  · exact absurd ((strip_only hk).1.trans (strip_only hk').1.symm) hne

/-- C124: with debug assertions, a position to the right of an interval that is in no interval leads to a panic, although nothing should be found. -/
theorem c124_debug_panics : ∃ (ps : List (P2 ℚ)) (left : List (Option (Interval Unit))) (x y : ℚ), IntervalsApart ps y left ∧ findFrom ps ⟨x, y⟩ 0 left = some none ∧
    (findBy false ps ⟨x, y⟩ none left).map (·.1) = some none ∧ findBy true ps ⟨x, y⟩ none left = none :=
  ⟨stripPoints, stripStatus, 2, 1 / 2, strip_apart, by decide +kernel, by decide +kernel, by decide +kernel⟩

/-- non-vacuity: the interval of the strip is found -/
example : (findBy true stripPoints ⟨1 / 2, 1 / 2⟩ none stripStatus).map (·.1) = some (some 1) := by decide +kernel

end Verif.GeomProps
