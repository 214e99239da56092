import Verif.Model.DynamicMono
import Verif.Props.SweepMono
import Verif.Props.Dynamic
import Verif.Props.Quad
/-
C79: the monotone triangulator by dynamic programming.
-/
set_option linter.unusedSectionVars false
namespace Verif.Geom
open Triangulation GeomProps

/-- triangles between the listed vertices -/
def through (vs : List Nat) (x : Nat × Nat × Nat) : Nat × Nat × Nat := (vs.getD x.1 0, vs.getD x.2.1 0, vs.getD x.2.2 0)

theorem emits_through {t t' : Triangulation} {ids vs is : List Nat} (key : ∀ i a, is[i]? = some a → ids[vs.getD i 0]? = some a) {ts : List (Nat × Nat × Nat)} (h : Emits t t' is ts) : Emits t t' ids (ts.map (through vs)) := by
  obtain ⟨us, h1, rfl⟩ := h
  refine ⟨us, ?_, rfl⟩
  induction ts generalizing us with
  | nil => simpa using h1
  | cons x ts ih =>
    rw [List.mapM_cons] at h1
    obtain ⟨u, h2, h1⟩ := Option.bind_eq_some_iff.mp h1
    obtain ⟨us', h3, h1⟩ := Option.bind_eq_some_iff.mp h1
    obtain ⟨a, b, c⟩ := u
    rw [mapTri_some] at h2
    rw [List.map_cons, List.mapM_cons, (mapTri_some (x := through vs x) (a := a) (b := b) (c := c)).mpr ⟨key _ _ h2.1, key _ _ h2.2.1, key _ _ h2.2.2⟩, ih us' h3]
    exact h1

/-- the sum over all sides around a list of vertices -/
theorem triSum_through {vs : List Nat} {ts : List (Nat × Nat × Nat)} (h : IsTriangulation vs.length ts) {f : Nat → Nat → Int} (hf : Anti f) : triSum f (ts.map (through vs)) = ((sides vs).map fun p => f p.1 p.2).sum := by
  have h1 := sum_add_swapped (R := Int) (by intro x hx; omega) (fun p => f (vs.getD p.1 0) (vs.getD p.2 0)) (fun p => hf _ _) h
  have h2 : (List.range vs.length).map (fun i => vs.getD i 0) = vs := by
    apply List.ext_getElem (by simp)
    intro i h1 h2
    simp [List.getD_eq_getElem?_getD, h2]
  have h3 := sides_map (fun i => vs.getD i 0) (List.range vs.length)
  rw [h2] at h3
  rw [h3, List.map_map]
  simp only [Function.comp_def]
  rw [← h1]
  simp only [triSum, List.map_map, Function.comp_def, through]

theorem sides_turn {f : Nat → Nat → Int} {xs ys : List Nat} (hx : xs ≠ []) : ((sides (xs ++ ys)).map fun p => f p.1 p.2).sum = ((sides (ys ++ xs)).map fun p => f p.1 p.2).sum := by
  cases ys with
  | nil => simp
  | cons y ys =>
    obtain ⟨x, xs, rfl⟩ := List.exists_cons_of_ne_nil hx
    obtain ⟨zx, hzx⟩ : ∃ z, (x :: xs).getLast? = some z := ⟨_, List.getLast?_eq_some_getLast (by simp)⟩
    obtain ⟨zy, hzy⟩ : ∃ z, (y :: ys).getLast? = some z := ⟨_, List.getLast?_eq_some_getLast (by simp)⟩
    rw [sides_sum f (a := x) (z := zy) (by simp) (by rw [List.getLast?_append, hzy]; rfl), sides_sum f (a := y) (z := zx) (by simp) (by rw [List.getLast?_append, hzx]; rfl),
      psum_append (b := y) hzx (by simp), psum_append (b := x) hzy (by simp)]
    omega

namespace DChain
/-- the newest vertex on the right -/
def rEnd (c : DChain) : Nat := (c.right.getLast?).getD ((c.left.head?).getD 0)
/-- the newest vertex on the left -/
def lEnd (c : DChain) : Nat := (c.left.getLast?).getD 0
/-- the boundary -/
def path (c : DChain) : List Nat := c.right.reverse ++ c.left

theorem path_head {c : DChain} (h : c.left ≠ []) : c.path.head? = some c.rEnd := by
  obtain ⟨x, xs, hx⟩ := List.exists_cons_of_ne_nil h
  rw [path, rEnd, List.head?_append, List.head?_reverse, hx]
  cases hr : c.right.getLast? <;> simp

theorem path_last {c : DChain} (h : c.left ≠ []) : c.path.getLast? = some c.lEnd := by
  rw [path, lEnd, List.getLast?_append]
  rw [List.getLast?_eq_some_getLast h]; rfl
end DChain

/-- the triangulator by dynamic programming keeps the balance of the sides if its two parts triangulate the listed vertices -/
def dynamicLawful {small : List Nat → Triangulation → Option (Triangulation × Bool)} {dyn : List Nat → Triangulation → Option Triangulation} {ids : List Nat}
    (H : ∀ vs t t', (∃ t1 b, small vs t = some (t1, b) ∧ if b then t' = t1 else dyn vs t1 = some t') → ∃ ts, IsTriangulation vs.length ts ∧ 2 ≤ vs.length ∧ Emits t t' ids (ts.map (through vs))) : Lawful (dynamicMono small dyn) ids where
  good _ c := DChain.left c ≠ []
  rEnd := DChain.rEnd
  lEnd := DChain.lEnd
  pend f c := psum f (DChain.path c)
  pendN c := ((DChain.path c).length : Int) - 1
  new_law t0 v := ⟨by simp [dynamicMono], by simp [dynamicMono, DChain.rEnd], by simp [dynamicMono, DChain.lEnd], by simp [dynamicMono, DChain.path, psum], by simp [dynamicMono, DChain.path]⟩
  left_law t0 c v t c' t' hg _ h := by
    simp only [dynamicMono, Option.some.injEq] at h
    obtain ⟨rfl, rfl⟩ := Prod.mk.inj h
    obtain ⟨x, xs, hx⟩ := List.exists_cons_of_ne_nil hg
    refine ⟨by simp, ?_, by simp [DChain.lEnd], by simp [dynamicMono], ?_, (delta_refl t0 ids t).congr ?_ ?_⟩
    · simp [DChain.rEnd, hx]
    · simp [DChain.path, hx]; omega
    · intro f _
      have := psum_append (f := f) (m := [v]) (b := v) (DChain.path_last hg) rfl
      simp only [DChain.path, List.append_assoc] at this ⊢
      rw [this]; simp only [psum]; omega
    · simp [DChain.path]; omega
  right_law t0 c v t c' t' hg _ h := by
    simp only [dynamicMono, Option.some.injEq] at h
    obtain ⟨rfl, rfl⟩ := Prod.mk.inj h
    obtain ⟨x, xs, hx⟩ := List.exists_cons_of_ne_nil hg
    refine ⟨hg, by simp [DChain.rEnd], by simp [DChain.lEnd], ?_, (delta_refl t0 ids t).congr ?_ ?_⟩
    · simp [DChain.path, hx]; omega
    · intro f _
      have := psum_cons_head (f := f) v (DChain.path_head hg)
      simp only [DChain.path, List.reverse_append, List.reverse_cons, List.reverse_nil, List.nil_append, List.cons_append] at this ⊢
      rw [this]; omega
    · simp [DChain.path]
  finish_law t0 c t t' hg h1 h := by
    simp only [dynamicMono, Option.bind_eq_bind, Option.bind_eq_some_iff] at h
    obtain ⟨⟨t1, b⟩, h2, h3⟩ := h
    obtain ⟨ts, k1, k2, k3⟩ := H (DChain.left c ++ (DChain.right c).reverse) t t' ⟨t1, b, h2, by
      cases b
      · simpa using h3
      · simp at h3; simp [h3]⟩
    refine (delta_of_emits k3).congr ?_ ?_
    · intro f hf
      have e1 := sides_sum f (DChain.path_head hg) (DChain.path_last hg)
      have e2 := hf (DChain.lEnd c) (DChain.rEnd c)
      rw [triSum_through k1 hf, sides_turn hg]
      change _ = psum f (DChain.path c) - _
      rw [show psum f (DChain.path c) - f (DChain.rEnd c) (DChain.lEnd c) = psum f (DChain.path c) + f (DChain.lEnd c) (DChain.rEnd c) by omega, ← e1]
      rfl
    · rw [List.length_map, k1.length]
      simp only [DChain.path, List.length_append, List.length_reverse] at k2 ⊢
      omega
  opp_law t0 c r hg h hr := by
    simp only [dynamicMono] at h hr
    have hd : DChain.d c = .left := by simpa using hr
    rw [hd] at h
    simp only at h
    simp [DChain.rEnd, h]

section
variable {K : Type} [Field K] [LinearOrder K] [IsStrictOrderedRing K] {W : Type} [AddCommMonoid W] [LinearOrder W] [IsOrderedAddMonoid W]

theorem listed_spec {ps : List (P2 K)} {ids vs : List Nat} {l : List (P2 K × Nat)} (h : listed ps ids vs = some l) : vs.length ≤ maxIx ∧ l.length = vs.length ∧ ∀ (i : Nat) (p : P2 K) (a : Nat), l[i]? = some (p, a) → ∃ v, vs[i]? = some v ∧ ps[v]? = some p ∧ ids[v]? = some a := by
  simp only [listed] at h
  split at h
  · rename_i hl
    refine ⟨hl, ?_, ?_⟩
    · have := congrArg List.length (mapM_map (g := fun _ => ()) (h := fun _ => ()) (fun _ _ _ => rfl) _ _ h)
      simpa using this
    · intro i p a hi
      obtain ⟨v, h1, h2⟩ := mapM_get _ _ _ h i _ hi
      simp only [Option.bind_eq_bind, Option.bind_eq_some_iff, Option.some.injEq, Prod.mk.injEq] at h2
      obtain ⟨p', h3, a', h4, rfl, rfl⟩ := h2
      exact ⟨v, h1, h3, h4⟩
  · simp at h

/-- what `finish` emits is a triangulation of the listed vertices -/
theorem dyn_finish {σ : Sgn K} {dbg : Bool} {wt : List (P2 K) → Nat → Nat → Nat → W} (hwt : ∀ l, Symm3 (wt l)) {pd : List (P2 K) → Nat → Nat → Bool} {vs : List (P2 K × Nat)} (hvs : vs.length ≤ maxIx) {t t1 t' : Triangulation} {b : Bool}
    (h1 : tryMinWeightSmall σ vs t = some (t1, b)) (h2 : if b then t' = t1 else minweightDynamic dbg (wt (vs.map Prod.fst)) (pd (vs.map Prod.fst)) (vs.map Prod.snd) t1 = some t') :
    ∃ ts, IsTriangulation vs.length ts ∧ 2 ≤ vs.length ∧ Emits t t' (vs.map Prod.snd) ts := by
  obtain ⟨q4, q3, q⟩ := c42_covers σ vs t
  by_cases l3 : vs.length = 3
  · obtain ⟨t2, e1, e2, e3⟩ := q3 l3
    have := e1.symm.trans h1
    simp only [Option.some.injEq, Prod.mk.injEq] at this
    obtain ⟨rfl, rfl⟩ := this
    simp only [if_true] at h2
    subst h2
    exact ⟨_, by rw [l3]; exact e3, by omega, e2⟩
  by_cases l4 : vs.length = 4
  · obtain ⟨t2, ts, e1, e2, -, e3, -⟩ := q4 l4
    have := e1.symm.trans h1
    simp only [Option.some.injEq, Prod.mk.injEq] at this
    obtain ⟨rfl, rfl⟩ := this
    simp only [if_true] at h2
    subst h2
    exact ⟨_, by rw [l4]; exact e3, by omega, e2⟩
  have := (q l3 l4).symm.trans h1
  simp only [Option.some.injEq, Prod.mk.injEq] at this
  obtain ⟨rfl, rfl⟩ := this
  simp only [Bool.false_eq_true, if_false] at h2
  have hex : ∃ us, IsTriangulation (vs.map Prod.snd).length us ∧ Admissible (pd (vs.map Prod.fst)) (vs.map Prod.snd).length us := by
    by_contra hc
    rw [c40_none dbg _ _ _ _ (by rw [List.length_map]; exact hvs) hc] at h2
    simp at h2
  have h4 : 4 ≤ (vs.map Prod.snd).length := by
    by_contra hc
    rw [minweightDynamic] at h2
    rw [if_pos (by omega)] at h2
    simp at h2
  obtain ⟨t2, ts, e1, e2, e3, -⟩ := c40_optimal dbg (hwt _) _ _ t h4 hex
  have := e1.symm.trans h2
  simp only [Option.some.injEq] at this
  subst this
  rw [List.length_map] at e3 h4
  exact ⟨ts, e3, by omega, e2⟩

def dynTriLawful {σ : Sgn K} {dbg : Bool} {wt : List (P2 K) → Nat → Nat → Nat → W} (hwt : ∀ l, Symm3 (wt l)) (pd : List (P2 K) → Nat → Nat → Bool) (ps : List (P2 K)) (ids : List Nat) : Lawful (dynTri σ dbg wt pd ps ids) ids :=
  dynamicLawful (by
    rintro vs t t' ⟨t1, b, h1, h2⟩
    obtain ⟨l, hl, h1⟩ := Option.bind_eq_some_iff.mp h1
    obtain ⟨k1, k2, k3⟩ := listed_spec hl
    obtain ⟨ts, e1, e2, e3⟩ := dyn_finish (σ := σ) (dbg := dbg) hwt (pd := pd) (vs := l) (by omega) h1 (t' := t') (by
      cases b
      · simp only [Bool.false_eq_true, if_false, hl, Option.bind_eq_bind, Option.bind_some] at h2 ⊢
        exact h2
      · exact h2)
    rw [k2] at e1 e2
    refine ⟨ts, e1, e2, emits_through ?_ e3⟩
    intro i a hi
    rw [List.getElem?_map, Option.map_eq_some_iff] at hi
    obtain ⟨⟨p, a'⟩, hi, rfl⟩ := hi
    obtain ⟨v, g1, -, g3⟩ := k3 i p a' hi
    simp [List.getD_eq_getElem?_getD, g1, g3])
end

end Verif.Geom

namespace Verif.GeomProps
open Geom Triangulation
variable {K : Type} [Field K] [LinearOrder K] [IsStrictOrderedRing K] {W : Type} [AddCommMonoid W] [LinearOrder W] [IsOrderedAddMonoid W]

/-- C79: every sweep with this triangulator that ends without a panic, as in C53 -/
theorem c79_sweep_partial (σ : Sgn K) {tol : K} (htol : 0 ≤ tol) {dbg : Bool} {wt : List (P2 K) → Nat → Nat → Nat → W} (hwt : ∀ l, Symm3 (wt l)) (pd : List (P2 K) → Nat → Nat → Bool) {ps : List (P2 K)} {ids : List Nat}
    (hids : ids.length = ps.length) (hn : ps.length ≤ maxIx) {t t' : Triangulation} {tys : List VType} (h : sweepDynamic σ tol dbg wt pd ps ids t = some (t', tys)) : ∃ ts, Emits t t' ids ts ∧
      Cancels (ts.flatMap triSides ++ (sides (List.range ps.length)).map Prod.swap) ∧ (ts.map fun x => tri2 (posOf ps x.1) (posOf ps x.2.1) (posOf ps x.2.2)).sum = area2 ps ∧
      ts.length + 2 * tys.countP isStart = ps.length + 2 * tys.countP isMerge ∧
      (tys.countP isStart = tys.countP isMerge + 1 → ts.length = ps.length - 2 ∧ IsTriangulation ps.length ts) := by
  obtain ⟨es, h1, h⟩ := Option.bind_eq_some_iff.mp h
  obtain ⟨⟨q, tys'⟩, h2, h3⟩ := Option.bind_eq_some_iff.mp h
  simp only [Option.some.injEq, Prod.mk.injEq] at h3
  obtain ⟨rfl, rfl⟩ := h3
  obtain ⟨-, ts, e1, e2, e3, e4, e5⟩ := c53_sweep_partial (dynTriLawful (σ := σ) (dbg := dbg) hwt pd ps ids) htol hids hn (eventQueue_sorted h1) h2
  exact ⟨ts, e1, e2, e3, e4, e5⟩

/-! ### Monotone polygons -/

theorem dyn_feed {small : List Nat → Triangulation → Option (Triangulation × Bool)} {dyn : List Nat → Triangulation → Option Triangulation} (t : Triangulation) : ∀ (l : List (Bool × Nat)) (c : DChain), ∃ d,
    feed (dynamicMono small dyn) l c t = some ((⟨c.left ++ (l.filter fun x => x.1 == true).map Prod.snd, c.right ++ (l.filter fun x => x.1 == false).map Prod.snd, d⟩ : DChain), t) := by
  intro l
  induction l with
  | nil => intro c; exact ⟨c.d, by cases c; simp only [feed, List.filter_nil, List.map_nil, List.append_nil]; rfl⟩
  | cons x l ih =>
    intro c
    obtain ⟨b, v⟩ := x
    cases b with
    | true =>
      obtain ⟨d, hd⟩ := ih { c with left := c.left ++ [v], d := .left }
      refine ⟨d, ?_⟩
      simp only [feed, dynamicMono, Option.bind_eq_bind, Option.bind_some] at hd ⊢
      rw [hd]; simp
    | false =>
      obtain ⟨d, hd⟩ := ih { c with right := c.right ++ [v], d := .right }
      refine ⟨d, ?_⟩
      simp only [feed, dynamicMono, Option.bind_eq_bind, Option.bind_some] at hd ⊢
      rw [hd]; simp

section
variable {tol : K} (htol : 0 ≤ tol) {ps : List (P2 K)} {m a : Nat} (Y : YMonotone tol ps m a) {l : List (Bool × Nat)} (O : Order ps m a l)

theorem sorted_unique {f : Nat → K} {xs ys : List Nat} (hx : xs.Pairwise fun u v => f v < f u) (hy : ys.Pairwise fun u v => f v < f u) (h : ∀ z, z ∈ xs ↔ z ∈ ys) : xs = ys := by
  induction xs generalizing ys with
  | nil =>
    cases ys with
    | nil => rfl
    | cons y ys => exact absurd ((h y).mpr (by simp)) (by simp)
  | cons x xs ih =>
    cases ys with
    | nil => exact absurd ((h x).mp (by simp)) (by simp)
    | cons y ys =>
      rw [List.pairwise_cons] at hx hy
      have hxy : x = y := by
        by_contra hc
        have h1 := (h x).mp (by simp)
        have h2 := (h y).mpr (by simp)
        rcases List.mem_cons.mp h1 with h1 | h1
        · exact hc h1
        rcases List.mem_cons.mp h2 with h2 | h2
        · exact hc h2.symm
        exact lt_asymm (hx.1 y h2) (hy.1 x h1)
      subst hxy
      rw [ih hx.2 hy.2 fun z => ?_]
      constructor
      · intro hz
        rcases List.mem_cons.mp ((h z).mp (by simp [hz])) with rfl | h'
        · exact absurd (hx.1 z hz) (lt_irrefl _)
        · exact h'
      · intro hz
        rcases List.mem_cons.mp ((h z).mpr (by simp [hz])) with rfl | h'
        · exact absurd (hy.1 z hz) (lt_irrefl _)
        · exact h'

include htol Y O in
/-- the corners in the order in which the triangulator lists them -/
theorem listed_order : (m :: ((l ++ [(true, at' ps m a)]).filter fun x => x.1 == true).map Prod.snd) ++ (((l ++ [(true, at' ps m a)]).filter fun x => x.1 == false).map Prod.snd).reverse = (List.range ps.length).map (at' ps m) := by
  have hm := Y.top
  have hb := Y.bottom
  have hw : l.map Prod.snd ++ [at' ps m a] = l.map Prod.snd ++ at' ps m a :: [] := rfl
  have met := O.met ⟨[], by simp⟩ hw
  have sub : ∀ b, (((l.filter fun x => x.1 == b).map Prod.snd).Pairwise fun u v => (posOf ps v).y < (posOf ps u).y) := fun b =>
    List.Pairwise.sublist (List.Sublist.map _ List.filter_sublist) (O.pre_down (pre := l) ⟨[], by simp⟩)
  have h0 : ∀ i, 0 < i → i < ps.length → at' ps m i ≠ m := by
    intro i h1 h2 h
    have := off_at hm h2
    rw [h, off, show m + (ps.length - m) = ps.length by omega, Nat.mod_self] at this
    omega
  have ha : ∀ i, i ≠ a → i < ps.length → at' ps m i ≠ at' ps m a := fun i h1 h2 h => h1 (by rw [← off_at hm h2, h, off_at hm hb.2])
  have hl : (l.filter fun x => x.1 == true).map Prod.snd = (List.range' 1 (a - 1)).map (at' ps m) := by
    refine sorted_unique (f := fun v => (posOf ps v).y) (sub true) ?_ ?_
    · rw [List.pairwise_map]
      refine List.Pairwise.imp_of_mem ?_ (List.pairwise_lt_range' (s := 1) (n := a - 1))
      intro i j hi hj hij
      have := List.mem_range'_1.mp hj
      exact Y.lower htol hij (by omega)
    · intro z
      simp only [List.mem_map, List.mem_filter, beq_iff_eq, Prod.exists, exists_eq_right, List.mem_range'_1]
      constructor
      · intro h1
        obtain ⟨k1, k2, k3, k4⟩ := (met true z).mp h1
        have k3 := of_decide_eq_true k3.symm
        refine ⟨off ps m z, ⟨?_, by omega⟩, at_off hm k1⟩
        rcases Nat.eq_zero_or_pos (off ps m z) with h | h
        · exact absurd (by rw [← at_off hm k1, h]; simp [at', Nat.mod_eq_of_lt hm]) k2
        · exact h
      · rintro ⟨i, hi, rfl⟩
        refine (met true _).mpr ⟨at_lt hm _, h0 i (by omega) (by omega), ?_, Y.lower htol (by omega) (le_refl _)⟩
        rw [off_at hm (by omega)]; exact (decide_eq_true (by omega)).symm
  have hr : ((l.filter fun x => x.1 == false).map Prod.snd).reverse = (List.range' (a + 1) (ps.length - 1 - a)).map (at' ps m) := by
    rw [List.reverse_eq_iff, ← List.map_reverse]
    refine sorted_unique (f := fun v => (posOf ps v).y) (sub false) ?_ ?_
    · rw [List.pairwise_map, List.pairwise_reverse]
      refine List.Pairwise.imp_of_mem ?_ (List.pairwise_lt_range' (s := a + 1) (n := ps.length - 1 - a))
      intro i j hi hj hij
      have h1 := List.mem_range'_1.mp hj
      have h2 := List.mem_range'_1.mp hi
      exact Y.higher htol (by omega) hij (by omega)
    · intro z
      simp only [List.mem_map, List.mem_filter, beq_iff_eq, Prod.exists, exists_eq_right, List.mem_reverse, List.mem_range'_1]
      constructor
      · intro h1
        obtain ⟨k1, k2, k3, k4⟩ := (met false z).mp h1
        have k3 := of_decide_eq_false k3.symm
        have := off_lt hm z
        refine ⟨off ps m z, ⟨?_, by omega⟩, at_off hm k1⟩
        rcases Nat.lt_or_ge a (off ps m z) with h | h
        · omega
        · have e : off ps m z = a := by omega
          rw [← at_off hm k1, e] at k4
          exact absurd k4 (lt_irrefl _)
      · rintro ⟨i, hi, rfl⟩
        refine (met false _).mpr ⟨at_lt hm _, h0 i (by omega) (by omega), ?_, Y.higher htol (le_refl _) (by omega) (by omega)⟩
        rw [off_at hm (by omega)]; exact (decide_eq_false (by omega)).symm
  rw [List.filter_append, List.filter_append, List.map_append, List.map_append, hl]
  simp only [List.filter_cons, List.filter_nil, beq_self_eq_true, if_true, show ((true == false) = true) = False by simp, if_false, List.map_nil, List.append_nil, hr, List.map_cons]
  have e0 : m = at' ps m 0 := by simp [at', Nat.mod_eq_of_lt hm]
  have e1 : List.range ps.length = 0 :: (List.range' 1 (a - 1) ++ a :: List.range' (a + 1) (ps.length - 1 - a)) := by
    rw [List.range_eq_range', show ps.length = (1 + ((a - 1) + (1 + (ps.length - 1 - a)))) by omega]
    rw [← List.range'_append_1, ← List.range'_append_1, ← List.range'_append_1]
    simp only [List.range'_one, List.cons_append, List.nil_append, Nat.zero_add]
    congr 3
    · omega
    · congr 1 <;> omega
  rw [e1]
  simp only [List.map_cons, List.map_append, List.cons_append, List.append_assoc, List.nil_append]
  rw [← e0]

theorem mapM_total {α β : Type} {p : α → Option β} {q : α → β} : ∀ {l : List α}, (∀ x ∈ l, p x = some (q x)) → l.mapM p = some (l.map q) := by
  intro l
  induction l with
  | nil => intro _; rfl
  | cons x l ih => intro h; rw [List.mapM_cons, h x (by simp), ih fun y hy => h y (by simp [hy])]; rfl

/-- the corners from the topmost one on -/
def ringFrom (ps : List (P2 K)) (m : Nat) : List (P2 K) := (List.range ps.length).map fun i => corner ps (m + i)

/-- the indices from the topmost corner on -/
def idsFrom (ids : List Nat) (m : Nat) : List Nat := (List.range ids.length).map fun i => ids.getD ((m + i) % ids.length) 0

include htol Y in
/-- C79: on a polygon that is monotone downwards the sweep with this triangulator succeeds if there is a triangulation by permitted diagonals, and the total weight of the result is minimal among all of them;
with 3 or 4 corners it always succeeds. -/
theorem c79_monotone (σ : Sgn K) (dbg : Bool) {wt : List (P2 K) → Nat → Nat → Nat → W} (hwt : ∀ l, Symm3 (wt l)) (pd : List (P2 K) → Nat → Nat → Bool) {ids : List Nat} (hnd : ids.Nodup)
    (hlen : ids.length = ps.length) (hn : ps.length ≤ maxIx) (hex : 5 ≤ ps.length → ∃ us, IsTriangulation ps.length us ∧ Admissible (pd (ringFrom ps m)) ps.length us) (t : Triangulation) :
    ∃ t' ts, sweepDynamic σ tol dbg wt pd ps ids t = some (t', oneSweep ps.length) ∧ Emits t t' (idsFrom ids m) ts ∧ IsTriangulation ps.length ts ∧ ts.length = ps.length - 2 ∧
      (5 ≤ ps.length → Admissible (pd (ringFrom ps m)) ps.length ts ∧
        ∀ us, IsTriangulation ps.length us → Admissible (pd (ringFrom ps m)) ps.length us → weight (wt (ringFrom ps m)) ts ≤ weight (wt (ringFrom ps m)) us) := by
  obtain ⟨evs, he⟩ := queue_exists tol ps
  have hq := eventQueue_sorted he
  obtain ⟨l, O, hevs⟩ := queue_order htol Y hq
  have h3 := Y.three
  obtain ⟨vs, hvs⟩ : ∃ vs, vs = (List.range ps.length).map fun i => (corner ps (m + i), ids.getD ((m + i) % ids.length) 0) := ⟨_, rfl⟩
  have v1 : vs.map Prod.fst = ringFrom ps m := by rw [hvs, List.map_map]; rfl
  have v2 : vs.map Prod.snd = idsFrom ids m := by rw [hvs, List.map_map, idsFrom, hlen]; rfl
  have v3 : vs.length = ps.length := by simp [hvs]
  have hli : listed ps ids ((List.range ps.length).map (at' ps m)) = some vs := by
    rw [listed, if_pos (by simpa using hn)]
    rw [mapM_total (q := fun v => (posOf ps v, ids.getD v 0))]
    · rw [hvs, List.map_map]
      simp only [Option.some.injEq]
      apply List.map_congr_left
      intro i _
      simp only [Function.comp_apply, pos_at, hlen]; rfl
    · intro v hv
      obtain ⟨i, -, rfl⟩ := List.mem_map.mp hv
      have h1 := at_lt Y.top i
      have h2 : at' ps m i < ids.length := by omega
      simp [posOf, List.getD_eq_getElem?_getD, List.getElem?_eq_getElem h1, List.getElem?_eq_getElem h2]
  have fin : ∃ t' ts, (do
      let (t', b) ← tryMinWeightSmall σ vs t
      if b then some t' else minweightDynamic dbg (wt (vs.map Prod.fst)) (pd (vs.map Prod.fst)) (vs.map Prod.snd) t') = some t' ∧ Emits t t' (idsFrom ids m) ts ∧ IsTriangulation ps.length ts ∧
      (5 ≤ ps.length → Admissible (pd (ringFrom ps m)) ps.length ts ∧
        ∀ us, IsTriangulation ps.length us → Admissible (pd (ringFrom ps m)) ps.length us → weight (wt (ringFrom ps m)) ts ≤ weight (wt (ringFrom ps m)) us) := by
    obtain ⟨q4, q3, q⟩ := c42_covers σ vs t
    rw [v3, v2] at q4 q3
    rw [v3] at q
    rw [v2]
    by_cases l3 : ps.length = 3
    · obtain ⟨t2, e1, e2, e3⟩ := q3 l3
      exact ⟨t2, _, by rw [e1]; rfl, e2, by rw [l3]; exact e3, fun h => by omega⟩
    by_cases l4 : ps.length = 4
    · obtain ⟨t2, ts, e1, e2, -, e3, -⟩ := q4 l4
      exact ⟨t2, _, by rw [e1]; rfl, e2, by rw [l4]; exact e3, fun h => by omega⟩
    have hl : (idsFrom ids m).length = ps.length := by rw [← v2, List.length_map, v3]
    obtain ⟨t2, ts, e1, e2, e3, e4, e5⟩ := c40_optimal dbg (hwt (ringFrom ps m)) (pd (ringFrom ps m)) (idsFrom ids m) t (by omega) (by rw [hl]; exact hex (by omega))
    rw [hl] at e3 e4 e5
    refine ⟨t2, ts, ?_, e2, e3, fun _ => ⟨e4, e5⟩⟩
    rw [q l3 l4, v1]
    exact e1
  obtain ⟨t', ts, f1, f2, f3, f4⟩ := fin
  obtain ⟨d, hd⟩ := dyn_feed (small := fun vs t => do tryMinWeightSmall σ (← listed ps ids vs) t) (dyn := fun vs t => do
      let l ← listed ps ids vs
      minweightDynamic dbg (wt (l.map Prod.fst)) (pd (l.map Prod.fst)) (l.map Prod.snd) t) t (l ++ [(true, at' ps m a)]) ⟨[m], [], .none⟩
  have hf : (dynTri σ dbg wt pd ps ids).finish (⟨[m] ++ ((l ++ [(true, at' ps m a)]).filter fun x => x.1 == true).map Prod.snd, [] ++ ((l ++ [(true, at' ps m a)]).filter fun x => x.1 == false).map Prod.snd, d⟩ : DChain) t = some t' := by
    have e := listed_order htol Y O
    simp only [dynTri, dynamicMono, List.nil_append, List.cons_append] at e ⊢
    rw [e, hli]
    exact f1
  have key : Emits t t' ids (ts.map (through ((List.range ps.length).map (at' ps m)))) := by
    refine emits_through ?_ f2
    intro i b hi
    rw [← v2, hvs, List.map_map, List.getElem?_map, Option.map_eq_some_iff] at hi
    obtain ⟨j, h1, h2⟩ := hi
    obtain ⟨h4, h5⟩ := List.getElem?_eq_some_iff.mp h1
    rw [List.getElem_range] at h5
    subst h5
    rw [List.length_range] at h4
    have h6 : at' ps m i < ids.length := by rw [hlen]; exact at_lt Y.top i
    have h7 : (m + i) % ids.length < ids.length := by rw [hlen]; exact at_lt Y.top i
    simp only [Function.comp_apply, List.getD_eq_getElem?_getD, List.getElem?_eq_getElem h7, Option.getD_some] at h2
    rw [← h2]
    simp only [List.getD_eq_getElem?_getD, List.getElem?_map, List.getElem?_range h4, Option.map_some, Option.getD_some, at', hlen]
    exact List.getElem?_eq_getElem _
  obtain ⟨r1, r2, r3⟩ := sweep_run htol Y hlen hn t dbg (dynTriLawful (σ := σ) (dbg := dbg) hwt pd ps ids) O hnd (fun _ _ _ _ _ _ => rfl) hd hf (findLinearly ps) hq hevs key
  refine ⟨t', ts, ?_, f2, f3, f3.length, f4⟩
  simp only [sweepDynamic, he, Option.bind_eq_bind, Option.bind_some]
  exact Option.bind_eq_some_iff.mpr ⟨_, r1, rfl⟩
end

/-! ### Examples -/

/-- the weight of triangles by the squares of the lengths of their sides, and all diagonals permitted -/
def sqWeight (ps : List (P2 ℚ)) (i j k : Nat) : ℚ := distSq (posOf ps i) (posOf ps j) + distSq (posOf ps j) (posOf ps k) + distSq (posOf ps k) (posOf ps i)

theorem sqWeight_symm (ps : List (P2 ℚ)) : Symm3 (sqWeight ps) where
  rot i j k := by simp only [sqWeight, distSq]; ring
  swap i j k := by simp only [sqWeight, distSq]; ring

example : ∃ t' ts, sweepDynamic (plusZero ℚ) 0 true sqWeight (fun _ _ _ => true) dentedRing [0, 1, 2, 3, 4, 5] (.new []) = some (t', oneSweep 6) ∧ Emits (.new []) t' [1, 2, 3, 4, 5, 0] ts ∧ IsTriangulation 6 ts ∧
    ∀ us, IsTriangulation 6 us → weight (sqWeight (ringFrom dentedRing 1)) ts ≤ weight (sqWeight (ringFrom dentedRing 1)) us := by
  obtain ⟨t', ts, h1, h2, h3, -, h5⟩ := c79_monotone (le_refl 0) dentedRing_monotone (plusZero ℚ) true sqWeight_symm (fun _ _ _ => true) (ids := [0, 1, 2, 3, 4, 5]) (by decide) rfl (by decide) (fun _ => by
    obtain ⟨t', ts, -, -, -, -, h, -⟩ := c37_fan (.new []) (ids := [0, 1, 2, 3, 4, 5]) (by decide) dentedRing rfl
    exact ⟨ts, h, fun _ _ _ => rfl⟩) (.new [])
  exact ⟨t', ts, h1, h2, h3, fun us hu => (h5 (by decide)).2 us hu (fun _ _ _ => rfl)⟩

/-- what is computed -/
example : (sweepDynamic (plusZero ℚ) 0 true sqWeight (fun _ _ _ => true) dentedRing [0, 1, 2, 3, 4, 5] (.new [])).map (fun r => (r.1.indices, r.2)) = some ([1, 3, 0, 1, 2, 3, 3, 5, 0, 3, 4, 5], oneSweep 6) := by decide +kernel

/-- C79: the same pentagon as in C53 and C76 leads to a panic -/
theorem c79_panics : ∀ dbg, sweepDynamic (strict ℚ) 0 dbg sqWeight (fun _ _ _ => true) leftThenSplit [0, 1, 2, 3, 4] (.new []) = none := by
  intro dbg; cases dbg <;> decide +kernel
end Verif.GeomProps
