import Verif.Model.Graph
import Verif.Spec.Graph
import Verif.Props.Check
/-
C27: shortest paths.
-/
namespace Verif.Mesh

/-- state of the breadth first search: `done` vertices are finished, `act` are waiting, `lev` is the distance from `v1` -/
structure BfsInv (adj : Nat → Nat → Prop) (v0 v1 : Nat) (lev : Nat → Nat) (done act : List Nat) (L : Nat) (visited : List Nat)
    (pred : List (Nat × Option Nat)) : Prop where
  vis : ∀ x, x ∈ visited ↔ x ∈ done ∨ x ∈ act
  nodup : (done ++ act).Nodup
  root : v1 ∈ visited ∧ lev v1 = 0 ∧ pred.lookup v1 = some none
  par : ∀ x ∈ visited, x ≠ v1 → ∃ p, pred.lookup x = some (some p) ∧ p ∈ visited ∧ adj p x ∧ lev x = lev p + 1
  closed : ∀ x ∈ done, ∀ y, adj x y → y ∈ visited ∧ lev y ≤ lev x + 1
  sorted : act.Pairwise (fun x y => lev x ≤ lev y)
  lo : ∀ x ∈ act, L ≤ lev x
  hi : ∀ x ∈ visited, lev x ≤ L + 1
  bnd : ∀ x ∈ visited, lev x < pred.length
  new : v0 ∉ visited

variable {adj : Nat → Nat → Prop} {v0 v1 : Nat} {lev : Nat → Nat} {done act visited : List Nat} {L : Nat} {pred : List (Nat × Option Nat)}

theorem BfsInv.lower (I : BfsInv adj v0 v1 lev done act L visited pred) (sym : ∀ x y, adj x y → adj y x) {x : Nat} {l : List Nat}
    (h : Path adj x v1 l) : (x ∈ visited ∧ lev x + 1 ≤ l.length) ∨ L + 2 ≤ l.length := by
  generalize hv : v1 = z at h
  induction h with
  | one a => subst hv; exact .inl ⟨I.root.1, by simp [I.root.2.1]⟩
  | cons hab _ ih =>
    simp only [List.length_cons]
    rcases ih hv with ⟨h1, h2⟩ | h2
    · rcases (I.vis _).mp h1 with h3 | h3
      · have := I.closed _ h3 _ (sym _ _ hab)
        exact .inl ⟨this.1, by omega⟩
      · have := I.lo _ h3
        right; omega
    · right; omega

theorem BfsInv.unreachable (I : BfsInv adj v0 v1 lev done [] L visited pred) (sym : ∀ x y, adj x y → adj y x) {x : Nat} {l : List Nat}
    (h : Path adj x v1 l) : x ∈ visited := by
  generalize hv : v1 = z at h
  induction h with
  | one a => subst hv; exact I.root.1
  | cons hab _ ih =>
    have h1 := (I.vis _).mp (ih hv)
    simp only [List.not_mem_nil, or_false] at h1
    exact (I.closed _ h1 _ (sym _ _ hab)).1

theorem trace_spec (I : BfsInv adj v0 v1 lev done act L visited pred) (sym : ∀ x y, adj x y → adj y x) :
    ∀ k x, x ∈ visited → lev x = k → ∀ fuel, k < fuel → ∃ l, trace pred fuel (some x) = some l ∧ Path adj x v1 l ∧ l.length = k + 1 := by
  intro k
  induction k with
  | zero =>
    intro x hx hl fuel hf
    have : x = v1 := Classical.byContradiction fun hc => by
      obtain ⟨p, -, -, -, h⟩ := I.par x hx hc
      omega
    subst this
    obtain ⟨fuel, rfl⟩ : ∃ n, fuel = n + 1 := ⟨fuel - 1, by omega⟩
    exact ⟨[x], by simp [trace, I.root.2.2], .one _, rfl⟩
  | succ k ih =>
    intro x hx hl fuel hf
    obtain ⟨fuel, rfl⟩ : ∃ n, fuel = n + 1 := ⟨fuel - 1, by omega⟩
    have hne : x ≠ v1 := by rintro rfl; have := I.root.2.1; omega
    obtain ⟨p, h1, h2, h3, h4⟩ := I.par x hx hne
    obtain ⟨l, k1, k2, k3⟩ := ih p h2 (by omega) fuel (by omega)
    exact ⟨x :: l, by simp [trace, h1, k1], .cons (sym _ _ h3) k2, by simp [k3]⟩

/-- what is known when `v0` is discovered -/
structure Found (adj : Nat → Nat → Prop) (v0 v1 : Nat) (s : Bfs) : Prop where
  ok : ∃ l, trace s.pred (s.pred.length + 1) (some v0) = some l ∧ Path adj v0 v1 l ∧ ∀ l', Path adj v0 v1 l' → l.length ≤ l'.length

theorem lookup_ne {α : Type} {l : List (Nat × α)} {n x : Nat} {a : α} (h : x ≠ n) : ((n, a) :: l).lookup x = l.lookup x := by
  have : (x == n) = false := by simp [h]
  simp [List.lookup_cons, this]

theorem visit_spec (sym : ∀ x y, adj x y → adj y x) (cur : Nat) :
    ∀ (ns : List Nat) (lev : Nat → Nat) (done : List Nat) (s : Bfs) (seen : List Nat),
    BfsInv adj v0 v1 lev done (cur :: s.queue) (lev cur) s.visited s.pred → (∀ n ∈ ns, adj cur n) → (∀ n ∈ seen, n ∈ s.visited) →
    ((visit v0 cur ns s).2 = true ∧ Found adj v0 v1 (visit v0 cur ns s).1) ∨
    ((visit v0 cur ns s).2 = false ∧ ∃ lev' , BfsInv adj v0 v1 lev' done (cur :: (visit v0 cur ns s).1.queue) (lev' cur) (visit v0 cur ns s).1.visited (visit v0 cur ns s).1.pred ∧
      (∀ n ∈ seen ++ ns, n ∈ (visit v0 cur ns s).1.visited)) := by
  intro ns
  induction ns with
  | nil =>
    intro lev done s seen I _ hs
    right
    exact ⟨rfl, lev, I, by simpa [visit] using hs⟩
  | cons n ns ih =>
    intro lev done s seen I hadj hs
    rw [visit]
    by_cases hn : n ∈ s.visited
    · rw [if_pos hn]
      have := ih lev done s (seen ++ [n]) I (fun x hx => hadj x (by simp [hx])) (by
        intro x hx; simp only [List.mem_append, List.mem_singleton] at hx
        rcases hx with hx | rfl
        · exact hs x hx
        · exact hn)
      simpa using this
    · rw [if_neg hn]
      have hcv : cur ∈ s.visited := (I.vis cur).mpr (.inr (by simp))
      have hnc : cur ≠ n := fun hc => hn (hc ▸ hcv)
      have hac : adj cur n := hadj n (by simp)
      have hne1 : v1 ≠ n := fun hc => hn (hc ▸ I.root.1)
      by_cases h0 : n = v0
      · subst h0
        left
        rw [if_pos rfl]
        refine ⟨rfl, ⟨?_⟩⟩
        obtain ⟨l, k1, k2, k3⟩ := trace_spec I sym (lev cur) cur hcv rfl (s.pred.length + 1) (Nat.lt_succ_of_lt (I.bnd cur hcv))
        have mono : ∀ fuel x l, n ≠ x → trace s.pred fuel (some x) = some l → n ∉ l → trace ((n, some cur) :: s.pred) fuel (some x) = some l := by
          intro fuel
          induction fuel with
          | zero => intro x l _ h; simp [trace] at h
          | succ fuel ih2 =>
            intro x l hnx h hl
            simp only [trace, Option.bind_eq_bind] at h ⊢
            rw [lookup_ne (Ne.symm hnx)]
            cases hp : s.pred.lookup x with
            | none => simp [hp] at h
            | some p =>
              simp only [hp, Option.bind_some] at h ⊢
              cases p with
              | none => simpa [trace] using h
              | some p =>
                cases ht : trace s.pred fuel (some p) with
                | none => simp [ht] at h
                | some r =>
                  simp only [ht, Option.bind_some, Option.some.injEq] at h
                  subst h
                  simp only [List.mem_cons, not_or] at hl
                  have hnp : n ≠ p := by
                    cases fuel with
                    | zero => simp [trace] at ht
                    | succ fuel =>
                      simp only [trace, Option.bind_eq_bind] at ht
                      cases hq : s.pred.lookup p with
                      | none => simp [hq] at ht
                      | some q =>
                        simp only [hq, Option.bind_some] at ht
                        cases hu : trace s.pred fuel q with
                        | none => simp [hu] at ht
                        | some u =>
                          simp [hu] at ht
                          subst ht
                          simp only [List.mem_cons, not_or] at hl
                          exact hl.2.1
                  simp [ih2 p r hnp ht hl.2]
        have hnl : n ∉ l := by
          -- all vertices on the path have been visited
          have : ∀ fuel x l, x ∈ s.visited → trace s.pred fuel (some x) = some l → ∀ y ∈ l, y ∈ s.visited := by
            intro fuel
            induction fuel with
            | zero => intro x l _ h; simp [trace] at h
            | succ fuel ih2 =>
              intro x l hx h y hy
              simp only [trace, Option.bind_eq_bind] at h
              by_cases hx1 : x = v1
              · subst hx1
                simp [I.root.2.2, trace] at h
                subst h
                simp at hy; subst hy; exact hx
              · obtain ⟨p, p1, p2, -, -⟩ := I.par x hx hx1
                simp only [p1, Option.bind_some] at h
                cases ht : trace s.pred fuel (some p) with
                | none => simp [ht] at h
                | some r =>
                  simp [ht] at h
                  subst h
                  simp only [List.mem_cons] at hy
                  rcases hy with rfl | hy
                  · exact hx
                  · exact ih2 p r p2 ht y hy
          exact fun hc => hn (this _ _ _ hcv k1 n hc)
        refine ⟨n :: l, ?_, .cons (sym _ _ hac) k2, ?_⟩
        · have := mono _ _ _ (Ne.symm hnc) k1 hnl
          simp only [List.length_cons]
          rw [trace]
          simp [List.lookup_cons, this]
        · intro l' hl'
          rcases I.lower sym hl' with ⟨h, -⟩ | h
          · exact absurd h hn
          · simp only [List.length_cons]; omega
      · rw [if_neg h0]
        have I' : BfsInv adj v0 v1 (fun x => if x = n then lev cur + 1 else lev x) done (cur :: (s.queue ++ [n]))
            ((fun x => if x = n then lev cur + 1 else lev x) cur) (n :: s.visited) ((n, some cur) :: s.pred) := by
          have hl : ∀ x ∈ s.visited, (if x = n then lev cur + 1 else lev x) = lev x := by
            intro x hx; rw [if_neg (fun hc : x = n => hn (hc ▸ hx))]
          have hdone : ∀ x ∈ done, x ∈ s.visited := fun x hx => (I.vis x).mpr (.inl hx)
          have hact : ∀ x ∈ cur :: s.queue, x ∈ s.visited := fun x hx => (I.vis x).mpr (.inr hx)
          have hcur : (if cur = n then lev cur + 1 else lev cur) = lev cur := if_neg hnc
          refine ⟨?_, ?_, ?_, ?_, ?_, ?_, ?_, ?_, ?_, ?_⟩
          · intro x
            simp only [List.mem_cons, List.mem_append, List.not_mem_nil, or_false]
            have := I.vis x
            simp only [List.mem_cons] at this
            rw [this]
            constructor
            · rintro (h | h | h | h) <;> simp [h]
            · rintro (h | h | h | h) <;> simp [h]
          · have h1 := I.nodup
            rw [show done ++ cur :: (s.queue ++ [n]) = (done ++ cur :: s.queue) ++ [n] by simp]
            rw [List.nodup_append]
            refine ⟨h1, by simp, ?_⟩
            intro x hx y hy hxy
            simp only [List.mem_singleton] at hy
            subst hy
            subst hxy
            exact hn ((I.vis _).mpr (List.mem_append.mp hx))
          · try dsimp only
            exact ⟨List.mem_cons_of_mem _ I.root.1, by rw [hl _ I.root.1]; exact I.root.2.1, by rw [lookup_ne hne1]; exact I.root.2.2⟩
          · intro x hx hx1
            try dsimp only
            rw [List.mem_cons] at hx
            rcases hx with rfl | hx
            · exact ⟨cur, by simp [List.lookup_cons], by simp [hcv], hac, by rw [if_pos rfl, if_neg hnc]⟩
            · obtain ⟨p, p1, p2, p3, p4⟩ := I.par x hx hx1
              exact ⟨p, by rw [lookup_ne (fun hc : x = n => hn (hc ▸ hx))]; exact p1, by simp [p2], p3, by rw [hl _ hx, hl _ p2]; exact p4⟩
          · intro x hx y hy
            try dsimp only
            obtain ⟨k1, k2⟩ := I.closed x hx y hy
            exact ⟨by simp [k1], by rw [hl _ k1, hl _ (hdone x hx)]; exact k2⟩
          · rw [show cur :: (s.queue ++ [n]) = (cur :: s.queue) ++ [n] by simp, List.pairwise_append]
            refine ⟨I.sorted.imp_of_mem ?_, by simp, ?_⟩
            · intro x y hx hy h
              rw [hl _ (hact x hx), hl _ (hact y hy)]; exact h
            · intro x hx y hy
              simp only [List.mem_singleton] at hy
              subst hy
              rw [hl _ (hact x hx), if_pos rfl]
              exact I.hi x (hact x hx)
          · intro x hx
            dsimp only
            rw [hcur]
            rw [show cur :: (s.queue ++ [n]) = (cur :: s.queue) ++ [n] by simp, List.mem_append, List.mem_singleton] at hx
            rcases hx with hx | rfl
            · rw [hl _ (hact x hx)]; exact I.lo x hx
            · rw [if_pos rfl]; omega
          · intro x hx
            dsimp only
            rw [hcur]
            rw [List.mem_cons] at hx
            rcases hx with rfl | hx
            · rw [if_pos rfl]
              exact Nat.le_refl _
            · rw [hl _ hx]; exact I.hi x hx
          · intro x hx
            dsimp only [List.length_cons]
            rw [List.mem_cons] at hx
            rcases hx with rfl | hx
            · rw [if_pos rfl]; have := I.bnd cur hcv; omega
            · rw [hl _ hx]; have := I.bnd x hx; omega
          · simp only [List.mem_cons, not_or]
            exact ⟨fun hc => h0 hc.symm, I.new⟩
        have := ih _ done ⟨s.queue ++ [n], n :: s.visited, (n, some cur) :: s.pred⟩ (seen ++ [n]) I' (fun x hx => hadj x (by simp [hx])) (by
          intro x hx; simp only [List.mem_append, List.mem_singleton] at hx
          rcases hx with hx | rfl
          · simp [hs x hx]
          · simp)
        simpa using this

theorem BfsInv.live (I : BfsInv adj v0 v1 lev done act L visited pred) {vs : List Nat} (h1 : v1 ∈ vs) (hvs : ∀ x y, adj x y → y ∈ vs) :
    ∀ x ∈ visited, x ∈ vs := by
  intro x hx
  by_cases hx1 : x = v1
  · exact hx1 ▸ h1
  · obtain ⟨p, -, -, h, -⟩ := I.par x hx hx1
    exact hvs p x h

theorem bfsLoop_spec {nb : Nat → Option (List Nat)} {vs : List Nat} (sym : ∀ x y, adj x y → adj y x)
    (hnb : ∀ x ∈ vs, ∃ ns, nb x = some ns ∧ ∀ y, y ∈ ns ↔ adj x y) (hvs : ∀ x y, adj x y → y ∈ vs) (hv1 : v1 ∈ vs) :
    ∀ (k : Nat) (lev : Nat → Nat) (done : List Nat) (s : Bfs) (L : Nat), (∀ c q, s.queue = c :: q → L = lev c) →
    BfsInv adj v0 v1 lev done s.queue L s.visited s.pred → vs.length + 1 ≤ k + done.length →
    (∃ l, bfsLoop nb v0 k s = some (some l) ∧ Path adj v0 v1 l ∧ ∀ l', Path adj v0 v1 l' → l.length ≤ l'.length) ∨
    (bfsLoop nb v0 k s = some none ∧ ¬ ∃ l, Path adj v0 v1 l) := by
  intro k
  induction k with
  | zero =>
    intro lev done s L _ I hk
    have h1 : done.Nodup := (List.nodup_append.mp I.nodup).1
    have := nodup_length_le h1 (fun x hx => I.live hv1 hvs x ((I.vis x).mpr (.inl hx)))
    omega
  | succ k ih =>
    intro lev done s L hL I hk
    obtain ⟨queue, visited, pred⟩ := s
    cases queue with
    | nil =>
      right
      exact ⟨rfl, fun ⟨l, hl⟩ => I.new (I.unreachable sym hl)⟩
    | cons cur q =>
      dsimp only at I hL
      have hc := hL cur q rfl
      subst hc
      have hcv : cur ∈ visited := (I.vis cur).mpr (.inr (by simp))
      obtain ⟨ns, n1, n2⟩ := hnb cur (I.live hv1 hvs cur hcv)
      have hspec := visit_spec sym cur ns lev done ⟨q, visited, pred⟩ [] I (fun n hn => (n2 n).mp hn) (by simp)
      simp only [bfsLoop, n1, Option.bind_eq_bind, Option.bind_some]
      generalize hr : visit v0 cur ns ⟨q, visited, pred⟩ = r at hspec
      obtain ⟨s', b⟩ := r
      rcases hspec with ⟨h1, h2⟩ | ⟨h1, lev', h2, h3⟩
      · dsimp only at h1 h2
        subst h1
        obtain ⟨l, l1, l2, l3⟩ := h2.ok
        left
        exact ⟨l, by simp [l1], l2, l3⟩
      · dsimp only at h1 h2 h3
        subst h1
        have hcl : ∀ x ∈ done ++ [cur], ∀ y, adj x y → y ∈ s'.visited ∧ lev' y ≤ lev' x + 1 := by
          intro x hx y hy
          rw [List.mem_append, List.mem_singleton] at hx
          rcases hx with hx | rfl
          · exact h2.closed x hx y hy
          · have hyv := h3 y (by simpa using (n2 y).mpr hy)
            exact ⟨hyv, h2.hi y hyv⟩
        have hvis : ∀ x, x ∈ s'.visited ↔ x ∈ done ++ [cur] ∨ x ∈ s'.queue := by
          intro x
          rw [h2.vis x]
          simp only [List.mem_cons, List.mem_append, List.not_mem_nil, or_false, or_assoc]
        have hnd : (done ++ [cur] ++ s'.queue).Nodup := by have := h2.nodup; simpa using this
        have hsort := (List.pairwise_cons.mp h2.sorted).2
        have hlen : vs.length + 1 ≤ k + (done ++ [cur]).length := by simp; omega
        cases hs : s'.queue with
        | nil =>
          refine ih lev' (done ++ [cur]) s' (lev' cur) (by simp [hs]) ⟨hvis, hnd, h2.root, h2.par, hcl, hsort, ?_, h2.hi, h2.bnd, h2.new⟩ hlen
          simp [hs]
        | cons c r =>
          have hcl' : lev' cur ≤ lev' c := h2.lo c (by simp [hs])
          refine ih lev' (done ++ [cur]) s' (lev' c) (by simp [hs]) ⟨hvis, hnd, h2.root, h2.par, hcl, hsort, ?_, ?_, h2.bnd, h2.new⟩ hlen
          · intro x hx
            rw [hs] at hx hsort
            rw [List.mem_cons] at hx
            rcases hx with rfl | hx
            · exact Nat.le_refl _
            · exact (List.pairwise_cons.mp hsort).1 x hx
          · intro x hx
            have := h2.hi x hx
            omega

variable {VP EP FP : Type}

theorem adj_symm {t : Topo} (w : t.WF) (x y : Nat) (h : t.Adj x y) : t.Adj y x := by
  obtain ⟨e, h1, h2, h3⟩ := h
  exact ⟨t.twn e, w.twn_live _ h1, h3, by rw [w.twn_twn _ h1, h2]⟩

end Verif.Mesh
namespace Verif.MeshProps
open Mesh
variable {VP EP FP : Type}

/-- C27: `shortest_path` never panics. A returned list is a path along edges with the least number of vertices,
`None` is returned exactly if there is no path. -/
theorem c27_shortest_path {m : Mesh VP EP FP} (g : m.Good) {a b : Nat} (ha : m.topo.V a) (hb : m.topo.V b) (dbg : Bool) :
    (∃ l, m.shortestPath dbg a b = some (some l) ∧ Path m.topo.Adj a b l ∧ ∀ l', Path m.topo.Adj a b l' → l.length ≤ l'.length) ∨
    (m.shortestPath dbg a b = some none ∧ ¬ ∃ l, Path m.topo.Adj a b l) := by
  have w := g.wf
  rw [shortestPath]
  by_cases hab : a = b
  · subst hab
    left
    refine ⟨[a], by simp, .one _, fun l' h => ?_⟩
    cases h <;> simp
  · rw [if_neg hab]
    refine bfsLoop_spec (vs := m.vertexIds) (adj_symm w) ?_ ?_ (mem_vertexIds.mpr hb) _ (fun _ => 0) [] ⟨[b], [b], [(b, none)]⟩ 0 ?_ ?_ ?_
    · intro x hx
      obtain ⟨ns, h1, h2⟩ := c16_neighbors g (mem_vertexIds.mp hx)
      exact ⟨ns, h1 dbg, h2⟩
    · rintro x y ⟨e, h1, h2, h3⟩
      rw [mem_vertexIds, ← h3]
      exact w.org_live _ (w.twn_live _ h1)
    · intro c q h; rfl
    · refine ⟨by simp, by simp, by simp [List.lookup_cons], by simp, by simp, by simp, by simp, by simp, by simp, by simpa using hab⟩
    · simp

example : ∃ m, sample = some m ∧ m.Good ∧ m.topo.V 3 ∧ m.topo.V 2 ∧ m.shortestPath true 3 2 = some (some [3, 0, 2]) :=
  ⟨sample.get (by decide +kernel), by simp, goodB_ok (by decide +kernel), by decide +kernel, by decide +kernel, by decide +kernel⟩

end Verif.MeshProps
