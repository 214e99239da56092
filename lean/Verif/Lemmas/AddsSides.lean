import Verif.Lemmas.AddsTri
import Verif.Props.Solids
import Verif.Lemmas.Newell
/-
Sides and corners of the faces of a closed mesh that has been built from nothing.
-/
namespace Verif.R3
open Mesh MeshProps

theorem rotate_map_succ {α : Type} (l : List α) : l.rotate 1 = rot l := by cases l <;> simp [rot]

theorem IsOrbit.map_next {f : Nat → Nat} {a : Nat} {l : List Nat} (h : IsOrbit f a l) : l.map f = rot l := by
  have e2 := h.eq
  have hp := h.pos
  have hc := h.close
  obtain ⟨k, hk⟩ : ∃ k, l.length = k + 1 := ⟨l.length - 1, by omega⟩
  rw [hk] at e2 hc
  have hs : ∀ i a, f (itr f i a) = itr f (i + 1) a := by
    intro i
    induction i with
    | zero => intro a; rfl
    | succ i ih => intro a; exact ih _
  conv => lhs; rw [e2, List.range_succ]
  conv => rhs; rw [e2, List.range_succ_eq_map]
  simp [rot, hs, hc, Function.comp_def]
  rfl

theorem Loop.map_next {t : Topo} {l : List Nat} {fo : Option Nat} (h : Loop t l fo) : l.map t.nxt = rot l := by
  by_cases hl : l = []
  · subst hl; rfl
  · obtain ⟨x, -, ho⟩ := Loop.orbit h hl
    exact IsOrbit.map_next ho

theorem rot_map {α β : Type} (f : α → β) (l : List α) : rot (l.map f) = (rot l).map f := by cases l <;> simp [rot]

theorem zip_map_same {α β γ : Type} (f : α → β) (g : α → γ) (l : List α) : (l.map f).zip (l.map g) = l.map fun x => (f x, g x) := by
  induction l with
  | nil => rfl
  | cons a l ih => simp [ih]

/-- the corners of a loop -/
theorem Loop.circ3 {t : Topo} {l : List Nat} {fo : Option Nat} (h : Loop t l fo) {α : Type} (g : Nat → α) :
    circ3 (l.map g) = l.map fun e => (g e, g (t.nxt e), g (t.nxt (t.nxt e))) := by
  have h1 := Loop.map_next h
  rw [R3.circ3, rot_map, rot_map, ← h1]
  have h2 : rot (l.map t.nxt) = (l.map t.nxt).map t.nxt := by rw [rot_map, ← h1]
  rw [h2]
  simp only [List.map_map]
  rw [zip_map_same, zip_map_same]
  rfl

theorem Loop.sides {t : Topo} {l : List Nat} {fo : Option Nat} (h : Loop t l fo) {α : Type} (g : Nat → α) : Geom.sides (l.map g) = l.map fun e => (g e, g (t.nxt e)) := by
  have h1 := Loop.map_next h
  rw [← circ2_eq, circ2, rot_map, ← h1, List.map_map, zip_map_same]
  rfl

variable {VP EP FP : Type} {m : Mesh VP EP FP} {de : EP} {df : FP} {vs : List (Nat × VP)} {fl : List (List Nat)}

theorem adds_loop (a : Adds empty m de df [] [] vs fl) {e : Nat} (he : m.topo.E e) : ∃ f L, Loop m.topo L (some f) ∧ e ∈ L ∧ L.map m.topo.org ∈ fl := by
  obtain ⟨es, fs, G, h⟩ := a
  have hes : e ∈ es := by
    refine Classical.byContradiction fun hn => ?_
    have h1 := G.edges e (by simp) hn
    obtain ⟨x, hx⟩ := he
    have hx' : m.edge e = some x := hx
    rw [h1] at hx'
    simp [edge, empty, Store.get?, Store.empty] at hx'
  obtain ⟨p, hp, hep⟩ := ((G.cover e).mp (.inr hes)).resolve_left (by simp)
  obtain ⟨-, hL, -, -⟩ := G.newF p hp
  exact ⟨p.1, p.2, hL, hep, by rw [← h]; exact List.mem_map.mpr ⟨p, hp, rfl⟩⟩

/-- what holds for the sides of all listed faces holds for every half-edge -/
theorem adds_sides (a : Adds empty m de df [] [] vs fl) {Q : Nat → Nat → Prop} (h : ∀ F ∈ fl, ∀ p ∈ Geom.sides F, Q p.1 p.2) {e : Nat} (he : m.topo.E e) :
    Q (m.topo.org e) (m.topo.org (m.topo.twn e)) := by
  obtain ⟨f, L, hL, heL, hF⟩ := adds_loop a he
  rw [← a.good.wf.org_nxt e he]
  refine h _ hF (m.topo.org e, m.topo.org (m.topo.nxt e)) ?_
  rw [Loop.sides hL]
  exact List.mem_map.mpr ⟨e, heL, rfl⟩

/-- every side of a listed face is an edge -/
theorem adds_edge (a : Adds empty m de df [] [] vs fl) {F : List Nat} (hF : F ∈ fl) {p : Nat × Nat} (hp : p ∈ Geom.sides F) :
    ∃ e, m.topo.E e ∧ m.topo.org e = p.1 ∧ m.topo.org (m.topo.twn e) = p.2 := by
  have w := a.good.wf
  obtain ⟨es, fs, G, h⟩ := a
  rw [← h] at hF
  obtain ⟨q, hq, rfl⟩ := List.mem_map.mp hF
  obtain ⟨-, hL, -, -⟩ := G.newF q hq
  rw [Loop.sides hL] at hp
  obtain ⟨e, he, rfl⟩ := List.mem_map.mp hp
  exact ⟨e, hL.live e he, rfl, (w.org_nxt e (hL.live e he)).symm⟩

/-- what holds for the corners of all listed faces holds at every half-edge -/
theorem adds_corners (a : Adds empty m de df [] [] vs fl) {Q : Nat → Nat → Nat → Prop} (h : ∀ F ∈ fl, ∀ p ∈ circ3 F, Q p.1 p.2.1 p.2.2) {e : Nat} (he : m.topo.E e) :
    Q (m.topo.org (m.topo.prv e)) (m.topo.org e) (m.topo.org (m.topo.nxt e)) := by
  have w := a.good.wf
  have hp := w.prv_live e he
  obtain ⟨f, L, hL, heL, hF⟩ := adds_loop a hp
  refine h _ hF (m.topo.org (m.topo.prv e), m.topo.org e, m.topo.org (m.topo.nxt e)) ?_
  rw [Loop.circ3 hL]
  refine List.mem_map.mpr ⟨_, heL, ?_⟩
  rw [w.nxt_prv e he]

/-- quadrilaterals between two rows -/
theorem mem_hem : ∀ (k : Nat) (U W : List Nat), k + 1 ≤ U.length → k + 1 ≤ W.length → ∀ F ∈ hemFaces 2 2 k U W,
    ∃ i, ∃ (_ : i < k) (h1 : i + 1 < U.length) (h2 : i + 1 < W.length), F = [U[i], W[i], W[i + 1], U[i + 1]]
  | 0, _, _, _, _, F, hF => by simp [hemFaces] at hF
  | k + 1, a :: b :: U, c :: d :: W, hU, hW, F, hF => by
    simp only [hemFaces, List.mem_cons] at hF
    rcases hF with rfl | hF
    · exact ⟨0, by omega, by simp, by simp, rfl⟩
    · obtain ⟨i, h0, h1, h2, e⟩ := mem_hem k _ _ (by simpa using hU) (by simpa using hW) F hF
      exact ⟨i + 1, by omega, by simpa using h1, by simpa using h2, by simpa using e⟩
  | k + 1, [], _, hU, _, _, _ => by simp at hU
  | k + 1, [_], _, hU, _, _, _ => by simp at hU
  | k + 1, _ :: _ :: _, [], _, hW, _, _ => by simp at hW
  | k + 1, _ :: _ :: _, [_], _, hW, _, _ => by simp at hW

/-- triangles between two rows -/
theorem mem_tri : ∀ (U W : List Nat), U.length = W.length → ∀ F ∈ triFaces U W,
    ∃ i, ∃ (h1 : i + 1 < U.length) (h2 : i + 1 < W.length), F = [U[i], U[i + 1], W[i]] ∨ F = [U[i + 1], W[i + 1], W[i]]
  | a :: b :: U, c :: d :: W, h, F, hF => by
    simp only [triFaces, List.mem_cons] at hF
    rcases hF with rfl | rfl | hF
    · exact ⟨0, by simp, by simp, .inl rfl⟩
    · exact ⟨0, by simp, by simp, .inr rfl⟩
    · obtain ⟨i, h1, h2, e⟩ := mem_tri (b :: U) (d :: W) (by simpa using h) F hF
      exact ⟨i + 1, by simpa using h1, by simpa using h2, by simpa using e⟩
  | [], _, _, F, hF => by simp [triFaces] at hF
  | [_], _, _, F, hF => by simp [triFaces] at hF
  | _ :: _ :: _, [], h, _, _ => by simp at h
  | _ :: _ :: _, [_], h, _, _ => by simp at h

theorem mem_fan {U : List Nat} {v : Nat} {F : List Nat} (hF : F ∈ fanFaces U v) : ∃ p ∈ Geom.sides U, F = [p.1, p.2, v] := by
  rw [← circ2_eq, circ2]
  have e : rot U = U.drop 1 ++ U.take 1 := by cases U <;> simp [rot]
  rw [e]
  obtain ⟨i, hi, rfl⟩ := List.getElem_of_mem hF
  simp only [fanFaces, List.length_zipWith] at hi
  exact ⟨(U[i], (U.drop 1 ++ U.take 1)[i]), List.mem_iff_getElem.mpr ⟨i, by simpa using hi, by simp⟩, by simp [fanFaces]⟩

/-- entries of a closed row -/
theorem cyc_sides {α : Type} {U : List α} {i : Nat} (h : i + 1 < (cyc U).length) : ((cyc U)[i], (cyc U)[i + 1]) ∈ Geom.sides U := by
  cases U with
  | nil => simp [cyc] at h
  | cons a U =>
    have key : ∀ (l : List α) (i : Nat) (h : i + 1 < l.length), (l[i], l[i + 1]) ∈ Geom.pairs l := by
      intro l
      induction l with
      | nil => intro i h; simp at h
      | cons x l ih =>
        intro i h
        cases l with
        | nil => simp at h
        | cons y l =>
          cases i with
          | zero => simp [Geom.pairs]
          | succ i => simpa [Geom.pairs] using .inr (ih i (by simpa using h))
    have : cyc (a :: U) = a :: U ++ [a] := by simp [cyc]
    simp only [this] at h ⊢
    exact key _ i h

theorem turn_rotated {α : Type} (l : List α) : turn l ~r l.reverse := by
  have : l.reverse = (l.drop 2).reverse ++ (l.take 2).reverse := by rw [← List.reverse_append, List.take_append_drop]
  rw [turn, this]
  exact List.isRotated_append

theorem sides_reverse {α : Type} (l : List α) : (Geom.sides l.reverse).Perm ((Geom.sides l).map Prod.swap) := by
  cases l with
  | nil => exact .refl _
  | cons a l =>
    have key : ∀ l : List α, Geom.pairs l.reverse = ((Geom.pairs l).map Prod.swap).reverse := by
      intro l
      induction l with
      | nil => rfl
      | cons x l ih =>
        cases l with
        | nil => rfl
        | cons y l =>
          have happ : ∀ (k : List α) (a b : α), Geom.pairs (k ++ [a] ++ [b]) = Geom.pairs (k ++ [a]) ++ [(a, b)] := by
            intro k
            induction k with
            | nil => intro a b; rfl
            | cons z k ihk =>
              intro a b
              cases k with
              | nil => rfl
              | cons z' k => simpa [Geom.pairs] using ihk a b
          rw [List.reverse_cons, List.reverse_cons, happ, ← List.reverse_cons, ih]
          simp [Geom.pairs]
    have h1 : (a :: l).reverse ~r a :: l.reverse := by
      rw [List.reverse_cons]; exact ⟨l.reverse.length, by rw [List.rotate_append_length_eq]; rfl⟩
    refine (Geom.sides_rotated h1).trans ?_
    have : a :: l.reverse ++ [a] = (a :: l ++ [a]).reverse := by simp
    rw [Geom.sides, this, key, Geom.sides]
    exact List.reverse_perm _

theorem sides_map {A B : Type} (f : A → B) (l : List A) : Geom.sides (l.map f) = (Geom.sides l).map fun p => (f p.1, f p.2) := by
  have key : ∀ (l : List A) , Geom.pairs (l.map f) = (Geom.pairs l).map fun p => (f p.1, f p.2) := by
    intro l
    induction l with
    | nil => rfl
    | cons x l ih =>
      cases l with
      | nil => rfl
      | cons y l => simpa [Geom.pairs] using ih
  cases l with
  | nil => rfl
  | cons a l => simpa [Geom.sides] using key (a :: l ++ [a])

theorem sides_turn {α : Type} (l : List α) : (Geom.sides (turn l)).Perm ((Geom.sides l).map Prod.swap) := (Geom.sides_rotated (turn_rotated l)).trans (sides_reverse l)

end Verif.R3
