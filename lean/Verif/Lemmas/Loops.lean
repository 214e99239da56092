import Verif.Spec.Loft
import Verif.Props.Path
/-
Boundary loops as lists, and how attaching a vertex or closing a face changes them.
-/
namespace Verif

theorem path_append {f : Nat → Nat} {l l' : List Nat} {x z : Nat} : Steps f (l ++ l') x z ↔ ∃ y, Steps f l x y ∧ Steps f l' y z := by
  induction l generalizing x with
  | nil => simp [Steps]
  | cons a l ih => simp [Steps, ih, and_assoc]

theorem path_congr {f g : Nat → Nat} {l : List Nat} {x y : Nat} (h : ∀ a ∈ l, g a = f a) (p : Steps f l x y) : Steps g l x y := by
  induction l generalizing x with
  | nil => exact p
  | cons a l ih =>
    refine ⟨p.1, ?_⟩
    rw [h a (by simp)]
    exact ih (fun b hb => h b (by simp [hb])) p.2

theorem path_itr {f : Nat → Nat} {l : List Nat} {x y : Nat} (p : Steps f l x y) : itr f l.length x = y ∧ l = (List.range l.length).map (fun i => itr f i x) := by
  induction l generalizing x with
  | nil => exact ⟨p, by simp⟩
  | cons a l ih =>
    obtain ⟨rfl, p⟩ := p
    obtain ⟨h1, h2⟩ := ih p
    refine ⟨h1, ?_⟩
    rw [List.length_cons, List.range_succ_eq_map, List.map_cons, List.map_map]
    congr 1

theorem path_orbit {f : Nat → Nat} {a : Nat} {l : List Nat} (hn : (a :: l).Nodup) (p : Steps f (a :: l) a a) : IsOrbit f a (a :: l) :=
  ⟨(path_itr p).2, by simp, (path_itr p).1, hn⟩

theorem path_of_orbit {f : Nat → Nat} : ∀ (n a : Nat), Steps f ((List.range n).map (fun i => itr f i a)) a (itr f n a)
  | 0, a => rfl
  | n + 1, a => by
    rw [List.range_succ_eq_map, List.map_cons, List.map_map]
    exact ⟨rfl, path_of_orbit n (f a)⟩

namespace Loop
variable {t : Topo} {fo : Option Nat}

theorem rot {A B : List Nat} (h : Loop t (A ++ B) fo) : Loop t (B ++ A) fo := by
  refine ⟨?_, ?_, ?_, ?_⟩
  · exact (List.perm_append_comm.nodup_iff).mp h.nodup
  · intro e he; exact h.live e (List.mem_append.mpr (List.mem_append.mp he).symm)
  · intro e he; exact h.fac e (List.mem_append.mpr (List.mem_append.mp he).symm)
  · obtain ⟨x, hx⟩ := h.path
    obtain ⟨y, h1, h2⟩ := path_append.mp hx
    exact ⟨y, path_append.mpr ⟨x, h2, h1⟩⟩

theorem next {a b : Nat} {l : List Nat} (h : Loop t (a :: b :: l) fo) : t.nxt a = b := by
  obtain ⟨x, -, h1, -⟩ := h.path
  exact h1

theorem mid {a b : Nat} {A B : List Nat} (h : Loop t (A ++ a :: b :: B) fo) : t.nxt a = b := (h.rot (A := A)).next

theorem wrap {a b : Nat} {A : List Nat} (h : Loop t (a :: (A ++ [b])) fo) : t.nxt b = a :=
  (Loop.rot (A := a :: A) (B := [b]) (by simpa using h)).next

theorem pos {a : Nat} {l : List Nat} (h : Loop t (a :: l) fo) : Steps t.nxt (a :: l) a a := by
  obtain ⟨x, h1, h2⟩ := h.path
  subst h1
  exact ⟨rfl, h2⟩

theorem orbit {a : Nat} {l : List Nat} (h : Loop t (a :: l) fo) : IsOrbit t.nxt a (a :: l) := path_orbit h.nodup h.pos

theorem of_orbit (w : t.WF) {a : Nat} {l : List Nat} (h : IsOrbit t.nxt a l) (ha : t.E a) : Loop t l (t.fac a) := by
  refine ⟨h.nodup, ?_, ?_, a, ?_⟩
  · intro e he
    exact ((h.mem_iff e).mp he).closed w.nxt_live ha
  · intro e he
    exact (((h.mem_iff e).mp he).closed (P := fun x => t.E x ∧ t.fac x = t.fac a)
      (fun x hx => ⟨w.nxt_live _ hx.1, by rw [w.fac_nxt _ hx.1, hx.2]⟩) ⟨ha, rfl⟩).2
  · have := path_of_orbit (f := t.nxt) l.length a
    rw [← h.eq, h.close] at this
    exact this

theorem congr {t' : Topo} {l : List Nat} (h : Loop t l fo) (hE : ∀ e ∈ l, t'.E e) (hn : ∀ e ∈ l, t'.nxt e = t.nxt e) (hf : ∀ e ∈ l, t'.fac e = t.fac e) : Loop t' l fo := by
  refine ⟨h.nodup, hE, fun e he => by rw [hf e he, h.fac e he], ?_⟩
  obtain ⟨x, hx⟩ := h.path
  exact ⟨x, path_congr hn hx⟩

theorem dangling {i v e1 e2 : Nat} {rest : List Nat} (h : Loop t (i :: rest) none) (h1 : ¬ t.E e1) (h2 : ¬ t.E e2) (h12 : e1 ≠ e2) :
    Loop (t.addDangling i (t.nxt i) v e1 e2) (i :: e1 :: e2 :: rest) none := by
  have ne1 : ∀ x ∈ i :: rest, x ≠ e1 := fun x hx hc => h1 (hc ▸ h.live x hx)
  have ne2 : ∀ x ∈ i :: rest, x ≠ e2 := fun x hx hc => h2 (hc ▸ h.live x hx)
  have hnd := h.nodup
  rw [List.nodup_cons] at hnd
  have hi1 := ne1 i (by simp)
  have hi2 := ne2 i (by simp)
  refine ⟨?_, ?_, ?_, i, ?_⟩
  · simp only [List.nodup_cons, List.mem_cons, not_or]
    exact ⟨⟨hi1, hi2, hnd.1⟩, ⟨h12, fun hc => ne1 e1 (by simp [hc]) rfl⟩, fun hc => ne2 e2 (by simp [hc]) rfl, hnd.2⟩
  · intro e he
    simp only [List.mem_cons] at he
    rcases he with rfl | rfl | rfl | he
    · exact .inr (.inr (h.live _ (by simp)))
    · exact .inl rfl
    · exact .inr (.inl rfl)
    · exact .inr (.inr (h.live _ (by simp [he])))
  · intro e he
    have hh := h.fac e
    simp only [List.mem_cons] at he hh
    simp only [Topo.addDangling]
    grind
  · obtain ⟨-, p⟩ := h.pos
    refine ⟨rfl, by simp [Topo.addDangling, hi1, hi2], by simp [Topo.addDangling], ?_⟩
    have : (t.addDangling i (t.nxt i) v e1 e2).nxt e2 = t.nxt i := by simp [Topo.addDangling, h12.symm]
    rw [this]
    refine path_congr (fun a ha => ?_) p
    have : a ≠ i := fun hc => hnd.1 (hc ▸ ha)
    simp [Topo.addDangling, ne1 a (by simp [ha]), ne2 a (by simp [ha]), this]

theorem dangling_other {i v e1 e2 f : Nat} {l : List Nat} (h : Loop t l (some f)) (hi : t.fac i = none) (h1 : ¬ t.E e1) (h2 : ¬ t.E e2) :
    Loop (t.addDangling i (t.nxt i) v e1 e2) l (some f) := by
  have ne1 : ∀ x ∈ l, x ≠ e1 := fun x hx hc => h1 (hc ▸ h.live x hx)
  have ne2 : ∀ x ∈ l, x ≠ e2 := fun x hx hc => h2 (hc ▸ h.live x hx)
  have ne3 : ∀ x ∈ l, x ≠ i := fun x hx hc => by have := h.fac x hx; rw [hc, hi] at this; cases this
  refine h.congr (fun e he => .inr (.inr (h.live e he))) ?_ ?_ <;> intro e he <;> simp [Topo.addDangling, ne1 e he, ne2 e he, ne3 e he]

section close
variable {a b e1 e2 f : Nat} {S R l0 : List Nat}

theorem insert_pair (h : Loop t (a :: (S ++ b :: R)) none) (h1 : ¬ t.E e1) (h2 : ¬ t.E e2) (h12 : e1 ≠ e2) :
    Loop (t.insertEdge a b e1 e2) (a :: e1 :: R) none ∧ Loop (t.insertEdge a b e1 e2) (e2 :: (S ++ [b])) none := by
  have ne1 : ∀ x ∈ a :: (S ++ b :: R), x ≠ e1 := fun x hx hc => h1 (hc ▸ h.live x hx)
  have ne2 : ∀ x ∈ a :: (S ++ b :: R), x ≠ e2 := fun x hx hc => h2 (hc ▸ h.live x hx)
  have hnd := h.nodup
  have hlive := h.live
  have hfac := h.fac
  obtain ⟨-, p⟩ := h.pos
  obtain ⟨y, p1, p2⟩ := path_append.mp p
  obtain ⟨rfl, p3⟩ := p2
  simp only [List.nodup_cons, List.nodup_append, List.mem_append, List.mem_cons, not_or] at hnd
  obtain ⟨⟨n1, n2, n3⟩, n4, ⟨n5, n6⟩, n7⟩ := hnd
  simp only [List.mem_cons, List.mem_append] at ne1 ne2 hlive hfac
  have a1 := ne1 a (.inl rfl)
  have a2 := ne2 a (.inl rfl)
  have b1 := ne1 y (.inr (.inr (.inl rfl)))
  have b2 := ne2 y (.inr (.inr (.inl rfl)))
  constructor
  · refine ⟨?_, ?_, ?_, a, rfl, ?_, ?_⟩
    · simp only [List.nodup_cons, List.mem_cons, not_or]
      exact ⟨⟨a1, n3⟩, fun hc => ne1 e1 (.inr (.inr (.inr hc))) rfl, n6⟩
    · intro e he
      simp only [List.mem_cons] at he
      simp only [Topo.insertEdge]
      grind
    · intro e he
      simp only [List.mem_cons] at he
      simp only [Topo.insertEdge]
      grind
    · simp [Topo.insertEdge, a1, a2]
    · have : (t.insertEdge a y e1 e2).nxt e1 = t.nxt y := by simp [Topo.insertEdge]
      rw [this]
      refine path_congr (fun c hc => ?_) p3
      have c1 : c ≠ a := fun h => n3 (h ▸ hc)
      have c2 : c ≠ y := fun h => n5 (h ▸ hc)
      simp [Topo.insertEdge, ne1 c (.inr (.inr (.inr hc))), ne2 c (.inr (.inr (.inr hc))), c1, c2]
  · refine ⟨?_, ?_, ?_, e2, rfl, ?_⟩
    · simp only [List.nodup_cons, List.nodup_append, List.mem_append, List.mem_singleton, not_or]
      refine ⟨⟨fun hc => ne2 e2 (.inr (.inl hc)) rfl, fun hc => b2 hc.symm⟩, n4, by simp, ?_⟩
      rintro x hx z rfl
      exact n7 x hx z (.inl rfl)
    · intro e he
      simp only [List.mem_cons, List.mem_append, List.mem_singleton, List.not_mem_nil, or_false] at he
      simp only [Topo.insertEdge]
      grind
    · intro e he
      simp only [List.mem_cons, List.mem_append, List.mem_singleton, List.not_mem_nil, or_false] at he
      simp only [Topo.insertEdge]
      grind
    · have : (t.insertEdge a y e1 e2).nxt e2 = t.nxt a := by simp [Topo.insertEdge, h12.symm]
      rw [this]
      refine path_append.mpr ⟨y, path_congr (fun c hc => ?_) p1, rfl, ?_⟩
      · have c1 : c ≠ a := fun h => n1 (h ▸ hc)
        have c2 : c ≠ y := n7 c hc y (.inl rfl)
        simp [Topo.insertEdge, ne1 c (.inr (.inl hc)), ne2 c (.inr (.inl hc)), c1, c2]
      · have : y ≠ a := fun h => n2 h.symm
        simp [Topo.insertEdge, b1, b2, this, Steps]

theorem close (h : Loop t (a :: (S ++ b :: R)) none) (h1 : ¬ t.E e1) (h2 : ¬ t.E e2) (h12 : e1 ≠ e2)
    (hl : IsOrbit (t.insertEdge a b e1 e2).nxt a l0) :
    Loop ((t.insertEdge a b e1 e2).addFace f a (· ∈ l0)) (a :: e1 :: R) (some f) ∧
    Loop ((t.insertEdge a b e1 e2).addFace f a (· ∈ l0)) (e2 :: (S ++ [b])) none ∧ l0 = a :: e1 :: R := by
  obtain ⟨p1, p2⟩ := h.insert_pair h1 h2 h12
  have hl0 : l0 = a :: e1 :: R := hl.unique p1.orbit
  refine ⟨⟨p1.nodup, p1.live, fun e he => by simp only [Topo.addFace, hl0, he, if_true], p1.path⟩, p2.congr p2.live (fun _ _ => rfl) ?_, hl0⟩
  intro e he
  have : e ∉ l0 := by
    rw [hl0]
    have ne1 : ∀ x ∈ a :: (S ++ b :: R), x ≠ e1 := fun x hx hc => h1 (hc ▸ h.live x hx)
    have ne2 : ∀ x ∈ a :: (S ++ b :: R), x ≠ e2 := fun x hx hc => h2 (hc ▸ h.live x hx)
    have hnd := h.nodup
    simp only [List.nodup_cons, List.nodup_append, List.mem_append, List.mem_cons, not_or] at hnd
    simp only [List.mem_cons, List.mem_append, List.mem_singleton, List.not_mem_nil, or_false] at he ne1 ne2 ⊢
    grind
  simp only [Topo.addFace, this, if_false]

theorem close_other {g : Nat} {l : List Nat} (h : Loop t (a :: (S ++ b :: R)) none) (h1 : ¬ t.E e1) (h2 : ¬ t.E e2)
    (hl : l0 = a :: e1 :: R) (h' : Loop t l (some g)) :
    Loop ((t.insertEdge a b e1 e2).addFace f a (· ∈ l0)) l (some g) := by
  have ne1 : ∀ x ∈ l, x ≠ e1 := fun x hx hc => h1 (hc ▸ h'.live x hx)
  have ne2 : ∀ x ∈ l, x ≠ e2 := fun x hx hc => h2 (hc ▸ h'.live x hx)
  have ne3 : ∀ x ∈ l, x ∉ a :: (S ++ b :: R) := fun x hx hc => by have := h'.fac x hx; rw [h.fac x hc] at this; cases this
  simp only [List.mem_cons, List.mem_append, not_or] at ne3
  refine h'.congr (fun e he => .inr (.inr (h'.live e he))) ?_ ?_ <;> intro e he <;> have := ne3 e he
  · simp [Topo.addFace, Topo.insertEdge, ne1 e he, ne2 e he, this]
  · simp [Topo.addFace, Topo.insertEdge, ne1 e he, ne2 e he, this, hl]

end close
end Loop
end Verif
