import Verif.Props.Delaunay
import Verif.Lemmas.Decide
/-
C77: a monotone polygon is triangulated completely and without a clockwise triangle.
-/
namespace Verif.GeomProps
open Geom Triangulation
variable {K : Type} [Field K] [LinearOrder K] [IsStrictOrderedRing K] (σ : Sgn K) (ps : List (P2 K)) (ids : List Nat) {α β ep : K}

/-- C77: a polygon that is monotone in some direction, given from the top vertex to the bottom vertex. Whatever side the bottom vertex is added to, the linear triangulator finishes.
There are two triangles less than vertices, none of them is clockwise, and their sides cancel with the boundary of the polygon. `Far`: no two vertices are closer than the bound under which `angle` is zero. -/
theorem c77_linear (hn : ids.Nodup) (hlen : ids.length = ps.length) (hep : Far ps α β ep) {v0 w : Nat} {l : List (Bool × Nat)} (M : Geom.Monotone ps α β v0 l w) (h0 : v0 < ps.length) (hl : ∀ x ∈ l, x.2 < ps.length) (hw : w < ps.length)
    (b : Bool) (t : Triangulation) :
    ∃ c t' ts, feed (linear (angPosOf σ ep ps) (angNegOf σ ep ps) ids) (l ++ [(b, w)]) ((linear (angPosOf σ ep ps) (angNegOf σ ep ps) ids).new v0) t = some (c, t') ∧
      (linear (angPosOf σ ep ps) (angNegOf σ ep ps) ids).finish c t' = some t' ∧ Emits t t' ids ts ∧ ts.length = l.length ∧ (∀ X ∈ ts, Turns ps X) ∧
      Cancels (ts.flatMap triSides ++ (sides (chainPath (l ++ [(b, w)]) [v0])).map Prod.swap) := by
  have hlt : ∀ x ∈ l ++ [(b, w)], x.2 < ids.length := by
    intro x hx
    rcases List.mem_append.mp hx with hx | hx
    · rw [hlen]; exact hl x hx
    · simp at hx; subst hx; rw [hlen]; exact hw
  obtain ⟨c, t', h1, -⟩ := c43_chain (angPosOf σ ep ps) (angNegOf σ ep ps) ids v0 (l ++ [(b, w)]) t (by omega) hlt
  obtain ⟨e1, e2⟩ := linear_feed (angPosOf σ ep ps) (angNegOf σ ep ps) ids (l ++ [(b, w)]) ⟨[v0], .none, some v0, none⟩ c t t' ⟨by simp, by simp⟩ h1
  obtain ⟨f1, f2⟩ := funnel_all σ ps α β hep M h0 hl hw b
  simp only at e1 e2
  have hf : (linear (angPosOf σ ep ps) (angNegOf σ ep ps) ids).finish c t' = some t' :=
    (c43_finish _ _ ids v0 _ (by simp) t t' t' c h1).1.mpr ⟨by rw [← f2, ← e1], rfl⟩
  obtain ⟨ts, g1, g2, g3⟩ := c43_boundary (linearLawful _ _ ids) v0 _ (by simp) t t' t' c h1 hf
  have := emits_unique hn e2 g1
  subst this
  refine ⟨c, t', _, h1, hf, e2, ?_, f1, g2⟩
  rw [chainPath_length] at g3
  simp at g3; omega

/-- C77: the same holds for the Delaunay triangulator, in debug and release builds. -/
theorem c77_delaunay (hn : ids.Nodup) (hlen : ids.length = ps.length) (hep : Far ps α β ep) {v0 w : Nat} {l : List (Bool × Nat)} (M : Geom.Monotone ps α β v0 l w) (h0 : v0 < ps.length) (hl : ∀ x ∈ l, x.2 < ps.length)
    (hw : w < ps.length) (b : Bool) (t : Triangulation) :
    ∃ (c : DelChain) (t' : Triangulation) (ts : List (Nat × Nat × Nat)), (∀ dbg, feed (delaunay σ ep dbg ps ids) (l ++ [(b, w)]) ((delaunay σ ep dbg ps ids).new v0) t = some (c, t') ∧
      (delaunay σ ep dbg ps ids).finish c t' = some t') ∧ Emits t t' ids ts ∧ ts.length = l.length ∧ (∀ X ∈ ts, Turns ps X) ∧
      Cancels (ts.flatMap triSides ++ (sides (chainPath (l ++ [(b, w)]) [v0])).map Prod.swap) := by
  have hd : (v0 :: (l ++ [(b, w)]).map Prod.snd).Nodup := by
    have := M.down
    rw [List.map_append]
    refine List.Pairwise.imp ?_ this
    rintro x y hxy rfl
    exact absurd hxy (lt_irrefl _)
  have hlt : ∀ x ∈ v0 :: (l ++ [(b, w)]).map Prod.snd, x < ids.length := by
    intro x hx
    simp only [List.map_append, List.mem_cons, List.mem_append, List.mem_map, List.map_cons, List.map_nil, List.not_mem_nil, or_false] at hx
    rw [hlen]
    rcases hx with rfl | ⟨y, hy, rfl⟩ | rfl
    · exact h0
    · exact hl y hy
    · exact hw
  obtain ⟨c, t', ts, h1, h2, h3, h4⟩ := c76_chain σ ps hn hlen ep v0 (l ++ [(b, w)]) hd hlt t
  obtain ⟨f1, f2⟩ := funnel_all σ ps α β hep M h0 hl hw b
  rw [← h2] at f2
  have hf : ∀ dbg, (delaunay σ ep dbg ps ids).finish c t' = some t' := by
    intro dbg
    simp only [delaunay]
    rw [if_pos (by simp only at f2; omega)]
  obtain ⟨ts', g1, g2, g3⟩ := c43_boundary (delaunayLawful σ ep true ps hn) v0 _ (by simp) t t' t' c (h1 true) (hf true)
  have := emits_unique hn h3 g1
  subst this
  refine ⟨c, t', ts, fun dbg => ⟨h1 dbg, hf dbg⟩, h3, ?_, h4.turns ps f1, g2⟩
  rw [chainPath_length] at g3
  simp at g3; omega

/-- a polygon with a dent: it is monotone downwards, but not convex -/
def dented : List (P2 ℚ) := [⟨0, 6⟩, ⟨-3, 5⟩, ⟨-1, 3⟩, ⟨2, 4⟩, ⟨-3, 1⟩, ⟨0, 0⟩]

def dentedChain : List (Bool × Nat) := [(true, 1), (false, 3), (true, 2), (true, 4)]

/-- its vertices are listed as the sweep sees them -/
theorem dented_monotone : Geom.Monotone dented 0 1 0 dentedChain 5 := by
  refine monotone_of_take ?_ ?_ ?_ <;> decide +kernel

/-- the linear triangulator -/
example : (feed (linear (angPosOf (plusZero ℚ) 0 dented) (angNegOf (plusZero ℚ) 0 dented) [0, 1, 2, 3, 4, 5]) (dentedChain ++ [(true, 5)]) ⟨[0], .none, some 0, none⟩ (.new [])).map (·.2.indices) =
    some [0, 1, 3, 1, 2, 3, 2, 4, 3, 4, 5, 3] := by decide +kernel

/-- the Delaunay triangulator flips two edges -/
example : (feed (delaunay (plusZero ℚ) 0 true dented [0, 1, 2, 3, 4, 5]) (dentedChain ++ [(true, 5)]) ((delaunay (plusZero ℚ) 0 true dented [0, 1, 2, 3, 4, 5]).new 0) (.new [])).map (·.2.indices) =
    some [1, 2, 0, 2, 3, 0, 2, 4, 5, 3, 2, 5] := by decide +kernel

end Verif.GeomProps
