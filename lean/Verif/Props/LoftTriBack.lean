import Verif.Lemmas.LoftTriBack
import Verif.Props.Loft
/-
C118: `loft_tri_back` and `loft_tri_back_closed`.
-/
namespace Verif.Mesh
variable {VP EP FP : Type}

/-- `loft_tri_back` up to the state after the first vertex -/
theorem loftTriBack_first {m : Mesh VP EP FP} (g : m.Good) (de : EP) (df : FP) {start e : Nat} {T : List Nat} (he : m.topo.nxt start = e)
    (hLo : Loop m.topo (e :: (T.reverse ++ [start])) none) (dbg : Bool) (p : VP) :
    ∃ m1 v e1 e2, m.addVertexViaEdge dbg start e p de de = some (m1, v, e1, e2) ∧ m1.nextId start = some e1 ∧ m1.prevId e = some e2 ∧
      m1.prevId start = some ((T ++ [e]).head?.getD e2) ∧
      BackMid m m1 de df (e :: start :: T) e1 [] e2 (start :: (T ++ [e])) [(v, p)] [e1, e2] [] ∧ m.topo.Old m1.topo ∧ m1.topo.org e1 = m.topo.org e ∧
      m1.topo.org (m1.topo.twn e1) = v ∧ m1.topo.twn e2 = e1 := by
  have w := g.wf
  have hs : m.topo.E start := hLo.live start (by simp)
  have hE : m.topo.E e := hLo.live e (by simp)
  have hG0 : Grow m m de df (e :: start :: T) (start :: (e :: T.reverse)) [] [] [] := by
    have := Grow.refl (de := de) (df := df) g (hole := e :: (T.reverse ++ [start])) hLo
    have h := Grow.rot (A := e :: T.reverse) (B := [start]) (by simpa using this)
    exact { h with
      cover := by intro x; have := h.cover x; simp only [List.mem_cons, List.mem_append, List.mem_reverse, List.not_mem_nil, or_false] at this ⊢; rw [← this]; grind
      edges := by intro x hx hx'; exact h.edges x (by simp only [List.mem_cons, List.mem_append, List.mem_reverse, List.not_mem_nil, or_false] at hx ⊢; grind) hx'
      old := by intro x hx; exact h.old x (by simp only [List.mem_cons, List.mem_append, List.mem_reverse, List.not_mem_nil, or_false] at hx ⊢; grind) }
  obtain ⟨m1, v, e1, e2, a1, a2, a3, a4, a5, a6⟩ := hG0.add dbg p
  have htg : m.topo.org (m.topo.twn start) = m.topo.org e := by rw [← he, w.org_nxt _ hs]
  rw [he] at a1
  rw [htg] at a4
  have w1 := a2.good.wf
  have hsE1 := (a3.toOld start hs).1
  have heE1 := (a3.toOld e hE).1
  have hE2 : m1.topo.E e2 := a2.loop.live e2 (by simp)
  have n2 : m1.topo.nxt e2 = e := Loop.mid (A := [start, e1]) (B := T.reverse) (by simpa using a2.loop)
  have t1 : m1.topo.org (m1.topo.twn e1) = v := by rw [a3.twn1, a5]
  have M : BackMid m m1 de df (e :: start :: T) e1 [] e2 (start :: (T ++ [e])) [(v, p)] [e1, e2] [] := by
    refine ⟨⟨?_, by simp [a5], ?_, by rw [a4]; exact w.org_live _ hE⟩, ?_⟩
    · have := Grow.rot (A := [start]) (B := e1 :: e2 :: e :: T.reverse) (by simpa using a2)
      simpa using this
    · intro x hx
      simp only [List.mem_cons, List.mem_append, List.not_mem_nil, or_false] at hx
      refine ⟨hLo.live x ?_, ?_⟩ <;> simp only [List.mem_cons, List.mem_append, List.mem_reverse, List.not_mem_nil, or_false] <;> grind
    · intro y hy
      rw [t1] at hy
      rcases a3.adj w hy with h | ⟨h, -⟩ | ⟨-, rfl⟩
      · exact absurd (h.live w) a6
      · rw [a4] at h
        exact absurd (h ▸ w.org_live _ hE) a6
      · left; rfl
  obtain ⟨S', -, hb⟩ := M.before
  have hbE : m1.topo.E ((T ++ [e]).head?.getD e2) := by
    cases T with
    | nil => exact heE1
    | cons t T => exact (a3.toOld t (hLo.live t (by simp))).1
  exact ⟨m1, v, e1, e2, a1, by rw [nextId_eq hsE1, a2.loop.next], by rw [prevId_eq heE1, ← n2, w1.prv_nxt _ hE2],
    by rw [prevId_eq hsE1]; exact congrArg some ((congrArg m1.topo.prv hb).symm.trans (w1.prv_nxt _ hbE)), M, a3.toOld, a4, t1, a3.twn2⟩

/-- the strip that `loft_tri_back` builds without `shift` -/
theorem loftTriBack_mid {m : Mesh VP EP FP} (g : m.Good) (de : EP) (df : FP) {start e : Nat} {T : List Nat} (he : m.topo.nxt start = e)
    (hLo : Loop m.topo (e :: (T.reverse ++ [start])) none) (dbg : Bool) (hloop : dbg = true → ∀ x ∈ e :: start :: T, m.topo.org x ≠ m.topo.org (m.topo.twn x))
    (ps : List VP) (hps : ps ≠ []) (hlen : ps.length ≤ T.length + 2) :
    ∃ m' k O d0 vs es fs, m.loftTriBack dbg de df start false ps = some (m', d0) ∧
      BackMid m m' de df (e :: start :: T) k O d0 ((start :: (T ++ [e])).drop (ps.length - 1)) vs es fs ∧ vs.map Prod.snd = ps ∧ es.length + 4 = 6 * ps.length ∧
      fs.map (fun p => p.2.map m'.topo.org) = backFaces ((e :: start :: (T ++ [e])).map m.topo.org) (vs.map Prod.fst) ∧
      some (m'.topo.org k) = (((e :: start :: (T ++ [e])).map m.topo.org).drop (ps.length - 1)).head? ∧ m'.topo.org (m'.topo.twn d0) = m.topo.org e := by
  have hs : m.topo.E start := hLo.live start (by simp)
  have hE : m.topo.E e := hLo.live e (by simp)
  cases ps with
  | nil => exact absurd rfl hps
  | cons p ps =>
    obtain ⟨m1, v, e1, e2, a1, a2, a3, a4, M, a5, a6, a7, a8⟩ := loftTriBack_first g de df he hLo dbg p
    have hE1 : m1.topo.E e1 := M.G.loop.live e1 (by simp)
    have hE2 : m1.topo.E e2 := M.G.loop.live e2 (by simp)
    have hlt : m.loftTriBack dbg de df start false (p :: ps) = triBackLoop dbg de df false (p :: ps) m start true start := rfl
    rw [hlt, triBackLoop]
    have hns : m.nextId start = some e := by rw [nextId_eq hs, he]
    cases ps with
    | nil =>
      refine ⟨m1, e1, [], e2, _, _, _, ?_, by simpa using M, rfl, rfl, rfl, by simp [a6], by rw [a8, a6]⟩
      simp only [hns, a1, a2, a3, a4, Option.bind_eq_bind, Option.bind_some, Bool.not_true, Bool.false_eq_true, if_false, List.isEmpty_nil, Bool.or_self, triBackLoop]
    | cons p' ps =>
      obtain ⟨m2, f, k1, k2, b1, b2, b3, b4, b5, b6⟩ := M.close g dbg hloop
      obtain ⟨h', H', hH⟩ : ∃ h' H', T ++ [e] = h' :: H' := by
        cases T with
        | nil => exact ⟨e, [], rfl⟩
        | cons a T => exact ⟨a, T ++ [e], rfl⟩
      have hlen' : (p' :: ps).length ≤ (T ++ [e]).length := by
        simp only [List.length_cons, List.length_append, List.length_nil] at hlen ⊢; omega
      have hh : (T ++ [e]).head?.getD e2 = h' := by rw [hH]; rfl
      obtain ⟨m', k', O', vs', es', fs', d1, d2, d3, d4, d5, d6, d7⟩ := BackHead.loop g dbg hloop e2 (p' :: ps) h' b2 (by rw [hH]; rfl) (by simp) hlen'
      have hF2 := (b2.G.newF (f, [e1, k1, start]) (by simp)).2.1
      have hold2 := b3.toOld
      have hold : m.topo.Old m2.topo := a5.trans hold2
      have hso : m1.topo.org start = m.topo.org start := (a5 start hs).2.2
      have hmap : (T ++ [e]).map m2.topo.org = (T ++ [e]).map m.topo.org := hold.map (fun x hx => hLo.live x (by
        simp only [List.mem_cons, List.mem_append, List.mem_reverse, List.not_mem_nil, or_false] at hx ⊢; grind))
      have hk : m2.topo.org k2 = m.topo.org start := by rw [b5, hso]
      refine ⟨m', k', O', e2, [(v, p)] ++ vs', ([e1, e2] ++ [k1, k2]) ++ es', [(f, [e1, k1, start])] ++ fs', ?_, by simpa using d2, by simp [d4], ?_, ?_, ?_, ?_⟩
      · simp only [hns, a1, a2, a3, a4, Option.bind_eq_bind, Option.bind_some, Bool.not_true, Bool.false_eq_true, if_false, List.isEmpty_cons, Bool.not_false, Bool.or_false,
          if_true, b1]
        rw [hh]
        exact d1
      · simp only [List.length_append, List.length_cons, List.length_nil] at d5 ⊢
        omega
      · have h7 := d6 (m.topo.org e)
        have f2 : [e1, k1, start].map m'.topo.org = [m.topo.org e, v, m.topo.org start] := by
          rw [d3.map hF2.live]
          simp only [List.map_cons, List.map_nil, b4, a7, (hold start hs).2.2, (hold2 e1 hE1).2.2, a6]
        rw [hmap, b6, a7, hk] at h7
        rw [List.map_append, List.map_cons, List.map_nil, f2, List.singleton_append, h7]
        rfl
      · rw [d7, hmap, hk]
        rfl
      · have hto := hold2.trans d3
        have w1 := M.G.good.wf
        rw [(hto e2 hE2).2.1, (hto _ (w1.twn_live _ hE2)).2.2, a8, a6]

/-- the strip that `loft_tri_back` builds with `shift` -/
theorem loftTriBack_shift {m : Mesh VP EP FP} (g : m.Good) (de : EP) (df : FP) {start e : Nat} {T : List Nat} (he : m.topo.nxt start = e)
    (hLo : Loop m.topo (e :: (T.reverse ++ [start])) none) (dbg : Bool) (hloop : dbg = true → ∀ x ∈ e :: start :: T, m.topo.org x ≠ m.topo.org (m.topo.twn x))
    (ps : List VP) (hps : ps ≠ []) (hlen : ps.length ≤ T.length + 3) :
    ∃ m' k O d0 vs es fs, m.loftTriBack dbg de df start true ps = some (m', d0) ∧
      BackHead m m' de df (e :: start :: T) k O d0 ((start :: (T ++ [e])).drop (ps.length - 1)) vs es fs ∧ vs.map Prod.snd = ps ∧ es.length + 4 = 6 * ps.length ∧
      fs.map (fun p => p.2.map m'.topo.org) = shiftFaces ((e :: start :: (T ++ [e])).map m.topo.org) (vs.map Prod.fst) ∧
      some (m'.topo.org k) = (((e :: start :: (T ++ [e])).map m.topo.org).drop (ps.length - 1)).head? ∧ m'.topo.org (m'.topo.twn d0) = m.topo.org e := by
  have hs : m.topo.E start := hLo.live start (by simp)
  cases ps with
  | nil => exact absurd rfl hps
  | cons p ps =>
    obtain ⟨m1, v, e1, e2, a1, a2, a3, a4, M, a5, a6, a7, a8⟩ := loftTriBack_first g de df he hLo dbg p
    have hE2 : m1.topo.E e2 := M.G.loop.live e2 (by simp)
    have hns : m.nextId start = some e := by rw [nextId_eq hs, he]
    obtain ⟨m', k', O', vs', es', fs', d1, d2, d3, d4, d5, d6, d7⟩ := BackHead.loopShift g dbg hloop e2 ps start M.toBackHead (fun _ => rfl)
      (by simp only [List.length_cons, List.length_append, List.length_nil] at hlen ⊢; omega)
    have hmap : (start :: (T ++ [e])).map m1.topo.org = (start :: (T ++ [e])).map m.topo.org := a5.map (fun x hx => hLo.live x (by
      simp only [List.mem_cons, List.mem_append, List.mem_reverse, List.not_mem_nil, or_false] at hx ⊢; grind))
    refine ⟨m', k', O', e2, [(v, p)] ++ vs', [e1, e2] ++ es', [] ++ fs', ?_, by simpa using d2, by simp [d4], ?_, ?_, ?_, ?_⟩
    · simp only [loftTriBack, hns, a1, a3, Option.bind_eq_bind, Option.bind_some]
      exact d1
    · simp only [List.length_append, List.length_cons, List.length_nil] at d5 ⊢
      omega
    · rw [List.nil_append, d6, hmap, a6, a7]; rfl
    · rw [d7, hmap, a6]; rfl
    · have w1 := M.G.good.wf
      rw [(d3 e2 hE2).2.1, (d3 _ (w1.twn_live _ hE2)).2.2, a8, a6]

end Verif.Mesh

namespace Verif.MeshProps
open Mesh
variable {VP EP FP : Type}

/-- `loft_tri_back` along the boundary of a hole, listed backwards by `l` from the target of `start` on.  There are at most as many payloads as half-edges (one more with `shift`).  The result is a strip of
    `2 (N - 1)` triangles alternating between the old row of vertices and the new one; `shift` selects the other diagonals.  The new boundary runs back along the new vertices; the
    returned half-edge lies on it and runs from the first new vertex to the target of `start`. -/
theorem c118_loft_tri_back {m : Mesh VP EP FP} (g : m.Good) (de : EP) (df : FP) {start e : Nat} {l : List Nat} (he : m.nextId start = some e)
    (hl : m.edgesFaceBack e = some l) (hb : m.isBoundarySelf start = some true)
    (dbg : Bool) (hloop : dbg = true → ∀ x ∈ l, m.topo.org x ≠ m.topo.org (m.topo.twn x)) (shift : Bool) (ps : List VP) (hps : ps ≠ [])
    (hlen : ps.length ≤ l.length + (if shift then 1 else 0)) :
    ∃ m' ret bd vs es fs, m.loftTriBack dbg de df start shift ps = some (m', ret) ∧ ret ∈ bd ∧ Grow m m' de df l bd vs es fs ∧
      vs.map Prod.snd = ps ∧
      fs.map (fun p => p.2.map m'.topo.org) =
        (if shift then shiftFaces else backFaces) (l.map m.topo.org ++ (l.map m.topo.org).take 1) (vs.map Prod.fst) ∧
      bd.map m'.topo.org = ((l.map m.topo.org ++ (l.map m.topo.org).take 1).drop (ps.length - 1)).take 1 ++ (vs.map Prod.fst).reverse ++
        ((l.map m.topo.org ++ (l.map m.topo.org).take 1).drop ps.length).reverse ∧
      some (m'.topo.org ret) = (vs.map Prod.fst).head? ∧ m'.topo.org (m'.topo.twn ret) = m.topo.org e ∧
      m'.vs.len = m.vs.len + ps.length ∧ m'.hs.len = m.hs.len + 2 * (3 * ps.length - 2) ∧ m'.fs.len = m.fs.len + 2 * (ps.length - 1) := by
  have w := g.wf
  obtain ⟨T, rfl, hLo, hs⟩ := hole_lists g he hl hb
  rw [nextId_eq hs] at he
  injection he with he
  have hR : (e :: start :: T).map m.topo.org ++ ((e :: start :: T).map m.topo.org).take 1 = (e :: start :: (T ++ [e])).map m.topo.org := by simp
  rw [hR]
  have key : ∃ m' k O d0 vs es fs, m.loftTriBack dbg de df start shift ps = some (m', d0) ∧
      BackHead m m' de df (e :: start :: T) k O d0 ((start :: (T ++ [e])).drop (ps.length - 1)) vs es fs ∧ vs.map Prod.snd = ps ∧ es.length + 4 = 6 * ps.length ∧
      fs.map (fun p => p.2.map m'.topo.org) = (if shift then shiftFaces else backFaces) ((e :: start :: (T ++ [e])).map m.topo.org) (vs.map Prod.fst) ∧
      some (m'.topo.org k) = (((e :: start :: (T ++ [e])).map m.topo.org).drop (ps.length - 1)).head? ∧ m'.topo.org (m'.topo.twn d0) = m.topo.org e := by
    cases shift with
    | false =>
      obtain ⟨m', k, O, d0, vs, es, fs, h1, S, h2⟩ := loftTriBack_mid g de df he hLo dbg hloop ps hps (by simpa using hlen)
      exact ⟨m', k, O, d0, vs, es, fs, h1, S.toBackHead, h2⟩
    | true => exact loftTriBack_shift g de df he hLo dbg hloop ps hps (by simpa using hlen)
  obtain ⟨m', k, O, d0, vs, es, fs, h1, S, h4, h5, h6, h7, h8⟩ := key
  have hvl : vs.length = ps.length := by rw [← h4]; simp
  have hpos : 0 < ps.length := List.length_pos_iff.mpr hps
  have hle : vs.length ≤ (e :: start :: (T ++ [e])).length := by
    rw [hvl]
    simp only [List.length_cons, List.length_append, List.length_nil] at hlen ⊢
    split at hlen <;> omega
  refine ⟨m', d0, _, vs, es, fs, h1, by simp, S.G, h4, h6, ?_, ?_, h8, ?_⟩
  · have e1 : ((start :: (T ++ [e])).drop (ps.length - 1)).map m'.topo.org = ((e :: start :: (T ++ [e])).map m.topo.org).drop ps.length := by
      rw [List.map_congr_left fun x hx => (S.G.twn_org (S.old x hx).1).2, ← List.map_drop]
      obtain ⟨n, hn⟩ : ∃ n, ps.length = n + 1 := ⟨ps.length - 1, by omega⟩
      rw [hn]; rfl
    have e2 : ∀ {X : List Nat} {y : Nat}, some y = X.head? → X.take 1 = [y] := by
      intro X y h
      cases X with
      | nil => simp at h
      | cons x X => simp at h; simp [h]
    rw [e2 h7, ← e1, ← S.outs]
    simp
  · rw [← List.getLast?_reverse, ← S.outs, List.getLast?_concat]
  · obtain ⟨l1, l2, l3⟩ := S.G.lens g
    refine ⟨by rw [l1, hvl], by rw [l2]; omega, ?_⟩
    have := congrArg List.length h6
    have e3 : ((if shift then shiftFaces else backFaces) ((e :: start :: (T ++ [e])).map m.topo.org) (vs.map Prod.fst)).length = 2 * ((vs.map Prod.fst).length - 1) := by
      cases shift with
      | true => exact shiftFaces_length _ _ (by simpa using hle)
      | false => exact backFaces_length _ _ (by simpa using hle)
    rw [e3, List.length_map, List.length_map, hvl] at this
    rw [l3, this]

/-- without payloads nothing happens -/
theorem c118_empty (dbg : Bool) (m : Mesh VP EP FP) (de : EP) (df : FP) (start : Nat) (shift : Bool) : m.loftTriBack dbg de df start shift [] = some (m, start) := by
  cases shift <;> rfl

/-- `loft_tri_back_closed` around a hole with as many payloads as the hole has half-edges: a closed hem of `2 L` triangles; the hole is now bounded by the new vertices
    (in opposite order), and the returned half-edge runs from the first new vertex to the target of `start`; it lies in the last triangle. -/
theorem c118_loft_tri_back_closed {m : Mesh VP EP FP} (g : m.Good) (de : EP) (df : FP) {start e : Nat} {l : List Nat} (he : m.nextId start = some e)
    (hl : m.edgesFaceBack e = some l) (hb : m.isBoundarySelf start = some true)
    (dbg : Bool) (hloop : dbg = true → ∀ x ∈ l, m.topo.org x ≠ m.topo.org (m.topo.twn x)) (ps : List VP) (hlen : ps.length = l.length) (h3 : dbg = true → 3 ≤ ps.length) :
    ∃ m' ret bd vs es fs, m.loftTriBackClosed dbg de df start ps = some (m', ret) ∧ Grow m m' de df l bd vs es fs ∧
      vs.map Prod.snd = ps ∧
      fs.map (fun p => p.2.map m'.topo.org) =
        backFaces (l.map m.topo.org ++ (l.map m.topo.org).take 1) (vs.map Prod.fst ++ (vs.map Prod.fst).take 1) ∧
      bd.map m'.topo.org = (vs.map Prod.fst).take 1 ++ ((vs.map Prod.fst).drop 1).reverse ∧
      some (m'.topo.org ret) = (vs.map Prod.fst).head? ∧ m'.topo.org (m'.topo.twn ret) = m.topo.org e ∧
      m'.vs.len = m.vs.len + l.length ∧ m'.hs.len = m.hs.len + 2 * (3 * l.length) ∧ m'.fs.len = m.fs.len + 2 * l.length := by
  have w := g.wf
  obtain ⟨T, rfl, hLo, hs⟩ := hole_lists g he hl hb
  rw [nextId_eq hs] at he
  injection he with he
  have hlen2 : ps.length = T.length + 2 := by simpa using hlen
  have hR : (e :: start :: T).map m.topo.org ++ ((e :: start :: T).map m.topo.org).take 1 = (e :: start :: T).map m.topo.org ++ [m.topo.org e] := by simp
  rw [hR]
  obtain ⟨m1, k, O, d0, vs, es, fs, k1, S, k4, k5, k6, k7, k8⟩ := loftTriBack_mid g de df he hLo dbg hloop ps (by rintro rfl; simp at hlen2) (by omega)
  have w1 := S.G.good.wf
  have hvl : vs.length = ps.length := by rw [← k4]; simp
  have hdrop : (start :: (T ++ [e])).drop (ps.length - 1) = [e] := by
    rw [hlen2, show T.length + 2 - 1 = (start :: T).length by simp, show start :: (T ++ [e]) = (start :: T) ++ [e] from rfl, List.drop_left]
  rw [hdrop] at S
  have hd0 : m1.topo.E d0 := S.G.loop.live d0 (by simp)
  have hkE : m1.topo.E k := S.G.loop.live k (by simp)
  have hzE : m1.topo.E e := S.G.loop.live e (by simp)
  have hOne : O ≠ [] := by
    rintro rfl
    have := congrArg List.length S.outs
    simp [hvl] at this
    omega
  obtain ⟨O', b, rfl⟩ : ∃ O' b, O = O' ++ [b] := ⟨O.dropLast, O.getLast hOne, (List.dropLast_concat_getLast hOne).symm⟩
  have hbE : m1.topo.E b := S.G.loop.live b (by simp)
  have nb : m1.topo.nxt b = d0 := Loop.mid (A := k :: O') (B := [e]) (by simpa using S.G.loop)
  have nd : m1.topo.nxt d0 = e := Loop.mid (A := k :: (O' ++ [b])) (B := []) (by simpa using S.G.loop)
  have ne : m1.topo.nxt e = k := S.next
  have heo : m1.topo.org e = m.topo.org e := (S.G.twn_org (S.old e (by simp)).1).2
  obtain ⟨m2, f, q1, q2, c1, c2, c3, c4, c5, c6⟩ := S.close g dbg hloop
  replace c1 : m1.closeFace dbg k de d0 de df false = some (m2, f, q1, q2) := c1
  have w2 := c2.G.good.wf
  have hold1 := c3.toOld
  have hbE2 := (hold1 b hbE).1
  have hd02 := (hold1 d0 hd0).1
  have hq2 : m2.topo.E q2 := c2.G.loop.live q2 (by simp)
  have nb2 : m2.topo.nxt b = d0 := Loop.mid (A := q2 :: O') (B := []) (by simpa using c2.G.loop)
  have nd2 : m2.topo.nxt d0 = q2 := Loop.wrap (A := O' ++ [b]) (by simpa using c2.G.loop)
  have tb2 : m2.topo.org (m2.topo.twn b) = m1.topo.org d0 := by rw [← w2.org_nxt _ hbE2, nb2, (hold1 d0 hd0).2.2]
  have houts := S.outs
  have hfst : some (m1.topo.org d0) = (vs.map Prod.fst).head? := by
    rw [← List.getLast?_reverse, ← houts, List.getLast?_concat]
  have hnew : ¬ m.topo.V (m1.topo.org d0) := by
    obtain ⟨p, hp, hpp⟩ := List.mem_map.mp (List.mem_of_head? hfst.symm)
    rw [← hpp]; exact vertex_none.mp (S.G.freshV p hp)
  have hG : Grow m m2 de df (e :: start :: T) (q2 :: (O' ++ b :: [d0])) vs (es ++ [q1, q2]) (fs ++ [(f, [k, q1, e])]) := by
    simpa using c2.G
  obtain ⟨m', f', r1, r2, p1, p2, p3, p4, p5⟩ := hG.closeF dbg (fun hd hadj => by
    rw [tb2, c6] at hadj
    have h3 := h3 hd
    rcases c3.adj w1 hadj with hc | ⟨-, hc⟩ | ⟨hc, -⟩
    · rcases S.nb _ hc with hc | hc
      · exact hnew (hc ▸ S.root)
      · have hv3 : 3 ≤ (vs.map Prod.fst).length := by rw [List.length_map, hvl]; exact h3
        have hnd := S.G.nodupV
        generalize vs.map Prod.fst = V at hfst hc hv3 hnd
        match V, hfst, hc, hv3, hnd with
        | a :: b' :: V, td0, hc, hv3, hnd =>
          obtain ⟨V', y, rfl⟩ : ∃ V' y, V = V' ++ [y] := ⟨V.dropLast, V.getLast (by intro h; subst h; simp at hv3), (List.dropLast_concat_getLast _).symm⟩
          have e0 : (a :: b' :: (V' ++ [y])).dropLast = a :: b' :: V' := by
            rw [show a :: b' :: (V' ++ [y]) = (a :: b' :: V') ++ [y] from rfl, List.dropLast_concat]
          rw [e0, List.getLast?_cons_cons] at hc
          have hm := List.mem_of_getLast? hc
          simp only [List.head?_cons, Option.some.injEq] at td0
          rw [td0] at hm
          simp only [List.nodup_cons, List.mem_cons, List.mem_append] at hnd hm
          exact hnd.1 (by rcases hm with h | h <;> simp [h])
    · rw [c5] at hc
      exact hnew (hc ▸ (S.oldV g (x := e) (by simp)).1)
    · rw [c5] at hc
      exact S.new (hc ▸ (S.oldV g (x := e) (by simp)).1))
  have w' := p2.good.wf
  rw [tb2] at p5
  rw [c6] at p4
  have hold2 := p3.toOld
  have hold : m1.topo.Old m'.topo := hold1.trans hold2
  have hOo : (O' ++ [b]).map m'.topo.org = (O' ++ [b]).map m1.topo.org :=
    hold.map (fun x hx => S.G.loop.live x (by simp only [List.mem_cons, List.mem_append] at hx ⊢; grind))
  obtain ⟨v0, V0, hV⟩ : ∃ v0 V0, vs.map Prod.fst = v0 :: V0 := by
    cases h : vs.map Prod.fst with
    | nil => rw [h] at hfst; simp at hfst
    | cons a V => exact ⟨a, V, rfl⟩
  have h0 : m1.topo.org d0 = v0 := by rw [hV] at hfst; simpa using hfst
  have hO : (O' ++ [b]).map m1.topo.org = V0.reverse := by
    have := houts
    rw [hV, List.reverse_cons, h0] at this
    exact List.append_cancel_right this
  refine ⟨m', d0, r2 :: (O' ++ [b]), vs, es ++ [q1, q2] ++ [r1, r2], fs ++ [(f, [k, q1, e])] ++ [(f', q2 :: r1 :: [d0])], ?_, p2, k4, ?_, ?_, ?_, ?_, ?_⟩
  · have u1 : m1.prevId d0 = some b := by rw [prevId_eq hd0, ← nb, w1.prv_nxt _ hbE]
    simp only [loftTriBackClosed, k1, Option.bind_eq_bind, Option.bind_some, u1, nextId_eq hd0, nd, nextId_eq hzE, ne, c1, nextId_eq hd02, nd2, p1]
  · have hF : ∀ p ∈ fs, p.2.map m'.topo.org = p.2.map m1.topo.org := fun p hp => hold.map (S.G.newF p hp).2.1.live
    have hF1 := (c2.G.newF (f, [k, q1, e]) (by simp)).2.1
    have f1 : [k, q1, e].map m'.topo.org = [m1.topo.org k, m1.topo.org (m1.topo.twn k), m.topo.org e] := by
      rw [hold2.map hF1.live]
      simp only [List.map_cons, List.map_nil, c4, (hold1 e hzE).2.2, (hold1 k hkE).2.2, heo]
    have f2 : [q2, r1, d0].map m'.topo.org = [m.topo.org e, m1.topo.org (m1.topo.twn k), v0] := by
      simp only [List.map_cons, List.map_nil, p4, (hold2 q2 hq2).2.2, c5, heo, (hold d0 hd0).2.2, h0]
    have f3 : ∀ X Y : Nat × List Nat, (fs ++ [X] ++ [Y]).map (fun p => p.2.map m'.topo.org) = fs.map (fun p => p.2.map m'.topo.org) ++ [X.2.map m'.topo.org, Y.2.map m'.topo.org] := by
      intro X Y; simp
    rw [f3, List.map_congr_left (g := fun p => p.2.map m1.topo.org) hF, k6, f1, f2]
    have htv : (vs.map Prod.fst).take 1 = [v0] := by rw [hV]; simp
    obtain ⟨V', hV'⟩ : ∃ V', vs.map Prod.fst = V' ++ [m1.topo.org (m1.topo.twn k)] := by
      obtain ⟨V', h⟩ := List.getLast?_eq_some_iff.mp S.tip
      exact ⟨V', h⟩
    obtain ⟨U', hU'⟩ : ∃ U', (e :: start :: T).map m.topo.org = U' ++ [m1.topo.org k] := by
      refine List.getLast?_eq_some_iff.mp ?_
      rw [k7, hlen2, List.getLast?_eq_getElem?, List.head?_drop, show e :: start :: (T ++ [e]) = (e :: start :: T) ++ [e] from rfl, List.map_append, List.getElem?_append_left (by simp)]
      simp
    have hUV : U'.length = V'.length := by
      have i1 := congrArg List.length hV'
      have i2 := congrArg List.length hU'
      simp only [List.length_map, List.length_append, List.length_cons, List.length_nil, hvl] at i1 i2
      omega
    have hRR : (e :: start :: (T ++ [e])).map m.topo.org = (e :: start :: T).map m.topo.org ++ [m.topo.org e] := by simp
    rw [htv, hRR, backFaces_trim _ _ _ (by simp [hvl, hlen2]), hV', hU', List.append_assoc, List.append_assoc, List.singleton_append, List.singleton_append, backFaces_snoc _ _ _ _ _ _ hUV]
  · rw [List.map_cons, hOo, hO, p5, h0, hV]; simp
  · rw [(hold d0 hd0).2.2, hfst]
  · rw [(hold d0 hd0).2.1, (hold _ (w1.twn_live _ hd0)).2.2, k8]
  · obtain ⟨l1, l2, l3⟩ := p2.lens g
    have := congrArg List.length k6
    rw [backFaces_length _ _ (by simp [hvl, hlen2]), List.length_map, List.length_map, hvl] at this
    refine ⟨by rw [l1, hvl, hlen], ?_, ?_⟩
    · rw [l2, ← hlen]; simp only [List.length_append, List.length_cons, List.length_nil]; omega
    · rw [l3, ← hlen]; simp only [List.length_append, List.length_cons, List.length_nil, this]; omega

/-- the hypotheses hold: hems of triangles around a pentagon -/
example : ∃ m, insertPolygon true (empty : Mesh Nat Unit Unit) () () [0, 1, 2, 3, 4] = some (m, 0) ∧ m.Good ∧ m.nextId 0 = some 2 ∧ m.edgesFaceBack 2 = some [2, 0, 9, 6, 4] ∧
    m.isBoundarySelf 0 = some true ∧ (∀ e ∈ [2, 0, 9, 6, 4], m.topo.org e ≠ m.topo.org (m.topo.twn e)) ∧
    (∃ m' ret, m.loftTriBackClosed true () () 0 [10, 11, 12, 13, 14] = some (m', ret) ∧
      m'.vs.len = 10 ∧ m'.hs.len = 40 ∧ m'.fs.len = 11 ∧ m'.originId ret = some 5) ∧
    (∃ m' ret, m.loftTriBack true () () 0 true [10, 11, 12] = some (m', ret) ∧ m'.vs.len = 8 ∧ m'.hs.len = 24 ∧ m'.fs.len = 5 ∧ m'.originId ret = some 5) := by
  refine ⟨(insertPolygon true (empty : Mesh Nat Unit Unit) () () [0, 1, 2, 3, 4] |>.get (by decide +kernel)).1, by decide +kernel, goodB_ok (by decide +kernel), by decide +kernel,
    by decide +kernel, by decide +kernel, by decide +kernel, ?_, ?_⟩
  · exact ⟨_, _, (Option.some_get (by decide +kernel)).symm, by decide +kernel, by decide +kernel, by decide +kernel, by decide +kernel⟩
  · exact ⟨_, _, (Option.some_get (by decide +kernel)).symm, by decide +kernel, by decide +kernel, by decide +kernel, by decide +kernel⟩

end Verif.MeshProps
