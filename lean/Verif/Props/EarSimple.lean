import Verif.Lemmas.SimpleEar
import Verif.Props.Ear
/-
C84: ear clipping is right on simple counter-clockwise polygons without (nearly) collinear corners: it never panics, all triangles are ears, and they tile the polygon.
-/
set_option linter.unusedSectionVars false
namespace Verif.GeomProps
open Geom Triangulation
variable {K : Type} [Field K] [LinearOrder K] [IsStrictOrderedRing K]

/-! ### What the tests of the code say -/

/-- a strictly convex corner with no other vertex of the polygon in its triangle -/
def IsEar (ps : List (P2 K)) (u v w : Nat) : Prop :=
  0 < tri2 (posOf ps u) (posOf ps v) (posOf ps w) ∧ ∀ k, k < ps.length → k ≠ u → k ≠ v → k ≠ w → ¬Within (posOf ps k) (posOf ps u) (posOf ps v) (posOf ps w)

theorem posOf_fst {vs : List (P2 K × Nat)} {i : Nat} {v : P2 K × Nat} (h : vs[i]? = some v) : posOf (vs.map Prod.fst) i = v.1 := by
  simp [posOf, h]

theorem inside_within (σ : Sgn K) {p a b c : P2 K} (hA : 0 < tri2 a b c) (h1 : tri2 a b p ≠ 0) (h2 : tri2 b c p ≠ 0) (h3 : tri2 c a p ≠ 0) : isInsideTriangle σ p a b c = true ↔ Within p a b c := by
  have e : tri2 a b p + tri2 b c p + tri2 c a p = tri2 a b c := by simp only [tri2]; ring
  have pos : ∀ {x : K}, x ≠ 0 → (σ.pos x = true ↔ 0 < x) := by
    intro x hx
    rcases lt_or_gt_of_ne hx with h | h
    · simp [σ.pos_of_neg x h, h.le]
    · simp [σ.pos_of_pos x h, h]
  have neg : ∀ {x : K}, x ≠ 0 → (σ.neg x = true ↔ x < 0) := by
    intro x hx
    rcases lt_or_gt_of_ne hx with h | h
    · simp [σ.neg_of_neg x h, h]
    · simp [σ.neg_of_pos x h, h.le]
  rw [inside_iff, pos h1, pos h2, pos h3, neg h1, neg h2, neg h3, Within, mul_pos_iff_of_pos_left hA, mul_pos_iff_of_pos_left hA, mul_pos_iff_of_pos_left hA]
  constructor
  · rintro (h | ⟨h, h', h''⟩)
    · exact h
    · linarith
  · exact .inl

/-- on polygons without collinear corners the tests of the code find exactly the ears -/
theorem ear_iff (σ : Sgn K) {vs : List (P2 K × Nat)} (hg : General (vs.map Prod.fst)) {a b c : Nat} (ha : a < vs.length) (hb : b < vs.length) (hc : c < vs.length) (hab : a ≠ b) (hac : a ≠ c) (hbc : b ≠ c) :
    Ear σ vs (a, b, c) ↔ IsEar (vs.map Prod.fst) a b c := by
  have l : ∀ {i}, i < vs.length → i < (vs.map Prod.fst).length := fun h => by simpa using h
  have hne := hg.ne (l ha) (l hb) (l hc) hab hac hbc
  have key : ∀ {av bv cv : P2 K}, (bv - av).perpDot (cv - bv) = tri2 av bv cv := by
    intro av bv cv
    change (bv.x - av.x) * (cv.y - bv.y) - (bv.y - av.y) * (cv.x - bv.x) = _
    simp only [tri2]; ring
  constructor
  · rintro ⟨av, bv, cv, ga, gb, gc, h1, h2⟩
    have ea := posOf_fst ga
    have eb := posOf_fst gb
    have ec := posOf_fst gc
    have hA : 0 < tri2 (posOf (vs.map Prod.fst) a) (posOf (vs.map Prod.fst) b) (posOf (vs.map Prod.fst) c) := by
      by_contra h
      have h := lt_of_le_of_ne (not_lt.mp h) hne
      rw [ea, eb, ec] at h
      rw [convex, key, σ.pos_of_neg _ h] at h1
      cases h1
    refine ⟨hA, fun k hk k1 k2 k3 hw => ?_⟩
    have hk' : k < vs.length := by simpa using hk
    have := h2 k _ (List.getElem?_eq_getElem hk') k1 k2 k3
    have hw := (inside_within σ hA (hg.ne (l ha) (l hb) hk hab k1.symm k2.symm) (hg.ne (l hb) (l hc) hk hbc k2.symm k3.symm) (hg.ne (l hc) (l ha) hk hac.symm k3.symm k1.symm)).mpr hw
    rw [ea, eb, ec, posOf_fst (List.getElem?_eq_getElem hk'), this] at hw
    cases hw
  · rintro ⟨hA, h⟩
    refine ⟨vs[a], vs[b], vs[c], List.getElem?_eq_getElem ha, List.getElem?_eq_getElem hb, List.getElem?_eq_getElem hc, ?_, ?_⟩
    · rw [convex, key]
      apply σ.pos_of_pos
      rwa [posOf_fst (List.getElem?_eq_getElem ha), posOf_fst (List.getElem?_eq_getElem hb), posOf_fst (List.getElem?_eq_getElem hc)] at hA
    · intro k v hk k1 k2 k3
      dsimp only at k1 k2 k3
      have hk' := (List.getElem?_eq_some_iff.mp hk).1
      rw [← Bool.not_eq_true]
      intro hi
      refine h k (l hk') k1 k2 k3 ((inside_within σ hA (hg.ne (l ha) (l hb) (l hk') hab k1.symm k2.symm) (hg.ne (l hb) (l hc) (l hk') hbc k2.symm k3.symm) (hg.ne (l hc) (l ha) (l hk') hac.symm k3.symm k1.symm)).mp ?_)
      rwa [posOf_fst (List.getElem?_eq_getElem ha), posOf_fst (List.getElem?_eq_getElem hb), posOf_fst (List.getElem?_eq_getElem hc), posOf_fst hk]

/-- no three corners count as collinear -/
def Apart (eps : K) (ps : List (P2 K)) : Prop := ∀ k, k < ps.length → ∀ j, j < k → ∀ i, i < j → eps < |tri2 (posOf ps i) (posOf ps j) (posOf ps k)|

theorem Apart.any {eps : K} {ps : List (P2 K)} (h : Apart eps ps) {i j k : Nat} (hi : i < ps.length) (hj : j < ps.length) (hk : k < ps.length) (hij : i ≠ j) (hik : i ≠ k) (hjk : j ≠ k) :
    eps < |tri2 (posOf ps i) (posOf ps j) (posOf ps k)| := by
  have e1 : ∀ a b c : P2 K, |tri2 a b c| = |tri2 b a c| := fun a b c => by rw [tri2_flip, abs_neg]
  have e2 : ∀ a b c : P2 K, |tri2 a b c| = |tri2 b c a| := fun a b c => by rw [← tri2_turn]
  rcases Nat.lt_or_gt_of_ne hij with h1 | h1 <;> rcases Nat.lt_or_gt_of_ne hik with h2 | h2 <;> rcases Nat.lt_or_gt_of_ne hjk with h3 | h3
  · exact h k hk j h3 i h1
  · have := h j hj k h3 i h2
    rwa [e2, e2, e1] at this
  · omega
  · have := h j hj i h1 k h2
    rwa [e2] at this
  · have := h k hk i h2 j h1
    rwa [e1] at this
  · omega
  · have := h i hi k h2 j h3
    rwa [e2, e2] at this
  · have := h i hi j h1 k h3
    rwa [e1, e2, e2] at this

theorem not_collinear (σ : Sgn K) {eps : K} {vs : List (P2 K × Nat)} (hg : General (vs.map Prod.fst)) (h : Apart eps (vs.map Prod.fst)) {a b c : Nat} {av bv cv : P2 K × Nat} (ha : vs[a]? = some av) (hb : vs[b]? = some bv) (hc : vs[c]? = some cv)
    (hab : a ≠ b) (hac : a ≠ c) (hbc : b ≠ c) : collinear σ bv.1 av.1 cv.1 eps = false := by
  have l : ∀ {i v}, vs[i]? = some v → i < (vs.map Prod.fst).length := fun h => by simpa using (List.getElem?_eq_some_iff.mp h).1
  have h1 := h.any (l ha) (l hc) (l hb) hac hab hbc.symm
  have h2 := hg.ne (l ha) (l hc) (l hb) hac hab hbc.symm
  rw [posOf_fst ha, posOf_fst hb, posOf_fst hc] at h1 h2
  have key : (cv.1 - av.1).perpDot (bv.1 - av.1) = tri2 av.1 cv.1 bv.1 := by
    change (cv.1.x - av.1.x) * (bv.1.y - av.1.y) - (cv.1.y - av.1.y) * (bv.1.x - av.1.x) = _
    simp only [tri2]
  rw [collinear, key, decide_eq_false_iff_not, not_le]
  refine h1.trans_eq ?_
  rcases lt_or_gt_of_ne h2 with h | h
  · rw [abs_of_neg h]; simp [absS, σ.pos_of_neg _ h]
  · rw [abs_of_pos h]; simp [absS, σ.pos_of_pos _ h]

/-! ### The remaining polygon -/

/-- the remaining polygon is simple and counter-clockwise, and the corners that have been cut off are outside -/
structure Remains (ps : List (P2 K)) (L : List Nat) : Prop where
  mem : ∀ k ∈ L, k < ps.length
  simple : Simple (posOf ps) L
  ccw : Ccw (posOf ps) L
  out : ∀ k, k < ps.length → k ∉ L → wind (posOf ps) L (posOf ps k) = 0
  lift : ∀ x y, Valid (posOf ps) L x y → Valid (posOf ps) (List.range ps.length) x y
  sides : ∀ e ∈ sides L, e ∈ Geom.sides (List.range ps.length) ∨ Valid (posOf ps) (List.range ps.length) e.1 e.2

theorem Remains.rotated {ps : List (P2 K)} {L L' : List Nat} (h : Remains ps L) (hr : L ~r L') : Remains ps L' where
  mem := fun k hk => h.mem k (hr.mem_iff.mpr hk)
  simple := h.simple.rotated hr
  ccw := h.ccw.rotated hr
  out := fun k hk hn => by rw [← wind_rotated hr]; exact h.out k hk fun h => hn (hr.mem_iff.mp h)
  lift := fun x y hv => h.lift x y (hv.rotated hr.symm)
  sides := fun e he => h.sides e ((sides_rotated hr).mem_iff.mpr he)

theorem remains_init {ps : List (P2 K)} (hs : IsSimple ps) (ha : 0 < area2 ps) : Remains ps (List.range ps.length) where
  mem := fun k hk => List.mem_range.mp hk
  simple := hs.simple
  ccw := by
    rcases c83_winding hs with ⟨-, h⟩ | ⟨h, -⟩
    · intro p hp
      rw [wind_range]
      exact h p (offSides_iff.mpr hp)
    · linarith
  out := fun k hk hn => absurd (List.mem_range.mpr hk) hn
  lift := fun _ _ h => h
  sides := fun _ he => .inl he

variable {ps : List (P2 K)}

/-- cutting off an ear -/
theorem Remains.cut (hg : General ps) {v w u : Nat} {M : List Nat} (h : Remains ps (v :: w :: M ++ [u])) (hM : M ≠ []) (hv : Valid (posOf ps) (v :: w :: M ++ [u]) w u) : Remains ps (w :: M ++ [u]) := by
  have hp := ear_part h.simple hM hv
  obtain ⟨hA, hc⟩ := ear_ccw h.simple h.ccw hM hv
  refine ⟨fun k hk => h.mem k (List.mem_cons_of_mem _ hk), hp, hc, ?_, fun x y hxy => h.lift x y (ear_lift h.simple h.ccw hM hv hxy), ?_⟩
  · intro k hk hn
    by_cases hkv : k = v
    · rw [hkv]
      exact ear_tip h.simple h.ccw hM hv
    · have h1 := h.out k hk (by rw [List.cons_append, List.cons_append, List.mem_cons]; rintro (h' | h'); exact hkv h'; exact hn h')
      have h2 := hc (posOf ps k) (by
        intro e he hz
        have hm := sides_mem he
        exact hg.ne (h.mem _ (List.mem_cons_of_mem _ hm.1)) (h.mem _ (List.mem_cons_of_mem _ hm.2)) hk (sides_ne hp.nodup (by have := hp.len; omega) he) (fun h => hn (h ▸ hm.1)) (fun h => hn (h ▸ hm.2)) (tri2_onSegment hz))
      have h3 := (around_sign (p := posOf ps k) (s := 1) (.inl rfl) (by simpa using hA)).2
      rw [wind_ear] at h1
      omega
  · intro e he
    rw [sides_part, List.mem_append, List.mem_singleton] at he
    rcases he with he | rfl
    · refine h.sides e ?_
      rw [(sides_rotated ear_rotated).mem_iff, sides_cut, List.mem_append]
      exact .inr he
    · exact .inr (h.lift _ _ hv).symm

/-- a triangle -/
theorem Remains.three {u v w : Nat} (h : Remains ps [u, v, w]) : IsEar ps u v w := by
  have hn := h.simple.nodup
  simp only [List.nodup_cons, List.mem_cons, List.not_mem_nil, or_false, not_or, not_false_eq_true] at hn
  have hA : tri2 (posOf ps u) (posOf ps v) (posOf ps w) ≠ 0 := h.simple.gen u (by simp) v (by simp) w (by simp) hn.1.1 hn.1.2 hn.2.1
  have off : ∀ p, Within p (posOf ps u) (posOf ps v) (posOf ps w) → ∀ e ∈ Geom.sides [u, v, w], ¬OnSegment p (posOf ps e.1) (posOf ps e.2) := by
    intro p hp e he hz
    have hz := tri2_onSegment hz
    simp only [Geom.sides, pairs, List.cons_append, List.nil_append, List.mem_cons, List.not_mem_nil, or_false] at he
    obtain ⟨p1, p2, p3⟩ := hp
    rcases he with rfl | rfl | rfl
    · rw [hz] at p1; simp at p1
    · rw [hz] at p2; simp at p2
    · rw [hz] at p3; simp at p3
  have hA' : 0 < tri2 (posOf ps u) (posOf ps v) (posOf ps w) := by
    by_contra hc
    have hneg := lt_of_le_of_ne (not_lt.mp hc) hA
    have hp := mul_self_pos.mpr hA
    have hw : Within (along (along (posOf ps u) (posOf ps v) (1 / 2)) (posOf ps w) (1 / 2)) (posOf ps u) (posOf ps v) (posOf ps w) := by
      have e1 : tri2 (posOf ps w) (posOf ps u) (posOf ps w) = 0 := by simp only [tri2]; ring
      have e2 : tri2 (posOf ps w) (posOf ps u) (posOf ps u) = 0 := by simp only [tri2]; ring
      have e3 : tri2 (posOf ps w) (posOf ps u) (posOf ps v) = tri2 (posOf ps u) (posOf ps v) (posOf ps w) := by simp only [tri2]; ring
      have e4 : tri2 (posOf ps u) (posOf ps v) (posOf ps v) = 0 := by simp only [tri2]; ring
      have e5 : tri2 (posOf ps u) (posOf ps v) (posOf ps u) = 0 := by simp only [tri2]; ring
      have e6 : tri2 (posOf ps v) (posOf ps w) (posOf ps v) = 0 := by simp only [tri2]; ring
      have e7 : tri2 (posOf ps v) (posOf ps w) (posOf ps w) = 0 := by simp only [tri2]; ring
      have e8 : tri2 (posOf ps v) (posOf ps w) (posOf ps u) = tri2 (posOf ps u) (posOf ps v) (posOf ps w) := tri2_turn _ _ _
      simp only [Within, tri2_along, e1, e2, e3, e4, e5, e6, e7, e8]
      refine ⟨?_, ?_, ?_⟩ <;> nlinarith
    have h1 := h.ccw _ (off _ hw)
    rw [wind_three, (around_sign (s := -1) (.inr rfl) (by push_cast; linarith)).1 hw] at h1
    omega
  refine ⟨hA', fun k hk k1 k2 k3 hw => ?_⟩
  have := h.out k hk (by simp [k1, k2, k3])
  rw [wind_three, (around_sign (s := 1) (.inl rfl) (by simpa using hA')).1 hw] at this
  omega

/-- there is an ear -/
theorem Remains.exists_ear {L : List Nat} (h : Remains ps L) : ∃ u v w R, L ~r (u :: v :: w :: R) ∧ IsEar ps u v w := by
  by_cases h4 : 4 ≤ L.length
  · obtain ⟨v, w, u, M, hM, hr, hv⟩ := h.simple.exists_ear h4
    have h' := h.rotated hr
    refine ⟨u, v, w, M, hr.trans ear_rotated, (ear_ccw h'.simple h'.ccw hM hv).1, fun k hk k1 k2 k3 hw => ?_⟩
    obtain ⟨hA, hc⟩ := ear_ccw h'.simple h'.ccw hM hv
    by_cases hkM : k ∈ M
    · exact absurd (ear_empty h'.simple hM hv k hkM hw.2.1.le hw.1.le) (not_lt.mpr hw.2.2.le)
    · have h1 := h'.out k hk (by simp [k1, k2, k3, hkM])
      rw [wind_ear, (around_sign (s := 1) (.inl rfl) (by simpa using hA)).1 hw, (ear_wind h'.simple hM hv (.inl rfl) hc).2 _ hw] at h1
      omega
  · have h3 := h.simple.len
    obtain ⟨u, v, w, rfl⟩ := List.length_eq_three.mp (show L.length = 3 by omega)
    exact ⟨u, v, w, [], List.IsRotated.refl _, h.three⟩

/-- cutting off a corner that passes the tests -/
theorem Remains.clip (hg : General ps) {u v w : Nat} {R : List Nat} (h : Remains ps (u :: v :: w :: R)) (hR : R ≠ []) (he : IsEar ps u v w) : Remains ps (u :: w :: R) ∧ Valid (posOf ps) (List.range ps.length) w u := by
  have hr : (u :: v :: w :: R) ~r (v :: w :: R ++ [u]) := ⟨1, by simp⟩
  have h' := h.rotated hr
  have hv : Valid (posOf ps) (v :: w :: R ++ [u]) w u := by
    refine ear_of_empty h'.simple h'.ccw hR he.1 fun k hk hw => ?_
    have hn := h.simple.nodup
    simp only [List.nodup_cons, List.mem_cons, not_or] at hn
    exact he.2 k (h.mem k (by simp [hk])) (fun e => hn.1.2.2 (e ▸ hk)) (fun e => hn.2.1.2 (e ▸ hk)) (fun e => hn.2.2.1 (e ▸ hk)) hw
  exact ⟨(h'.cut hg hR hv).rotated (List.IsRotated.symm ⟨1, by simp⟩), h'.lift _ _ hv⟩

/-! ### The loop -/

/-- the tests have rejected the corners before the current one, and all triangles so far are ears by diagonals inside -/
structure EarGeo (ps : List (P2 K)) (s : EarState) (E : List (Nat × Nat × Nat)) : Prop where
  remains : 3 ≤ s.n → Remains ps (Geom.ring s.clipped s.ia)
  rejected : ∃ X Y, Geom.ring s.clipped s.ia = X ++ Y ∧ Y.length = s.fails ∧ ∀ y ∈ Y, ∀ b c R, Geom.ring s.clipped y = y :: b :: c :: R → ¬IsEar ps y b c
  ears : ∀ x ∈ E, IsEar ps x.1 x.2.1 x.2.2
  inner : ∀ e ∈ E.flatMap triSides, e ∈ sides (List.range ps.length) ∨ Valid (posOf ps) (List.range ps.length) e.1 e.2

/-- not all corners have been rejected -/
theorem EarGeo.fails_lt {σ : Sgn K} {vs : List (P2 K × Nat)} {t0 : Triangulation} {s : EarState} {E : List (Nat × Nat × Nat)} (I : EarInv σ vs t0 s E) (G : EarGeo ps s E) (hn : 2 < s.n) : s.fails < s.n := by
  by_contra hc
  obtain ⟨X, Y, h1, h2, h3⟩ := G.rejected
  have hX : X = [] := by
    have h4 := congrArg List.length h1
    rw [← I.n, List.length_append] at h4
    exact List.length_eq_zero_iff.mp (by omega)
  rw [hX, List.nil_append] at h1
  obtain ⟨u, v, w, R, hr, he⟩ := (G.remains hn).exists_ear
  have hu : u ∈ Geom.ring s.clipped s.ia := hr.mem_iff.mpr (by simp)
  refine h3 u (h1 ▸ hu) v w R ?_ he
  obtain ⟨S, hS⟩ := ring_cons (mem_ring.mp hu)
  have : S = v :: w :: R := by
    apply rotated_unique (a := u)
    · rw [← hS]; exact (ring_rotated _ _ _).trans hr
    · rw [← hS]; exact ring_nodup _ _
  rw [hS, this]

theorem ear_step_simple (dbg : Bool) (σ : Sgn K) (eps : K) (rnd : Option (Nat → Nat)) {vs : List (P2 K × Nat)} (hg : General (vs.map Prod.fst)) (hap : Apart eps (vs.map Prod.fst)) {t0 : Triangulation} {s : EarState} {E : List (Nat × Nat × Nat)}
    (I : EarInv σ vs t0 s E) (G : EarGeo (vs.map Prod.fst) s E) (hn : 2 < s.n) :
      ∃ s' E', earStep dbg σ eps rnd vs s = .done s' ∧ EarInv σ vs t0 s' E' ∧ EarGeo (vs.map Prod.fst) s' E' ∧ ((s'.n = s.n ∧ s'.fails = s.fails + 1) ∨ (s'.n = s.n - 1 ∧ s'.fails = 0)) := by
  have hf := G.fails_lt I hn
  obtain ⟨a, b, c, R, hR, h⟩ := ear_step_full dbg σ eps rnd I hn
  have hia : a = s.ia := by
    obtain ⟨S, hS⟩ := ring_cons I.live
    rw [hR] at hS
    exact (List.cons.inj hS).1
  have hnd := ring_nodup s.clipped s.ia
  rw [hR] at hnd
  simp only [List.nodup_cons, List.mem_cons, not_or] at hnd
  have lt : ∀ {k}, k ∈ Geom.ring s.clipped s.ia → k < vs.length := fun hk => by rw [← I.len]; exact live_lt (mem_ring.mp hk)
  have la : a < vs.length := lt (by rw [hR]; simp)
  have lb : b < vs.length := lt (by rw [hR]; simp)
  have lc : c < vs.length := lt (by rw [hR]; simp)
  have hear := ear_iff σ hg la lb lc hnd.1.1 hnd.1.2.1 hnd.2.1.1
  rcases h with ⟨-, h⟩ | ⟨s', hs', ⟨I', h1, h2, h3, h4, h5⟩ | ⟨I', h1, h2, h3, h4⟩⟩
  · omega
  · refine ⟨s', E, hs', I', ⟨?_, ?_, G.ears, G.inner⟩, .inl ⟨h1, h2⟩⟩
    · intro h
      rw [h3]
      exact (G.remains hn).rotated (ring_rotated _ _ _)
    · obtain ⟨X, Y, g1, g2, g3⟩ := G.rejected
      rw [h3, h4]
      have hX : X ≠ [] := by
        rintro rfl
        have := I.n
        rw [g1] at this
        simp only [List.nil_append] at this
        omega
      obtain ⟨x, X, rfl⟩ := List.exists_cons_of_ne_nil hX
      have hsh := ring_shift (show Geom.ring s.clipped a = a :: b :: c :: R by rw [← hR, hia])
      rw [hR, List.cons_append, List.cons.injEq] at g1
      refine ⟨X, Y ++ [a], ?_, by rw [List.length_append, g2, h2]; rfl, ?_⟩
      · rw [hsh, ← List.append_assoc, ← g1.2]; rfl
      · intro y hy b' c' R' hr
        rw [List.mem_append, List.mem_singleton] at hy
        rcases hy with hy | rfl
        · exact g3 y hy b' c' R' hr
        · have : y :: b :: c :: R = y :: b' :: c' :: R' := by rw [← hR, ← hr, ← hia]
          simp only [List.cons.injEq, true_and] at this
          obtain ⟨rfl, rfl, -⟩ := this
          intro he
          obtain ⟨av, bv, cv, k1, k2, k3, k4⟩ := h5 (hear.mpr he)
          rw [not_collinear σ hg hap k1 k2 k3 hnd.1.1 hnd.1.2.1 hnd.2.1.1] at k4
          cases k4
  · have he : IsEar (vs.map Prod.fst) a b c := by
      by_contra hc
      have := (h4 (fun h => hc (hear.mp h))).2
      omega
    have hclip := ring_clip (show Geom.ring s.clipped a = a :: b :: c :: R by rw [← hR, hia])
    have hrem := G.remains hn
    rw [hR] at hrem
    have hlen := I.n
    rw [hR] at hlen
    have side : ∀ e ∈ sides (a :: b :: c :: R), e ∈ sides (List.range (vs.map Prod.fst).length) ∨ Valid (posOf (vs.map Prod.fst)) (List.range (vs.map Prod.fst).length) e.1 e.2 := hrem.sides
    have sab : (a, b) ∈ sides (a :: b :: c :: R) := by simp [sides, pairs]
    have sbc : (b, c) ∈ sides (a :: b :: c :: R) := by simp [sides, pairs]
    refine ⟨s', _, hs', I', ⟨?_, ⟨Geom.ring s'.clipped s'.ia, [], by simp, by simp [h2], by simp⟩, ?_, ?_⟩, .inr ⟨h1, h2⟩⟩
    · intro h
      have hRne : R ≠ [] := by
        rintro rfl
        simp only [List.length_cons, List.length_nil] at hlen
        omega
      rw [h3]
      refine Remains.rotated ?_ (ring_rotated _ a _)
      rw [hclip]
      exact (hrem.clip hg hRne he).1
    · intro x hx
      rw [List.mem_append, List.mem_singleton] at hx
      rcases hx with hx | rfl
      · exact G.ears x hx
      · exact he
    · intro e hes
      rw [List.flatMap_append, List.mem_append] at hes
      rcases hes with hes | hes
      · exact G.inner e hes
      · simp only [List.flatMap_cons, List.flatMap_nil, List.append_nil, triSides, List.mem_cons, List.not_mem_nil, or_false] at hes
        rcases hes with rfl | rfl | rfl
        · exact side _ sab
        · exact side _ sbc
        · by_cases hRne : R = []
          · subst hRne
            exact side _ (by simp [sides, pairs])
          · exact .inr (hrem.clip hg hRne he).2

theorem ear_loop_simple (dbg : Bool) (σ : Sgn K) (eps : K) (rnd : Option (Nat → Nat)) {vs : List (P2 K × Nat)} (hg : General (vs.map Prod.fst)) (hap : Apart eps (vs.map Prod.fst)) {t0 : Triangulation} :
    ∀ (fuel : Nat) {s : EarState} {E : List (Nat × Nat × Nat)}, EarInv σ vs t0 s E → EarGeo (vs.map Prod.fst) s E → s.n * (vs.length + 2) + (vs.length + 1 - s.fails) ≤ fuel →
      ∃ s' E', earLoop dbg σ eps rnd vs fuel s = .done s'.tri ∧ EarInv σ vs t0 s' E' ∧ EarGeo (vs.map Prod.fst) s' E' ∧ s'.n = 2 := by
  intro fuel
  induction fuel with
  | zero =>
    intro s E I G h
    have := I.two
    exfalso
    have : 1 ≤ s.n * (vs.length + 2) := Nat.mul_pos (by omega) (by omega)
    omega
  | succ fuel ih =>
    intro s E I G h
    rw [earLoop]
    by_cases hn : s.n > 2
    · rw [if_pos hn]
      have hcount := I.count
      have hfails := I.fails
      obtain ⟨s', E', hs', I', G', h'⟩ := ear_step_simple dbg σ eps rnd hg hap I G hn
      rw [hs']
      simp only [Bind.bind, Outcome.bind]
      refine ih I' G' ?_
      have := I'.fails
      rcases h' with ⟨h1, h2⟩ | ⟨h1, h2⟩
      · rw [h1, h2]; rw [h2] at this; omega
      · rw [h1, h2]
        obtain ⟨m, hm⟩ : ∃ m, s.n = m + 1 := ⟨s.n - 1, by omega⟩
        rw [hm] at h ⊢
        rw [Nat.add_mul] at h
        simp only [Nat.add_sub_cancel]
        omega
    · rw [if_neg hn]
      exact ⟨s, E, rfl, I, G, by have := I.two; omega⟩

/-- C84: on a simple counter-clockwise polygon no three corners of which count as collinear, ear clipping never panics, for every choice of random numbers, every behaviour of the sign tests at zero and both build modes. It emits a triangulation (with all triangles reversed) by diagonals inside the polygon, and every triangle is an ear. -/
theorem c84_ears (dbg : Bool) (σ : Sgn K) {eps : K} (rnd : Option (Nat → Nat)) {vs : List (P2 K × Nat)} (hs : IsSimple (vs.map Prod.fst)) (ha : 0 < area2 (vs.map Prod.fst)) (hap : Apart eps (vs.map Prod.fst)) (t : Triangulation) {fuel : Nat} (hf : earFuel vs.length ≤ fuel) :
    ∃ t' E, earClipping dbg σ eps rnd vs t fuel = .done t' ∧ Emits t t' (vs.map Prod.snd) (E.map rev3) ∧ IsTriangulation vs.length E ∧ AllInner (vs.map Prod.fst) E ∧
      (∀ x ∈ E, IsEar (vs.map Prod.fst) x.1 x.2.1 x.2.2) := by
  have h3 : 3 ≤ vs.length := by simpa using hs.len
  have hi : (match rnd with | none => 0 | some f => f 0 % vs.length) < vs.length := by
    cases rnd with
    | none => simp only; omega
    | some f => exact Nat.mod_lt _ (by omega)
  have I0 := ear_init σ h3 t _ hi
  have hG : ∀ i, EarGeo (vs.map Prod.fst) { tri := t, clipped := List.replicate vs.length false, ia := i, n := vs.length, fails := 0, succ := 0, draws := 1 } [] := by
    intro i
    refine ⟨fun _ => ?_, ⟨_, [], (List.append_nil _).symm, rfl, by simp⟩, by simp, by simp⟩
    refine (remains_init hs ha).rotated ?_
    simp only
    have hr : Geom.ring (List.replicate vs.length false) 0 = List.range (vs.map Prod.fst).length := by
      rw [Geom.ring, List.length_replicate, List.length_map, cyc_rotate, List.rotate_zero, List.filter_eq_self]
      intro j hj
      simp [isLive, List.mem_range.mp hj]
    rw [← hr]
    exact ring_rotated _ _ _
  obtain ⟨s', E, h1, I, G, h2⟩ := ear_loop_simple dbg σ eps rnd hs.general hap fuel I0 (hG _) (by
    simp only [earFuel] at hf ⊢
    have : (vs.length + 1) * (vs.length + 2) = vs.length * (vs.length + 2) + (vs.length + 2) := by rw [Nat.add_mul, Nat.one_mul]
    omega)
  have hT : IsTriangulation vs.length E := by
    refine ⟨I.lt, I.ccw, ?_⟩
    have hn := I.n
    rw [h2] at hn
    match hr : Geom.ring s'.clipped s'.ia, hn with
    | [a, b], _ =>
      have hc := I.cancels
      rw [hr] at hc
      generalize (sides (List.range vs.length)).map Prod.swap = Z at hc ⊢
      simp only [sides, List.cons_append, List.nil_append, pairs] at hc
      rw [← cancels_pair a b]
      refine (cancels_of_perm ?_).mp hc
      rw [List.perm_iff_count]
      intro p
      simp only [List.count_append, List.count_cons, List.count_nil]
      omega
  refine ⟨s'.tri, E, ?_, I.tri, hT, ?_, G.ears⟩
  · unfold earClipping
    rw [if_neg (by omega)]
    exact h1
  · intro p hp hd
    have key : ∀ {p : Nat × Nat}, p ∈ sides (List.range (vs.map Prod.fst).length) → ¬IsDiagonal (vs.map Prod.fst).length (min p.1 p.2, max p.1 p.2) := by
      rintro p hp ⟨h1, h2⟩
      obtain ⟨e1, e2⟩ := mem_sides_range.mp hp
      dsimp only at h1
      rcases Nat.lt_or_ge (p.1 + 1) (vs.map Prod.fst).length with h' | h'
      · rw [Nat.mod_eq_of_lt h'] at e2; omega
      · rw [show p.1 + 1 = (vs.map Prod.fst).length by omega, Nat.mod_self] at e2
        exact h2 (by rw [e2]; simp only [Nat.min_zero, Nat.zero_le, Nat.max_eq_left, Prod.mk.injEq, true_and]; omega)
    rcases G.inner p hp with h' | h'
    · exact absurd hd (key h')
    · rcases Nat.le_total p.1 p.2 with h3 | h3
      · rw [Nat.min_eq_left h3, Nat.max_eq_right h3]; exact h'.inner hs
      · rw [Nat.min_eq_right h3, Nat.max_eq_left h3]; exact h'.symm.inner hs

/-- C84: with exact arithmetic and tolerance zero, on every simple counter-clockwise polygon in general position, the triangles of ear clipping do not overlap and cover exactly the points inside. -/
theorem c84_tiling (dbg : Bool) (σ : Sgn K) (rnd : Option (Nat → Nat)) {vs : List (P2 K × Nat)} (hs : IsSimple (vs.map Prod.fst)) (ha : 0 < area2 (vs.map Prod.fst)) (t : Triangulation) {fuel : Nat} (hf : earFuel vs.length ≤ fuel) :
    ∃ t' E, earClipping dbg σ 0 rnd vs t fuel = .done t' ∧ Emits t t' (vs.map Prod.snd) (E.map rev3) ∧ IsTriangulation vs.length E ∧ (∀ T ∈ E, 0 < areaOf (vs.map Prod.fst) T) ∧
      (E.Pairwise fun T T' => ∀ p, ¬(WithinOf (vs.map Prod.fst) p T ∧ WithinOf (vs.map Prod.fst) p T')) ∧ ∀ p, OffSides (vs.map Prod.fst) p → (contains σ (vs.map Prod.fst) p = some true ↔ ∃ T ∈ E, InTriOf (vs.map Prod.fst) p T) := by
  obtain ⟨t', E, h1, h2, h3, h4, h5⟩ := c84_ears dbg σ rnd hs ha (eps := 0) (fun k hk j hj i hi => abs_pos.mpr (hs.general k hk j hj i hi)) t hf
  have h3' : IsTriangulation (vs.map Prod.fst).length E := by rw [List.length_map]; exact h3
  obtain ⟨s, -, -, h7, -⟩ := c83_tiling hs h3' h4
  exact ⟨t', E, h1, h2, h3, fun T hT => (h5 T hT).1, h7, fun p hp => c83_contains σ hs ha h3' h4 hp⟩

/-- non-vacuity: the polygon with a dent; one of its corners is not convex -/
example : IsSimple ((numbered arrow).map Prod.fst) ∧ 0 < area2 ((numbered arrow).map Prod.fst) ∧ Apart 0 ((numbered arrow).map Prod.fst) ∧ ¬IsEar arrow 1 2 3 := by
  have e : (numbered arrow).map Prod.fst = arrow := by decide +kernel
  rw [e]
  refine ⟨arrow_simple, by decide +kernel, fun k hk j hj i hi => abs_pos.mpr (arrow_simple.general k hk j hj i hi), ?_⟩
  rintro ⟨h, -⟩
  exact absurd h (by decide +kernel)

/-- the orientation matters: on the same polygon in clockwise order ear clipping panics -/
theorem c84_clockwise (dbg : Bool) : earClipping dbg (plusZero ℚ) 0 none (numbered arrow.reverse) (new []) (earFuel 4) = .panic := by
  cases dbg <;> decide +kernel

/-- the triangles on the polygon with a dent -/
example : earClipping true (plusZero ℚ) 0 none (numbered arrow) (new []) (earFuel 4) = .done ⟨[0, 2, 1, 0, 3, 2], 0⟩ := by decide +kernel

end Verif.GeomProps
