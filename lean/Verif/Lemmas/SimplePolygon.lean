import Verif.Props.ValidDiagonal
import Verif.Props.Ear
import Verif.Props.Sweep
/-
Simple polygons: cutting along a diagonal.

A polygon is a list of indices, `pos` gives their positions.
-/
set_option linter.unusedSectionVars false
namespace Verif.GeomProps
open Geom
variable {K : Type} [Field K] [LinearOrder K] [IsStrictOrderedRing K]

/-! ### Segments -/

theorem _root_.Verif.Geom.OnSegment.flip {x a b : P2 K} (h : OnSegment x a b) : OnSegment x b a := by
  obtain ⟨r, r0, r1, hx, hy⟩ := h
  exact ⟨1 - r, by linarith, by linarith, by rw [hx]; ring, by rw [hy]; ring⟩

theorem onSegment_along {a b : P2 K} {t : K} (h0 : 0 ≤ t) (h1 : t ≤ 1) : OnSegment (along a b t) a b := ⟨t, h0, h1, rfl, rfl⟩

theorem _root_.Verif.Geom.OnSegment.eq_along {x a b : P2 K} (h : OnSegment x a b) : ∃ t, 0 ≤ t ∧ t ≤ 1 ∧ x = along a b t := by
  obtain ⟨t, t0, t1, hx, hy⟩ := h
  exact ⟨t, t0, t1, P2.ext hx hy⟩

theorem along_zero (a b : P2 K) : along a b 0 = a := by simp [along]
theorem along_one (a b : P2 K) : along a b 1 = b := by simp [along]
theorem along_flip (a b : P2 K) (t : K) : along a b t = along b a (1 - t) := by simp only [along]; congr 1 <;> ring
theorem along_along (a b : P2 K) (t s r : K) : along (along a b t) (along a b s) r = along a b (t + (s - t) * r) := by
  simp only [along]; congr 1 <;> ring

theorem along_left {a b : P2 K} {t : K} (hab : a ≠ b) (h : along a b t = a) : t = 0 := by
  simp only [along, P2.ext_iff] at h
  by_contra ht
  apply hab
  ext
  · have : (b.x - a.x) * t = 0 := by linear_combination h.1
    rcases mul_eq_zero.mp this with h | h
    · linear_combination -h
    · exact absurd h ht
  · have : (b.y - a.y) * t = 0 := by linear_combination h.2
    rcases mul_eq_zero.mp this with h | h
    · linear_combination -h
    · exact absurd h ht

theorem along_right {a b : P2 K} {t : K} (hab : a ≠ b) (h : along a b t = b) : t = 1 := by
  rw [along_flip] at h
  have := along_left hab.symm h
  linarith

/-- a point of a segment between two of its points is on the segment -/
theorem _root_.Verif.Geom.OnSegment.trans {x y z a b : P2 K} (h : OnSegment x y z) (hy : OnSegment y a b) (hz : OnSegment z a b) : OnSegment x a b := by
  obtain ⟨t, t0, t1, rfl⟩ := hy.eq_along
  obtain ⟨s, s0, s1, rfl⟩ := hz.eq_along
  obtain ⟨r, r0, r1, rfl⟩ := h.eq_along
  rw [along_along]
  refine onSegment_along ?_ ?_ <;> nlinarith

theorem onSegment_self_left (a b : P2 K) : OnSegment a a b := ⟨0, le_refl _, zero_le_one, by simp, by simp⟩
theorem onSegment_self_right (a b : P2 K) : OnSegment b a b := ⟨1, zero_le_one, le_refl _, by simp, by simp⟩

/-- segments with a common end that are not on a line have no other point in common -/
theorem common_end {p a b c : P2 K} (h : tri2 a b c ≠ 0) (h1 : OnSegment p a b) (h2 : OnSegment p a c) : p = a := by
  obtain ⟨t, -, -, tx, ty⟩ := h1
  obtain ⟨s, -, -, sx, sy⟩ := h2
  have : t * tri2 a b c = 0 := by
    simp only [tri2]
    rw [tx] at sx
    rw [ty] at sy
    linear_combination (c.y - a.y) * sx - (c.x - a.x) * sy
  rcases mul_eq_zero.mp this with h' | h'
  · rw [h'] at tx ty
    ext
    · rw [tx]; ring
    · rw [ty]; ring
  · exact absurd h' h

theorem tri2_along (a b p q : P2 K) (t : K) : tri2 a b (along p q t) = (1 - t) * tri2 a b p + t * tri2 a b q := by
  simp only [tri2, along]; ring

/-! ### Polygons -/

variable (pos : Nat → P2 K)

/-- no three corners are on a line -/
def Gen (vs : List Nat) : Prop := ∀ a ∈ vs, ∀ b ∈ vs, ∀ c ∈ vs, a ≠ b → a ≠ c → b ≠ c → tri2 (pos a) (pos b) (pos c) ≠ 0

/-- the polygon has no corner twice, no three corners are on a line, and only neighbouring sides meet -/
structure Simple (vs : List Nat) : Prop where
  nodup : vs.Nodup
  len : 3 ≤ vs.length
  gen : Gen pos vs
  meet : ∀ e ∈ sides vs, ∀ f ∈ sides vs, e.1 ≠ f.1 → e.1 ≠ f.2 → e.2 ≠ f.1 → e.2 ≠ f.2 → ¬Meet (pos e.1) (pos e.2) (pos f.1) (pos f.2)

/-- how often the polygon runs around `p` -/
def wind (vs : List Nat) (p : P2 K) : Int := ((sides vs).map fun e => ray p (pos e.1) (pos e.2)).sum

/-- a diagonal inside the polygon -/
structure Valid (vs : List Nat) (x y : Nat) : Prop where
  left : x ∈ vs
  right : y ∈ vs
  ne : x ≠ y
  ns : (x, y) ∉ sides vs
  ns' : (y, x) ∉ sides vs
  free : ∀ e ∈ sides vs, e.1 ≠ x → e.1 ≠ y → e.2 ≠ x → e.2 ≠ y → ¬Meet (pos e.1) (pos e.2) (pos x) (pos y)
  inside : ∀ t, 0 < t → t < 1 → wind pos vs (along (pos x) (pos y) t) ≠ 0

variable {pos}

theorem wind_eq (vs : List Nat) (p : P2 K) : wind pos vs p = winding (vs.map pos) p := by
  rw [wind, winding, sides_map, List.map_map]; rfl

theorem wind_const {vs : List Nat} {p q : P2 K} (h : ∀ e ∈ sides vs, ¬Meet (pos e.1) (pos e.2) p q) : wind pos vs p = wind pos vs q := by
  rw [wind_eq, wind_eq]
  apply winding_const
  intro e he
  rw [sides_map] at he
  obtain ⟨e', h', rfl⟩ := List.mem_map.mp he
  exact h e' h'

theorem Valid.symm {vs : List Nat} {x y : Nat} (h : Valid pos vs x y) : Valid pos vs y x :=
  ⟨h.right, h.left, h.ne.symm, h.ns', h.ns, fun e he h1 h2 h3 h4 hm => h.free e he h2 h1 h4 h3 hm.swap, fun t t0 t1 => by rw [along_flip]; exact h.inside _ (by linarith) (by linarith)⟩

theorem wind_rotated {vs vs' : List Nat} (h : vs ~r vs') (p : P2 K) : wind pos vs p = wind pos vs' p := by
  rw [wind, wind]
  exact ((sides_rotated h).map _).sum_eq

theorem Simple.rotated {vs vs' : List Nat} (hs : Simple pos vs) (h : vs ~r vs') : Simple pos vs' where
  nodup := h.nodup_iff.mp hs.nodup
  len := by rw [← h.perm.length_eq]; exact hs.len
  gen := fun a ha b hb c hc => hs.gen a (h.mem_iff.mpr ha) b (h.mem_iff.mpr hb) c (h.mem_iff.mpr hc)
  meet := fun e he f hf => hs.meet e ((sides_rotated h).mem_iff.mpr he) f ((sides_rotated h).mem_iff.mpr hf)

theorem Valid.rotated {vs vs' : List Nat} {x y : Nat} (hv : Valid pos vs x y) (h : vs ~r vs') : Valid pos vs' x y where
  left := h.mem_iff.mp hv.left
  right := h.mem_iff.mp hv.right
  ne := hv.ne
  ns := fun h' => hv.ns ((sides_rotated h).mem_iff.mpr h')
  ns' := fun h' => hv.ns' ((sides_rotated h).mem_iff.mpr h')
  free := fun e he => hv.free e ((sides_rotated h).mem_iff.mpr he)
  inside := fun t t0 t1 => by rw [← wind_rotated h]; exact hv.inside t t0 t1

theorem pairs_mem {A : Type} {l : List A} {e : A × A} (h : e ∈ pairs l) : e.1 ∈ l ∧ e.2 ∈ l := by
  induction l with
  | nil => simp [pairs] at h
  | cons a l ih =>
    cases l with
    | nil => simp [pairs] at h
    | cons b l =>
      rw [pairs, List.mem_cons] at h
      rcases h with rfl | h
      · simp
      · have := ih h
        exact ⟨List.mem_cons_of_mem _ this.1, List.mem_cons_of_mem _ this.2⟩

theorem sides_mem {A : Type} {l : List A} {e : A × A} (h : e ∈ sides l) : e.1 ∈ l ∧ e.2 ∈ l := by
  cases l with
  | nil => simp [sides] at h
  | cons a l =>
    have := pairs_mem h
    simpa [or_comm, or_assoc] using this

/-- two of the corners of a list without repetitions that are not a third one -/
theorem third_corner {vs : List Nat} (hn : vs.Nodup) (hl : 3 ≤ vs.length) (a b : Nat) : ∃ c ∈ vs, c ≠ a ∧ c ≠ b := by
  by_contra hc
  push Not at hc
  have : vs ⊆ [a, b] := by
    intro c hc'
    by_cases h : c = a
    · simp [h]
    · simp [hc c hc' h]
  have := (hn.subperm this).length_le
  simp at this
  omega

theorem Simple.pos_ne {vs : List Nat} (hs : Simple pos vs) {a b : Nat} (ha : a ∈ vs) (hb : b ∈ vs) (hab : a ≠ b) : pos a ≠ pos b := by
  obtain ⟨c, hc, h1, h2⟩ := third_corner hs.nodup hs.len a b
  intro h
  refine hs.gen a ha b hb c hc hab (Ne.symm h1) (Ne.symm h2) ?_
  simp only [tri2, h]; ring

/-- a corner is on no segment between two other corners -/
theorem Simple.off_corner {vs : List Nat} (hs : Simple pos vs) {a b c : Nat} (ha : a ∈ vs) (hb : b ∈ vs) (hc : c ∈ vs) (hab : a ≠ b) (h1 : c ≠ a) (h2 : c ≠ b) : ¬OnSegment (pos c) (pos a) (pos b) := by
  intro h
  exact hs.gen a ha b hb c hc hab (Ne.symm h1) (Ne.symm h2) (tri2_onSegment h)

/-- two segments between corners have at most a common end in common -/
theorem Simple.inter {vs : List Nat} (hs : Simple pos vs) {p q r s : Nat} (hp : p ∈ vs) (hq : q ∈ vs) (hr : r ∈ vs) (hs' : s ∈ vs) (hpq : p ≠ q) (hrs : r ≠ s) (h1 : ¬(p = r ∧ q = s)) (h2 : ¬(p = s ∧ q = r)) {z : P2 K}
    (hz : OnSegment z (pos p) (pos q)) (hz' : OnSegment z (pos r) (pos s)) (hm : p ≠ r → p ≠ s → q ≠ r → q ≠ s → ¬Meet (pos p) (pos q) (pos r) (pos s)) :
    (z = pos p ∧ (p = r ∨ p = s)) ∨ (z = pos q ∧ (q = r ∨ q = s)) := by
  by_cases a1 : p = r
  · subst a1
    left
    exact ⟨common_end (hs.gen p hp q hq s hs' hpq hrs (fun h => h1 ⟨rfl, h⟩)) hz hz', .inl rfl⟩
  by_cases a2 : p = s
  · subst a2
    left
    exact ⟨common_end (hs.gen p hp q hq r hr hpq (Ne.symm hrs) (fun h => h2 ⟨rfl, h⟩)) hz hz'.flip, .inr rfl⟩
  by_cases a3 : q = r
  · subst a3
    right
    exact ⟨common_end (hs.gen q hq p hp s hs' hpq.symm hrs (fun h => a2 h)) hz.flip hz', .inl rfl⟩
  by_cases a4 : q = s
  · subst a4
    right
    exact ⟨common_end (hs.gen q hq p hp r hr hpq.symm (Ne.symm hrs) (fun h => a1 h)) hz.flip hz'.flip, .inr rfl⟩
  exact absurd ⟨z, hz, hz'⟩ (hm a1 a2 a3 a4)

theorem pairs_ne {A : Type} {l : List A} (h : l.Nodup) {e : A × A} (he : e ∈ pairs l) : e.1 ≠ e.2 := by
  induction l with
  | nil => simp [pairs] at he
  | cons a l ih =>
    cases l with
    | nil => simp [pairs] at he
    | cons b l =>
      rw [pairs, List.mem_cons] at he
      rcases he with rfl | he
      · simp only [List.nodup_cons, List.mem_cons, not_or] at h
        exact h.1.1
      · exact ih (List.nodup_cons.mp h).2 he

theorem sides_ne {A : Type} {l : List A} (h : l.Nodup) (hl : 2 ≤ l.length) {e : A × A} (he : e ∈ sides l) : e.1 ≠ e.2 := by
  cases l with
  | nil => simp [sides] at he
  | cons a l =>
    rcases List.eq_nil_or_concat l with rfl | ⟨l, b, rfl⟩
    · simp at hl
    · rw [List.concat_eq_append] at h he
      rw [sides, show a :: (l ++ [b]) ++ [a] = (a :: l) ++ [b, a] by simp, pairs_snoc, List.mem_append, List.mem_singleton] at he
      rcases he with he | rfl
      · exact pairs_ne (by simpa using h) he
      · simp only [List.nodup_cons, List.mem_append, List.mem_singleton, not_or] at h
        exact fun h' => h.1.2 h'.symm

/-- the inner points of a diagonal are on no side -/
theorem Valid.off {vs : List Nat} (hs : Simple pos vs) {x y : Nat} (h : Valid pos vs x y) {t : K} (t0 : 0 < t) (t1 : t < 1) : ∀ e ∈ sides vs, ¬OnSegment (along (pos x) (pos y) t) (pos e.1) (pos e.2) := by
  intro e he hz
  have hm := sides_mem he
  have hxy := hs.pos_ne h.left h.right h.ne
  rcases hs.inter h.left h.right hm.1 hm.2 h.ne (sides_ne hs.nodup (by have := hs.len; omega) he) (fun h' => h.ns (by rw [h'.1, h'.2]; exact he)) (fun h' => h.ns' (by rw [h'.1, h'.2]; exact he))
      (onSegment_along t0.le t1.le) hz (fun a b c d hm => h.free e he a.symm c.symm b.symm d.symm hm.symm) with ⟨h', -⟩ | ⟨h', -⟩
  · exact absurd (along_left hxy h') t0.ne'
  · exact absurd (along_right hxy h') t1.ne

/-! ### Cutting -/

theorem pairs_glue {A : Type} (l m : List A) (j : A) : pairs (l ++ j :: m) = pairs (l ++ [j]) ++ pairs (j :: m) := by
  induction l with
  | nil => simp [pairs]
  | cons a l ih =>
    cases l with
    | nil => simp [pairs]
    | cons b l => simpa [pairs] using ih

variable {i j : Nat} {A B : List Nat}

theorem sides_cut : sides (i :: A ++ j :: B) = pairs (i :: A ++ [j]) ++ pairs (j :: B ++ [i]) := by
  rw [show i :: A ++ j :: B = i :: (A ++ j :: B) by simp, sides, show i :: (A ++ j :: B) ++ [i] = (i :: A) ++ j :: (B ++ [i]) by simp, pairs_glue]
  rfl

theorem sides_part : sides (i :: A ++ [j]) = pairs (i :: A ++ [j]) ++ [(j, i)] := by
  rw [show i :: A ++ [j] = i :: (A ++ [j]) by simp, sides, show i :: (A ++ [j]) ++ [i] = (i :: A) ++ [j, i] by simp, pairs_snoc]
  simp

/-- the diagonal is run through twice, in both directions -/
theorem wind_cut (p : P2 K) : wind pos (i :: A ++ j :: B) p = wind pos (i :: A ++ [j]) p + wind pos (j :: B ++ [i]) p := by
  rw [wind, wind, wind, sides_cut, sides_part, sides_part]
  simp only [List.map_append, List.sum_append, List.map_cons, List.map_nil, List.sum_cons, List.sum_nil]
  rw [ray_swap p (pos i) (pos j)]
  omega

theorem cut_rotated : (i :: A ++ j :: B) ~r (j :: B ++ i :: A) := by
  exact List.IsRotated.trans ⟨(i :: A).length, by rw [List.rotate_append_length_eq]⟩ (List.IsRotated.refl _)

/-- one of the ends of each side of the second part is none of the corners of the first one -/
theorem part_end {A : Type} {i j : A} {B : List A} (hB : B ≠ []) {e : A × A} (he : e ∈ pairs (j :: B ++ [i])) : e.1 ∈ B ∨ e.2 ∈ B := by
  cases B with
  | nil => exact absurd rfl hB
  | cons b B =>
    simp only [List.cons_append, pairs, List.mem_cons] at he
    rcases he with rfl | he
    · simp
    · clear hB
      induction B generalizing b with
      | nil => simp [pairs] at he; simp [he]
      | cons c B ih =>
        simp only [List.cons_append, pairs, List.mem_cons] at he
        rcases he with rfl | he
        · simp
        · have := ih c he
          simp only [List.mem_cons] at this ⊢
          tauto

section
variable (hs : Simple pos (i :: A ++ j :: B)) (hA : A ≠ []) (hB : B ≠ [])
  (hf : ∀ e ∈ sides (i :: A ++ j :: B), e.1 ≠ i → e.1 ≠ j → e.2 ≠ i → e.2 ≠ j → ¬Meet (pos e.1) (pos e.2) (pos i) (pos j))
include hs hA hB hf

theorem Simple.part : Simple pos (i :: A ++ [j]) where
  nodup := hs.nodup.sublist (by simp)
  len := by
    have := List.length_pos_iff.mpr hA
    simp; omega
  gen := fun a ha b hb c hc => hs.gen a (by simp at ha ⊢; tauto) b (by simp at hb ⊢; tauto) c (by simp at hc ⊢; tauto)
  meet := by
    have h1 : ∀ e ∈ pairs (i :: A ++ [j]), e ∈ sides (i :: A ++ j :: B) := fun e he => by rw [sides_cut]; simp only [List.mem_append]; exact .inl he
    intro e he f hf' a1 a2 a3 a4 hm
    rw [sides_part, List.mem_append, List.mem_singleton] at he hf'
    rcases he with he | rfl
    · rcases hf' with hf' | rfl
      · exact hs.meet e (h1 e he) f (h1 f hf') a1 a2 a3 a4 hm
      · exact hf e (h1 e he) a2 a1 a4 a3 hm.swap
    · rcases hf' with hf' | rfl
      · exact hf f (h1 f hf') (Ne.symm a3) (Ne.symm a1) (Ne.symm a4) (Ne.symm a2) hm.symm.swap
      · exact a1 rfl

/-- the points of the second part of the boundary are outside of the first part if its corners are -/
theorem outside_part (out : ∀ b ∈ B, wind pos (i :: A ++ [j]) (pos b) = 0) {e : Nat × Nat} (he : e ∈ pairs (j :: B ++ [i])) {z : P2 K} (hz : OnSegment z (pos e.1) (pos e.2)) (hi : z ≠ pos i) (hj : z ≠ pos j) :
    wind pos (i :: A ++ [j]) z = 0 := by
  have hnd := hs.nodup
  have mB : ∀ b ∈ B, b ∈ i :: A ++ j :: B := fun b hb => by simp [hb]
  have he' : e ∈ sides (i :: A ++ j :: B) := by rw [sides_cut]; simp only [List.mem_append]; exact .inr he
  have dis : ∀ b ∈ B, b ∉ i :: A ++ [j] := by
    intro b hb h
    simp only [List.cons_append, List.nodup_cons, List.nodup_append, List.mem_cons, List.mem_append, not_or] at hnd
    simp only [List.cons_append, List.mem_cons, List.mem_append, List.not_mem_nil, or_false] at h
    rcases h with rfl | h | rfl
    · exact hnd.1.2.2 hb
    · exact hnd.2.2.2 b h b (.inr hb) rfl
    · exact hnd.2.2.1.1 hb
  have key : ∀ b c, b ∈ B → c ∈ j :: B ++ [i] → b ≠ c → OnSegment z (pos c) (pos b) → ((c, b) ∈ sides (i :: A ++ j :: B) ∨ (b, c) ∈ sides (i :: A ++ j :: B)) → wind pos (i :: A ++ [j]) z = 0 := by
    intro b c hb hc hbc hz hside
    rw [← out b hb]
    apply wind_const
    rintro f hf' ⟨x, hx, hx'⟩
    have hfm := sides_mem hf'
    have hmem : ∀ k ∈ i :: A ++ [j], k ∈ i :: A ++ j :: B := fun k hk => by simp at hk ⊢; tauto
    have hcm : c ∈ i :: A ++ j :: B := by simp at hc ⊢; tauto
    have hx2 : OnSegment x (pos c) (pos b) := hx'.trans hz (onSegment_self_right _ _)
    have b1 : b ≠ f.1 := fun h => dis b hb (h ▸ hfm.1)
    have b2 : b ≠ f.2 := fun h => dis b hb (h ▸ hfm.2)
    have hfne : f.1 ≠ f.2 := sides_ne (hs.part hA hB hf).nodup (by have := (hs.part hA hB hf).len; omega) hf'
    have hnm : c ≠ f.1 → c ≠ f.2 → b ≠ f.1 → b ≠ f.2 → ¬Meet (pos c) (pos b) (pos f.1) (pos f.2) := by
      intro k1 k2 k3 k4 hm
      rw [sides_part, List.mem_append, List.mem_singleton] at hf'
      rcases hf' with hf' | rfl
      · have : f ∈ sides (i :: A ++ j :: B) := by rw [sides_cut]; simp only [List.mem_append]; exact .inl hf'
        rcases hside with h | h
        · exact hs.meet _ h f this k1 k2 k3 k4 hm
        · exact hs.meet _ h f this k3 k4 k1 k2 hm.flip
      · rcases hside with h | h
        · exact hf _ h k2 k1 k4 k3 hm.swap
        · exact hf _ h k4 k3 k2 k1 hm.flip.swap
    rcases hs.inter hcm (mB b hb) (hmem _ hfm.1) (hmem _ hfm.2) hbc.symm hfne (fun h => b2 h.2) (fun h => b1 h.2) hx2 hx hnm with ⟨h, h'⟩ | ⟨-, h⟩
    · -- `x` is the other end `c`, which is `i` or `j`
      have hcc : c = i ∨ c = j := by
        have : c ∈ i :: A ++ [j] := by
          rcases h' with h' | h'
          · rw [h']; exact hfm.1
          · rw [h']; exact hfm.2
        by_contra hcon
        push Not at hcon
        have : c ∈ A := by simp [hcon.1, hcon.2] at this; exact this
        have hc' : c ∈ B := by simp [hcon.1, hcon.2] at hc; exact hc
        exact dis c hc' (by simp [this])
      have hzc : z = pos c := by
        obtain ⟨t, t0, t1, rfl⟩ := hz.eq_along
        obtain ⟨r, r0, r1, hr⟩ := hx'.eq_along
        rw [h, show along (along (pos c) (pos b) t) (pos b) r = along (along (pos c) (pos b) t) (along (pos c) (pos b) 1) r by rw [along_one], along_along] at hr
        have := along_left (hs.pos_ne hcm (mB b hb) hbc.symm) hr.symm
        have : t = 0 := by nlinarith
        rw [this, along_zero]
      rcases hcc with rfl | rfl
      · exact hi hzc
      · exact hj hzc
    · rcases h with h | h
      · exact b1 h
      · exact b2 h
  have hne := sides_ne hs.nodup (by have := hs.len; omega) he'
  have hem := pairs_mem he
  rcases part_end hB he with h | h
  · exact key e.1 e.2 h hem.2 hne hz.flip (.inr he')
  · exact key e.2 e.1 h hem.1 hne.symm hz (.inl he')

/-- a diagonal inside a part is inside the whole polygon, if the parts are outside of each other -/
theorem Valid.lift (out1 : ∀ b ∈ B, wind pos (i :: A ++ [j]) (pos b) = 0) (out2 : ∀ a ∈ A, wind pos (j :: B ++ [i]) (pos a) = 0) {x y : Nat} (h : Valid pos (i :: A ++ [j]) x y) :
    Valid pos (i :: A ++ j :: B) x y := by
  have hnd := hs.nodup
  have dis : ∀ b ∈ B, b ∉ i :: A ++ [j] := by
    intro b hb h
    simp only [List.cons_append, List.nodup_cons, List.nodup_append, List.mem_cons, List.mem_append, not_or] at hnd
    simp only [List.cons_append, List.mem_cons, List.mem_append, List.not_mem_nil, or_false] at h
    rcases h with rfl | h | rfl
    · exact hnd.1.2.2 hb
    · exact hnd.2.2.2 b h b (.inr hb) rfl
    · exact hnd.2.2.1.1 hb
  have hmem : ∀ k ∈ i :: A ++ [j], k ∈ i :: A ++ j :: B := fun k hk => by simp at hk ⊢; tauto
  have hmem' : ∀ k ∈ j :: B ++ [i], k ∈ i :: A ++ j :: B := fun k hk => by simp at hk ⊢; tauto
  have hx := hmem x h.left
  have hy := hmem y h.right
  have hpne := hs.pos_ne hx hy h.ne
  have h2 : ∀ e ∈ pairs (j :: B ++ [i]), e ∈ sides (i :: A ++ j :: B) := fun e he => by rw [sides_cut]; simp only [List.mem_append]; exact .inr he
  have hns : ∀ x y, x ∈ i :: A ++ [j] → y ∈ i :: A ++ [j] → (x, y) ∉ sides (i :: A ++ [j]) → (x, y) ∉ sides (i :: A ++ j :: B) := by
    intro x y hx hy hn h
    rw [sides_cut, List.mem_append] at h
    rcases h with h | h
    · exact hn (by rw [sides_part]; simp only [List.mem_append]; exact .inl h)
    · rcases part_end hB h with h | h
      · exact dis _ h hx
      · exact dis _ h hy
  have hfree : ∀ e ∈ sides (i :: A ++ j :: B), e.1 ≠ x → e.1 ≠ y → e.2 ≠ x → e.2 ≠ y → ¬Meet (pos e.1) (pos e.2) (pos x) (pos y) := by
    intro e he a1 a2 a3 a4 hm
    have hem := sides_mem he
    have hne := sides_ne hs.nodup (by have := hs.len; omega) he
    rw [sides_cut, List.mem_append] at he
    rcases he with he | he
    · exact h.free e (by rw [sides_part]; simp only [List.mem_append]; exact .inl he) a1 a2 a3 a4 hm
    · obtain ⟨z, z1, z2⟩ := hm
      obtain ⟨t, t0, t1, rfl⟩ := z2.eq_along
      rcases t0.eq_or_lt with rfl | t0
      · rw [along_zero] at z1
        exact hs.off_corner hem.1 hem.2 hx hne (Ne.symm a1) (Ne.symm a3) z1
      rcases t1.eq_or_lt with rfl | t1
      · rw [along_one] at z1
        exact hs.off_corner hem.1 hem.2 hy hne (Ne.symm a2) (Ne.symm a4) z1
      have corner : ∀ k, k ∈ i :: A ++ j :: B → along (pos x) (pos y) t ≠ pos k := by
        intro k hk hc
        by_cases k1 : k = x
        · rw [k1] at hc; exact absurd (along_left hpne hc) t0.ne'
        by_cases k2 : k = y
        · rw [k2] at hc; exact absurd (along_right hpne hc) t1.ne
        exact hs.off_corner hx hy hk h.ne k1 k2 (hc ▸ onSegment_along t0.le t1.le)
      exact h.inside t t0 t1 (outside_part hs hA hB hf out1 he z1 (corner i (by simp)) (corner j (by simp)))
  refine ⟨hx, hy, h.ne, hns x y h.left h.right h.ns, hns y x h.right h.left h.ns', hfree, ?_⟩
  -- the second part does not run around the diagonal
  have key : ∀ x y, x ∈ A → y ∈ i :: A ++ [j] → x ≠ y → (∀ e ∈ sides (i :: A ++ [j]), e.1 ≠ x → e.1 ≠ y → e.2 ≠ x → e.2 ≠ y → ¬Meet (pos e.1) (pos e.2) (pos x) (pos y)) →
      (∀ e ∈ sides (i :: A ++ j :: B), e.1 ≠ x → e.1 ≠ y → e.2 ≠ x → e.2 ≠ y → ¬Meet (pos e.1) (pos e.2) (pos x) (pos y)) → ∀ t, 0 < t → t < 1 → wind pos (j :: B ++ [i]) (along (pos x) (pos y) t) = 0 := by
    clear hpne hfree h hx hy
    clear x y
    intro x y hx hy hxy f1 f2 t t0 t1
    rw [← out2 x hx]
    apply wind_const
    rintro e he ⟨z, z1, z2⟩
    have hem := sides_mem he
    have hxm : x ∈ i :: A ++ j :: B := by simp [hx]
    have xn : ∀ k ∈ j :: B ++ [i], x ≠ k := by
      rintro k hk rfl
      simp only [List.cons_append, List.nodup_cons, List.nodup_append, List.mem_cons, List.mem_append, not_or] at hnd
      simp only [List.cons_append, List.mem_cons, List.mem_append, List.not_mem_nil, or_false] at hk
      rcases hk with hk | hk | hk
      · exact hnd.2.2.2 x hx x (.inl hk) rfl
      · exact dis x hk (by simp [hx])
      · exact hnd.1.1 (hk ▸ hx)
    have hz : OnSegment z (pos x) (pos y) := z2.trans (onSegment_along t0.le t1.le) (onSegment_self_left _ _)
    have hnn : j ≠ i := by
      intro h
      simp only [List.cons_append, List.nodup_cons, List.mem_append, List.mem_cons, not_or] at hnd
      exact hnd.1.2.1 h.symm
    have hene : e.1 ≠ e.2 := by
      rw [sides_part, List.mem_append, List.mem_singleton] at he
      rcases he with he | rfl
      · exact sides_ne hs.nodup (by have := hs.len; omega) (h2 e he)
      · exact hnn.symm
    have hnm : x ≠ e.1 → x ≠ e.2 → y ≠ e.1 → y ≠ e.2 → ¬Meet (pos x) (pos y) (pos e.1) (pos e.2) := by
      intro a1 a2 a3 a4 hm
      rw [sides_part, List.mem_append, List.mem_singleton] at he
      rcases he with he | rfl
      · exact f2 e (h2 e he) a1.symm a3.symm a2.symm a4.symm hm.symm
      · exact f1 (j, i) (by rw [sides_part]; simp) a2.symm a4.symm a1.symm a3.symm hm.swap.symm
    rcases hs.inter hxm (hmem y hy) (hmem' _ hem.1) (hmem' _ hem.2) hxy hene (fun h => xn _ hem.1 h.1) (fun h => xn _ hem.2 h.1) hz z1 hnm with ⟨-, h⟩ | ⟨h, -⟩
    · rcases h with h | h
      · exact xn _ hem.1 h
      · exact xn _ hem.2 h
    · obtain ⟨r, r0, r1, hr⟩ := z2.eq_along
      rw [h, show along (along (pos x) (pos y) t) (pos x) r = along (along (pos x) (pos y) t) (along (pos x) (pos y) 0) r by rw [along_zero], along_along] at hr
      have := along_right (hs.pos_ne hxm (hmem y hy) hxy) hr.symm
      nlinarith
  intro t t0 t1
  rw [wind_cut]
  have hz : wind pos (j :: B ++ [i]) (along (pos x) (pos y) t) = 0 := by
    by_cases hxA : x ∈ A
    · exact key x y hxA h.right h.ne h.free hfree t t0 t1
    by_cases hyA : y ∈ A
    · rw [along_flip]
      exact key y x hyA h.left h.ne.symm h.symm.free (fun e he a1 a2 a3 a4 hm => hfree e he a2 a1 a4 a3 hm.swap) _ (by linarith) (by linarith)
    exfalso
    have l := h.left
    have r := h.right
    simp only [List.cons_append, List.mem_cons, List.mem_append, List.not_mem_nil, or_false, hxA, hyA, false_or] at l r
    rcases l with rfl | rfl <;> rcases r with rfl | rfl
    · exact h.ne rfl
    · exact h.ns' (by rw [sides_part]; simp)
    · exact h.ns (by rw [sides_part]; simp)
    · exact h.ne rfl
  rw [hz, add_zero]
  exact h.inside t t0 t1
end
end Verif.GeomProps
