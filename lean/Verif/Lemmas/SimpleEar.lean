import Verif.Props.SimpleTiling
/-
Ears of simple polygons: there is one, a strictly convex corner without other corners in its triangle is one, and what remains when it is cut off.
-/
set_option linter.unusedSectionVars false
namespace Verif.GeomProps
open Geom
variable {K : Type} [Field K] [LinearOrder K] [IsStrictOrderedRing K] {pos : Nat → P2 K}

/-- the polygon runs around each point off its sides once counter-clockwise or not at all -/
def Ccw (pos : Nat → P2 K) (vs : List Nat) : Prop := ∀ p, (∀ e ∈ sides vs, ¬OnSegment p (pos e.1) (pos e.2)) → wind pos vs p = 0 ∨ wind pos vs p = 1

theorem Ccw.rotated {vs vs' : List Nat} (h : Ccw pos vs) (hr : vs ~r vs') : Ccw pos vs' := by
  intro p hp
  rw [← wind_rotated hr]
  exact h p fun e he => hp e ((sides_rotated hr).mem_iff.mp he)

/-! ### There is an ear -/

theorem exists_tr {ps : List (P2 K)} (hs : IsSimple ps) : ∃ ts, Tr (List.range ps.length) ts ∧ Sound (posOf ps) (List.range ps.length) ts := by
  obtain ⟨ts, h⟩ := exists_triangulation _ (le_refl _) hs.simple
  have hT : IsTriangulation ps.length ts := isTriangulation_of_count hs.len (fun T hT => by simpa using h.mem T hT) h.boundary (by simpa using h.length)
  obtain ⟨n, hn⟩ : ∃ n, ps.length = n + 2 := ⟨ps.length - 2, by have := hs.len; omega⟩
  have h' := hT
  rw [hn] at h'
  obtain ⟨ts', hp, ht⟩ := h'.tri
  have hTr := Tr.of_tri ht (by have := hs.len; omega)
  rw [← hn] at hTr
  refine ⟨ts', hTr, fun e he => ?_⟩
  have he : e ∈ ts.flatMap triSides := (norm3_flat ts).mem_iff.mp ((hp.flatMap_right triSides).mem_iff.mpr he)
  exact (h.valid e he).imp id .inr

theorem Tr.exists_ear {vs : List Nat} {ts : List (Nat × Nat × Nat)} (h : Tr vs ts) : Simple pos vs → Sound pos vs ts → 4 ≤ vs.length → ∃ v w u M, M ≠ [] ∧ vs ~r (v :: w :: M ++ [u]) ∧ Valid pos (v :: w :: M ++ [u]) w u := by
  induction h with
  | three a b c => intro _ _ h; simp at h
  | ear hM ht ih =>
    rename_i v w u M ts
    intro hs hsd _
    refine ⟨v, w, u, M, hM, List.IsRotated.refl _, ?_⟩
    have hn := hs.nodup
    rw [show v :: w :: M ++ [u] = v :: w :: (M ++ [u]) by simp] at hn
    simp only [List.nodup_cons, List.nodup_append, List.mem_cons, List.mem_append, List.not_mem_nil, or_false, not_or] at hn
    obtain ⟨vw, vM, vu, wM, wu, uM⟩ : v ≠ w ∧ v ∉ M ∧ v ≠ u ∧ w ∉ M ∧ w ≠ u ∧ u ∉ M := ⟨hn.1.1, hn.1.2.1, hn.1.2.2, hn.2.1.1, hn.2.1.2, fun h => hn.2.2.2.2 u h u rfl rfl⟩
    rcases hsd (w, u) (by simp [triSides]) with h | h | h
    · exfalso
      rcases corner_sides hs h with h | h | ⟨h, -⟩
      · rw [Prod.mk.injEq] at h; exact vw h.1.symm
      · rw [Prod.mk.injEq] at h; exact wu h.1
      · rcases part_end hM h with h | h
        · exact wM h
        · exact uM h
    · exfalso
      rcases corner_sides hs h with h | h | ⟨h, -⟩
      · rw [Prod.swap, Prod.mk.injEq] at h; exact vu h.1.symm
      · rw [Prod.swap, Prod.mk.injEq] at h; exact vw h.2.symm
      · rcases part_end hM h with h | h
        · exact uM h
        · exact wM h
    · exact h
  | rot hr ht ih =>
    intro hs hsd h4
    obtain ⟨v, w, u, M, h1, h2, h3⟩ := ih (hs.rotated hr.symm) (fun e he => by
      rcases hsd e he with h | h | h
      · exact .inl ((sides_rotated hr).mem_iff.mpr h)
      · exact .inr (.inl ((sides_rotated hr).mem_iff.mpr h))
      · exact .inr (.inr (h.rotated hr.symm))) (by rw [hr.perm.length_eq]; exact h4)
    exact ⟨v, w, u, M, h1, hr.symm.trans h2, h3⟩
  | perm hp ht ih =>
    intro hs hsd h4
    exact ih hs (fun e he => hsd e ((hp.flatMap_right triSides).mem_iff.mp he)) h4

theorem getD_lt {vs : List Nat} {i : Nat} (h : i < vs.length) : vs.getD i 0 = vs[i] := by simp [h]

/-- the polygon with its corners renumbered -/
theorem renumber (vs : List Nat) : (List.range (vs.map pos).length).map (fun k => vs.getD k 0) = vs := by
  apply List.ext_getElem
  · simp
  · intro i h1 h2
    simp [h2]

theorem renumber_pos {vs : List Nat} {k : Nat} (hk : k < vs.length) : posOf (vs.map pos) k = pos (vs.getD k 0) := by
  simp [posOf, hk]

theorem renumber_sides (vs : List Nat) : sides vs = (sides (List.range (vs.map pos).length)).map fun e => (vs.getD e.1 0, vs.getD e.2 0) := by
  conv_lhs => rw [← renumber (pos := pos) vs]
  rw [sides_map]

theorem renumber_inj {vs : List Nat} (hn : vs.Nodup) {i j : Nat} (hi : i < vs.length) (hj : j < vs.length) (h : vs.getD i 0 = vs.getD j 0) : i = j := by
  rw [getD_lt hi, getD_lt hj] at h
  exact (hn.getElem_inj_iff).mp h

theorem Simple.isSimple {vs : List Nat} (hs : Simple pos vs) : IsSimple (vs.map pos) := by
  have mem : ∀ {i}, i < vs.length → vs.getD i 0 ∈ vs := fun hi => by rw [getD_lt hi]; exact List.getElem_mem _
  refine ⟨by simpa using hs.len, ?_, ?_⟩
  · intro k hk j hj i hi
    rw [List.length_map] at hk
    rw [renumber_pos (by omega), renumber_pos (by omega), renumber_pos hk]
    refine hs.gen _ (mem (by omega)) _ (mem (by omega)) _ (mem hk) ?_ ?_ ?_ <;> intro h <;> have := renumber_inj hs.nodup (by omega) (by omega) h <;> omega
  · intro s t hs' ht h1 h2 h3
    rw [List.length_map] at hs' ht h2 h3 ⊢
    have l1 : (s + 1) % vs.length < vs.length := Nat.mod_lt _ (by omega)
    have l2 : (t + 1) % vs.length < vs.length := Nat.mod_lt _ (by omega)
    rw [renumber_pos hs', renumber_pos ht, renumber_pos l1, renumber_pos l2]
    have side : ∀ i, i < vs.length → (vs.getD i 0, vs.getD ((i + 1) % vs.length) 0) ∈ sides vs := by
      intro i hi
      rw [renumber_sides (pos := pos) vs, List.mem_map]
      exact ⟨(i, (i + 1) % vs.length), mem_sides_range.mpr (by simpa using hi), rfl⟩
    refine hs.meet _ (side s hs') _ (side t ht) ?_ ?_ ?_ ?_ <;> intro h
    · exact h1 (renumber_inj hs.nodup hs' ht h)
    · exact h3 (renumber_inj hs.nodup hs' l2 h).symm
    · exact h2 (renumber_inj hs.nodup l1 ht h)
    · have h4 := renumber_inj hs.nodup l1 l2 h
      apply h1
      rcases Nat.lt_or_ge (s + 1) vs.length with h5 | h5 <;> rcases Nat.lt_or_ge (t + 1) vs.length with h6 | h6
      · rw [Nat.mod_eq_of_lt h5, Nat.mod_eq_of_lt h6] at h4; omega
      · rw [Nat.mod_eq_of_lt h5, show t + 1 = vs.length by omega, Nat.mod_self] at h4; omega
      · rw [Nat.mod_eq_of_lt h6, show s + 1 = vs.length by omega, Nat.mod_self] at h4; omega
      · omega

theorem renumber_offSides {vs : List Nat} {p : P2 K} : OffSides (vs.map pos) p ↔ ∀ e ∈ sides vs, ¬OnSegment p (pos e.1) (pos e.2) := by
  rw [OffSides, sides_map]
  simp only [List.mem_map, forall_exists_index, and_imp, forall_apply_eq_imp_iff₂]

/-- a simple polygon with more than three corners has an ear -/
theorem Simple.exists_ear {vs : List Nat} (hs : Simple pos vs) (h4 : 4 ≤ vs.length) : ∃ v w u M, M ≠ [] ∧ vs ~r (v :: w :: M ++ [u]) ∧ Valid pos (v :: w :: M ++ [u]) w u := by
  obtain ⟨ts, h1, h2⟩ := exists_tr hs.isSimple
  obtain ⟨v, w, u, M, hM, hr, hv⟩ := h1.exists_ear hs.isSimple.simple h2 (by simpa using h4)
  have hr' := hr.map fun k => vs.getD k 0
  rw [renumber] at hr'
  have hv := hv.rotated hr.symm
  have lt : ∀ {k}, k ∈ List.range (vs.map pos).length → k < vs.length := fun h => by simpa using h
  have lw := lt hv.left
  have lu := lt hv.right
  have mem : ∀ {i}, i < vs.length → vs.getD i 0 ∈ vs := fun hi => by rw [getD_lt hi]; exact List.getElem_mem _
  have back : ∀ {i j}, i < vs.length → j < vs.length → (vs.getD i 0, vs.getD j 0) ∈ sides vs → (i, j) ∈ sides (List.range (vs.map pos).length) := by
    intro i j hi hj h
    rw [renumber_sides (pos := pos) vs, List.mem_map] at h
    obtain ⟨e, he, h⟩ := h
    rw [Prod.mk.injEq] at h
    have m := sides_mem he
    have e1 := renumber_inj hs.nodup (lt m.1) hi h.1
    have e2 := renumber_inj hs.nodup (lt m.2) hj h.2
    rw [← e1, ← e2]
    exact he
  refine ⟨vs.getD v 0, vs.getD w 0, vs.getD u 0, M.map fun k => vs.getD k 0, by simpa using hM, by simpa using hr', ?_⟩
  have : Valid pos vs (vs.getD w 0) (vs.getD u 0) := by
    refine ⟨mem lw, mem lu, fun h => hv.ne (renumber_inj hs.nodup lw lu h), fun h => hv.ns (back lw lu h), fun h => hv.ns' (back lu lw h), ?_, ?_⟩
    · intro e he a1 a2 a3 a4
      rw [renumber_sides (pos := pos) vs, List.mem_map] at he
      obtain ⟨f, hf, rfl⟩ := he
      have m := sides_mem hf
      have := hv.free f hf (fun h => a1 (by rw [h])) (fun h => a2 (by rw [h])) (fun h => a3 (by rw [h])) (fun h => a4 (by rw [h]))
      rwa [renumber_pos (lt m.1), renumber_pos (lt m.2), renumber_pos lw, renumber_pos lu] at this
    · intro t t0 t1
      have := hv.inside t t0 t1
      rwa [renumber_pos lw, renumber_pos lu, wind_range, ← wind_eq] at this
  have := this.rotated hr'
  simpa using this

theorem Simple.turns {vs : List Nat} (hs : Simple pos vs) : Ccw pos vs ∨ ∀ p, (∀ e ∈ sides vs, ¬OnSegment p (pos e.1) (pos e.2)) → wind pos vs p = 0 ∨ wind pos vs p = -1 := by
  rcases c83_winding hs.isSimple with ⟨-, h⟩ | ⟨-, h⟩
  · left
    intro p hp
    rw [wind_eq]
    exact h p (renumber_offSides.mpr hp)
  · right
    intro p hp
    rw [wind_eq]
    exact h p (renumber_offSides.mpr hp)

/-! ### Cutting off an ear of a counter-clockwise polygon -/

section
variable {v w u : Nat} {M : List Nat} (hs : Simple pos (v :: w :: M ++ [u])) (hc : Ccw pos (v :: w :: M ++ [u])) (hM : M ≠ [])
include hs hc hM

/-- the ear is strictly convex, and the rest is counter-clockwise -/
theorem ear_ccw (hv : Valid pos (v :: w :: M ++ [u]) w u) : 0 < tri2 (pos u) (pos v) (pos w) ∧ Ccw pos (w :: M ++ [u]) := by
  have hr := ear_part hs hM hv
  rcases hr.turns with h | h
  · exact ⟨by simpa using (ear_wind hs hM hv (.inl rfl) h).1, h⟩
  · exfalso
    obtain ⟨h1, h2⟩ := ear_wind hs hM hv (.inr rfl) h
    obtain ⟨y, z, -, z1, -, -, -, z4⟩ := ear_sides hs hM hv
    have h3 := hc z z4
    rw [wind_ear, (around_sign (.inr rfl) h1).1 z1, h2 z z1] at h3
    omega

/-- the corner that is cut off is outside of the rest -/
theorem ear_tip (hv : Valid pos (v :: w :: M ++ [u]) w u) : wind pos (w :: M ++ [u]) (pos v) = 0 := by
  obtain ⟨hA, hcr⟩ := ear_ccw hs hc hM hv
  obtain ⟨-, h2⟩ := ear_wind hs hM hv (.inl rfl) hcr
  obtain ⟨y, z, -, z1, -⟩ := ear_sides hs hM hv
  obtain ⟨vw, vM, vu, wM, wu, uM⟩ := ear_nodup hs hM hv
  have hr := ear_part hs hM hv
  rw [← h2 z z1]
  apply wind_const
  rintro e he ⟨x, x1, x2⟩
  obtain ⟨t, t0, t1, rfl⟩ := x2.eq_along
  rcases t0.eq_or_lt with rfl | t0
  · rw [along_zero] at x1
    have hm := sides_mem he
    have up : ∀ {k}, k ∈ w :: M ++ [u] → k ∈ v :: w :: M ++ [u] ∧ v ≠ k := by
      intro k hk
      refine ⟨List.mem_cons_of_mem _ hk, ?_⟩
      rintro rfl
      simp only [List.cons_append, List.mem_cons, List.mem_append, List.not_mem_nil, or_false] at hk
      tauto
    exact hs.off_corner (up hm.1).1 (up hm.2).1 (by simp) (sides_ne hr.nodup (by have := hr.len; omega) he) (up hm.1).2 (up hm.2).2 x1
  · refine (ear_off hs hM hv (p := along (pos v) z t) ?_).1 e he x1
    have e4 : tri2 (pos u) (pos v) (pos v) = 0 := by simp only [tri2]; ring
    have e6 : tri2 (pos v) (pos w) (pos v) = 0 := by simp only [tri2]; ring
    have e3 : tri2 (pos w) (pos u) (pos v) = tri2 (pos u) (pos v) (pos w) := by simp only [tri2]; ring
    have q1 := mul_pos t0 z1.1
    have q2 := mul_pos t0 z1.2.1
    have q3 := mul_pos t0 z1.2.2
    have q4 := mul_nonneg (sub_nonneg.mpr t1) (mul_self_nonneg (tri2 (pos u) (pos v) (pos w)))
    simp only [Within, tri2_along, e3, e4, e6]
    refine ⟨?_, ?_, ?_⟩ <;> nlinarith

/-- diagonals inside the rest are inside the whole polygon -/
theorem ear_lift (hv : Valid pos (v :: w :: M ++ [u]) w u) {x y : Nat} (h : Valid pos (w :: M ++ [u]) x y) : Valid pos (v :: w :: M ++ [u]) x y := by
  have hrot : (v :: w :: M ++ [u]) ~r (w :: M ++ u :: [v]) := ⟨1, by simp⟩
  refine Valid.rotated (Valid.lift (i := w) (A := M) (j := u) (B := [v]) (hs.rotated hrot) hM (by simp) (hv.rotated hrot).free ?_ ?_ h) hrot.symm
  · intro b hb
    rw [List.mem_singleton] at hb
    rw [hb]
    exact ear_tip hs hc hM hv
  · intro a ha
    rw [show u :: [v] ++ [w] = [u, v, w] by simp, wind_three]
    have he := ear_empty hs hM hv a ha
    apply around_outside
    by_contra hn
    push Not at hn
    exact absurd (he hn.2.1 hn.1) (not_lt.mpr hn.2.2)

/-- a strictly convex corner without other corners in its triangle is an ear -/
theorem ear_of_empty (hA : 0 < tri2 (pos u) (pos v) (pos w)) (hE : ∀ k ∈ M, ¬Within (pos k) (pos u) (pos v) (pos w)) : Valid pos (v :: w :: M ++ [u]) w u := by
  have hn := hs.nodup
  rw [show v :: w :: M ++ [u] = v :: w :: (M ++ [u]) by simp] at hn
  simp only [List.nodup_cons, List.nodup_append, List.mem_cons, List.mem_append, List.not_mem_nil, or_false, not_or] at hn
  obtain ⟨vw, vM, vu, wM, wu, uM⟩ : v ≠ w ∧ v ∉ M ∧ v ≠ u ∧ w ∉ M ∧ w ≠ u ∧ u ∉ M := ⟨hn.1.1, hn.1.2.1, hn.1.2.2, hn.2.1.1, hn.2.1.2, fun h => hn.2.2.2.2 u h u rfl rfl⟩
  clear hn
  have hp : 0 < tri2 (pos u) (pos v) (pos w) * tri2 (pos u) (pos v) (pos w) := mul_pos hA hA
  -- the triangle with its boundary has no corner in it
  have he : ∀ k ∈ M, 0 ≤ tri2 (pos u) (pos v) (pos w) * tri2 (pos v) (pos w) (pos k) → 0 ≤ tri2 (pos u) (pos v) (pos w) * tri2 (pos u) (pos v) (pos k) →
      tri2 (pos u) (pos v) (pos w) * tri2 (pos w) (pos u) (pos k) < 0 := by
    intro k hk ka kc
    by_contra kb
    push Not at kb
    have kv : k ≠ v := fun h => vM (h ▸ hk)
    have kw : k ≠ w := fun h => wM (h ▸ hk)
    have ku : k ≠ u := fun h => uM (h ▸ hk)
    have hk' : k ∈ v :: w :: M ++ [u] := by simp [hk]
    have g : ∀ {a b}, a ∈ v :: w :: M ++ [u] → b ∈ v :: w :: M ++ [u] → a ≠ b → k ≠ a → k ≠ b → tri2 (pos a) (pos b) (pos k) ≠ 0 := fun ha hb hab h1 h2 => hs.gen _ ha _ hb _ hk' hab h1.symm h2.symm
    refine hE k hk ⟨lt_of_le_of_ne kc (Ne.symm (mul_ne_zero hA.ne' (g ?_ ?_ vu.symm ku kv))), lt_of_le_of_ne ka (Ne.symm (mul_ne_zero hA.ne' (g ?_ ?_ vw kv kw))), lt_of_le_of_ne kb (Ne.symm (mul_ne_zero hA.ne' (g ?_ ?_ wu kw ku)))⟩ <;> simp
  have e1 : tri2 (pos w) (pos u) (pos w) = 0 := by simp only [tri2]; ring
  have e2 : tri2 (pos w) (pos u) (pos u) = 0 := by simp only [tri2]; ring
  have e3 : tri2 (pos w) (pos u) (pos v) = tri2 (pos u) (pos v) (pos w) := by simp only [tri2]; ring
  have e4 : tri2 (pos u) (pos v) (pos v) = 0 := by simp only [tri2]; ring
  have e5 : tri2 (pos u) (pos v) (pos u) = 0 := by simp only [tri2]; ring
  have e6 : tri2 (pos v) (pos w) (pos v) = 0 := by simp only [tri2]; ring
  have e7 : tri2 (pos v) (pos w) (pos w) = 0 := by simp only [tri2]; ring
  have e8 : tri2 (pos v) (pos w) (pos u) = tri2 (pos u) (pos v) (pos w) := tri2_turn _ _ _
  have suv : (u, v) ∈ sides (v :: w :: M ++ [u]) := by
    rw [show v :: w :: M ++ [u] = v :: (w :: M) ++ [u] by simp, sides_part]; simp
  have free : ∀ e ∈ sides (v :: w :: M ++ [u]), e.1 ≠ w → e.1 ≠ u → e.2 ≠ w → e.2 ≠ u → ¬Meet (pos e.1) (pos e.2) (pos w) (pos u) := by
    rintro e hes a1 a2 a3 a4 ⟨z, z1, z2⟩
    rcases corner_sides hs hes with rfl | rfl | ⟨-, k1, k2⟩
    · exact a3 rfl
    · exact a2 rfl
    · obtain ⟨t, t0, t1, rfl⟩ := z2.eq_along
      have zb : tri2 (pos u) (pos v) (pos w) * tri2 (pos w) (pos u) (along (pos w) (pos u) t) = 0 := by rw [tri2_along, e1, e2]; ring
      refine blocked hs hM hes k1 k2 z1 ?_ ?_ zb.ge (fun k hk h1 h2 => (he k hk h1 h2).trans_eq zb.symm) (.inr ⟨a2, a1, a4, a3⟩)
      · rw [tri2_along, e7, e8]; nlinarith [mul_nonneg t0 hp.le]
      · rw [tri2_along, e5]; nlinarith [mul_nonneg (sub_nonneg.mpr t1) hp.le]
  -- no side passes the triangle
  have off : ∀ p, Within p (pos u) (pos v) (pos w) → ∀ e ∈ sides (v :: w :: M ++ [u]), ¬OnSegment p (pos e.1) (pos e.2) := by
    intro p hp e hes hz
    rcases corner_sides hs hes with rfl | rfl | ⟨-, k1, k2⟩
    · have h := hp.2.1
      rw [tri2_onSegment hz, mul_zero] at h
      exact lt_irrefl _ h
    · have h := hp.1
      rw [tri2_onSegment hz, mul_zero] at h
      exact lt_irrefl _ h
    · exact blocked hs hM hes k1 k2 hz hp.2.1.le hp.1.le hp.2.2.le (fun k hk h1 h2 => (he k hk h1 h2).trans hp.2.2) (.inl hp.2.2)
  have ns : (w, u) ∉ sides (v :: w :: M ++ [u]) := by
    intro h
    rcases corner_sides hs h with h | h | ⟨h, -⟩
    · rw [Prod.mk.injEq] at h; exact vw h.1.symm
    · rw [Prod.mk.injEq] at h; exact wu h.1
    · rcases part_end hM h with h | h
      · exact wM h
      · exact uM h
  have ns' : (u, w) ∉ sides (v :: w :: M ++ [u]) := by
    intro h
    rcases corner_sides hs h with h | h | ⟨h, -⟩
    · rw [Prod.mk.injEq] at h; exact vu h.1.symm
    · rw [Prod.mk.injEq] at h; exact vw h.2.symm
    · rcases part_end hM h with h | h
      · exact uM h
      · exact wM h
  -- across the side `u v` the winding number changes by one
  obtain ⟨z, z1, hz⟩ : ∃ z, Within z (pos u) (pos v) (pos w) ∧ wind pos (v :: w :: M ++ [u]) z = 1 := by
    have key : ∀ e ∈ pairs (w :: M ++ [u]), ¬OnSegment (along (pos u) (pos v) (1 / 2)) (pos e.1) (pos e.2) := by
      intro e hes hz
      have hes' : e ∈ sides (v :: w :: M ++ [u]) := by
        rw [(sides_rotated ear_rotated).mem_iff, sides_cut, List.mem_append]
        exact .inr hes
      have hm := pairs_mem hes
      have nv : ∀ k ∈ w :: M ++ [u], v ≠ k := by
        rintro k hk rfl
        simp only [List.cons_append, List.mem_cons, List.mem_append, List.not_mem_nil, or_false] at hk
        tauto
      have hxy := hs.pos_ne (a := u) (b := v) (by simp) (by simp) vu.symm
      rcases hs.inter (p := u) (q := v) (r := e.1) (s := e.2) (by simp) (by simp) (List.mem_cons_of_mem _ hm.1) (List.mem_cons_of_mem _ hm.2) vu.symm (sides_ne hs.nodup (by have := hs.len; omega) hes')
        (fun h => nv _ hm.2 h.2) (fun h => nv _ hm.1 h.2) (onSegment_along (by norm_num) (by norm_num)) hz (hs.meet _ suv _ hes') with ⟨h', -⟩ | ⟨h', -⟩
      · have := along_left hxy h'; norm_num at this
      · have := along_right hxy h'; norm_num at this
    obtain ⟨δ, d0, hd⟩ := room (x := along (pos u) (pos v) (1 / 2)) (q := pos w) ((sides (w :: M ++ [u])).map fun e => (pos e.1, pos e.2)) (by
      intro e he
      obtain ⟨f, hf, rfl⟩ := List.mem_map.mp he
      rw [sides_part, List.mem_append, List.mem_singleton] at hf
      rcases hf with hf | rfl
      · refine ⟨?_, key f hf⟩
        have hf' : f ∈ sides (v :: w :: M ++ [u]) := by
          rw [(sides_rotated ear_rotated).mem_iff, sides_cut, List.mem_append]
          exact .inr hf
        exact hs.pos_ne (sides_mem hf').1 (sides_mem hf').2 (sides_ne hs.nodup (by have := hs.len; omega) hf')
      · refine ⟨hs.pos_ne (by simp) (by simp) wu.symm, fun h => ?_⟩
        have := tri2_onSegment h.flip
        rw [tri2_along, e2, e3] at this
        linarith)
    obtain ⟨δ', d0', hd'⟩ := room (x := along (pos u) (pos v) (1 / 2)) (q := pos w) ((pairs (w :: M ++ [u])).map fun e => (pos e.1, pos e.2)) (by
      intro e he
      obtain ⟨f, hf, rfl⟩ := List.mem_map.mp he
      refine ⟨?_, key f hf⟩
      have hf' : f ∈ sides (v :: w :: M ++ [u]) := by
        rw [(sides_rotated ear_rotated).mem_iff, sides_cut, List.mem_append]
        exact .inr hf
      exact hs.pos_ne (sides_mem hf').1 (sides_mem hf').2 (sides_ne hs.nodup (by have := hs.len; omega) hf'))
    have n0 : 0 < min (min δ δ') (1 / 2) := lt_min (lt_min d0 d0') (by norm_num)
    have n1 : min (min δ δ') (1 / 2) ≤ 1 / 2 := min_le_right _ _
    have hm := hd _ n0 ((min_le_left _ _).trans (min_le_left _ _))
    have hm' := hd' _ n0 ((min_le_left _ _).trans (min_le_right _ _))
    generalize min (min δ δ') (1 / 2) = η at n0 n1 hm hm'
    have y1 : tri2 (pos u) (pos v) (pos w) * tri2 (pos u) (pos v) (along (along (pos u) (pos v) (1 / 2)) (pos w) (-η)) < 0 := by
      rw [tri2_along, tri2_along, e4, e5]
      nlinarith [mul_pos n0 hp]
    have y2 : tri2 (pos u) (pos v) (pos w) * tri2 (pos v) (pos w) (along (along (pos u) (pos v) (1 / 2)) (pos w) (-η)) > 0 := by
      rw [tri2_along, tri2_along, e6, e7, e8]
      nlinarith [mul_pos (show 0 < 1 + η by linarith) hp]
    have z1 : Within (along (along (pos u) (pos v) (1 / 2)) (pos w) η) (pos u) (pos v) (pos w) := by
      refine ⟨?_, ?_, ?_⟩
      · rw [tri2_along, tri2_along, e4, e5]
        nlinarith [mul_pos n0 hp]
      · rw [tri2_along, tri2_along, e6, e7, e8]
        nlinarith [mul_pos (show 0 < 1 - η by linarith) hp]
      · rw [tri2_along, tri2_along, e1, e2, e3]
        nlinarith [mul_pos (show 0 < 1 - η by linarith) hp]
    refine ⟨_, z1, ?_⟩
    have hsame : wind pos (w :: M ++ [u]) (along (along (pos u) (pos v) (1 / 2)) (pos w) (-η)) = wind pos (w :: M ++ [u]) (along (along (pos u) (pos v) (1 / 2)) (pos w) η) :=
      wind_const fun e he => hm _ (List.mem_map.mpr ⟨e, he, rfl⟩)
    have wz := hc _ (off _ z1)
    have wy := hc (along (along (pos u) (pos v) (1 / 2)) (pos w) (-η)) (by
      intro e hes hz
      rcases corner_sides hs hes with rfl | rfl | ⟨h, -⟩
      · rw [tri2_onSegment hz, mul_zero] at y2
        exact lt_irrefl _ y2
      · rw [tri2_onSegment hz, mul_zero] at y1
        exact lt_irrefl _ y1
      · exact hm' _ (List.mem_map.mpr ⟨e, h, rfl⟩) ⟨_, hz, onSegment_self_left _ _⟩)
    rw [wind_ear, around_outside (.inl y1), hsame] at wy
    rw [wind_ear, (around_sign (.inl rfl) (by simpa using hA)).1 z1] at wz ⊢
    omega
  refine ⟨by simp, by simp, wu, ns, ns', free, ?_⟩
  intro t t0 t1
  have hoff : ∀ e ∈ sides (v :: w :: M ++ [u]), ¬OnSegment (along (pos w) (pos u) t) (pos e.1) (pos e.2) := by
    intro e hes hz
    have hm := sides_mem hes
    have hxy := hs.pos_ne (a := w) (b := u) (by simp) (by simp) wu
    rcases hs.inter (p := w) (q := u) (by simp) (by simp) hm.1 hm.2 wu (sides_ne hs.nodup (by have := hs.len; omega) hes) (fun h' => ns ((Prod.ext h'.1 h'.2 : (w, u) = e) ▸ hes)) (fun h' => ns' ((Prod.ext h'.2 h'.1 : (u, w) = e) ▸ hes))
      (onSegment_along t0.le t1.le) hz (fun b1 b2 b3 b4 h => free e hes b1.symm b3.symm b2.symm b4.symm h.symm) with ⟨h', -⟩ | ⟨h', -⟩
    · exact t0.ne' (along_left hxy h')
    · exact t1.ne (along_right hxy h')
  have : wind pos (v :: w :: M ++ [u]) (along (pos w) (pos u) t) = wind pos (v :: w :: M ++ [u]) z := by
    apply wind_const
    rintro e hes ⟨x, x1, x2⟩
    obtain ⟨r, r0, r1, rfl⟩ := x2.eq_along
    rcases r0.eq_or_lt with rfl | r0
    · rw [along_zero] at x1
      exact hoff e hes x1
    · refine off _ ?_ e hes x1
      have q1 := mul_pos r0 z1.1
      have q2 := mul_pos r0 z1.2.1
      have q3 := mul_pos r0 z1.2.2
      have k1 := mul_nonneg (sub_nonneg.mpr r1) (mul_nonneg t0.le hp.le)
      have k2 := mul_nonneg (sub_nonneg.mpr r1) (mul_nonneg (sub_nonneg.mpr t1.le) hp.le)
      simp only [Within, tri2_along, e1, e2, e5, e7, e8]
      refine ⟨?_, ?_, ?_⟩ <;> nlinarith
  rw [this, hz]
  decide
end

end Verif.GeomProps
