import Verif.Spec.Flatten
import Verif.Props.Split
import Verif.Lemmas.Loops
import Mathlib.Data.List.Nodup
/- How splitting an edge changes the loops. -/
namespace Verif.Topo

/-- what half-edge `x` becomes when `e` is split -/
def expand (e te k : Nat) (f b : Nat → Nat) (x : Nat) : List Nat :=
  if x = e then (List.range k).map f ++ [e] else if x = te then te :: ((List.range k).map b).reverse else [x]

theorem steps_range {g : Nat → Nat} (f : Nat → Nat) : ∀ (k : Nat) (y : Nat), (∀ i < k, g (f i) = if i + 1 = k then y else f (i + 1)) →
    Steps g ((List.range k).map f) (if k = 0 then y else f 0) y := by
  intro k
  induction k generalizing f with
  | zero => intro y _; simp [Steps]
  | succ k ih =>
    intro y h
    rw [List.range_succ_eq_map, List.map_cons, List.map_map]
    refine ⟨by simp, ?_⟩
    have := ih (f ∘ Nat.succ) y (fun i hi => by
      have := h (i + 1) (by omega)
      simp only [Function.comp_apply, Nat.succ_eq_add_one]
      rw [this]; simp)
    have h0 := h 0 (by omega)
    rw [h0]
    by_cases hk : k = 0
    · subst hk; simpa using this
    · simp only [hk, if_false, Function.comp_apply, Nat.succ_eq_add_one, Nat.zero_add] at this
      rw [if_neg (by omega)]; exact this

theorem steps_range_rev {g : Nat → Nat} (b : Nat → Nat) : ∀ (k : Nat) (y : Nat), (∀ i < k, g (b i) = if i = 0 then y else b (i - 1)) →
    Steps g ((List.range k).map b).reverse (if k = 0 then y else b (k - 1)) y := by
  intro k
  induction k with
  | zero => intro y _; simp [Steps]
  | succ k ih =>
    intro y h
    rw [List.range_succ, List.map_append, List.reverse_append]
    refine ⟨by simp, ?_⟩
    rw [h k (by omega)]
    exact ih y (fun i hi => h i (by omega))

namespace Split
variable {t0 t : Topo} {e k : Nat} {v f b : Nat → Nat}

theorem facts (w0 : t0.WF) (he : t0.E e) (hd : t0.rot e ≠ e) (hd2 : t0.rot (t0.rot e) = e) :
    t0.nxt (t0.twn e) = t0.twn (t0.prv e) ∧ t0.prv e ≠ t0.twn e := by
  have hp := w0.prv_live _ he
  have ht := w0.twn_live _ he
  have h1 : t0.prv e = t0.twn (t0.rot e) := by
    have h2 := congrArg t0.prv hd2
    have hr : t0.E (t0.rot e) := w0.nxt_live _ ht
    have h3 : t0.prv (t0.rot (t0.rot e)) = t0.twn (t0.rot e) := w0.prv_nxt _ (w0.twn_live _ hr)
    rw [h3] at h2; exact h2.symm
  refine ⟨?_, fun hc => ?_⟩
  · rw [h1]; exact (w0.twn_twn _ (w0.nxt_live _ ht)).symm
  · have : t0.rot e = e := by rw [rot, ← hc, w0.nxt_prv _ he]
    exact hd this

theorem ne_new (S : Split t0 t e k v f b) {x : Nat} (hx : t0.E x) : ∀ i < k, x ≠ f i ∧ x ≠ b i :=
  fun i hi => ⟨fun hc => S.freshF i hi (hc ▸ hx), fun hc => S.freshB i hi (hc ▸ hx)⟩

theorem stepsE (S : Split t0 t e k v f b) (w0 : t0.WF) (he : t0.E e) (hd : t0.rot e ≠ e) (hd2 : t0.rot (t0.rot e) = e) {x : Nat} (hx : t0.E x) :
    Steps t.nxt (expand e (t0.twn e) k f b x) (if x = e then f 0 else x) (if t0.nxt x = e then f 0 else t0.nxt x) := by
  have pos := S.pos
  obtain ⟨q1, q2⟩ := facts w0 he hd hd2
  rw [expand]
  by_cases h1 : x = e
  · subst h1
    rw [if_pos rfl, if_pos rfl]
    refine path_append.mpr ⟨x, ?_, rfl, ?_⟩
    · have := steps_range f k x (fun i hi => (S.fF i hi).1)
      rwa [if_neg (by omega)] at this
    · rw [Steps, (S.old x he).1, if_neg (fun hc => w0.twn_ne _ he hc.symm), if_neg (w0.nxt_ne _ he), if_neg (fun hc => w0.nxt_ne _ he (by
        conv => lhs; rw [hc]
        exact w0.nxt_prv _ he))]
  · rw [if_neg h1, if_neg h1]
    by_cases h2 : x = t0.twn e
    · subst h2
      rw [if_pos rfl]
      refine ⟨rfl, ?_⟩
      have := steps_range_rev b k (t0.twn (t0.prv e)) (fun i hi => (S.fB i hi).1)
      rw [if_neg (by omega)] at this
      rw [(S.old _ hx).1, if_pos rfl, if_neg (show ¬ t0.nxt (t0.twn e) = e from hd), q1]
      exact this
    · rw [if_neg h2]
      refine ⟨rfl, ?_⟩
      rw [Steps, (S.old x hx).1, if_neg h2]
      by_cases h3 : x = t0.prv e
      · rw [if_pos h3, h3, w0.nxt_prv _ he, if_pos rfl]
      · rw [if_neg h3, if_neg (fun hc => h3 (by rw [← hc, w0.prv_nxt _ hx]))]

theorem mem_expand {te x y : Nat} (h : y ∈ expand e te k f b x) : y = x ∨ (x = e ∧ ∃ i < k, y = f i) ∨ (x = te ∧ ∃ i < k, y = b i) := by
  rw [expand] at h
  split at h
  · next h1 =>
    simp only [List.mem_append, List.mem_map, List.mem_range, List.mem_singleton] at h
    rcases h with ⟨i, hi, rfl⟩ | rfl
    · exact .inr (.inl ⟨h1, i, hi, rfl⟩)
    · exact .inl h1.symm
  · split at h
    · next h1 =>
      simp only [List.mem_cons, List.mem_reverse, List.mem_map, List.mem_range] at h
      rcases h with rfl | ⟨i, hi, rfl⟩
      · exact .inl h1.symm
      · exact .inr (.inr ⟨h1, i, hi, rfl⟩)
    · exact .inl (List.mem_singleton.mp h)

/-- every loop is expanded -/
theorem loop (S : Split t0 t e k v f b) (w0 : t0.WF) (he : t0.E e) (hd : t0.rot e ≠ e) (hd2 : t0.rot (t0.rot e) = e) {L : List Nat} {fo : Option Nat}
    (h : Loop t0 L fo) : Loop t (L.flatMap (expand e (t0.twn e) k f b)) fo := by
  have te : t0.twn e ≠ e := w0.twn_ne _ he
  refine ⟨?_, ?_, ?_, ?_⟩
  · rw [List.nodup_flatMap]
    refine ⟨fun x hx => ?_, h.nodup.pairwise_of_forall_ne ?_⟩
    · have hx := h.live x hx
      rw [expand]
      split
      · next h1 =>
        subst h1
        rw [List.nodup_append]
        refine ⟨?_, by simp, ?_⟩
        · exact (List.nodup_map_iff_inj_on List.nodup_range).mpr fun i hi j hj => S.injF i (List.mem_range.mp hi) j (List.mem_range.mp hj)
        · intro a ha c hc
          simp only [List.mem_map, List.mem_range] at ha
          obtain ⟨i, hi, rfl⟩ := ha
          rw [List.mem_singleton.mp hc]
          exact fun h => (S.ne_new hx i hi).1 h.symm
      · split
        · next h1 =>
          subst h1
          rw [List.nodup_cons]
          refine ⟨?_, List.nodup_reverse.mpr ?_⟩
          · simp only [List.mem_reverse, List.mem_map, List.mem_range, not_exists, not_and]
            exact fun i hi hc => (S.ne_new hx i hi).2 hc.symm
          · exact (List.nodup_map_iff_inj_on List.nodup_range).mpr fun i hi j hj => S.injB i (List.mem_range.mp hi) j (List.mem_range.mp hj)
        · simp
    · intro x hx y hy hxy
      have hx := h.live x hx
      have hy := h.live y hy
      intro z hz1 hz2
      rcases mem_expand hz1 with a1 | ⟨a1, i, hi, a2⟩ | ⟨a1, i, hi, a2⟩ <;> rcases mem_expand hz2 with b1 | ⟨b1, j, hj, b2⟩ | ⟨b1, j, hj, b2⟩
      · exact hxy (a1.symm.trans b1)
      · exact (S.ne_new hx j hj).1 (a1.symm.trans b2)
      · exact (S.ne_new hx j hj).2 (a1.symm.trans b2)
      · exact (S.ne_new hy i hi).1 (b1.symm.trans a2)
      · exact hxy (a1.trans b1.symm)
      · exact S.disj i hi j hj (a2.symm.trans b2)
      · exact (S.ne_new hy i hi).2 (b1.symm.trans a2)
      · exact S.disj j hj i hi (b2.symm.trans a2)
      · exact hxy (a1.trans b1.symm)
  · intro y hy
    obtain ⟨x, hx, hy⟩ := List.mem_flatMap.mp hy
    rw [S.E]
    rcases mem_expand hy with rfl | ⟨-, i, hi, rfl⟩ | ⟨-, i, hi, rfl⟩
    · exact .inl (h.live _ hx)
    · exact .inr ⟨i, hi, .inl rfl⟩
    · exact .inr ⟨i, hi, .inr rfl⟩
  · intro y hy
    obtain ⟨x, hx, hy⟩ := List.mem_flatMap.mp hy
    have hf := h.fac x hx
    rcases mem_expand hy with rfl | ⟨rfl, i, hi, rfl⟩ | ⟨rfl, i, hi, rfl⟩
    · rw [(S.old _ (h.live _ hx)).2.2.2.2, hf]
    · rw [(S.fF i hi).2.2.2.2, hf]
    · rw [(S.fB i hi).2.2.2.2, hf]
  · obtain ⟨x, hx⟩ := h.path
    have key : ∀ (l : List Nat) (x y : Nat), (∀ z ∈ l, t0.E z) → Steps t0.nxt l x y →
        Steps t.nxt (l.flatMap (expand e (t0.twn e) k f b)) (if x = e then f 0 else x) (if y = e then f 0 else y) := by
      intro l
      induction l with
      | nil => intro x y _ h; have h : x = y := h; subst h; rfl
      | cons a l ih =>
        rintro x y hl ⟨rfl, h⟩
        rw [List.flatMap_cons]
        exact path_append.mpr ⟨_, S.stepsE w0 he hd hd2 (hl x List.mem_cons_self), ih _ _ (fun z hz => hl z (List.mem_cons_of_mem _ hz)) h⟩
    exact ⟨_, key L x x h.live hx⟩

/-- the new vertices have two edges, and the old ones as many as before -/
theorem twoEach (S : Split t0 t e k v f b) (w0 : t0.WF) (he : t0.E e) (h : Mesh.TwoEach t0) : Mesh.TwoEach t := by
  have pos := S.pos
  obtain ⟨hd, hd2⟩ := h e he
  obtain ⟨q1, q2⟩ := facts w0 he hd hd2
  have hp := w0.prv_live _ he
  have ht := w0.twn_live _ he
  have hpt := w0.twn_live _ hp
  have hee : e ≠ t0.twn (t0.prv e) := fun hc => q2 (by
    have := congrArg t0.twn hc
    rw [w0.twn_twn _ hp] at this; exact this.symm)
  have rF : ∀ i < k, t.rot (f i) = if i = 0 then t0.twn (t0.prv e) else b (i - 1) := fun i hi => by rw [rot, (S.fF i hi).2.2.1, (S.fB i hi).1]
  have rB : ∀ i < k, t.rot (b i) = if i + 1 = k then e else f (i + 1) := fun i hi => by rw [rot, (S.fB i hi).2.2.1, (S.fF i hi).1]
  have rO : ∀ x, t0.E x → t.rot x = if x = e then b (k - 1) else if x = t0.twn (t0.prv e) then f 0 else t0.rot x := by
    intro x hx
    rw [rot, (S.old x hx).2.2.1, (S.old _ (w0.twn_live _ hx)).1]
    have i1 : t0.twn x = t0.twn e ↔ x = e := ⟨fun hc => by rw [← w0.twn_twn _ hx, hc, w0.twn_twn _ he], fun hc => by rw [hc]⟩
    have i2 : t0.twn x = t0.prv e ↔ x = t0.twn (t0.prv e) := ⟨fun hc => by rw [← hc, w0.twn_twn _ hx], fun hc => by rw [hc, w0.twn_twn _ hp]⟩
    simp only [i1, i2]; rfl
  intro x hx
  rcases (S.E x).mp hx with hx | ⟨i, hi, rfl | rfl⟩
  · rw [rO x hx]
    by_cases h1 : x = e
    · subst h1
      rw [if_pos rfl, rB _ (by omega), if_pos (by omega)]
      exact ⟨fun hc => (S.ne_new hx (k - 1) (by omega)).2 hc.symm, rfl⟩
    · by_cases h2 : x = t0.twn (t0.prv e)
      · subst h2
        rw [if_neg h1, if_pos rfl, rF 0 pos, if_pos rfl]
        exact ⟨fun hc => (S.ne_new hx 0 pos).1 hc.symm, rfl⟩
      · rw [if_neg h1, if_neg h2]
        obtain ⟨g1, g2⟩ := h x hx
        have hr : t0.E (t0.rot x) := w0.nxt_live _ (w0.twn_live _ hx)
        refine ⟨g1, ?_⟩
        rw [rO _ hr, if_neg, if_neg, g2]
        · intro hc
          have : t0.rot (t0.rot x) = e := by rw [hc, rot, w0.twn_twn _ hp, w0.nxt_prv _ he]
          exact h1 (g2 ▸ this)
        · intro hc
          have : x = t0.rot e := by rw [← hc, g2]
          exact h2 (this.trans q1)
  · rw [rF i hi]
    by_cases h1 : i = 0
    · subst h1
      rw [if_pos rfl, rO _ hpt, if_neg hee.symm, if_pos rfl]
      exact ⟨(S.ne_new hpt 0 hi).1, rfl⟩
    · rw [if_neg h1, rB _ (by omega), if_neg (by omega), Nat.sub_add_cancel (by omega)]
      exact ⟨fun hc => S.disj i hi (i - 1) (by omega) hc.symm, rfl⟩
  · rw [rB i hi]
    by_cases h1 : i + 1 = k
    · rw [if_pos h1, rO e he, if_pos rfl]
      exact ⟨(S.ne_new he i hi).2, by rw [show k - 1 = i by omega]⟩
    · rw [if_neg h1, rF (i + 1) (by omega), if_neg (by omega)]
      exact ⟨S.disj (i + 1) (by omega) i hi, by simp⟩

end Split
end Verif.Topo
