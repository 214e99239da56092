import Verif.Lemmas.Sweep
import Mathlib.Algebra.Group.Prod
import Mathlib.Algebra.Group.Int.Defs
/-
Every event of the sweep keeps the invariant.
-/
set_option linter.unusedSectionVars false
namespace Verif.Geom
open Triangulation

section
variable {M : MonoTri} {ids : List Nat} {L : Lawful M ids} {t0 : Triangulation}

/-! ### What the events do to the chains -/

theorem finishRight_law {ev : Event} {iv : Interval M.C} (hiv : IvGood L t0 iv) {t t' : Triangulation} (ha : Al t0 ids t) (h : finishRight M ev iv.fixup t = some t') :
    Delta t0 ids t t' (fun f => iv.fixup.elim 0 (L.pend f) + f ev.here iv.right.start - f ev.here (L.rEnd iv.chain)) (iv.fixup.elim 0 L.pendN) := by
  unfold finishRight at h
  cases hf : iv.fixup with
  | none =>
    rw [hf] at h
    simp at h; subst h
    have := (hiv.plain hf).1
    exact (delta_refl t0 ids t).congr (by intro f _; simp [this]) (by simp)
  | some c =>
    rw [hf] at h
    simp only [Option.bind_eq_bind, Option.bind_eq_some_iff] at h
    obtain ⟨⟨c', t1⟩, h1, h2⟩ := h
    obtain ⟨g1, g2, g3, g4, g5⟩ := hiv.fixup c hf
    obtain ⟨k1, k2, k3, k4, k5⟩ := L.right_law t0 _ _ _ _ _ g1 ha h1
    refine (k5.trans (L.finish_law t0 _ _ _ k1 k4 h2)).congr ?_ ?_
    · intro f _; simp only [Option.elim_some, k2, k3, g2, g3]; omega
    · simp only [Option.elim_some]; omega

theorem finishLeft_law {ev : Event} {iv : Interval M.C} (hiv : IvGood L t0 iv) {t t' : Triangulation} (ha : Al t0 ids t) {c : M.C} (h : finishLeft M ev iv.chain iv.fixup t = some (c, t')) :
    L.good t0 c ∧ L.rEnd c = iv.right.start ∧ Delta t0 ids t t' (fun f => ivPend L f iv - L.pend f c + f iv.left.start ev.here - f (L.lEnd c) ev.here) (ivN L iv - L.pendN c) := by
  unfold finishLeft at h
  cases hf : iv.fixup with
  | none =>
    rw [hf] at h
    simp at h; obtain ⟨rfl, rfl⟩ := h
    exact ⟨hiv.chain, (hiv.plain hf).1, (delta_refl t0 ids t).congr (by intro f _; simp [ivPend, hf, hiv.lEnd]) (by simp [ivN, hf])⟩
  | some d =>
    rw [hf] at h
    simp only [Option.bind_eq_bind, Option.bind_eq_some_iff] at h
    obtain ⟨⟨c', t1⟩, h1, t2, h2, h3⟩ := h
    simp at h3
    obtain ⟨rfl, rfl⟩ := h3
    obtain ⟨g1, g2, g3, g4, g5⟩ := hiv.fixup d hf
    obtain ⟨k1, k2, k3, k4, k5, k6⟩ := L.left_law t0 _ _ _ _ _ hiv.chain ha h1
    refine ⟨g1, g3, (k6.trans (L.finish_law t0 _ _ _ k1 k5 h2)).congr ?_ ?_⟩
    · intro f _; simp only [ivPend, hf, Option.elim_some, k2, k3, g2, hiv.lEnd]; omega
    · simp only [ivN, hf, Option.elim_some]; omega

theorem splitStacks_law {ev : Event} {iv : Interval M.C} (hiv : IvGood L t0 iv) {t t' : Triangulation} (ha : Al t0 ids t) {c : M.C} (h : splitStacks M ev iv t = some (c, t')) :
    L.good t0 c ∧ L.rEnd c = iv.right.start ∧ L.lEnd c = ev.here ∧ M.isRight c = false ∧ 1 ≤ L.pendN c ∧
      Delta t0 ids t t' (fun f => iv.fixup.elim 0 (L.pend f) - f ev.here (L.rEnd iv.chain) - L.pend f c) (iv.fixup.elim 0 L.pendN + 1 - L.pendN c) := by
  unfold splitStacks at h
  cases hf : iv.fixup with
  | none =>
    rw [hf] at h
    obtain ⟨p1, p2⟩ := hiv.plain hf
    have key : M.left (M.new iv.right.start) ev.here t = some (c, t') := by
      simp only at h
      split at h
      · rename_i hr; rw [p2 hr] at h; exact h
      · rename_i hr
        simp only [Option.bind_eq_bind, Option.bind_eq_some_iff] at h
        obtain ⟨r, h1, h2⟩ := h
        rw [← p1, ← L.opp_law t0 _ _ hiv.chain h1 (by simpa using hr)]; exact h2
    obtain ⟨n1, n2, n3, n4, n5⟩ := L.new_law t0 iv.right.start
    obtain ⟨k1, k2, k3, k4, k5, k6⟩ := L.left_law t0 _ _ _ _ _ n1 ha key
    refine ⟨k1, by rw [k2, n2], k3, k4, k5, k6.congr ?_ ?_⟩
    · intro f hf; simp only [Option.elim_none, n4, n3, p1]; rw [hf iv.right.start ev.here]; omega
    · simp only [Option.elim_none, n5]
  | some d =>
    rw [hf] at h
    simp only [Option.bind_eq_bind, Option.bind_eq_some_iff] at h
    obtain ⟨r, h1, ⟨d', t1⟩, h2, t2, h3, h4⟩ := h
    obtain ⟨g1, g2, g3, g4, g5⟩ := hiv.fixup d hf
    have hr := L.opp_law t0 _ _ g1 h1 g4
    subst hr
    obtain ⟨n1, n2, n3, n4, n5⟩ := L.new_law t0 (L.rEnd d)
    obtain ⟨m1, m2, m3, m4, m5⟩ := L.right_law t0 _ _ _ _ _ g1 ha h2
    have m6 := m5.trans (L.finish_law t0 _ _ _ m1 m4 h3)
    obtain ⟨k1, k2, k3, k4, k5, k6⟩ := L.left_law t0 _ _ _ _ _ n1 (m6.al ha) h4
    refine ⟨k1, by rw [k2, n2, g3], k3, k4, k5, (m6.trans k6).congr ?_ ?_⟩
    · intro f hf; simp only [Option.elim_some, n4, n3, m2, m3, g2]; have := hf (L.rEnd d) ev.here; omega
    · simp only [Option.elim_some, n5]; omega

/-! ### What the events do to the status -/

variable {n : Nat} {nx pv : Nat → Nat} (hc : Cycle n nx pv) (hn : n ≤ maxIx)

include hc in
theorem live_step {dn : List Nat} {v : Nat} (hv : v < n) {s s' : Status M.C} (h : ∀ k, k < n → ((∃ iv, s.ivl k = some iv) ↔ k ∉ dn ∧ pv k ∈ dn))
    (h' : ∀ k, k < n → ((∃ iv, s'.ivl k = some iv) ↔ ((∃ iv, s.ivl k = some iv) ∧ k ≠ v) ∨ (k = nx v ∧ k ∉ dn))) :
    ∀ k, k < n → ((∃ iv, s'.ivl k = some iv) ↔ k ∉ v :: dn ∧ pv k ∈ v :: dn) := by
  intro k hk
  have e : pv k = v ↔ k = nx v := ⟨fun e => by rw [← e, hc.nx_pv k hk], fun e => by rw [e, hc.pv_nx v hv]⟩
  have e2 := hc.nx_ne v hv
  rw [h' k hk, h k hk, List.mem_cons, List.mem_cons, e]
  constructor
  · rintro (⟨⟨a, b⟩, c⟩ | ⟨a, b⟩)
    · exact ⟨by tauto, .inr b⟩
    · exact ⟨by rintro (c | c); exact e2 (a ▸ c); exact b c, .inl a⟩
  · rintro ⟨a, b | b⟩
    · exact .inr ⟨b, by tauto⟩
    · exact .inl ⟨⟨by tauto, b⟩, by tauto⟩

include hc in
theorem liveR_step {dn : List Nat} {v : Nat} (hv : v < n) {s s' : Status M.C} (h : ∀ r, r < n → ((∃ k iv, s.ivl k = some iv ∧ iv.right.stop = r) ↔ r ∉ dn ∧ nx r ∈ dn))
    (h' : ∀ r, r < n → ((∃ k iv, s'.ivl k = some iv ∧ iv.right.stop = r) ↔ ((∃ k iv, s.ivl k = some iv ∧ iv.right.stop = r) ∧ r ≠ v) ∨ (r = pv v ∧ r ∉ dn))) :
    ∀ r, r < n → ((∃ k iv, s'.ivl k = some iv ∧ iv.right.stop = r) ↔ r ∉ v :: dn ∧ nx r ∈ v :: dn) := by
  intro k hk
  have e : nx k = v ↔ k = pv v := ⟨fun e => by rw [← e, hc.pv_nx k hk], fun e => by rw [e, hc.nx_pv v hv]⟩
  have e2 := hc.pv_ne v hv
  rw [h' k hk, h k hk, List.mem_cons, List.mem_cons, e]
  constructor
  · rintro (⟨⟨a, b⟩, c⟩ | ⟨a, b⟩)
    · exact ⟨by tauto, .inr b⟩
    · exact ⟨by rintro (c | c); exact e2 (a ▸ c); exact b c, .inl a⟩
  · rintro ⟨a, b | b⟩
    · exact .inr ⟨b, by tauto⟩
    · exact .inl ⟨⟨by tauto, b⟩, by tauto⟩

include hc in
theorem bal_finish {dn : List Nat} {v : Nat} (hv : v < n) (hvd : v ∉ dn) {q q' : Ctx M.C} {S Sp Mg E R : Int} (hI : Inv L t0 n nx pv dn q S Sp Mg E R) {df : (Nat → Nat → Int) → Int} {k N : Int}
    (hd : Delta t0 ids q.tri q'.tri df k)
    (h1 : ∀ f, Anti f → df f + q'.sls.total (ivPend L f) = q.sls.total (ivPend L f) + (if pv v ∈ dn then f (pv v) v else 0) + (if nx v ∈ dn then f v (nx v) else 0))
    (h2 : k + q'.sls.total (ivN L) = q.sls.total (ivN L) + (N - (R + 2 * Sp + 2 * Mg))) :
    ∃ cs : List Nat, cs.Nodup ∧ (∀ i, i ∈ cs ↔ i < n ∧ i ∈ v :: dn ∧ nx i ∈ v :: dn) ∧ ∃ ts, Emits t0 q'.tri ids ts ∧
      (∀ f, Anti f → triSum f ts + q'.sls.total (ivPend L f) = (cs.map fun i => f i (nx i)).sum) ∧ (ts.length : Int) + q'.sls.total (ivN L) = N := by
  obtain ⟨cs, c1, c2, ts, e, b1, b2⟩ := hI.bal
  obtain ⟨cs', d1, d2, d3⟩ := bal_step hc hv hvd c1 c2
  obtain ⟨ts', e', g1, g2⟩ := hd ts e
  refine ⟨cs', d1, d2, ts', e', ?_, by omega⟩
  intro f hf
  rw [d3 f, g1 f hf, ← b1 f hf]
  have := h1 f hf
  omega

variable {dbg : Bool} {dn : List Nat} {v : Nat} {ty : VType} {q q' : Ctx M.C} {S Sp Mg E R : Int}

include hc in
theorem step_start (hv : v < n) (hvd : v ∉ dn) (hp : pv v ∉ dn) (hq : nx v ∉ dn) (hI : Inv L t0 n nx pv dn q S Sp Mg E R) (h : sweepStart dbg M ⟨v, pv v, nx v, ty⟩ q = some q') :
    Inv L t0 n nx pv (v :: dn) q' (S + 1) Sp Mg E R := by
  simp only [sweepStart, Option.bind_eq_bind, Option.bind_eq_some_iff] at h
  obtain ⟨s, h1, h2⟩ := h
  simp at h2; subst h2
  have l1 := hc.pv_lt v hv
  have l2 := hc.nx_lt v hv
  have nl : ∀ iv, q.sls.ivl (nx v) ≠ some iv := fun iv h => by
    have := ((hI.live _ l2).mp ⟨iv, h⟩).2
    rw [hc.pv_nx v hv] at this; exact hvd this
  have nr : ∀ k iv, q.sls.ivl k = some iv → iv.right.stop ≠ pv v := fun k iv h he => by
    have := ((hI.liveR _ l1).mp ⟨k, iv, h, he⟩).2
    rw [hc.nx_pv v hv] at this; exact hvd this
  have ins := Status.insert_spec hI.sync (Option.eq_none_iff_forall_ne_some.mpr nl) nr h1
  obtain ⟨n1, n2, n3, n4, n5⟩ := L.new_law t0 v
  refine ⟨ins.sync, live_step hc hv hI.live ?_, liveR_step hc hv hI.liveR ?_, ?_, ?_, ?_, ?_⟩
  · intro k hk
    have hlk := hI.live k hk
    rw [ins.at_eq]
    simp only
    split
    · rename_i he; subst he; exact ⟨fun _ => .inr ⟨rfl, hq⟩, fun _ => ⟨_, rfl⟩⟩
    · rename_i he
      constructor
      · rintro ⟨iv, hh⟩
        refine .inl ⟨⟨iv, hh⟩, ?_⟩
        rintro rfl
        exact hp (hlk.mp ⟨iv, hh⟩).2
      · rintro (hh | hh)
        · exact hh.1
        · exact absurd hh.1 he
  · intro r hr
    have hlr := hI.liveR r hr
    constructor
    · rintro ⟨k, iv, hh, he⟩
      rw [ins.at_eq] at hh
      simp only at hh
      split at hh
      · simp at hh; subst hh; simp at he; subst he; exact .inr ⟨rfl, hp⟩
      · refine .inl ⟨⟨k, iv, hh, he⟩, ?_⟩
        rintro rfl
        exact hq (hlr.mp ⟨k, iv, hh, he⟩).2
    · rintro (⟨⟨k, iv, hh, he⟩, _⟩ | ⟨he, _⟩)
      · refine ⟨k, iv, ?_, he⟩
        rw [ins.at_eq, if_neg, hh]
        rintro rfl
        exact nl iv hh
      · exact ⟨nx v, _, by rw [ins.at_eq, if_pos rfl], he.symm⟩
  · intro k iv hh
    rw [ins.at_eq] at hh
    simp only at hh
    split at hh
    · rename_i he; simp at hh; subst hh; subst he
      exact ⟨⟨n1, n3, fun _ => ⟨n2, fun _ => rfl⟩, by simp⟩, (hc.pv_nx v hv).symm, (hc.nx_pv v hv).symm⟩
    · exact hI.iv k iv hh
  · refine bal_finish hc hv hvd hI (delta_refl t0 ids q.tri) ?_ ?_
    · intro f _
      simp only [ins.total]
      simp [ivPend, n4, hp, hq]
    · simp only [ins.total]
      simp [ivN, n5]
  · rw [ins.total, hI.num]; omega
  · have := hI.len; simp only [List.length_cons]; omega

include hc in
theorem fresh_left (hv : v < n) (hvd : v ∉ dn) (hI : Inv L t0 n nx pv dn q S Sp Mg E R) : q.sls.ivl (nx v) = none := by
  refine Option.eq_none_iff_forall_ne_some.mpr fun iv h => ?_
  have := ((hI.live _ (hc.nx_lt v hv)).mp ⟨iv, h⟩).2
  rw [hc.pv_nx v hv] at this; exact hvd this

include hc in
theorem fresh_right (hv : v < n) (hvd : v ∉ dn) (hI : Inv L t0 n nx pv dn q S Sp Mg E R) : ∀ k iv, q.sls.ivl k = some iv → iv.right.stop ≠ pv v := by
  intro k iv h he
  have := ((hI.liveR _ (hc.pv_lt v hv)).mp ⟨k, iv, h, he⟩).2
  rw [hc.nx_pv v hv] at this; exact hvd this

include hc in
theorem step_left (hv : v < n) (hvd : v ∉ dn) (hq : nx v ∉ dn) (hI : Inv L t0 n nx pv dn q S Sp Mg E R) {iv : Interval M.C} {s : Status M.C} (hr : Status.Removed n q.sls s v iv)
    (h : regularLeft dbg M ⟨v, pv v, nx v, ty⟩ iv s q.tri = some q') : Inv L t0 n nx pv (v :: dn) q' S Sp Mg E (R + 1) := by
  simp only [regularLeft, Option.bind_eq_bind, Option.bind_eq_some_iff] at h
  obtain ⟨⟨c, t1⟩, h1, ⟨c', t2⟩, h2, s', h3, h4⟩ := h
  simp at h4; subst h4
  have hp : pv v ∈ dn := ((hI.live v hv).mp ⟨iv, hr.was⟩).2
  obtain ⟨g1, g2, g3⟩ := hI.iv v iv hr.was
  obtain ⟨a1, a2, a3⟩ := finishLeft_law g1 hI.al h1
  obtain ⟨k1, k2, k3, k4, k5, k6⟩ := L.left_law t0 _ _ _ _ _ a1 (a3.al hI.al) h2
  have nl := fresh_left hc hv hvd hI
  have hvn := hc.nx_ne v hv
  have ins := Status.insert_spec hr.sync (iv := ⟨v, ⟨v, nx v⟩, iv.right, c', none⟩) (by rw [hr.at_eq]; simp [nl]) (by
    intro k iv' hk he
    rw [hr.at_eq] at hk
    split at hk
    · simp at hk
    · rename_i hne; exact hne (hI.sync.inj hk hr.was he)) h3
  have hat : ∀ j, s'.ivl j = if j = nx v then some ⟨v, ⟨v, nx v⟩, iv.right, c', none⟩ else if j = v then none else q.sls.ivl j := by
    intro j; rw [ins.at_eq, hr.at_eq]
  refine ⟨ins.sync, live_step hc hv hI.live ?_, liveR_step hc hv hI.liveR ?_, ?_, ?_, ?_, ?_⟩
  · intro k hk
    rw [hat]
    split
    · rename_i he; subst he; exact ⟨fun _ => .inr ⟨rfl, hq⟩, fun _ => ⟨_, rfl⟩⟩
    · rename_i he
      split
      · rename_i he2; simp [he2, hvn.symm]
      · rename_i he2; simp [he, he2]
  · intro r hr'
    constructor
    · rintro ⟨k, iv', hh, he⟩
      rw [hat] at hh
      have key : ∃ k iv', q.sls.ivl k = some iv' ∧ iv'.right.stop = r := by
        split at hh
        · simp at hh; subst hh; exact ⟨v, iv, hr.was, he⟩
        · split at hh
          · simp at hh
          · exact ⟨k, iv', hh, he⟩
      refine .inl ⟨key, ?_⟩
      rintro rfl
      exact hq ((hI.liveR r hr').mp key).2
    · rintro (⟨⟨k, iv', hh, he⟩, _⟩ | ⟨he, hd⟩)
      · by_cases hkv : k = v
        · subst hkv
          rw [hr.was] at hh; simp at hh; subst hh
          exact ⟨nx k, ⟨k, ⟨k, nx k⟩, iv.right, c', none⟩, by rw [hat, if_pos rfl], he⟩
        · refine ⟨k, iv', ?_, he⟩
          rw [hat, if_neg, if_neg hkv, hh]
          rintro rfl
          rw [nl] at hh; simp at hh
      · subst he; exact absurd hp hd
  · intro k iv' hh
    rw [hat] at hh
    split at hh
    · rename_i he; simp at hh; subst hh; subst he
      exact ⟨⟨k1, k3, fun _ => ⟨by rw [k2, a2], fun h => by rw [k4] at h; simp at h⟩, by simp⟩, (hc.pv_nx v hv).symm, g3⟩
    · split at hh
      · simp at hh
      · exact hI.iv k iv' hh
  · refine bal_finish hc hv hvd hI (a3.trans k6) ?_ ?_
    · intro f _
      rw [ins.total, hr.total]
      simp only [ivPend, Option.elim_none, hp, hq, if_true, if_false, g2]
      omega
    · rw [ins.total, hr.total]
      simp only [ivN, Option.elim_none]
      omega
  · rw [ins.total, hr.total, hI.num]; omega
  · have := hI.len; simp only [List.length_cons]; omega

include hc in
theorem step_right (hv : v < n) (hvd : v ∉ dn) (hp : pv v ∉ dn) (hI : Inv L t0 n nx pv dn q S Sp Mg E R) {k : Nat} {iv : Interval M.C} {s : Status M.C} (hr : Status.Removed n q.sls s k iv)
    (hs : iv.right.stop = v) (h : regularRight dbg M ⟨v, pv v, nx v, ty⟩ iv s q.tri = some q') : Inv L t0 n nx pv (v :: dn) q' S Sp Mg E (R + 1) := by
  simp only [regularRight, Option.bind_eq_bind, Option.bind_eq_some_iff] at h
  obtain ⟨t1, h1, ⟨c', t2⟩, h2, s', h3, h4⟩ := h
  simp at h4; subst h4
  have hq : nx v ∈ dn := ((hI.liveR v hv).mp ⟨k, iv, hr.was, hs⟩).2
  obtain ⟨g1, g2, g3⟩ := hI.iv k iv hr.was
  have a3 := finishRight_law g1 hI.al h1
  obtain ⟨k1, k2, k3, k5, k6⟩ := L.right_law t0 _ _ _ _ _ g1.chain (a3.al hI.al) h2
  have nr := fresh_right hc hv hvd hI
  have hvn := hc.pv_ne v hv
  have hstop := (hI.sync.left k iv hr.was).1
  have ins := Status.insert_spec hr.sync (iv := ⟨v, iv.left, ⟨v, pv v⟩, c', none⟩) (by rw [hr.at_eq]; simp [hstop]) (by
    intro j iv' hk
    rw [hr.at_eq] at hk
    split at hk
    · simp at hk
    · exact nr j iv' hk) h3
  have hat : ∀ j, s'.ivl j = if j = k then some ⟨v, iv.left, ⟨v, pv v⟩, c', none⟩ else q.sls.ivl j := by
    intro j; rw [ins.at_eq, hr.at_eq]; simp only [hstop]; split <;> rfl
  have hkv : k ≠ v := by rintro rfl; exact hp ((hI.live k hv).mp ⟨iv, hr.was⟩).2
  refine ⟨ins.sync, live_step hc hv hI.live ?_, liveR_step hc hv hI.liveR ?_, ?_, ?_, ?_, ?_⟩
  · intro j hj
    rw [hat]
    split
    · rename_i he; subst he; exact ⟨fun _ => .inl ⟨⟨_, hr.was⟩, hkv⟩, fun _ => ⟨_, rfl⟩⟩
    · rename_i he
      constructor
      · rintro ⟨iv', hh⟩
        refine .inl ⟨⟨iv', hh⟩, ?_⟩
        rintro rfl
        exact hp ((hI.live j hv).mp ⟨iv', hh⟩).2
      · rintro (hh | ⟨rfl, hd⟩)
        · exact hh.1
        · exact absurd hq hd
  · intro r hr'
    constructor
    · rintro ⟨j, iv', hh, he⟩
      rw [hat] at hh
      split at hh
      · simp at hh; subst hh; simp at he; subst he; exact .inr ⟨rfl, hp⟩
      · rename_i hne
        refine .inl ⟨⟨j, iv', hh, he⟩, ?_⟩
        rintro rfl
        exact hne (hI.sync.inj hh hr.was (he.trans hs.symm))
    · rintro (⟨⟨j, iv', hh, he⟩, hrv⟩ | ⟨he, hd⟩)
      · refine ⟨j, iv', ?_, he⟩
        rw [hat, if_neg, hh]
        rintro rfl
        rw [hr.was] at hh; simp at hh; subst hh
        exact hrv (he.symm.trans hs)
      · exact ⟨k, _, by rw [hat, if_pos rfl], he.symm⟩
  · intro j iv' hh
    rw [hat] at hh
    split at hh
    · rename_i he; simp at hh; subst hh; subst he
      exact ⟨⟨k1, by rw [k3]; exact g1.lEnd, fun _ => ⟨k2, fun _ => rfl⟩, by simp⟩, g2, (hc.nx_pv v hv).symm⟩
    · exact hI.iv j iv' hh
  · refine bal_finish hc hv hvd hI (a3.trans k6) ?_ ?_
    · intro f _
      rw [ins.total, hr.total]
      simp only [ivPend, Option.elim_none, hp, hq, if_true, if_false, g3, hs]
      omega
    · rw [ins.total, hr.total]
      simp only [ivN, Option.elim_none]
      omega
  · rw [ins.total, hr.total, hI.num]; omega
  · have := hI.len; simp only [List.length_cons]; omega

include hc in
theorem step_end (hv : v < n) (hvd : v ∉ dn) (hI : Inv L t0 n nx pv dn q S Sp Mg E R) (h : sweepEnd M ⟨v, pv v, nx v, ty⟩ q = some q') : Inv L t0 n nx pv (v :: dn) q' S Sp Mg (E + 1) R := by
  simp only [sweepEnd, Option.bind_eq_bind, Option.bind_eq_some_iff] at h
  obtain ⟨⟨o, s⟩, h1, iv, h2, h3⟩ := h
  simp only at h2; subst h2
  have hr := Status.removeLeft_some hI.sync h1
  split at h3
  · simp at h3
  rename_i hend
  simp only [Option.bind_eq_some_iff] at h3
  obtain ⟨t1, h3, ⟨c', t2⟩, h4, t3, h5, h6⟩ := h3
  simp at h6; subst h6
  have hs : iv.right.stop = v := by
    have e := (hI.sync.left v iv hr.was).1
    simp [Interval.isEnd] at hend
    rw [← hend, e]
  have hp : pv v ∈ dn := ((hI.live v hv).mp ⟨iv, hr.was⟩).2
  have hq : nx v ∈ dn := ((hI.liveR v hv).mp ⟨v, iv, hr.was, hs⟩).2
  obtain ⟨g1, g2, g3⟩ := hI.iv v iv hr.was
  have a3 := finishRight_law g1 hI.al h3
  obtain ⟨k1, k2, k3, k4, k5, k6⟩ := L.left_law t0 _ _ _ _ _ g1.chain (a3.al hI.al) h4
  have k7 := L.finish_law t0 _ _ _ k1 k5 h5
  refine ⟨hr.sync, live_step hc hv hI.live ?_, liveR_step hc hv hI.liveR ?_, ?_, ?_, ?_, ?_⟩
  · intro j hj
    rw [hr.at_eq]
    split
    · rename_i he; subst he; simp [(hc.nx_ne j hv).symm]
    · rename_i he
      constructor
      · intro hh; exact .inl ⟨hh, he⟩
      · rintro (hh | ⟨rfl, hd⟩)
        · exact hh.1
        · exact absurd hq hd
  · intro r hr'
    constructor
    · rintro ⟨j, iv', hh, he⟩
      rw [hr.at_eq] at hh
      split at hh
      · simp at hh
      · rename_i hne
        refine .inl ⟨⟨j, iv', hh, he⟩, ?_⟩
        rintro rfl
        exact hne (hI.sync.inj hh hr.was (he.trans hs.symm))
    · rintro (⟨⟨j, iv', hh, he⟩, hrv⟩ | ⟨rfl, hd⟩)
      · refine ⟨j, iv', ?_, he⟩
        rw [hr.at_eq, if_neg, hh]
        rintro rfl
        rw [hr.was] at hh; simp at hh; subst hh
        exact hrv (he.symm.trans hs)
      · exact absurd hp hd
  · intro j iv' hh
    rw [hr.at_eq] at hh
    split at hh
    · simp at hh
    · exact hI.iv j iv' hh
  · refine bal_finish hc hv hvd hI ((a3.trans k6).trans k7) ?_ ?_
    · intro f hf
      rw [hr.total]
      simp only [ivPend, hp, hq, if_true, g3, hs, k2, k3, g1.lEnd, g2]
      have := hf v (L.rEnd iv.chain)
      omega
    · rw [hr.total]
      simp only [ivN]
      omega
  · rw [hr.total, hI.num]; omega
  · have := hI.len; simp only [List.length_cons]; omega

include hc in
theorem step_merge (hv : v < n) (hvd : v ∉ dn) (hI : Inv L t0 n nx pv dn q S Sp Mg E R) (h : sweepMerge dbg M ⟨v, pv v, nx v, ty⟩ q = some q') :
    Inv L t0 n nx pv (v :: dn) q' S Sp (Mg + 1) E R := by
  simp only [sweepMerge, Option.bind_eq_bind, Option.bind_eq_some_iff] at h
  obtain ⟨⟨o, s⟩, h1, l, h2, ⟨o', s'⟩, h3, r, h4, h5⟩ := h
  simp only at h2 h4; subst h2; subst h4
  obtain ⟨k, hs, hl⟩ := Status.removeRight_some hI.sync h1
  have hr := Status.removeLeft_some hl.sync h3
  split at h5
  · simp at h5
  simp only [Option.bind_eq_some_iff] at h5
  obtain ⟨t1, h5, ⟨c1, t2⟩, h6, ⟨c2, t3⟩, h7, ⟨c3, t4⟩, h8, s'', h9, h10⟩ := h5
  simp at h10; subst h10
  have hkv : v ≠ k := by
    intro e; have := hr.was; rw [hl.at_eq, if_pos e] at this; simp at this
  have hrw : q.sls.ivl v = some r := by have := hr.was; rw [hl.at_eq, if_neg hkv] at this; exact this
  have hp : pv v ∈ dn := ((hI.live v hv).mp ⟨r, hrw⟩).2
  have hq : nx v ∈ dn := ((hI.liveR v hv).mp ⟨k, l, hl.was, hs⟩).2
  obtain ⟨g1, g2, g3⟩ := hI.iv k l hl.was
  obtain ⟨g1', g2', g3'⟩ := hI.iv v r hrw
  have a3 := finishRight_law g1 hI.al h5
  obtain ⟨b1, b2, b3⟩ := finishLeft_law g1' (a3.al hI.al) h6
  obtain ⟨k1, k2, k3, k5, k6⟩ := L.right_law t0 _ _ _ _ _ g1.chain ((a3.trans b3).al hI.al) h7
  obtain ⟨m1, m2, m3, m4, m5, m6⟩ := L.left_law t0 _ _ _ _ _ b1 (((a3.trans b3).trans k6).al hI.al) h8
  have hstop := (hI.sync.left k l hl.was).1
  have ins := Status.insert_spec hr.sync (iv := ⟨v, l.left, r.right, c2, some c3⟩) (by rw [hr.at_eq, hl.at_eq]; simp [hstop]) (by
    intro j iv' hk he
    rw [hr.at_eq, hl.at_eq] at hk
    split at hk
    · simp at hk
    · rename_i hne
      split at hk
      · simp at hk
      · exact hne (hI.sync.inj hk hrw he)) h9
  have hat : ∀ j, s''.ivl j = if j = k then some ⟨v, l.left, r.right, c2, some c3⟩ else if j = v then none else q.sls.ivl j := by
    intro j; rw [ins.at_eq, hr.at_eq, hl.at_eq]; simp only [hstop]; split <;> rfl
  have hrs : r.right.stop ≠ v := by
    intro e; exact hkv (hI.sync.inj hrw hl.was (e.trans hs.symm))
  refine ⟨ins.sync, live_step hc hv hI.live ?_, liveR_step hc hv hI.liveR ?_, ?_, ?_, ?_, ?_⟩
  · intro j hj
    rw [hat]
    split
    · rename_i he; subst he; exact ⟨fun _ => .inl ⟨⟨_, hl.was⟩, hkv.symm⟩, fun _ => ⟨_, rfl⟩⟩
    · rename_i he
      split
      · rename_i he; subst he; simp [(hc.nx_ne j hv).symm]
      · rename_i he
        constructor
        · intro hh; exact .inl ⟨hh, he⟩
        · rintro (hh | ⟨rfl, hd⟩)
          · exact hh.1
          · exact absurd hq hd
  · intro r' hr'
    constructor
    · rintro ⟨j, iv', hh, he⟩
      rw [hat] at hh
      split at hh
      · simp at hh; subst hh; simp at he
        exact .inl ⟨⟨v, r, hrw, he⟩, by rintro rfl; exact hrs he⟩
      · rename_i hne
        split at hh
        · simp at hh
        · refine .inl ⟨⟨j, iv', hh, he⟩, ?_⟩
          rintro rfl
          exact hne (hI.sync.inj hh hl.was (he.trans hs.symm))
    · rintro (⟨⟨j, iv', hh, he⟩, hrv⟩ | ⟨rfl, hd⟩)
      · by_cases hj : j = v
        · subst hj
          rw [hrw] at hh; simp at hh; subst hh
          exact ⟨k, ⟨j, l.left, r.right, c2, some c3⟩, by rw [hat, if_pos rfl], he⟩
        · refine ⟨j, iv', ?_, he⟩
          rw [hat, if_neg, if_neg hj, hh]
          rintro rfl
          rw [hl.was] at hh; simp at hh; subst hh
          exact hrv (he.symm.trans hs)
      · exact absurd hp hd
  · intro j iv' hh
    rw [hat] at hh
    split at hh
    · rename_i he; simp at hh; subst hh; subst he
      refine ⟨⟨k1, by rw [k3]; exact g1.lEnd, by simp, ?_⟩, g2, g3'⟩
      intro c hc'
      simp at hc'; subst hc'
      exact ⟨m1, by rw [k2, m3], by rw [m2, b2], m4, m5⟩
    · split at hh
      · simp at hh
      · exact hI.iv j iv' hh
  · refine bal_finish hc hv hvd hI (((a3.trans b3).trans k6).trans m6) ?_ ?_
    · intro f hf
      rw [ins.total, hr.total, hl.total]
      simp only [ivPend, Option.elim_some, hp, hq, if_true, g3, hs, g2']
      omega
    · rw [ins.total, hr.total, hl.total]
      simp only [ivN, Option.elim_some]
      omega
  · rw [ins.total, hr.total, hl.total, hI.num]; omega
  · have := hI.len; simp only [List.length_cons]; omega

include hc in
theorem step_split {find : Find M.C} (hv : v < n) (hvd : v ∉ dn) (hp : pv v ∉ dn) (hq : nx v ∉ dn) (hI : Inv L t0 n nx pv dn q S Sp Mg E R)
    (h : sweepTrySplit dbg M find ⟨v, pv v, nx v, ty⟩ q = some (some q')) : Inv L t0 n nx pv (v :: dn) q' S (Sp + 1) Mg E R := by
  simp only [sweepTrySplit, Option.bind_eq_bind, Option.bind_eq_some_iff] at h
  obtain ⟨o, h0, h⟩ := h
  cases o with
  | none => simp at h
  | some k =>
  simp only [Option.bind_eq_some_iff] at h
  obtain ⟨⟨o', s⟩, h1, l, h2, h3⟩ := h
  simp only at h2; subst h2
  have hl := Status.removeLeft_some hI.sync h1
  split at h3
  · simp at h3
  simp only [Option.bind_eq_some_iff] at h3
  obtain ⟨⟨c1, t1⟩, h3, ⟨c2, t2⟩, h4, s1, h5, s2, h6, h7⟩ := h3
  simp at h7; subst h7
  obtain ⟨g1, g2, g3⟩ := hI.iv k l hl.was
  obtain ⟨b1, b2, b3, b4, b5, b6⟩ := splitStacks_law g1 hI.al h3
  obtain ⟨k1, k2, k3, k5, k6⟩ := L.right_law t0 _ _ _ _ _ g1.chain (b6.al hI.al) h4
  have hstop := (hI.sync.left k l hl.was).1
  have nl := fresh_left hc hv hvd hI
  have nr := fresh_right hc hv hvd hI
  have hkn : nx v ≠ k := by rintro rfl; have := hl.was; rw [nl] at this; simp at this
  have hkv : k ≠ v := by rintro rfl; exact hp ((hI.live k hv).mp ⟨l, hl.was⟩).2
  have hlv : l.right.stop ≠ v := by intro e; exact hq ((hI.liveR v hv).mp ⟨k, l, hl.was, e⟩).2
  have ins1 := Status.insert_spec hl.sync (iv := ⟨v, l.left, ⟨v, pv v⟩, c2, none⟩) (by rw [hl.at_eq]; simp [hstop]) (by
    intro j iv' hk
    rw [hl.at_eq] at hk
    split at hk
    · simp at hk
    · exact nr j iv' hk) h5
  have ins2 := Status.insert_spec ins1.sync (iv := ⟨v, ⟨v, nx v⟩, l.right, c1, none⟩) (by rw [ins1.at_eq, hl.at_eq]; simp [hstop, hkn, nl]) (by
    intro j iv' hk
    rw [ins1.at_eq, hl.at_eq] at hk
    split at hk
    · simp at hk; subst hk
      exact fun e => nr k l hl.was e.symm
    · split at hk
      · simp at hk
      · rename_i hne; exact fun e => hne (hI.sync.inj hk hl.was e)) h6
  have hat : ∀ j, s2.ivl j = if j = nx v then some ⟨v, ⟨v, nx v⟩, l.right, c1, none⟩ else if j = k then some ⟨v, l.left, ⟨v, pv v⟩, c2, none⟩ else q.sls.ivl j := by
    intro j; rw [ins2.at_eq, ins1.at_eq, hl.at_eq]; simp only [hstop]; split
    · rfl
    · split <;> rfl
  refine ⟨ins2.sync, live_step hc hv hI.live ?_, liveR_step hc hv hI.liveR ?_, ?_, ?_, ?_, ?_⟩
  · intro j hj
    rw [hat]
    split
    · rename_i he; subst he; exact ⟨fun _ => .inr ⟨rfl, hq⟩, fun _ => ⟨_, rfl⟩⟩
    · rename_i he
      split
      · rename_i he; subst he; exact ⟨fun _ => .inl ⟨⟨_, hl.was⟩, hkv⟩, fun _ => ⟨_, rfl⟩⟩
      · constructor
        · rintro ⟨iv', hh⟩
          refine .inl ⟨⟨iv', hh⟩, ?_⟩
          rintro rfl
          exact hp ((hI.live j hv).mp ⟨iv', hh⟩).2
        · rintro (hh | ⟨rfl, hd⟩)
          · exact hh.1
          · exact absurd rfl he
  · intro r' hr'
    constructor
    · rintro ⟨j, iv', hh, he⟩
      rw [hat] at hh
      split at hh
      · simp at hh; subst hh; simp at he
        exact .inl ⟨⟨k, l, hl.was, he⟩, by rintro rfl; exact hlv he⟩
      · split at hh
        · simp at hh; subst hh; simp at he; subst he; exact .inr ⟨rfl, hp⟩
        · refine .inl ⟨⟨j, iv', hh, he⟩, ?_⟩
          rintro rfl
          exact hq ((hI.liveR r' hr').mp ⟨j, iv', hh, he⟩).2
    · rintro (⟨⟨j, iv', hh, he⟩, hrv⟩ | ⟨rfl, hd⟩)
      · by_cases hj : j = k
        · subst hj
          rw [hl.was] at hh; simp at hh; subst hh
          exact ⟨nx v, ⟨v, ⟨v, nx v⟩, l.right, c1, none⟩, by rw [hat, if_pos rfl], he⟩
        · refine ⟨j, iv', ?_, he⟩
          rw [hat, if_neg, if_neg hj, hh]
          rintro rfl
          rw [nl] at hh; simp at hh
      · exact ⟨k, _, by rw [hat, if_neg (Ne.symm hkn), if_pos rfl], rfl⟩
  · intro j iv' hh
    rw [hat] at hh
    split at hh
    · rename_i he; simp at hh; subst hh; subst he
      exact ⟨⟨b1, b3, fun _ => ⟨b2, fun h => by rw [b4] at h; simp at h⟩, by simp⟩, (hc.pv_nx v hv).symm, g3⟩
    · split at hh
      · rename_i he; simp at hh; subst hh; subst he
        exact ⟨⟨k1, by rw [k3]; exact g1.lEnd, fun _ => ⟨k2, fun _ => rfl⟩, by simp⟩, g2, (hc.nx_pv v hv).symm⟩
      · exact hI.iv j iv' hh
  · refine bal_finish hc hv hvd hI (b6.trans k6) ?_ ?_
    · intro f hf
      rw [ins2.total, ins1.total, hl.total]
      simp only [ivPend, Option.elim_none, hp, hq, if_false]
      omega
    · rw [ins2.total, ins1.total, hl.total]
      simp only [ivN, Option.elim_none]
      omega
  · rw [ins2.total, ins1.total, hl.total, hI.num]; omega
  · have := hI.len; simp only [List.length_cons]; omega

/-! ### One event -/

theorem reinsert {s s' s'' : Status M.C} {k : Nat} {iv : Interval M.C} (hs : s.Sync n) (hr : Status.Removed n s s' k iv) (he : s' = ⟨s.left.set k none, s.right.set iv.right.stop maxIx⟩)
    (h : s'.insert dbg M iv = some s'') : s'' = s := by
  unfold Status.insert Status.put at h
  obtain ⟨h1, h2⟩ := hs.left k iv hr.was
  have h3 := Status.at_some.mp hr.was
  split at h
  · simp at h
  split at h
  · simp only [Option.some.injEq] at h
    subst h
    rw [he, h1]
    simp only [List.set_set]
    have e1 : s.left.set k (some iv) = s.left := by
      obtain ⟨hl, e⟩ := List.getElem?_eq_some_iff.mp h3
      rw [← e]; exact List.set_getElem_self hl
    have e2 : s.right.set iv.right.stop k = s.right := by
      obtain ⟨hl, e⟩ := List.getElem?_eq_some_iff.mp h2
      conv => lhs; arg 3; rw [← e]
      exact List.set_getElem_self hl
    rw [e1, e2]
  · simp at h

theorem removeLeft_form {s s' : Status M.C} {k : Nat} {iv : Interval M.C} (h : s.removeLeft k = some (some iv, s')) : s' = ⟨s.left.set k none, s.right.set iv.right.stop maxIx⟩ := by
  unfold Status.removeLeft at h
  split at h
  · split at h
    · simp at h; obtain ⟨rfl, rfl⟩ := h; rfl
    · simp at h
  · simp at h

theorem removeRight_form {s s' : Status M.C} (hs : s.Sync n) {r : Nat} {iv : Interval M.C} (h : s.removeRight r = some (some iv, s')) :
    ∃ k, iv.right.stop = r ∧ Status.Removed n s s' k iv ∧ s' = ⟨s.left.set k none, s.right.set iv.right.stop maxIx⟩ := by
  obtain ⟨k, h1, h2⟩ := Status.removeRight_some hs h
  refine ⟨k, h1, h2, ?_⟩
  unfold Status.removeRight at h
  split at h
  · simp at h
  · rename_i k' hk'
    split at h
    · rename_i hm
      simp only at h
      split at h
      · simp at h
        obtain ⟨rfl, rfl⟩ := h
        have := (hs.left _ _ h2.was).2
        rw [h1, hk'] at this
        simp at this
        rw [this, h1]
      · simp at h
    · simp at h

/-- what the type of an event promises about the vertices visited before -/
def TypeOk (nx pv : Nat → Nat) (dn : List Nat) (v : Nat) : VType → Prop
  | .start | .split => pv v ∉ dn ∧ nx v ∉ dn
  | .regular => ¬(pv v ∈ dn ∧ nx v ∈ dn)
  | _ => True

/-- kinds of vertices: S, Sp, Mg, E, R -/
def kind : VType → Int × Int × Int × Int × Int
  | .start | .startLate => (1, 0, 0, 0, 0)
  | .split | .splitLate => (0, 1, 0, 0, 0)
  | .merge | .mergeLate => (0, 0, 1, 0, 0)
  | .end | .endLate => (0, 0, 0, 1, 0)
  | .regular => (0, 0, 0, 0, 1)
  | _ => (0, 0, 0, 0, 0)

/-- the invariant with the numbers of vertices of each kind -/
def Inv' (L : Lawful M ids) (t0 : Triangulation) (n : Nat) (nx pv : Nat → Nat) (dn : List Nat) (q : Ctx M.C) (m : Int × Int × Int × Int × Int) : Prop :=
  Inv L t0 n nx pv dn q m.1 m.2.1 m.2.2.1 m.2.2.2.1 m.2.2.2.2

variable {find : Find M.C} {m : Int × Int × Int × Int × Int}

include hc hn in
theorem step_regular (hv : v < n) (hvd : v ∉ dn) {un : Bool} (hr : un = false → ¬(pv v ∈ dn ∧ nx v ∈ dn)) (hI : Inv' L t0 n nx pv dn q m) {ty' : VType}
    (h : sweepRegular dbg M find ⟨v, pv v, nx v, ty⟩ un q = some (q', ty')) : Inv' L t0 n nx pv (v :: dn) q' (m + kind ty') := by
  unfold Inv' at hI
  simp only [sweepRegular, Option.bind_eq_bind, Option.bind_eq_some_iff] at h
  obtain ⟨⟨o, s⟩, h1, h⟩ := h
  cases o with
  | some iv =>
    have hrm := Status.removeLeft_some hI.sync h1
    have hp : pv v ∈ dn := ((hI.live v hv).mp ⟨iv, hrm.was⟩).2
    simp only at h
    split at h
    · simp only [Option.bind_eq_some_iff] at h
      obtain ⟨s1, h2, q1, h3, h4⟩ := h
      simp at h4; obtain ⟨rfl, rfl⟩ := h4
      rw [reinsert hI.sync hrm (removeLeft_form h1) h2] at h3
      simpa [Inv', kind] using step_end hc hv hvd hI h3
    · rename_i hne
      simp only [Option.bind_eq_some_iff] at h
      obtain ⟨p, h2, h⟩ := h
      split at h
      · simp only [Option.bind_eq_some_iff] at h
        obtain ⟨s1, h2, q1, h3, h4⟩ := h
        simp at h4; obtain ⟨rfl, rfl⟩ := h4
        rw [reinsert hI.sync hrm (removeLeft_form h1) h2] at h3
        simpa [Inv', kind] using step_merge hc hv hvd hI h3
      · rename_i hpn
        simp only [Option.bind_eq_some_iff] at h
        obtain ⟨q1, h3, h4⟩ := h
        simp at h4; obtain ⟨rfl, rfl⟩ := h4
        have hq : nx v ∉ dn := by
          intro hq
          cases un with
          | false => exact hr rfl ⟨hp, hq⟩
          | true =>
            obtain ⟨k, iv', hk, he⟩ := (hI.liveR v hv).mpr ⟨hvd, hq⟩
            have hst := (hI.sync.left v iv hrm.was).1
            by_cases hkv : k = v
            · subst hkv
              rw [hrm.was] at hk; simp at hk; subst hk
              simp [Interval.isEnd] at hne
              exact hne (hst.trans he.symm)
            · simp only [if_true] at h2
              have h5 := Status.peekRight_spec hn hrm.sync h2
              cases p with
              | some x => simp at hpn
              | none => exact h5 k iv' (by rw [hrm.at_eq, if_neg hkv, hk]) he
        simpa [Inv', kind] using step_left hc hv hvd hq hI hrm h3
  | none =>
    obtain ⟨rfl, hnl⟩ := Status.removeLeft_none h1
    have hp : pv v ∉ dn := by
      intro hp
      obtain ⟨iv, h⟩ := (hI.live v hv).mpr ⟨hvd, hp⟩
      rw [hnl] at h; simp at h
    simp only [Option.bind_eq_some_iff] at h
    obtain ⟨⟨o, s'⟩, h2, h⟩ := h
    cases o with
    | some iv =>
      obtain ⟨k, hs, hrm, hform⟩ := removeRight_form hI.sync h2
      simp only at h
      split at h
      · simp only [Option.bind_eq_some_iff] at h
        obtain ⟨s1, h2, q1, h3, h4⟩ := h
        simp at h4; obtain ⟨rfl, rfl⟩ := h4
        rw [reinsert hI.sync hrm hform h2] at h3
        simpa [Inv', kind] using step_end hc hv hvd hI h3
      · simp only [Option.bind_eq_some_iff] at h
        obtain ⟨p, h2, h⟩ := h
        split at h
        · simp only [Option.bind_eq_some_iff] at h
          obtain ⟨s1, h2, q1, h3, h4⟩ := h
          simp at h4; obtain ⟨rfl, rfl⟩ := h4
          rw [reinsert hI.sync hrm hform h2] at h3
          simpa [Inv', kind] using step_merge hc hv hvd hI h3
        · simp only [Option.bind_eq_some_iff] at h
          obtain ⟨q1, h3, h4⟩ := h
          simp at h4; obtain ⟨rfl, rfl⟩ := h4
          simpa [Inv', kind] using step_right hc hv hvd hp hI hrm hs h3
    | none =>
      obtain ⟨rfl, hnr⟩ := Status.removeRight_none hn hI.sync h2
      have hq : nx v ∉ dn := by
        intro hq
        obtain ⟨k, iv, h, he⟩ := (hI.liveR v hv).mpr ⟨hvd, hq⟩
        exact hnr k iv h he
      simp only [sweepStartOrSplit, Option.bind_eq_bind, Option.bind_eq_some_iff] at h
      obtain ⟨o, h3, h⟩ := h
      cases o with
      | some q1 =>
        simp at h; obtain ⟨rfl, rfl⟩ := h
        simpa [Inv', kind] using step_split hc hv hvd hp hq hI h3
      | none =>
        simp only [Option.bind_eq_some_iff] at h
        obtain ⟨q1, h4, h⟩ := h
        simp at h; obtain ⟨rfl, rfl⟩ := h
        simpa [Inv', kind] using step_start hc hv hvd hp hq hI h4

include hc hn in
theorem step_event (hv : v < n) (hvd : v ∉ dn) (hty : TypeOk nx pv dn v ty) (hI : Inv' L t0 n nx pv dn q m) {ty' : VType} (h : sweepEvent dbg M find ⟨v, pv v, nx v, ty⟩ q = some (q', ty')) :
    Inv' L t0 n nx pv (v :: dn) q' (m + kind ty') := by
  unfold sweepEvent at h
  cases ty <;> simp only [Option.bind_eq_bind, Option.bind_eq_some_iff] at h
  case start =>
    obtain ⟨q1, h1, h2⟩ := h
    simp at h2; obtain ⟨rfl, rfl⟩ := h2
    simpa [Inv', kind] using step_start hc hv hvd hty.1 hty.2 hI h1
  case split =>
    obtain ⟨o, h1, h2⟩ := h
    cases o with
    | none => simp at h2
    | some q1 =>
      simp at h2; obtain ⟨rfl, rfl⟩ := h2
      simpa [Inv', kind] using step_split hc hv hvd hty.1 hty.2 hI h1
  case merge =>
    obtain ⟨q1, h1, h2⟩ := h
    simp at h2; obtain ⟨rfl, rfl⟩ := h2
    simpa [Inv', kind] using step_merge hc hv hvd hI h1
  case «end» =>
    obtain ⟨q1, h1, h2⟩ := h
    simp at h2; obtain ⟨rfl, rfl⟩ := h2
    simpa [Inv', kind] using step_end hc hv hvd hI h1
  case regular => exact step_regular hc hn hv hvd (fun _ => hty) hI h
  case undecisive => exact step_regular hc hn hv hvd (by simp) hI h
  all_goals simp at h

/-- the events of a polygon: neighbours on the boundary, every vertex once, and types that agree with the order -/
def Events (n : Nat) (nx pv : Nat → Nat) : List Nat → List Event → Prop
  | _, [] => True
  | dn, ev :: evs => ev.here < n ∧ ev.here ∉ dn ∧ ev.prev = pv ev.here ∧ ev.next = nx ev.here ∧ TypeOk nx pv dn ev.here ev.type ∧ Events n nx pv (ev.here :: dn) evs

include hc hn in
theorem step_loop : ∀ (evs : List Event) (dn : List Nat) (q q' : Ctx M.C) (m : Int × Int × Int × Int × Int) (tys : List VType), Events n nx pv dn evs → Inv' L t0 n nx pv dn q m →
    sweepLoop dbg M find evs q = some (q', tys) → Inv' L t0 n nx pv ((evs.map Event.here).reverse ++ dn) q' (m + (tys.map kind).sum) := by
  intro evs
  induction evs with
  | nil =>
    intro dn q q' m tys _ hI h
    simp [sweepLoop] at h
    obtain ⟨rfl, rfl⟩ := h
    simpa using hI
  | cons ev evs ih =>
    intro dn q q' m tys he hI h
    obtain ⟨e1, e2, e3, e4, e5, e6⟩ := he
    simp only [sweepLoop, Option.bind_eq_bind, Option.bind_eq_some_iff] at h
    obtain ⟨⟨q1, ty⟩, h1, ⟨q2, tys'⟩, h2, h3⟩ := h
    simp at h3; obtain ⟨rfl, rfl⟩ := h3
    obtain ⟨v, p, x, ty'⟩ := ev
    simp only at e1 e2 e3 e4 e5 e6 h1
    subst e3; subst e4
    have hI1 := step_event hc hn e1 e2 e5 hI h1
    have := ih _ _ _ _ _ e6 hI1 h2
    simpa [add_assoc] using this
end
end Verif.Geom
