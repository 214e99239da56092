import Verif.Spec.Svg
import Verif.Props.TextMesh
import Verif.Props.PathBuilder
/- C107: importing SVG documents. -/
namespace Verif.MeshProps
open Mesh Geom GeomProps
variable {VP EP FP VP' EP' FP' P P' : Type}

theorem revGo_points : ∀ (l : List (Stroke P × P)) (last : Stroke P), (Contour.revGo l last).1.map Prod.snd = (l.map Prod.snd).reverse := by
  intro l last
  induction l with
  | nil => rfl
  | cons x l ih => simp [Contour.revGo, ih]

theorem revGo_all : ∀ (l : List (Stroke P × P)) (last : Stroke P), (Contour.revGo l last).1.map Prod.fst ++ [(Contour.revGo l last).2] =
    ((l.map Prod.fst ++ [last]).map Stroke.reverse).reverse := by
  intro l last
  induction l with
  | nil => rfl
  | cons x l ih =>
    have : (Contour.revGo (x :: l) last).1.map Prod.fst ++ [(Contour.revGo (x :: l) last).2] =
      ((Contour.revGo l last).1.map Prod.fst ++ [(Contour.revGo l last).2]) ++ [x.1.reverse] := by simp [Contour.revGo]
    rw [this, ih]
    simp

theorem reverse_points (c : Contour P) : c.reverse.points = c.start :: (c.strokes.map Prod.snd).reverse := by
  simp only [Contour.points, Contour.reverse, revGo_points]

theorem reverse_all (c : Contour P) : c.reverse.all = (c.all.map Stroke.reverse).reverse := revGo_all _ _

theorem reverse_reverse (s : Stroke P) : s.reverse.reverse = s := by cases s <;> rfl

theorem length_reverse (c : Contour P) : c.reverse.points.length = c.points.length := by
  rw [reverse_points]; simp [Contour.points]

theorem points_reverse (c : Contour P) {i : Nat} (hi : i < c.points.length) : c.reverse.points[i]? = c.points[(c.points.length - i) % c.points.length]? := by
  rw [reverse_points]
  simp only [Contour.points] at *
  cases i with
  | zero => simp
  | succ i =>
    simp only [List.length_cons, List.length_map] at hi ⊢
    rw [List.getElem?_cons_succ, List.getElem?_reverse (by simpa using hi), Nat.mod_eq_of_lt (by omega), show c.strokes.length + 1 - (i + 1) = (c.strokes.length - 1 - i) + 1 by omega,
      List.getElem?_cons_succ, List.length_map]

theorem all_reverse (c : Contour P) {i : Nat} (hi : i < c.points.length) : c.reverse.all[i]? = (c.all[c.points.length - 1 - i]?).map Stroke.reverse := by
  have h : c.all.length = c.points.length := by simp [Contour.all, Contour.points]
  rw [reverse_all, List.getElem?_reverse (by simpa [h] using hi), List.getElem?_map, List.length_map, h]

/-- a filled path is the ring of the contour in the other direction -/
theorem filled_inked {K : Kit VP EP P} {m m' : Mesh VP EP FP} {c : Contour P} {fp : FP} {F : Nat} {v f b : Nat → Nat}
    (h : Filled K m m' c.points c.all fp F v f b) : Inked K fp m m' c.reverse := by
  have pos : 0 < c.points.length := by simp [Contour.points]
  have C := h.cycle
  have hlen := length_reverse c
  have hN : ∀ i, i < c.points.length → c.points.length - 1 - i < c.points.length := fun i hi => by omega
  refine ⟨h.good, fun _ => K.de, fun i => strokePays K c.all (c.points.length - 1 - i), fun i => v ((c.points.length - i) % c.points.length), fun i => b (c.points.length - 1 - i),
    fun i => f (c.points.length - 1 - i), F, ?_, ?_⟩
  · rw [hlen]
    have hm : ∀ i, (c.points.length - i) % c.points.length < c.points.length := fun i => Nat.mod_lt _ pos
    -- the index of the vertex before
    have mod0 : ∀ i, i < c.points.length → (c.points.length - i) % c.points.length = if i = 0 then 0 else c.points.length - i := by
      intro i hi
      split
      · subst_vars; simp
      · exact Nat.mod_eq_of_lt (by omega)
    have succ0 : ∀ i, i < c.points.length → (i + 1) % c.points.length = if i + 1 = c.points.length then 0 else i + 1 := by
      intro i hi
      split
      · rename_i h; rw [h, Nat.mod_self]
      · exact Nat.mod_eq_of_lt (by omega)
    have pred0 : ∀ i, i < c.points.length → (i + (c.points.length - 1)) % c.points.length = if i = 0 then c.points.length - 1 else i - 1 := by
      intro i hi
      split
      · subst_vars; rw [Nat.zero_add]; exact Nat.mod_eq_of_lt (by omega)
      · rw [show i + (c.points.length - 1) = i - 1 + c.points.length by omega, Nat.add_mod_right]; exact Nat.mod_eq_of_lt (by omega)
    constructor
    · intro i hi; exact C.freshV _ (hm i)
    · intro i hi; exact C.freshB _ (hN i hi)
    · intro i hi; exact C.freshF _ (hN i hi)
    · intro i hi j hj e
      have := C.injV _ (hm i) _ (hm j) e
      rw [mod0 i hi, mod0 j hj] at this
      split at this <;> split at this <;> omega
    · intro i hi j hj e; have := C.injB _ (hN i hi) _ (hN j hj) e; omega
    · intro i hi j hj e; have := C.injF _ (hN i hi) _ (hN j hj) e; omega
    · intro i hi j hj e; exact C.disj _ (hN j hj) _ (hN i hi) e.symm
    · intro i hi
      obtain ⟨q, e, h1, h2⟩ := C.newV _ (hm i)
      exact ⟨q, e, by rw [pointPays, points_reverse c hi]; exact h1, h2⟩
    · intro i hi
      rw [C.newB _ (hN i hi)]
      have e1 : (c.points.length - 1 - i + (c.points.length - 1)) % c.points.length = c.points.length - 1 - (i + 1) % c.points.length := by
        rw [pred0 _ (hN i hi), succ0 i hi]; split <;> split <;> omega
      have e2 : (c.points.length - 1 - i + 1) % c.points.length = c.points.length - 1 - (i + (c.points.length - 1)) % c.points.length := by
        rw [succ0 _ (hN i hi), pred0 i hi]; split <;> split <;> omega
      have e3 : (c.points.length - 1 - i + 1) % c.points.length = (c.points.length - i) % c.points.length := by rw [show c.points.length - 1 - i + 1 = c.points.length - i by omega]
      rw [e1]
      nth_rw 1 [e2]
      rw [e3]
    · intro i hi
      rw [C.newF _ (hN i hi)]
      have e1 : (c.points.length - 1 - i + (c.points.length - 1)) % c.points.length = c.points.length - 1 - (i + 1) % c.points.length := by
        rw [pred0 _ (hN i hi), succ0 i hi]; split <;> split <;> omega
      have e2 : (c.points.length - 1 - i + 1) % c.points.length = c.points.length - 1 - (i + (c.points.length - 1)) % c.points.length := by
        rw [succ0 _ (hN i hi), pred0 i hi]; split <;> split <;> omega
      have e3 : c.points.length - 1 - i = (c.points.length - (i + 1) % c.points.length) % c.points.length := by
        rw [mod0 _ (Nat.mod_lt _ pos), succ0 i hi]; split <;> (try split) <;> omega
      rw [e1, e2, ← e3]
    · intro x hx
      refine C.edges x fun i hi => ?_
      have := hx (c.points.length - 1 - i) (hN i hi)
      rw [show c.points.length - 1 - (c.points.length - 1 - i) = i by omega] at this
      exact ⟨this.2, this.1⟩
    · intro x hx
      refine C.vertices x fun i hi => ?_
      have := hx ((c.points.length - i) % c.points.length) (hm i)
      have e : (c.points.length - (c.points.length - i) % c.points.length) % c.points.length = i := by
        rw [mod0 _ (hm i), mod0 i hi]; split <;> split <;> omega
      rwa [e] at this
    · exact h.fresh
    · refine ⟨c.points.length - 1, by omega, ?_⟩
      rw [h.face, Nat.sub_self]
    · exact h.faces
  · intro i s hs
    have hi : i < c.points.length := by
      have := (List.getElem?_eq_some_iff.mp hs).1
      rw [← hlen]
      simpa [Contour.all, Contour.points] using this
    rw [all_reverse c hi] at hs
    obtain ⟨s', h1, rfl⟩ := Option.map_eq_some_iff.mp hs
    right
    refine ⟨rfl, ?_⟩
    simp only [strokePays, h1, reverse_reverse, Option.elim_some]

/-- the points between `p` and `q` -/
def between (flat : Curve P → P → P → Option (List P)) : P → List (Stroke P × P) → Stroke P → P → List P
  | p, [], last, q => last.inner flat p q
  | p, (s, r) :: l, last, q => s.inner flat p r ++ r :: between flat r l last q

theorem polyFrom_between (flat : Curve P → P → P → Option (List P)) (c : Contour P) : ∀ (l : List (Stroke P × P)) (p : P), c.polyFrom flat p l = p :: between flat p l c.last c.start := by
  intro l
  induction l with
  | nil => intro p; rfl
  | cons x l ih => intro p; rw [Contour.polyFrom, ih, between]; rfl

theorem between_append (flat : Curve P → P → P → Option (List P)) (s : Stroke P) (r : P) (last : Stroke P) (q : P) : ∀ (l : List (Stroke P × P)) (p : P),
    between flat p (l ++ [(s, r)]) last q = between flat p l s r ++ r :: last.inner flat r q := by
  intro l
  induction l with
  | nil => intro p; rfl
  | cons x l ih => intro p; simp [between, ih]

theorem inner_reverse {flat : Curve P → P → P → Option (List P)} (hr : Reversible flat) (s : Stroke P) (a b : P) : s.reverse.inner flat b a = (s.inner flat a b).reverse := by
  have h1 : s.reverse.curve.isLinear = s.curve.isLinear := by cases s <;> rfl
  rw [Stroke.inner, Stroke.inner, h1, hr s a b]
  split
  · rfl
  · cases flat s.curve a b <;> rfl

theorem between_reverse {flat : Curve P → P → P → Option (List P)} (hr : Reversible flat) (last : Stroke P) (q : P) : ∀ (l : List (Stroke P × P)) (p : P),
    between flat q (Contour.revGo l last).1 (Contour.revGo l last).2 p = (between flat p l last q).reverse := by
  intro l
  induction l with
  | nil => intro p; exact inner_reverse hr last p q
  | cons x l ih =>
    intro p
    obtain ⟨s, r⟩ := x
    rw [Contour.revGo, between_append, ih, inner_reverse hr, between]
    simp

/-- **C107**: the polygon of the contour in the other direction is the polygon in the other direction, from the same start. -/
theorem c107_reverse {flat : Curve P → P → P → Option (List P)} (hr : Reversible flat) (c : Contour P) :
    c.reverse.polyline flat = c.start :: (c.polyline flat).tail.reverse ∧ c.reverse.polyline flat ~r (c.polyline flat).reverse := by
  have h : c.reverse.polyline flat = c.start :: (c.polyline flat).tail.reverse := by
    rw [Contour.polyline, Contour.polyline, polyFrom_between, polyFrom_between, List.tail_cons]
    exact congrArg (c.start :: ·) (between_reverse hr c.last c.start c.strokes c.start)
  refine ⟨h, ?_⟩
  rw [h, Contour.polyline, polyFrom_between, List.tail_cons, List.reverse_cons]
  exact ⟨1, by simp⟩

/-- **C107, one path** -/
theorem c107_path [DecidableEq P] {m : Mesh VP EP FP} (g : m.Good) (dbg : Bool) {K : Kit VP EP P} (hK : ∀ p, K.pos (K.fromPos p) = p) (df : FP) {segs : List (Seg P)} {c : Contour P} (ht : TracesLoop segs c)
    (hc : c.Proper) : ∃ m', importPath dbg K df m segs = some m' ∧ Inked K df m m' c.reverse := by
  obtain ⟨m', F, v, f, b, h1, h2, h3⟩ := c85_svg_loop_partial g dbg K hK c.start c.strokes hc.1 hc.2 c.last df
  refine ⟨m', ?_, filled_inked h3⟩
  rcases ht with rfl | rfl
  · exact h1
  · exact h2

/-- one leaf of the document -/
def importLeaf [DecidableEq P] (dbg : Bool) (K : Kit VP EP P) (df : FP) (m : Mesh VP EP FP) : SvgLeaf P → Option (Mesh VP EP FP)
  | .path visible _ segs => if visible then importPath dbg K df m segs else some m
  | .other => none

mutual
theorem importNode_leaves [DecidableEq P] (dbg : Bool) (K : Kit VP EP P) (df : FP) : ∀ (n : SvgNode P) (m : Mesh VP EP FP),
    importNode dbg K df m n = n.leaves.foldlM (importLeaf dbg K df) m
  | .group cs, m => by rw [importNode, SvgNode.leaves]; exact importNodes_leaves dbg K df cs m
  | .path b t s, m => by
    rw [importNode, SvgNode.leaves, List.foldlM_cons, importLeaf]
    cases (if b = true then importPath dbg K df m s else some m) <;> rfl
  | .text, m => by rw [importNode, SvgNode.leaves]; rfl
  | .image, m => by rw [importNode, SvgNode.leaves]; rfl
theorem importNodes_leaves [DecidableEq P] (dbg : Bool) (K : Kit VP EP P) (df : FP) : ∀ (ns : List (SvgNode P)) (m : Mesh VP EP FP),
    importNodes dbg K df m ns = (SvgNode.leavesAll ns).foldlM (importLeaf dbg K df) m
  | [], m => by rw [importNodes, SvgNode.leavesAll]; rfl
  | n :: ns, m => by
    rw [importNodes, SvgNode.leavesAll, List.foldlM_append, importNode_leaves dbg K df n m]
    congr 1
    funext m1
    exact importNodes_leaves dbg K df ns m1
end

theorem inkedAll_good {K : Kit VP EP P} {fp : FP} : ∀ (cs : List (Contour P)) {m m' : Mesh VP EP FP}, m.Good → InkedAll K fp cs m m' → m'.Good := by
  intro cs
  induction cs with
  | nil => rintro m m' g rfl; exact g
  | cons c cs ih => rintro m m' g ⟨m1, h1, h2⟩; exact ih h1.1 h2

/-- a leaf that is drawn right: not visible, or a closed path that explicitly returns to its start and that the transformation leaves where it is -/
def PlainLeaf : SvgLeaf P → List (Contour P) → Prop
  | .path true t segs, cs => ∃ c, TracesLoop segs c ∧ c.Proper ∧ c.map t = c ∧ cs = [c.map t]
  | .path false _ _, cs => cs = []
  | .other, _ => False

theorem PlainLeaf.shows {x : SvgLeaf P} {cs : List (Contour P)} (h : PlainLeaf x cs) : x.Shows cs := by
  match x, h with
  | .path true t segs, ⟨c, h1, _, _, h4⟩ => exact ⟨c, h1, h4⟩
  | .path false t segs, h => exact h

theorem leaf_inked [DecidableEq P] {m : Mesh VP EP FP} (g : m.Good) (dbg : Bool) {K : Kit VP EP P} (hK : ∀ p, K.pos (K.fromPos p) = p) (df : FP) {x : SvgLeaf P} {cs : List (Contour P)}
    (h : PlainLeaf x cs) : ∃ m', importLeaf dbg K df m x = some m' ∧ InkedAll K df (cs.map Contour.reverse) m m' := by
  match x, h with
  | .path true t segs, ⟨c, h1, h2, h3, h4⟩ =>
    subst h4
    obtain ⟨m', a1, a2⟩ := c107_path g dbg hK df h1 h2
    refine ⟨m', by rw [importLeaf, if_pos rfl, a1], ?_⟩
    rw [h3]
    exact ⟨m', a2, rfl⟩
  | .path false t segs, h =>
    obtain rfl : cs = [] := h
    exact ⟨m, rfl, rfl⟩

theorem leaves_inked [DecidableEq P] (dbg : Bool) {K : Kit VP EP P} (hK : ∀ p, K.pos (K.fromPos p) = p) (df : FP) {ls : List (SvgLeaf P)} {css : List (List (Contour P))}
    (h : List.Forall₂ PlainLeaf ls css) : ∀ {m : Mesh VP EP FP}, m.Good → ∃ m', ls.foldlM (importLeaf dbg K df) m = some m' ∧ InkedAll K df (css.flatten.map Contour.reverse) m m' := by
  induction h with
  | nil => intro m g; exact ⟨m, rfl, rfl⟩
  | cons h _ ih =>
    intro m g
    obtain ⟨m1, a1, a2⟩ := leaf_inked g dbg hK df h
    obtain ⟨m', b1, b2⟩ := ih (inkedAll_good _ g a2)
    refine ⟨m', by rw [List.foldlM_cons, a1]; exact b1, ?_⟩
    rw [List.flatten_cons, List.map_append]
    exact inkedAll_append _ _ a2 b2

/-- **C107** (partial): a document whose visible paths are closed curves of at least three segments that explicitly return to their start, and whose transformations leave these paths where they are,
adds exactly these contours, in the order of the document, as filled polygons (which run in the opposite direction). What is missing: other transformations (`c107_transform_violated`), paths that
leave the return to the start to `Z` (`c107_open_panics`), paths of several contours (`c107_subpaths_panic`), texts and images (`c107_other_panics`). -/
theorem c107_document_partial [DecidableEq P] {m : Mesh VP EP FP} (g : m.Good) (dbg : Bool) {K : Kit VP EP P} (hK : ∀ p, K.pos (K.fromPos p) = p) (df : FP) (root : List (SvgNode P))
    {css : List (List (Contour P))} (h : List.Forall₂ PlainLeaf (SvgNode.leavesAll root) css) :
    List.Forall₂ SvgLeaf.Shows (SvgNode.leavesAll root) css ∧
      ∃ m', importSvg dbg K df m root = some m' ∧ m'.Good ∧ InkedAll K df (css.flatten.map Contour.reverse) m m' := by
  refine ⟨h.imp fun _ _ => PlainLeaf.shows, ?_⟩
  obtain ⟨m', h1, h2⟩ := leaves_inked dbg hK df h g
  exact ⟨m', by rw [importSvg, importNodes_leaves, h1], inkedAll_good _ g h2, h2⟩

theorem foldlM_none {α β : Type} {f : β → α → Option β} {x : α} (hx : ∀ b, f b x = none) : ∀ {l : List α} (b : β), x ∈ l → l.foldlM f b = none := by
  intro l
  induction l with
  | nil => intro b h; cases h
  | cons y l ih =>
    intro b h
    rw [List.foldlM_cons]
    rcases List.mem_cons.mp h with rfl | h
    · rw [hx]; rfl
    · cases hb : f b y with
      | none => rfl
      | some b' => exact ih b' h

/-- **C107, violated**: a text or an image anywhere in the document makes the import panic. -/
theorem c107_other_panics [DecidableEq P] (m : Mesh VP EP FP) (dbg : Bool) (K : Kit VP EP P) (df : FP) (root : List (SvgNode P)) (h : SvgLeaf.other ∈ SvgNode.leavesAll root) :
    importSvg dbg K df m root = none := by
  rw [importSvg, importNodes_leaves]
  exact foldlM_none (fun _ => rfl) m h

/-- **C107, violated**: a visible path of more than one contour, for example a ring, anywhere in the document makes the import panic. -/
theorem c107_subpaths_panic [DecidableEq P] (m : Mesh VP EP FP) (dbg : Bool) (K : Kit VP EP P) (df : FP) (root : List (SvgNode P)) {t : P → P} {s : Seg P} {ss : List (Seg P)} {p : P}
    (hp : Seg.moveTo p ∈ ss) (h : SvgLeaf.path true t (s :: ss) ∈ SvgNode.leavesAll root) : importSvg dbg K df m root = none := by
  rw [importSvg, importNodes_leaves]
  exact foldlM_none (fun m => by rw [importLeaf, if_pos rfl]; exact c85_svg_subpaths_panic m dbg K df s ss p hp) m h

/-- **C107, violated**: the first visible path that leaves the return to its start to `Z` makes the import panic. -/
theorem c107_open_panics [DecidableEq P] {m : Mesh VP EP FP} (g : m.Good) (dbg : Bool) {K : Kit VP EP P} (hK : ∀ p, K.pos (K.fromPos p) = p) (df : FP) (root : List (SvgNode P))
    {ls rest : List (SvgLeaf P)} {css : List (List (Contour P))} (hl : List.Forall₂ PlainLeaf ls css) {t : P → P} {p0 : P} {l : List (Stroke P × P)} (hne : l ≠ []) (hp : ∀ x ∈ l, x.2 ≠ p0)
    (h : SvgNode.leavesAll root = ls ++ .path true t (.moveTo p0 :: (l.map (fun x => x.1.seg x.2) ++ [.close])) :: rest) : importSvg dbg K df m root = none := by
  obtain ⟨m1, h1, h2⟩ := leaves_inked dbg hK df hl g
  have := (c85_svg_open_panics (inkedAll_good _ g h2) dbg K hK p0 l hne hp df).2
  rw [importSvg, importNodes_leaves, h, List.foldlM_append, h1]
  show List.foldlM _ m1 _ = none
  rw [List.foldlM_cons, importLeaf, if_pos rfl, this]
  rfl

/-- the transformation of a path does not matter -/
theorem c107_transform_ignored [DecidableEq P] (m : Mesh VP EP FP) (dbg : Bool) (K : Kit VP EP P) (df : FP) (b : Bool) (t t' : P → P) (segs : List (Seg P)) :
    importNode dbg K df m (.path b t segs) = importNode dbg K df m (.path b t' segs) := by
  rw [importNode, importNode]

/-- **C107, violated**: a path with a transformation that moves its start away from its points is drawn where it was: no polygon that starts where it should is drawn. -/
theorem c107_transform_violated [DecidableEq P] (dbg : Bool) {K : Kit VP EP P} (hK : ∀ p, K.pos (K.fromPos p) = p) (df : FP) {t : P → P} {segs : List (Seg P)} {c : Contour P} (ht : TracesLoop segs c)
    (hc : c.Proper) (hmv : t c.start ∉ c.points) :
    ∃ m', importSvg dbg K df (Mesh.empty : Mesh VP EP FP) [.path true t segs] = some m' ∧ m'.Good ∧ ∀ c' : Contour P, t c.start ∈ c'.points → ¬ Inked K df Mesh.empty m' c' := by
  obtain ⟨m', h1, h2⟩ := c107_path (m := (Mesh.empty : Mesh VP EP FP)) good_empty dbg hK df ht hc
  refine ⟨m', ?_, h2.1, ?_⟩
  · rw [importSvg, importNodes_leaves, SvgNode.leavesAll, SvgNode.leaves, SvgNode.leavesAll, List.append_nil, List.foldlM_cons, importLeaf, if_pos rfl, h1]
    rfl
  · rintro c' hc' ⟨-, ef, eb, v, f, b, F, R, -⟩
    obtain ⟨-, ef', eb', v', f', b', F', R', -⟩ := h2
    obtain ⟨i, hi⟩ := List.mem_iff_getElem?.mp hc'
    have hi' := (List.getElem?_eq_some_iff.mp hi).1
    obtain ⟨q, e, q1, q2⟩ := R.newV i hi'
    rw [pointPays, hi, Option.map_some, Option.some.injEq] at q1
    by_cases hv : ∃ j < c.reverse.points.length, v i = v' j
    · obtain ⟨j, hj, ej⟩ := hv
      obtain ⟨q', e', q3, q4⟩ := R'.newV j hj
      rw [← ej, q2] at q4
      injection q4 with q4
      injection q4 with _ q5
      obtain ⟨a, ha1, ha2⟩ := Option.map_eq_some_iff.mp q3
      have : a = t c.start := by
        have := congrArg K.pos (ha2.trans (q5.symm.trans q1.symm))
        rwa [hK, hK] at this
      subst this
      apply hmv
      have := List.mem_of_getElem? ha1
      rw [reverse_points] at this
      simpa [Contour.points] using this
    · have := R'.vertices (v i) (fun j hj e => hv ⟨j, hj, e⟩)
      rw [q2] at this
      exact absurd this.symm (by simp [Mesh.vertex, Mesh.empty, Store.empty, Store.get?])

variable {S : Type} [Field S] [LinearOrder S] [IsStrictOrderedRing S] [Archimedean S] [AddCommGroup P] [Module S P] [DecidableEq P] {K : Kit VP EP P} {C : CurveKit VP EP P}

/-- **C107** (partial): such a document, imported, flattened and converted to a mesh without curves, gives a consistent mesh whose faces are exactly the contours, with the points of the polylines as
corners, in the opposite direction. -/
theorem c107_mesh_partial (law : C.Lawful) (R : K.Reads C) (hK : ∀ p, K.pos (K.fromPos p) = p) {N : P → S} (hN : IsLength N) {tol : S} (htol : 0 < tol) (dbg : Bool) (df : FP) (root : List (SvgNode P))
    {css : List (List (Contour P))} (h : List.Forall₂ PlainLeaf (SvgNode.leavesAll root) css)
    (fv : VP → VP') (pos' : VP' → P') (up : P → P') (hup : ∀ x, pos' (fv x) = up (C.pos x)) (de' : EP') (df' : FP') :
    ∃ m1 depth, importSvg dbg K df Mesh.empty root = some m1 ∧ ∀ fuel ≥ depth, ∃ m' Fs, m1.toNd dbg C (casteljau N tol fuel) fv de' df' = some m' ∧ m'.Good ∧ m'.NoGaps ∧
      Fs.Nodup ∧ (∀ F, m'.topo.F F ↔ F ∈ Fs) ∧
      List.Forall₂ (fun c F => HasCorners pos' m' ((c.reverse.polyline (casteljau N tol fuel)).map up) F) css.flatten Fs := by
  obtain ⟨-, m1, h1, -, h3⟩ := c107_document_partial (m := (Mesh.empty : Mesh VP EP FP)) good_empty dbg hK df root h
  obtain ⟨depth, hd⟩ := c102_ends hN htol C m1
  refine ⟨m1, depth, h1, fun fuel hf => ?_⟩
  obtain ⟨m', Fs, k1, k2, k3, k4, k5, k6⟩ := c103_contours_partial law R (c103_reversible N tol fuel) dbg h3 (hd fuel hf) fv pos' up hup de' df'
  refine ⟨m', Fs, k1, k2, k3, k4, k5, ?_⟩
  rw [List.forall₂_map_left_iff] at k6
  exact k6

end Verif.MeshProps
namespace Verif.R3
open Mesh Geom MeshProps GeomProps
variable {VP EP FP VP' EP' FP' P W : Type}

/-- **C107** (partial): and triangulating it shows these polygons, if they are planar, simple and not too small. -/
theorem c107_export_partial {S : Type} [Field S] [LinearOrder S] [IsStrictOrderedRing S] [Archimedean S] [AddCommGroup P] [Module S P] [DecidableEq P] {K : Kit VP EP P} {C : CurveKit VP EP P}
    [LinearOrder W] [AddCommMonoid W] [IsOrderedAddMonoid W] {Z : Numerics W} (he : 0 < Z.eps) (h0 : Z.diag = 0) (hw : ∀ l, Symm3 (Z.wt l))
    (law : C.Lawful) (R : K.Reads C) (hK : ∀ p, K.pos (K.fromPos p) = p) {N : P → S} (hN : IsLength N) {tol : S} (ht : 0 < tol) (dbg : Bool) (df : FP) (root : List (SvgNode P))
    {css : List (List (Contour P))} (h : List.Forall₂ PlainLeaf (SvgNode.leavesAll root) css)
    (fv : VP → VP') (pos' : VP' → V3) (up : P → V3) (hup : ∀ x, pos' (fv x) = up (C.pos x)) (de' : EP') (df' : FP') (del : Nat → Triangulation → Outcome Triangulation) (dflt : VP') :
    ∃ m1 depth, importSvg dbg K df Mesh.empty root = some m1 ∧ ∀ fuel ≥ depth,
      (∀ c ∈ css.flatten, Fine Z ((c.reverse.polyline (casteljau N tol fuel)).map up)) →
      ∃ m' Fs idx buf, m1.toNd dbg C (casteljau N tol fuel) fv de' df' = some m' ∧
        triangulateMesh (fun f => triangulateFace Z dbg pos' m' f (del f) .minWeight) m' dflt = .done (idx, buf) ∧ Shows pos' m' m'.faceIds idx buf ∧
        Fs.Nodup ∧ (∀ F, F ∈ m'.faceIds ↔ F ∈ Fs) ∧
        List.Forall₂ (fun c F => HasCorners pos' m' ((c.reverse.polyline (casteljau N tol fuel)).map up) F) css.flatten Fs := by
  obtain ⟨m1, depth, h1, h2⟩ := c107_mesh_partial law R hK hN ht dbg df root h fv pos' up hup de' df'
  refine ⟨m1, depth, h1, fun fuel hf fit => ?_⟩
  obtain ⟨m', Fs, k1, k2, k3, k4, k5, k6⟩ := h2 fuel hf
  obtain ⟨idx, buf, q1, q2, -⟩ := export_corners (ls := css.flatten.map fun c => (c.reverse.polyline (casteljau N tol fuel)).map up) he h0 hw dbg k2 k3 k5
    (by rw [List.forall₂_map_left_iff]; exact k6)
    (by
      intro l hl l' hr
      obtain ⟨c, hc, rfl⟩ := List.mem_map.mp hl
      exact ((fit c hc).rotated hr).fit) del dflt
  exact ⟨m', Fs, idx, buf, k1, q1, q2, k4, fun F => mem_faceIds.trans (k5 F), k6⟩

/-- a bar, an invisible path, and a group with a bow that ends with `Z` -/
def svgDoc : List (SvgNode (ℚ × ℚ)) :=
  [.path true id (.moveTo (0, 0) :: .lineTo (2, 0) :: .lineTo (2, 4) :: .lineTo (0, 4) :: .lineTo (0, 0) :: []), .path false id [],
    .group [.group [.path true id (.moveTo (0, 0) :: .quadTo (4, 4) (4, 0) :: .lineTo (0, -4) :: .quadTo (-4, -2) (0, 0) :: .close :: [])], .group []]]

theorem svgDoc_plain : List.Forall₂ PlainLeaf (SvgNode.leavesAll svgDoc) [[bar 0], [], [bow]] := by
  have h1 : ∀ c : Contour (ℚ × ℚ), c.map id = c := by
    rintro ⟨p, l, s⟩
    have hs : ∀ s : Stroke (ℚ × ℚ), s.map id = s := by intro s; cases s <;> rfl
    simp [Contour.map, hs]
  refine .cons ⟨bar 0, Or.inl ?_, ⟨by simp [bar], ?_⟩, h1 _, ?_⟩ (.cons rfl (.cons ⟨bow, Or.inr ?_, ⟨by simp [bow], ?_⟩, h1 _, ?_⟩ .nil))
  · simp [bar, Stroke.seg]
  · decide +kernel
  · rw [h1]
  · simp [bow, Stroke.seg]
  · decide +kernel
  · rw [h1]

example (dbg : Bool) : ∃ m1 depth, importSvg dbg (inkKit (ℚ × ℚ)) () (Mesh.empty : Mesh _ _ Unit) svgDoc = some m1 ∧ ∀ fuel ≥ depth, ∃ m' F1 F2,
    m1.toNd dbg ratKit (casteljau l1 1 fuel) lift3 () () = some m' ∧ m'.Good ∧ F1 ≠ F2 ∧ (∀ F, m'.topo.F F ↔ F = F1 ∨ F = F2) ∧
    HasCorners id m' (((bar 0).reverse.polyline (casteljau l1 1 fuel)).map lift3) F1 ∧ HasCorners id m' ((bow.reverse.polyline (casteljau l1 1 fuel)).map lift3) F2 := by
  obtain ⟨m1, depth, h1, h2⟩ := c107_mesh_partial (FP := Unit) ratKit_lawful ink_reads (fun _ => rfl) l1_length (tol := 1) (by norm_num) dbg () svgDoc svgDoc_plain
    lift3 id lift3 (fun _ => rfl) () ()
  refine ⟨m1, depth, h1, fun fuel hf => ?_⟩
  obtain ⟨m', Fs, k1, k2, -, k4, k5, k6⟩ := h2 fuel hf
  simp only [List.flatten_cons, List.flatten_nil, List.append_nil, List.nil_append, List.singleton_append] at k6
  match Fs, k6 with
  | [F1, F2], .cons a (.cons b .nil) =>
    refine ⟨m', F1, F2, k1, k2, ?_, fun F => (k5 F).trans (by simp), a, b⟩
    rintro rfl
    simp at k4

-- the polygon of the bow, from the same start in the other direction
example : bow.reverse.polyline (casteljau l1 1 5) = [(0, 0), (-2, -2), (0, -4), (4, 0), (3, 2)] := by decide +kernel

-- a triangle moved by 10 is drawn at the origin
example (dbg : Bool) : ∃ m', importSvg dbg (inkKit (ℚ × ℚ)) () (Mesh.empty : Mesh _ _ Unit)
      [.path true (fun p => (p.1 + 10, p.2)) [.moveTo (0, 0), .lineTo (2, 0), .lineTo (2, 4), .lineTo (0, 4), .lineTo (0, 0)]] = some m' ∧ m'.Good ∧
    ∀ c' : Contour (ℚ × ℚ), (10, 0) ∈ c'.points → ¬ Inked (inkKit (ℚ × ℚ)) () Mesh.empty m' c' := by
  have := c107_transform_violated (FP := Unit) (K := inkKit (ℚ × ℚ)) dbg (fun _ => rfl) () (t := fun p => (p.1 + 10, p.2)) (c := bar 0) (segs := [.moveTo (0, 0), .lineTo (2, 0), .lineTo (2, 4), .lineTo (0, 4), .lineTo (0, 0)])
    (Or.inl (by simp [bar, Stroke.seg])) ⟨by simp [bar], by decide +kernel⟩ (by decide +kernel)
  simpa [bar] using this

end Verif.R3
