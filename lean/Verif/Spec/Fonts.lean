import Verif.Model.Fonts
import Verif.Spec.PathBuilder
import Verif.Spec.Builder
/- What drawing a text should give: one polygon per contour, with the curves of the outline on its edges. -/
namespace Verif
variable {VP EP FP P S G : Type}

namespace Mesh

/-- `m'` is `m` with one new polygon: a cycle `v 0, …, v (n-1)`; `f i` runs from `v i` to the next vertex and belongs to the new
    face `F`, `b i` runs back and has no face; they carry the payloads `ef i` and `eb i`.  Everything else is unchanged. -/
structure Ring (m m' : Mesh VP EP FP) (ef eb : Nat → EP) (p : Nat → Option VP) (n : Nat) (v f b : Nat → Nat) (F : Nat) (fp : FP) : Prop where
  freshV : ∀ i < n, m.vertex (v i) = none
  freshF : ∀ i < n, m.edge (f i) = none
  freshB : ∀ i < n, m.edge (b i) = none
  injV : ∀ i < n, ∀ j < n, v i = v j → i = j
  injF : ∀ i < n, ∀ j < n, f i = f j → i = j
  injB : ∀ i < n, ∀ j < n, b i = b j → i = j
  disj : ∀ i < n, ∀ j < n, f i ≠ b j
  newV : ∀ i < n, ∃ q e, p i = some q ∧ m'.vertex (v i) = some ⟨some e, q⟩
  newF : ∀ i < n, m'.edge (f i) = some
    { next := f ((i + 1) % n), twin := b i, prev := f ((i + (n - 1)) % n), origin := v i, face := some F, payload := ef i }
  newB : ∀ i < n, m'.edge (b i) = some
    { next := b ((i + (n - 1)) % n), twin := f i, prev := b ((i + 1) % n), origin := v ((i + 1) % n), face := none, payload := eb i }
  edges : ∀ x, (∀ i < n, x ≠ f i ∧ x ≠ b i) → m'.edge x = m.edge x
  vertices : ∀ x, (∀ i < n, x ≠ v i) → m'.vertex x = m.vertex x
  freshFace : m.face F = none
  face : ∃ i < n, m'.face F = some { edge := f i, curved := false, payload := fp }
  faces : ∀ x, x ≠ F → m'.face x = m.face x

end Mesh

namespace Stroke

/-- the same curve from its end to its start -/
def reverse : Stroke P → Stroke P
  | line => line
  | quad c => quad c
  | cubic c1 c2 => cubic c2 c1

/-- the stroke with its control points moved -/
def map (h : P → P) : Stroke P → Stroke P
  | line => line
  | quad c => quad (h c)
  | cubic c1 c2 => cubic (h c1) (h c2)

/-- the stroke from `p` to `q` as a curve of an outline -/
def outline : Stroke P → P → P → Outline P
  | line, p, q => .line p q
  | quad c, p, q => .quad p c q
  | cubic c1 c2, p, q => .cubic p c1 c2 q

end Stroke

/-- A closed contour: from `start` along `strokes`, and `last` back to the start. -/
structure Contour (P : Type) where
  start : P
  strokes : List (Stroke P × P)
  last : Stroke P

namespace Contour

def points (c : Contour P) : List P := c.start :: c.strokes.map Prod.snd

def all (c : Contour P) : List (Stroke P) := c.strokes.map Prod.fst ++ [c.last]

def map (h : P → P) (c : Contour P) : Contour P := ⟨h c.start, c.strokes.map (fun x => (x.1.map h, h x.2)), c.last.map h⟩

/-- the curves of the contour from point `p` on -/
def curvesFrom (c : Contour P) : P → List (Stroke P × P) → List (Outline P)
  | p, [] => [c.last.outline p c.start]
  | p, (s, q) :: l => s.outline p q :: curvesFrom c q l

/-- the contour as it stands in the outline of a glyph -/
def curves (c : Contour P) : List (Outline P) := c.curvesFrom c.start c.strokes

/-- at least three curves, and the contour does not pass through its start in between -/
def Proper (c : Contour P) : Prop := 2 ≤ c.strokes.length ∧ ∀ x ∈ c.strokes, x.2 ≠ c.start

end Contour

/-- the two half-edges of an edge carry the stroke: on the half-edge that runs along it, or reversed on the other one -/
def Carries (K : Kit VP EP P) (s : Stroke P) (a b : EP) : Prop :=
  (a = s.pay K ∧ b = K.de) ∨ (a = K.de ∧ b = s.reverse.pay K)

/-- `m'` is `m` with the contour drawn as a filled polygon -/
def Inked (K : Kit VP EP P) (fp : FP) (m m' : Mesh VP EP FP) (c : Contour P) : Prop :=
  m'.Good ∧ ∃ ef eb v f b F, m.Ring m' ef eb (pointPays K c.points) c.points.length v f b F fp ∧
    ∀ i s, c.all[i]? = some s → Carries K s (ef i) (eb i)

/-- `m'` is `m` with the contours drawn one after the other -/
def InkedAll (K : Kit VP EP P) (fp : FP) : List (Contour P) → Mesh VP EP FP → Mesh VP EP FP → Prop
  | [], m, m' => m' = m
  | c :: cs, m, m' => ∃ m1, Inked K fp m m1 c ∧ InkedAll K fp cs m1 m'

/-- where glyph number `i` of the text starts: the sum of the advances of the glyphs before it and of the kerns up to it -/
def penPos [AddCommMonoid S] (F : FontData G P S) (text : List G) (i : Nat) : S :=
  ((text.take i).map F.advance).sum + ((text.zip text.tail).take i |>.map fun x => F.kern x.1 x.2).sum

/-- the contours of glyph number `i`, where they should be -/
def textContours [AddCommMonoid S] [SMul S P] [Add P] (F : FontData G P S) (fromX : S → P) (contours : G → List (Contour P)) (text : List G) :
    List (Contour P) :=
  text.zipIdx.flatMap fun gi => (contours gi.1).map (Contour.map fun p => F.scale • p + fromX (penPos F text gi.2))

end Verif
