import Verif.Model.PathBuilder
import Mathlib.Algebra.Module.Basic
import Mathlib.Algebra.Field.Basic
/-
Model of the drawing of text (/repo/src/mesh/mesh/fonts.rs).

* The crate `ab_glyph` reads the font file; a font is what it returns: the outline of a glyph (a list of curves), advances and kerns,
  both already multiplied by the scale of the font, and the factor by which outlines are multiplied (fonts.rs:90-96).
* Payloads are described by a `Kit` (`Model/PathBuilder.lean`); points are elements of a module, `fromX` is `Vector::from_x`.
* `IndexType::max()` as a vertex is `none`.  The conversion of `f32` to the scalar of the mesh is the identity.
-/
namespace Verif
variable {VP EP FP P S G : Type}

/-- `ab_glyph::OutlineCurve` -/
inductive Outline (P : Type) where
  | line (p0 p1 : P)
  | quad (p0 c p1 : P)
  | cubic (p0 c0 c1 p1 : P)
deriving DecidableEq

namespace Outline

/-- `p0`; fonts.rs:104-123 -/
def p0 : Outline P → P
  | line a _ => a
  | quad a _ _ => a
  | cubic a _ _ _ => a

/-- `p1`; fonts.rs:104-123 -/
def p1 : Outline P → P
  | line _ b => b
  | quad _ _ b => b
  | cubic _ _ _ b => b

/-- the test of fonts.rs:125 -/
def degenerate [DecidableEq P] : Outline P → Bool
  | line a b => a == b
  | _ => false

/-- what fonts.rs:174-185 do to the payload of `cur_e` -/
def curve (K : Kit VP EP P) (place : P → P) : Outline P → Option (EP → EP)
  | line _ _ => none
  | quad _ c _ => some (K.quad (place c))
  | cubic _ c0 c1 _ => some (K.cubic (place c0) (place c1))

end Outline

/-- the variables of `draw_glyph_outlines` (fonts.rs:97-101) with the mesh -/
structure GlyphPen (VP EP FP P : Type) where
  mesh : Mesh VP EP FP
  first : Option P
  cur : Option P
  curV : Option Nat
  startV : Option Nat
  prevV : Option Nat

namespace GlyphPen

/-- the values before the loop -/
def new (m : Mesh VP EP FP) : GlyphPen VP EP FP P := ⟨m, none, none, none, none, none⟩

/-- fonts.rs:131-172: one curve of the outline without its curve type; returns `cur_e` -/
def edge [DecidableEq P] (dbg : Bool) (K : Kit VP EP P) (df : FP) (place : P → P) (g : GlyphPen VP EP FP P) (c : Outline P) :
    Option (GlyphPen VP EP FP P × Nat) :=
  match g.cur with
  | some _ => do
    let first ← g.first
    if first = c.p1 then
      let (m, _, _, e) ← g.mesh.closeFaceVertices dbg (← g.prevV) K.de (← g.curV) K.de (← g.startV) df false
      some (⟨m, none, none, none, none, none⟩, e)
    else
      let (m, v, e, _) ← g.mesh.addVertexViaVertex dbg (← g.curV) (K.fromPos (place c.p1)) K.de K.de
      some ({ g with mesh := m, cur := some c.p1, curV := some v, prevV := g.curV }, e)
  | none => do
    let (m, v0, v1) ← g.mesh.addIsolatedEdge (K.fromPos (place c.p0)) K.de (K.fromPos (place c.p1)) K.de
    let e ← m.sharedEdge dbg v0 v1
    let e ← e
    some (⟨m, some c.p0, some c.p1, some v1, some v0, some v0⟩, e)

/-- one curve of the outline; fonts.rs:103-186 -/
def step [DecidableEq P] (dbg : Bool) (K : Kit VP EP P) (df : FP) (place : P → P) (g : GlyphPen VP EP FP P) (c : Outline P) :
    Option (GlyphPen VP EP FP P) :=
  if c.degenerate then some g
  else do
    let (g, e) ← g.edge dbg K df place c
    match c.curve K place with
    | none => some g
    | some k => do
      let m ← g.mesh.updE e (fun h => { h with payload := k h.payload })
      some { g with mesh := m }

/-- the loop over the curves -/
def steps [DecidableEq P] (dbg : Bool) (K : Kit VP EP P) (df : FP) (place : P → P) :
    GlyphPen VP EP FP P → List (Outline P) → Option (GlyphPen VP EP FP P)
  | g, [] => some g
  | g, c :: cs => do steps dbg K df place (← g.step dbg K df place c) cs

end GlyphPen

/-- What `ab_glyph` knows about a font at the given scale. -/
structure FontData (G P S : Type) where
  /-- `font.outline(glyph).map(|o| o.curves)` -/
  outline : G → Option (List (Outline P))
  /-- `scaled_font.h_advance(glyph)` -/
  advance : G → S
  /-- `scaled_font.kern(last, glyph)` -/
  kern : G → G → S
  /-- the factor of fonts.rs:90-96 -/
  scale : S

/-- `p * scale + from_x(x_pos)`; fonts.rs:130, 155, 166, 167, 177-183 -/
def FontData.place [SMul S P] [Add P] (F : FontData G P S) (fromX : S → P) (x : S) (p : P) : P := F.scale • p + fromX x

/-- `draw_glyph_outlines`; fonts.rs:72-187 -/
def drawGlyph [DecidableEq P] [SMul S P] [Add P] (dbg : Bool) (K : Kit VP EP P) (df : FP) (F : FontData G P S) (fromX : S → P) (m : Mesh VP EP FP)
    (x : S) (g : G) : Option (Mesh VP EP FP) :=
  match F.outline g with
  | none => some m
  | some cs => do
    let p ← (GlyphPen.new m).steps dbg K df (F.place fromX x) cs
    some p.mesh

/-- the loop of `layout_text`; fonts.rs:54-69.  `last` is `last_glyph_id`, `x` is `x_pos`. -/
def layoutLoop [DecidableEq P] [SMul S P] [Add P] [Add S] (dbg : Bool) (K : Kit VP EP P) (df : FP) (F : FontData G P S) (fromX : S → P) :
    Mesh VP EP FP → S → Option G → List G → Option (Mesh VP EP FP)
  | m, _, _, [] => some m
  | m, x, last, g :: gs => do
    let x := match last with
      | some l => x + F.kern l g
      | none => x
    let m ← drawGlyph dbg K df F fromX m x g
    layoutLoop dbg K df F fromX m (x + F.advance g) (some g) gs

/-- `layout_text`; fonts.rs:41-70.  The text is a list of glyphs (`scaled_font.glyph_id(c)`). -/
def layoutText [DecidableEq P] [SMul S P] [Add P] [Add S] [Zero S] (dbg : Bool) (K : Kit VP EP P) (df : FP) (F : FontData G P S) (fromX : S → P)
    (m : Mesh VP EP FP) (text : List G) : Option (Mesh VP EP FP) :=
  layoutLoop dbg K df F fromX m 0 none text

/-- What the crate reads from the font file: the height of a line and the em square in font units, and the size that is asked for. -/
structure Metrics (S : Type) where
  height : S
  unitsPerEm : S
  size : S

/-- the factor of the outlines, fonts.rs:90-96, with `pt_to_px_scale(s) = s * (96 / 72) * height / units_per_em` (`ab_glyph`) -/
def Metrics.outlineScale [Field S] (M : Metrics S) : S := M.size * (96 / 72) * M.height / M.unitsPerEm / M.height

/-- the factor of advances and kerns, `as_scaled(self.scale)` (fonts.rs:51): `scale / height` (`ab_glyph`) -/
def Metrics.advanceScale [Field S] (M : Metrics S) : S := M.size / M.height

end Verif
