import Lean.Elab.Tactic.Basic
import Lean.Meta.AppBuilder
/-
`kernel_rfl` closes an equation whose sides evaluate to the same term. Only the kernel compares them, which is much faster than `rfl` on meshes with payloads that are variables.
-/
open Lean Elab Tactic Meta in
/-- closes `a = b` with `Eq.refl a`, leaving the comparison to the kernel -/
elab "kernel_rfl" : tactic => do
  let g ← getMainGoal
  let some (_, l, _) := (← instantiateMVars (← g.getType)).eq? | throwError "not an equation"
  g.assign (← mkEqRefl l)
