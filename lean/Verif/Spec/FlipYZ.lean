import Verif.Model.FlipYZ
/- Swizzles as permutations of the axes. -/
namespace Verif.R3

/-- which coordinate is moved to the place `d`, as spelt by the name of the swizzle -/
def Swizzle.axis : Swizzle → Fin 3 → Fin 3
  | .xyz => ![0, 1, 2]
  | .xzy => ![0, 2, 1]
  | .yxz => ![1, 0, 2]
  | .yzx => ![1, 2, 0]
  | .zxy => ![2, 0, 1]
  | .zyx => ![2, 1, 0]

/-- whether right-handed frames stay right-handed -/
def Swizzle.even : Swizzle → Bool
  | .xyz | .yzx | .zxy => true
  | _ => false

/-- the swizzle undoing another one -/
def Swizzle.inv : Swizzle → Swizzle
  | .yzx => .zxy
  | .zxy => .yzx
  | s => s

end Verif.R3
