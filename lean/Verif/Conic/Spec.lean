import Mathlib.Analysis.SpecialFunctions.Trigonometric.Basic
import Mathlib.Data.Real.Sqrt

/-! # Conic sections by their classical definitions

Independent of `Verif.Conic.Model`. -/

namespace Verif.Conic.Spec

abbrev V := ℝ × ℝ × ℝ

/-- scalar product -/
def dot (a b : V) : ℝ := a.1 * b.1 + a.2.1 * b.2.1 + a.2.2 * b.2.2

/-- vector product -/
def cross (a b : V) : V := (a.2.1 * b.2.2 - a.2.2 * b.2.1, a.2.2 * b.1 - a.1 * b.2.2, a.1 * b.2.1 - a.2.1 * b.1)

/-- Euclidean distance -/
noncomputable def distance (a b : V) : ℝ := √(dot (a - b) (a - b))

/-- two perpendicular unit vectors -/
structure Axes (e₁ e₂ : V) : Prop where
  unit₁ : dot e₁ e₁ = 1
  unit₂ : dot e₂ e₂ = 1
  perp : dot e₁ e₂ = 0

/-- the two vectors turned by `φ` (degrees) in their plane -/
noncomputable def turned (e₁ e₂ : V) (φ : ℝ) : V := Real.cos (φ * Real.pi / 180) • e₁ + Real.sin (φ * Real.pi / 180) • e₂

/-- directions that are the z axis, its opposite, or not within tolerance (1e-10) of either; `w` has length one -/
def Clear (w : V) : Prop :=
  w = (0, 0, 1) ∨ w = (0, 0, -1) ∨ (w.2.2 ≤ 1 - 1e-10 ∧ 1e-10 ≤ √(w.1 ^ 2 + w.2.1 ^ 2))

/-- `e₁`, `e₂` are coordinate axes for the plane with the given normal (default: the xy plane with its usual axes): two
perpendicular unit vectors, perpendicular to the normal up to 1.5e-5; and exactly perpendicular and right-handed for a
`Clear` normal -/
structure PlaneOf (normal : Option V) (e₁ e₂ : V) : Prop where
  axes : Axes e₁ e₂
  default : normal = none → e₁ = (1, 0, 0) ∧ e₂ = (0, 1, 0)
  near : ∀ v, normal = some v → |dot v e₁| ≤ 1.5e-5 * √(dot v v) ∧ |dot v e₂| ≤ 1.5e-5 * √(dot v v)
  exact : ∀ v, normal = some v → Clear ((1 / √(dot v v)) • v) → cross e₁ e₂ = (1 / √(dot v v)) • v

/-- the angle (radians) reached at the end of an arc from `s` to `t` degrees, counter-clockwise from `s` -/
noncomputable def endAngle (s t : ℝ) : ℝ := if t < s then t * Real.pi / 180 + 2 * Real.pi else t * Real.pi / 180

end Verif.Conic.Spec
