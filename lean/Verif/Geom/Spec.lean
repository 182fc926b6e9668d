import Verif.Geom.Vec

/-!
# Specification vocabulary for plane and space geometry

Stated with coordinates only, independently of the functions of the model.
-/

namespace Verif.Geom

/-- equality of the three space coordinates -/
def Same3 (p q : V4) : Prop := p.x = q.x ∧ p.y = q.y ∧ p.z = q.z

/-- equality of the plane coordinates -/
def SameXY (p q : V4) : Prop := p.x = q.x ∧ p.y = q.y

/-- `p` is the point with parameter `u` of the line through `a` (parameter 0) and `b`
(parameter 1) -/
def AtParam (a b : V4) (u : ℝ) (p : V4) : Prop :=
  p.x = a.x + u * (b.x - a.x) ∧ p.y = a.y + u * (b.y - a.y) ∧ p.z = a.z + u * (b.z - a.z)

/-- the same in the plane -/
def AtParamXY (a b : V4) (u : ℝ) (p : V4) : Prop :=
  p.x = a.x + u * (b.x - a.x) ∧ p.y = a.y + u * (b.y - a.y)

/-- squared distance -/
def sqDist (p q : V4) : ℝ := (p.x - q.x) ^ 2 + (p.y - q.y) ^ 2 + (p.z - q.z) ^ 2

/-- `p` lies in the axis-parallel box with corners `lo`, `hi` -/
def InBox (lo hi p : V4) : Prop :=
  lo.x ≤ p.x ∧ p.x ≤ hi.x ∧ lo.y ≤ p.y ∧ p.y ≤ hi.y ∧ lo.z ≤ p.z ∧ p.z ≤ hi.z

end Verif.Geom
