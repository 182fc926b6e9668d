import Verif.Spline.Model
import Mathlib.Analysis.Convex.Hull
import Mathlib.Analysis.Calculus.Deriv.Basic
import Mathlib.Analysis.Normed.Module.Basic

/-! # What a user expects of spline curves

Independent of the algorithms in `Verif.Spline.Model`. -/

namespace Verif.Spline.Spec

/-- a weighted sum `Σ wᵢ Pᵢ` over the points of a list, the weights given by index -/
def combo (w : ℕ → ℝ) (pts : List (ℝ × ℝ × ℝ)) : ℝ × ℝ × ℝ :=
  ∑ i ∈ Finset.range pts.length, w i • pts.getD i 0

/-- the Bernstein weights of degree `n` -/
def bernsteinWeight (n : ℕ) (t : ℝ) (i : ℕ) : ℝ := (n.choose i : ℝ) * t ^ i * (1 - t) ^ (n - i)

/-- the Bézier curve of some control points -/
def bezierCurve (pts : List (ℝ × ℝ × ℝ)) (t : ℝ) : ℝ × ℝ × ℝ := combo (bernsteinWeight (pts.length - 1) t) pts

/-- the points of a list as a set -/
def set (pts : List (ℝ × ℝ × ℝ)) : Set (ℝ × ℝ × ℝ) := {p | p ∈ pts}

/-- knot number `i` of the clamped uniform knot vector for `n` control points and degree `p`: `p + 1` zeros, equally spaced
values in between, then ones -/
noncomputable def clampedKnot (n p i : ℕ) : ℝ := min 1 (max 0 (((i : ℝ) - p) / ((n : ℝ) - p)))

/-- weights of a convex combination of `n` points -/
structure ConvexWeights (n : ℕ) (w : ℕ → ℝ) : Prop where
  nonneg : ∀ i < n, 0 ≤ w i
  sum_one : ∑ i ∈ Finset.range n, w i = 1

/-- the `k`-th point a curve through `pts` has to visit: on a closed curve the points repeat, on an open one the last point is
the end -/
def stop (pts : List (ℝ × ℝ × ℝ)) (closed : Bool) (k : ℕ) : ℝ × ℝ × ℝ :=
  if closed then pts.getD (k % pts.length) 0 else pts.getD (min k (pts.length - 1)) 0

/-- Euclidean distance of two points -/
noncomputable def distance (a b : ℝ × ℝ × ℝ) : ℝ := √((a.1 - b.1) ^ 2 + (a.2.1 - b.2.1) ^ 2 + (a.2.2 - b.2.2) ^ 2)

/-- successive points coincide, or are far enough apart for the knot spacing `distance ^ alpha` to be visible to the
tolerance `1e-12` -/
def Spread (pts : List (ℝ × ℝ × ℝ)) (closed : Bool) (alpha : ℝ) : Prop :=
  ∀ k, stop pts closed k = stop pts closed (k + 1) ∨
    1e-12 ≤ distance (stop pts closed k) (stop pts closed (k + 1)) ^ alpha

/-- the direction in which a curve passes through `b` on the way from `a` to `c`: the mean of the two chord velocities,
each weighted by the other's duration -/
noncomputable def joinTangent (a b c : ℝ × ℝ × ℝ) (h₁ h₂ : ℝ) : ℝ × ℝ × ℝ :=
  (h₂ / (h₁ + h₂)) • ((1 / h₁) • (b - a)) + (h₁ / (h₁ + h₂)) • ((1 / h₂) • (c - b))

end Verif.Spline.Spec
