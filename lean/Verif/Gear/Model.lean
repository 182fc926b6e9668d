import Mathlib.Analysis.SpecialFunctions.Trigonometric.Inverse
import Mathlib.Analysis.SpecialFunctions.Trigonometric.Bounds
import Mathlib.Analysis.SpecialFunctions.Trigonometric.ArctanDeriv
import Mathlib.Data.List.Rotate

/-!
# Model of the gear outline: `src/yapcad/contrib/figgear.py`

Numbers are real. Where Python raises (`acos` outside [-1, 1], division by 0, for pressure angles that are not between 0 and 90 degrees), the model has the values of Lean's total functions; the theorems
are about angles strictly between.
-/

namespace Verif.Gear

noncomputable section

/-- the arguments of `make_gear_figure` after the conversions of figgear.py:131-142: `alpha` is in radians (figgear.py:148), `spline` is `bottom_type.lower() == "spline"` -/
structure Params where
  module : ℝ
  teeth : Int
  alpha : ℝ
  spline : Bool
  step : ℝ
  division : Int

/-- `_inv`, figgear.py:55-57 -/
def inv (a : ℝ) : ℝ := Real.tan a - a

/-- `radius_pitch`, figgear.py:152, 157 -/
def Params.pitchR (p : Params) : ℝ := p.teeth * p.module / 2

/-- `radius_addendum`, figgear.py:153, 158 -/
def Params.addendumR (p : Params) : ℝ := (p.teeth * p.module + 2 * p.module) / 2

/-- `radius_dedendum`, figgear.py:154, 159 -/
def Params.dedendumR (p : Params) : ℝ := (p.teeth * p.module - 2.5 * p.module) / 2

/-- `radius_base`, figgear.py:155, 160 -/
def Params.baseR (p : Params) : ℝ := p.teeth * p.module * Real.cos p.alpha / 2

/-- `angle_per_tooth`, figgear.py:162 -/
def Params.toothAngle (p : Params) : ℝ := 2 * Real.pi / p.teeth

/-- `angle_base`, figgear.py:149-150, 163-165 -/
def Params.baseAngle (p : Params) : ℝ := p.module * Real.pi / 2 / p.pitchR + inv (Real.arccos (p.baseR / p.pitchR)) * 2

/-- `angle_bottom`, figgear.py:166 -/
def Params.bottomAngle (p : Params) : ℝ := p.toothAngle - p.baseAngle

/-- `inv_segments`, figgear.py:171 -/
def Params.segments (p : Params) : ℕ := (max 2 ⌈(p.addendumR - p.baseR) / p.step⌉).toNat

/-- `(x cos a - y sin a, x sin a + y cos a)`, figgear.py:168-169, 184-187, 209-214 -/
def turn (a : ℝ) (q : ℝ × ℝ) : ℝ × ℝ := (q.1 * Real.cos a - q.2 * Real.sin a, q.1 * Real.sin a + q.2 * Real.cos a)

/-- the point at a distance and an angle, figgear.py:180-183, 206-207 -/
def polar (r a : ℝ) : ℝ × ℝ := (r * Real.cos a, r * Real.sin a)

/-- one coordinate of `_catmull_rom`, figgear.py:75-92 -/
def cubic (a b c d t : ℝ) : ℝ :=
  0.5 * (2 * b + (-a + c) * t + (2 * a - 5 * b + 4 * c - d) * (t * t) + (-a + 3 * b - 3 * c + d) * (t * t * t))

/-- `_catmull_rom` for a parameter, figgear.py:60-93 -/
def catmull (a b c d : ℝ × ℝ) (t : ℝ) : ℝ × ℝ := (cubic a.1 b.1 c.1 d.1 t, cubic a.2 b.2 c.2 d.2 t)

/-- the points added for the root between two teeth, figgear.py:96-110, 180-195 -/
def Params.root (p : Params) (t : ℝ) : List (ℝ × ℝ) :=
  let a := polar p.baseR t
  let b := polar p.dedendumR t
  let c := turn (-p.bottomAngle) b
  let d := turn (-p.bottomAngle) a
  if p.spline then
    if p.division ≤ 1 then [c, b]
    else (List.range (p.division.toNat - 1)).map fun i : ℕ => catmull d c b a (((i : ℝ) + 1) / p.division)
  else [c, b]

/-- the point of the involute at distance `r`, figgear.py:205-207 -/
def Params.involute (p : Params) (r : ℝ) : ℝ × ℝ := polar r (inv (Real.arccos (p.baseR / r)))

/-- the distance of the point of a flank, figgear.py:203-204 -/
def Params.flankR (p : Params) (i : ℕ) : ℝ := max (p.baseR + (p.addendumR - p.baseR) * (i / p.segments)) p.baseR

/-- `points_inv1`, figgear.py:197-211 -/
def Params.flank1 (p : Params) (t : ℝ) : List (ℝ × ℝ) := (List.range (p.segments + 1)).map fun i : ℕ => turn t (p.involute (p.flankR i))

/-- `points_inv2`, figgear.py:197-207, 213-215 -/
def Params.flank2 (p : Params) (t : ℝ) : List (ℝ × ℝ) :=
  (List.range (p.segments + 1)).map fun i : ℕ => turn (t + p.baseAngle) ((p.involute (p.flankR i)).1, -(p.involute (p.flankR i)).2)

/-- the points of a tooth and the root before it, figgear.py:175-218 -/
def Params.tooth (p : Params) (t : ℝ) : List (ℝ × ℝ) := p.root t ++ p.flank1 t ++ (p.flank2 t).reverse

/-- `profile` after the loop, figgear.py:173-218 -/
def Params.outline (p : Params) : List (ℝ × ℝ) := (List.range p.teeth.toNat).flatMap fun i : ℕ => p.tooth (p.toothAngle * i)

open Classical in
/-- `_ensure_closed`, figgear.py:113-115 -/
def close (ps : List (ℝ × ℝ)) : List (ℝ × ℝ) :=
  match ps with
  | [] => []
  | q :: qs => if some q ≠ (q :: qs).getLast? then (q :: qs) ++ [q] else q :: qs

/-- exceptions -/
inductive Err
  | valueError
deriving DecidableEq

open Classical in
/-- `make_gear_figure`, figgear.py:118-234; `known` is `bottom_type.lower() in {"spline", "line"}`. The result is the profile; the diameters and radii are the ones above. -/
def figure (p : Params) (known : Bool) : Except Err (List (ℝ × ℝ)) :=
  if p.teeth ≤ 0 then .error .valueError
  else if p.module ≤ 0 then .error .valueError
  else if !known then .error .valueError
  else if p.step ≤ 0 then .error .valueError
  else if p.division ≤ 0 then .error .valueError
  else .ok (close p.outline)

end
end Verif.Gear
