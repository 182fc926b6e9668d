import Mathlib.Analysis.SpecialFunctions.Trigonometric.Inverse
import Mathlib.Analysis.SpecialFunctions.Trigonometric.DerivHyp
import Mathlib.Data.Real.Sqrt

/-! # Conic sections: ellipse, parabola, hyperbola (`src/yapcad/geom.py`, lines 700-1577)

Numbers are reals: rounding is not modelled, and the literal `3.141592653589793` is read as π. A point is its triple of
coordinates (the centre's `w` is not used by the code modelled here, and the points returned have `w = 1`). The tagged lists
`['ellipse', ...]` are structures; `isellipse` and so on are the typing. -/

namespace Verif.Conic

abbrev P3 := ℝ × ℝ × ℝ

inductive Err
  | valueError | zeroDivision
deriving DecidableEq

/-- `math.radians` -/
noncomputable def radians (d : ℝ) : ℝ := d * Real.pi / 180

/-- the `normal` argument of the three constructors: default, length check and normalisation. geom.py:750-757, 1068-1075,
1349-1356 -/
noncomputable def normalOf : Option P3 → Except Err P3
  | none => .ok (0, 0, 1)
  | some n =>
    let m := √(n.1 ^ 2 + n.2.1 ^ 2 + n.2.2 ^ 2)
    if m < 1e-10 then .error .valueError else .ok (n.1 / m, n.2.1 / m, n.2.2 / m)

/-- turning the local coordinates by the rotation angle, geom.py:839-842, 1137-1140, 1423-1426 -/
noncomputable def turn (rot x y : ℝ) : ℝ × ℝ :=
  (x * Real.cos rot - y * Real.sin rot, x * Real.sin rot + y * Real.cos rot)

/-- Rodrigues' rotation of `(x, y, 0)` about the unit axis `k` by `angle`, added to `c`. geom.py:881-899, 1169-1180,
1455-1466 -/
noncomputable def rodrigues (c k : P3) (angle x y : ℝ) : P3 :=
  let ca := Real.cos angle
  let sa := Real.sin angle
  let kdp := k.1 * x + k.2.1 * y + k.2.2 * 0
  (c.1 + (x * ca + (k.2.1 * 0 - k.2.2 * y) * sa + k.1 * kdp * (1 - ca)),
   c.2.1 + (y * ca + (k.2.2 * x - k.1 * 0) * sa + k.2.1 * kdp * (1 - ca)),
   c.2.2 + (0 * ca + (k.1 * y - k.2.1 * x) * sa + k.2.2 * kdp * (1 - ca)))

/-- placing local coordinates in the plane through `c` with normal `n`, geom.py:846-899, 1143-1180, 1429-1466 (the same
code three times). The cross product of the z axis with `n` is `(-n.y, n.x, 0)`. -/
noncomputable def place (c n : P3) (x y : ℝ) : P3 :=
  if |n.2.2 - 1| < 1e-10 then (c.1 + x, c.2.1 + y, c.2.2)
  else
    let m := √((-n.2.1) ^ 2 + n.1 ^ 2 + 0 ^ 2)
    if m < 1e-10 then
      if n.2.2 > 0 then (c.1 + x, c.2.1 + y, c.2.2) else (c.1 + x, c.2.1 - y, c.2.2)
    else rodrigues c (-n.2.1 / m, n.1 / m, 0 / m) (Real.arccos (max (-1) (min 1 n.2.2))) x y

/-! ## ellipse -/

/-- an ellipse definition -/
structure Ellipse where
  center : P3
  semiMajor : ℝ
  semiMinor : ℝ
  rotation : ℝ
  start : ℝ
  stop : ℝ
  normal : P3

/-- `ellipse`, geom.py:700-768 -/
noncomputable def ellipse (center : P3) (semiMajor semiMinor rotation start stop : ℝ) (normal : Option P3) :
    Except Err Ellipse :=
  if ¬ 0 < semiMajor then .error .valueError
  else if ¬ 0 < semiMinor then .error .valueError
  else
    let swap := semiMinor > semiMajor
    match normalOf normal with
    | .error e => .error e
    | .ok n =>
      if swap then .ok ⟨center, semiMinor, semiMajor, rotation + 90, start, stop, n⟩
      else .ok ⟨center, semiMajor, semiMinor, rotation, start, stop, n⟩

/-- the angle of parameter `u`, geom.py:824-832, 930-937 -/
noncomputable def Ellipse.theta (e : Ellipse) (u : ℝ) : ℝ :=
  if e.start = 0 ∧ e.stop = 360 then u * 2 * Real.pi
  else
    let s := radians e.start
    let t := radians e.stop
    let t := if t < s then t + 2 * Real.pi else t
    s + u * (t - s)

/-- `ellipse_sample`, geom.py:794-899 -/
noncomputable def Ellipse.sample (e : Ellipse) (u : ℝ) : P3 :=
  let p := turn (radians e.rotation) (e.semiMajor * Real.cos (e.theta u)) (e.semiMinor * Real.sin (e.theta u))
  place e.center e.normal p.1 p.2

/-- normalising the derivative, geom.py:949-954, 1222-1227, 1510-1515 -/
noncomputable def unitOrX (d : ℝ × ℝ) : P3 :=
  let m := √(d.1 ^ 2 + d.2 ^ 2)
  if m < 1e-10 then (1, 0, 0) else (d.1 / m, d.2 / m, 0)

/-- `ellipse_tangent`, geom.py:902-954 -/
noncomputable def Ellipse.tangent (e : Ellipse) (u : ℝ) : P3 :=
  unitOrX (turn (radians e.rotation) (-e.semiMajor * Real.sin (e.theta u)) (e.semiMinor * Real.cos (e.theta u)))

/-! ## parabola -/

/-- a parabola definition -/
structure Parabola where
  vertex : P3
  focal : ℝ
  rotation : ℝ
  start : ℝ
  stop : ℝ
  normal : P3

/-- `parabola`, geom.py:1025-1085 -/
noncomputable def parabola (vertex : P3) (focal rotation start stop : ℝ) (normal : Option P3) : Except Err Parabola :=
  if ¬ 0 < focal then .error .valueError
  else match normalOf normal with
    | .error e => .error e
    | .ok n => .ok ⟨vertex, focal, rotation, start, stop, n⟩

/-- `t = start + u * (end - start)`, geom.py:1130, 1210 -/
def Parabola.param (p : Parabola) (u : ℝ) : ℝ := p.start + u * (p.stop - p.start)

/-- `parabola_sample`, geom.py:1101-1180 -/
noncomputable def Parabola.sample (p : Parabola) (u : ℝ) : P3 :=
  let q := turn (radians p.rotation) (p.param u * p.param u / (4 * p.focal)) (p.param u)
  place p.vertex p.normal q.1 q.2

/-- `parabola_tangent`, geom.py:1183-1227 -/
noncomputable def Parabola.tangent (p : Parabola) (u : ℝ) : P3 :=
  unitOrX (turn (radians p.rotation) (p.param u / (2 * p.focal)) 1)

/-! ## hyperbola -/

/-- a hyperbola definition; `branch` is 1 or -1 -/
structure Hyperbola where
  center : P3
  semiMajor : ℝ
  semiMinor : ℝ
  rotation : ℝ
  start : ℝ
  stop : ℝ
  branch : ℤ
  normal : P3

/-- `hyperbola`, geom.py:1297-1368 -/
noncomputable def hyperbola (center : P3) (semiMajor semiMinor rotation start stop : ℝ) (branch : ℤ) (normal : Option P3) :
    Except Err Hyperbola :=
  if ¬ 0 < semiMajor then .error .valueError
  else if ¬ 0 < semiMinor then .error .valueError
  else if ¬ (branch = 1 ∨ branch = -1) then .error .valueError
  else match normalOf normal with
    | .error e => .error e
    | .ok n => .ok ⟨center, semiMajor, semiMinor, rotation, start, stop, branch, n⟩

/-- `t = start + u * (end - start)`, geom.py:1416, 1498 -/
def Hyperbola.param (h : Hyperbola) (u : ℝ) : ℝ := h.start + u * (h.stop - h.start)

/-- `hyperbola_sample`, geom.py:1385-1466 -/
noncomputable def Hyperbola.sample (h : Hyperbola) (u : ℝ) : P3 :=
  let q := turn (radians h.rotation) (h.branch * h.semiMajor * Real.cosh (h.param u)) (h.semiMinor * Real.sinh (h.param u))
  place h.center h.normal q.1 q.2

/-- `hyperbola_tangent`, geom.py:1469-1515 -/
noncomputable def Hyperbola.tangent (h : Hyperbola) (u : ℝ) : P3 :=
  unitOrX (turn (radians h.rotation) (h.branch * h.semiMajor * Real.sinh (h.param u))
    (h.semiMinor * Real.cosh (h.param u)))

/-! ## length and bounding box: the same code for each of the three -/

/-- distance of successive samples, geom.py:981-984 -/
noncomputable def stepLength (p q : P3) : ℝ :=
  √((q.1 - p.1) ^ 2 + (q.2.1 - p.2.1) ^ 2 + (q.2.2 - p.2.2) ^ 2)

/-- `ellipse_length`, `parabola_length`, `hyperbola_length`, geom.py:1518-1547, 1230-1259, 1518-1547 -/
noncomputable def sampledLength (f : ℝ → P3) (segments : ℕ) : ℝ :=
  ((List.range segments).map fun i : ℕ => stepLength (f ((i : ℝ) / segments)) (f (((i : ℝ) + 1) / segments))).sum

/-- the points of `ellipse_bbox`, `parabola_bbox`, `hyperbola_bbox`, geom.py:1008, 1280, 1568 (zero segments divide by
zero) -/
noncomputable def bboxPoints (f : ℝ → P3) (segments : ℕ) : List P3 :=
  (List.range (segments + 1)).map fun i : ℕ => f ((i : ℝ) / segments)

/-- `min(...)` over the samples -/
noncomputable def minOf (g : P3 → ℝ) : List P3 → ℝ
  | [] => 0   -- unreachable
  | [p] => g p
  | p :: q :: r => min (g p) (minOf g (q :: r))

/-- `max(...)` over the samples -/
noncomputable def maxOf (g : P3 → ℝ) : List P3 → ℝ
  | [] => 0   -- unreachable
  | [p] => g p
  | p :: q :: r => max (g p) (maxOf g (q :: r))

/-- the three `_bbox` functions, geom.py:990-1017, 1262-1289, 1550-1577 -/
noncomputable def sampledBox (f : ℝ → P3) (segments : ℕ) : Except Err (P3 × P3) :=
  if segments = 0 then .error .zeroDivision
  else
    let ps := bboxPoints f segments
    .ok ((minOf (·.1) ps, minOf (·.2.1) ps, minOf (·.2.2) ps), (maxOf (·.1) ps, maxOf (·.2.1) ps, maxOf (·.2.2) ps))

end Verif.Conic
