import Mathlib.Data.Real.Sqrt
import Mathlib.Tactic.LinearCombination
import Mathlib.Tactic.FieldSimp
import Mathlib.Tactic.NormNum
import Mathlib.Tactic.Positivity

/-!
# Model of the vector and straight line part of `src/yapcad/geom.py`

Numbers are real numbers: floating-point rounding is not modelled, `math.sqrt` is the real square
root. A yapCAD vector is a Python list of four numbers. Type tests (`isvect`, `ispoint`, `isline`)
are always true of the values of the model where only their shape matters; the test `w > 0` that
distinguishes points from quasivectors is modelled (`ispoint`).

`False` returned in place of a value is `none`; a raised exception is `Except.error`.
-/

namespace Verif.Geom

/-- a 4-vector `[x, y, z, w]`, geom.py:1632-1661 -/
@[ext] structure V4 where
  x : ℝ
  y : ℝ
  z : ℝ
  w : ℝ

/-- exceptions raised by the functions modelled here -/
inductive Err
  | valueError
  | zeroDivision
  | notImplemented
  | typeError
  | indexError
deriving DecidableEq

/-- `epsilon`, geom.py:1604 -/
noncomputable def eps : ℝ := 0.000005

/-- `close`, geom.py:1622-1625 -/
def close (a b : ℝ) : Prop := |a - b| < eps

/-- `point(x,y,z)` for numbers, geom.py:1907-1924 (w stays 1) -/
def pt (x y : ℝ) (z : ℝ := 0) : V4 := ⟨x, y, z, 1⟩

/-- `ispoint`, geom.py:1926-1930 -/
def ispoint (a : V4) : Prop := 0 < a.w

/-- `add`, geom.py:1674-1676 (w is set to 1) -/
def add (a b : V4) : V4 := ⟨a.x + b.x, a.y + b.y, a.z + b.z, 1⟩

/-- `sub`, geom.py:1678-1680 -/
def sub (a b : V4) : V4 := ⟨a.x - b.x, a.y - b.y, a.z - b.z, 1⟩

/-- `scale3`, geom.py:1682-1684 -/
def scale3 (a : V4) (c : ℝ) : V4 := ⟨a.x * c, a.y * c, a.z * c, 1⟩

/-- `mul`, geom.py:1687-1689 -/
def mul (a b : V4) : V4 := ⟨a.x * b.x, a.y * b.y, a.z * b.z, 1⟩

/-- `mul4`, geom.py:1726-1728 -/
def mul4 (a b : V4) : V4 := ⟨a.x * b.x, a.y * b.y, a.z * b.z, a.w * b.w⟩

/-- `orthoXY`, geom.py:1693-1697 -/
def orthoXY (a : V4) : V4 := ⟨a.y, -a.x, 0, 1⟩

/-- `cross`, geom.py:1701-1710 -/
def cross (a b : V4) : V4 :=
  ⟨a.y * b.z - a.z * b.y, a.z * b.x - a.x * b.z, a.x * b.y - a.y * b.x, 1⟩

/-- `dot`, geom.py:1742-1744 -/
def dot (a b : V4) : ℝ := a.x * b.x + a.y * b.y + a.z * b.z

/-- `mag`, geom.py:1746-1748 -/
noncomputable def mag (a : V4) : ℝ := √(a.x * a.x + a.y * a.y + a.z * a.z)

/-- `dist`, geom.py:1750-1752 -/
noncomputable def dist (a b : V4) : ℝ := mag (sub a b)

/-- `vclose`, geom.py:1653-1654 -/
def vclose (a b : V4) : Prop := close (mag (sub a b)) 0

/-- `isXYPlanar(points)`, geom.py:1773-1798: every z within epsilon of the first one -/
def isXYPlanar : List V4 → Prop
  | [] => True
  | p :: ps => ∀ q ∈ ps, ¬ |q.z - p.z| > eps

/-- a bounding box `[min, max]` -/
structure Box where
  lo : V4
  hi : V4

/-- `isinsidebbox`, geom.py:1758-1762 -/
def isinsidebbox (b : Box) (p : V4) : Prop :=
  p.x ≥ b.lo.x ∧ p.x ≤ b.hi.x ∧ p.y ≥ b.lo.y ∧ p.y ≤ b.hi.y ∧ p.z ≥ b.lo.z ∧ p.z ≤ b.hi.z

/-- `pointbbox`, geom.py:1951-1957 -/
noncomputable def pointbbox (x : V4) : Box :=
  let ee := pt eps eps eps
  ⟨sub x ee, add x ee⟩

/-- a line `[p1, p2]`, geom.py:1971-1988 -/
structure Line where
  a : V4
  b : V4

/-- `linelength`, geom.py:1991-1993 -/
noncomputable def linelength (l : Line) : ℝ := dist l.a l.b

/-- `linecenter`, geom.py:1996-1998 -/
noncomputable def linecenter (l : Line) : V4 := scale3 (add l.a l.b) 0.5

/-- `sampleline`, geom.py:2004-2014 -/
def sampleline (l : Line) (u : ℝ) : V4 :=
  let p := 1 - u
  add (scale3 l.a p) (scale3 l.b u)

/-- `segmentline`, geom.py:2016-2020 -/
def segmentline (l : Line) (u1 u2 : ℝ) : Line := ⟨sampleline l u1, sampleline l u2⟩

open Classical in
/-- `unsampleline`, geom.py:2026-2044; `ok none` is the result `False` -/
noncomputable def unsampleline (l : Line) (p : V4) : Except Err (Option ℝ) :=
  let v1 := sub l.b l.a
  let v2 := sub p l.a
  let z := cross v1 v2
  if mag z > eps then .ok none
  else
    let len1 := mag v1
    let len2 := mag v2
    if len1 = 0 then .error .zeroDivision
    else if dot v1 v2 > 0 then .ok (some (len2 / len1))
    else .ok (some (-len2 / len1))

/-- `linebbox`, geom.py:2047-2052 -/
def linebbox (l : Line) : Box :=
  ⟨pt (min l.a.x l.b.x) (min l.a.y l.b.y) (min l.a.z l.b.z),
   pt (max l.a.x l.b.x) (max l.a.y l.b.y) (max l.a.z l.b.z)⟩

/-- the planarity test of `lineLineIntersectXY`, geom.py:2088-2090 -/
def llPlanar (l1 l2 : Line) : Prop :=
  ¬ (|l1.b.z - l1.a.z| > eps ∨ |l2.a.z - l1.a.z| > eps ∨ |l2.b.z - l1.a.z| > eps)

/-- `denom`, geom.py:2093 -/
def llDenom (l1 l2 : Line) : ℝ :=
  (l1.a.x - l1.b.x) * (l2.a.y - l2.b.y) - (l1.a.y - l1.b.y) * (l2.a.x - l2.b.x)

/-- the parameter `t` along the first line, geom.py:2099 -/
noncomputable def llT (l1 l2 : Line) : ℝ :=
  ((l1.a.x - l2.a.x) * (l2.a.y - l2.b.y) - (l1.a.y - l2.a.y) * (l2.a.x - l2.b.x)) / llDenom l1 l2

/-- the parameter `u` along the second line, geom.py:2100 -/
noncomputable def llU (l1 l2 : Line) : ℝ :=
  -1 * ((l1.a.x - l1.b.x) * (l1.a.y - l2.a.y) - (l1.a.y - l1.b.y) * (l1.a.x - l2.a.x)) /
    llDenom l1 l2

open Classical in
/-- `lineLineIntersectXY(l1,l2,params=True)`, geom.py:2065-2104 -/
noncomputable def lineLineParams (l1 l2 : Line) : Except Err (Option (ℝ × ℝ)) :=
  if llPlanar l1 l2 then
    if llDenom l1 l2 * llDenom l1 l2 < eps then .ok none
    else .ok (some (llT l1 l2, llU l1 l2))
  else .error .valueError

open Classical in
/-- `lineLineIntersectXY(l1,l2,inside)`, geom.py:2065-2112 -/
noncomputable def lineLineIntersectXY (l1 l2 : Line) (inside : Bool := true) :
    Except Err (Option V4) :=
  if llPlanar l1 l2 then
    if llDenom l1 l2 * llDenom l1 l2 < eps then .ok none
    else
      let t := llT l1 l2
      let u := llU l1 l2
      if inside = true ∧ (t < 0 ∨ t > 1 ∨ u < 0 ∨ u > 1) then .ok none
      else .ok (some ⟨l1.a.x + t * (l1.b.x - l1.a.x), l1.a.y + t * (l1.b.y - l1.a.y), l1.a.z, 1⟩)
  else .error .valueError

end Verif.Geom
