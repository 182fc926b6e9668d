import Verif.Geom.Fig
import Mathlib.Data.List.Rotate

/-!
# Model of the region built-ins of the DSL: `src/yapcad/dsl/runtime/builtins.py:1060-1190, 2772-2828`

Regions are figures of `Verif.Geom`: a region made by these functions is a geometry list of lines. Numbers are real. The optional arguments (centre, number of segments) are explicit here.
-/

namespace Verif.Builtin
open Verif.Geom

/-- lines from each point to the next, from the last to the first: builtins.py:1106-1108, 1146-1148, 1181-1183 -/
def loopLines (ps : List V4) : List Fig := List.zipWith (fun a b => .line ⟨a, b⟩) ps (ps.rotate 1)

/-- `rectangle`, builtins.py:1063-1088 -/
noncomputable def rectangleB (w h cx cy : ℝ) : Fig :=
  .list (loopLines [pt (cx - w / 2) (cy - h / 2), pt (cx + w / 2) (cy - h / 2), pt (cx + w / 2) (cy + h / 2), pt (cx - w / 2) (cy + h / 2)])

/-- the corner of number `i` of `n` on a circle, builtins.py:1102-1104, 1177-1179 -/
noncomputable def corner (n : Nat) (r cx cy : ℝ) (i : Nat) : V4 :=
  pt (cx + r * Real.cos (2 * Real.pi * i / n)) (cy + r * Real.sin (2 * Real.pi * i / n))

/-- `regular_polygon`, builtins.py:1090-1109; a number of sides below 1 gives an empty list -/
noncomputable def regularB (n : Nat) (r cx cy : ℝ) : Fig := .list (loopLines ((List.range n).map (corner n r cx cy)))

/-- `polygon`, builtins.py:1124-1149 -/
def polygonB (ps : List V4) : Except Err Fig :=
  if ps.length < 3 then .error .valueError else .ok (.list (loopLines (ps.map fun p => pt p.x p.y)))

/-- `disk`, builtins.py:1158-1184 -/
noncomputable def diskB (c : V4) (r : ℝ) (segments : Nat := 64) : Fig := regularB segments r c.x c.y

/-- the point a segment contributes, builtins.py:2781-2788 -/
def startOf : Fig → Option V4
  | .line l => some l.a
  | .point p => some p
  | _ => none

/-- the points collected by `area`, builtins.py:2776-2788. A polyline is a list of points and also passes `isgeomlist`; a line has two points only; an arc is no geometry list. -/
def areaPoints : Fig → List V4
  | .list gs => gs.filterMap startOf
  | .poly ps => ps
  | .line l => [l.a, l.b]
  | _ => []

/-- twice the signed area: the loop of builtins.py:2793-2799 -/
def shoelace (ps : List V4) : ℝ := (List.zipWith (fun p q => p.x * q.y - q.x * p.y) ps (ps.rotate 1)).sum

/-- `area`, builtins.py:2772-2802 -/
noncomputable def areaB (f : Fig) : ℝ := if (areaPoints f).length < 3 then 0 else |shoelace (areaPoints f)| / 2

/-- the length of one segment as `perimeter` takes it, builtins.py:2814-2826 (`length` does not raise for the figures of the model) -/
noncomputable def pieceLength : Fig → ℝ
  | .line l => √((l.b.x - l.a.x) * (l.b.x - l.a.x) + (l.b.y - l.a.y) * (l.b.y - l.a.y))
  | f => f.length

/-- `perimeter`, builtins.py:2804-2828; of a polyline, which is a list of points, and of figures that are no geometry lists it is 0. -/
noncomputable def perimeterB : Fig → ℝ
  | .list gs => (gs.map pieceLength).sum
  | _ => 0

end Verif.Builtin
