import Mathlib.Analysis.SpecialFunctions.Trigonometric.Basic
import Mathlib.Analysis.SpecialFunctions.Trigonometric.Bounds
import Mathlib.Analysis.SpecialFunctions.Trigonometric.Inverse

/-!
# Model of the selection of edges: `src/yapcad/brep_edge_select.py`

The edges of a solid are those the geometry kernel lists, each once (`_get_unique_edges`, brep_edge_select.py:250-282). What the kernel says about an edge is a parametrized curve, or nothing if it
raises; the length of the curve; and a hash code. Numbers are real numbers.
-/

namespace Verif.Select

noncomputable section

/-- points and vectors -/
abbrev V3 := ℝ × ℝ × ℝ

/-- `BRepAdaptor_Curve`: the parameters of the ends and the points -/
structure Curve where
  first : ℝ
  last : ℝ
  value : ℝ → V3

/-- an edge: its number in the list of the kernel, the curve, the length and the hash code -/
structure Edge where
  id : Nat
  curve : Option Curve
  length : Option ℝ
  hash : Int

/-- `_get_edge_endpoints`, brep_edge_select.py:177-201 -/
def endpoints (e : Edge) : Option (V3 × V3) := e.curve.map fun c => (c.value c.first, c.value c.last)

/-- `_get_edge_midpoint`, brep_edge_select.py:225-247 -/
def midpoint (e : Edge) : Option V3 := e.curve.map fun c => c.value ((c.first + c.last) / 2)

/-- `_get_edge_length`, brep_edge_select.py:204-222 -/
def lengthOf (e : Edge) : ℝ := e.length.getD 0

/-- the length of a vector -/
def norm (v : V3) : ℝ := Real.sqrt (v.1 * v.1 + v.2.1 * v.2.1 + v.2.2 * v.2.2)

/-- the inner product -/
def dot (v w : V3) : ℝ := v.1 * w.1 + v.2.1 * w.2.1 + v.2.2 * w.2.2

/-- a vector divided by a number -/
def over (v : V3) (r : ℝ) : V3 := (v.1 / r, v.2.1 / r, v.2.2 / r)

/-- the difference -/
def minus (v w : V3) : V3 := (v.1 - w.1, v.2.1 - w.2.1, v.2.2 - w.2.2)

open Classical in
/-- `_get_edge_direction`, brep_edge_select.py:121-174 -/
def direction (e : Edge) : Option V3 :=
  match e.curve with
  | none => none
  | some c =>
    let p := c.value c.first
    let q := c.value c.last
    let m := c.value ((c.first + c.last) / 2)
    if |m.1 - (p.1 + q.1) / 2| > 1 / 1000000 ∨ |m.2.1 - (p.2.1 + q.2.1) / 2| > 1 / 1000000 ∨ |m.2.2 - (p.2.2 + q.2.2) / 2| > 1 / 1000000 then none
    else
      let d := minus q p
      if norm d < 1 / 1000000000000 then none else some (over d (norm d))

/-- `math.radians` -/
def radians (x : ℝ) : ℝ := x * Real.pi / 180

open Classical in
/-- `select_edges_by_direction`, brep_edge_select.py:357-399 -/
def byDirection (edges : List Edge) (dir : V3) (tolerance : ℝ) : List Edge :=
  if norm dir < 1 / 1000000000000 then []
  else edges.filter fun e => match direction e with
    | none => false
    | some d => decide (Real.cos (radians tolerance) ≤ |dot d (over dir (norm dir))|)

/-- `select_vertical_edges`, brep_edge_select.py:300-311 -/
def vertical (edges : List Edge) (tolerance : ℝ) : List Edge := byDirection edges (0, 0, 1) tolerance

open Classical in
/-- `select_horizontal_edges`, brep_edge_select.py:314-354 -/
def horizontal (edges : List Edge) (tolerance : ℝ) : List Edge :=
  edges.filter fun e => match direction e with
    | none => false
    | some d => decide (|dot d (0, 0, 1)| ≤ Real.sin (radians tolerance))

open Classical in
/-- `select_edges_by_length`, brep_edge_select.py:402-431 -/
def byLength (edges : List Edge) (lo hi : Option ℝ) : List Edge :=
  edges.filter fun e =>
    if lo.any (fun m => decide (lengthOf e < m)) then false
    else if hi.any (fun m => decide (lengthOf e > m)) then false
    else true

open Classical in
/-- `select_edges_at_z`, brep_edge_select.py:434-467 -/
def atZ (edges : List Edge) (z tolerance : ℝ) : List Edge :=
  edges.filter fun e => match endpoints e with
    | none => false
    | some (p, q) => decide (|p.2.2 - z| ≤ tolerance ∧ |q.2.2 - z| ≤ tolerance)

open Classical in
/-- `select_edges_in_z_range`, brep_edge_select.py:470-503 -/
def inRange (edges : List Edge) (lo hi tolerance : ℝ) : List Edge :=
  edges.filter fun e => match endpoints e with
    | none => false
    | some (p, q) => decide ((lo - tolerance ≤ p.2.2 ∧ p.2.2 ≤ hi + tolerance) ∧ lo - tolerance ≤ q.2.2 ∧ q.2.2 ≤ hi + tolerance)

open Classical in
/-- `select_edges_crossing_z`, brep_edge_select.py:506-542 -/
def crossing (edges : List Edge) (z tolerance : ℝ) : List Edge :=
  edges.filter fun e => match endpoints e with
    | none => false
    | some (p, q) => decide (min p.2.2 q.2.2 - tolerance < z ∧ z < max p.2.2 q.2.2 + tolerance)

open Classical in
/-- `if max_z is None or edge_max_z > max_z`, brep_edge_select.py:569-570 -/
def higher (m : Option ℝ) (x : ℝ) : Option ℝ := match m with
  | none => some x
  | some z => if x > z then some x else some z

/-- the loop for the greatest Z, brep_edge_select.py:559-570 -/
def topZ : List Edge → Option ℝ → Option ℝ
  | [], m => m
  | e :: es, m => match endpoints e with
    | none => topZ es m
    | some (p, q) => topZ es (higher m (max p.2.2 q.2.2))

/-- `select_top_edges`, brep_edge_select.py:545-575 -/
def top (edges : List Edge) (tolerance : ℝ) : List Edge :=
  match topZ edges none with
  | none => []
  | some z => atZ edges z tolerance

open Classical in
/-- `if min_z is None or edge_min_z < min_z`, brep_edge_select.py:602-603 -/
def lower (m : Option ℝ) (x : ℝ) : Option ℝ := match m with
  | none => some x
  | some z => if x < z then some x else some z

/-- the loop for the least Z, brep_edge_select.py:592-603 -/
def bottomZ : List Edge → Option ℝ → Option ℝ
  | [], m => m
  | e :: es, m => match endpoints e with
    | none => bottomZ es m
    | some (p, q) => bottomZ es (lower m (min p.2.2 q.2.2))

/-- `select_bottom_edges`, brep_edge_select.py:578-608 -/
def bottom (edges : List Edge) (tolerance : ℝ) : List Edge :=
  match bottomZ edges none with
  | none => []
  | some z => atZ edges z tolerance

open Classical in
/-- `select_edges_near_point`, brep_edge_select.py:611-643 -/
def near (edges : List Edge) (t : V3) (distance : ℝ) : List Edge :=
  edges.filter fun e => match midpoint e with
    | none => false
    | some m => decide (Real.sqrt ((m.1 - t.1) ^ 2 + (m.2.1 - t.2.1) ^ 2 + (m.2.2 - t.2.2) ^ 2) ≤ distance)

open Classical in
/-- `select_edges_in_cylinder`, brep_edge_select.py:646-702 -/
def inCylinder (edges : List Edge) (center : V3) (radius : ℝ) (axis : V3) : List Edge :=
  if norm axis < 1 / 1000000000000 then []
  else
    let a := over axis (norm axis)
    edges.filter fun e => match midpoint e with
      | none => false
      | some m =>
        let v := minus m center
        let proj := dot v a
        let p : V3 := (v.1 - proj * a.1, v.2.1 - proj * a.2.1, v.2.2 - proj * a.2.2)
        decide (norm p ≤ radius)

/-- `filter_curved_edges`, brep_edge_select.py:705-722 -/
def curved (edges : List Edge) : List Edge := edges.filter fun e => (direction e).isNone

/-- `filter_linear_edges`, brep_edge_select.py:725-742 -/
def linear (edges : List Edge) : List Edge := edges.filter fun e => (direction e).isSome

open Classical in
/-- `edge_info`, brep_edge_select.py:745-791: whether an edge is vertical -/
def isVertical (e : Edge) : Bool := match direction e with
  | none => false
  | some d => decide (|d.2.2| ≥ 9998 / 10000)

open Classical in
/-- `edge_info`, brep_edge_select.py:745-791: whether an edge is horizontal -/
def isHorizontal (e : Edge) : Bool := match direction e with
  | none => false
  | some d => decide (|d.2.2| ≤ 175 / 10000)

/-- one edge of `union_edges`, brep_edge_select.py:809-814: the hash codes seen and the result -/
def unionStep (st : List Int × List Edge) (e : Edge) : List Int × List Edge := if e.hash ∈ st.1 then st else (st.1 ++ [e.hash], st.2 ++ [e])

/-- `union_edges`, brep_edge_select.py:796-816 -/
def union (lists : List (List Edge)) : List Edge := (lists.flatten.foldl unionStep ([], [])).2

/-- `edge_by_hash[h]`, brep_edge_select.py:840, 848: the last edge with the hash code, of all lists -/
def byHash (all : List Edge) (h : Int) : Option Edge := all.reverse.find? fun e => decide (e.hash = h)

/-- `intersect_edges`, brep_edge_select.py:819-848. The result is in the order of a set; here in the order of the first list. -/
def intersect (lists : List (List Edge)) : List Edge :=
  match lists with
  | [] => []
  | l :: ls => (((l.map (·.hash)).dedup).filter fun h => ls.all fun l' => decide (h ∈ l'.map (·.hash))).filterMap (byHash (l :: ls).flatten)

/-- `subtract_edges`, brep_edge_select.py:851-867 -/
def subtract (base remove : List Edge) : List Edge := base.filter fun e => decide (e.hash ∉ remove.map (·.hash))

end
end Verif.Select
