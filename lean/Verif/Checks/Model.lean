import Verif.Surf.Model

/-!
# Model of `src/yapcad/geometry_checks.py`, `src/yapcad/geometry_utils.py` and `src/yapcad/triangulator.py`

Numbers are real numbers. A surface is that of `Verif.Surf.Model`; a value that is not a surface is `none`. The ear clipping library
called by `triangulate_polygon` is a parameter of the model.
-/

namespace Verif.Checks
open Verif.Geom Verif.Surf

/-! ## geometry_utils.py -/

/-- `triangle_normal`, geometry_utils.py:47-56; the result has `w = 0` here and no fourth component there -/
noncomputable def triangleNormal (v0 v1 v2 : V4) : Option V4 :=
  let n := cross (sub v1 v0) (sub v2 v0)
  if mag n ≤ eps then none else some ⟨n.x / mag n, n.y / mag n, n.z / mag n, 0⟩

/-- `triangle_area`, geometry_utils.py:59-65 -/
noncomputable def triangleArea (v0 v1 v2 : V4) : ℝ := 0.5 * mag (cross (sub v1 v0) (sub v2 v0))

/-- `triangle_is_degenerate`, geometry_utils.py:68-71 -/
def triangleIsDegenerate (v0 v1 v2 : V4) (tol : ℝ) : Prop := triangleArea v0 v1 v2 ≤ tol

/-- `orient_triangle`, geometry_utils.py:74-83 -/
noncomputable def orientTriangle (v0 v1 v2 preferred : V4) : V4 × V4 × V4 :=
  match triangleNormal v0 v1 v2 with
  | none => (v0, v1, v2)
  | some c => if dot c preferred < 0 then (v0, v2, v1) else (v0, v1, v2)

/-- `triangle_centroid`, geometry_utils.py:86-93 -/
noncomputable def triangleCentroid (v0 v1 v2 : V4) : V4 :=
  ⟨(v0.x + v1.x + v2.x) / 3, (v0.y + v1.y + v2.y) / 3, (v0.z + v1.z + v2.z) / 3, 0⟩

/-! ## geometry_checks.py -/

/-- the warning messages, by their contents -/
inductive Warning
  | noFaces
  | inconsistent (faces : List Nat)
  | boundary (n : Nat)
  | multiplicity (edges : List (Int × Int))
  deriving DecidableEq

/-- `CheckResult`, geometry_checks.py:98-104 -/
structure Check where
  ok : Bool
  warnings : List Warning
  deriving DecidableEq

open Classical in
/-- `is_closed_polygon`, geometry_checks.py:13-22; a point with fewer than three components is `none` -/
noncomputable def isClosedPolygon (points : List (Option V4)) (tol : ℝ) : Bool :=
  match points.head?, points.getLast? with
  | some (some p), some (some q) => decide (dist p q ≤ tol)
  | _, _ => false

/-- the loop of `faces_oriented`, geometry_checks.py:34-53: the number of the face, the reference and the list so far -/
noncomputable def orientLoop (vs : List V4) (i : Nat) (ref : Option V4) (bad : List Nat) :
    List (List Int) → Except Err (Option V4 × List Nat)
  | [] => .ok (ref, bad)
  | [a, b, c] :: fs =>
    match pyGet vs a, pyGet vs b, pyGet vs c with
    | .ok v0, .ok v1, .ok v2 =>
      match triangleNormal v0 v1 v2 with
      | none => orientLoop vs (i + 1) ref bad fs
      | some n =>
        match ref with
        | none => orientLoop vs (i + 1) (some n) bad fs
        | some r => orientLoop vs (i + 1) ref (if dot r n < -eps then bad ++ [i] else bad) fs
    | _, _, _ => .error .indexError
  | _ :: fs => orientLoop vs (i + 1) ref bad fs

/-- `faces_oriented`, geometry_checks.py:25-59 -/
noncomputable def facesOriented (s : Option Surface) : Except Err Check :=
  match s with
  | none => .error .valueError
  | some s =>
    match orientLoop s.verts 0 none [] s.faces with
    | .error e => .error e
    | .ok (none, _) => .ok ⟨true, [.noFaces]⟩
    | .ok (some _, bad) => if bad ≠ [] then .ok ⟨false, [.inconsistent bad]⟩ else .ok ⟨true, []⟩

/-- `_edge_key`, geometry_checks.py:94-95 -/
def edgeKey (a b : Int) : Int × Int := if a < b then (a, b) else (b, a)

/-- the edges counted for a face, geometry_checks.py:71-77 -/
def faceEdges : List Int → List (Int × Int)
  | [a, b, c] => [edgeKey a b, edgeKey b c, edgeKey c a]
  | _ => []

/-- `surface_watertight`, geometry_checks.py:62-91; the counter is a dictionary, kept as a list of entries -/
noncomputable def surfaceWatertight (s : Option Surface) : Except Err Check :=
  match s with
  | none => .error .valueError
  | some s =>
    let edges := (s.faces.flatMap faceEdges).foldl bump []
    let boundary := (edges.filter fun e => e.2 == 1).map Prod.fst
    let invalid := (edges.filter fun e => decide (e.2 > 2)).map Prod.fst
    .ok ⟨boundary.isEmpty && invalid.isEmpty,
      (if boundary ≠ [] then [.boundary boundary.length] else []) ++ (if invalid ≠ [] then [.multiplicity invalid] else [])⟩

/-! ## triangulator.py -/

/-- a pair of numbers -/
abbrev P2 := ℝ × ℝ

/-- `_near`, triangulator.py:94-95 -/
def near (p q : P2) : Prop := |p.1 - q.1| ≤ eps ∧ |p.2 - q.2| ≤ eps

/-- the sum of `_signed_area`, triangulator.py:100-102: over the points and their successors, `first` following the last one -/
def areaSum (first : P2) : List P2 → ℝ
  | [] => 0
  | [p] => p.1 * first.2 - first.1 * p.2
  | p :: q :: l => (p.1 * q.2 - q.1 * p.2) + areaSum first (q :: l)

/-- `_signed_area`, triangulator.py:98-103 -/
noncomputable def signedArea : List P2 → ℝ
  | [] => 0
  | p :: l => areaSum p (p :: l) / 2

open Classical in
/-- the first loop of `_prepare_loop`, triangulator.py:76-80: the list so far -/
noncomputable def dedup (loop : List P2) : List P2 → List P2
  | [] => loop
  | p :: ps =>
    match loop.getLast? with
    | some q => if near q p then dedup loop ps else dedup (loop ++ [p]) ps
    | none => dedup [p] ps

open Classical in
/-- the removal of the closing point, triangulator.py:81-82 -/
noncomputable def dropClosing (loop : List P2) : List P2 :=
  match loop.head?, loop.getLast? with
  | some p, some q => if near p q then loop.dropLast else loop
  | _, _ => loop

/-- `_prepare_loop`, triangulator.py:74-91 -/
noncomputable def prepareLoop (points : List P2) (wantCcw : Bool) : List P2 :=
  let loop := dropClosing (dedup [] points)
  if loop.length < 3 then loop
  else if wantCcw ∧ signedArea loop < 0 then loop.reverse
  else if ¬ wantCcw ∧ signedArea loop > 0 then loop.reverse
  else loop

/-- the holes that are used, triangulator.py:59-63 -/
noncomputable def holeLoops (holes : List (List P2)) : List (List P2) :=
  (holes.map fun h => prepareLoop h false).filter fun l => decide (3 ≤ l.length)

/-- `ring_ends`, triangulator.py:47-57 -/
def ringEnds (n : Nat) : List (List P2) → List Nat
  | [] => []
  | l :: ls => (n + l.length) :: ringEnds (n + l.length) ls

/-- the triangles of the indices, triangulator.py:68-71; a number of indices that is not a multiple of three raises `IndexError` -/
def gather (pts : List P2) : List Nat → Except Err (List (P2 × P2 × P2))
  | [] => .ok []
  | i :: j :: k :: is =>
    match pts[i]?, pts[j]?, pts[k]? with
    | some a, some b, some c =>
      match gather pts is with
      | .error e => .error e
      | .ok ts => .ok ((a, b, c) :: ts)
    | _, _, _ => .error .indexError
  | _ => .error .indexError

/-- `triangulate_polygon`, triangulator.py:28-72; `earcut` is the library function, on points and ring ends -/
noncomputable def triangulatePolygon (earcut : List P2 → List Nat → List Nat) (outer : List P2) (holes : List (List P2)) :
    Except Err (List (P2 × P2 × P2)) :=
  let outerLoop := prepareLoop outer true
  if outerLoop.length < 3 then .ok []
  else
    let loops := outerLoop :: holeLoops holes
    gather loops.flatten (earcut loops.flatten (ringEnds 0 loops))

end Verif.Checks
