import Verif.Geom.Arc

/-!
# Model of sketches in geometry documents: `src/yapcad/io/geometry_json.py:201-334, 471-574`

A sketch is a geometry list. Numbers are real (the int 0 and the float 0.0 are the same). Of the sampled polylines, which are used on loading only if a sketch has no primitives, those of arcs and curves
are left out; so are the bounding box and the metadata.
-/

namespace Verif.Sketch
open Verif.Geom

/-- an ellipse made by `ellipse`, geom.py:700-768; the normal has w = 0 -/
structure Ellipse where
  center : V4
  semiMajor : ℝ
  semiMinor : ℝ
  rotation : ℝ
  start : ℝ
  stop : ℝ
  normal : V4

/-- a Catmull-Rom spline, geom.py:421-466 -/
structure Catmull where
  points : List V4
  closed : Bool
  alpha : ℝ

/-- a NURBS curve, geom.py:480-559 -/
structure Nurbs where
  points : List V4
  degree : ℕ
  weights : List ℝ
  knots : List ℝ

/-- an element of a geometry list, geom.py:3371-3382; `list` is a nested list that is not a line or a polyline -/
inductive Elem
  | point (p : V4)
  | line (l : Line)
  | arc (a : Arc)
  | ellipse (e : Ellipse)
  | catmull (c : Catmull)
  | nurbs (n : Nurbs)
  | poly (ps : List V4)
  | list (es : List Elem)

/-- an entry of `primitives`; `other` is an entry of a kind `geometry_from_json` does not know -/
inductive Prim
  | line (start stop : ℝ × ℝ)
  | circle (center : V4) (radius : ℝ) (orientation : Int) (normal : Option V4)
  | arc (center : V4) (radius start stop : ℝ) (orientation : Int) (normal : Option V4)
  | ellipse (center : V4) (semiMajor semiMinor rotation start stop : ℝ) (normal : V4)
  | catmull (points : List V4) (closed : Bool) (alpha : ℝ)
  | nurbs (points : List V4) (degree : ℕ) (weights knots : Option (List ℝ))
  | polyline (points : List (ℝ × ℝ))
  | other

/-- the pseudovector's last entry -/
def orientation (a : Arc) : Int := if a.rev then -2 else -1

/-- `_polyline_points`, geometry_json.py:201-202 -/
def flat (p : V4) : ℝ × ℝ := (p.x, p.y)

open Classical in
/-- the arcs of `_serialize_sketch`, geometry_json.py:239-270: they are sampled, which raises for planes other than xy (geom.py:2421-2424) -/
noncomputable def saveArc (a : Arc) : Except Err (List Prim) :=
  if ¬ normalOk a then .error .notImplemented
  else if iscircle a then .ok [.circle a.c a.r (orientation a) a.normal]
  else .ok [.arc a.c a.r a.s a.e (orientation a) a.normal]

/-- one element of `_serialize_sketch`, geometry_json.py:227-307. A nested list of at least two elements raises (`TypeError`, `ValueError` or `IndexError`; here `TypeError`); points and
shorter lists are left out. -/
noncomputable def saveElem : Elem → Except Err (List Prim)
  | .line l => .ok [.line (flat l.a) (flat l.b)]
  | .arc a => saveArc a
  | .ellipse e => .ok [.ellipse e.center e.semiMajor e.semiMinor e.rotation e.start e.stop e.normal]
  | .catmull c => .ok [.catmull c.points c.closed c.alpha]
  | .nurbs n => .ok [.nurbs n.points n.degree (some n.weights) (some n.knots)]
  | .poly ps => .ok [.polyline (ps.map flat)]
  | .point _ => .ok []
  | .list es => if es.length < 2 then .ok [] else .error .typeError

/-- the primitives of `_serialize_sketch` -/
noncomputable def save : List Elem → Except Err (List Prim)
  | [] => .ok []
  | e :: es => match saveElem e with
    | .error x => .error x
    | .ok ps => match save es with
      | .error x => .error x
      | .ok qs => .ok (ps ++ qs)

open Classical in
/-- `arc(center, vect_data, normal)`, geom.py:2289-2328: the last entry of the pseudovector becomes -1 -/
noncomputable def mkArc (c : V4) (r s e : ℝ) (n : Option V4) : Except Err Arc :=
  if ¬ ispoint c then .error .valueError
  else if r < 0 then .error .valueError
  else match n with
    | none => .ok ⟨c, r, s, e, false, none⟩
    | some n => if ispoint n ∧ ¬ |mag n - 1| > eps then .ok ⟨c, r, s, e, false, some n⟩ else .error .valueError

open Classical in
/-- `ellipse`, geom.py:733-768 -/
noncomputable def mkEllipse (c : V4) (a b rot s e : ℝ) (n : V4) : Except Err Ellipse :=
  if ¬ 0 < a then .error .valueError
  else if ¬ 0 < b then .error .valueError
  else if mag n < 1e-10 then .error .valueError
  else
    let n : V4 := ⟨n.x / mag n, n.y / mag n, n.z / mag n, 0⟩
    if b > a then .ok ⟨c, b, a, rot + 90, s, e, n⟩ else .ok ⟨c, a, b, rot, s, e, n⟩

/-- `catmullrom`, geom.py:463-466; points (here and in `nurbs`) have w > 0 -/
def mkCatmull (ps : List V4) (closed : Bool) (alpha : ℝ) : Except Err Catmull :=
  if ps.length < 2 then .error .valueError else .ok ⟨ps, closed, alpha⟩

/-- `_open_uniform_knot_vector`, geom.py:1580-1593, for `count ≥ degree + 1` -/
noncomputable def openKnots (count degree : ℕ) : List ℝ :=
  (List.replicate (degree + 1) 0 ++ ((List.range (count - degree - 1)).map fun j : ℕ => ((j : ℝ) + 1) / ((count : ℝ) - degree)) ++ List.replicate (degree + 1) 1).take (count + degree + 1)

/-- `nurbs`, geom.py:536-559 -/
noncomputable def mkNurbs (ps : List V4) (degree : ℕ) (weights knots : Option (List ℝ)) : Except Err Nurbs :=
  if ps.length = 0 then .error .valueError
  else if degree < 1 then .error .valueError
  else if ps.length < degree + 1 then .error .valueError
  else if weights.any fun w => decide (w.length ≠ ps.length) then .error .valueError
  else if knots.any fun k => decide (k.length ≠ ps.length + degree + 1) then .error .valueError
  else .ok ⟨ps, degree, weights.getD (List.replicate ps.length 1), knots.getD (openKnots ps.length degree)⟩

/-- the lines between consecutive points, geometry_json.py:521-524, 566-569 -/
def chain : List (ℝ × ℝ) → List Elem
  | p :: q :: ps => .line ⟨pt p.1 p.2, pt q.1 q.2⟩ :: chain (q :: ps)
  | _ => []

/-- a result as the only element -/
def one {X : Type} (f : X → Elem) : Except Err X → Except Err (List Elem)
  | .ok x => .ok [f x]
  | .error e => .error e

/-- one primitive, geometry_json.py:478-552 -/
noncomputable def loadPrim : Prim → Except Err (List Elem)
  | .line s e => .ok [.line ⟨pt s.1 s.2, pt e.1 e.2⟩]
  | .circle c r _ n => one .arc (mkArc c r 0 360 n)
  | .arc c r s e _ n => one .arc (mkArc c r s e n)
  | .ellipse c a b rot s e n => one .ellipse (mkEllipse c a b rot s e n)
  | .polyline ps => .ok (chain ps)
  | .catmull ps cl al => one .catmull (mkCatmull ps cl al)
  | .nurbs ps d w k => one .nurbs (mkNurbs ps d w k)
  | .other => .ok []

/-- the elements of a sketch -/
noncomputable def load : List Prim → Except Err (List Elem)
  | [] => .ok []
  | p :: ps => match loadPrim p with
    | .error x => .error x
    | .ok es => match load ps with
      | .error x => .error x
      | .ok fs => .ok (es ++ fs)

/-- an entry of type sketch -/
structure Entry where
  primitives : List Prim
  polylines : List (List (ℝ × ℝ))

/-- one sketch, geometry_json.py:475-570: its elements, none if there is nothing to append -/
noncomputable def loadSketch (s : Entry) : Except Err (List (List Elem)) :=
  match load s.primitives with
  | .error x => .error x
  | .ok (e :: es) => .ok [e :: es]
  | .ok [] => if s.polylines.flatMap chain = [] then .ok [] else .ok [s.polylines.flatMap chain]

/-- the sketches of a document without solids, geometry_json.py:474-572 -/
noncomputable def loadAll : List Entry → Except Err (List (List Elem))
  | [] => .ok []
  | s :: ss => match loadSketch s with
    | .error x => .error x
    | .ok ls => match loadAll ss with
      | .error x => .error x
      | .ok ms => .ok (ls ++ ms)

/-- the polylines of `_serialize_sketch` for an element; `arcs` gives the samples of arcs and curves -/
def polylineOf (arcs : Elem → List (ℝ × ℝ)) : Elem → List (List (ℝ × ℝ))
  | .line l => [[flat l.a, flat l.b]]
  | .poly ps => [ps.map flat]
  | .point _ => []
  | .list _ => []
  | e => [arcs e]

/-- `_serialize_sketch`, geometry_json.py:223-334 -/
noncomputable def saveSketch (arcs : Elem → List (ℝ × ℝ)) (es : List Elem) : Except Err Entry :=
  match save es with
  | .error x => .error x
  | .ok ps => .ok ⟨ps, es.flatMap (polylineOf arcs)⟩

end Verif.Sketch
