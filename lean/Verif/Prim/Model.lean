import Verif.Surf.Model
import Mathlib.Analysis.SpecialFunctions.Trigonometric.Inverse
import Mathlib.Analysis.SpecialFunctions.Log.Base

/-!
# Model of the solid primitives of `src/yapcad/geom3d_util.py`

Numbers are real numbers (no floating-point rounding). The metadata and the BREP representations (OpenCascade) are
left out; the construction call stored in a solid too (see `Verif.Surf.Model`). `solid(surfaces, [], [..])` only runs the
fast check `issurface`, which every surface built here passes, so it is the identity on the list of surfaces.
-/

namespace Verif.Prim
open Verif.Geom Verif.Surf Real

/-- `vect(x,y,z,0)` -/
def dir (x y z : ℝ) : V4 := ⟨x, y, z, 0⟩

open Classical in
/-- `tri2p0n(face)` without the basis: centre and normal, geom3d.py:202-231 -/
noncomputable def tri2p0n (p1 p2 p3 : V4) : Except Err (V4 × V4) :=
  let p0 := scale3 (add p1 (add p2 p3)) (1 / 3)
  let c := cross (sub p2 p1) (sub p3 p2)
  let m := mag c
  if m < eps then .error .valueError
  else
    let n := scale3 c (1 / m)
    .ok (p0, ⟨n.x, n.y, n.z, 0⟩)

/-! ## prism -/

/-- `rectangularPlane`, geom3d_util.py:394-411 -/
noncomputable def rectangularPlane (length width : ℝ) (center : V4) : Except Err Surface :=
  let l := pt length 0 0
  let w := pt 0 width 0
  let p0 := add center (scale3 (add l w) (-0.5))
  let p1 := add p0 l
  let p2 := add p1 w
  let p3 := add p0 w
  let n := dir 0 0 1
  match mkSurface [p0, p1, p2, p3] [n, n, n, n] [[0, 1, 2], [2, 3, 0]] [] with
  | .error e => .error e
  | .ok s => .ok { s with boundary := [0, 1, 2, 3], holes := [] }

open Classical in
/-- `prism`, geom3d_util.py:414-448 -/
noncomputable def prism (length width height : ℝ) (center : V4) : Except Err Solid :=
  let l2 := length / 2
  let w2 := width / 2
  let h2 := height / 2
  match rectangularPlane length width (pt 0 0 h2) with
  | .error e => .error e
  | .ok topS =>
  match rotatesurface topS 180 (axis := pt 1 0 0) with
  | .error e => .error e
  | .ok bottomS =>
  match rectangularPlane length height (pt 0 0 w2) with
  | .error e => .error e
  | .ok frontS =>
  match rotatesurface frontS 90 (axis := pt 1 0 0) with
  | .error e => .error e
  | .ok frontS =>
  match rotatesurface frontS 180 with
  | .error e => .error e
  | .ok backS =>
  match rectangularPlane height width (pt 0 0 l2) with
  | .error e => .error e
  | .ok rightS =>
  match rotatesurface rightS 90 (axis := pt 0 1 0) with
  | .error e => .error e
  | .ok rightS =>
  match rotatesurface rightS 180 with
  | .error e => .error e
  | .ok leftS =>
  let surfaces := [topS, bottomS, frontS, backS, rightS, leftS]
  if ¬ vclose center (pt 0 0 0) then .ok ⟨surfaces.map fun s => translatesurface s center⟩ else .ok ⟨surfaces⟩

/-! ## adaptive resolution -/

/-- clamping, `max(lo, min(hi, k))`, geom3d_util.py:64, 95 -/
def clamp (lo hi k : ℤ) : ℤ := max lo (min hi k)

/-- the default chord length, geom3d_util.py:68-78 -/
noncomputable def defaultChord (radius : ℝ) : ℝ :=
  if radius ≥ 50 then 1
  else if radius ≤ 2.5 then 0.1
  else 0.1 * (10 : ℝ) ^ ((log radius - log 2.5) / (log 50 - log 2.5))

/-- the segment count from a chord length, geom3d_util.py:80-95 -/
noncomputable def chordSegments (radius maxChord : ℝ) (minSegs maxSegs : ℤ) : Except Err ℤ :=
  let mc := min maxChord (2 * radius * 0.95)
  let s := mc / (2 * radius)
  if s ≥ 1 then .ok minSegs
  else if s < -1 then .error .valueError  -- math.asin outside its domain
  else if arcsin s = 0 then .error .zeroDivision
  else .ok (clamp minSegs maxSegs ⌈π / arcsin s⌉)

/-- `adaptive_arc_segments`, geom3d_util.py:23-95 -/
noncomputable def adaptiveArcSegments (radius : ℝ) (chordError maxChord : Option ℝ) (minSegs : ℤ := 16) (maxSegs : ℤ := 360) :
    Except Err ℤ :=
  if radius ≤ 0 then .ok 36
  else
    match chordError with
    | some ce =>
      if ce ≤ 0 then .ok 36
      else
        let ratio := min (ce / radius) 0.999999
        let theta := 2 * arccos (1 - ratio)
        .ok (clamp minSegs maxSegs ⌈2 * π / theta⌉)
    | none => chordSegments radius (maxChord.getD (defaultChord radius)) minSegs maxSegs

/-- `adaptive_angr_from_radius`, geom3d_util.py:98-114 -/
noncomputable def adaptiveAngr (radius : ℝ) (chordError maxChord : Option ℝ) (minAngr : ℝ := 1) (maxAngr : ℝ := 10) :
    Except Err ℝ :=
  match adaptiveArcSegments radius chordError maxChord with
  | .error e => .error e
  | .ok k => if k = 0 then .error .zeroDivision else .ok (max minAngr (min maxAngr (360 / k)))

/-! ## circles, cylinders, cones -/

/-- the resolution used, geom3d_util.py:588-592 -/
noncomputable def circleAngr (radius : ℝ) (angr chordError maxChord : Option ℝ) : Except Err ℝ :=
  match angr with
  | none => adaptiveAngr radius chordError maxChord
  | some a => if a < 1 ∨ a > 45 then .error .valueError else .ok a

/-- the i-th point of the circle with `n` samples, geom3d_util.py:595-602 -/
noncomputable def circlePoint (center : V4) (radius : ℝ) (n i : Nat) : V4 :=
  let angr := 360 / (n : ℝ)
  let theta := (i : ℝ) * angr * (2 * π) / 360
  add (pt (cos theta * radius) (sin theta * radius) 0) center

/-- the faces, geom3d_util.py:605-618; `i` runs over 1, …, `ll` -/
def circleFaces (ll : Nat) (zup : Bool) : List (List Int) :=
  let rng : List Nat := (List.range ll).map (· + 1)
  if zup then rng.map fun i : Nat => [0, (i : Int), ((1 + i % ll : Nat) : Int)]
  else rng.reverse.map fun i : Nat => [0, ((1 + i % ll : Nat) : Int), (i : Int)]

/-- `circleSurface`, geom3d_util.py:575-630 -/
noncomputable def circleSurface (center : V4) (radius : ℝ) (angr : Option ℝ) (zup : Bool) (chordError maxChord : Option ℝ := none) :
    Except Err Surface :=
  match circleAngr radius angr chordError maxChord with
  | .error e => .error e
  | .ok a =>
    if pyround (360 / a) = 0 then .error .zeroDivision
    else
    let samples := (pyround (360 / a)).toNat
    let basep := center :: (List.range samples).map (circlePoint center radius samples)
    let basef := circleFaces (basep.length - 1) zup
    let n := dir 0 0 (if zup then 1 else -1)
    match mkSurface basep (List.replicate basep.length n) basef [] with
    | .error e => .error e
    | .ok s => .ok { s with boundary := (List.range (basep.length - 1)).map (fun i : Nat => (i : Int) + 1), holes := [] }

/-- Python's `i % n` for an index that may be -1 -/
def wrap (i : Int) (n : Nat) : Nat := (i % (n : Int)).toNat

/-- the normals of the side of a frustum, geom3d_util.py:700-711: `none` in the list = index out of range, which does
not happen -/
noncomputable def frustumNormals (cylV : List V4) (ll : Nat) : List Nat → Except Err (List V4)
  | [] => .ok []
  | i :: is =>
    match pyGet cylV (wrap ((i : Int) - 1) ll), pyGet cylV (wrap ((i : Int) + 1) ll), pyGet cylV ((ll + i : Nat) : Int) with
    | .ok p0, .ok p1, .ok p2 =>
      match tri2p0n p0 p1 p2 with
      | .error e => .error e
      | .ok r => match frustumNormals cylV ll is with
        | .error e => .error e
        | .ok ns => .ok (r.2 :: ns)
    | _, _, _ => .error .indexError

/-- the faces of the side of a frustum, geom3d_util.py:705-706 -/
def frustumFaces (ll : Nat) : List (List Int) :=
  (List.range ll).flatMap fun i : Nat =>
    [[(i : Int), (((i + 1) % ll : Nat) : Int), ((ll + (i + 1) % ll : Nat) : Int)],
     [(i : Int), ((ll + (i + 1) % ll : Nat) : Int), ((ll + i : Nat) : Int)]]

/-- one round of the loop over the perimeter of a cone, geom3d_util.py:733-748; the state is the faces and the
normals; a degenerate face is skipped -/
noncomputable def coneStep (conV : List V4) (st : List (List Int) × List V4) (i : Nat) : Except Err (List (List Int) × List V4) :=
  let k := conV.length - 1
  let prev := wrap ((i : Int) - 2) k + 1
  let next := i % k + 1
  match pyGet conV 0, pyGet conV (prev : Int), pyGet conV (next : Int) with
  | .ok p0, .ok p1, .ok p2 =>
    match tri2p0n p0 p1 p2 with
    | .error .valueError => .ok st
    | .error e => .error e
    | .ok r => .ok (st.1 ++ [[0, (i : Int), (next : Int)]], st.2.set i r.2)
  | _, _, _ => .error .indexError

/-- the loop, geom3d_util.py:733-748 -/
noncomputable def coneLoop (conV : List V4) (st : List (List Int) × List V4) : List Nat → Except Err (List (List Int) × List V4)
  | [] => .ok st
  | i :: is => match coneStep conV st i with
    | .error e => .error e
    | .ok st => coneLoop conV st is

open Classical in
/-- `conic`, geom3d_util.py:632-757 -/
noncomputable def conic (baser topr height : ℝ) (center : V4) (angr : Option ℝ := none) (chordError maxChord : Option ℝ := none) :
    Except Err Solid :=
  let res := match angr with
    | none => adaptiveAngr (max baser (if topr ≥ eps then topr else baser)) chordError maxChord
    | some a => .ok a
  match res with
  | .error e => .error e
  | .ok angr =>
  if baser < eps then .error .valueError
  else if ¬ ispoint center then .error .valueError
  else if topr < 0 then .error .valueError
  else if height < eps then .error .valueError
  else
    match circleSurface center baser (some angr) false with
    | .error e => .error e
    | .ok baseS =>
    if ¬ topr < eps then
      match circleSurface (add center (pt 0 0 height)) topr (some angr) true with
      | .error e => .error e
      | .ok topS =>
        let cylV := baseS.verts.drop 1 ++ topS.verts.drop 1
        let ll := baseS.verts.length - 1
        match frustumNormals cylV ll (List.range ll) with
        | .error e => .error e
        | .ok ns =>
          match mkSurface cylV (ns ++ ns) (frustumFaces ll) [] with
          | .error e => .error e
          | .ok cylS => .ok ⟨[baseS, cylS, topS]⟩
    else
      let conV := add center (pt 0 0 height) :: baseS.verts.drop 1
      match coneLoop conV ([], List.replicate conV.length (dir 0 0 1)) ((List.range (conV.length - 1)).map (· + 1)) with
      | .error e => .error e
      | .ok (conF, conN) =>
        match mkSurface conV conN conF [] with
        | .error e => .error e
        | .ok conS => .ok ⟨[baseS, conS]⟩

end Verif.Prim
