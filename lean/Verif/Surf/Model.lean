import Verif.Geom.Poly
import Verif.Geom.Fig

/-!
# Model of the surfaces and solids of `src/yapcad/geom3d.py`

Numbers are real numbers (no floating-point rounding), see `Verif.Geom.Vec`. The metadata dictionary of a
surface, and the material, construction and metadata entries of a solid, are only copied by the functions
modelled here and are left out; so are the optional BREP representations (`yapcad.brep`,
`yapcad.native_brep`: OpenCascade is not available).
-/

namespace Verif.Surf
open Verif.Geom

/-- a surface `['surface', vertices, normals, faces, boundary, holes]`, geom3d.py:93-140 -/
structure Surface where
  verts : List V4
  norms : List V4
  faces : List (List Int)
  boundary : List Int
  holes : List (List Int)

/-- a solid `['solid', surfaces, material, construction]`, geom3d.py:141-152 -/
structure Solid where
  surfs : List Surface

/-- a triangle, three positions in order -/
structure Tri where
  a : V4
  b : V4
  c : V4

/-! ## indexing -/

/-- `list[i]` for an integer `i`: negative indices count from the end -/
def pyGet {α : Type} (l : List α) (i : Int) : Except Err α :=
  let j := if i < 0 then i + l.length else i
  if j < 0 then .error .indexError
  else match l[j.toNat]? with
    | none => .error .indexError
    | some x => .ok x

/-- an index as the checks see it: an `int` or a float -/
inductive Ix
  | int (i : Int)
  | float (x : ℝ)

open Classical in
/-- the test inside `filterInds`, geom3d.py:586-588: `not (isinstance(x,int) or x < 0 or x >= l)` -/
noncomputable def badInd (l : Nat) : Ix → Bool
  | .int _ => false
  | .float x => decide (¬ (x < 0 ∨ x ≥ l))

/-- `filterInds`, geom3d.py:582-588 -/
noncomputable def filterInds (inds : List Ix) (n : Nat) : Bool :=
  if n < 3 then false else (inds.filter (badInd n)).length == 0

/-- `isdirectlist`, geom.py:1668-1669 -/
def isdirectlist (ns : List V4) : Prop := ∀ n ∈ ns, close n.w 0

open Classical in
/-- `issurface(s, fast=False)`, geom3d.py:578-617 -/
noncomputable def issurface (s : Surface) : Bool :=
  if ¬ ispoly s.verts ∨ ¬ isdirectlist s.norms ∨ s.verts.length ≠ s.norms.length then false
  else if (s.faces.filter fun x => !(x.length == 3)).length > 0 then false
  else if !(filterInds (s.faces.flatten.map .int) s.verts.length) then false
  else if !(filterInds (s.boundary.map .int) s.verts.length) then false
  else s.holes.all fun h => filterInds (h.map .int) s.verts.length

/-- `issolid(s, fast=False)`, geom3d.py:784-804 -/
noncomputable def issolid (x : Solid) : Bool := x.surfs.all issurface

/-! ## the constructor -/

/-- an optional argument of `surface(...)`: a dictionary, a list of indices, a non-empty list of index lists,
or anything else -/
inductive Extra
  | dict
  | ints (l : List Int)
  | lists (h : List Int) (t : List (List Int))
  | other

/-- is the argument an empty list -/
def Extra.isEmpty : Extra → Bool
  | .ints [] => true
  | _ => false

/-- the loop over the optional arguments, geom3d.py:488-501: the state is (boundary, holes, has metadata) -/
def extraStep (st : Extra × Extra × Bool) : Extra → Except Err (Extra × Extra × Bool)
  | .dict => if st.2.2 then .error .valueError else .ok (st.1, st.2.1, true)
  | .other => .error .valueError
  | item =>
    if st.1.isEmpty then .ok (item, st.2.1, st.2.2)
    else if st.2.1.isEmpty then .ok (st.1, item, st.2.2)
    else .error .valueError

/-- the loop -/
def extrasLoop (st : Extra × Extra × Bool) : List Extra → Except Err (Extra × Extra × Bool)
  | [] => .ok st
  | x :: xs => match extraStep st x with
    | .error e => .error e
    | .ok st => extrasLoop st xs

/-- the boundary as the final check reads it: comparing a list with a number is a `TypeError`
(geom3d.py:586-588, 609) -/
def asBoundary : Extra → Except Err (List Int)
  | .ints l => .ok l
  | _ => .error .typeError

/-- the holes as the final check reads it: iterating over an integer is a `TypeError` (geom3d.py:611-614) -/
def asHoles : Extra → Except Err (List (List Int))
  | .ints [] => .ok []
  | .lists h t => .ok (h :: t)
  | _ => .error .typeError

/-- `surface(vertices, normals, faces, *extras)`, geom3d.py:475-510. The final check reads the boundary before
the holes, and only if the checks before them passed. -/
noncomputable def mkSurface (vs ns : List V4) (fs : List (List Int)) (extras : List Extra) : Except Err Surface :=
  if extras.length > 3 then .error .valueError
  else if vs.length ≠ ns.length then .error .valueError
  else
    match extrasLoop (.ints [], .ints [], false) extras with
    | .error e => .error e
    | .ok (b, h, _) =>
      if !(issurface ⟨vs, ns, fs, [], []⟩) then .error .valueError
      else
        match asBoundary b with
        | .error e => .error e
        | .ok b =>
          match asHoles h with
          | .error e => .error e
          | .ok h => if issurface ⟨vs, ns, fs, b, h⟩ then .ok ⟨vs, ns, fs, b, h⟩ else .error .valueError

/-! ## bounding boxes -/

/-- `surfacebbox`, geom3d.py:512-516; `none` = `False` -/
noncomputable def surfacebbox (s : Surface) : Option Box := polybbox s.verts

/-- one step of `solidbbox`, geom3d.py:811-822; `none` = no box yet -/
noncomputable def boxStep (box : Option Box) (s : Surface) : Except Err (Option Box) :=
  match box with
  | none => .ok (surfacebbox s)
  | some b =>
    match surfacebbox s with
    | none => .error .typeError
    | some sb => .ok (some
        ⟨pt (min b.lo.x sb.lo.x) (min b.lo.y sb.lo.y) (min b.lo.z sb.lo.z),
         pt (max b.hi.x sb.hi.x) (max b.hi.y sb.hi.y) (max b.hi.z sb.hi.z)⟩)

/-- the loop of `solidbbox`, geom3d.py:811-822 -/
noncomputable def boxLoop (box : Option Box) : List Surface → Except Err (Option Box)
  | [] => .ok box
  | s :: ss => match boxStep box s with
    | .error e => .error e
    | .ok box => boxLoop box ss

/-- `solidbbox`, geom3d.py:806-842, without the BREP fallback -/
noncomputable def solidbbox (x : Solid) : Except Err (Option Box) := boxLoop none x.surfs

/-! ## moving surfaces and solids -/

open Classical in
/-- `translatesurface`, geom3d.py:643-650 -/
noncomputable def translatesurface (s : Surface) (δ : V4) : Surface :=
  if vclose δ (pt 0 0 0) then s else { s with verts := s.verts.map fun p => add p δ }

open Classical in
/-- `rotatesurface`, geom3d.py:626-641 (no matrix given) -/
noncomputable def rotatesurface (s : Surface) (ang : ℝ) (cent : V4 := pt 0 0 0) (axis : V4 := pt 0 0 1) :
    Except Err Surface :=
  if close ang 0 then .ok s
  else
    match rotateMat ang cent axis with
    | .error e => .error e
    | .ok M => .ok { s with verts := s.verts.map (mulP M), norms := s.norms.map (mulP M) }

/-- `[x[0],x[2],x[1]]`, geom3d.py:664, 671 -/
def swapFace : List Int → Except Err (List Int)
  | a :: b :: c :: _ => .ok [a, c, b]
  | _ => .error .indexError

/-- the `map` over the faces -/
def swapFaces : List (List Int) → Except Err (List (List Int))
  | [] => .ok []
  | f :: fs => match swapFace f with
    | .error e => .error e
    | .ok f => match swapFaces fs with
      | .error e => .error e
      | .ok fs => .ok (f :: fs)

/-- `mirrorsurface`, geom3d.py:652-665 -/
noncomputable def mirrorsurface (s : Surface) (pl : Plane) : Except Err Surface :=
  match swapFaces s.faces with
  | .error e => .error e
  | .ok fs => .ok { s with
      verts := s.verts.map (fun p => mul4 p (flip pl)), norms := s.norms.map (fun p => mul4 p (flip pl)),
      faces := fs }

/-- `scale4`, geom.py:1721-1723 -/
def scale4 (a : V4) (c : ℝ) : V4 := ⟨a.x * c, a.y * c, a.z * c, a.w * c⟩

/-- `reversesurface`, geom3d.py:667-672 -/
noncomputable def reversesurface (s : Surface) : Except Err Surface :=
  match swapFaces s.faces with
  | .error e => .error e
  | .ok fs => .ok { s with norms := s.norms.map (fun n => scale4 n (-1)), faces := fs }

open Classical in
/-- the new normal, geom3d.py:719-726 -/
noncomputable def scaleNormal (sx sy sz : ℝ) (n : V4) : V4 :=
  let q := pt (1 / sx * n.x) (1 / sy * n.y) (1 / sz * n.z)
  let len := √(q.x ^ 2 + q.y ^ 2 + q.z ^ 2)
  if len > 1e-10 then ⟨q.x / len, q.y / len, q.z / len, 0⟩ else n

/-- `sy`, `sz` after the default is applied, geom3d.py:694-695; `none` = `False` -/
def uniform (sx : ℝ) : Option ℝ → Option ℝ → Option ℝ × Option ℝ
  | none, none => (some sx, some sx)
  | sy, sz => (sy, sz)

open Classical in
/-- `scalesurface`, geom3d.py:674-727; `False` counts as 0 in `close` and in the division -/
noncomputable def scalesurface (s : Surface) (sx : ℝ) (sy sz : Option ℝ) (cent : V4) : Except Err Surface :=
  let f := uniform sx sy sz
  if vclose (factorPoint sx f.1 f.2) (pt 1 1 1) then .ok s
  else
    match scaleMat sx f.1 f.2 cent with
    | none => .error .zeroDivision  -- unreachable: only the inverse divides
    | some M =>
      let y := f.1.getD 0
      let z := f.2.getD 0
      if ¬ close sx y ∨ ¬ close y z then
        if sx = 0 ∨ y = 0 ∨ z = 0 then .error .zeroDivision
        else .ok { s with verts := s.verts.map (mulP M), norms := s.norms.map (scaleNormal sx y z) }
      else .ok { s with verts := s.verts.map (mulP M) }

/-- apply a fallible operation to every surface, in order, as the loops geom3d.py:849-850, 869-870, 888-892,
937-938 do -/
def mapSurfs (f : Surface → Except Err Surface) : List Surface → Except Err (List Surface)
  | [] => .ok []
  | s :: ss => match f s with
    | .error e => .error e
    | .ok s => match mapSurfs f ss with
      | .error e => .error e
      | .ok ss => .ok (s :: ss)

/-- `translatesolid`, geom3d.py:844-862 -/
noncomputable def translatesolid (x : Solid) (δ : V4) : Solid := ⟨x.surfs.map fun s => translatesurface s δ⟩

/-- `rotatesolid`, geom3d.py:864-882 -/
noncomputable def rotatesolid (x : Solid) (ang : ℝ) (cent : V4 := pt 0 0 0) (axis : V4 := pt 0 0 1) :
    Except Err Solid :=
  match mapSurfs (fun s => rotatesurface s ang cent axis) x.surfs with
  | .error e => .error e
  | .ok ss => .ok ⟨ss⟩

/-- `mirrorsolid`, geom3d.py:884-904 (the call of `reversesurface` there is disabled by `and False`) -/
noncomputable def mirrorsolid (x : Solid) (pl : Plane) : Except Err Solid :=
  match mapSurfs (fun s => mirrorsurface s pl) x.surfs with
  | .error e => .error e
  | .ok ss => .ok ⟨ss⟩

open Classical in
/-- `scalesolid`, geom3d.py:906-957; the surfaces get the defaulted factors -/
noncomputable def scalesolid (x : Solid) (sx : ℝ) (sy sz : Option ℝ) (cent : V4) : Except Err Solid :=
  let f := uniform sx sy sz
  if vclose (factorPoint sx f.1 f.2) (pt 1 1 1) then .ok x
  else
    match mapSurfs (fun s => scalesurface s sx f.1 f.2 cent) x.surfs with
    | .error e => .error e
    | .ok ss => .ok ⟨ss⟩

/-! ## triangles of a solid -/

/-- the three corners of a face, geom3d.py:1027-1033, 1115-1121 -/
def faceTri (vs : List V4) : List Int → Except Err Tri
  | [i, j, k] =>
    match pyGet vs i with
    | .error e => .error e
    | .ok a => match pyGet vs j with
      | .error e => .error e
      | .ok b => match pyGet vs k with
        | .error e => .error e
        | .ok c => .ok ⟨a, b, c⟩
  | _ => .error .valueError

/-- the corners of all faces of a surface, in order -/
def faceTris (vs : List V4) : List (List Int) → Except Err (List Tri)
  | [] => .ok []
  | f :: fs => match faceTri vs f with
    | .error e => .error e
    | .ok t => match faceTris vs fs with
      | .error e => .error e
      | .ok ts => .ok (t :: ts)

/-- the corners of all faces of all surfaces, in the order the loops of `issolidclosed` and `volumeof` visit
them, geom3d.py:1021-1033, 1110-1121 -/
def solidTris : List Surface → Except Err (List Tri)
  | [] => .ok []
  | s :: ss => match faceTris s.verts s.faces with
    | .error e => .error e
    | .ok ts => match solidTris ss with
      | .error e => .error e
      | .ok us => .ok (ts ++ us)

/-! ## closedness -/

/-- Python's `round(x)`: to the nearest integer, ties to the even one -/
noncomputable def pyround (x : ℝ) : ℤ :=
  if x - ⌊x⌋ < 1 / 2 then ⌊x⌋ else if 1 / 2 < x - ⌊x⌋ then ⌊x⌋ + 1 else if ⌊x⌋ % 2 = 0 then ⌊x⌋ else ⌊x⌋ + 1

/-- a point key -/
abbrev Key := ℝ × ℝ × ℝ

/-- `_point_to_key`, geom3d.py:962-970 -/
noncomputable def pointKey (p : V4) : Key :=
  (pyround (p.x / eps) * eps, pyround (p.y / eps) * eps, pyround (p.z / eps) * eps)

/-- `<` on tuples: lexicographic -/
def keyLt (a b : Key) : Prop :=
  a.1 < b.1 ∨ (a.1 = b.1 ∧ (a.2.1 < b.2.1 ∨ (a.2.1 = b.2.1 ∧ a.2.2 < b.2.2)))

open Classical in
/-- `_canonical_edge_key`, geom3d.py:972-979: `(min(k1,k2), max(k1,k2))` -/
noncomputable def edgeKey (p q : V4) : Key × Key :=
  let k1 := pointKey p
  let k2 := pointKey q
  (if keyLt k2 k1 then k2 else k1, if keyLt k1 k2 then k2 else k1)

/-- the three edges of a face, geom3d.py:1036-1040 -/
noncomputable def triKeys (t : Tri) : List (Key × Key) := [edgeKey t.a t.b, edgeKey t.b t.c, edgeKey t.c t.a]

open Classical in
/-- `if edge not in count: count[edge] = 0; count[edge] += 1`, geom3d.py:1043-1046, on a dictionary kept as a
list of entries -/
noncomputable def bump {K : Type} (d : List (K × Nat)) (e : K) : List (K × Nat) :=
  match d with
  | [] => [(e, 1)]
  | (k, n) :: d => if k = e then (k, n + 1) :: d else (k, n) :: bump d e

/-- `issolidclosed`, geom3d.py:981-1056 -/
noncomputable def issolidclosed (x : Solid) : Except Err Bool :=
  if !(issolid x) then .error .valueError
  else if x.surfs.isEmpty then .ok true
  else
    match solidTris x.surfs with
    | .error e => .error e
    | .ok ts => .ok (((ts.flatMap triKeys).foldl bump []).all fun e => e.2 == 2)

/-! ## volume and area -/

/-- the contribution of one face, geom3d.py:1119-1131; `point` of a vertex of a checked surface is a copy -/
noncomputable def triVolume (t : Tri) : ℝ := dot t.a (cross (sub t.b t.a) (sub t.c t.a)) / 6

/-- `volumeof`, geom3d.py:1058-1137, without the BREP branch for solids without surfaces -/
noncomputable def volumeof (x : Solid) : Except Err ℝ :=
  if !(issolid x) then .error .valueError
  else
    match issolidclosed x with
    | .error e => .error e
    | .ok false => .error .valueError
    | .ok true =>
      if x.surfs.isEmpty then .ok 0
      else
        match solidTris x.surfs with
        | .error e => .error e
        | .ok ts => .ok |(ts.map triVolume).foldl (· + ·) 0|

/-- `triarea`, geom_util.py:611-618 -/
noncomputable def triarea (p1 p2 p3 : V4) : ℝ := mag (cross (sub p2 p1) (sub p3 p1)) / 2

/-- the corners used by `surfacearea`, geom3d.py:1190-1193: the first three indices of a face -/
def areaTri (vs : List V4) (f : List Int) : Except Err Tri :=
  match f with
  | i :: j :: k :: _ => faceTri vs [i, j, k]
  | [] => .error .indexError
  | [i] => match pyGet vs i with
    | .error e => .error e
    | .ok _ => .error .indexError
  | [i, j] => match pyGet vs i with
    | .error e => .error e
    | .ok _ => match pyGet vs j with
      | .error e => .error e
      | .ok _ => .error .indexError

/-- the loop of `surfacearea`, geom3d.py:1190-1193 -/
noncomputable def areaLoop (vs : List V4) (acc : ℝ) : List (List Int) → Except Err ℝ
  | [] => .ok acc
  | f :: fs => match areaTri vs f with
    | .error e => .error e
    | .ok t => areaLoop vs (acc + triarea t.a t.b t.c) fs

/-- `surfacearea`, geom3d.py:1183-1195 -/
noncomputable def surfacearea (s : Surface) : Except Err ℝ := areaLoop s.verts 0 s.faces

/-! ## lines of a surface -/

/-- `line(verts[i1], verts[i2])`, geom3d.py:1220-1221: both ends must be points -/
noncomputable def mkLine (a b : V4) : Except Err Line :=
  haveI := Classical.dec; if ispoint a ∧ ispoint b then .ok ⟨a, b⟩ else .error .valueError

/-- `inds2key`, geom3d.py:1211-1215; the string `f"{i}-{j}"` determines the pair (`-` inside a negative number is
followed by a digit), so the pair stands for it -/
def inds2key (i j : Int) : Int × Int := if i ≤ j then (i, j) else (j, i)

/-- `addLine`, geom3d.py:1217-1223; the state is the drawn keys and the lines -/
noncomputable def addLine (vs : List V4) (st : List (Int × Int) × List Line) (i j : Int) :
    Except Err (List (Int × Int) × List Line) :=
  if inds2key i j ∈ st.1 then .ok st
  else
    match pyGet vs i with
    | .error e => .error e
    | .ok a => match pyGet vs j with
      | .error e => .error e
      | .ok b => match mkLine a b with
        | .error e => .error e
        | .ok l => .ok (st.1 ++ [inds2key i j], st.2 ++ [l])

/-- the sides of a face, geom3d.py:1225-1228; a face with fewer than three indices raises `IndexError` when the
missing one is read -/
def faceSides : List Int → List (Int × Int) × Bool
  | i :: j :: k :: _ => ([(i, j), (j, k), (k, i)], true)
  | [i, j] => ([(i, j)], false)
  | _ => ([], false)

/-- the calls of `addLine` -/
noncomputable def addLines (vs : List V4) (st : List (Int × Int) × List Line) : List (Int × Int) →
    Except Err (List (Int × Int) × List Line)
  | [] => .ok st
  | (i, j) :: es => match addLine vs st i j with
    | .error e => .error e
    | .ok st => addLines vs st es

/-- the loop of `surf2lines`, geom3d.py:1225-1228 -/
noncomputable def linesLoop (vs : List V4) (st : List (Int × Int) × List Line) : List (List Int) →
    Except Err (List (Int × Int) × List Line)
  | [] => .ok st
  | f :: fs => match addLines vs st (faceSides f).1 with
    | .error e => .error e
    | .ok st => if (faceSides f).2 then linesLoop vs st fs else .error .indexError

/-- `surf2lines`, geom3d.py:1197-1230 -/
noncomputable def surf2lines (s : Surface) : Except Err (List Line) :=
  match linesLoop s.verts ([], []) s.faces with
  | .error e => .error e
  | .ok st => .ok st.2

/-! ## building a surface triangle by triangle -/

/-- `normfunc`, geom3d.py:1139-1148 -/
noncomputable def normfunc (t : Tri) : Except Err V4 :=
  let d := cross (sub t.b t.a) (sub t.c t.b)
  if mag d = 0 then .error .zeroDivision
  else
    let n := scale3 d (1 / mag d)
    .ok ⟨n.x, n.y, n.z, 0⟩

open Classical in
/-- the search of `addVert`, geom3d.py:1158-1160: index of the first vertex within epsilon -/
noncomputable def findVert (p : V4) : List V4 → Option Nat
  | [] => none
  | v :: vs => if vclose p v then some 0 else (findVert p vs).map (· + 1)

/-- `addVert`, geom3d.py:1157-1163 -/
noncomputable def addVert (p n : V4) (vs ns : List V4) : Nat × List V4 × List V4 :=
  match findVert p vs with
  | some i => (i, vs, ns)
  | none => (vs.length, vs ++ [p], ns ++ [n])

/-- `addTri2Surface(tri, s)` with the default normal function, geom3d.py:1150-1180. The Python function also
changes the vertex, normal and face lists of its argument in place: the result shares them. -/
noncomputable def addTri2Surface (t : Tri) (s : Surface) : Except Err Surface :=
  match normfunc t with
  | .error e => .error e
  | .ok n =>
    let r1 := addVert t.a n s.verts s.norms
    let r2 := addVert t.b n r1.2.1 r1.2.2
    let r3 := addVert t.c n r2.2.1 r2.2.2
    .ok ⟨r3.2.1, r3.2.2, s.faces ++ [[(r1.1 : Int), (r2.1 : Int), (r3.1 : Int)]], s.boundary, s.holes⟩

end Verif.Surf
