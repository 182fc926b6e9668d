import Verif.Valid.Model
import Mathlib.Data.List.Sort

/-!
# Model of `src/yapcad/boolean/native.py`: clipping of polygons by planes, and points in solids

Over any ordered field, so that it can be run on rational numbers. `dist(p, q) <= tol` is modelled without a square root, as a condition on
the square of the distance. A solid is a list of surfaces, a surface its vertices and its triangles (faces with another number of corners are
skipped by the code).
-/

namespace Verif.Bool3
open Verif.Valid (V vsub vadd smul dot cross Box Tri hull)

inductive Err where
  | valueError
  deriving DecidableEq

section field
variable {K : Type} [Field K] [LinearOrder K]

/-! ## clipping -/

/-- a plane `(n, d, sense)` -/
structure Plane (K : Type) where
  n : V K
  d : K
  sense : ℤ

/-- `_plane_eval`, native.py:166-168 -/
def planeEval (n : V K) (d : K) (p : V K) : K := dot n p - d

/-- `_segment_plane_intersection`, native.py:171-181 -/
def segPlane (p1 p2 n : V K) (d tol : K) : V K :=
  let dir := vsub p2 p1
  let denom := dot n dir
  if |denom| < tol then ⟨(p1.x + p2.x) / 2, (p1.y + p2.y) / 2, (p1.z + p2.z) / 2⟩
  else
    let t := max 0 (min 1 ((d - dot n p1) / denom))
    ⟨p1.x + dir.x * t, p1.y + dir.y * t, p1.z + dir.z * t⟩

/-- `dist(p, q) <= tol` -/
def near (tol : K) (p q : V K) : Prop := 0 ≤ tol ∧ dot (vsub p q) (vsub p q) ≤ tol ^ 2

instance (tol : K) (p q : V K) : Decidable (near tol p q) := inferInstanceAs (Decidable (_ ∧ _))

/-- the loop of `_dedupe_polygon`, native.py:188-190: `q` is the last point kept -/
def thin (tol : K) : V K → List (V K) → List (V K)
  | _, [] => []
  | q, p :: l => if near tol p q then thin tol q l else p :: thin tol p l

/-- `_dedupe_polygon`, native.py:184-194 -/
def dedupe (tol : K) : List (V K) → List (V K)
  | [] => []
  | p :: l =>
    let r := p :: thin tol p l
    if 2 < r.length ∧ near tol p (r.getLast (by simp [r])) then r.dropLast else r

/-- what counts as inside, native.py:204-207 and 210-213 -/
def kept (pl : Plane K) (tol : K) (keep : Bool) (p : V K) : Bool :=
  let e := planeEval pl.n pl.d p
  if pl.sense ≤ 0 then (if keep then decide (e ≤ tol) else decide (e ≥ -tol))
  else (if keep then decide (e ≥ -tol) else decide (e ≤ tol))

/-- the loop of `_clip_polygon_against_plane`, native.py:208-222: `prev` is the point before -/
def clipLoop (pl : Plane K) (tol : K) (keep : Bool) : V K → List (V K) → List (V K)
  | _, [] => []
  | prev, c :: l =>
    (if kept pl tol keep c then
      (if kept pl tol keep prev then [c] else [segPlane prev c pl.n pl.d tol, c])
     else if kept pl tol keep prev then [segPlane prev c pl.n pl.d tol] else []) ++ clipLoop pl tol keep c l

/-- `_clip_polygon_against_plane`, native.py:197-226 -/
def clip (pl : Plane K) (tol : K) (keep : Bool) (poly : List (V K)) : List (V K) :=
  match poly.getLast? with
  | none => []
  | some q =>
    let r := dedupe tol (clipLoop pl tol keep q poly)
    if keep = false ∧ 3 ≤ r.length then r.reverse else r

/-- `_split_polygon_by_plane`, native.py:229-252: the inside part and the outside parts -/
def split (pl : Plane K) (tol : K) (poly : List (V K)) : List (V K) × List (List (V K)) :=
  if poly = [] then ([], [])
  else if pl.sense ≤ 0 ∧ (∀ p ∈ poly, planeEval pl.n pl.d p ≤ tol) then (poly, [])
  else if pl.sense ≤ 0 ∧ (∀ p ∈ poly, planeEval pl.n pl.d p ≥ -tol) then ([], [poly])
  else if ¬ pl.sense ≤ 0 ∧ (∀ p ∈ poly, planeEval pl.n pl.d p ≥ -tol) then (poly, [])
  else if ¬ pl.sense ≤ 0 ∧ (∀ p ∈ poly, planeEval pl.n pl.d p ≤ tol) then ([], [poly])
  else
    let o := clip pl tol false poly
    (clip pl tol true poly, if o = [] then [] else [o])

/-- one round of `_split_polygon_by_planes`, native.py:259-265 -/
def splitEach (pl : Plane K) (tol : K) : List (List (V K)) → List (List (V K)) × List (List (V K))
  | [] => ([], [])
  | c :: l =>
    let r := split pl tol c
    let s := splitEach pl tol l
    ((if r.1 = [] then [] else [r.1]) ++ s.1, r.2 ++ s.2)

/-- `_split_polygon_by_planes`, native.py:255-268. The loop ends early when nothing is left inside, which makes no difference. -/
def splitAll (tol : K) : List (Plane K) → List (List (V K)) → List (List (V K)) × List (List (V K))
  | [], ins => (ins, [])
  | pl :: pls, ins =>
    let r := splitEach pl tol ins
    let s := splitAll tol pls r.1
    (s.1, r.2 ++ s.2)

/-- `_split_polygon_by_planes(poly, planes, tol)` -/
def splitByPlanes (tol : K) (planes : List (Plane K)) (poly : List (V K)) : List (List (V K)) × List (List (V K)) := splitAll tol planes [poly]

/-- the swap of `_triangulate_polygon`, native.py:277-278 and 288-289 -/
def facing (ref : Option (V K)) (t : Tri K) : Tri K :=
  match ref with
  | none => t
  | some n => if dot (cross (vsub t.2.1 t.1) (vsub t.2.2 t.1)) n < 0 then (t.1, t.2.2, t.2.1) else t

/-- `_triangulate_polygon`, native.py:271-293 -/
def fan (ref : Option (V K)) : List (V K) → List (Tri K)
  | [] => []
  | a :: l => (l.zip l.tail).map fun e => facing ref (a, e.1, e.2)

/-- `_unique_points`, native.py:466-472: the list so far -/
def unique (tol : K) (acc : List (V K)) : List (V K) → List (V K)
  | [] => acc
  | p :: l => if ∃ q ∈ acc, near tol p q then unique tol acc l else unique tol (acc ++ [p]) l

/-! ## points in solids -/

/-- a surface: its vertices and its triangles -/
structure Surf (K : Type) where
  verts : List (V K)
  tris : List (Tri K)

/-- `_segment_bbox`, native.py:159-163 -/
def segBox (p q : V K) (pad : K) : Box K :=
  (⟨min p.x q.x - pad, min p.y q.y - pad, min p.z q.z - pad⟩, ⟨max p.x q.x + pad, max p.y q.y + pad, max p.z q.z + pad⟩)

/-- `_ray_triangle_intersection`, native.py:888-914: the parameter of the hit -/
def rayTri (o d : V K) (t : Tri K) (tol : K) : Option K :=
  let e1 := vsub t.2.1 t.1
  let e2 := vsub t.2.2 t.1
  let h := cross d e2
  let a := dot e1 h
  if |a| < tol then none
  else
    let f := 1 / a
    let s := vsub o t.1
    let u := f * dot s h
    if u < -tol ∨ u > 1 + tol then none
    else
      let q := cross s e1
      let v := f * dot d q
      if v < -tol ∨ u + v > 1 + tol then none
      else
        let r := f * dot e2 q
        if r < -tol then none
        else if 1 - u - v < -tol then none
        else some r

/-- the vector that `tri2p0n` normalises, geom3d.py:221-223 -/
def rawNormal (t : Tri K) : V K := cross (vsub t.2.1 t.1) (vsub t.2.2 t.2.1)

/-- `epsilon`, geom.py:1604 -/
def eps : K := 5 / 10 ^ 6

/-- the triangle is degenerate for `tri2p0n`, geom3d.py:224-226: the vector is shorter than `epsilon` -/
def degenerate (t : Tri K) : Prop := dot (rawNormal t) (rawNormal t) < eps ^ 2

instance (t : Tri K) : Decidable (degenerate t) := inferInstanceAs (Decidable (_ < _))

/-- `-1 if dot(normal, direction) > 0 else 1`, native.py:1065 -/
def sign (d : V K) (t : Tri K) : ℤ := if dot (rawNormal t) d > 0 then -1 else 1

/-- what the loop over the triangles does, native.py:1055-1066: an exception, the answer True (`none`), or the hits -/
def scan (tol len : K) (o d : V K) (hits : List (K × ℤ)) : List (Tri K) → Except Err (Option (List (K × ℤ)))
  | [] => .ok (some hits)
  | t :: ts =>
    match rayTri o d t tol with
    | none => scan tol len o d hits ts
    | some r =>
      if r < -tol ∨ r > len + tol then scan tol len o d hits ts
      else if r ≤ tol then .ok none
      else if degenerate t then .error .valueError
      else scan tol len o d (hits ++ [(r, sign d t)]) ts

/-- `_group_hits` on sorted hits, native.py:986-991, with the sum of the signs of each group, native.py:1069-1071: `r` is the last parameter and `s` the sum so far -/
def groupSums (tol : K) (r : K) (s : ℤ) : List (K × ℤ) → List ℤ
  | [] => [s]
  | h :: l => if |h.1 - r| ≤ tol then groupSums tol h.1 (s + h.2) l else s :: groupSums tol h.1 h.2 l

/-- `parity` of sorted hits, native.py:1067-1073 -/
def parity (tol : K) : List (K × ℤ) → Bool
  | [] => false
  | h :: l => ((groupSums tol h.1 h.2 l).countP fun s => decide (s ≠ 0)) % 2 == 1

/-- sorted by the parameter, native.py:985 -/
def sortHits (l : List (K × ℤ)) : List (K × ℤ) := l.insertionSort fun a b => a.1 ≤ b.1

/-- the candidates of a surface, native.py:1040-1054: what the octree has for the query box, or else all triangles. `find` is the octree; it is also empty
when there is none. -/
def candidates (find : Surf K → Box K → List (Tri K)) (q : Box K) (s : Surf K) : List (Tri K) :=
  if find s q = [] then s.tris else find s q

/-- `directions`, native.py:1023-1030 -/
def directions : List (V K) := [⟨1, 0, 0⟩, ⟨-1, 0, 0⟩, ⟨0, 1, 0⟩, ⟨0, -1, 0⟩, ⟨0, 0, 1⟩, ⟨0, 0, -1⟩]

/-- the query box of a direction, native.py:1034-1037 -/
def query (tol len : K) (p d : V K) : Box K := segBox p ⟨p.x + d.x * len, p.y + d.y * len, p.z + d.z * len⟩ (tol * 5)

/-- the loop over the directions, native.py:1032-1076 -/
def castAll (find : Surf K → Box K → List (Tri K)) (tol len : K) (p : V K) (ss : List (Surf K)) : List (V K) → Except Err Bool
  | [] => .ok true
  | d :: ds =>
    match scan tol len p d [] (ss.flatMap (candidates find (query tol len p d))) with
    | .error e => .error e
    | .ok none => .ok true
    | .ok (some hits) => if parity tol (sortHits hits) then castAll find tol len p ss ds else .ok false

/-- `solidbbox`, geom3d.py:806-821, for surfaces of which at least one has a vertex -/
def solidBox (ss : List (Surf K)) : Option (Box K) :=
  match ss.flatMap (·.verts) with
  | [] => none
  | p :: l => some (hull p l)

/-- `isinsidebbox`, geom.py:1758-1762 -/
def inBox (b : Box K) (p : V K) : Prop := b.1.x ≤ p.x ∧ p.x ≤ b.2.x ∧ b.1.y ≤ p.y ∧ p.y ≤ b.2.y ∧ b.1.z ≤ p.z ∧ p.z ≤ b.2.z

instance (b : Box K) (p : V K) : Decidable (inBox b p) := inferInstanceAs (Decidable (_ ∧ _))

/-- `expanded`, native.py:1010-1013 -/
def expand (b : Box K) (tol : K) : Box K := (⟨b.1.x - tol, b.1.y - tol, b.1.z - tol⟩, ⟨b.2.x + tol, b.2.y + tol, b.2.z + tol⟩)

/-- `ray_length`, native.py:1016-1021 -/
def rayLength (b : Box K) : K := max (max (max (b.2.x - b.1.x) (b.2.y - b.1.y)) (b.2.z - b.1.z) * 3 / 2) 1

/-- `solid_contains_point`, native.py:998-1077, for a solid and a point -/
def contains (find : Surf K → Box K → List (Tri K)) (tol : K) (ss : List (Surf K)) (p : V K) : Except Err Bool :=
  if ss = [] then .ok false
  else
    match solidBox ss with
    | some b => if inBox (expand b tol) p then castAll find tol (rayLength b) p ss directions else .ok false
    | none => castAll find tol 1 p ss directions

/-- `_DEFAULT_RAY_TOL`, native.py:139 -/
def rayTol : K := 1 / 10 ^ 7

/-- `_bbox_overlap`, native.py:148-156 -/
def boxOverlap (a b : Box K) (tol : K) : Prop :=
  ¬ (a.2.x < b.1.x - tol ∨ a.1.x > b.2.x + tol ∨ a.2.y < b.1.y - tol ∨ a.1.y > b.2.y + tol ∨ a.2.z < b.1.z - tol ∨ a.1.z > b.2.z + tol)

end field

end Verif.Bool3
