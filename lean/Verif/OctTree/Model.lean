import Mathlib.Algebra.Order.Field.Basic
import Mathlib.Data.List.Dedup
import Mathlib.Tactic.Linarith

/-!
# Model of `src/yapcad/octtree.py`

Coordinates range over an arbitrary linearly ordered field `K` (floats without rounding).
The homogeneous `w` coordinate, always `1` here, is dropped.
-/

namespace Verif.OctTree

variable {K : Type} [Field K] [LinearOrder K]

/-- A point (`geom.py:1907 point`), `w` dropped. -/
structure P3 (K : Type) where
  x : K
  y : K
  z : K
deriving Repr, DecidableEq

/-- Python's `p[i]` for `i = 0,1,2` (any other index never occurs in octtree.py). -/
def P3.get (p : P3 K) : Fin 3 → K
  | 0 => p.x
  | 1 => p.y
  | 2 => p.z

/-- A bounding box `[lo, hi]` (list of two points). -/
structure Box (K : Type) where
  lo : P3 K
  hi : P3 K
deriving Repr, DecidableEq

/-- `intHV` (octtree.py:111-126): do a horizontal and a vertical segment meet?
Segments are pairs of 2-D points. -/
def intHV (hln vln : (K × K) × (K × K)) : Bool :=
  let minx := if hln.1.1 > hln.2.1 then hln.2.1 else hln.1.1
  let maxx := if hln.1.1 > hln.2.1 then hln.1.1 else hln.2.1
  if vln.1.1 < minx ∨ vln.1.1 > maxx then false
  else
    let miny := if vln.1.2 > vln.2.2 then vln.2.2 else vln.1.2
    let maxy := if vln.1.2 > vln.2.2 then vln.1.2 else vln.2.2
    if miny > hln.1.2 ∨ maxy < hln.1.2 then false else true

/-- `int2D` (octtree.py:95-200): projected overlap test in the plane of axes `i`,`j`. -/
def int2D (b1 b2 : Box K) (i j : Fin 3) : Bool :=
  -- projected box-in-box (octtree.py:127-132)
  if (b1.lo.get i ≥ b2.lo.get i ∧ b1.hi.get i ≤ b2.hi.get i ∧
      b1.lo.get j ≥ b2.lo.get j ∧ b1.hi.get j ≤ b2.hi.get j) ∨
     (b2.lo.get i ≥ b1.lo.get i ∧ b2.hi.get i ≤ b1.hi.get i ∧
      b2.lo.get j ≥ b1.lo.get j ∧ b2.hi.get j ≤ b1.hi.get j) then true
  else
    let len1 := b1.hi.get i - b1.lo.get i
    let wid1 := b1.hi.get j - b1.lo.get j
    let len2 := b2.hi.get i - b2.lo.get i
    let wid2 := b2.hi.get j - b2.lo.get j
    let p0 : K × K := (b1.lo.get i, b1.lo.get j)
    let p1 : K × K := (p0.1 + len1, p0.2 + 0)
    let p2 : K × K := (p1.1 + 0, p1.2 + wid1)
    let p3 : K × K := (p0.1 + 0, p0.2 + wid1)
    let p4 : K × K := (b2.lo.get i, b2.lo.get j)
    let p5 : K × K := (p4.1 + len2, p4.2 + 0)
    let p6 : K × K := (p5.1 + 0, p5.2 + wid2)
    let p7 : K × K := (p4.1 + 0, p4.2 + wid2)
    -- octtree.py:161-177, in order
    intHV (p0, p1) (p5, p6) || intHV (p0, p1) (p7, p4) ||
    intHV (p2, p3) (p5, p6) || intHV (p2, p3) (p7, p4) ||
    intHV (p4, p5) (p1, p2) || intHV (p4, p5) (p3, p0) ||
    intHV (p6, p7) (p1, p2) || intHV (p6, p7) (p3, p0)

/-- `boxoverlap2` (octtree.py:55-202). -/
def boxoverlap2 (b1 b2 : Box K) (dim3 : Bool := true) : Bool :=
  if (b1.hi.x < b2.lo.x ∧ b1.hi.y < b2.lo.y ∧ (dim3 = false ∨ b1.hi.z < b2.lo.z)) ∨
     (b2.hi.x < b1.lo.x ∧ b2.hi.y < b1.lo.y ∧ (dim3 = false ∨ b2.hi.z < b1.lo.z)) then false
  else if
     (b1.lo.x ≥ b2.lo.x ∧ b1.hi.x ≤ b2.hi.x ∧ b1.lo.y ≥ b2.lo.y ∧ b1.hi.y ≤ b2.hi.y ∧
       (dim3 = false ∨ (b1.lo.z ≥ b2.lo.z ∧ b1.hi.z ≤ b2.hi.z))) ∨
     (b2.lo.x ≥ b1.lo.x ∧ b2.hi.x ≤ b1.hi.x ∧ b2.lo.y ≥ b1.lo.y ∧ b2.hi.y ≤ b1.hi.y ∧
       (dim3 = false ∨ (b2.lo.z ≥ b1.lo.z ∧ b2.hi.z ≤ b1.hi.z))) then true
  else
    int2D b1 b2 0 1 && (!dim3 || int2D b1 b2 1 2) && (!dim3 || int2D b1 b2 0 2)

/-- `isinsidebbox` (geom.py:1758-1762). -/
def isinsidebbox (b : Box K) (p : P3 K) : Bool :=
  decide (p.x ≥ b.lo.x ∧ p.x ≤ b.hi.x ∧ p.y ≥ b.lo.y ∧ p.y ≤ b.hi.y ∧
          p.z ≥ b.lo.z ∧ p.z ≤ b.hi.z)

/-- `bbox2quad` (octtree.py:272-298). -/
def bbox2quad (bbx refbox : Box K) (c : P3 K) : List Nat :=
  if boxoverlap2 refbox bbx false = false then []
  else
    (if bbx.lo.x < c.x then
      (if bbx.lo.y < c.y then [2] else []) ++ (if bbx.hi.y ≥ c.y then [1] else [])
     else []) ++
    (if bbx.hi.x ≥ c.x then
      (if bbx.lo.y < c.y then [3] else []) ++ (if bbx.hi.y ≥ c.y then [0] else [])
     else [])

/-- `bbox2oct` (octtree.py:246-270). -/
def bbox2oct (bbx refbox : Box K) (c : P3 K) : List Nat :=
  if boxoverlap2 refbox bbx = false then []
  else
    (if bbx.lo.z < c.z then bbox2quad bbx refbox c else []) ++
    (if bbx.hi.z ≥ c.z then (bbox2quad bbx refbox c).map (· + 4) else [])

/-- `boxmid` (octtree.py:307-310): `scale3(add(p0,p1),0.5)`. -/
def boxmid (b : Box K) : P3 K :=
  ⟨(b.lo.x + b.hi.x) * (1/2), (b.lo.y + b.hi.y) * (1/2), (b.lo.z + b.hi.z) * (1/2)⟩

/-- Kind of tree: `n = 4` or `n = 8` (other values are rejected by the constructor,
octtree.py:400-401). -/
inductive Kind | quad | oct
deriving Repr, DecidableEq

/-- `self.__n`. -/
def Kind.n : Kind → Nat
  | .quad => 4
  | .oct => 8

/-- `dim3 = (self.__n==8)`. -/
def Kind.dim3 : Kind → Bool
  | .quad => false
  | .oct => true

/-- `box2boxes` (octtree.py:301-377), `none` standing for its `ValueError`s.  The returned list
has the `[box, mid]` pairs in the code's order (index `k` is octant `k`). -/
def box2boxes (eps : K) (b : Box K) (c : P3 K) (k : Kind) : Option (List (Box K × P3 K)) :=
  if isinsidebbox b c = false then none
  else if b.hi.x - b.lo.x < eps ∨ b.hi.y - b.lo.y < eps ∨
          (k = .oct ∧ b.hi.z - b.lo.z < eps) then none
  else
    let layer (z0 z1 : K) : List (Box K) :=
      [⟨⟨c.x, c.y, z0⟩, ⟨b.hi.x, b.hi.y, z1⟩⟩,
       ⟨⟨b.lo.x, c.y, z0⟩, ⟨c.x, b.hi.y, z1⟩⟩,
       ⟨⟨b.lo.x, b.lo.y, z0⟩, ⟨c.x, c.y, z1⟩⟩,
       ⟨⟨c.x, b.lo.y, z0⟩, ⟨b.hi.x, c.y, z1⟩⟩]
    match k with
    | .quad => some ((layer 0 0).map fun bx => (bx, boxmid bx))
    | .oct => some ((layer b.lo.z c.z ++ layer c.z b.hi.z).map fun bx => (bx, boxmid bx))

/-- An element together with its index (`bxidxlist`, octtree.py:497-499). -/
abbrev Elem (K : Type) := Nat × Box K

/-- Tree nodes: `[]`, `['e', box, center, idx...]`, `['b', child...]`. -/
inductive Tree (K : Type)
  | empty
  | leaf (box : Box K) (center : P3 K) (idxs : List Nat)
  | node (children : List (Tree K))

/-- Octants of an element (octtree.py:528-536: `func(box,box,center)`). -/
def octants (k : Kind) (b : Box K) (c : P3 K) : List Nat :=
  match k with
  | .quad => bbox2quad b b c
  | .oct => bbox2oct b b c

/-- Tree parameters: `self.__n`, `self.__maxdepth`, `self.__mindim` and geom's `epsilon`. -/
structure Params (K : Type) where
  kind : Kind
  maxdepth : Nat
  mindim : K
  eps : K

/-- `recurse` inside `updateTree` (octtree.py:507-545); `none` is a `ValueError` raised by
`box2boxes`. -/
def build (pr : Params K) (box : Box K) (center : P3 K) (elems : List (Elem K)) (depth : Nat) :
    Option (Tree K) :=
  if elems.isEmpty then some .empty
  else if _hd : elems.length ≤ pr.kind.n ∨ depth > pr.maxdepth ∨
      box.hi.x - box.lo.x < pr.mindim ∨ box.hi.y - box.lo.y < pr.mindim ∨
      (pr.kind = .oct ∧ box.hi.z - box.lo.z < pr.mindim) then
    some (.leaf box center (elems.map (·.1)))
  else
    match box2boxes pr.eps box center pr.kind with
    | none => none
    | some boxes =>
      -- `boxlist[j+1].append(e)`: child `j` receives the elements having `j` among their octants
      (boxes.zipIdx.mapM fun bj =>
        build pr bj.1.1 bj.1.2 (elems.filter fun e => (octants pr.kind e.2 center).contains bj.2)
          (depth + 1)).map Tree.node
termination_by pr.maxdepth + 1 - depth
decreasing_by
  simp only [not_or] at _hd
  omega

mutual
/-- `recurse` inside `getElements` (octtree.py:590-611). `boxes` is `bxidxlist`. -/
def query (k : Kind) (boxes : List (Box K)) (q : Box K) : Tree K → List Nat
  | .empty => []
  | .leaf box _ idxs =>
    if boxoverlap2 box q k.dim3 then
      idxs.filter fun i =>
        match boxes[i]? with
        | some b => boxoverlap2 q b k.dim3
        | none => false
    else []
  | .node cs => queryList k boxes q cs
/-- The loop over `subtree[1:]`. -/
def queryList (k : Kind) (boxes : List (Box K)) (q : Box K) : List (Tree K) → List Nat
  | [] => []
  | t :: ts => query k boxes q t ++ queryList k boxes q ts
end

/-- Hull of the element boxes: `bbox(ugeom)` (octtree.py:489 → geom.py:3584 `geomlistbbox`,
geom.py:3060 `polybbox`).  Simplification: the box of a list is taken to be the hull of the boxes
of its members (exact for lines, polylines, arcs and nested lists; for bare points given to the
constructor the code's root box is smaller by epsilon on each side). -/
def hull : List (Box K) → Option (Box K)
  | [] => none
  | b :: bs => some (bs.foldl (fun a b =>
      ⟨⟨min a.lo.x b.lo.x, min a.lo.y b.lo.y, min a.lo.z b.lo.z⟩,
       ⟨max a.hi.x b.hi.x, max a.hi.y b.hi.y, max a.hi.z b.hi.z⟩⟩) b)

/-- State of an `NTree` (octtree.py:398-448): geometry (only the boxes matter), cached center,
root box, tree, and the update flag. -/
structure State (K : Type) where
  pr : Params K
  geom : List (Box K)
  center : Option (P3 K)
  bbox : Option (Box K)
  /-- `self.__elem_idx_bbox`, `none` when the attribute does not exist yet -/
  indexed : Option (List (Box K))
  tree : Tree K
  update : Bool

/-- `NTree.__init__` (octtree.py:402-448) with an optional initial geometry and center. -/
def init (pr : Params K) (geom : List (Box K)) (center : Option (P3 K)) : State K :=
  { pr, geom, bbox := hull geom,
    center := match center with
      | some c => some c
      | none => (hull geom).map boxmid,
    indexed := none, tree := .empty, update := true }

/-- `addElement` (octtree.py:453-464). -/
def addElement (s : State K) (b : Box K) : State K :=
  { s with geom := s.geom ++ [b], update := true }

/-- `updateCenter(center)` (octtree.py:470-485). When `center` is omitted the midpoint of the
*cached* `self.__bbox` is used; `none` models the `AttributeError` when it was never set. -/
def updateCenter (s : State K) (c : Option (P3 K)) : Option (State K) :=
  if s.geom.isEmpty then some s
  else match c with
    | some c => some { s with center := some c, update := true }
    | none => s.bbox.map fun b => { s with center := some (boxmid b), update := true }

/-- `updateTree` (octtree.py:487-551). `none` is a `ValueError`. -/
def updateTree (s : State K) : Option (State K) :=
  if s.update = false ∨ s.geom.isEmpty then some s
  else
    match hull s.geom with
    | none => none  -- unreachable: geom ≠ []
    | some bb =>
      let c := s.center.getD (boxmid bb)
      -- the code has already stored bbox/flags when `recurse` raises; a raising history ends here
      (build s.pr bb c (s.geom.zipIdx.map fun p => (p.2, p.1)) 0).map fun t =>
        -- with no center yet, `updateCenter()` (octtree.py:491-492) raises the flag again
        { s with update := s.center.isNone, bbox := some bb, center := some c,
                 indexed := some s.geom, tree := t }

/-- `getElements` (octtree.py:589-628).  Result: the indices `set(recurse(tree))` into
`self.__geom`; the unspecified set order is modelled by first occurrence.  `none` models
`ValueError` from the rebuild or `AttributeError` on a tree that never had an element. -/
def getElements (s : State K) (q : Box K) : Option (List Nat × State K) :=
  match updateTree s with
  | none => none
  | some s' =>
    match s'.indexed with
    | none => none
    | some boxes => some ((query s'.pr.kind boxes q s'.tree).dedup, s')

/-- Public operations of an `NTree`. -/
inductive Op (K : Type)
  | add (b : Box K)
  | recenter (c : Option (P3 K))   -- updateCenter(c)
  | setMaxdepth (d : Nat)          -- octtree.py:562-567
  | setMindim (d : K)              -- octtree.py:573-578
  | get (q : Box K)

/-- One operation; `none` is an exception. Setters reject bad values (octtree.py:564, 575). -/
def step (s : State K) : Op K → Option (State K × Option (List Nat))
  | .add b => some (addElement s b, none)
  | .recenter c => (updateCenter s c).map fun s => (s, none)
  | .setMaxdepth d => if d < 1 then none else some ({ s with pr := { s.pr with maxdepth := d } }, none)
  | .setMindim d => if d < s.pr.eps then none else
      some ({ s with pr := { s.pr with mindim := d } }, none)
  | .get q => (getElements s q).map fun r => (r.2, some r.1)

end Verif.OctTree
