import Verif.Geom.Fig

/-!
# Model of the classes `Geometry`, `Polygon` and `Boolean` (`src/yapcad/geometry.py`, `src/yapcad/poly.py`, `src/yapcad/combine.py`)

`Geometry` and `Boolean` keep values of their figure and a flag that says whether they must be computed again. The figures and the functions of figures
are arbitrary here, so that what is proved is about the caches. B-reps and solids as elements are left out. Polygons are modelled with points and lines as
elements (arcs and circles are left out), over the reals.
-/

namespace Verif.Obj

open Verif.Geom (V4 Line Fig Err)

/-! ## Geometry -/

/-- the functions of figures that `Geometry` uses: `length`, `center`, `bbox` (geometry.py:304-309; `none` is `None` or `False`), and `geomlist2poly_with_holes` with `poly2surface` (geometry.py:717-725; `none`
for the empty figure, for which `[]` is returned) -/
structure Fns (F L C B S : Type) where
  length : F → Except Err L
  center : F → Except Err (Option C)
  bbox : F → Except Err (Option B)
  surface : F → ℝ → ℝ → Except Err (Option S)

/-- the attributes of a `Geometry` object, geometry.py:171-184 (the flags `sampleable`, `intersectable`, `continuous`, `closed`, which only the constructor sets, are left out) -/
structure Geo (F L C B S : Type) where
  elem : F
  update : Bool
  length : L
  center : Option C
  bbox : Option B
  surface : Option S
  ang : ℝ
  len : ℝ

/-- the calls -/
inductive Op (F : Type)
  /-- `translate`, `scale`, `rotate`, `mirror`, `transform` -/
  | move (T : F → Except Err F)
  | length
  | center
  | bbox
  | geom
  | surface (ang len : ℝ)
  /-- an assignment to the property `elem` -/
  | setElem (f : F)
  /-- an assignment to the property `update` -/
  | touch

/-- what a call returns -/
inductive Out (F L C B S : Type)
  | unit
  | length (l : L)
  | center (c : Option C)
  | bbox (b : Option B)
  | geom (f : F)
  | surface (s : Option S)
deriving DecidableEq

variable {F L C B S : Type}

/-- the constructor, geometry.py:171-226 (`zero` is 0.0) -/
def new (zero : L) (f : F) : Geo F L C B S := ⟨f, true, zero, none, none, none, -1, -1⟩

/-- `_updateInternals`, geometry.py:490-547, where the flag is set -/
def refresh (fns : Fns F L C B S) (g : Geo F L C B S) : Geo F L C B S × Except Err Unit :=
  let g := { g with update := false }
  match fns.length g.elem with
  | .error e => (g, .error e)
  | .ok l =>
    let g := { g with length := l }
    match fns.center g.elem with
    | .error e => (g, .error e)
    | .ok c =>
      let g := { g with center := c }
      match fns.bbox g.elem with
      | .error e => (g, .error e)
      | .ok b => ({ g with bbox := b }, .ok ())

/-- `if self.update: self._updateInternals()` and then the rest of a call -/
def upToDate (fns : Fns F L C B S) (g : Geo F L C B S) (k : Geo F L C B S → Geo F L C B S × Except Err (Out F L C B S)) : Geo F L C B S × Except Err (Out F L C B S) :=
  if g.update then
    match refresh fns g with
    | (g, .error e) => (g, .error e)
    | (g, .ok _) => k g
  else k g

open Classical in
/-- `surface`, geometry.py:689-727, of a closed figure -/
noncomputable def surface (fns : Fns F L C B S) (a l : ℝ) (g : Geo F L C B S) : Geo F L C B S × Except Err (Out F L C B S) :=
  match g.surface with
  | some s =>
    if Geom.close g.ang a ∧ Geom.close g.len l then (g, .ok (.surface (some s)))
    else compute
  | none => compute
where
  /-- geometry.py:702-727 -/
  compute : Geo F L C B S × Except Err (Out F L C B S) :=
    let g := { g with ang := a, len := l }
    match fns.surface g.elem a l with
    | .error e => (g, .error e)
    | .ok none => (g, .ok (.surface none))
    | .ok (some s) => ({ g with surface := some s }, .ok (.surface (some s)))

/-- a call, geometry.py:284-487 and 551-727 -/
noncomputable def step (fns : Fns F L C B S) (g : Geo F L C B S) : Op F → Geo F L C B S × Except Err (Out F L C B S)
  | .move T =>
    match T g.elem with
    | .error e => (g, .error e)
    | .ok f => ({ g with elem := f, update := true }, .ok .unit)
  | .length => upToDate fns g fun g => (g, .ok (.length g.length))
  | .center => upToDate fns g fun g => (g, .ok (.center g.center))
  | .bbox => upToDate fns g fun g => (g, .ok (.bbox g.bbox))
  | .geom => upToDate fns g fun g => (g, .ok (.geom g.elem))
  | .surface a l => upToDate fns g (surface fns a l)
  | .setElem f => ({ g with elem := f }, .ok .unit)
  | .touch => ({ g with update := true }, .ok .unit)

/-- the answers of the calls of a history -/
noncomputable def answers (fns : Fns F L C B S) (g : Geo F L C B S) : List (Op F) → List (Except Err (Out F L C B S))
  | [] => []
  | o :: r => (step fns g o).2 :: answers fns (step fns g o).1 r

/-! ## Boolean -/

/-- the functions that `Boolean` uses: `_combine_geom` of the first operand or an outline with an operand, `cullZeroLength`, `bbox`, `length`, `_calcCenter` of an outline (combine.py:76-92, 119-134) -/
structure BFns (G O L C B : Type) where
  combine : G ⊕ O → G → Except Err O
  cull : O → O
  length : O → L
  center : O → Option C
  bbox : O → Option B

/-- the attributes of a `Boolean` object, combine.py:16-31 -/
structure Boo (G O L C B : Type) where
  elems : List G
  update : Bool
  outline : O
  length : L
  center : Option C
  bbox : Option B

/-- the calls -/
inductive BOp (G : Type)
  /-- `translate`, `scale`, `rotate`, `mirror`, `transform`, combine.py:94-117 -/
  | move (T : G → Except Err G)
  | length
  | center
  | bbox
  | geom

/-- what a call returns -/
inductive BOut (O L C B : Type)
  | unit
  | length (l : L)
  | center (c : Option C)
  | bbox (b : Option B)
  | geom (o : O)

variable {G O : Type}

/-- the constructor, combine.py:16-31 (`nil` is `[]`, `zero` is 0.0) -/
def newBoo (zero : L) (nil : O) (gs : List G) : Boo G O L C B := ⟨gs, true, nil, zero, none, none⟩

/-- `for p in self.elem: p.translate(delta)`, combine.py:95-97: the operands are changed one after the other until one raises -/
def moveAll (T : G → Except Err G) : List G → List G × Except Err Unit
  | [] => ([], .ok ())
  | g :: r =>
    match T g with
    | .error e => (g :: r, .error e)
    | .ok g' => (g' :: (moveAll T r).1, (moveAll T r).2)

/-- `for operand in self.elem[1:]: result = self._combine_geom(result, operand)`, combine.py:126-127 -/
def combineFrom (fns : BFns G O L C B) (x : G ⊕ O) : List G → Except Err (G ⊕ O)
  | [] => .ok x
  | g :: r =>
    match fns.combine x g with
    | .error e => .error e
    | .ok o => combineFrom fns (.inr o) r

/-- the combination of the operands, combine.py:121-129 -/
def combined (fns : BFns G O L C B) : List G → Except Err O
  | a :: b :: r =>
    match combineFrom fns (.inl a) (b :: r) with
    | .error e => .error e
    | .ok (.inr o) => .ok (fns.cull o)
    | .ok (.inl _) => .error .typeError  -- unreachable: there is a second operand
  | _ => .error .valueError

/-- `_updateInternals` of the base class, geometry.py:490-547, on the list of operands: `length` of a list of `Geometry` objects raises `ValueError` -/
def refreshBoo (zero : L) (b : Boo G O L C B) : Boo G O L C B × Except Err Unit :=
  let b := { b with update := false }
  match b.elems with
  | [] => ({ b with length := zero, center := none, bbox := none }, .ok ())
  | _ :: _ => (b, .error .valueError)

/-- `if self.update: self._updateInternals()` in the inherited properties `length`, `center`, `bbox`, geometry.py:284-309 (`isinsideXY`, `sample`, `unsample` and `surface` begin in the same way) -/
def upToDateBoo (zero : L) (b : Boo G O L C B) (k : Boo G O L C B → BOut O L C B) : Boo G O L C B × Except Err (BOut O L C B) :=
  if b.update then
    match refreshBoo zero b with
    | (b, .error e) => (b, .error e)
    | (b, .ok _) => (b, .ok (k b))
  else (b, .ok (k b))

/-- a call of a `Boolean`; `geom`: combine.py:119-134 -/
def bstep (zero : L) (fns : BFns G O L C B) (b : Boo G O L C B) : BOp G → Boo G O L C B × Except Err (BOut O L C B)
  | .move T =>
    match (moveAll T b.elems).2 with
    | .error e => ({ b with elems := (moveAll T b.elems).1, update := true }, .error e)
    | .ok _ => ({ b with elems := (moveAll T b.elems).1, update := true }, .ok .unit)
  | .length => upToDateBoo zero b fun b => .length b.length
  | .center => upToDateBoo zero b fun b => .center b.center
  | .bbox => upToDateBoo zero b fun b => .bbox b.bbox
  | .geom =>
    if b.update then
      match combined fns b.elems with
      | .error e => (b, .error e)
      | .ok o => ({ b with outline := o, update := false, bbox := fns.bbox o, length := fns.length o, center := fns.center o }, .ok (.geom o))
    else (b, .ok (.geom b.outline))

/-- the answers of the calls of a history -/
def banswers (zero : L) (fns : BFns G O L C B) (b : Boo G O L C B) : List (BOp G) → List (Except Err (BOut O L C B))
  | [] => []
  | o :: r => (bstep zero fns b o).2 :: banswers zero fns (bstep zero fns b o).1 r

/-- the object after a history -/
def brun (zero : L) (fns : BFns G O L C B) (b : Boo G O L C B) : List (BOp G) → Boo G O L C B
  | [] => b
  | o :: r => brun zero fns (bstep zero fns b o).1 r

/-! ## mirror -/

/-- `reverseGeomList`, geom.py:3497-3517, of the list that is the figure itself: a line is a list of two points, a polyline one of more, an arc a list of a point and a vector that is no figure, a point a
list of numbers. `ok none`: the result contains `None` (see `Verif.Geom.reverseGeomList`). -/
def reverseFig : Fig → Except Err (Option Fig)
  | .point _ => .error .valueError
  | .line l => .ok (some (.line ⟨l.b, l.a⟩))
  | .arc _ => .error .valueError
  | .poly ps => .ok (some (.poly ps.reverse))
  | .list gs => .ok ((Geom.reverseGeomList [] gs).map .list)

/-- `Geometry.mirror`, geometry.py:428-472, of a figure that is no solid and no B-rep -/
noncomputable def mirror (pl : Geom.Plane) (keepSign : Bool) (f : Fig) : Except Err (Option Fig) :=
  if keepSign then reverseFig (f.mirror pl) else .ok (some (f.mirror pl))

/-! ## Polygon -/

/-- an element of a polygon (arcs and circles are left out) -/
inductive Elem
  | point (p : V4)
  | line (l : Line)

/-- the point from which the lines to the next element go, poly.py:274-282 -/
def Elem.from : Elem → V4
  | .point p => p
  | .line l => l.a

/-- `_fromPointAdd`, poly.py:228-243 -/
def fromPointAdd (p : V4) : Elem → List Line
  | .point q => [⟨p, q⟩]
  | .line l => [⟨p, l.a⟩, l]

/-- the first loop of `_makeoutline`, poly.py:263-298: `first` is the element that follows the last one -/
def joinAll (first : Elem) : List Elem → List Line
  | [] => []
  | [e] => fromPointAdd e.from first
  | e :: f :: r => fromPointAdd e.from f ++ joinAll first (f :: r)

/-- one round of the second loop of `_makeoutline`, poly.py:303-320, for lines -/
noncomputable def mend (o : List Line) (i : Nat) : Except Err (List Line) :=
  match o[i]?, o[if i = o.length - 1 then 0 else i + 1]? with
  | some e1, some e2 =>
    match Geom.lineLineIntersectXY e1 e2 true with
    | .error e => .error e
    | .ok (some _) => .ok o
    | .ok none =>
      match Geom.lineLineIntersectXY e1 e2 false with
      | .error e => .error e
      | .ok none => .ok o
      | .ok (some q) => .ok ((o.set i ⟨e1.a, q⟩).set ((i + 1) % o.length) ⟨q, e2.b⟩)
  | _, _ => .ok o

/-- the second loop of `_makeoutline`, poly.py:300-320 -/
noncomputable def mendAll (o : List Line) : List Nat → Except Err (List Line)
  | [] => .ok o
  | i :: r =>
    match mend o i with
    | .error e => .error e
    | .ok o => mendAll o r

open Classical in
/-- `cullZeroLength`, poly.py:403-415, for lines -/
noncomputable def cull (o : List Line) : List Line := o.filter fun l => Geom.linelength l > Geom.eps

/-- `_makeoutline`, poly.py:169-337. A single line is its own outline; for a single point `_calclength` raises `ValueError`. -/
noncomputable def outline : List Elem → Except Err (List Line)
  | [] => .ok []
  | [.line l] => .ok [l]
  | [.point _] => .error .valueError
  | e :: f :: r =>
    match mendAll (joinAll e (e :: f :: r)) ((List.range (joinAll e (e :: f :: r)).length).drop 1) with
    | .error e => .error e
    | .ok o => .ok (cull o)

/-- the length of the outline, poly.py:171-187 -/
noncomputable def outlineLength (o : List Line) : ℝ := (o.map Geom.linelength).foldl (· + ·) 0

open Classical in
/-- the loop of `Polygon.sample`, poly.py:341-355 -/
noncomputable def walk (dst : ℝ) : List Line → ℝ → Except Err (Option V4)
  | [], _ => .ok none
  | l :: r, d =>
    if dst ≤ d + Geom.linelength l then
      if Geom.linelength l = 0 then .error .zeroDivision
      else .ok (some (Geom.sampleline l (1 - (d + Geom.linelength l - dst) / Geom.linelength l)))
    else walk dst r (d + Geom.linelength l)

/-- `Polygon.sample`, poly.py:341-355 -/
noncomputable def samplePolygon (es : List Elem) (u : ℝ) : Except Err (Option V4) :=
  match outline es with
  | .error e => .error e
  | .ok [] => .error .valueError
  | .ok o => walk (Geom.mod1 u * outlineLength o) o 0

open Classical in
/-- the constructor from a geometry list, poly.py:50-84, without arcs: lines are left out, the points of polylines are taken, geometry lists within are refused; then the last element is dropped if it is the first one again -/
noncomputable def construct (gs : List Fig) : Except Err (List Elem) :=
  match collect gs with
  | .error e => .error e
  | .ok ps =>
    match ps with
    | p :: q :: r :: t => if Geom.dist p ((q :: r :: t).getLast (by simp)) < Geom.eps then .ok ((p :: q :: r :: t).dropLast.map .point) else .ok ((p :: q :: r :: t).map .point)
    | ps => .ok (ps.map .point)
where
  /-- the loop, poly.py:61-69 -/
  collect : List Fig → Except Err (List V4)
    | [] => .ok []
    | .point p :: r =>
      match collect r with
      | .error e => .error e
      | .ok ps => .ok (p :: ps)
    | .line _ :: r => collect r
    | .poly qs :: r =>
      match collect r with
      | .error e => .error e
      | .ok ps => .ok (qs ++ ps)
    | _ :: _ => .error .valueError

/-- `Rect`, poly.py:432-444 -/
noncomputable def rect (width height : ℝ) (center : V4) : List Elem :=
  let w := width / 2
  let h := height / 2
  [.point (Geom.add (Geom.pt (-w) h) center), .point (Geom.add (Geom.pt (-w) (-h)) center), .point (Geom.add (Geom.pt w (-h)) center), .point (Geom.add (Geom.pt w h) center)]

end Verif.Obj
