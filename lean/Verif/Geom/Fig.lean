import Verif.Geom.Arc
import Verif.Xform.Model

/-!
# Model of figures and geometry lists in `src/yapcad/geom.py`

A figure is a point, a line, an arc, a polyline or a geometry list (ellipses, parabolas,
hyperbolas and splines are left out). In Python a list of two points *is* a line and a list of three
or more points *is* a polyline; `Fig.list` stands for the other lists (`Fig.Wf` below).
-/

namespace Verif.Geom

/-- a figure -/
inductive Fig
  | point (p : V4)
  | line (l : Line)
  | arc (a : Arc)
  | poly (ps : List V4)
  | list (gs : List Fig)

/-- is it a point -/
def Fig.isPoint : Fig → Bool
  | .point _ => true
  | _ => false

mutual
/-- the figures that exist: `ispoint`, `isline`, `isarc`, `ispoly`, `isgeomlist` (geom.py:1926, 1983,
2335, 3031, 3371), and a list of two or more points is a line or polyline, not a list -/
def Fig.Wf : Fig → Prop
  | .point p => ispoint p
  | .line l => ispoint l.a ∧ ispoint l.b
  | .arc a => isarc a
  | .poly ps => ispoly ps
  | .list gs => (gs.length ≤ 1 ∨ ∃ g ∈ gs, g.isPoint = false) ∧ WfList gs
/-- every member is a figure -/
def WfList : List Fig → Prop
  | [] => True
  | g :: gs => g.Wf ∧ WfList gs
end

mutual
/-- `length`, geom.py:3863-3892 -/
noncomputable def Fig.length : Fig → ℝ
  | .point _ => 0
  | .line l => linelength l
  | .arc a => arclength a
  | .poly ps => polylength ps
  | .list gs => listLength 0 gs
/-- the accumulation loop, geom.py:3888-3890 -/
noncomputable def listLength (acc : ℝ) : List Fig → ℝ
  | [] => acc
  | g :: gs => listLength (acc + g.length) gs
end

open Classical in
mutual
/-- `sample`, geom.py:3974-4008, with `samplegeomlist`, geom.py:3435-3453; `ok none` = the function
returned `None` -/
noncomputable def Fig.sample : Fig → ℝ → Except Err (Option V4)
  | .point p, _ => .ok (some p)
  | .line l, u => .ok (some (sampleline l u))
  | .arc a, u =>
    match samplearc a u with
    | .error e => .error e
    | .ok p => .ok (some p)
  | .poly ps, u => samplepoly ps u
  | .list gs, u =>
    if u < 1 then sampleWalk (u * listLength 0 gs) 0 gs
    else sampleLast (u * listLength 0 gs) (listLength 0 gs) gs
/-- the loop of `samplegeomlist`, geom.py:3442-3450 -/
noncomputable def sampleWalk (dst d : ℝ) : List Fig → Except Err (Option V4)
  | [] => .ok none
  | g :: gs =>
    if dst ≤ d + g.length then
      if g.length = 0 then .error .zeroDivision
      else g.sample (1 - (d + g.length - dst) / g.length)
    else sampleWalk dst (d + g.length) gs
/-- the case `u ≥ 1`, geom.py:3451-3453; for an empty list the code raises `IndexError` (here
`typeError`) -/
noncomputable def sampleLast (dst leng : ℝ) : List Fig → Except Err (Option V4)
  | [] => .error .typeError
  | [g] =>
    if g.length = 0 then .error .zeroDivision
    else g.sample ((dst - leng + g.length) / g.length)
  | _ :: g :: gs => sampleLast dst leng (g :: gs)
end

mutual
/-- `translate`, geom.py:4107-4128 -/
def Fig.translate (δ : V4) : Fig → Fig
  | .point p => .point (add p δ)
  | .line l => .line ⟨add l.a δ, add l.b δ⟩
  | .arc a => .arc { a with c := add a.c δ }
  | .poly ps => .poly (ps.map fun p => add p δ)
  | .list gs => .list (translateList δ gs)
/-- the loop over a geometry list, geom.py:4123-4125 -/
def translateList (δ : V4) : List Fig → List Fig
  | [] => []
  | g :: gs => g.translate δ :: translateList δ gs
end

/-- a geom vector as a vector of `xform` -/
def toVec (p : V4) : Xform.Vec4 ℝ := ![p.x, p.y, p.z, p.w]
/-- and back -/
def ofVec (v : Xform.Vec4 ℝ) : V4 := ⟨v 0, v 1, v 2, v 3⟩
/-- `mat.mul(p)`, xform.py:186-190 -/
noncomputable def mulP (M : Xform.Mat ℝ) (p : V4) : V4 := ofVec (M.mulVec (toVec p))

open Classical in
/-- the matrix used by `scale`, geom.py:4136-4142 -/
noncomputable def scaleMat (sx : ℝ) (sy sz : Option ℝ) (cent : V4) : Option (Xform.Mat ℝ) :=
  match Xform.scale (.nums sx sy sz) with
  | none => none
  | some S =>
    if vclose cent (pt 0 0) then some S
    else some (((Xform.translation (toVec cent) true).mul S).mul (Xform.translation (toVec cent)))

open Classical in
mutual
/-- the dispatch of `scale`, geom.py:4144-4170; `sx`, `sy` as used for arcs (`False` counts as 0) -/
noncomputable def Fig.scaleWith (M : Xform.Mat ℝ) (sx sy : ℝ) : Fig → Except Err Fig
  | .point p => .ok (.point (mulP M p))
  | .line l => .ok (.line ⟨mulP M l.a, mulP M l.b⟩)
  | .arc a =>
    if close sx sy then .ok (.arc { a with c := mulP M a.c, r := a.r * sx })
    else .error .valueError
  | .poly ps => .ok (.poly (ps.map (mulP M)))
  | .list gs =>
    match scaleList M sx sy gs with
    | .error e => .error e
    | .ok gs => .ok (.list gs)
/-- the loop over a geometry list, geom.py:4164-4167 -/
noncomputable def scaleList (M : Xform.Mat ℝ) (sx sy : ℝ) : List Fig → Except Err (List Fig)
  | [] => .ok []
  | g :: gs =>
    match g.scaleWith M sx sy with
    | .error e => .error e
    | .ok g =>
      match scaleList M sx sy gs with
      | .error e => .error e
      | .ok gs => .ok (g :: gs)
end

/-- the default of `sy`, `sz`, geom.py:4132-4133: `False == 0` in Python, so two zero factors count
as omitted -/
noncomputable def scaleArgs (sx : ℝ) (sy sz : Option ℝ) : Option ℝ × Option ℝ :=
  if sy.getD 0 = 0 ∧ sz.getD 0 = 0 then (some sx, some sx) else (sy, sz)

/-- `point(sx, sy, sz)` where `False` stops the copying, geom.py:1907-1921 -/
noncomputable def factorPoint (sx : ℝ) (sy sz : Option ℝ) : V4 :=
  match sy with
  | none => pt sx 0
  | some y => match sz with
    | none => pt sx y
    | some z => pt sx y z

open Classical in
/-- `scale(x, sx, sy, sz, cent)`, geom.py:4130-4170. (Recursive calls re-test the factors, with the
same outcome.) -/
noncomputable def Fig.scale (f : Fig) (sx : ℝ) (sy sz : Option ℝ) (cent : V4) : Except Err Fig :=
  let s := scaleArgs sx sy sz
  if vclose (factorPoint sx s.1 s.2) (pt 1 1 1) then .ok f
  else
    match scaleMat sx s.1 s.2 cent with
    | none => .error .zeroDivision  -- unreachable: only the inverse divides
    | some M => f.scaleWith M sx (s.1.getD 0)

open Classical in
mutual
/-- the dispatch of `rotate`, geom.py:4223-4244, with the matrix `M`. A polyline is a geometry list of
points, or goes to `transform`: both multiply each point by `M`. -/
noncomputable def Fig.rotateWith (M : Xform.Mat ℝ) (ang : ℝ) (axis : V4) : Fig → Except Err Fig
  | .point p => .ok (.point (mulP M p))
  | .line l => .ok (.line ⟨mulP M l.a, mulP M l.b⟩)
  | .arc a =>
    if ¬ vclose axis (pt 0 0 1) then .error .notImplemented
    else if iscircle a then .ok (.arc { a with c := mulP M a.c })
    else .ok (.arc { a with c := mulP M a.c, s := a.s + ang, e := a.e + ang })
  | .poly ps => .ok (.poly (ps.map (mulP M)))
  | .list gs =>
    match rotateList M ang axis gs with
    | .error e => .error e
    | .ok gs => .ok (.list gs)
/-- the loop over a geometry list, geom.py:4237-4240 -/
noncomputable def rotateList (M : Xform.Mat ℝ) (ang : ℝ) (axis : V4) : List Fig → Except Err (List Fig)
  | [] => .ok []
  | g :: gs =>
    match g.rotateWith M ang axis with
    | .error e => .error e
    | .ok g =>
      match rotateList M ang axis gs with
      | .error e => .error e
      | .ok gs => .ok (g :: gs)
end

open Classical in
/-- the matrix used by `rotate`, geom.py:4211-4217; any failure of `Rotation` is `valueError` here -/
noncomputable def rotateMat (ang : ℝ) (cent axis : V4) : Except Err (Xform.Mat ℝ) :=
  match Xform.rotation (toVec axis) ang with
  | .error _ => .error .valueError
  | .ok R =>
    if vclose cent (pt 0 0) then .ok R
    else .ok (((Xform.translation (toVec cent)).mul R).mul (Xform.translation (toVec cent) true))

open Classical in
/-- `rotate(x, ang, cent, axis)`, geom.py:4206-4244 -/
noncomputable def Fig.rotate (f : Fig) (ang : ℝ) (cent : V4 := pt 0 0) (axis : V4 := pt 0 0 1) :
    Except Err Fig :=
  if close ang 0 then .ok f
  else
    match rotateMat ang cent axis with
    | .error e => .error e
    | .ok M => f.rotateWith M ang axis

/-- reflection planes, geom.py:4259-4268 -/
inductive Plane
  | xz | yz | xy
deriving DecidableEq

/-- the vector `flip`, geom.py:4259-4266 -/
def flip : Plane → V4
  | .xz => ⟨1, -1, 1, 1⟩
  | .yz => ⟨-1, 1, 1, 1⟩
  | .xy => ⟨1, 1, -1, 1⟩

/-- the direction at an angle in degrees, geom.py:4281-4282 -/
noncomputable def dirAt (ang : ℝ) : V4 :=
  pt (Real.cos (ang * (2 * Real.pi) / 360)) (Real.sin (ang * (2 * Real.pi) / 360))

/-- the mirrored angle, geom.py:4283-4286 -/
noncomputable def mirrorAngle (pl : Plane) (ang : ℝ) : ℝ :=
  let q := mul (dirAt ang) (flip pl)
  modTau (atan2 q.y q.x) * 360 / (2 * Real.pi)

open Classical in
/-- `mirror` of an arc, geom.py:4273-4289 -/
noncomputable def mirrorArc (pl : Plane) (a : Arc) : Arc :=
  if a.s = 0 ∧ a.e = 360 then { a with c := mul a.c (flip pl) }
  else { a with c := mul a.c (flip pl), s := mirrorAngle pl a.e, e := mirrorAngle pl a.s }

mutual
/-- `mirror`, geom.py:4248-4297 (a line is a geometry list of two points) -/
noncomputable def Fig.mirror (pl : Plane) : Fig → Fig
  | .point p => .point (mul4 p (flip pl))
  | .line l => .line ⟨mul4 l.a (flip pl), mul4 l.b (flip pl)⟩
  | .arc a => .arc (mirrorArc pl a)
  | .poly ps => .poly (ps.map fun p => mul4 p (flip pl))
  | .list gs => .list (mirrorList pl gs)
/-- the loop over a geometry list, geom.py:4295-4298 -/
noncomputable def mirrorList (pl : Plane) : List Fig → List Fig
  | [] => []
  | g :: gs => g.mirror pl :: mirrorList pl gs
end

mutual
/-- one step of `reverseGeomList`, geom.py:3501-3516: what is inserted for a figure. `none` is
Python's `None`: `deepcopy(g).reverse()` reverses in place and returns `None`. -/
def Fig.reversed : Fig → Option Fig
  | .point p => some (.point p)
  | .line l => some (.line ⟨l.b, l.a⟩)
  | .arc a => some (.arc { a with rev := true })
  | .poly _ => none
  | .list gs => match reverseGeomList [] gs with
    | none => none
    | some r => some (.list r)
/-- `reverseGeomList`, geom.py:3497-3517, with the list built so far. The model stops with `none` as
soon as a `None` would be inserted in the result. -/
def reverseGeomList (acc : List Fig) : List Fig → Option (List Fig)
  | [] => some acc
  | g :: gs =>
    match g.reversed with
    | none => none
    | some r => reverseGeomList (r :: acc) gs
end

mutual
/-- the points a figure adds to the list of `geomlistbbox`, geom.py:3587-3607 -/
noncomputable def Fig.bboxPts : Fig → Except Err (List V4)
  | .point p => .ok [p]
  | .line l => .ok [l.a, l.b]
  | .arc a =>
    match arcbbox a with
    | .error e => .error e
    | .ok none => .error .typeError  -- unreachable
    | .ok (some b) => .ok [b.lo, b.hi]
  | .poly ps => .ok ps
  | .list gs =>
    match bboxPtsList gs with
    | .error e => .error e
    | .ok ps =>
      match polybbox ps with
      | none => .error .typeError   -- `ply + False`
      | some b => .ok [b.lo, b.hi]
/-- the loop of `geomlistbbox`, geom.py:3587-3607 -/
noncomputable def bboxPtsList : List Fig → Except Err (List V4)
  | [] => .ok []
  | g :: gs =>
    match g.bboxPts with
    | .error e => .error e
    | .ok ps =>
      match bboxPtsList gs with
      | .error e => .error e
      | .ok qs => .ok (ps ++ qs)
end

/-- `geomlistbbox`, geom.py:3584-3605; `ok none` = `False` -/
noncomputable def geomlistbbox (gs : List Fig) : Except Err (Option Box) :=
  match bboxPtsList gs with
  | .error e => .error e
  | .ok ps => .ok (polybbox ps)

/-- `bbox`, geom.py:3927-3951 -/
noncomputable def Fig.bbox : Fig → Except Err (Option Box)
  | .point p => .ok (some (pointbbox p))
  | .line l => .ok (some (linebbox l))
  | .arc a => arcbbox a
  | .poly ps => .ok (polybbox ps)
  | .list gs => geomlistbbox gs

end Verif.Geom
