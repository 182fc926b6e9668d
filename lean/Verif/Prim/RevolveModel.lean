import Verif.Prim.SphereModel

/-!
# Model of `makeRevolutionSurface` (`src/yapcad/geom3d_util.py`)

The contour is a function of `z` (it is taken to have no effects and not to raise). The BREP result is left out.
-/

namespace Verif.Prim
open Verif.Geom Verif.Surf Real

/-- vertices, normals, table and faces under construction -/
structure RState where
  b : Build
  fs : List (List Int)

/-- the point number `j` of a circle of `n` points, geom3d_util.py:871-880, 919-920: the code's exact values for `j = 0` are
those of the formula -/
noncomputable def wheel (n j : Nat) (r z : ℝ) : V4 := pt (cos (j * (2 * π / n)) * r) (sin (j * (2 * π / n)) * r) z

/-- a `for` loop -/
noncomputable def loop (f : RState → Nat → Except Err RState) : List Nat → RState → Except Err RState
  | [], st => .ok st
  | i :: is, st => match f st i with
    | .error e => .error e
    | .ok st => loop f is st

/-- one triangle between the lower pole and the first ring, geom3d_util.py:915-929 -/
noncomputable def startFan (fmt : ℝ → String) (me n : Nat) (r1 z1 : ℝ) (sp : Nat) (st : RState) (j : Nat) : Except Err RState :=
  let pp1 := wheel n j r1 z1
  let pp2 := wheel n ((j + 1) % n) r1 z1
  match st.b.vs[sp]? with
  | none => .error .indexError
  | some pole =>
    match tri2p0n pole pp2 pp1 with
    | .error .valueError => .ok st
    | .error e => .error e
    | .ok (_, nrm) =>
      let a := addVertex fmt me pp1 nrm st.b
      let c := addVertex fmt me pp2 nrm a.2
      .ok ⟨c.2, st.fs ++ [[(sp : Int), (c.1 : Int), (a.1 : Int)]]⟩

/-- one triangle between the last ring and the upper pole, geom3d_util.py:936-950 -/
noncomputable def endFan (fmt : ℝ → String) (me n : Nat) (r0 z0 : ℝ) (ep : Nat) (st : RState) (j : Nat) : Except Err RState :=
  let p1 := wheel n j r0 z0
  let p2 := wheel n ((j + 1) % n) r0 z0
  match st.b.vs[ep]? with
  | none => .error .indexError
  | some pole =>
    match tri2p0n p1 p2 pole with
    | .error .valueError => .ok st
    | .error e => .error e
    | .ok (_, nrm) =>
      let a := addVertex fmt me p1 nrm st.b
      let c := addVertex fmt me p2 nrm a.2
      .ok ⟨c.2, st.fs ++ [[(a.1 : Int), (c.1 : Int), (ep : Int)]]⟩

/-- the two triangles between two rings, geom3d_util.py:959-983 -/
noncomputable def quad (fmt : ℝ → String) (me n : Nat) (r0 r1 z0 z1 : ℝ) (st : RState) (j : Nat) : Except Err RState :=
  let p0 := wheel n (wrap ((j : Int) - 1) n) r0 z0
  let p1 := wheel n j r0 z0
  let p2 := wheel n ((j + 1) % n) r0 z0
  let pp1 := wheel n j r1 z1
  let pp2 := wheel n ((j + 1) % n) r1 z1
  match tri2p0n p0 p2 pp1 with
  | .error .valueError => .ok st
  | .error e => .error e
  | .ok (_, nrm) =>
    let k1 := addVertex fmt me p1 nrm st.b
    let k2 := addVertex fmt me p2 nrm k1.2
    let k3 := addVertex fmt me pp2 nrm k2.2
    let k4 := addVertex fmt me pp1 nrm k3.2
    .ok ⟨k4.2, st.fs ++ [[(k1.1 : Int), (k2.1 : Int), (k3.1 : Int)], [(k1.1 : Int), (k3.1 : Int), (k4.1 : Int)]]⟩

/-- one triangle of the disc at the bottom, geom3d_util.py:993-1001 -/
noncomputable def startDisc (fmt : ℝ → String) (me n : Nat) (r z : ℝ) (k : Nat) (st : RState) (j : Nat) : Except Err RState :=
  let a := addVertex fmt me (wheel n j r z) (dir 0 0 (-1)) st.b
  let c := addVertex fmt me (wheel n ((j + 1) % n) r z) (dir 0 0 (-1)) a.2
  .ok ⟨c.2, st.fs ++ [[(k : Int), (c.1 : Int), (a.1 : Int)]]⟩

/-- one triangle of the disc at the top, geom3d_util.py:1008-1016 -/
noncomputable def endDisc (fmt : ℝ → String) (me n : Nat) (r z : ℝ) (k : Nat) (st : RState) (j : Nat) : Except Err RState :=
  let a := addVertex fmt me (wheel n j r z) (dir 0 0 1) st.b
  let c := addVertex fmt me (wheel n ((j + 1) % n) r z) (dir 0 0 1) a.2
  .ok ⟨c.2, st.fs ++ [[(k : Int), (a.1 : Int), (c.1 : Int)]]⟩

open Classical in
/-- the radius is not allowed to be smaller than epsilon, geom3d_util.py:913-914, 934-935, 954-957 -/
noncomputable def atLeast (r : ℝ) : ℝ := if r < eps then eps else r

/-- one round of the main loop, geom3d_util.py:905-983; `sp` and `ep` are the numbers of the poles, if there are any -/
noncomputable def revStrip (fmt : ℝ → String) (me n : Nat) (contour : ℝ → ℝ) (zStart zD : ℝ) (steps : Nat) (sp ep : Option Nat)
    (st : RState) (i : Nat) : Except Err RState :=
  let z := i * zD + zStart
  let r0 := contour z
  let r1 := contour (z + zD)
  match (if i = 0 then sp else none), (if i = steps - 1 then ep else none) with
  | some k, _ => loop (startFan fmt me n (atLeast r1) (z + zD) k) (List.range n) st
  | none, some k => loop (endFan fmt me n (atLeast r0) z k) (List.range n) st
  | none, none => loop (quad fmt me n (atLeast r0) (atLeast r1) z (z + zD)) (List.range n) st

/-- a pole vertex, geom3d_util.py:890-903 -/
noncomputable def pole (fmt : ℝ → String) (me : Nat) (need : Prop) [Decidable need] (p nrm : V4) (b : Build) : Option Nat × Build :=
  if need then let r := addVertex fmt me p nrm b; (some r.1, r.2) else (none, b)

/-- the disc at the bottom, geom3d_util.py:988-1001 -/
noncomputable def bottomCap (fmt : ℝ → String) (me n : Nat) (need : Prop) [Decidable need] (r z : ℝ) (st : RState) : Except Err RState :=
  if need then
    let k := addVertex fmt me (pt 0 0 z) (dir 0 0 (-1)) st.b
    loop (startDisc fmt me n r z k.1) (List.range n) ⟨k.2, st.fs⟩
  else .ok st

/-- the disc at the top, geom3d_util.py:1003-1016 -/
noncomputable def topCap (fmt : ℝ → String) (me n : Nat) (need : Prop) [Decidable need] (r z : ℝ) (st : RState) : Except Err RState :=
  if need then
    let k := addVertex fmt me (pt 0 0 z) (dir 0 0 1) st.b
    loop (endDisc fmt me n r z k.1) (List.range n) ⟨k.2, st.fs⟩
  else .ok st

/-- the largest radius, geom3d_util.py:859-864 -/
noncomputable def maxRadius (contour : ℝ → ℝ) (zStart zD : ℝ) (steps : Nat) : ℝ :=
  (List.range (steps + 1)).foldl (fun m i => max m (contour (i * zD + zStart))) 0

open Classical in
/-- `makeRevolutionSurface` once the number of samples is known, geom3d_util.py:867-1018 -/
noncomputable def revolveWith (fmt : ℝ → String) (me : Nat) (t : Table) (contour : ℝ → ℝ) (zStart zEnd : ℝ) (steps n : Nat) : Except Err Surface :=
  if n = 0 then .error .zeroDivision
  else
    let zD := (zEnd - zStart) / steps
    let rs := contour zStart
    let re := contour zEnd
    let s := pole fmt me (rs < eps * 10) (pt 0 0 zStart) (dir 0 0 (-1)) ⟨[], [], t⟩
    let e := pole fmt me (re < eps * 10) (pt 0 0 zEnd) (dir 0 0 1) s.2
    match loop (revStrip fmt me n contour zStart zD steps s.1 e.1) (List.range steps) ⟨e.2, []⟩ with
    | .error x => .error x
    | .ok st =>
      match bottomCap fmt me n (¬ rs < eps * 10 ∧ rs ≥ eps) rs zStart st with
      | .error x => .error x
      | .ok st =>
        match topCap fmt me n (¬ re < eps * 10 ∧ re ≥ eps) re zEnd st with
        | .error x => .error x
        | .ok st => mkSurface st.b.vs st.b.ns st.fs []

/-- `makeRevolutionSurface`, geom3d_util.py:834-1018; `me` is the identity of the list of vertices, `t` the state of the global
table. A negative number of samples from `adaptive_arc_segments` does not occur. -/
noncomputable def makeRevolutionSurface (fmt : ℝ → String) (me : Nat) (t : Table) (contour : ℝ → ℝ) (zStart zEnd : ℝ) (steps : Nat)
    (arcSamples : Option Nat := none) (chordError maxChord : Option ℝ := none) : Except Err Surface :=
  if steps = 0 then .error .zeroDivision
  else
    let zD := (zEnd - zStart) / steps
    match arcSamples with
    | some n => revolveWith fmt me t contour zStart zEnd steps n
    | none => match adaptiveArcSegments (maxRadius contour zStart zD steps) chordError maxChord with
      | .error e => .error e
      | .ok k => revolveWith fmt me t contour zStart zEnd steps k.toNat

end Verif.Prim
