import Verif.Assembly.FaceMate

/-!
# Model of `src/yapcad/assembly/solver.py`

numpy, `face_mate` and the datum registry are importable (`HAS_FACE_MATE`, `HAS_REGISTRY`). The
registry is the function `Reg` in force at the time of a call; it may change between calls. `none` as a
matrix means NaN entries. Message texts, `residual` and `details` are left out.
-/

namespace Verif.Assembly
open Verif.Kin.Transform (identity compose transformPoint transformVector)
open Verif.Dict

/-- `MATE_AXIS_ROTATIONS`, solver.py:98-128 -/
def mateAxisRotation (axis : String) : Option M3 :=
  if axis = "X" then some !![0, 0, -1; 0, 1, 0; 1, 0, 0]
  else if axis = "Y" then some !![1, 0, 0; 0, 0, -1; 0, 1, 0]
  else if axis = "Z" then some 1
  else if axis = "-X" then some !![0, 0, 1; 0, 1, 0; -1, 0, 0]
  else if axis = "-Y" then some !![1, 0, 0; 0, 0, 1; 0, -1, 0]
  else if axis = "-Z" then some !![1, 0, 0; 0, -1, 0; 0, 0, -1]
  else none

/-- `T[:3,:3]` -/
def rotOf (T : M4) : M3 := fun i j => T (Fin.castSucc i) (Fin.castSucc j)

/-- `result = T.copy(); result[:3,:3] = R` -/
def setRot (T : M4) (R : M3) : M4 :=
  !![R 0 0, R 0 1, R 0 2, T 0 3; R 1 0, R 1 1, R 1 2, T 1 3; R 2 0, R 2 1, R 2 2, T 2 3;
     T 3 0, T 3 1, T 3 2, T 3 3]

/-- `apply_mate_axis_rotation`, solver.py:675-693 (and the method, 648-664) -/
def applyMateAxis (T : M4) (axis : String) : M4 :=
  match mateAxisRotation axis with
  | none => T
  | some R => setRot T (rotOf T * R)

/-- normalise unless shorter than 1e-10, then z: solver.py:585-593 -/
noncomputable def unitOrZ (v : V3) : V3 :=
  if norm3 v > 1e-10 then fun i => v i / norm3 v else ![0, 0, 1]

/-- `_get_datum_direction`, solver.py:583-601 -/
noncomputable def datumDir (d : Datum) : V3 :=
  match d.normal with
  | some v => unitOrZ (first3 v)
  | none => match d.direction with
    | some v => unitOrZ (first3 v)
    | none => ![0, 0, 1]

/-- `_rodrigues_rotation`, solver.py:635-651 -/
noncomputable def rodriguesS (axis : V3) (angle : ℝ) : Option M3 :=
  (unit3 axis).map fun a => rodM a (Real.cos angle) (Real.sin angle)

/-- `MateConstraintSolver._rotation_between_vectors`, solver.py:603-633 -/
noncomputable def rotBetweenS (v1 v2 : V3) : Option M3 :=
  match unit3 v1, unit3 v2 with
  | some a, some b =>
    let dot := dot3 a b
    if dot > 9999 / 10000 then some 1
    else if dot < -(9999 / 10000) then (unit3 (perpTo a)).bind fun p => rodriguesS p Real.pi
    else (unit3 (cross3 a b)).bind fun ax => rodriguesS ax (Real.arccos (max (-1) (min 1 dot)))
  | _, _ => none

/-- `_solve_concentric`, solver.py:481-500 -/
noncomputable def solveConcentricS (A B : Datum) : Option M4 :=
  (rotBetweenS (datumDir B) (datumDir A)).map fun R =>
    mk4 R (first3 A.origin - R.mulVec (first3 B.origin))

/-- `_solve_parallel`, solver.py:502-512 -/
noncomputable def solveParallelS (A B : Datum) : Option M4 :=
  (rotBetweenS (datumDir B) (datumDir A)).map fun R => mk4 R 0

/-- `_solve_perpendicular`, solver.py:512-535 -/
noncomputable def solvePerpendicularS (A B : Datum) : Option M4 :=
  let cr := cross3 (datumDir B) (datumDir A)
  let perp := if norm3 cr < 1e-10 then unit3 (perpTo (datumDir A)) else unit3 cr
  (perp.bind fun p => rotBetweenS (datumDir B) p).map fun R => mk4 R 0

/-- `_solve_distance`, solver.py:537-546 -/
noncomputable def solveDistanceS (A _B : Datum) (offset : ℝ) : Option M4 :=
  some (mk4 1 (first3 A.origin + offset • datumDir A))

/-- `_solve_angle`, solver.py:548-559 -/
noncomputable def solveAngleS (A _B : Datum) (angleDeg : ℝ) : Option M4 :=
  (rodriguesS (datumDir A) (radians angleDeg)).map fun R => mk4 R 0

/-- `_solve_constraint`, solver.py:417-448 -/
noncomputable def solveConstraint (m : Mate ℝ) (A B : Datum) : Except String (Option M4) :=
  match m.mtype with
  | .coincident | .rigid => flush A B 0 0 true
  | .concentric => .ok (concentric A B 0)
  | .parallel => .ok (solveParallelS A B)
  | .perpendicular => .ok (solvePerpendicularS A B)
  | .distance => .ok (solveDistanceS A B m.offset)
  | .angle => .ok (solveAngleS A B m.angle)
  | .revolute => .ok (solveConcentricS A B)
  | _ => .error "ValueError"

/-- `MateMateSolveResult`, solver.py:135-156: `success` and `transform` -/
structure SolveResult where
  success : Bool
  transform : Option (Option M4) := none

/-- the `try` body of `solve_mate`, solver.py:263-312, without the cache; every exception (and the
registry's `KeyError`) becomes `success=False` -/
noncomputable def solveFresh (reg : Reg) (m : Mate ℝ) (parent : Option M4) (axis : String) : SolveResult :=
  match reg m.partA m.datumA, reg m.partB m.datumB with
  | some A, some B =>
    match solveConstraint m A B with
    | .error _ => { success := false }
    | .ok T =>
      let T := if axis = "Z" then T else T.map (applyMateAxis · axis)
      let T := match parent with
        | none => T
        | some W => T.map (compose W)
      { success := true, transform := some T }
  | _, _ => { success := false }

/-- `MateConstraintSolver` state, solver.py:218-241 -/
structure Solver where
  useCache : Bool := true
  cache : List (String × SolveResult) := []

/-- `f"{mate.name}:{mate_axis}"`, solver.py:259 -/
def cacheKey (name axis : String) : String := name ++ ":" ++ axis

/-- `solve_mate`, solver.py:243-312 -/
noncomputable def Solver.solveMate (s : Solver) (reg : Reg) (m : Mate ℝ) (parent : Option M4)
    (axis : String) : SolveResult × Solver :=
  match (if s.useCache then dget s.cache (cacheKey m.name axis) else none) with
  | some r => (r, s)
  | none =>
    let r := solveFresh reg m parent axis
    if r.success && s.useCache then
      (r, { s with cache := dset s.cache (cacheKey m.name axis) r })
    else (r, s)

/-- `solve_all`, solver.py:314-332 -/
noncomputable def Solver.solveAll (reg : Reg) (parents : List (String × M4)) :
    List (Mate ℝ) → List (String × SolveResult) → Solver → List (String × SolveResult) × Solver
  | [], res, s => (res, s)
  | m :: ms, res, s =>
    let (r, s') := s.solveMate reg m (dget parents m.partA) "Z"
    solveAll reg parents ms (dset res m.name r) s'

/-- Python `str.startswith` -/
def startsWith (s p : String) : Bool := p.toList.isPrefixOf s.toList

/-- `invalidate_cache`, solver.py:392-403 -/
def Solver.invalidate (s : Solver) (name : Option String) : Solver :=
  match name with
  | none => { s with cache := [] }
  | some n => { s with cache := s.cache.filter (fun e => !startsWith e.1 n) }

/-- the loop of `solve_mate_chain`, solver.py:721-733; `world` is `current_transform` (`none` = NaN,
after which everything stays NaN) -/
noncomputable def chainLoop (reg : Reg) :
    List (Mate ℝ) → Solver → M4 → List (String × Option M4) → List (String × Option M4)
  | [], _, _, acc => acc
  | m :: ms, s, W, acc =>
    match s.solveMate reg m (some W) "Z" with
    | (⟨true, some (some T)⟩, s') => chainLoop reg ms s' T (dset acc m.partB (some T))
    | (⟨true, some none⟩, _) => dset acc m.partB none
    | _ => acc

/-- `solve_mate_chain`, solver.py:696-733. Simplification: once a NaN pose appears the loop stops
(the code would go on filling in NaN poses). -/
noncomputable def solveMateChain (reg : Reg) (ms : List (Mate ℝ)) (base : Option M4) (s : Option Solver) :
    List (String × Option M4) :=
  chainLoop reg ms (s.getD {}) (base.getD identity) []

open Classical in
/-- `validate_transform`, solver.py:334-390: the `valid` flag. `np.allclose` uses its default
`rtol=1e-5` beside `atol=1e-10`. -/
noncomputable def validateTransform (T : M4) (tolDet : ℝ) : Bool :=
  let bottomOk : Prop := |T 3 0| ≤ 1e-10 ∧ |T 3 1| ≤ 1e-10 ∧ |T 3 2| ≤ 1e-10 ∧ |T 3 3 - 1| ≤ 1e-10 + 1e-5
  let R := rotOf T
  let orthoOk : Prop := ∀ i j, |(R.transpose * R) i j - (1 : M3) i j| < 1e-6
  let rigid : Prop := |R.det - 1| < tolDet
  decide (bottomOk ∧ orthoOk ∧ rigid)

end Verif.Assembly
