import Verif.Assembly.Constraint
import Verif.Assembly.Mate

/-!
# Model of `src/yapcad/assembly/assembly.py`

The state is a heap of `PartDefinition` objects (they are shared between assembly entries and can be
given more datums after being added, datum.py:423-446) together with one `Assembly`.
Coordinates are real. Load cases are reduced to their id and attach part, bolt patterns to an opaque
payload. A call returns the new state and, when it raises, the kind of exception.
-/

namespace Verif.Assembly
open Verif.Dict Verif.Xform

/-- kinds of exception -/
inductive Err
  | assemblyError | valueError | attributeError | typeError | keyError
deriving DecidableEq, Repr

/-- `PartDefinition`, datum.py:357-421 (name and datums) -/
structure PartDef where
  name : String
  datums : List (String × Datum)

/-- a `LoadCase` reduced to what `add_load_case` reads -/
structure LoadCase where
  id : String
  attachPart : String

/-- `Assembly.__init__`, assembly.py:287-306. A part entry is the identity of its definition; a
transform entry is the numpy array or list of rows stored for it. -/
structure State where
  defs : Nat → PartDef
  parts : List (String × Nat)
  transforms : List (String × TArg)
  mates : List (Mate ℝ)
  constraints : List Constraint
  loadCases : List (String × LoadCase)
  boltPatterns : List ((String × String) × String)

/-- a fresh assembly over a given heap of part definitions -/
def State.empty (defs : Nat → PartDef) : State := ⟨defs, [], [], [], [], [], []⟩

/-- the value under `"transform"` in the JSON of `import_transforms_from_kinematic_chain` -/
inductive TData
  | flat (l : List ℝ)
  | nested (l : List (List ℝ))
  | notList

/-- the operations -/
inductive Op
  | addDatum (ref : Nat) (d : Datum)
  | addPart (ref : Nat) (name : Option String) (transform : Option TArg)
  | addMate (m : Mate ℝ)
  | addConstraint (c : Constraint)
  | addLoadCase (lc : LoadCase)
  | addBoltPattern (parent child : String) (bp : String)
  /-- `none` = no `"parts"` key; per part, `none` = no `"transform"` key -/
  | importTransforms (data : Option (List (String × Option TData)))

/-- `np.array(transform_data).reshape(4,4)` or `np.array(transform_data)`, assembly.py:728-748 -/
def TData.parse : TData → Except Err (Fin 4 → Fin 4 → ℝ)
  | .flat l =>
    if h : l.length = 16 then
      .ok (fun i j => l.get ⟨i.val * 4 + j.val, by have := i.isLt; have := j.isLt; omega⟩)
    else if l.length = 4 then .error .typeError  -- len(row) of a number
    else .error .assemblyError
  | .nested l =>
    if l.length = 16 then
      -- 16 one-element rows reshape to 4x4, anything else cannot be reshaped
      if l.all (fun r => r.length = 1) then
        .ok (fun i j => ((l.getD (i.val * 4 + j.val) []).getD 0 0))
      else .error .valueError
    else if l.length = 4 ∧ l.all (fun r => r.length = 4) then
      .ok (fun i j => ((l.getD i.val []).getD j.val 0))
    else .error .assemblyError
  | .notList => .error .assemblyError

/-- the loop of `import_transforms_from_kinematic_chain`, assembly.py:717-756 -/
def importLoop (s : State) : List (String × Option TData) → State × Option Err
  | [] => (s, none)
  | (n, td) :: rest =>
    match dget s.parts n with
    | none => importLoop s rest
    | some _ =>
      match td with
      | none => (s, some .assemblyError)
      | some t =>
        match t.parse with
        | .error e => (s, some e)
        | .ok a => importLoop { s with transforms := dset s.transforms n (.ndarray a) } rest

/-- a datum looked up through a part name -/
def State.datum (s : State) (part datum : String) : Option Datum :=
  match dget s.parts part with
  | none => none
  | some r => dget (s.defs r).datums datum

/-- One call. add_datum datum.py:423-446; add_part assembly.py:308-341; add_mate 343-407;
add_constraint 409-448; add_load_case 453-476; add_bolt_pattern 485-508;
import_transforms_from_kinematic_chain 679-756. -/
noncomputable def step (s : State) : Op → State × Option Err
  | .addDatum r d =>
    let p := s.defs r
    match dget p.datums d.name with
    | some _ => (s, some .valueError)
    | none => ({ s with defs := Function.update s.defs r { p with datums := dset p.datums d.name d } }, none)
  | .addPart r name tr =>
    let n := name.getD (s.defs r).name
    match dget s.parts n with
    | some _ => (s, some .assemblyError)
    | none =>
      let s := { s with parts := dset s.parts n r }
      match tr with
      | none => ({ s with transforms := dset s.transforms n (.ndarray fun i j => if i = j then 1 else 0) }, none)
      -- `transform.copy()`: numpy arrays and lists have it, yapCAD's Matrix does not
      | some (.matrix _) => (s, some .attributeError)
      | some t => ({ s with transforms := dset s.transforms n t }, none)
  | .addMate m =>
    match dget s.parts m.partA with
    | none => (s, some .assemblyError)
    | some r1 =>
      match dget s.parts m.partB with
      | none => (s, some .assemblyError)
      | some r2 =>
        match dget (s.defs r1).datums m.datumA with
        | none => (s, some .assemblyError)
        | some d1 =>
          match dget (s.defs r2).datums m.datumB with
          | none => (s, some .assemblyError)
          | some d2 =>
            if mateValidate m.mtype d1.dtype d2.dtype ≠ [] then (s, some .assemblyError)
            else ({ s with mates := s.mates ++ [m] }, none)
  | .addConstraint c =>
    match dget s.parts c.part with
    | none => (s, some .assemblyError)
    | some r =>
      match dget (s.defs r).datums c.datum with
      | none => (s, some .assemblyError)
      | some _ => ({ s with constraints := s.constraints ++ [c] }, none)
  | .addLoadCase lc =>
    if lc.attachPart ≠ "_assembly" ∧ dget s.parts lc.attachPart = none then (s, some .assemblyError)
    else
      match dget s.loadCases lc.id with
      | some _ => (s, some .assemblyError)
      | none => ({ s with loadCases := dset s.loadCases lc.id lc }, none)
  | .addBoltPattern p c bp =>
    match dget s.parts p with
    | none => (s, some .assemblyError)
    | some _ =>
      match dget s.parts c with
      | none => (s, some .assemblyError)
      | some _ =>
        match dget s.boltPatterns (p, c) with
        | some _ => (s, some .assemblyError)
        | none => ({ s with boltPatterns := dset s.boltPatterns (p, c) bp }, none)
  | .importTransforms data =>
    match data with
    | none => (s, some .assemblyError)
    | some l => importLoop s l

/-- a whole history: exceptions are caught by the caller, who goes on -/
noncomputable def run (s : State) (ops : List Op) : State := ops.foldl (fun s o => (step s o).1) s

/-! ## queries -/

/-- `get_transformed_datum`, assembly.py:514-555 -/
noncomputable def State.transformedDatum (s : State) (part datum : String) : Except Err Datum :=
  match dget s.parts part with
  | none => .error .assemblyError
  | some r =>
    match dget (s.defs r).datums datum with
    | none => .error .assemblyError
    | some d =>
      match dget s.transforms part with
      | none => .error .keyError
      | some t =>
        match d.transform t with
        | none => .error .valueError
        | some d' => .ok d'

/-- `AssemblyValidationResult`, assembly.py:142-168 (the warning text reduced to the constraint name) -/
structure VResult where
  isValid : Bool
  results : List (String × CResult)
  failed : List String
  warnings : List String

/-- the loop of `validate`, assembly.py:574-593 -/
noncomputable def validateLoop (s : State) (acc : List (String × CResult) × List String × List String) :
    List Constraint → Except Err (List (String × CResult) × List String × List String)
  | [] => .ok acc
  | c :: cs =>
    match s.transformedDatum c.part c.datum with
    | .error e => .error e
    | .ok d =>
      let r := c.evaluate d
      let results := dset acc.1 c.name r
      if r.passed then validateLoop s (results, acc.2.1, acc.2.2) cs
      else if c.severity = "error" then validateLoop s (results, acc.2.1 ++ [c.name], acc.2.2) cs
      else if c.severity = "warning" then validateLoop s (results, acc.2.1, acc.2.2 ++ [c.name]) cs
      else validateLoop s (results, acc.2.1, acc.2.2) cs

/-- `validate`, assembly.py:557-602 -/
noncomputable def validate (s : State) : Except Err VResult :=
  match validateLoop s ([], [], []) s.constraints with
  | .error e => .error e
  | .ok (results, failed, warnings) => .ok ⟨decide (failed.length = 0), results, failed, warnings⟩

/-- `validate_and_raise`, assembly.py:604-631. `cr.message` does not exist on `ConstraintResult`
(constraint.py:90-111 declares `error_message`), so building the message raises AttributeError. -/
noncomputable def validateAndRaise (s : State) : Option Err :=
  match validate s with
  | .error e => some e
  | .ok r =>
    if r.isValid then none
    else
      match r.failed with
      | [] => some .assemblyError
      | n :: _ =>
        match dget r.results n with
        | none => some .keyError
        | some _ => some .attributeError

/-- the loop of `get_degrees_of_freedom`, assembly.py:655-677. `MateType.FLUSH` does not exist, so
evaluating the third comparison raises AttributeError. -/
def dofLoop (dof : List (String × Int)) : List (Mate ℝ) → Except Err (List (String × Int))
  | [] => .ok dof
  | m :: ms =>
    match m.mtype with
    | .coincident =>
      match dget dof m.partB with
      | none => .error .keyError
      | some n => dofLoop (dset dof m.partB (max 0 (n - 3))) ms
    | .concentric =>
      match dget dof m.partB with
      | none => .error .keyError
      | some n => dofLoop (dset dof m.partB (max 0 (n - 2))) ms
    | _ => .error .attributeError

/-- `get_degrees_of_freedom`, assembly.py:633-677 -/
def degreesOfFreedom (s : State) : Except Err (List (String × Int)) :=
  dofLoop (s.parts.map fun e => (e.1, 6)) s.mates

end Verif.Assembly
