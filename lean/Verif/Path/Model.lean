import Mathlib.Analysis.SpecialFunctions.Trigonometric.Inverse
import Mathlib.Analysis.SpecialFunctions.Sqrt

/-!
# Model of `src/yapcad/manufacturing/path_utils.py`

Numbers are real numbers. A segment is a dictionary whose keys are those of its type; a missing key (`KeyError`) is not modelled.
-/

namespace Verif.Path
open Real

/-- a list of three numbers -/
@[ext] structure Vec where
  x : ℝ
  y : ℝ
  z : ℝ

/-- exceptions -/
inductive Err
  | valueError
  | indexError
  deriving DecidableEq

/-- `_vector_subtract`, path_utils.py:19-21 -/
def sub (a b : Vec) : Vec := ⟨a.x - b.x, a.y - b.y, a.z - b.z⟩

/-- `_vector_add`, path_utils.py:24-26 -/
def add (a b : Vec) : Vec := ⟨a.x + b.x, a.y + b.y, a.z + b.z⟩

/-- `_vector_scale`, path_utils.py:29-31 -/
def scale (v : Vec) (s : ℝ) : Vec := ⟨v.x * s, v.y * s, v.z * s⟩

/-- `_cross_product`, path_utils.py:34-40 -/
def cross (a b : Vec) : Vec := ⟨a.y * b.z - a.z * b.y, a.z * b.x - a.x * b.z, a.x * b.y - a.y * b.x⟩

/-- dot product, written out in path_utils.py:101, 109, 123 -/
def dot (a b : Vec) : ℝ := a.x * b.x + a.y * b.y + a.z * b.z

/-- length, written out in path_utils.py:13, 91 -/
noncomputable def len (v : Vec) : ℝ := √(v.x ^ 2 + v.y ^ 2 + v.z ^ 2)

/-- `_normalize_vector`, path_utils.py:11-16 -/
noncomputable def normalize (v : Vec) : Vec :=
  if len v < 1e-10 then ⟨0, 0, 1⟩ else ⟨v.x / len v, v.y / len v, v.z / len v⟩

/-- `_lerp_point`, path_utils.py:43-49 -/
def lerp (a b : Vec) (t : ℝ) : Vec := ⟨a.x + t * (b.x - a.x), a.y + t * (b.y - a.y), a.z + t * (b.z - a.z)⟩

/-- `_evaluate_line_segment`, path_utils.py:52-69 -/
noncomputable def evalLine (s e : Vec) (t : ℝ) : Vec × Vec := (lerp s e t, normalize (sub e s))

/-- the angle of an arc, path_utils.py:90-111 and again 322-342 -/
noncomputable def arcAngle (c s e n : Vec) : ℝ :=
  let rs := normalize (sub s c)
  let re := normalize (sub e c)
  let d := max (-1) (min 1 (dot rs re))
  let a := arccos d
  if dot (cross rs re) (normalize n) < 0 then 2 * π - a else a

/-- the rotated direction, path_utils.py:113-129 -/
noncomputable def rodrigues (k r : Vec) (a : ℝ) : Vec :=
  let kr := cross k r
  let d := dot k r
  ⟨r.x * cos a + kr.x * sin a + k.x * d * (1 - cos a), r.y * cos a + kr.y * sin a + k.y * d * (1 - cos a),
   r.z * cos a + kr.z * sin a + k.z * d * (1 - cos a)⟩

/-- `_evaluate_arc_segment`, path_utils.py:72-138 -/
noncomputable def evalArc (c s e n : Vec) (t : ℝ) : Vec × Vec :=
  let k := normalize n
  let rot := rodrigues k (normalize (sub s c)) (t * arcAngle c s e n)
  (add c (scale rot (len (sub s c))), normalize (cross k rot))

/-- a segment; `normal` may be missing, then it is `[0, 0, 1]` (path_utils.py:184, 284); `other` is any other `type` -/
inductive Seg
  | line (s e : Vec)
  | arc (c s e : Vec) (n : Option Vec)
  | other

/-- the normal of an arc -/
def up (n : Option Vec) : Vec := n.getD ⟨0, 0, 1⟩

/-- the last part of `evaluate_path3d_at_t`, path_utils.py:178-190 -/
noncomputable def evalSeg : Seg → ℝ → Except Err (Vec × Vec)
  | .line s e, u => .ok (evalLine s e u)
  | .arc c s e n, u => .ok (evalArc c s e (up n) u)
  | .other, _ => .error .valueError

/-- `max(0.0, min(1.0, t))` -/
noncomputable def clamp (t : ℝ) : ℝ := max 0 (min 1 t)

/-- `evaluate_path3d_at_t`, path_utils.py:143-191 -/
noncomputable def evaluate (p : List Seg) (t : ℝ) : Except Err (Vec × Vec) :=
  if p.length = 0 then .error .valueError
  else
    let t := clamp t
    let n := p.length
    let i := if t ≥ 1 then n - 1 else ⌊t * n⌋₊
    let u := if t ≥ 1 then 1 else t * n - ⌊t * n⌋₊
    match p[i]? with
    | none => .error .indexError
    | some s => evalSeg s u

/-- `compute_cut_plane`, path_utils.py:193-213 -/
noncomputable def cutPlane (p : List Seg) (t : ℝ) : Except Err (Vec × Vec) := evaluate p t

/-- the part of a segment between two local parameters, path_utils.py:272-298; nothing for a segment of another type -/
noncomputable def piece (a b : ℝ) : Seg → Option Seg
  | .line s e => some (.line (lerp s e a) (lerp s e b))
  | .arc c s e n => some (.arc c (evalArc c s e (up n) a).1 (evalArc c s e (up n) b).1 (some (up n)))
  | .other => none

/-- `extract_sub_path`, path_utils.py:216-300 -/
noncomputable def extract (p : List Seg) (t0 t1 : ℝ) : Except Err (List Seg) :=
  if t0 ≥ t1 then .error .valueError
  else
    let s := clamp t0 * p.length
    let e := clamp t1 * p.length
    if p.length = 0 then .ok []
    else
      let si := ⌊s⌋₊
      let ei := min ⌊e⌋₊ (p.length - 1)
      let sl := s - si
      let el := if ei < p.length then e - ei else 1
      .ok ((List.range' si (ei + 1 - si)).filterMap fun i =>
        let lo := if i = si then sl else 0
        let hi := if i = ei then el else 1
        if lo ≥ hi then none else p[i]?.bind (piece lo hi))

/-- the length of a segment, path_utils.py:315-344 -/
noncomputable def segLength : Seg → ℝ
  | .line s e => len (sub e s)
  | .arc c s e n => len (sub s c) * arcAngle c s e (up n)
  | .other => 0

/-- `path_length`, path_utils.py:303-346 -/
noncomputable def pathLength (p : List Seg) : ℝ := p.foldl (fun t s => t + segLength s) 0

/-- `length_to_parameter`, path_utils.py:352-365 -/
noncomputable def lengthToParameter (p : List Seg) (l : ℝ) : ℝ :=
  if pathLength p < 1e-10 then 0 else min 1 (max 0 (l / pathLength p))

/-- `parameter_to_length`, path_utils.py:368-380 -/
noncomputable def parameterToLength (p : List Seg) (t : ℝ) : Except Err ℝ :=
  match extract p 0 t with
  | .error e => .error e
  | .ok q => .ok (pathLength q)

end Verif.Path
