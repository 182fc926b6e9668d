import Verif.Path.Model
import Mathlib.Algebra.Order.Floor.Defs
import Mathlib.Algebra.Order.Archimedean.Basic

/-!
# Model of `src/yapcad/manufacturing/data.py`, `segmentation.py` and `connectors.py`

Numbers are real numbers. The solid kernel is a parameter (`World`): splitting, uniting and sweeping are arbitrary functions that
may fail, so what is proved holds whatever they do.
-/

namespace Verif.Segment
open Verif.Path (Seg Vec pathLength extract evaluate cutPlane parameterToLength lengthToParameter len)

/-- exceptions -/
inductive Err
  | valueError
  | runtimeError
  | zeroDivision
  | other
  deriving DecidableEq

/-- exceptions of `path_utils.py` -/
def ofPath {α : Type} : Except Verif.Path.Err α → Except Err α
  | .ok a => .ok a
  | .error .valueError => .error .valueError
  | .error .indexError => .error .other

/-- `int(x)`: towards zero -/
noncomputable def trunc (x : ℝ) : ℤ := if 0 ≤ x then ⌊x⌋ else ⌈x⌉

/-- `CutPoint`, data.py:12-34 -/
structure CutPoint where
  element : String
  parameter : ℝ
  length : Option ℝ
  clearance : ℝ
  side : String

/-- `CutPoint.__post_init__`, data.py:36-40 -/
noncomputable def CutPoint.new (element : String) (parameter : ℝ) (length : Option ℝ := none) (clearance : ℝ := 0.2) (side : String := "a") :
    Except Err CutPoint :=
  if ¬ (0 < parameter ∧ parameter < 1) then .error .valueError
  else if ¬ (side = "a" ∨ side = "b" ∨ side = "none") then .error .valueError
  else .ok ⟨element, parameter, length, clearance, side⟩

/-- `connector_type` of a segment: the strings "male", "female" and "none" -/
inductive Kind
  | male
  | female
  | none
  deriving DecidableEq

/-- `Segment`, data.py:41-65; `bounding_box` is never set -/
structure Segment (σ : Type) where
  id : String
  solid : σ
  parent : String
  range : ℝ × ℝ
  tab : Bool
  kind : Kind
  mates : List String

/-- `ConnectorSpec`, data.py:68-85; `profile_type` is always "box" -/
structure Spec where
  id : String
  parent : String
  center : ℝ
  length : ℝ
  clearance : ℝ

/-- `SweptElementProvenance`, data.py:124-147: the fields used by the segmentation. `dims` is what `_extract_profile_dimensions`
(segmentation.py:625-653) finds, `solid` is `metadata.get('solid')`. -/
structure Prov (σ : Type) where
  id : String
  dims : Option (ℝ × ℝ)
  wall : Option ℝ
  spine : List Seg
  solid : Option σ

/-- warnings: "Cut i at t failed" and "Connector union at t failed" -/
inductive Warning
  | cut (i : ℕ) (t : ℝ)
  | union (t : ℝ)

/-- `SegmentationResult`, data.py:91-107; `build_volume_ok` is always `True`, the text of the instructions is not modelled -/
structure Result (σ : Type) where
  segments : List (Segment σ)
  connectors : List Spec
  graph : List (String × List String)
  warnings : List Warning

/-- `SegmentationResult.get_segment`, data.py:114-119 -/
def Result.get {σ : Type} (r : Result σ) (id : String) : Option (Segment σ) := r.segments.find? fun s => s.id = id

/-- the solid kernel: `split_solid_at_plane` (segmentation.py:251-351), `_union_connector_with_segment` (354-388: every failure is
turned into `RuntimeError`) and the sweep of a rectangle of the given width and height along a path (connectors.py:254-260) -/
structure World (σ : Type) where
  split : σ → Vec → Vec → Except Err (σ × σ)
  union : σ → σ → Option σ
  sweep : ℝ × ℝ → List Seg → Except Err σ

/-! ## connectors.py -/

/-- `offset_rectangular_profile`, connectors.py:34-60 -/
noncomputable def offsetProfile (width height clearance : ℝ) : Except Err (ℝ × ℝ) :=
  let w := width - 2 * clearance
  let h := height - 2 * clearance
  if w ≤ 0 ∨ h ≤ 0 then .error .valueError else .ok (w, h)

/-- `compute_inner_profile_dimensions`, connectors.py:63-87 -/
noncomputable def innerProfile (width height wall : ℝ) : Except Err (ℝ × ℝ) :=
  let w := width - 2 * wall
  let h := height - 2 * wall
  if w ≤ 0 ∨ h ≤ 0 then .error .valueError else .ok (w, h)

/-- `compute_connector_profile_dimensions`, connectors.py:90-113 -/
noncomputable def connectorProfile (width height wall clearance : ℝ) : Except Err (ℝ × ℝ) :=
  match innerProfile width height wall with
  | .error e => .error e
  | .ok (w, h) => offsetProfile w h clearance

/-- `compute_connector_length`, connectors.py:116-149, with the default factor -/
noncomputable def connectorLength (width height : ℝ) : ℝ := 3 * max width height

/-- the part of the spine the connector is swept along, connectors.py:238-249 -/
noncomputable def connectorSpan (spine : List Seg) (center length : ℝ) : Except Err (ℝ × ℝ) :=
  match ofPath (parameterToLength spine center) with
  | .error e => .error e
  | .ok c =>
    let lo := max 0 (c - length / 2)
    let hi := min (pathLength spine) (c + length / 2)
    .ok (lengthToParameter spine lo, lengthToParameter spine hi)

/-- `create_interior_connector`, connectors.py:190-254, without corner radius -/
noncomputable def createInterior {σ : Type} (w : World σ) (width height : ℝ) (spine : List Seg) (center wall : ℝ) (length : Option ℝ)
    (clearance : ℝ) : Except Err σ :=
  match connectorProfile width height wall clearance with
  | .error e => .error e
  | .ok dims =>
    match connectorSpan spine center (length.getD (connectorLength width height)) with
    | .error e => .error e
    | .ok (lo, hi) =>
      match ofPath (extract spine lo hi) with
      | .error e => .error e
      | .ok p => w.sweep dims p

/-- `compute_connector_spec`, connectors.py:265-307, without an explicit id -/
noncomputable def connectorSpec (element : String) (t width height clearance : ℝ) : Spec where
  id := element ++ "_conn_" ++ toString (trunc (t * 100))
  parent := element
  center := t
  length := connectorLength width height
  clearance := clearance

/-! ## segmentation.py -/

/-- `segment_swept_element`: the variables of the loop, segmentation.py:443-456 -/
structure St (σ : Type) where
  segs : List (Segment σ)
  conns : List Spec
  graph : List (String × List String)
  warnings : List Warning
  rest : σ
  prev : Option String
  start : ℝ
  next : Bool

/-- assignment to a key of a dictionary -/
def put {α : Type} (k : String) (v : α) : List (String × α) → List (String × α)
  | [] => [(k, v)]
  | (k', v') :: l => if k' = k then (k, v) :: l else (k', v') :: put k v l

/-- change the first segment that has this id -/
def modifyFirst {σ : Type} (id : String) (f : Segment σ → Segment σ) : List (Segment σ) → List (Segment σ)
  | [] => []
  | s :: l => if s.id = id then f s :: l else s :: modifyFirst id f l

/-- segment ids, segmentation.py:544 and 575 -/
def segId (element : String) (i : ℕ) : String := element ++ "_seg_" ++ toString i

/-- what the connector of a cut does: the segment, the remaining solid, and the rest of the step -/
structure Joint (σ : Type) where
  seg : σ
  rest : σ
  kind : Kind
  tab : Bool
  next : Bool
  conns : List Spec
  warnings : List Warning

/-- the connector of a cut, segmentation.py:484-541; `dims` and `wall` are those of the element when all three are present and
not 0 -/
noncomputable def joint {σ : Type} (w : World σ) (element : String) (spine : List Seg) (dims : Option (ℝ × ℝ × ℝ)) (unionConnectors : Bool)
    (c : CutPoint) (j : Joint σ) : Except Err (Joint σ) :=
  match dims with
  | none => .ok j
  | some (width, height, wall) =>
    let spec := connectorSpec element c.parameter width height c.clearance
    if unionConnectors ∧ c.side ≠ "none" then
      match createInterior w width height spine c.parameter wall (some spec.length) c.clearance with
      | .error e => .error e
      | .ok conn =>
        if c.side = "a" then
          match w.union j.seg conn with
          | some s => .ok { j with seg := s, kind := .male, tab := true }
          | none => .ok { j with warnings := j.warnings ++ [.union c.parameter], conns := j.conns ++ [spec] }
        else if c.side = "b" then
          match w.union j.rest conn with
          | some s => .ok { j with rest := s, next := true, kind := if j.kind = .none then .female else j.kind }
          | none => .ok { j with warnings := j.warnings ++ [.union c.parameter], conns := j.conns ++ [spec] }
        else .ok j
    else .ok { j with conns := j.conns ++ [spec] }

/-- `segment_swept_element`: one cut, segmentation.py:458-572 -/
noncomputable def step {σ : Type} (w : World σ) (element : String) (spine : List Seg) (dims : Option (ℝ × ℝ × ℝ)) (unionConnectors : Bool)
    (st : St σ) (ic : ℕ × CutPoint) : Except Err (St σ) :=
  let (i, c) := ic
  match ofPath (cutPlane spine c.parameter) with
  | .error e => .error e
  | .ok (point, normal) =>
    match w.split st.rest point normal with
    | .error .runtimeError => .ok { st with warnings := st.warnings ++ [.cut i c.parameter] }
    | .error e => .error e
    | .ok (a, b) =>
      match joint w element spine dims unionConnectors c
        { seg := a, rest := b, kind := if st.next then .male else .none, tab := st.next, next := false, conns := st.conns, warnings := st.warnings } with
      | .error e => .error e
      | .ok j =>
        let id := segId element i
        let seg : Segment σ :=
          { id := id, solid := j.seg, parent := element, range := (st.start, c.parameter), tab := j.tab, kind := j.kind, mates := st.prev.toList }
        let segs := match st.prev with
          | none => st.segs
          | some p => modifyFirst p (fun s =>
              { s with mates := s.mates ++ [id], kind := if j.kind = .male ∧ s.kind = .none then .female else s.kind }) st.segs
        .ok { segs := segs ++ [seg], conns := j.conns, graph := put id seg.mates st.graph, warnings := j.warnings, rest := j.rest,
              prev := some id, start := c.parameter, next := j.next }

/-- the loop over the cuts -/
noncomputable def run {σ : Type} (w : World σ) (element : String) (spine : List Seg) (dims : Option (ℝ × ℝ × ℝ)) (unionConnectors : Bool) :
    St σ → List (ℕ × CutPoint) → Except Err (St σ)
  | st, [] => .ok st
  | st, ic :: l =>
    match step w element spine dims unionConnectors st ic with
    | .error e => .error e
    | .ok st' => run w element spine dims unionConnectors st' l

/-- the last segment, segmentation.py:574-622 -/
noncomputable def finish {σ : Type} (element : String) (n : ℕ) (st : St σ) : Result σ :=
  let id := segId element n
  let before := st.prev.bind fun p => st.segs.find? fun s => s.id = p
  let kind := if st.next then Kind.male
    else match before with
      | some s => if s.kind = .male then .female else .none
      | none => .none
  let seg : Segment σ :=
    { id := id, solid := st.rest, parent := element, range := (st.start, 1), tab := st.next, kind := kind, mates := st.prev.toList }
  let segs := match st.prev with
    | none => st.segs
    | some p => modifyFirst p (fun s => { s with mates := s.mates ++ [id] }) st.segs
  { segments := segs ++ [seg], connectors := st.conns, graph := put id seg.mates st.graph, warnings := st.warnings }

/-- the cuts in order, numbered: `enumerate(sorted(cut_points, key=lambda cp: cp.parameter))`, segmentation.py:420, 458 -/
noncomputable def ordered (cuts : List CutPoint) : List CutPoint := by
  classical exact cuts.mergeSort fun a b => decide (a.parameter ≤ b.parameter)

/-- numbered from 0 -/
def enumerate {α : Type} (l : List α) : List (ℕ × α) := (List.range l.length).zip l

/-- the dimensions when connectors are built: `build_connectors and outer_w and outer_h and provenance.wall_thickness`,
segmentation.py:438-441, 485 -/
noncomputable def usable {σ : Type} (p : Prov σ) (build : Bool) : Option (ℝ × ℝ × ℝ) := by
  classical exact
    match p.dims, p.wall with
    | some (w, h), some t => if build ∧ w ≠ 0 ∧ h ≠ 0 ∧ t ≠ 0 then some (w, h, t) else none
    | _, _ => none

/-- `segment_swept_element`, segmentation.py:391-622 -/
noncomputable def segmentSwept {σ : Type} (w : World σ) (p : Prov σ) (cuts : List CutPoint) (build unionConnectors : Bool) :
    Except Err (Result σ) :=
  if cuts = [] then .error .valueError
  else if (ordered cuts).any (fun c => c.element ≠ p.id) then .error .valueError
  else match p.solid with
    | none => .error .valueError
    | some solid =>
      match run w p.id p.spine (usable p build) unionConnectors
        { segs := [], conns := [], graph := [], warnings := [], rest := solid, prev := none, start := 0, next := false }
        (enumerate (ordered cuts)) with
      | .error e => .error e
      | .ok st => .ok (finish p.id cuts.length st)

/-- `FIT_CLEARANCE['press']`, connectors.py:24 -/
noncomputable def press : ℝ := 0.18

/-- a list of calls that may each raise, in order -/
def collect {α : Type} : List (Except Err α) → Except Err (List α)
  | [] => .ok []
  | .error e :: _ => .error e
  | .ok a :: l =>
    match collect l with
    | .error e => .error e
    | .ok as => .ok (a :: as)

/-- `compute_optimal_cuts`, segmentation.py:732-777 -/
noncomputable def optimalCuts {σ : Type} (p : Prov σ) (limit : ℝ) : Except Err (List CutPoint) :=
  let total := pathLength p.spine
  if total ≤ limit then .ok []
  else if limit = 0 then .error .zeroDivision
  else
    let n : ℤ := trunc (total / limit) + 1
    if n = 0 then .error .zeroDivision
    else
      let each := total / n
      collect ((List.range (n.toNat - 1)).map fun i : ℕ => CutPoint.new p.id ((i + 1 : ℕ) * each / total) none press)

/-- the pieces of a ring, segmentation.py:190-214 -/
noncomputable def ringRanges (cuts : List ℝ) : Except Err (List (ℝ × ℝ)) := by
  classical exact
    if cuts = [] then .error .valueError
    else
      let c := cuts.mergeSort fun a b => decide (a ≤ b)
      if c.any (fun t => decide (t ≤ 0 ∨ 1 ≤ t)) then .error .valueError
      else .ok ((0, c.headD 0) :: (c.zip c.tail) ++ [(c.getLastD 0, 1)])

/-- opposite -/
def neg (v : Vec) : Vec := ⟨-v.x, -v.y, -v.z⟩

/-- `segment_closed_ring`, segmentation.py:167-248: the two planes (point, outward normal) that bound each piece; what is cut out
between them is the solid kernel's -/
noncomputable def ringPlanes (spine : List Seg) (cuts : List ℝ) : Except Err (List ((Vec × Vec) × (Vec × Vec))) :=
  match ringRanges cuts with
  | .error e => .error e
  | .ok rs => collect (rs.map fun r =>
      match ofPath (cutPlane spine r.1) with
      | .error e => .error e
      | .ok (p, n) =>
        match ofPath (cutPlane spine r.2) with
        | .error e => .error e
        | .ok (q, m) => .ok ((p, neg n), (q, m)))

/-- `create_terminal_connector`, connectors.py:310-400: the line the tab is swept along, its direction normalised as in
`_get_spine_endpoint_and_tangent` (connectors.py:403-431) -/
noncomputable def terminalLine (width height : ℝ) (spine : List Seg) (side : String) (wall : ℝ) (length : Option ℝ) (clearance : ℝ) :
    Except Err ((ℝ × ℝ) × Vec × Vec) :=
  if ¬ (side = "start" ∨ side = "end") then .error .valueError
  else match connectorProfile width height wall clearance with
    | .error e => .error e
    | .ok dims =>
      let l := length.getD (connectorLength width height / 2)
      match ofPath (evaluate spine (if side = "start" then 0 else 1)) with
      | .error e => .error e
      | .ok (p, τ) =>
        let m := len τ
        let τ : Vec := if 0 < m then ⟨τ.x / m, τ.y / m, τ.z / m⟩ else τ
        let d : Vec := if side = "start" then ⟨-τ.x, -τ.y, -τ.z⟩ else τ
        .ok (dims, p, ⟨p.x + d.x * l, p.y + d.y * l, p.z + d.z * l⟩)

end Verif.Segment
