import Mathlib.Data.List.Dedup
import Mathlib.Data.Rat.Defs

/-!
# Model of the topology graph of `src/yapcad/native_brep.py`

`K` is the type of identities, `P` of points, `C` of curves (type and parameters of an edge), `S` of surfaces. A dictionary of entities is the function that looks an identity up; the order of
the entries (not observable by the functions modelled here) is left out, and so are tags and the UV curves of trims, which nothing reads. Each entity carries its own identity in Python; here it is the key
it is stored under. Entities are values: an entity in the graph that is also held and changed by the caller is not modelled.
-/

namespace Verif.Brep

/-- `brep_vertex`, native_brep.py:71-97: location, tolerance and the identities of the incident edges -/
structure Vertex (K P : Type) where
  loc : P
  tol : ℚ
  edges : List K

/-- `brep_edge`, native_brep.py:169-213 -/
structure Edge (K C : Type) where
  curve : C
  start : K
  stop : K
  sense : Bool
  tol : ℚ
  faces : List K

/-- `brep_trim`, native_brep.py:516-548 -/
structure Trim (K : Type) where
  edge : K
  sense : Bool

/-- `brep_loop`, native_brep.py:575-606 -/
structure Loop (K : Type) where
  trims : List K
  outer : Bool

/-- `brep_face`, native_brep.py:640-675 -/
structure Face (K S : Type) where
  surface : S
  loops : List K
  sense : Bool
  shell : Option K

/-- `brep_shell`, native_brep.py:729-773 -/
structure Shell (K : Type) where
  faces : List K
  outer : Bool
  closed : Option Bool
  solid : Option K

/-- `brep_solid`, native_brep.py:820-848 -/
structure Solid (K : Type) where
  shells : List K

/-- `TopologyGraph.__init__`, native_brep.py:883-891 -/
structure Graph (K P C S : Type) where
  vertices : K → Option (Vertex K P)
  edges : K → Option (Edge K C)
  trims : K → Option (Trim K)
  loops : K → Option (Loop K)
  faces : K → Option (Face K S)
  shells : K → Option (Shell K)
  solids : K → Option (Solid K)

/-- exceptions -/
inductive Err
  | valueError
  | closure
  | validation
  deriving DecidableEq

variable {K P C S : Type} [DecidableEq K]

/-- an empty graph -/
def empty : Graph K P C S := ⟨fun _ => none, fun _ => none, fun _ => none, fun _ => none, fun _ => none, fun _ => none, fun _ => none⟩

/-- `d[k] = x` -/
def put {X : Type} (d : K → Option X) (k : K) (x : X) : K → Option X := fun j => if j = k then some x else d j

/-- `if k in d:` change `d[k]` -/
def touch {X : Type} (d : K → Option X) (k : K) (f : X → X) : K → Option X := fun j => if j = k then (d j).map f else d j

/-- `add_vertex`, native_brep.py:893-899 -/
def addVertex (g : Graph K P C S) (k : K) (v : Vertex K P) : Graph K P C S := { g with vertices := put g.vertices k v }

/-- the list of edges of a vertex grows -/
def noteEdge (k : K) (v : Vertex K P) : Vertex K P := { v with edges := v.edges ++ [k] }

/-- the list of faces of an edge grows -/
def noteFace (k : K) (e : Edge K C) : Edge K C := { e with faces := e.faces ++ [k] }

/-- `add_edge`, native_brep.py:901-915 -/
def addEdge (g : Graph K P C S) (k : K) (e : Edge K C) : Graph K P C S :=
  let vs := touch g.vertices e.start (noteEdge k)
  { g with edges := put g.edges k e, vertices := if e.stop ≠ e.start then touch vs e.stop (noteEdge k) else vs }

/-- `add_trim`, native_brep.py:917-923 -/
def addTrim (g : Graph K P C S) (k : K) (t : Trim K) : Graph K P C S := { g with trims := put g.trims k t }

/-- `add_loop`, native_brep.py:925-931 -/
def addLoop (g : Graph K P C S) (k : K) (l : Loop K) : Graph K P C S := { g with loops := put g.loops k l }

/-- the edges of the trims of the loops of a face that are in the graph, in order and as often as they are used: the nested loops in native_brep.py:941-945, 1166-1177, 1078-1085 -/
def faceUses (g : Graph K P C S) (f : Face K S) : List K :=
  f.loops.flatMap fun l =>
    match g.loops l with
    | none => []
    | some L => L.trims.filterMap fun t => (g.trims t).map (·.edge)

/-- `add_face`, native_brep.py:933-949 -/
def addFace (g : Graph K P C S) (k : K) (f : Face K S) : Graph K P C S :=
  { g with faces := put g.faces k f, edges := (faceUses g f).foldl (fun es e => touch es e (noteFace k)) g.edges }

/-- the face is told its shell -/
def inShell (k : K) (f : Face K S) : Face K S := { f with shell := some k }

/-- `edge_usage[eid].append(fid)`, with a new entry for an edge not seen before, native_brep.py:1178-1180 -/
def note (usage : List (K × List K)) (ef : K × K) : List (K × List K) :=
  match usage with
  | [] => [(ef.1, [ef.2])]
  | (e, fs) :: rest => if e = ef.1 then (e, fs ++ [ef.2]) :: rest else (e, fs) :: note rest ef

/-- the uses of edges by the faces of a shell, native_brep.py:1159-1180. A set of face identities has no order; here the order is that of `dedup`. -/
def shellUses (g : Graph K P C S) (s : Shell K) : List (K × K) :=
  s.faces.dedup.flatMap fun f =>
    match g.faces f with
    | none => []
    | some F => (faceUses g F).map fun e => (e, f)

/-- `shell_edge_usage`, native_brep.py:1148-1181 -/
def edgeUsage (g : Graph K P C S) (s : Shell K) : List (K × List K) := (shellUses g s).foldl note []

/-- `shell_vertices`, native_brep.py:1183-1195 -/
def shellVertices (g : Graph K P C S) (s : Shell K) : List K :=
  ((edgeUsage g s).flatMap fun ef => match g.edges ef.1 with | none => [] | some e => [e.start, e.stop]).dedup

/-- what `compute_shell_closure` returns -/
structure Closure (K : Type) where
  closed : Bool
  boundary : List K
  nonManifold : List K
  euler : ℤ

/-- `compute_shell_closure`, native_brep.py:1197-1262, for a shell that is in the graph -/
def closure (g : Graph K P C S) (s : Shell K) : Closure K :=
  let usage := edgeUsage g s
  let boundary := (usage.filter fun ef => ef.2.length = 1).map (·.1)
  let nonManifold := (usage.filter fun ef => 2 < ef.2.length).map (·.1)
  { closed := boundary.length = 0 ∧ nonManifold.length = 0
    boundary := boundary
    nonManifold := nonManifold
    euler := (shellVertices g s).length - usage.length + s.faces.dedup.length }

/-- `compute_shell_closure` by identity -/
def computeClosure (g : Graph K P C S) (k : K) : Except Err (Closure K) :=
  match g.shells k with
  | none => .error .valueError
  | some s => .ok (closure g s)

/-- `validate_shell_closure`, native_brep.py:1264-1298 -/
def validateClosure (g : Graph K P C S) (k : K) : Except Err (Closure K) :=
  match computeClosure g k with
  | .error e => .error e
  | .ok c => if c.closed then .ok c else .error .closure

/-- the shell is registered with itself and its faces, native_brep.py:968-974 -/
def placeShell (g : Graph K P C S) (k : K) (s : Shell K) : Graph K P C S :=
  { g with shells := put g.shells k s, faces := s.faces.foldl (fun fs f => touch fs f (inShell k)) g.faces }

/-- `add_shell`, native_brep.py:951-992: the graph afterwards (also if there is an exception) and the result -/
def addShell (g : Graph K P C S) (k : K) (s : Shell K) (validate : Bool) : Graph K P C S × Except Err Unit :=
  let g' := placeShell g k s
  if validate then
    match s.closed with
    | none => ({ g' with shells := put g'.shells k { s with closed := some (closure g' s).closed } }, .ok ())
    | some true => match validateClosure g' k with
      | .error e => (g', .error e)
      | .ok _ => (g', .ok ())
    | some false => (g', .ok ())
  else (g', .ok ())

/-- The three geometric questions `validate_solid` asks: whether two shells intersect, the centre of a shell's box (if it has one), and whether a shell contains a point. -/
structure Geo (K P C S : Type) where
  intersect : Graph K P C S → K → K → Bool
  center : Graph K P C S → K → Option P
  contains : Graph K P C S → K → P → Bool

/-- all pairs of a list, the earlier element first: the indices i < j in native_brep.py:1738-1740 -/
def pairs {X : Type} : List X → List (X × X)
  | [] => []
  | x :: xs => xs.map (x, ·) ++ pairs xs

/-- a shell passes the first part of `validate_solid`, native_brep.py:1706-1733 -/
def shellOk (g : Graph K P C S) (k : K) : Bool :=
  match g.shells k with
  | none => false
  | some s => match s.closed with
    | some false => false
    | none => (closure g s).closed
    | some true => (closure g s).closed

/-- a void passes the third part, native_brep.py:1754-1778 -/
def voidOk (geo : Geo K P C S) (g : Graph K P C S) (outer k : K) : Bool :=
  match geo.center g k with
  | none => true
  | some c => geo.contains g outer c

/-- `validate_solid`, native_brep.py:1666-1780; the exceptions differ only in their texts -/
def validateSolid (geo : Geo K P C S) (g : Graph K P C S) (k : K) : Except Err Unit :=
  match g.solids k with
  | none => .error .valueError
  | some s => match s.shells with
    | [] => .error .validation
    | outer :: voids =>
      if !(outer :: voids).all (shellOk g) then .error .validation
      else if (pairs (outer :: voids)).any (fun p => geo.intersect g p.1 p.2) then .error .validation
      else if !voids.all (voidOk geo g outer) then .error .validation
      else .ok ()

/-- `add_solid`, native_brep.py:994-1026 -/
def addSolid (geo : Geo K P C S) (g : Graph K P C S) (k : K) (s : Solid K) (validate : Bool) : Graph K P C S × Except Err Unit :=
  let g' := { g with solids := put g.solids k s, shells := s.shells.foldl (fun ss h => touch ss h fun x => { x with solid := some k }) g.shells }
  if validate then (g', validateSolid geo g' k) else (g', .ok ())

/-- `vertex_edges`, native_brep.py:1056-1062, each edge with its identity -/
def vertexEdges (g : Graph K P C S) (k : K) : List (K × Edge K C) :=
  match g.vertices k with
  | none => []
  | some v => v.edges.filterMap fun e => (g.edges e).map (e, ·)

/-- `edge_faces`, native_brep.py:1064-1070 -/
def edgeFaces (g : Graph K P C S) (k : K) : List (K × Face K S) :=
  match g.edges k with
  | none => []
  | some e => e.faces.filterMap fun f => (g.faces f).map (f, ·)

/-- an element is appended unless it is in the list already -/
def adjoin {X : Type} [DecidableEq X] (l : List X) (x : X) : List X := if x ∈ l then l else l ++ [x]

/-- `face_edges`, native_brep.py:1072-1088. Edges are compared as whole entities, which include their identities; so comparing identities is the same. -/
def faceEdges (g : Graph K P C S) (k : K) : List K :=
  match g.faces k with
  | none => []
  | some f => ((faceUses g f).filter fun e => (g.edges e).isSome).foldl adjoin []

/-! ## histories -/

/-- one call that adds something; vertices and edges come from their constructors, with empty lists of incident entities -/
inductive Op (K P C S : Type)
  | vertex (k : K) (loc : P) (tol : ℚ)
  | edge (k : K) (curve : C) (start stop : K) (sense : Bool) (tol : ℚ)
  | trim (k : K) (t : Trim K)
  | loop (k : K) (l : Loop K)
  | face (k : K) (f : Face K S)
  | shell (k : K) (s : Shell K) (validate : Bool)
  | solid (k : K) (s : Solid K) (validate : Bool)

/-- the graph after a call, whether it raises or not -/
def step (geo : Geo K P C S) (g : Graph K P C S) : Op K P C S → Graph K P C S
  | .vertex k loc tol => addVertex g k ⟨loc, tol, []⟩
  | .edge k c a b s tol => addEdge g k ⟨c, a, b, s, tol, []⟩
  | .trim k t => addTrim g k t
  | .loop k l => addLoop g k l
  | .face k f => addFace g k f
  | .shell k s v => (addShell g k s v).1
  | .solid k s v => (addSolid geo g k s v).1

/-- the graph after a sequence of calls -/
def run (geo : Geo K P C S) (ops : List (Op K P C S)) : Graph K P C S := ops.foldl (step geo) empty

end Verif.Brep
