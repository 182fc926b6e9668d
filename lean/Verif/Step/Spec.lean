import Verif.Step.Model
import Mathlib.Logic.Relation

/-!
# Specification of a faceted STEP file

How a reader of the file finds the entity with a number, which entities an entity may refer to, and how the points, sides and faces are read back. Nothing here uses the functions that write the file.
-/

namespace Verif.Step

variable {P D L : Type}

/-- entity `#n`: the numbers begin with 1 -/
def get (w : List (Ent P D L)) (n : Nat) : Option (Ent P D L) := if n = 0 then none else w[n - 1]?

/-- the kinds of entities -/
inductive Kind
  | point | vertex | direction | vector | line | edge | oriented | loop | bound | axis | plane | face | shell | item | appContext | prodContext | product | formation | pdContext | productDef | pdShape
  | lengthUnit | angleUnit | solidAngleUnit | measure | uncertainty | context | shape | root
deriving DecidableEq

/-- the kind of an entity -/
def Ent.kind : Ent P D L → Kind
  | .point _ => .point
  | .vertex _ => .vertex
  | .direction _ => .direction
  | .vector _ _ => .vector
  | .line _ _ => .line
  | .edge _ _ _ => .edge
  | .oriented _ _ => .oriented
  | .loop _ => .loop
  | .bound _ => .bound
  | .axis _ _ _ => .axis
  | .plane _ => .plane
  | .face _ _ => .face
  | .shell _ _ => .shell
  | .solid _ _ => .item
  | .model _ _ => .item
  | .appContext => .appContext
  | .prodContext _ => .prodContext
  | .product _ _ => .product
  | .formation _ => .formation
  | .pdContext _ => .pdContext
  | .productDef _ _ => .productDef
  | .pdShape _ => .pdShape
  | .lengthUnit => .lengthUnit
  | .angleUnit => .angleUnit
  | .solidAngleUnit => .solidAngleUnit
  | .measure _ => .measure
  | .uncertainty _ => .uncertainty
  | .context _ _ _ _ => .context
  | .shape _ _ => .shape
  | .root _ _ => .root

/-- the references of an entity, each with the kind of entity that must be there -/
def Ent.refs : Ent P D L → List (Nat × Kind)
  | .vertex p => [(p, .point)]
  | .vector d _ => [(d, .direction)]
  | .line p v => [(p, .point), (v, .vector)]
  | .edge a b l => [(a, .vertex), (b, .vertex), (l, .line)]
  | .oriented e _ => [(e, .edge)]
  | .loop es => es.map (·, .oriented)
  | .bound l => [(l, .loop)]
  | .axis p n r => [(p, .point), (n, .direction), (r, .direction)]
  | .plane a => [(a, .axis)]
  | .face b p => [(b, .bound), (p, .plane)]
  | .shell _ fs => fs.map (·, .face)
  | .solid _ s => [(s, .shell)]
  | .model _ s => [(s, .shell)]
  | .prodContext a => [(a, .appContext)]
  | .product _ c => [(c, .prodContext)]
  | .formation p => [(p, .product)]
  | .pdContext a => [(a, .appContext)]
  | .productDef f c => [(f, .formation), (c, .pdContext)]
  | .pdShape p => [(p, .productDef)]
  | .measure u => [(u, .lengthUnit)]
  | .uncertainty m => [(m, .measure)]
  | .context u l a s => [(u, .uncertainty), (l, .lengthUnit), (a, .angleUnit), (s, .solidAngleUnit)]
  | .shape is c => is.map (·, .item) ++ [(c, .context)]
  | .root s r => [(s, .pdShape), (r, .shape)]
  | _ => []

/-- every reference is to an entity of the right kind that comes before -/
def WellFormed (w : List (Ent P D L)) : Prop :=
  ∀ n e, get w n = some e → ∀ r ∈ e.refs, r.1 < n ∧ ∃ e', get w r.1 = some e' ∧ e'.kind = r.2

/-- the coordinates of vertex `#n` -/
def readVertex (w : List (Ent P D L)) (n : Nat) : Option P :=
  match get w n with
  | some (.vertex p) => match get w p with
    | some (.point c) => some c
    | _ => none
  | _ => none

/-- oriented edge `#n`: from where to where it leads -/
def readSide (w : List (Ent P D L)) (n : Nat) : Option (P × P) :=
  match get w n with
  | some (.oriented e f) => match get w e with
    | some (.edge a b _) => match readVertex w a, readVertex w b with
      | some p, some q => some (if f then (p, q) else (q, p))
      | _, _ => none
    | _ => none
  | _ => none

/-- plane `#n`: a point of it, its normal and its reference direction -/
def readPlane (w : List (Ent P D L)) (n : Nat) : Option (P × D × D) :=
  match get w n with
  | some (.plane a) => match get w a with
    | some (.axis p d r) => match get w p, get w d, get w r with
      | some (.point c), some (.direction x), some (.direction y) => some (c, x, y)
      | _, _, _ => none
    | _ => none
  | _ => none

/-- all the values, or none -/
def allSome {X : Type} : List (Option X) → Option (List X)
  | [] => some []
  | o :: l => match o, allSome l with
    | some x, some xs => some (x :: xs)
    | _, _ => none

/-- face `#n`: its sides and its plane -/
def readFace (w : List (Ent P D L)) (n : Nat) : Option (List (P × P) × (P × D × D)) :=
  match get w n with
  | some (.face b p) => match get w b with
    | some (.bound l) => match get w l with
      | some (.loop es) => match allSome (es.map (readSide w)), readPlane w p with
        | some ss, some pl => some (ss, pl)
        | _, _ => none
      | _ => none
    | _ => none
  | _ => none

/-- a component as read: solid or surface model, its name, whether its shell is a closed one, and the faces -/
structure Part (P D : Type) where
  solid : Bool
  name : String
  closed : Bool
  faces : List (List (P × P) × (P × D × D))

/-- item `#n` of the shape representation -/
def readItem (w : List (Ent P D L)) (n : Nat) : Option (Part P D) :=
  let part (solid : Bool) (name : String) (s : Nat) : Option (Part P D) :=
    match get w s with
    | some (.shell c fs) => (allSome (fs.map (readFace w))).map fun faces => ⟨solid, name, c, faces⟩
    | _ => none
  match get w n with
  | some (.solid name s) => part true name s
  | some (.model name s) => part false name s
  | _ => none

/-- the product's name and the parts, from the last entity (SHAPE_DEFINITION_REPRESENTATION) -/
def readFile (w : List (Ent P D L)) : Option (String × List (Part P D)) :=
  match w.getLast? with
  | some (.root s r) => match get w s, get w r with
    | some (.pdShape d), some (.shape items _) => match get w d with
      | some (.productDef f _) => match get w f with
        | some (.formation p) => match get w p with
          | some (.product name _) => (allSome (items.map (readItem w))).map fun ps => (name, ps)
          | _ => none
        | _ => none
      | _ => none
    | _, _ => none
  | _ => none

/-! ## triangles -/

/-- the sides of a triangle -/
def Tri.sides (t : Tri P D) : List (P × P) := [(t.v0, t.v1), (t.v1, t.v2), (t.v2, t.v0)]

/-- two sides join the same points -/
def SameSide (s r : P × P) : Prop := (s.1 = r.1 ∧ s.2 = r.2) ∨ (s.1 = r.2 ∧ s.2 = r.1)

instance [DecidableEq P] (s r : P × P) : Decidable (SameSide s r) := inferInstanceAs (Decidable (_ ∨ _))

/-- two triangles of the list have a side in common -/
def Touch (tris : List (Tri P D)) (i j : Nat) : Prop :=
  ∃ t u, tris[i]? = some t ∧ tris[j]? = some u ∧ ∃ s ∈ t.sides, ∃ r ∈ u.sides, SameSide s r

/-- two triangles are connected through common sides -/
def Connected (tris : List (Tri P D)) : Nat → Nat → Prop := Relation.ReflTransGen (Touch tris)

/-- how many sides of triangles join the points of a side -/
def sideCount [DecidableEq P] (tris : List (Tri P D)) (s : P × P) : Nat := (tris.flatMap Tri.sides).countP fun r => decide (SameSide s r)

/-- what a face of the file says about a triangle: its sides, and a plane through its first corner with its normal -/
def faceOf (geo : Geo P D L) (t : Tri P D) : List (P × P) × (P × D × D) := (t.sides, t.v0, t.normal, geo.perp t.normal)

/-- the numbers of the triangles in groups: each triangle in one group, groups are not empty, and two triangles are in the same group exactly if they are connected -/
structure Grouping (tris : List (Tri P D)) (groups : List (List Nat)) : Prop where
  all : groups.flatten.Perm (List.range tris.length)
  nonempty : [] ∉ groups
  connected : ∀ g ∈ groups, ∀ i ∈ g, ∀ j < tris.length, j ∈ g ↔ Connected tris i j

/-- every side of a triangle of the group is a side of exactly two triangles (or twice of one) -/
def Tight [DecidableEq P] (tris : List (Tri P D)) (g : List Nat) : Prop := ∀ i ∈ g, ∀ t, tris[i]? = some t → ∀ s ∈ t.sides, sideCount tris s = 2

/-- the faces of a group of triangles -/
def facesAt (geo : Geo P D L) (tris : List (Tri P D)) (g : List Nat) : List (List (P × P) × (P × D × D)) := g.filterMap fun i => (tris[i]?).map (faceOf geo)

/-- the parts are the groups of triangles: the faces, the names, and whether they are solids with closed shells -/
structure Describes [DecidableEq P] (geo : Geo P D L) (name : String) (tris : List (Tri P D)) (groups : List (List Nat)) (parts : List (Part P D)) : Prop where
  length : parts.length = groups.length
  faces : ∀ (k : Nat) g (p : Part P D), groups[k]? = some g → parts[k]? = some p → p.faces = facesAt geo tris g
  names : ∀ (k : Nat) (p : Part P D), parts[k]? = some p → p.name = if groups.length = 1 then name else name ++ "_" ++ toString (k + 1)
  solid : ∀ (k : Nat) g (p : Part P D), groups[k]? = some g → parts[k]? = some p → (p.solid = true ↔ Tight tris g)
  closed : ∀ p ∈ parts, p.closed = p.solid

/-- the coordinates of the CARTESIAN_POINTs -/
def pointsOf (w : List (Ent P D L)) : List P := w.filterMap fun e => match e with
  | .point p => some p
  | _ => none

/-- the ends of the EDGE_CURVEs -/
def edgesOf (w : List (Ent P D L)) : List (Option P × Option P) := w.filterMap fun e => match e with
  | .edge a b _ => some (readVertex w a, readVertex w b)
  | _ => none

end Verif.Step
