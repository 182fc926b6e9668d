import Verif.GeoJson.Model

/-! # What geometry JSON is meant to preserve (no reference to how it is done) -/

namespace Verif.GeoJson

variable {P S : Type}

/-- the surface objects of a list of items, in order -/
def refs : List Item → List Nat
  | [] => []
  | .surf r :: is => r :: refs is
  | .junk :: is => refs is

/-- no id in use, and no uuid to come, is the empty string -/
structure IdsOk (w : World P) : Prop where
  surfs : ∀ r, (w.surfs r).info.eid ≠ some ""
  solids : ∀ r, (w.solids r).info.eid ≠ some ""
  fresh : ∀ u ∈ w.fresh, u ≠ ""

/-- the override given with an entity -/
def Entity.ov : Entity S → Override
  | .solid _ ov => ov
  | .surface _ ov => ov
  | .sketch _ ov => ov
  | .other => {}

/-- the surface objects an entity consists of -/
def Entity.refs (w : World P) : Entity S → List Nat
  | .solid r _ => GeoJson.refs (w.solids r).shell ++ (w.solids r).slot2.flatMap GeoJson.refs
  | .surface r _ => [r]
  | .sketch _ _ => []
  | .other => []

/-- the contents (vertices, normals, faces) of the surfaces in a list -/
def payloads (w : World P) (l : List Item) : List P := (refs l).map fun r => (w.surfs r).payload

/-- the contents of the solids among the entities: outer surfaces and voids -/
def solidContents (w : World P) (es : List (Entity S)) : List (List P × List (List P)) :=
  es.filterMap fun e => match e with
    | .solid r _ => some (payloads w (w.solids r).shell, (w.solids r).slot2.map (payloads w))
    | _ => none

/-- the contents of loaded solids -/
def loadedContents (l : List (LSolid P)) : List (List P × List (List P)) :=
  l.map fun s => (s.shell.map (·.payload), s.voids.map fun v => v.map (·.payload))

/-- the id of a surface entry -/
def Entry.surfaceId? : Entry P S → Option String
  | .surface i _ _ => some i
  | .solid _ _ _ _ => none
  | .sketch _ _ _ => none

/-- ids of the surface entries of a document -/
def surfaceIds (doc : List (Entry P S)) : List String := doc.filterMap Entry.surfaceId?

/-- ids a document's solids refer to -/
def referencedIds (doc : List (Entry P S)) : List String :=
  doc.flatMap fun e => match e with
    | .solid _ _ sh vs => sh ++ vs.flatten
    | _ => []

/-- the layer of an exported solid: the override's, else its own, else `default` -/
def solidLayer (own : String) (ov : Override) : String :=
  match ov.layer with
  | some l => if l = "" then "default" else l
  | none => if own = "" then "default" else own

/-- the layer of a surface of a solid in layer `parent`: without a layer of its own it takes the solid's,
otherwise it keeps its own unless the override names one -/
def surfaceLayer (own parent : String) (ov : Override) : String :=
  if own = "" ∨ own = "default" then parent
  else match ov.layer with
    | some l => if l = "" then "default" else l
    | none => own

end Verif.GeoJson
