import Verif.Base.Dict

/-!
# Model of `src/yapcad/io/geometry_json.py` (solids and surfaces)

Surfaces and solids are Python lists with identity: a surface object may occur in several solids, and its
metadata dictionary (slot 4 of the list) is shared with the document until the document is dumped. The model
therefore keeps surfaces and solids in a store addressed by numbers. A surface's vertices, normals and faces
are one abstract payload `P` (`_float_vec`/`_int_vec` are the identity on numbers of the right kind). Of a
metadata dictionary the entries `entityId` and `layer` are kept. `uuid.uuid4` draws from a supply of strings,
about which nothing is assumed; running out of supply is `none`, as is an exception.

Not modelled: bounding boxes, `name`, `properties`, units/generator/relationships/attachments, the `id` copy of
`entityId` inside the metadata, tags, and the call of `brep_from_solid` on loading.
-/

namespace Verif.GeoJson
open Verif.Dict

/-- metadata: `entityId` (absent = `none`) and `layer` (absent = `""`, which the code treats alike) -/
structure Meta where
  eid : Option String
  layer : String
deriving DecidableEq, Repr

/-- a surface object: payload and metadata dictionary (geom3d.py:578) -/
structure Surf (P : Type) where
  payload : P
  info : Meta
deriving DecidableEq, Repr

/-- an element of a solid's surface list: a surface object or something `issurface` rejects -/
inductive Item
  | surf (ref : Nat)
  | junk
deriving DecidableEq, Repr

/-- a solid object (geom3d.py:783): slot 1, slot 2 (read as voids) and its metadata -/
structure Solid where
  shell : List Item
  slot2 : List (List Item)
  info : Meta
deriving DecidableEq, Repr

/-- the objects alive during serialisation, and the uuids to come -/
structure World (P : Type) where
  surfs : Nat → Surf P
  solids : Nat → Solid
  fresh : List String

/-- the entries `entityId` and `layer` of a `metadata_override` -/
structure Override where
  eid : Option String := none
  layer : Option String := none
deriving DecidableEq, Repr

variable {P S : Type}

/-- `_ensure_root` and the layer test of `_serialize_*` (metadata.py:73-74, geometry_json.py:82-83) -/
def fixLayer (m : Meta) : Meta := if m.layer = "" then { m with layer := "default" } else m

/-- `ensure_surface_id` / `ensure_solid_id` (metadata.py:187-198, 187-198) -/
def ensureId (m : Meta) (fresh : List String) : Option (Meta × List String) :=
  match m.eid with
  | some _ => some (fixLayer m, fresh)
  | none =>
    match fresh with
    | [] => none
    | u :: us => some (fixLayer { m with eid := some u }, us)

/-- `metadata.update(metadata_override)` -/
def applyOv (m : Meta) (ov : Override) : Meta :=
  { eid := ov.eid.or m.eid, layer := ov.layer.getD m.layer }

/-- write back a surface's metadata -/
def World.setSurf (w : World P) (r : Nat) (m : Meta) (fresh : List String) : World P :=
  { w with surfs := fun i => if i = r then { w.surfs r with info := m } else w.surfs i, fresh := fresh }

/-- write back a solid's metadata -/
def World.setSolid (w : World P) (r : Nat) (m : Meta) (fresh : List String) : World P :=
  { w with solids := fun i => if i = r then { w.solids r with info := m } else w.solids i, fresh := fresh }

/-- an entry of the document under construction; `ref` is the metadata dictionary, held by reference -/
inductive REntry (P S : Type)
  | surface (id : String) (ref : Nat) (payload : P)
  | solid (id : String) (ref : Nat) (shell : List String) (voids : List (List String))
  | sketch (id : String) (layer : String) (data : S)

/-- `_serialize_surface` (geometry_json.py:75-108): the entry's id and the store afterwards -/
def serializeSurface (w : World P) (r : Nat) (ov : Override) : Option (String × World P) :=
  match ensureId (w.surfs r).info w.fresh with
  | none => none
  | some (m, fresh) =>
    let m := fixLayer (applyOv m ov)
    some (m.eid.getD "", w.setSurf r m fresh)

/-- `while surface_id in surface_cache` (geometry_json.py:138-146): draw until the id is unused. The new id is
written into the surface's metadata. -/
def uniqueId (cache : List (String × Nat × P)) : String → List String → Option (String × List String)
  | id, [] => if (dget cache id).isSome then none else some (id, [])
  | id, u :: us => if (dget cache id).isSome then uniqueId cache u us else some (id, u :: us)

/-- the override passed on to a surface of a solid in layer `parentLayer` (geometry_json.py:129-135) -/
def surfOverride (own : String) (parentLayer : String) (ov : Override) : Override :=
  if own = "" ∨ own = "default" then { ov with layer := some parentLayer } else ov

/-- one surface of a solid (geometry_json.py:125-149 and 155-178): its id in the document -/
def addSurface (parentLayer : String) (ov : Override) (w : World P) (cache : List (String × Nat × P)) (r : Nat) :
    Option (String × World P × List (String × Nat × P)) :=
  -- get_surface_metadata(create=True) gives the surface an id before the override is built
  match serializeSurface w r (surfOverride (w.surfs r).info.layer parentLayer ov) with
  | none => none
  | some (id, w1) =>
    match uniqueId cache id w1.fresh with
    | none => none
    | some (id', fresh) =>
      let m := { (w1.surfs r).info with eid := some id' }
      some (id', w1.setSurf r m fresh, dset cache id' (r, (w1.surfs r).payload))

/-- the loop over a list of surfaces; what is not a surface is skipped -/
def addSurfaces (parentLayer : String) (ov : Override) : World P → List (String × Nat × P) → List Item →
    Option (List String × World P × List (String × Nat × P))
  | w, cache, [] => some ([], w, cache)
  | w, cache, .junk :: is => addSurfaces parentLayer ov w cache is
  | w, cache, .surf r :: is =>
    match addSurface parentLayer ov w cache r with
    | none => none
    | some (id, w1, c1) =>
      match addSurfaces parentLayer ov w1 c1 is with
      | none => none
      | some (ids, w2, c2) => some (id :: ids, w2, c2)

/-- the loop over the voids (geometry_json.py:152-179) -/
def addVoids (parentLayer : String) (ov : Override) : World P → List (String × Nat × P) → List (List Item) →
    Option (List (List String) × World P × List (String × Nat × P))
  | w, cache, [] => some ([], w, cache)
  | w, cache, v :: vs =>
    match addSurfaces parentLayer ov w cache v with
    | none => none
    | some (ids, w1, c1) =>
      match addVoids parentLayer ov w1 c1 vs with
      | none => none
      | some (idss, w2, c2) => some (ids :: idss, w2, c2)

/-- `_serialize_solid` (geometry_json.py:110-198) with the override handling of geometry_json.py:363-369 -/
def serializeSolid (w : World P) (cache : List (String × Nat × P)) (r : Nat) (ov : Override) :
    Option (REntry P S × World P × List (String × Nat × P)) :=
  match ensureId (w.solids r).info w.fresh with
  | none => none
  | some (m, fresh) =>
    let m := fixLayer (applyOv m ov)
    let w := w.setSolid r m fresh
    match addSurfaces m.layer ov w cache (w.solids r).shell with
    | none => none
    | some (shell, w1, c1) =>
      match addVoids m.layer ov w1 c1 (w1.solids r).slot2 with
      | none => none
      | some (voids, w2, c2) => some (.solid (m.eid.getD "") r shell voids, w2, c2)

/-- an element of the `entities` argument, with its override -/
inductive Entity (S : Type)
  | solid (ref : Nat) (ov : Override)
  | surface (ref : Nat) (ov : Override)
  | sketch (data : S) (ov : Override)
  | other                                   -- ValueError

/-- `surface_cache.setdefault` (geometry_json.py:378) -/
def setDefault (cache : List (String × Nat × P)) (id : String) (e : Nat × P) : List (String × Nat × P) :=
  match dget cache id with
  | some _ => cache
  | none => dset cache id e

/-- one element of the loop (geometry_json.py:351-383): entries appended, store and surface cache -/
def serializeOne (w : World P) (cache : List (String × Nat × P)) : Entity S →
    Option (List (REntry P S) × World P × List (String × Nat × P))
  | .solid r ov =>
    match serializeSolid w cache r ov with
    | none => none
    | some (e, w1, c1) => some ([e], w1, c1)
  | .surface r ov =>
    match serializeSurface w r ov with
    | none => none
    | some (id, w1) => some ([], w1, setDefault cache id (r, (w1.surfs r).payload))
  | .sketch d ov =>
    -- geometry_json.py:317-325: a fresh uuid unless the override brings an id
    match w.fresh with
    | [] => none
    | u :: us => some ([.sketch (ov.eid.getD u) (ov.layer.getD "default") d], { w with fresh := us }, cache)
  | .other => none

/-- the loop over the entities -/
def serializeAll : World P → List (String × Nat × P) → List (Entity S) →
    Option (List (REntry P S) × World P × List (String × Nat × P))
  | w, cache, [] => some ([], w, cache)
  | w, cache, e :: es =>
    match serializeOne w cache e with
    | none => none
    | some (xs, w1, c1) =>
      match serializeAll w1 c1 es with
      | none => none
      | some (ys, w2, c2) => some (xs ++ ys, w2, c2)

/-- an entry of the finished document, metadata copied -/
inductive Entry (P S : Type)
  | surface (id : String) (info : Meta) (payload : P)
  | solid (id : String) (info : Meta) (shell : List String) (voids : List (List String))
  | sketch (id : String) (layer : String) (data : S)
deriving DecidableEq, Repr

/-- dumping the document reads the metadata dictionaries as they are at the end -/
def freeze (w : World P) : REntry P S → Entry P S
  | .surface id r p => .surface id (w.surfs r).info p
  | .solid id r sh vs => .solid id (w.solids r).info sh vs
  | .sketch id l d => .sketch id l d

/-- `geometry_to_json` (geometry_json.py:337-396): the document's entities and the store afterwards -/
def toJson (w : World P) (es : List (Entity S)) : Option (List (Entry P S) × World P) :=
  match serializeAll w [] es with
  | none => none
  | some (xs, w', cache) =>
    some ((xs ++ cache.map fun (c : String × Nat × P) => (REntry.surface c.1 c.2.1 c.2.2 : REntry P S)).map (freeze w'), w')

/-! ### Loading -/

/-- a loaded surface: payload and metadata -/
structure LSurf (P : Type) where
  payload : P
  info : Option Meta
deriving DecidableEq, Repr

/-- a loaded solid: slots 1, 2 and metadata; slot 3 is `[]` -/
structure LSolid (P : Type) where
  shell : List (LSurf P)
  voids : List (List (LSurf P))
  info : Meta
deriving DecidableEq, Repr

/-- errors raised by `geometry_from_json` -/
inductive LErr | missingId | missingSurface (id : String)
deriving DecidableEq, Repr

/-- what `geometry_from_json` returns -/
inductive Loaded (P S : Type)
  | solids (l : List (LSolid P))
  | sketches (l : List S)
  | surfaces (l : List (LSurf P))
deriving DecidableEq, Repr

/-- `entry.get("id")` -/
def Entry.id : Entry P S → String
  | .surface i _ _ => i
  | .solid i _ _ _ => i
  | .sketch i _ _ => i

/-- `_rehydrate_surface` (geometry_json.py:399-407) of any entry: an entry without vertices gives an empty
surface (`empty`) -/
def rehydrate (empty : P) : Entry P S → LSurf P
  | .surface _ m p => ⟨p, some m⟩
  | .solid _ m _ _ => ⟨empty, some m⟩
  | .sketch i l _ => ⟨empty, some ⟨some i, l⟩⟩

/-- `entries_by_id` (geometry_json.py:421-426) -/
def entriesById (doc : List (Entry P S)) : List (String × Entry P S) :=
  doc.foldl (fun d e => dset d e.id e) []

/-- `if entry.get("type") == "surface": surfaces[id] = ...` (geometry_json.py:433-434) -/
def firstStep (empty : P) (d : List (String × LSurf P)) : Entry P S → List (String × LSurf P)
  | .surface i m p => dset d i (rehydrate (S := S) empty (.surface i m p))
  | .solid _ _ _ _ => d
  | .sketch _ _ _ => d

/-- the first pass (geometry_json.py:432-434) -/
def firstPass (empty : P) (doc : List (Entry P S)) : List (String × LSurf P) := doc.foldl (firstStep empty) []

/-- `surfaces.get(sid)` with the fallback (geometry_json.py:441-448) -/
def getSurface (empty : P) (byId : List (String × Entry P S)) (surfs : List (String × LSurf P)) (id : String) :
    Except LErr (LSurf P × List (String × LSurf P)) :=
  match dget surfs id with
  | some s => .ok (s, surfs)
  | none =>
    match dget byId id with
    | none => .error (.missingSurface id)
    | some e => .ok (rehydrate empty e, dset surfs id (rehydrate empty e))

/-- the loop over the ids of a shell or void -/
def getSurfaces (empty : P) (byId : List (String × Entry P S)) : List (String × LSurf P) → List String →
    Except LErr (List (LSurf P) × List (String × LSurf P))
  | surfs, [] => .ok ([], surfs)
  | surfs, id :: ids =>
    match getSurface empty byId surfs id with
    | .error e => .error e
    | .ok (s, surfs1) =>
      match getSurfaces empty byId surfs1 ids with
      | .error e => .error e
      | .ok (ss, surfs2) => .ok (s :: ss, surfs2)

/-- the loop over the voids -/
def getVoids (empty : P) (byId : List (String × Entry P S)) : List (String × LSurf P) → List (List String) →
    Except LErr (List (List (LSurf P)) × List (String × LSurf P))
  | surfs, [] => .ok ([], surfs)
  | surfs, v :: vs =>
    match getSurfaces empty byId surfs v with
    | .error e => .error e
    | .ok (s, surfs1) =>
      match getVoids empty byId surfs1 vs with
      | .error e => .error e
      | .ok (ss, surfs2) => .ok (s :: ss, surfs2)

/-- the second pass (geometry_json.py:437-469) -/
def secondPass (empty : P) (byId : List (String × Entry P S)) : List (String × LSurf P) → List (Entry P S) →
    Except LErr (List (LSolid P) × List (String × LSurf P))
  | surfs, [] => .ok ([], surfs)
  | surfs, .solid _ m sh vs :: es =>
    match getSurfaces empty byId surfs sh with
    | .error e => .error e
    | .ok (shell, s1) =>
      match getVoids empty byId s1 vs with
      | .error e => .error e
      | .ok (voids, s2) =>
        match secondPass empty byId s2 es with
        | .error e => .error e
        | .ok (rest, s3) => .ok (⟨shell, voids, m⟩ :: rest, s3)
  | surfs, .surface _ _ _ :: es => secondPass empty byId surfs es
  | surfs, .sketch _ _ _ :: es => secondPass empty byId surfs es

/-- `entry.get("type") == "sketch"` -/
def Entry.sketch? : Entry P S → Option S
  | .sketch _ _ d => some d
  | .solid _ _ _ _ => none
  | .surface _ _ _ => none

/-- the sketches of a document (geometry_json.py:473-475) -/
def sketchesOf (doc : List (Entry P S)) : List S := doc.filterMap Entry.sketch?

/-- `geometry_from_json` (geometry_json.py:416-574) with the right schema id. Simplification: a sketch is loaded
back as its data, and every sketch is taken to have at least one element (the conversion of its primitives is
modelled in `Verif.Sketch.Model`). -/
def fromJson (empty : P) (doc : List (Entry P S)) : Except LErr (Loaded P S) :=
  if doc.any (fun e => decide (e.id = "")) then .error .missingId
  else
    match secondPass empty (entriesById doc) (firstPass empty doc) doc with
    | .error e => .error e
    | .ok (solids, surfs) =>
      if solids ≠ [] then .ok (.solids solids)
      else if sketchesOf doc ≠ [] then .ok (.sketches (sketchesOf doc))
      else .ok (.surfaces (surfs.map (·.2)))

end Verif.GeoJson
