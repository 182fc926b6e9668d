import Verif.Pkg.Json

/-!
# Packages: manifest, files, validation and signing

Models src/yapcad/package/core.py, validator.py and signing.py.

* A manifest is the value `yaml.safe_load` returns (`Val`), assumed to survive `yaml.safe_dump`/`safe_load`.
* The file system maps resolved absolute paths (component lists) to contents (`List Char`); there are no links and
  directories are not recorded: a path "exists" when it is a file.
* SHA digests, `gpg` and `ssh-keygen` are parameters.
* Python exceptions are `Except` errors named by their class.
-/

namespace Verif.Pkg

open Verif.Dict
variable {K : Type}

abbrev Err := String
abbrev Content := List Char
abbrev Doc (K : Type) := List (String × Val K)

/-! ### Paths (pathlib) -/

/-- split at `/` -/
def splitSlash : List Char → List (List Char)
  | [] => [[]]
  | c :: cs =>
    if c = '/' then [] :: splitSlash cs
    else match splitSlash cs with
      | [] => [[c]]
      | p :: ps => (c :: p) :: ps

/-- `Path(s).parts`: empty and `.` components are dropped, `..` is kept -/
def parsePath (s : String) : List String :=
  ((splitSlash s.toList).map String.ofList).filter fun p => p ≠ "" ∧ p ≠ "."

/-- `Path(s).is_absolute()` -/
def isAbsolute (s : String) : Bool := s.toList.head? = some '/'

/-- join with `/` -/
def joinSlash : List (List Char) → List Char
  | [] => []
  | [p] => p
  | p :: q :: ps => p ++ '/' :: joinSlash (q :: ps)

/-- `Path(*parts).as_posix()` -/
def asPosix (parts : List String) : String :=
  if parts = [] then "." else String.ofList (joinSlash (parts.map String.toList))

/-- what the operating system makes of a list of components: `..` goes up (and stays at the top) -/
def resolve (parts : List String) : List String :=
  parts.foldl (fun acc p => if p = ".." then acc.dropLast else acc ++ [p]) []

/-- the file `root / path` refers to -/
def locate (root : List String) (path : String) : List String :=
  if isAbsolute path then resolve (parsePath path) else resolve (root ++ parsePath path)

/-- a package directory: its root, the manifest document and the files of the file system -/
structure Pkg (K : Type) where
  root : List String
  data : Doc K
  files : List (List String × Content)

/-- content of `root / path` -/
def Pkg.file (p : Pkg K) (path : String) : Option Content := dget p.files (locate p.root path)

/-! ### Hashes -/

/-- `hashlib.new(alg).update(content).hexdigest()` -/
abbrev Digest := String → Content → String

/-- `_compute_hash(path, algorithm)`, core.py:27-32 -/
def computeHash (D : Digest) (alg : String) (c : Content) : String := alg ++ ":" ++ D alg c

/-- `str.lower()` (ASCII letters; simplification) -/
def lower (s : String) : String := String.ofList (s.toList.map Char.toLower)

/-! ### Access to documents -/

/-- `v.get(k)` -/
def vget (v : Val K) (k : String) : Except Err (Option (Val K)) :=
  match v with
  | .dict d => .ok (dget d k)
  | _ => .error "AttributeError"

/-- `v.get(k, {})` -/
def vgetDict (v : Val K) (k : String) : Except Err (Val K) :=
  match vget v k with
  | .ok r => .ok (r.getD (.dict []))
  | .error e => .error e

/-- `v[k]` with a string key -/
def vindex (v : Val K) (k : String) : Except Err (Val K) :=
  match v with
  | .dict d => match dget d k with
    | some w => .ok w
    | none => .error "KeyError"
  | _ => .error "TypeError"

/-- the `str` operand of `root / x` -/
def asPath (v : Val K) : Except Err String :=
  match v with
  | .str s => .ok s
  | _ => .error "TypeError"

section Validator
variable [LinearOrder K] [Zero K] [One K]

/-- `.get(k, []) or []` followed by iteration. Simplification: only lists are iterated; anything else that is true
raises. -/
def ventries (v : Val K) (k : String) : Except Err (List (Val K)) :=
  match vget v k with
  | .error e => .error e
  | .ok none => .ok []
  | .ok (some w) => match w with
    | .list l => .ok l
    | w => if w.truthy then .error "TypeError" else .ok []

/-! ### validator.py -/

/-- message severities (`ERROR: …`, `WARNING: …`, `OK: …`, `FAILED: …`) -/
inductive Sev
  | error | warning | ok | failed
  deriving DecidableEq

abbrev Msg := Sev × String

/-- `_check_file`, validator.py:17-28 -/
def checkFile (D : Digest) (content : Option Content) (expected : Option (Val K)) : Except Err (Bool × List Msg) :=
  match content with
  | none => .ok (false, [(.error, "missing file")])
  | some c =>
    match expected with
    | some h =>
      if h.truthy then
        match h with
        | .str s => if lower s ≠ lower (computeHash D "sha256" c) then .ok (false, [(.error, "hash mismatch")]) else .ok (true, [])
        | _ => .error "AttributeError"
      else .ok (true, [])
    | none => .ok (true, [])

/-- `isinstance(c, (int, float)) and 0 <= c <= 1` -/
def inUnit (v : Val K) : Bool :=
  match v with
  | .num x => decide (0 ≤ x ∧ x ≤ 1)
  | .bool _ => true
  | _ => false

/-- the fields of a standard material, validator.py:49-54 -/
def standardCheck (source : Val K) : Except Err (Bool × List Msg) :=
  match vgetDict source "standard" with
  | .error e => .error e
  | .ok (.dict std) =>
    .ok (true, (if ((dget std "body").map Val.truthy).getD false then [] else [(.warning, "missing body")]) ++
      (if ((dget std "designation").map Val.truthy).getD false then [] else [(.warning, "missing designation")]))
  | .ok _ => .error "AttributeError"

/-- the `source` part of `_validate_material`, validator.py:41-57 -/
def checkSource (source : Val K) : Except Err (Bool × List Msg) :=
  match vget source "type" with
  | .error e => .error e
  | .ok none => .ok (false, [(.error, "missing source.type")])
  | .ok (some t) =>
    if ¬ t.truthy then .ok (false, [(.error, "missing source.type")])
    else match t with
      | .str s =>
        if s ∉ ["standard", "vendor", "custom", "tested"] then .ok (false, [(.error, "invalid source.type")])
        else if s = "standard" then standardCheck source
        else .ok (true, [])
      | .list _ | .dict _ => .error "TypeError"   -- unhashable, `in` a set
      | _ => .ok (false, [(.error, "invalid source.type")])

/-- the colour check, validator.py:59-67 -/
def colorCheck (color : Option (Val K)) : Bool × List Msg :=
  match color with
  | none => (true, [])
  | some v =>
    if ¬ v.truthy then (true, [])
    else match v with
      | .list l =>
        if l.length ≠ 3 then (false, [(.error, "color must be [R, G, B]")])
        else if l.all inUnit then (true, []) else (true, [(.warning, "color range")])
      | _ => (false, [(.error, "color must be [R, G, B]")])

/-- the range warnings for `metallic` and `roughness`, validator.py:69-77 -/
def unitMsgs (o : Option (Val K)) : List Msg :=
  match o with
  | none | some .none => []
  | some v => if inUnit v then [] else [(.warning, "range")]

/-- the `visual` part of `_validate_material`, validator.py:59-77 -/
def checkVisual (visual : Val K) : Except Err (Bool × List Msg) :=
  match vget visual "color", vget visual "metallic", vget visual "roughness" with
  | .ok color, .ok metallic, .ok roughness =>
    .ok ((colorCheck color).1, (colorCheck color).2 ++ unitMsgs metallic ++ unitMsgs roughness)
  | _, _, _ => .error "AttributeError"

/-- `_validate_material`, validator.py:31-83 -/
def validateMaterial (mat : Val K) (strict : Bool) : Except Err (Bool × List Msg) :=
  match vget mat "source" with
  | .error e => .error e
  | .ok none => .ok (false, [(.error, "missing source")])
  | .ok (some source) =>
    if ¬ source.truthy then .ok (false, [(.error, "missing source")])
    else match checkSource source with
      | .error e => .error e
      | .ok (ok1, m1) =>
        match vgetDict mat "visual" with
        | .error e => .error e
        | .ok visual =>
          match checkVisual visual with
          | .error e => .error e
          | .ok (ok2, m2) =>
            match vget mat "properties" with
            | .error e => .error e
            | .ok props =>
              .ok (ok1 && ok2, m1 ++ m2 ++
                (if strict && !(props.map Val.truthy).getD false then [(.warning, "no properties")] else []))

/-- the loop of `_validate_materials`, validator.py:94-102 -/
def validateMaterialItems (strict : Bool) : List (String × Val K) → Except Err (Bool × List Msg)
  | [] => .ok (true, [])
  | (_, .dict m) :: ms =>
    match validateMaterial (.dict m) strict with
    | .error e => .error e
    | .ok (ok, msgs) => match validateMaterialItems strict ms with
      | .error e => .error e
      | .ok (ok', msgs') => .ok (ok && ok', msgs ++ msgs')
  | (_, _) :: ms =>
    match validateMaterialItems strict ms with
    | .error e => .error e
    | .ok (_, msgs') => .ok (false, (.error, "definition must be a dictionary") :: msgs')

/-- the materials part of `validate_package`, validator.py:157-162 with 86-104 -/
def validateMaterials (data : Doc K) (strict : Bool) : Except Err (Bool × List Msg) :=
  match dget data "materials" with
  | none => .ok (true, [])
  | some m =>
    if ¬ m.truthy then .ok (true, [])
    else match m with
      | .dict ms => validateMaterialItems strict ms
      | _ => .ok (false, [(.error, "materials section must be a dictionary")])

/-- one iteration of the loops over derived geometry, exports and attachments, validator.py:139-155 -/
def checkEntry (D : Digest) (p : Pkg K) (warn : Bool) (entry : Val K) : Except Err (Bool × List Msg) :=
  match vindex entry "path" with
  | .error e => .error e
  | .ok pv => match asPath pv with
    | .error e => .error e
    | .ok path => match vget entry "hash" with
      | .error e => .error e
      | .ok h => match checkFile D (p.file path) h with
        | .error e => .error e
        | .ok (ok, msgs) =>
          let noHash := match h with
            | none | some .none => true
            | _ => false
          .ok (ok, msgs ++ if warn && noHash then [(.warning, "missing hash")] else [])

/-- a whole section -/
def checkEntries (D : Digest) (p : Pkg K) (warn : Bool) : List (Val K) → Except Err (Bool × List Msg)
  | [] => .ok (true, [])
  | e :: es =>
    match checkEntry D p warn e with
    | .error e => .error e
    | .ok (ok, msgs) => match checkEntries D p warn es with
      | .error e => .error e
      | .ok (ok', msgs') => .ok (ok && ok', msgs ++ msgs')

/-- `geometry_primary_path` and the entry it takes the path from, core.py:144-148 -/
def primaryEntry (data : Doc K) : Except Err (Doc K × String) :=
  match vgetDict (.dict data) "geometry" with
  | .error e => .error e
  | .ok geom => match vget geom "primary" with
    | .error e => .error e
    | .ok none => .error "ValueError"
    | .ok (some prim) =>
      if ¬ prim.truthy then .error "ValueError"
      else match prim with
        | .dict d => match dget d "path" with
          | none => .error "KeyError"
          | some v => match asPath v with
            | .error e => .error e
            | .ok path => .ok (d, path)
        | _ => .error "TypeError"

/-- is the schema the supported one -/
def schemaOk (data : Doc K) : Bool :=
  match dget data "schema" with
  | some (.str s) => s = "ycpkg-spec-v0.1"
  | _ => false

/-- combine two partial verdicts -/
def both (a b : Except Err (Bool × List Msg)) : Except Err (Bool × List Msg) :=
  match a with
  | .error e => .error e
  | .ok (x, m) => match b with
    | .error e => .error e
    | .ok (y, n) => .ok (x && y, m ++ n)

/-- the check of the primary geometry: file, hash and whether it loads, validator.py:120-135 -/
def checkPrimary (D : Digest) (loads : Content → Bool) (p : Pkg K) (d : Doc K) (path : String) :
    Except Err (Bool × List Msg) :=
  match checkFile D (p.file path) (dget d "hash") with
  | .error e => .error e
  | .ok (false, m) => .ok (false, m)
  | .ok (true, m) =>
    match p.file path with
    | some c => if loads c then .ok (true, m) else .ok (false, m ++ [(.error, "invalid geometry JSON")])
    | none => .ok (false, m)

/-- `data.get("geometry", {})`'s `derived` entries, validator.py:138 -/
def derivedEntries (data : Doc K) : Except Err (List (Val K)) :=
  match vgetDict (.dict data) "geometry" with
  | .error e => .error e
  | .ok g => ventries g "derived"

/-- check a section after finding its entries -/
def checkSection (D : Digest) (p : Pkg K) (warn : Bool) (es : Except Err (List (Val K))) : Except Err (Bool × List Msg) :=
  match es with
  | .error e => .error e
  | .ok es => checkEntries D p warn es

/-- the schema message -/
def schemaCheck (data : Doc K) : Except Err (Bool × List Msg) :=
  if schemaOk data then .ok (true, []) else .ok (false, [(.error, "unsupported package schema")])

/-- put the summary line first, validator.py:164-168 -/
def summary (r : Except Err (Bool × List Msg)) : Except Err (Bool × List Msg) :=
  match r with
  | .error e => .error e
  | .ok (ok, m) => .ok (ok, (if ok then .ok else .failed, "summary") :: m)

/-- `validate_package`, validator.py:107-169, on a manifest that is a mapping. `loads` says whether `json.load` and
`geometry_from_json` accept the primary file. -/
def validatePackage (D : Digest) (loads : Content → Bool) (p : Pkg K) (strict : Bool) : Except Err (Bool × List Msg) :=
  match primaryEntry p.data with
  | .error _ => .ok (false, (if schemaOk p.data then [] else [(.error, "unsupported package schema")]) ++
      [(.error, "geometry.primary missing")])
  | .ok (d, path) =>
    summary <|
      both (schemaCheck p.data) <|
      both (checkPrimary D loads p d path) <|
      both (checkSection D p false (derivedEntries p.data)) <|
      both (checkSection D p strict (ventries (.dict p.data) "exports")) <|
      both (checkSection D p strict (ventries (.dict p.data) "attachments")) <|
      validateMaterials p.data strict

end Validator

/-! ### core.py: adding files -/

/-- the external file given to `add_geometry_file` -/
structure Source where
  /-- `src_path.name` -/
  name : String
  /-- `src_path.suffix.lstrip(".").lower()` -/
  fmt : String
  /-- `str(src_path)` -/
  original : String
  /-- its content, if it exists -/
  content : Option Content

/-- the arguments of one `add_geometry_file` call; `stem` is `dest_relative_path.stem` -/
structure AddCall (K : Type) where
  src : Source
  dest : Option String
  purpose : Option String
  category : String
  overwrite : Bool
  metadata : Doc K
  stem : String

/-- `entry.update(metadata)` -/
def updateDoc (e m : Doc K) : Doc K := m.foldl (fun e kv => dset e kv.1 kv.2) e

/-- the destination components, core.py:264-275 -/
def destParts (c : AddCall K) : Except Err (List String) :=
  match c.dest with
  | none =>
    if c.category = "derived" then .ok (["geometry", "derived"] ++ parsePath c.src.name)
    else if c.category = "attachments" then .ok (["attachments"] ++ parsePath c.src.name)
    else .ok (parsePath c.src.name)
  | some d => if isAbsolute d then .error "ValueError" else .ok (parsePath d)

/-- the manifest entry, core.py:285-299 -/
def newEntry (D : Digest) (c : AddCall K) (parts : List String) (content : Content) : Doc K :=
  let e : Doc K := [("path", .str (asPosix parts)), ("hash", .str (computeHash D "sha256" content)),
    ("format", .str c.src.fmt), ("source", .dict [("kind", .str "import"), ("original", .str c.src.original)])]
  let e := match c.purpose with
    | some p => if p = "" then e else dset e "purpose" (.str p)
    | none => e
  updateDoc e c.metadata

/-- `item.get("path") != entry["path"]` for an entry path that is a string (others are not modelled: the comparison is
then taken to be "different") -/
def otherPath (entry : Doc K) (item : Val K) : Bool :=
  match item with
  | .dict d => match dget d "path", dget entry "path" with
    | some (.str a), some (.str b) => a ≠ b
    | _, _ => true
  | _ => true

/-- `data.setdefault(k, [])` for a list-valued section; other values raise when iterated -/
def section? (data : Doc K) (k : String) : Except Err (List (Val K)) :=
  match dget data k with
  | none => .ok []
  | some (.list l) => .ok l
  | some _ => .error "TypeError"

/-- `manifest.data.setdefault("geometry", {})` -/
def geometry? (data : Doc K) : Except Err (Doc K) :=
  match dget data "geometry" with
  | none => .ok []
  | some (.dict g) => .ok g
  | some _ => .error "AttributeError"

/-- do all items have a `get` -/
def allDicts (l : List (Val K)) : Bool := l.all fun v => match v with
  | .dict _ => true
  | _ => false

/-- `entry.setdefault("id", stem)` -/
def withId (e : Doc K) (stem : String) : Doc K :=
  match dget e "id" with
  | some _ => e
  | none => dset e "id" (.str stem)

/-- replace the entry with the same path and append, core.py:301-313 -/
def record (c : AddCall K) (entry : Doc K) (data : Doc K) : Except Err (Doc K) :=
  if c.category = "derived" then
    match geometry? data with
    | .error e => .error e
    | .ok g => match section? g "derived" with
      | .error e => .error e
      | .ok l =>
        if allDicts l then
          .ok (dset data "geometry" (.dict (dset g "derived" (.list (l.filter (otherPath entry) ++ [.dict entry])))))
        else .error "AttributeError"
  else if c.category = "attachments" then
    match section? data "attachments" with
    | .error e => .error e
    | .ok l =>
      if allDicts l then
        .ok (dset data "attachments" (.list (l.filter (otherPath entry) ++ [.dict (withId entry c.stem)])))
      else .error "AttributeError"
  else .error "ValueError"

/-- `add_geometry_file`, core.py:239-318: the package afterwards and whether the call raised. (When the call raises in
`record`, the file has been copied already; partial changes of the document by `setdefault` are not modelled.) -/
def addGeometryFile (D : Digest) (p : Pkg K) (c : AddCall K) : Except Err (Doc K) × Pkg K :=
  match c.src.content with
  | none => (.error "FileNotFoundError", p)
  | some content =>
    match destParts c with
    | .error e => (.error e, p)
    | .ok parts =>
      let dest := resolve (p.root ++ parts)
      if (dget p.files dest).isSome && !c.overwrite then (.error "FileExistsError", p)
      else
        let p1 := { p with files := dset p.files dest content }
        let entry := newEntry D c parts content
        match record c entry p1.data with
        | .error e => (.error e, p1)
        | .ok data => (.ok (if c.category = "attachments" then withId entry c.stem else entry), { p1 with data := data })

/-- a history of calls, each going on whether or not the one before raised -/
def addAll (D : Digest) (p : Pkg K) (cs : List (AddCall K)) : Pkg K :=
  cs.foldl (fun p c => (addGeometryFile D p c).2) p

/-- `create_package_from_entities`, core.py:162-229: the package it writes. `doc` is the text of the primary geometry,
`materials` the materials section finally chosen (given, placeholders or absent); a fresh directory is assumed. -/
def createPackage (D : Digest) (root : List String) (doc : Content) (name version alg : String) (rest : Doc K)
    (materials : Option (Doc K)) : Pkg K :=
  let prim : Doc K := [("path", .str "geometry/primary.json"), ("schema", .str "yapcad-geometry-json-v0.1"),
    ("entities", .list []), ("hash", .str (computeHash D alg doc))]
  let base : Doc K := [("schema", .str "ycpkg-spec-v0.1"), ("name", .str name), ("version", .str version)] ++ rest ++
    [("geometry", .dict [("primary", .dict prim)])]
  { root := root
    data := match materials with
      | some m => base ++ [("materials", .dict m)]
      | none => base
    files := [(resolve (root ++ ["geometry", "primary.json"]), doc)] }

/-- a placeholder for a material that entities refer to, core.py:214-221 -/
def placeholder [One K] (c1 c2 c3 : K) : Val K :=
  .dict [("source", .dict [("type", .str "custom"), ("custom", .dict [("notes", .str "Placeholder")])]),
    ("visual", .dict [("color", .list [.num c1, .num c2, .num c3])])]

/-! ### signing.py -/

inductive Method
  | gpg | ssh
  deriving DecidableEq

/-- `VerificationStatus`, signing.py:43-48 -/
inductive Status
  | valid | untrusted | invalid | error
  deriving DecidableEq

/-- what running a verification command can yield -/
inductive Ran
  /-- exit status 0 -/
  | good (signer : String)
  /-- another exit status; `marker` tells whether the tool printed the text the code looks for (`No public key` for gpg,
  `Could not verify` for ssh-keygen) -/
  | bad (marker : Bool)
  /-- the program is not installed -/
  | absent

/-- the external programs -/
structure Tools where
  gpgSign : Content → Option String → Except Err (Content × String × String)
  sshSign : Content → String → Except Err (Content × String × String)
  gpgVerify : Content → Content → Ran
  /-- `allowed` is the allowed_signers file -/
  sshVerify : (allowed : Content) → Content → Content → Ran

/-- the manifest without its signatures, signing.py:119-121 -/
def unsigned (d : Doc K) : Doc K := if "signatures" ∈ keys d then d.filter (fun p => p.1 ≠ "signatures") else d

/-- `_compute_canonical_manifest_hash`, signing.py:111-133 -/
def manifestHash (N : NumText K) (D : Digest) (d : Doc K) : String := D "sha256" (dumps N (.dict (unsigned d)))

/-- `_create_signable_content`, signing.py:136-144 -/
def signable (hash : String) : Content := "ycpkg-manifest-v1\n".toList ++ hash.toList ++ ['\n']

/-- what is signed for a manifest -/
def contentOf (N : NumText K) (D : Digest) (d : Doc K) : Content := signable (manifestHash N D d)

/-- `_verify_gpg_signature`, signing.py:243-284 -/
def verifyGpg (T : Tools) (content sig : Content) : Status :=
  match T.gpgVerify content sig with
  | .good _ => .valid
  | .bad true => .untrusted
  | .bad false => .invalid
  | .absent => .error

/-- `_verify_ssh_signature`, signing.py:287-335 -/
def verifySsh (T : Tools) (allowed : Option Content) (content sig : Content) : Status :=
  match allowed with
  | none => .untrusted
  | some a => match T.sshVerify a content sig with
    | .good _ => .valid
    | .bad true => .invalid
    | .bad false => .untrusted
    | .absent => .error

/-- `signer_id.replace('@', '_').replace(' ', '_').replace('/', '_')[:20]`, signing.py:402 -/
def safeName (s : String) : String :=
  String.ofList ((s.toList.map fun c => if c = '@' ∨ c = ' ' ∨ c = '/' then '_' else c).take 20)

/-- the manifest entry of a signature, signing.py:419-425; the time stamp is a parameter -/
def sigEntry (signer method key time file : String) : Val K :=
  .dict [("signer", .str signer), ("method", .str method), ("key_id", .str key), ("timestamp", .str time),
    ("signature_file", .str file)]

/-- what signing produces: signature text, signer, key and file name, signing.py:381-413 -/
def makeSignature (T : Tools) (content : Content) (m : Method) (keyId keyPath : Option String) :
    Except Err (Content × String × String × String) :=
  match m with
  | .gpg => match T.gpgSign content keyId with
    | .error e => .error e
    | .ok (sig, signer, key) => .ok (sig, signer, key, "signatures/manifest.sig.asc")
  | .ssh => match keyPath with
    | none => .error "SigningError"
    | some kp => match T.sshSign content kp with
      | .error e => .error e
      | .ok (sig, signer, fp) => .ok (sig, signer, fp, "signatures/manifest.sig." ++ safeName signer)

/-- the manifest with the new entry, signing.py:427-430 -/
def addSignature (d : Doc K) (add : Bool) (e : Val K) : Except Err (Doc K) :=
  match dget d "signatures" with
  | some v =>
    if add then
      match v with
      | .list l => .ok (dset d "signatures" (.list (l ++ [e])))
      | _ => .error "AttributeError"
    else .ok (dset d "signatures" (.list [e]))
  | none => .ok (dset d "signatures" (.list [e]))

/-- method names -/
def Method.name : Method → String
  | .gpg => "gpg"
  | .ssh => "ssh"

/-- `sign_package`, signing.py:338-430 -/
def signPackage (N : NumText K) (D : Digest) (T : Tools) (time : String) (p : Pkg K) (m : Method)
    (keyId keyPath : Option String) (add : Bool) (signerName : Option String) : Except Err Unit × Pkg K :=
  match makeSignature T (contentOf N D p.data) m keyId keyPath with
  | .error e => (.error e, p)
  | .ok (sig, signer, key, file) =>
    let p1 := { p with files := dset p.files (locate p.root file) sig }
    match addSignature p.data add (sigEntry (signerName.getD signer) m.name key time file) with
    | .error e => (.error e, p1)
    | .ok d => (.ok (), { p1 with data := d })

/-- one verified signature: the signer the manifest names and the status -/
structure SigInfo (K : Type) where
  signer : Val K
  status : Status

/-- `VerificationResult`, signing.py:63-92 -/
structure Verification (K : Type) where
  signatures : List (SigInfo K) := []
  errors : List String := []

/-- `is_valid` -/
def Verification.isValid (r : Verification K) : Bool := r.signatures.any fun s => s.status = .valid

/-- `trusted_signers` -/
def Verification.trusted (r : Verification K) : Nat := (r.signatures.filter fun s => s.status = .valid).length

/-- `untrusted_signers` -/
def Verification.untrusted (r : Verification K) : Nat := (r.signatures.filter fun s => s.status = .untrusted).length

/-- `overall_status`, signing.py:87-98 -/
def Verification.overall (r : Verification K) : Status :=
  if ¬ r.errors.isEmpty then .error
  else if 0 < r.trusted then .valid
  else if 0 < r.untrusted then .untrusted
  else if r.signatures.any (fun s => s.status = .invalid) then .invalid
  else .error

/-- `SignatureMethod(sig_entry.get("method", "gpg"))`: `none` is a ValueError -/
def entryMethod (d : Doc K) : Option Method :=
  match dget d "method" with
  | none => some .gpg
  | some (.str "gpg") => some .gpg
  | some (.str "ssh") => some .ssh
  | _ => none

/-- the status of one entry: of its signature file, signing.py:483-510 -/
def entryStatus (T : Tools) (allowed : Option Content) (content : Content) (p : Pkg K) (m : Method) (file : String) :
    Except Err Status :=
  if parsePath file = [] then .error "IsADirectoryError"
  else match p.file file with
    | none => .ok .error
    | some sig => match m with
      | .gpg => .ok (verifyGpg T content sig)
      | .ssh => .ok (verifySsh T allowed content sig)

/-- one entry of the `signatures` section: an error text or a signature record -/
def verifyEntry (T : Tools) (allowed : Option Content) (content : Content) (p : Pkg K) (e : Val K) :
    Except Err (SigInfo K ⊕ String) :=
  match e with
  | .dict d =>
    match entryMethod d with
    | none => .ok (.inr "Unknown signature method")
    | some m =>
      match asPath ((dget d "signature_file").getD (.str "")) with
      | .error e => .error e
      | .ok file => match entryStatus T allowed content p m file with
        | .error e => .error e
        | .ok st => .ok (.inl ⟨(dget d "signer").getD (.str "unknown"), st⟩)
  | _ => .error "AttributeError"

/-- the loop of `verify_package`, signing.py:475-521 -/
def verifyEntries (T : Tools) (allowed : Option Content) (content : Content) (p : Pkg K) :
    List (Val K) → Except Err (Verification K)
  | [] => .ok {}
  | e :: es =>
    match verifyEntry T allowed content p e with
    | .error e => .error e
    | .ok r => match verifyEntries T allowed content p es with
      | .error e => .error e
      | .ok v => match r with
        | .inl s => .ok { v with signatures := s :: v.signatures }
        | .inr msg => .ok { v with errors := msg :: v.errors }

/-- `verify_package`, signing.py:438-523, for a package with a manifest -/
def verifyPackage (N : NumText K) (D : Digest) (T : Tools) (allowed : Option Content) (p : Pkg K) :
    Except Err (Verification K) :=
  match dget p.data "signatures" with
  | none => .ok {}
  | some (.list l) => verifyEntries T allowed (contentOf N D p.data) p l
  | some .none | some (.dict []) | some (.bool false) => .ok {}
  | some (.str s) => if s = "" then .ok {} else .error "AttributeError"
  | some (.dict (_ :: _)) => .error "AttributeError"
  | some _ => .error "TypeError"   -- simplification: the number 0 is falsy and would count as "no signatures"

end Verif.Pkg
