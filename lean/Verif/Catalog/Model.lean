import Mathlib.Data.List.Basic

/-!
# Model of the fastener catalogs: `src/yapcad/fasteners/catalog.py`

The file system and the environment are a value that anybody may change between two calls; the two caches of the module and the dictionaries it has
returned are the state. A parsed YAML document is text, a dictionary with text keys, or anything else.
-/

namespace Verif.Catalog

/-- parsed YAML: texts, dictionaries, and everything else -/
inductive Y where
  | str (s : String)
  | dict (entries : List (String × Y))
  | other (n : Nat)

/-- `d.get(k)` on the entries of a dictionary -/
def get : List (String × Y) → String → Option Y
  | [], _ => none
  | (k, v) :: d, x => if k = x then some v else get d x

/-- what is in a file: something the parser (or `open`) raises on, or a document -/
inductive Content where
  | broken (error : String)
  | doc (y : Y)

/-- the environment: the variable `YAPCAD_FASTENER_DATA`, which paths are directories, the user's directory, the one of the package, and the files. -/
structure World where
  env : Option (List Char)
  isDir : String → Bool
  /-- `Path(p).expanduser().resolve()` -/
  resolve : List Char → String
  user : String
  bundled : String
  /-- the file of a series in a directory; `none` = it does not exist -/
  file : String → String → Option Content
  /-- the file at a path given by the caller -/
  custom : String → Option Content

/-- `env_path.split(":")` -/
def split : List Char → List (List Char)
  | [] => [[]]
  | c :: s => if c = ':' then [] :: split s else match split s with
    | [] => [[c]]
    | w :: ws => (c :: w) :: ws

/-- `p.strip()`: blanks at both ends -/
def strip (s : List Char) : List Char := ((s.dropWhile Char.isWhitespace).reverse.dropWhile Char.isWhitespace).reverse

/-- `_get_data_dirs`, catalog.py:64-100, on anything but Windows -/
def dataDirs (w : World) : List String :=
  let env := match w.env with
    | none => []
    | some s => ((((split s).map strip).filter (· ≠ [])).map w.resolve).filter w.isDir
  let env := if w.isDir w.user then env ++ [w.user] else env
  if w.isDir w.bundled then env ++ [w.bundled] else env

/-- `_load_yaml`, catalog.py:132-155; `data["_source_path"]` is left out -/
def loadYaml : Content → Except String (List (String × Y))
  | .broken e => .error e
  | .doc (.dict d) =>
    match (get d "schema_version").getD (.str "1.0") with
    | .str v => if v.toList.take 2 = ['1', '.'] then
        match get d "sizes" with
        | none => .error "ValueError"
        | some _ => .ok d
      else .error "ValueError"
    | _ => .error "ValueError"
  | .doc _ => .error "ValueError"

/-- the keys of `THREAD_SERIES`, catalog.py:46-51 -/
def series : List String := ["metric_coarse", "metric_fine", "unified_coarse", "unified_fine"]

/-- the arguments of `_load_catalog_cached` -/
abbrev Key := String × Option String

/-- the state: the world, the cache of the directories, the cache of the catalogs (most recently used first), and the dictionaries returned so far, by number -/
structure St where
  world : World
  dirs : Option (List String)
  cache : List (Key × Nat)
  heap : List (List (String × Y))

/-- `_get_data_dirs()` through its cache -/
def cachedDirs (s : St) : List String := s.dirs.getD (dataDirs s.world)

/-- the first directory with the file: the loop of `_load_catalog_impl`, catalog.py:119-122 -/
def firstFile (w : World) (name : String) : List String → Except String (List (String × Y))
  | [] => .error "FileNotFoundError"
  | d :: ds => match w.file d name with
    | none => firstFile w name ds
    | some c => loadYaml c

/-- `_load_catalog_impl`, catalog.py:110-129 -/
def loadImpl (s : St) (k : Key) : Except String (List (String × Y)) × St :=
  match k.2 with
  | some p => match s.world.custom p with
    | none => (.error "FileNotFoundError", s)
    | some c => (loadYaml c, s)
  | none => (firstFile s.world k.1 (cachedDirs s), { s with dirs := some (cachedDirs s) })

/-- the entry of a key in the cache -/
def find : List (Key × Nat) → Key → Option Nat
  | [], _ => none
  | (k, i) :: l, x => if k = x then some i else find l x

/-- `_load_catalog_cached`, catalog.py:104-107: `lru_cache(maxsize=32)`. The result is the number of the dictionary. -/
def loadCached (s : St) (k : Key) : Except String Nat × St :=
  match find s.cache k with
  | some i => (.ok i, { s with cache := (k, i) :: s.cache.filter (fun e => e.1 ≠ k) })
  | none =>
    match loadImpl s k with
    | (.error e, s') => (.error e, s')
    | (.ok d, s') => (.ok s'.heap.length, { s' with cache := ((k, s'.heap.length) :: s'.cache).take 32, heap := s'.heap ++ [d] })

/-- `load_catalog`, catalog.py:158-194 -/
def load (s : St) (name : String) (custom : Option String) : Except String Nat × St :=
  if name ∉ series then (.error "ValueError", s)
  else loadCached s (name, if custom = some "" then none else custom)

/-- `clear_cache`, catalog.py:54-60 -/
def clear (s : St) : St := { s with dirs := none, cache := [] }

/-- what can happen: a call, clearing the caches, a change of files or environment, a caller changing a dictionary he was given -/
inductive Op where
  | load (name : String) (custom : Option String)
  | clear
  | world (w : World)
  | write (i : Nat) (d : List (String × Y))

/-- one step -/
def step (s : St) : Op → St
  | .load name custom => (load s name custom).2
  | .clear => clear s
  | .world w => { s with world := w }
  | .write i d => { s with heap := s.heap.set i d }

/-- `data[k] in d` on a value that should be a dictionary -/
def asDict : Y → Except String (List (String × Y))
  | .dict d => .ok d
  | _ => .error "TypeError"

/-- the size in the table, in `get_thread_data` -/
def sizeOf (upper lower : String → String) (sizes : List (String × Y)) (size : String) : Except String (List (String × Y)) :=
  match get sizes size with
  | some v => asDict v
  | none => match get sizes (upper size) with
    | some v => asDict v
    | none => match get sizes (lower size) with
      | some v => asDict v
      | none => .error "KeyError"

/-- the check of the tolerance class in `get_thread_data` -/
def checkClass (data : List (String × Y)) : Option String → Except String (List (String × Y))
  | none => .ok data
  | some c =>
    if c = "" then .ok data
    else asDict ((get data "tolerances").getD (.dict [])) >>= fun t => match get t c with
      | some _ => .ok data
      | none => .error "KeyError"

/-- `get_thread_data`, catalog.py:231-289, on the catalog. `upper`, `lower` = `str.upper`, `str.lower`. A size or a table of tolerances that is not a dictionary is an error in Python too, at the latest when its
entries are used, whose kind depends on the value; here it is `TypeError`. -/
def threadData (upper lower : String → String) (catalog : List (String × Y)) (size : String) (cls : Option String) : Except String (List (String × Y)) :=
  asDict ((get catalog "sizes").getD (.dict [])) >>= fun sizes => sizeOf upper lower sizes size >>= fun data => checkClass data cls

/-- `data[k]` -/
def item (d : List (String × Y)) (k : String) : Except String Y := match get d k with
  | some v => .ok v
  | none => .error "KeyError"

/-- what `get_bolt_data` and `get_nut_data` return: the thread and the head, or the body; `none` = `None` -/
structure Hardware where
  diameter : Y
  pitch : Y
  minor : Option Y
  pitchDiameter : Option Y
  toleranceClass : String
  tolerances : Y
  internal : Bool
  body : Y

/-- `get_bolt_data` (catalog.py:292-331, part = `hex_bolt`) and `get_nut_data` (catalog.py:334-374, part = `hex_nut`), on the catalog -/
def hardware (upper lower : String → String) (part : String) (internal : Bool) (catalog : List (String × Y)) (size cls : String) : Except String Hardware := do
  let data ← threadData upper lower catalog size (some cls)
  let body ← item data part
  let table ← asDict ((get data "tolerances").getD (.dict []))
  let diameter ← item data "nominal_diameter"
  let pitch ← item data "pitch"
  .ok ⟨diameter, pitch, get data "basic_minor_diameter", get data "basic_pitch_diameter", cls, (get table cls).getD (.dict []), internal, body⟩

end Verif.Catalog
