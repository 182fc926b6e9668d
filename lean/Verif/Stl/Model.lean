import Mathlib.Algebra.Order.Field.Basic
import Mathlib.Tactic.Linarith

/-!
# STL files

Models src/yapcad/io/stl.py, src/yapcad/mesh.py (`mesh_view` of triangulated objects) and `triangle_normal` of
src/yapcad/geometry_utils.py.

* Bytes are `Fin 256`, IEEE single precision numbers are 32-bit words; rounding to single precision (`struct.pack`),
  printing with `.6e` and `float()` are parameters.
* Text is taken to be ASCII: other bytes decode to one replacement character each, and only ASCII blanks and digits count
  as such in the regular expression (simplification).
-/

namespace Verif.Stl

abbrev Err := String
abbrev Byte := Fin 256
/-- a single precision number, as its bit pattern -/
abbrev Word := Fin 4294967296

/-- three components -/
structure V3 (α : Type) where
  x : α
  y : α
  z : α
  deriving DecidableEq, Repr

/-- `Triangle`, geometry_utils.py:13-20 -/
structure Tri (α : Type) where
  normal : V3 α
  v0 : V3 α
  v1 : V3 α
  v2 : V3 α
  deriving DecidableEq, Repr

def V3.map {α β : Type} (f : α → β) (v : V3 α) : V3 β := ⟨f v.x, f v.y, f v.z⟩
def Tri.map {α β : Type} (f : α → β) (t : Tri α) : Tri β := ⟨t.normal.map f, t.v0.map f, t.v1.map f, t.v2.map f⟩
def V3.toList {α : Type} (v : V3 α) : List α := [v.x, v.y, v.z]
/-- the twelve numbers in file order -/
def Tri.toList {α : Type} (t : Tri α) : List α := t.normal.toList ++ t.v0.toList ++ t.v1.toList ++ t.v2.toList

/-! ### Binary files -/

/-- four bytes, least significant first (`<I` and `<f`) -/
def le4 (w : Word) : List Byte :=
  [⟨w.val % 256, by omega⟩, ⟨w.val / 256 % 256, by omega⟩, ⟨w.val / 65536 % 256, by omega⟩, ⟨w.val / 16777216 % 256, by omega⟩]

/-- the number encoded by four bytes -/
def un4 (a b c d : Byte) : Word := ⟨a.val + 256 * b.val + 65536 * c.val + 16777216 * d.val, by omega⟩

/-- `encode('ascii', errors='replace')` of one character -/
def encodeChar (c : Char) : Byte := if h : c.toNat < 128 then ⟨c.toNat, by omega⟩ else 63

/-- the header, stl.py:43-44 -/
def header (name : List Char) : List Byte :=
  let h := (name.take 80).map encodeChar
  h ++ List.replicate (80 - h.length) 32

/-- one record, stl.py:49-55 -/
def packTri (t : Tri Word) : List Byte := (t.toList.map le4).flatten ++ [0, 0]

/-- `struct.pack('<12fH', …)` of double precision numbers: conversion can fail with OverflowError -/
def convert {K : Type} (pack : K → Option Word) (t : Tri K) : Option (Tri Word) :=
  match pack t.normal.x, pack t.normal.y, pack t.normal.z, pack t.v0.x, pack t.v0.y, pack t.v0.z,
    pack t.v1.x, pack t.v1.y, pack t.v1.z, pack t.v2.x, pack t.v2.y, pack t.v2.z with
  | some a, some b, some c, some d, some e, some f, some g, some h, some i, some j, some k, some l =>
    some ⟨⟨a, b, c⟩, ⟨d, e, f⟩, ⟨g, h, i⟩, ⟨j, k, l⟩⟩
  | _, _, _, _, _, _, _, _, _, _, _, _ => none

/-- convert all triangles, stopping at the first that fails -/
def convertAll {K : Type} (pack : K → Option Word) : List (Tri K) → Option (List (Tri Word))
  | [] => some []
  | t :: ts => match convert pack t, convertAll pack ts with
    | some w, some ws => some (w :: ws)
    | _, _ => none

/-- the bytes of a binary file with these records -/
def binaryFile (name : List Char) (ws : List (Tri Word)) (h : ws.length < 4294967296) : List Byte :=
  header name ++ le4 ⟨ws.length, h⟩ ++ (ws.map packTri).flatten

/-- `_write_binary`, stl.py:34-59: the bytes of the file (what is left behind by a failing call is not modelled) -/
def writeBinary {K : Type} (pack : K → Option Word) (name : List Char) (ts : List (Tri K)) : Except Err (List Byte) :=
  match convertAll pack ts with
  | none => .error "OverflowError"
  | some ws => if h : ws.length < 4294967296 then .ok (binaryFile name ws h) else .error "struct.error"

/-- blanks removed by `str.strip` and matched by `\s` -/
def isBlank (c : Char) : Bool := c.toNat = 32 || (9 ≤ c.toNat && c.toNat ≤ 13) || (28 ≤ c.toNat && c.toNat ≤ 31)

/-- ASCII `str.lower` of one character -/
def low (c : Char) : Char := c.toLower

/-- does the (lower-cased, stripped) header begin with "solid"; stl.py:106-107. Stripping the end does not matter. -/
def solidHeader (data : List Byte) : Bool :=
  let chars := ((data.take 80).filter fun b => b.val < 128).map fun b => Char.ofNat b.val
  ("solid".toList).isPrefixOf ((chars.dropWhile isBlank).map low)

/-- is one list inside another (`in` for bytes) -/
def contains {α : Type} [DecidableEq α] (sub : List α) : List α → Bool
  | [] => sub.isPrefixOf []
  | x :: l => sub.isPrefixOf (x :: l) || contains sub l

/-- ASCII bytes of a word -/
def bytesOf (s : String) : List Byte := s.toList.map encodeChar

/-- the count field -/
def countField (data : List Byte) : Nat :=
  match (data.drop 80).take 4 with
  | [a, b, c, d] => (un4 a b c d).val
  | _ => 0

/-- `_is_binary_stl`, stl.py:92-119 -/
def isBinary (data : List Byte) : Bool :=
  if data.length < 84 then false
  else if solidHeader data then
    if data.length = 84 + countField data * 50 then
      let rest := (data.drop 84).take (200 - 84)
      if contains (bytesOf "facet") rest || contains (bytesOf "vertex") rest then false else true
    else false
  else true

/-- the 32-bit fields of a record; an incomplete field at the end (the two attribute bytes) is ignored -/
def words : List Byte → List Word
  | a :: b :: c :: d :: l => un4 a b c d :: words l
  | _ => []

/-- one record, stl.py:138-142 -/
def unpackTri (l : List Byte) : Option (Tri Word) :=
  match words l with
  | [a, b, c, d, e, f, g, h, i, j, k, l] => some ⟨⟨a, b, c⟩, ⟨d, e, f⟩, ⟨g, h, i⟩, ⟨j, k, l⟩⟩
  | _ => none

/-- the loop over records, stl.py:135-144; it stops at the first incomplete record -/
def unpackAll : Nat → List Byte → List (Tri Word)
  | 0, _ => []
  | n + 1, data =>
    if data.length < 50 then []
    else match unpackTri (data.take 50) with
      | some t => t :: unpackAll n (data.drop 50)
      | none => []

/-- `_parse_binary_stl`, stl.py:122-142 -/
def parseBinary (data : List Byte) : Except Err (List (Tri Word)) :=
  if data.length < 84 then .error "ValueError" else .ok (unpackAll (countField data) (data.drop 84))

/-! ### ASCII files -/

/-- one line of three numbers -/
def numbers {K : Type} (fmt : K → List Char) (v : V3 K) : List Char :=
  fmt v.x ++ " ".toList ++ fmt v.y ++ " ".toList ++ fmt v.z ++ "\n".toList

/-- one facet, stl.py:73-79 -/
def facetText {K : Type} (fmt : K → List Char) (t : Tri K) : List Char :=
  "  facet normal ".toList ++ numbers fmt t.normal ++ "    outer loop\n".toList ++
  "      vertex ".toList ++ numbers fmt t.v0 ++ "      vertex ".toList ++ numbers fmt t.v1 ++
  "      vertex ".toList ++ numbers fmt t.v2 ++ "    endloop\n".toList ++ "  endfacet\n".toList

/-- the text of an ASCII file, stl.py:71-80 -/
def asciiText {K : Type} (fmt : K → List Char) (name : List Char) (ts : List (Tri K)) : List Char :=
  "solid ".toList ++ name ++ "\n".toList ++ (ts.map (facetText fmt)).flatten ++ "endsolid ".toList ++ name ++ "\n".toList

/-- `_write_ascii`, stl.py:62-83: the stream is opened with encoding ASCII -/
def writeAscii {K : Type} (fmt : K → List Char) (name : List Char) (ts : List (Tri K)) : Except Err (List Byte) :=
  if (asciiText fmt name ts).all fun c => c.toNat < 128 then .ok ((asciiText fmt name ts).map encodeChar)
  else .error "UnicodeEncodeError"

/-- characters of the class `[eE\d.+-]` -/
def isNumChar (c : Char) : Bool := c = 'e' || c = 'E' || c.isDigit || c = '.' || c = '+' || c = '-'

/-- pieces of the regular expression, stl.py:154-162 -/
inductive Item
  | lit (s : String)
  | blanks
  | number

/-- match a literal, ignoring case -/
def matchLit : List Char → List Char → Option (List Char)
  | [], r => some r
  | _ :: _, [] => none
  | c :: cs, d :: ds => if c = low d then matchLit cs ds else none

/-- match the pieces at the beginning of a text: the groups and the remaining text. Every `+` is followed by a piece that
cannot begin with the repeated characters, so greedy matching never has to backtrack. -/
def matchItems : List Item → List Char → Option (List (List Char) × List Char)
  | [], r => some ([], r)
  | .lit s :: is, r => match matchLit s.toList r with
    | some r' => matchItems is r'
    | none => none
  | .blanks :: is, r => if r.takeWhile isBlank = [] then none else matchItems is (r.dropWhile isBlank)
  | .number :: is, r =>
    if r.takeWhile isNumChar = [] then none
    else match matchItems is (r.dropWhile isNumChar) with
      | some (gs, r') => some (r.takeWhile isNumChar :: gs, r')
      | none => none

/-- three numbers, each followed by blanks -/
def numbersPattern : List Item := [.number, .blanks, .number, .blanks, .number, .blanks]

/-- `facet_pattern`, stl.py:154-162 -/
def facetPattern : List Item :=
  [.lit "facet", .blanks, .lit "normal", .blanks] ++ numbersPattern ++ [.lit "outer", .blanks, .lit "loop", .blanks] ++
  [.lit "vertex", .blanks] ++ numbersPattern ++ [.lit "vertex", .blanks] ++ numbersPattern ++
  [.lit "vertex", .blanks] ++ numbersPattern ++ [.lit "endloop", .blanks, .lit "endfacet"]

/-- `finditer`: the groups of all matches, left to right; `n` bounds the number of steps -/
def findAll : Nat → List Char → List (List (List Char))
  | 0, _ => []
  | _ + 1, [] => []
  | n + 1, c :: cs => match matchItems facetPattern (c :: cs) with
    | some (gs, r) => gs :: findAll n r
    | none => findAll n cs

/-- the twelve numbers of a match, stl.py:165-169 -/
def readGroups {K : Type} (parse : List Char → Option K) (gs : List (List Char)) : Except Err (Tri K) :=
  match gs.map parse with
  | [some a, some b, some c, some d, some e, some f, some g, some h, some i, some j, some k, some l] =>
    .ok ⟨⟨a, b, c⟩, ⟨d, e, f⟩, ⟨g, h, i⟩, ⟨j, k, l⟩⟩
  | _ => .error "ValueError"

/-- all matches -/
def readAllGroups {K : Type} (parse : List Char → Option K) : List (List (List Char)) → Except Err (List (Tri K))
  | [] => .ok []
  | g :: gs => match readGroups parse g with
    | .error e => .error e
    | .ok t => match readAllGroups parse gs with
      | .error e => .error e
      | .ok ts => .ok (t :: ts)

/-- `_parse_ascii_stl`, stl.py:145-168 -/
def parseAscii {K : Type} (parse : List Char → Option K) (text : List Char) : Except Err (List (Tri K)) :=
  readAllGroups parse (findAll text.length text)

/-- `data.decode('utf-8', errors='replace')` on ASCII; other bytes give replacement characters -/
def decode (data : List Byte) : List Char := data.map fun b => if b.val < 128 then Char.ofNat b.val else '\uFFFD'

/-- the triangles `read_stl` finds, stl.py:283-287; `unpack` widens single to double precision -/
def readTriangles {K : Type} (unpack : Word → K) (parse : List Char → Option K) (data : List Byte) :
    Except Err (List (Tri K)) :=
  if isBinary data then
    match parseBinary data with
    | .error e => .error e
    | .ok ws => .ok (ws.map (Tri.map unpack))
  else parseAscii parse (decode data)

/-! ### Triangles to a surface -/

/-- the mesh part of a surface -/
structure Mesh (K : Type) where
  vertices : List (V3 K)
  normals : List (V3 K)
  faces : List (Nat × Nat × Nat)
  deriving DecidableEq

/-- the state of the deduplicating loop, stl.py:206-222: `vertex_map` gives the index of a key, `entries` holds for each
vertex its key, its position and the normals collected for it (`vertex_normals`), in index order -/
structure Dedup (K Key : Type) where
  entries : List (Key × V3 K × List (V3 K))
  faces : List (Nat × Nat × Nat)

/-- `vertex_map[key]`: the position of the key -/
def keyIndex {K Key : Type} [DecidableEq Key] (es : List (Key × V3 K × List (V3 K))) (k : Key) : Option Nat :=
  match es with
  | [] => none
  | e :: es => if e.1 = k then some 0 else (keyIndex es k).map (· + 1)

/-- add a normal to the entry of a key -/
def addNormal {K Key : Type} [DecidableEq Key] (es : List (Key × V3 K × List (V3 K))) (k : Key) (n : V3 K) :
    List (Key × V3 K × List (V3 K)) :=
  es.map fun e => if e.1 = k then (e.1, e.2.1, e.2.2 ++ [n]) else e

/-- one corner, stl.py:214-220: the entries afterwards and the index -/
def addCorner {K Key : Type} [DecidableEq Key] (key : V3 K → Key) (n : V3 K) (es : List (Key × V3 K × List (V3 K)))
    (v : V3 K) : List (Key × V3 K × List (V3 K)) × Nat :=
  match keyIndex es (key v) with
  | some i => (addNormal es (key v) n, i)
  | none => (es ++ [(key v, v, [n])], es.length)

/-- one triangle, stl.py:212-221 -/
def addTri {K Key : Type} [DecidableEq Key] (key : V3 K → Key) (s : Dedup K Key) (t : Tri K) : Dedup K Key :=
  let a := addCorner key t.normal s.entries t.v0
  let b := addCorner key t.normal a.1 t.v1
  let c := addCorner key t.normal b.1 t.v2
  ⟨c.1, s.faces ++ [(a.2, b.2, c.2)]⟩

section
variable {K : Type} [Field K]

/-- the mean of a list of normals, stl.py:226-230 -/
def meanNormal (ns : List (V3 K)) : V3 K :=
  ⟨(ns.map V3.x).sum / ns.length, (ns.map V3.y).sum / ns.length, (ns.map V3.z).sum / ns.length⟩

/-- `_triangles_to_surface` with deduplication, stl.py:201-236; `normalize` is stl.py:232-234 -/
def meshDedup {Key : Type} [DecidableEq Key] (key : V3 K → Key) (normalize : V3 K → V3 K) (ts : List (Tri K)) : Mesh K :=
  let s := ts.foldl (addTri key) ⟨[], []⟩
  ⟨s.entries.map fun e => e.2.1, s.entries.map fun e => normalize (meanNormal e.2.2), s.faces⟩

end

/-- `_triangles_to_surface` without deduplication, stl.py:237-247 -/
def meshPlain {K : Type} (i : Nat) : List (Tri K) → Mesh K
  | [] => ⟨[], [], []⟩
  | t :: ts =>
    let m := meshPlain (i + 1) ts
    ⟨t.v0 :: t.v1 :: t.v2 :: m.vertices, t.normal :: t.normal :: t.normal :: m.normals,
      (i * 3, i * 3 + 1, i * 3 + 2) :: m.faces⟩

/-! ### `mesh_view` -/

section
variable {K : Type} [Field K] [LinearOrder K]

def V3.sub (a b : V3 K) : V3 K := ⟨a.x - b.x, a.y - b.y, a.z - b.z⟩
def V3.cross (a b : V3 K) : V3 K := ⟨a.y * b.z - a.z * b.y, a.z * b.x - a.x * b.z, a.x * b.y - a.y * b.x⟩
def V3.dot (a b : V3 K) : K := a.x * b.x + a.y * b.y + a.z * b.z
def V3.scale (s : K) (a : V3 K) : V3 K := ⟨s * a.x, s * a.y, s * a.z⟩

/-- `triangle_normal`, geometry_utils.py:47-56; `sqrt` is a parameter, `eps` is geom.epsilon = 0.000005 -/
def triangleNormal (sqrt : K → K) (eps : K) (v0 v1 v2 : V3 K) : Option (V3 K) :=
  let n := (v1.sub v0).cross (v2.sub v0)
  let length := sqrt (n.dot n)
  if length ≤ eps then none else some ⟨n.x / length, n.y / length, n.z / length⟩

/-- Python list indexing with a possibly negative index -/
def pyIndex {α : Type} (l : List α) (i : Int) : Option α :=
  if 0 ≤ i then l[i.toNat]? else if 0 ≤ i + l.length then l[(i + l.length).toNat]? else none

/-- one face of `mesh_view`, mesh.py:38-52: nothing for faces that are not triangles or have no normal -/
def faceView (sqrt : K → K) (eps : K) (verts : List (V3 K)) (face : List Int) : Except Err (List (Tri K)) :=
  match face with
  | [i, j, k] => match pyIndex verts i, pyIndex verts j, pyIndex verts k with
    | some a, some b, some c => match triangleNormal sqrt eps a b c with
      | some n => .ok [⟨n, a, b, c⟩]
      | none => .ok []
    | _, _, _ => .error "IndexError"
  | _ => .ok []

/-- the faces of one surface -/
def facesView (sqrt : K → K) (eps : K) (verts : List (V3 K)) : List (List Int) → Except Err (List (Tri K))
  | [] => .ok []
  | f :: fs => match faceView sqrt eps verts f with
    | .error e => .error e
    | .ok t => match facesView sqrt eps verts fs with
      | .error e => .error e
      | .ok ts => .ok (t ++ ts)

/-- `mesh_view` of a surface or of a solid with triangulated surfaces, mesh.py:14-56: the surfaces' vertices and faces.
(Tessellation of BREP solids is not modelled.) -/
def meshView (sqrt : K → K) (eps : K) : List (List (V3 K) × List (List Int)) → Except Err (List (Tri K))
  | [] => .ok []
  | s :: ss => match facesView sqrt eps s.1 s.2 with
    | .error e => .error e
    | .ok t => match meshView sqrt eps ss with
      | .error e => .error e
      | .ok ts => .ok (t ++ ts)

end

end Verif.Stl
