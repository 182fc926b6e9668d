import Verif.Pkg.Model
import Verif.Pkg.Same

/-!
# Specification vocabulary for packages
-/

namespace Verif.Pkg

open Verif.Dict
variable {K : Type}

/-- the file exists and, when a hash is recorded, has that hash (compared without regard to case) -/
def FileOk (D : Digest) (p : Pkg K) (path : String) (hash : Option (Val K)) : Prop :=
  ∃ c, p.file path = some c ∧ ∀ s, hash = some (.str s) → s ≠ "" → lower s = lower ("sha256:" ++ D "sha256" c)

/-- a manifest entry names a file that is as recorded -/
def EntryOk (D : Digest) (p : Pkg K) (e : Val K) : Prop :=
  ∃ d path, e = .dict d ∧ dget d "path" = some (.str path) ∧ FileOk D p path (dget d "hash")

/-- the entry is listed in the manifest: as derived geometry, export or attachment -/
def Listed (data : Doc K) (e : Val K) : Prop :=
  (∃ g l, dget data "geometry" = some (.dict g) ∧ dget g "derived" = some (.list l) ∧ e ∈ l) ∨
  (∃ l, dget data "exports" = some (.list l) ∧ e ∈ l) ∨
  (∃ l, dget data "attachments" = some (.list l) ∧ e ∈ l)

/-- a material definition has a source of a known type and a colour, if any, of three components -/
def MaterialOk [DecidableEq K] [Zero K] (m : Val K) : Prop :=
  ∃ d src t, m = .dict d ∧ dget d "source" = some (.dict src) ∧ dget src "type" = some (.str t) ∧
    t ∈ ["standard", "vendor", "custom", "tested"] ∧
    ∀ vis c, dget d "visual" = some (.dict vis) → dget vis "color" = some c → c.truthy = true →
      ∃ l, c = .list l ∧ l.length = 3

/-- the manifest has a primary geometry entry naming a file that is as recorded and loads -/
def PrimaryOk (D : Digest) (loads : Content → Bool) (p : Pkg K) : Prop :=
  ∃ g d path c, dget p.data "geometry" = some (.dict g) ∧ dget g "primary" = some (.dict d) ∧
    dget d "path" = some (.str path) ∧ FileOk D p path (dget d "hash") ∧ p.file path = some c ∧ loads c = true

/-- what it means for a package to be valid -/
def ValidPackage [DecidableEq K] [Zero K] (D : Digest) (loads : Content → Bool) (p : Pkg K) : Prop :=
  dget p.data "schema" = some (.str "ycpkg-spec-v0.1") ∧ PrimaryOk D loads p ∧ (∀ e, Listed p.data e → EntryOk D p e) ∧
  (∀ ms, dget p.data "materials" = some (.dict ms) → ∀ m ∈ ms, MaterialOk m.2) ∧
  (∀ v, dget p.data "materials" = some v → v.truthy = true → ∃ ms, v = .dict ms)

/-- a destination without `..` -/
def NoUp (parts : List String) : Prop := ".." ∉ parts

/-- the entries of a category -/
def entriesOf (data : Doc K) (category : String) : List (Val K) :=
  if category = "derived" then
    match dget data "geometry" with
    | some (.dict g) => match dget g "derived" with
      | some (.list l) => l
      | _ => []
    | _ => []
  else match dget data category with
    | some (.list l) => l
    | _ => []

/-- the path recorded in an entry -/
def entryPath (e : Val K) : Option String :=
  match e with
  | .dict d => match dget d "path" with
    | some (.str s) => some s
    | _ => none
  | _ => none

end Verif.Pkg
