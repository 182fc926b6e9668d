import Verif.Export.Mates

/-!
# The datums and the visual primitives of the exported parts (C345, C348)
-/

namespace Verif.Export
open Verif.Dict Verif.Xform Verif.Assembly

section
variable {G H : Type} (conv : G → Option H) (attrs : Nat → Attrs G)

/-- an exported datum is where, and points where, the datum is -/
def SameDatum (d : Datum) (o : OutDatum) : Prop :=
  o.name = d.name ∧ (o.kind, d.dtype) ∈ [("Point", DatumType.point), ("Axis", .axis), ("Plane", .plane), ("Frame", .frame), ("Circle", .circle)] ∧ o.origin = ![d.origin 0, d.origin 1, d.origin 2] ∧
  o.direction = d.direction.map (fun v => ![v 0, v 1, v 2]) ∧ o.normal = d.normal.map (fun v => ![v 0, v 1, v 2]) ∧ o.radius = d.radius

/-- C345: the parts are exported in the order in which they were added, each with every datum of its definition, in order, at its place and in its direction; no two datums of different kinds are exported as the
same kind -/
theorem C345_datums (s : State) : List.Forall₂ (fun (e : String × Nat) p => p.id = (s.defs e.2).name ∧ List.Forall₂ (fun d o => SameDatum d.2 o) (s.defs e.2).datums p.datums) s.parts (snapshot conv attrs s).parts := by
  show List.Forall₂ _ s.parts (s.parts.map fun e => outPart conv (s.defs e.2) (attrs e.2))
  rw [List.forall₂_map_right_iff]
  refine List.forall₂_same.2 fun e _ => ⟨rfl, ?_⟩
  show List.Forall₂ _ (s.defs e.2).datums ((s.defs e.2).datums.map fun d => outDatum d.2)
  rw [List.forall₂_map_right_iff]
  refine List.forall₂_same.2 fun d _ => ⟨rfl, ?_, rfl, rfl, rfl, rfl⟩
  show (datumKind d.2.dtype, d.2.dtype) ∈ _
  cases d.2.dtype <;> simp [datumKind]

/-- C345: a part is exported under its definition's name; its process is its own, FDM when none is given; its visual primitives are the exported ones in order, and the field is missing exactly when there are none -/
theorem C345_attributes (s : State) : List.Forall₂ (fun (e : String × Nat) p => p.name = (s.defs e.2).name ∧
    (∀ x, (attrs e.2).process = some x → x ≠ "" → p.process = x) ∧
    ((attrs e.2).process = none ∨ (attrs e.2).process = some "" → p.process = "FDM") ∧
    (∀ gs, p.geoms = some gs → gs = (attrs e.2).geoms.filterMap conv ∧ gs ≠ []) ∧
    (p.geoms = none → ∀ g ∈ (attrs e.2).geoms, conv g = none)) s.parts (snapshot conv attrs s).parts := by
  show List.Forall₂ _ s.parts (s.parts.map fun e => outPart conv (s.defs e.2) (attrs e.2))
  rw [List.forall₂_map_right_iff]
  refine List.forall₂_same.2 fun e _ => ⟨rfl, ?_, ?_, ?_, ?_⟩
  · intro x hx hne
    simp [outPart, hx, hne]
  · rintro (hx | hx) <;> simp [outPart, hx]
  · intro gs hg
    simp only [outPart] at hg
    split at hg
    · cases hg
    · rename_i h
      injection hg with hg
      subst hg
      exact ⟨rfl, by simpa [List.isEmpty_iff] using h⟩
  · intro hg g hm
    simp only [outPart] at hg
    split at hg
    · rename_i h
      rw [List.isEmpty_iff, List.filterMap_eq_nil_iff] at h
      exact h g hm
    · cases hg

/-- C345: the material is found whatever the case of its name; one that is not known is exported as PETG -/
theorem C345_material (m : Option String) : outMaterial m ∈ ["PLA", "PETG", "PetgCf", "TPU", "ABS", "ASA", "PC", "PaCf", "Nylon", "Aluminum", "Steel", "Stainless", "Brass", "Titanium"] ∧
    (∀ s t, m = some s → s ≠ "" → (s.toLower, t) ∈ materialMap → outMaterial m = t) ∧ (∀ s, m = some s → (∀ t, (s.toLower, t) ∉ materialMap) → outMaterial m = "PETG") := by
  refine ⟨?_, ?_, ?_⟩
  · unfold outMaterial
    split
    · simp
    · split
      · simp
      · rename_i s _
        cases h : dget materialMap s.toLower with
        | none => simp
        | some t =>
          have := mem_of_dget h
          simp only [materialMap, List.mem_cons, Prod.mk.injEq, List.not_mem_nil, or_false] at this
          show t ∈ _
          rcases this with h | h | h | h | h | h | h | h | h | h | h | h | h | h | h | h <;> rw [h.2] <;> simp
  · rintro s t rfl hs hm
    show (if s = "" then "PETG" else (dget materialMap s.toLower).getD "PETG") = t
    rw [if_neg hs, dget_of_mem (by decide) hm]
    rfl
  · rintro s rfl hn
    show (if s = "" then "PETG" else (dget materialMap s.toLower).getD "PETG") = _
    split
    · rfl
    · cases h : dget materialMap s.toLower with
      | none => rfl
      | some t => exact absurd (mem_of_dget h) (hn t)

end

/-! ## visual primitives -/

/-- the kinds of primitive; any other is skipped. `_GEOM_KIND_MAP`, mechatron_export.py:602-608 -/
inductive Shape
  | box | cylinder | sphere | capsule | mesh
deriving DecidableEq

/-- an entry as its author writes it; the names ending in `Mm` are in millimetres, the others in metres. `otherMm`: there is some other key that ends in `_mm`. Values of wrong types are not modelled -/
structure Entry (K : Type) where
  shape : Shape
  sizeMm : Option (List K) := none
  size : Option (List K) := none
  radiusMm : Option K := none
  radius : Option K := none
  halfMm : Option K := none
  half : Option K := none
  posMm : Option (List K) := none
  pos : Option (List K) := none
  scale : Option K := none
  path : Option String := none
  rgba : Option (List K) := none
  otherMm : Bool := false

/-- a `PartGeom`: lengths in metres -/
structure OutGeom (K : Type) where
  shape : Shape
  size : Option (List K) := none
  radius : Option K := none
  half : Option K := none
  path : Option String := none
  scale : Option K := none
  pos : Option (List K) := none
  rgba : Option (List K) := none

section
variable {K : Type} [Field K]

/-- `_MM_TO_M`, mechatron_export.py:598 -/
def toM (x : K) : K := x * (1 / 1000)

/-- `a or b` for lists that may be missing -/
def orList (a b : Option (List K)) : Option (List K) :=
  match a with
  | some (x :: l) => some (x :: l)
  | _ => b

/-- some key of the entry ends in `_mm` -/
def Entry.anyMm (e : Entry K) : Bool := e.sizeMm.isSome || e.radiusMm.isSome || e.halfMm.isSome || e.posMm.isSome || e.otherMm

/-- a number in millimetres, or else in metres, mechatron_export.py:636-648 -/
def mmOr (a b : Option K) : Option K :=
  match a with
  | some x => some (toM x)
  | none => b

/-- `_geom_to_mechatron`, mechatron_export.py:611-665, after the kind has been recognised -/
def outGeom (e : Entry K) : OutGeom K :=
  let g : OutGeom K := match e.shape with
    | .box => { shape := .box, size := (orList e.sizeMm e.size).map (·.map toM) }
    | .cylinder => { shape := .cylinder, radius := mmOr e.radiusMm e.radius, half := mmOr e.halfMm e.half }
    | .sphere => { shape := .sphere, radius := mmOr e.radiusMm e.radius }
    | .capsule => { shape := .capsule, radius := e.radiusMm.map toM, half := e.halfMm.map toM }
    | .mesh => { shape := .mesh, path := e.path, scale := e.scale }
  { g with pos := (orList e.posMm e.pos).map fun p => if e.anyMm then p.map toM else p, rgba := e.rgba }

/-- the entry is written in millimetres only -/
def InMm (e : Entry K) : Prop := e.size = none ∧ e.radius = none ∧ e.half = none ∧ e.pos = none

/-- C348 (partial: entries that mix millimetres and metres, and boxes and capsules in metres, are exported wrongly, see `C348_mixed`): an entry that is written in millimetres is exported in metres: every length
it gives is a thousandth of the number, and none is lost -/
theorem C348_geoms_partial (e : Entry K) (h : InMm e) :
    (outGeom e).shape = e.shape ∧
    (∀ l, e.shape = .box → e.sizeMm = some l → l ≠ [] → (outGeom e).size = some (l.map fun x => x / 1000)) ∧
    (∀ r, e.shape = .cylinder ∨ e.shape = .sphere ∨ e.shape = .capsule → e.radiusMm = some r → (outGeom e).radius = some (r / 1000)) ∧
    (∀ r, e.shape = .cylinder ∨ e.shape = .capsule → e.halfMm = some r → (outGeom e).half = some (r / 1000)) ∧
    (∀ l, e.posMm = some l → l ≠ [] → (outGeom e).pos = some (l.map fun x => x / 1000)) ∧
    (outGeom e).rgba = e.rgba := by
  have ht : (fun x : K => x / 1000) = toM := by
    funext x; unfold toM; rw [mul_one_div]
  refine ⟨?_, ?_, ?_, ?_, ?_, rfl⟩
  · unfold outGeom
    cases e.shape <;> rfl
  · intro l hs hl hne
    obtain ⟨x, l, rfl⟩ := List.exists_cons_of_ne_nil hne
    unfold outGeom
    rw [hs, ht]
    show (orList e.sizeMm e.size).map _ = _
    rw [hl]
    rfl
  · intro r hs hr
    have : r / 1000 = toM r := congrFun ht r
    rw [this]
    unfold outGeom
    rcases hs with hs | hs | hs <;> rw [hs]
    · show mmOr e.radiusMm e.radius = _; rw [hr]; rfl
    · show mmOr e.radiusMm e.radius = _; rw [hr]; rfl
    · show e.radiusMm.map toM = _; rw [hr]; rfl
  · intro r hs hr
    have : r / 1000 = toM r := congrFun ht r
    rw [this]
    unfold outGeom
    rcases hs with hs | hs <;> rw [hs]
    · show mmOr e.halfMm e.half = _; rw [hr]; rfl
    · show e.halfMm.map toM = _; rw [hr]; rfl
  · intro l hl hne
    obtain ⟨x, l, rfl⟩ := List.exists_cons_of_ne_nil hne
    have ha : e.anyMm = true := by unfold Entry.anyMm; rw [hl]; simp
    show (orList e.posMm e.pos).map (fun p => if e.anyMm then p.map toM else p) = _
    rw [hl, ha, ht]
    rfl

/-- C348: metres that are not taken for metres. A position in metres beside a radius in millimetres is divided by a thousand; so is the size of a box in metres, whose position is not; and a capsule in metres loses
its radius and its length -/
theorem C348_mixed (r x y z : K) :
    (outGeom { shape := .sphere, radiusMm := some r, pos := some [x, y, z] }).pos = some [toM x, toM y, toM z] ∧
    (outGeom { shape := .box, size := some [x, y, z], pos := some [x, y, z] }).size = some [toM x, toM y, toM z] ∧
    (outGeom { shape := .box, size := some [x, y, z], pos := some [x, y, z] }).pos = some [x, y, z] ∧
    (outGeom { shape := .capsule, radius := some x, half := some y }).radius = none ∧ (outGeom { shape := .capsule, radius := some x, half := some y }).half = none := by
  refine ⟨?_, ?_, ?_, rfl, rfl⟩ <;> simp [outGeom, orList, Entry.anyMm]

end

/-- a cylinder in millimetres -/
example : InMm ({ shape := .cylinder, radiusMm := some 15, halfMm := some 20, posMm := some [0, 0, 100] } : Entry ℚ) ∧
    (outGeom ({ shape := .cylinder, radiusMm := some 15, halfMm := some 20, posMm := some [0, 0, 100] } : Entry ℚ)).radius = some (3 / 200) := by
  refine ⟨⟨rfl, rfl, rfl, rfl⟩, ?_⟩
  norm_num [outGeom, mmOr, toM]

end Verif.Export
