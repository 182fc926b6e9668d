import Verif.Assembly.Model

/-! # Specification for C17, C55-C57 -/

namespace Verif.Assembly
open Verif.Dict Verif.Xform

/-- which datum kinds a mate type accepts: concentric needs axes or circles on both sides, parallel and
perpendicular need axes or planes, tangent needs a plane or a circle on at least one side -/
def Compatible (t : MateType) (a b : DatumType) : Prop :=
  match t with
  | .concentric => (a = .axis ∨ a = .circle) ∧ (b = .axis ∨ b = .circle)
  | .parallel | .perpendicular => (a = .axis ∨ a = .plane) ∧ (b = .axis ∨ b = .plane)
  | .tangent => (a = .plane ∨ a = .circle) ∨ (b = .plane ∨ b = .circle)
  | _ => True

/-- `n` is a part of the assembly -/
def HasPart (s : State) (n : String) : Prop := ∃ r, (n, r) ∈ s.parts

/-- part `n` carries a datum called `dn`, namely `d` -/
def HasDatum (s : State) (n dn : String) (d : Datum) : Prop := s.datum n dn = some d

/-- Referential integrity of an assembly. -/
structure Integrity (s : State) : Prop where
  mates : ∀ m ∈ s.mates, ∃ d1 d2, HasDatum s m.partA m.datumA d1 ∧ HasDatum s m.partB m.datumB d2 ∧
    Compatible m.mtype d1.dtype d2.dtype
  constraints : ∀ c ∈ s.constraints, ∃ d, HasDatum s c.part c.datum d
  loads : ∀ e ∈ s.loadCases, e.2.id = e.1 ∧ (e.2.attachPart = "_assembly" ∨ HasPart s e.2.attachPart)
  bolts : ∀ e ∈ s.boltPatterns, HasPart s e.1.1 ∧ HasPart s e.1.2
  uniqParts : (s.parts.map (·.1)).Nodup
  uniqLoads : (s.loadCases.map (·.1)).Nodup
  uniqBolts : (s.boltPatterns.map (·.1)).Nodup

/-- what each call requires in order to be accepted -/
def Acceptable (s : State) : Op → Prop
  | .addDatum r d => ∀ d', (d.name, d') ∉ (s.defs r).datums
  | .addPart r name tr => ¬ HasPart s (name.getD (s.defs r).name) ∧ ∀ A, tr ≠ some (.matrix A)
  | .addMate m => ∃ d1 d2, HasDatum s m.partA m.datumA d1 ∧ HasDatum s m.partB m.datumB d2 ∧
      Compatible m.mtype d1.dtype d2.dtype
  | .addConstraint c => ∃ d, HasDatum s c.part c.datum d
  | .addLoadCase lc => (lc.attachPart = "_assembly" ∨ HasPart s lc.attachPart) ∧
      ∀ x, (lc.id, x) ∉ s.loadCases
  | .addBoltPattern p c _ => HasPart s p ∧ HasPart s c ∧ ∀ x, ((p, c), x) ∉ s.boltPatterns
  | .importTransforms data => ∃ l, data = some l ∧
      ∀ e ∈ l, HasPart s e.1 → ∃ t a, e.2 = some t ∧ t.parse = .ok a

/-- the constraint's verdict on its datum, where the assembly finds it in world coordinates -/
noncomputable def verdict (s : State) (c : Constraint) : Bool :=
  match s.transformedDatum c.part c.datum with
  | .ok d => (c.evaluate d).passed
  | .error _ => false

end Verif.Assembly
