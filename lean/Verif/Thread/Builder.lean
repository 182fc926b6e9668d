import Verif.Thread.Model

/-!
# Model of bolts and nuts from a catalog: `src/yapcad/fasteners/builders.py` and the checks of `src/yapcad/fasteners_legacy.py`

What the catalog says is given: see `Verif.Catalog`. The solids are not modelled, only the profile of the thread and the specification they are built from.
-/

namespace Verif.Thread

variable {K : Type} [Field K] [LinearOrder K] [IsStrictOrderedRing K] [FloorRing K]

/-- the numbers of a size and a tolerance class: `nominal_diameter`, `pitch`, and `es` and `EI` of `tolerances` (the others are read, but not used), builders.py:34-36, 45, 68 -/
structure ThreadData (K : Type) where
  diameter : K
  pitch : K
  es : Option K
  ei : Option K

/-- `_make_profile_from_catalog`, builders.py:24-89 -/
def fromCatalog (t : ThreadData K) (internal left : Bool) (starts : Int) : Profile K :=
  if internal then ⟨t.diameter + t.ei.getD 0, t.pitch, 1 / 8, 1 / 8, 57 / 100, left, starts, true, 0⟩
  else ⟨t.diameter + t.es.getD 0, t.pitch, 1 / 8, 1 / 4, 57 / 100, left, starts, false, 0⟩

/-- `_default_thread_length`, builders.py:92-109 -/
def defaultLength (shank d : K) : K :=
  let tl := if shank ≤ 125 then 2 * d + 6 else if shank ≤ 200 then 2 * d + 12 else 2 * d + 25
  min tl shank

/-- `HexCapScrewSpec`, fasteners_legacy.py:45-59, without the washer's diameter and the starts -/
structure Spec (K : Type) where
  diameter : K
  threadLength : K
  shankLength : K
  headHeight : K
  headFlat : K
  washer : K
  arcSamples : Int
  pitchSamples : Int

/-- the numbers of a head: `head_height`, `width_across_flats`, `washer_face_thickness`, builders.py:169-171 -/
structure HeadData (K : Type) where
  height : K
  flat : K
  washer : Option K

/-- the specification made by `build_hex_bolt_from_catalog`, builders.py:159-178 -/
def boltSpec (t : ThreadData K) (h : HeadData K) (length : K) (threadLength : Option K) (arc samples : Int) : Spec K :=
  let tl := threadLength.getD (defaultLength length t.diameter)
  ⟨t.diameter, min (max tl epsilon) length, length, h.height, h.flat, h.washer.getD (1 / 2), arc, samples⟩

/-- `_validate_spec`, fasteners_legacy.py:414-428 -/
def validateSpec (s : Spec K) : Except Err Unit :=
  if s.diameter ≤ epsilon then .error .valueError
  else if s.threadLength ≤ epsilon then .error .valueError
  else if s.threadLength - s.shankLength > epsilon then .error .valueError
  else if s.headHeight ≤ epsilon then .error .valueError
  else if s.headFlat ≤ s.diameter then .error .valueError
  else if s.arcSamples < 12 then .error .valueError
  else if s.pitchSamples < 1 then .error .valueError
  else .ok ()

/-- the heights of the parts of a bolt above the thread's end: shank without thread, washer, fasteners_legacy.py:84-90; a part below epsilon is left out -/
def Spec.unthreaded (s : Spec K) : Option K :=
  let u := max (s.shankLength - s.threadLength) 0
  if u > epsilon then some u else none

end Verif.Thread
