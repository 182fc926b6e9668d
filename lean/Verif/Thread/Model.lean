import Mathlib.Algebra.Order.Floor.Ring
import Mathlib.Algebra.Order.Field.Basic
import Mathlib.Data.Finset.Sort
import Mathlib.Data.Int.Interval
import Mathlib.Tactic.Ring
import Mathlib.Tactic.Linarith

/-!
# Model of the thread profiles: `src/yapcad/threadgen.py`

Numbers are those of an ordered field with a floor; rounding is left out. Sets of numbers are finite sets.
-/

namespace Verif.Thread

variable {K : Type} [Field K] [LinearOrder K] [IsStrictOrderedRing K] [FloorRing K]

/-- `ThreadProfile`, threadgen.py:19-30. `left` is `handedness.lower() == "left"`; `thread_angle` is not used by the code. -/
structure Profile (K : Type) where
  diameter : K
  pitch : K
  crestRatio : K
  rootRatio : K
  depthRatio : K
  left : Bool
  starts : Int
  internal : Bool
  taper : K

/-- `epsilon`, geom.py -/
def epsilon : K := 5 / 1000000

/-- the tolerance of `_collect_breakpoints` -/
def tol : K := 1 / 1000000000

/-- `lead`, threadgen.py:32-33 -/
def Profile.lead (p : Profile K) : K := p.pitch * ((max 1 p.starts : Int) : K)

/-- `metric_profile`, threadgen.py:36-47 -/
def metric (d pitch : K) (starts : Int) (internal : Bool) : Profile K :=
  ⟨d, pitch, 1 / 8, if internal then 1 / 8 else 1 / 4, 57 / 100, false, starts, internal, 0⟩

/-- `unified_profile`, threadgen.py:50-63 -/
def unified (d tpi : K) (starts : Int) (internal : Bool) : Profile K :=
  let pitch := 254 / 10 / tpi
  ⟨d * (254 / 10), pitch, 1 / 8, if internal then 1 / 8 else 1 / 4, 64952 / 100000 * pitch, false, starts, internal, 0⟩

/-- half of the crest's flat, threadgen.py:164 and 192 -/
def Profile.crestHalf (p : Profile K) : K := max 0 (p.crestRatio * p.pitch / 2)

/-- half of the root's flat, threadgen.py:165 and 193 -/
def Profile.rootHalf (p : Profile K) : K := max 0 (p.rootRatio * p.pitch / 2)

/-- the length of a flank, threadgen.py:166 and 194 -/
def Profile.flank (p : Profile K) : K := max 0 ((p.pitch - 2 * p.crestHalf - 2 * p.rootHalf) / 2)

/-- `_pitch_breakpoints`, threadgen.py:162-174 -/
def Profile.breakpoints (p : Profile K) : List K :=
  [0, p.crestHalf, p.crestHalf + p.flank, p.crestHalf + p.flank + 2 * p.rootHalf, p.pitch - p.crestHalf, p.pitch]

/-- `_radius_at`, threadgen.py:177-211 -/
def Profile.radiusAt (p : Profile K) (actual effective : K) : K :=
  let loc := effective - (⌊effective / p.pitch⌋ : K) * p.pitch
  let major := (p.diameter + p.taper * actual) / 2
  let depth := p.depthRatio * p.pitch
  let root := if p.internal then major - depth else max (major - depth) 0
  let x1 := p.crestHalf
  let x2 := p.crestHalf + p.flank
  let x3 := x2 + 2 * p.rootHalf
  let x4 := p.pitch - p.crestHalf
  if loc ≤ x1 then major
  else if loc ≤ x2 then major + (loc - x1) / max p.flank epsilon * (root - major)
  else if loc ≤ x3 then root
  else if loc ≤ x4 then root + (loc - x3) / max p.flank epsilon * (major - root)
  else major

/-- the candidates of one pitch beginning at `base`: breakpoints and extra samples, threadgen.py:137-147 -/
def Profile.candidates (p : Profile K) (extra : Nat) (base : K) : List K :=
  p.breakpoints.map (base + ·) ++ (List.range (extra - 1)).map fun k => base + ((k + 1 : Nat) : K) / (extra : K) * p.pitch

/-- `max(1, samples_per_pitch)` -/
def extra (samples : Int) : Nat := (max 1 samples).toNat

/-- the set `xs`, threadgen.py:131-147 -/
def Profile.points (p : Profile K) (lo hi : K) (samples : Int) : Finset K :=
  {lo, hi} ∪ (Finset.Icc (⌊lo / p.pitch⌋ - 1) (⌈hi / p.pitch⌉ + 1)).biUnion fun i =>
    (((p.candidates (extra samples) ((i : K) * p.pitch)).toFinset).filter fun x => lo - tol ≤ x ∧ x ≤ hi + tol).image fun x => min (max x lo) hi

/-- `wrap`, threadgen.py:136, 148-157 -/
def Profile.wrap (p : Profile K) (samples : Int) : Int :=
  max 1 ((((p.candidates (extra samples) 0).toFinset ∪ {p.pitch}).card : Int) - 1) * p.starts

/-- exceptions -/
inductive Err
  | valueError
deriving DecidableEq

/-- how far a turn moves the thread, threadgen.py:82-84 -/
def Profile.offset (p : Profile K) (theta : K) : K := if p.left then -(theta / 360 * p.lead) else theta / 360 * p.lead

/-- one sample, threadgen.py:91-124: the position along the axis and the radius -/
def Profile.sampleAt (p : Profile K) (lo hi theta base : K) : K × K :=
  let shifted := base + p.offset theta
  let z := if shifted < lo then lo else if shifted > hi then hi else shifted
  let depth := p.depthRatio * p.pitch
  let tdepth := p.lead * (2 / 10)
  let major := (p.diameter + p.taper) / 2
  let radius := p.radiusAt z base
  (z,
    if z < lo + tdepth then
      let blend := (z - lo) / tdepth
      if p.internal then radius * blend + (1 - blend) * (major + depth) else radius * blend + (1 - blend) * (major - depth)
    else if z > hi - tdepth then
      let blend := (hi - z) / tdepth
      if p.internal then radius * blend + (1 - blend) * (major + depth) else radius * blend + (1 - blend) * major
    else radius)

/-- `sample_thread_profile`, threadgen.py:66-125 -/
def Profile.sample (p : Profile K) (lo hi theta : K) (samples : Int) : Except Err (List (K × K) × Int) :=
  if hi ≤ lo then .error .valueError
  else if p.pitch ≤ 0 then .error .valueError
  else .ok (((p.points (lo - p.lead) hi samples).sort (· ≤ ·)).map (p.sampleAt lo hi theta), p.wrap samples)

end Verif.Thread
