import Verif.Assembly.Mate
import Mathlib.Algebra.Order.Field.Basic
import Mathlib.Tactic.Linarith

/-! # C59-C61: limits, serialisation and coupled motion of mates -/

namespace Verif.Assembly
set_option linter.unusedSectionVars false
open Verif.Dict

section
variable {K : Type} [Field K] [LinearOrder K] [IsStrictOrderedRing K]

/-- Specification: `x` respects an optional lower and upper bound -/
def Within (lo hi : Option K) (x : K) : Prop := (∀ l, lo = some l → l ≤ x) ∧ (∀ h, hi = some h → x ≤ h)

theorem limCheck_fields (r : MateEval K) (b : Bool) (t : String) :
    (limCheck r b t).satisfied = r.satisfied ∧ (limCheck r b t).error = r.error ∧
    ((limCheck r b t).violations = [] ↔ r.violations = [] ∧ b = false) := by
  unfold limCheck; cases b <;> simp

theorem below_false (lo : Option K) (x : K) : below lo x = false ↔ ∀ l, lo = some l → l ≤ x := by
  cases lo <;> simp [below]

theorem above_false (hi : Option K) (x : K) : above hi x = false ↔ ∀ h, hi = some h → x ≤ h := by
  cases hi <;> simp [above]

theorem posCheck_spec (L : MateLimits K) (n : Int) (b : Bool) (pos : Option K) :
    ((posCheck L ⟨n, 0, true, [], b⟩ pos).satisfied = true ↔
      ∀ p, pos = some p → Within L.minValue L.maxValue p) ∧
    ((posCheck L ⟨n, 0, true, [], b⟩ pos).violations = [] ↔
      ∀ p, pos = some p → Within L.minValue L.maxValue p) := by
  cases pos with
  | none => simp [posCheck]
  | some p =>
    unfold posCheck
    cases h1 : L.minValue with
    | none =>
      cases h2 : L.maxValue with
      | none => simp [Within]
      | some hi =>
        by_cases c2 : hi < p
        · simp [Within, c2]
        · simp [Within, c2, not_lt.mp c2]
    | some lo =>
      cases h2 : L.maxValue with
      | none =>
        by_cases c1 : p < lo
        · simp [Within, c1]
        · simp [Within, c1, not_lt.mp c1]
      | some hi =>
        by_cases c1 : p < lo <;> by_cases c2 : hi < p
        · simp [Within, c1, c2]
        · simp [Within, c1, c2]
        · simp [Within, c1, c2]
        · simp [Within, c1, c2, not_lt.mp c1, not_lt.mp c2]

/-- C59: a mate is reported satisfied exactly when it has no limits, no position was given, or the
position respects the position limits; the violation list is empty exactly when position, velocity and
effort all respect their limits (the upper velocity/effort limits bound the absolute value). -/
theorem C59_evaluate (m : Mate K) (pos vel eff : Option K) :
    ((m.evaluate pos vel eff).satisfied = true ↔
      ∀ L, m.limits = some L → ∀ p, pos = some p → Within L.minValue L.maxValue p) ∧
    ((m.evaluate pos vel eff).violations = [] ↔
      ∀ L, m.limits = some L →
        (∀ p, pos = some p → Within L.minValue L.maxValue p) ∧
        (∀ v, vel = some v → Within L.minVelocity none v ∧ Within none L.maxVelocity |v|) ∧
        (∀ e, eff = some e → Within L.minEffort none e ∧ Within none L.maxEffort |e|)) := by
  unfold Mate.evaluate
  cases hl : m.limits with
  | none => simp
  | some L =>
    set r0 : MateEval K := ⟨m.mtype.dof, 0, true, [], m.dynamics.isSome⟩ with hr0
    obtain ⟨k1, k2⟩ := posCheck_spec L m.mtype.dof m.dynamics.isSome pos
    rw [← hr0] at k1 k2
    simp only
    generalize posCheck L r0 pos = r1 at *
    have hv : ∀ r : MateEval K, ∀ x : K, ∀ lo hi : Option K, ∀ t1 t2 : String,
        (limCheck (limCheck r (below lo x) t1) (above hi |x|) t2).satisfied = r.satisfied ∧
        ((limCheck (limCheck r (below lo x) t1) (above hi |x|) t2).violations = [] ↔
          r.violations = [] ∧ Within lo none x ∧ Within none hi |x|) := by
      intro r x lo hi t1 t2
      obtain ⟨a1, _, a3⟩ := limCheck_fields (limCheck r (below lo x) t1) (above hi |x|) t2
      obtain ⟨b1, _, b3⟩ := limCheck_fields r (below lo x) t1
      rw [a1, b1, a3, b3, below_false, above_false]
      simp [Within, and_assoc]
    cases vel with
    | none =>
      cases eff with
      | none => simp [k1, k2]
      | some e =>
        obtain ⟨s, t⟩ := hv r1 e L.minEffort L.maxEffort "min_effort" "max_effort"
        simp [s, t, k1, k2]
    | some v =>
      obtain ⟨s, t⟩ := hv r1 v L.minVelocity L.maxVelocity "min_velocity" "max_velocity"
      cases eff with
      | none => simp [s, t, k1, k2]
      | some e =>
        obtain ⟨s', t'⟩ := hv (limCheck (limCheck r1 (below L.minVelocity v) "min_velocity")
          (above L.maxVelocity |v|) "max_velocity") e L.minEffort L.maxEffort "min_effort" "max_effort"
        simp [s, t, s', t', k1, k2, and_assoc]

/-- C59: with consistent limits the reported error is the distance from the position to the allowed
interval: zero inside, and the gap to the violated bound outside. -/
theorem C59_error_is_distance (m : Mate K) (L : MateLimits K) (hL : m.limits = some L) (lo hi p : K)
    (h1 : L.minValue = some lo) (h2 : L.maxValue = some hi) (hle : lo ≤ hi) (vel eff : Option K) :
    (m.evaluate (some p) vel eff).error = max 0 (max (lo - p) (p - hi)) := by
  have hv : ∀ r : MateEval K, ∀ b c : Bool, ∀ t1 t2 : String,
      (limCheck (limCheck r b t1) c t2).error = r.error := by
    intro r b c t1 t2
    rw [(limCheck_fields _ c t2).2.1, (limCheck_fields _ b t1).2.1]
  have : (m.evaluate (some p) vel eff).error =
      (if hi < p then (if p < lo then |lo - p| else 0) + |p - hi| else if p < lo then |lo - p| else 0) := by
    unfold Mate.evaluate posCheck
    simp only [hL, h1, h2]
    cases vel <;> cases eff <;> simp only [hv] <;> split_ifs <;> simp
  rw [this]
  by_cases c1 : p < lo
  · have c2 : ¬ hi < p := not_lt.mpr (le_trans (le_of_lt c1) hle)
    rw [if_neg c2, if_pos c1, abs_of_pos (by linarith), max_eq_right (a := (0:K)), max_eq_left] <;>
      [linarith; skip]
    exact le_max_of_le_left (by linarith)
  · have c1' := not_lt.mp c1
    by_cases c2 : hi < p
    · rw [if_pos c2, if_neg c1, abs_of_pos (by linarith), max_eq_right (a := (0:K)), max_eq_right] <;>
        [simp; linarith; skip]
      exact le_max_of_le_right (by linarith)
    · have c2' := not_lt.mp c2
      rw [if_neg c2, if_neg c1, max_eq_left]
      exact max_le (by linarith) (by linarith)

/-- C59: a velocity or effort violation alone is listed but never clears `satisfied`. -/
theorem C59_velocity_never_unsatisfies (m : Mate K) (vel eff : Option K) :
    (m.evaluate none vel eff).satisfied = true := by
  rw [(C59_evaluate m none vel eff).1]; simp

/-- C61 (partial: mates without a screw pitch): the driven position is the affine image of the driver,
negated when the coupling is reversed; uncoupled mate types are refused. -/
theorem C61_coupled_motion_partial (pi : K) (m : Mate K) (x : K) :
    ((m.mtype ∉ [MateType.gear, .rackPinion, .cam, .screw]) ↔ m.coupledMotion pi x = none) ∧
    (m.mtype ∈ [MateType.gear, .rackPinion, .cam, .screw] →
      (m.mtype ≠ .screw ∨ m.couplingPitch = none) →
      m.coupledMotion pi x = some ((if m.couplingReverse then -1 else 1) *
        (m.couplingRatio * x + m.couplingOffset))) := by
  unfold Mate.coupledMotion MateType.isCoupled
  refine ⟨?_, ?_⟩
  · by_cases h : m.mtype ∈ [MateType.gear, .rackPinion, .cam, .screw]
    · simp only [h, not_true, decide_true, if_false, false_iff]
      split_ifs <;> cases m.couplingPitch <;> simp
    · simp [h]
  · intro h hs
    simp only [h, decide_true, not_true, if_false]
    have e : x * m.couplingRatio + m.couplingOffset = m.couplingRatio * x + m.couplingOffset := by ring
    by_cases h' : m.mtype = .screw
    · have hp : m.couplingPitch = none := by
        rcases hs with hs | hs
        · exact absurd h' hs
        · exact hs
      simp only [h', if_true, hp, e]
      split_ifs <;> simp
    · simp only [h', if_false, e]
      split_ifs <;> simp

/-- C61 fails for screws with a pitch: reversing the coupling, or giving it an offset, changes
nothing. -/
theorem C61_screw_ignores_reverse_and_offset (pi : K) (m : Mate K) (hs : m.mtype = .screw) (p : K)
    (hp : m.couplingPitch = some p) (b b' : Bool) (o o' : K) (x : K) :
    ({ m with couplingReverse := b, couplingOffset := o }).coupledMotion pi x =
      ({ m with couplingReverse := b', couplingOffset := o' }).coupledMotion pi x := by
  simp [Mate.coupledMotion, hs, hp]

/-- the documented range 0..6 of `degrees_of_freedom` holds for every type that is not a coupling
other than SCREW, and fails (−1) for GEAR, RACK_PINION and CAM -/
theorem C61_mate_dof (t : MateType) :
    (t ∉ [MateType.gear, .rackPinion, .cam] → 0 ≤ t.dof ∧ t.dof ≤ 6) ∧
    (t ∈ [MateType.gear, .rackPinion, .cam] → t.dof = -1) := by
  cases t <;> simp [MateType.dof]
end

section
variable {K : Type} [DecidableEq K] [Field K]

theorem ofValue_value (t : MateType) : MateType.ofValue t.value = some t := by
  cases t <;> decide

theorem asNums_map (l : List K) : asNums (l.map .num) = some l := by
  induction l with
  | nil => rfl
  | cons x l ih => simp [asNums, ih]

theorem asOptNum_optVal (o : Option K) : asOptNum (some (optVal o)) = some o := by
  cases o <;> rfl

theorem limits_round (L : MateLimits K) : limitsOfDict (limitsDict L) = some L := by
  have hk : keys (limitsDict L) ⊆ ["min_value", "max_value", "min_velocity", "max_velocity", "min_effort",
      "max_effort", "min_secondary", "max_secondary", "limit_stiffness", "limit_damping", "restitution"] := by
    simp [keys, limitsDict]
  unfold limitsOfDict
  rw [if_pos hk]
  simp [limitsDict, dget, asOptNum_optVal, asNumD]

theorem dynamics_round (D : MateDynamics K) : dynamicsOfDict (dynamicsDict D) = some D := by
  have hk : keys (dynamicsDict D) ⊆ ["friction_static", "friction_kinetic", "friction_viscous", "damping",
      "stiffness", "rest_position"] := by
    simp [keys, dynamicsDict]
  unfold dynamicsOfDict
  rw [if_pos hk]
  simp [dynamicsDict, dget, asNumD]

/-- C60: serialising any mate and reading it back gives the same mate. -/
theorem C60_mate_round_trip (m : Mate K) : Mate.fromDict m.toDict = some m := by
  obtain ⟨name, mtype, pA, dA, pB, dB, off, ang, ax, sax, lim, dyn, cr, co, crev, cp, mdata⟩ := m
  cases lim <;> cases dyn <;>
    simp [Mate.fromDict, Mate.toDict, dget, asStr, ofValue_value, asNumD, asNumsD, asNums_map, asBoolD,
      asOptNum_optVal, asDictD, limits_round, dynamics_round, Val.truthy] <;>
    simp [limitsDict, dynamicsDict]
end

/-- a concrete mate used as a witness -/
def exMate : Mate ℚ :=
  { name := "g", mtype := .revolute, partA := "a", datumA := "x", partB := "b", datumB := "y", offset := 0,
    angle := 0, axis := [0, 0, 1, 0], secondaryAxis := [1, 0, 0, 0],
    limits := some ⟨some (-2), some 5, none, some 3, none, none, none, none, 1000000, 1000, 0⟩,
    dynamics := none, couplingRatio := 1, couplingOffset := 0, couplingReverse := false,
    couplingPitch := none, metadata := [] }

example : ((exMate.evaluate (some 7) (some (-4)) none).satisfied,
      (exMate.evaluate (some 7) (some (-4)) none).error,
      (exMate.evaluate (some 7) (some (-4)) none).violations) =
    (false, 2, ["max_value", "max_velocity"]) := by decide +kernel

example : (({ exMate with mtype := .screw, couplingPitch := some 2 }).coupledMotion 3 6,
    ({ exMate with mtype := .gear, couplingRatio := 3, couplingReverse := true }).coupledMotion 3 6,
    exMate.coupledMotion 3 6) = (some 2, some (-18), none) := by decide +kernel


section
/-- C61: the documented table of degrees of freedom (mate.py:474-482). -/
theorem C61_mate_dof_table (t : MateType) :
    (t.dof = 0 ↔ t = .rigid) ∧
    (t.dof = 1 ↔ t ∈ [MateType.revolute, .prismatic, .screw]) ∧
    (t.dof = 2 ↔ t ∈ [MateType.cylindrical, .pinSlot, .universal, .concentric]) ∧
    (t.dof = 3 ↔ t ∈ [MateType.spherical, .planar, .coincident]) ∧
    (t.dof = 4 ↔ t ∈ [MateType.parallel, .slot]) ∧
    (t.dof = 5 ↔ t ∈ [MateType.perpendicular, .tangent, .distance, .angle]) ∧
    (t.dof = -1 ↔ t ∈ [MateType.gear, .rackPinion, .cam]) := by
  cases t <;> simp [MateType.dof]
end

end Verif.Assembly
