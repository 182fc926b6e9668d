import Verif.Accept.Model
import Mathlib.Data.Rat.Defs
import Mathlib.Algebra.Order.Ring.Rat
import Mathlib.Tactic.NormNum

/-!
# Evaluation of acceptance criteria

`Meets` says in words of the plan what a criterion demands; everything is compared with it.
-/

namespace Verif.Accept
open Verif.Dict Verif.Metadata

set_option linter.unusedSectionVars false
variable {K : Type} [Field K] [LinearOrder K] [IsStrictOrderedRing K]

/-- what a criterion with comparison `c`, limit `l` and tolerance `t` demands of a number -/
def Meets (c : String) (x l t : K) : Prop :=
  (c = "<=" → x ≤ l) ∧ (c = "<" → x < l) ∧ (c = ">=" → l ≤ x) ∧ (c = ">" → l < x) ∧ (c = "==" ∨ c = "~=" → |x - l| ≤ t)

/-- the comparison of a criterion -/
def Rule.cmp (r : Rule K) : String := r.comparison.getD "<="
/-- the tolerance of a criterion -/
def Rule.tol (r : Rule K) : K := r.tolerance.getD 0

theorem failsNative_num (x l : K) (r : Rule K) : failsNative (.num x) l r = true ↔ ¬ Meets r.cmp x l r.tol := by
  unfold failsNative Meets Rule.cmp Rule.tol
  simp only
  generalize r.comparison.getD "<=" = c
  by_cases c1 : c = "<="
  · subst c1; simp [Fl.gt]
  by_cases c2 : c = "<"
  · subst c2; simp [Fl.ge]
  by_cases c3 : c = ">="
  · subst c3; simp [Fl.lt]
  by_cases c4 : c = ">"
  · subst c4; simp [Fl.le]
  by_cases c5 : c = "=="
  · subst c5; simp [Fl.far]
  by_cases c6 : c = "~="
  · subst c6; simp [Fl.far]
  · simp [c1, c2, c3, c4, c5, c6]

theorem failsNative_nan (l : K) (r : Rule K) : failsNative (.nan) l r = false := by
  unfold failsNative
  simp only [Fl.gt, Fl.ge, Fl.lt, Fl.le, Fl.far]
  split_ifs <;> rfl

/-- an evaluated criterion is violated: its metric was found, is a number, and is not what the criterion demands -/
def Violated (find : String → Option (Fl K)) (key : String) (r : Rule K) : Prop :=
  ∃ x l, find key = some (.num x) ∧ r.limit = some l ∧ ¬ Meets r.cmp x l r.tol

theorem loopNative_iff (ms : Metrics K) (acc : Acceptance K) :
    (loopNative ms acc = "failed" ↔ ∃ kr ∈ acc, Violated (findNative ms) kr.1 kr.2) ∧ (loopNative ms acc = "failed" ∨ loopNative ms acc = "passed") := by
  induction acc with
  | nil => simp [loopNative]
  | cons kr acc ih =>
    obtain ⟨k, r⟩ := kr
    rw [loopNative]
    have nov : (∀ v l, findNative ms k = some v → r.limit = some l → failsNative v l r = false) → ¬ Violated (findNative ms) k r := by
      rintro h ⟨x, l, h1, h2, h3⟩
      have := h _ _ h1 h2
      rw [(failsNative_num x l r).2 h3] at this
      exact absurd this (by simp)
    cases hf : findNative ms k with
    | none =>
      have : ¬ Violated (findNative ms) k r := nov (by intro v l h; rw [hf] at h; simp at h)
      simp only [List.mem_cons, exists_eq_or_imp, this, false_or]; exact ih
    | some v =>
      cases hl : r.limit with
      | none =>
        have : ¬ Violated (findNative ms) k r := nov (by intro v l _ h; rw [hl] at h; simp at h)
        simp only [List.mem_cons, exists_eq_or_imp, this, false_or]; exact ih
      | some l =>
        dsimp only
        by_cases hv : failsNative v l r = true
        · rw [if_pos hv]
          refine ⟨⟨fun _ => ?_, fun _ => rfl⟩, .inl rfl⟩
          cases v with
          | nan => rw [failsNative_nan] at hv; simp at hv
          | num x => exact ⟨_, List.mem_cons_self, x, l, hf, hl, (failsNative_num x l r).1 hv⟩
        · rw [if_neg hv]
          have : ¬ Violated (findNative ms) k r := nov (by
            intro v' l' h1 h2; rw [hf] at h1; rw [hl] at h2; simp at h1 h2; subst h1; subst h2; simpa using hv)
          simp only [List.mem_cons, exists_eq_or_imp, this, false_or]; exact ih

/-- C291: the native check says "failed" exactly if the metric of some criterion was found, is a number and is not what the criterion demands. -/
theorem C291_failed (ms : Metrics K) (acc : Acceptance K) :
    evalNative ms acc = "failed" ↔ ∃ kr ∈ acc, Violated (findNative ms) kr.1 kr.2 := by
  unfold evalNative
  split_ifs with h1 h2
  · subst h1; simp
  · subst h1; simp
  · exact (loopNative_iff ms acc).1

/-- C291: the outcome is one of three; "pending" only if there are neither criteria nor metrics. -/
theorem C291_status (ms : Metrics K) (acc : Acceptance K) :
    (evalNative ms acc = "failed" ∨ evalNative ms acc = "passed" ∨ evalNative ms acc = "pending") ∧
      (evalNative ms acc = "pending" ↔ acc = [] ∧ ms = []) := by
  unfold evalNative
  split_ifs with h1 h2
  · simp [h1, h2]
  · simp [h2]
  · rcases (loopNative_iff ms acc).2 with h | h <;> simp [h, h1]

/-- C291: the order of the criteria does not matter. -/
theorem C291_order (ms : Metrics K) (acc acc' : Acceptance K) (h : acc.Perm acc') : evalNative ms acc = evalNative ms acc' := by
  have e0 : acc = [] ↔ acc' = [] := by
    constructor
    · rintro rfl; simpa using h.symm
    · rintro rfl; simpa using h
  have e1 : evalNative ms acc = "failed" ↔ evalNative ms acc' = "failed" := by
    rw [C291_failed, C291_failed]
    exact ⟨fun ⟨kr, a, b⟩ => ⟨kr, h.mem_iff.1 a, b⟩, fun ⟨kr, a, b⟩ => ⟨kr, h.mem_iff.2 a, b⟩⟩
  have e2 : evalNative ms acc = "pending" ↔ evalNative ms acc' = "pending" := by
    rw [(C291_status ms acc).2, (C291_status ms acc').2, e0]
  rcases (C291_status ms acc).1 with a | a | a
  · rw [a, e1.1 a]
  · rcases (C291_status ms acc').1 with b | b | b
    · rw [e1.2 b] at a; exact absurd a (by decide)
    · rw [a, b]
    · rw [e2.2 b] at a; exact absurd a (by decide)
  · rw [a, e2.1 a]

/-- C292 (partial): if the native check says "passed" and every criterion's metric was found and is a number, every criterion with a limit is met.
Missing: criteria whose metric is absent or not a number count as met (`C292_missing_metric`, `C292_nan`). -/
theorem C292_passed_partial (ms : Metrics K) (acc : Acceptance K) (h : evalNative ms acc = "passed")
    (hf : ∀ kr ∈ acc, ∃ x, findNative ms kr.1 = some (.num x)) :
    ∀ kr ∈ acc, ∀ l, kr.2.limit = some l → ∃ x, findNative ms kr.1 = some (.num x) ∧ Meets kr.2.cmp x l kr.2.tol := by
  intro kr hkr l hl
  obtain ⟨x, hx⟩ := hf kr hkr
  refine ⟨x, hx, ?_⟩
  by_contra hm
  have := (C291_failed ms acc).2 ⟨kr, hkr, x, l, hx, hl, hm⟩
  rw [this] at h
  exact absurd h (by decide)

/-- C292 fails: a criterion on a metric that was not computed, whatever it demands, is passed. -/
theorem C292_missing_metric (key : String) (r : Rule K) (ms : Metrics K) (h : findNative ms key = none) :
    evalNative ms [(key, r)] = "passed" := by
  simp [evalNative, loopNative, h]

/-- C292 fails: a metric that is not a number passes every criterion, while the results written beside it say it did not pass. -/
theorem C292_nan (key : String) (l : K) :
    let r : Rule K := { limit := some l, comparison := some "<=", tolerance := none }
    evalNative [(key, .nan)] [(key, r)] = "passed" ∧ acceptanceResults [(key, .nan)] [(key, r)] = [(key, some false)] := by
  have hf : findNative [(key, Fl.nan (K := K))] key = some .nan := by simp [findNative, dget]
  have hr : findReport [(key, Fl.nan (K := K))] key = some .nan := by simp [findReport, dget]
  constructor
  · simp [evalNative, loopNative, hf, failsNative_nan]
  · simp [acceptanceResults, hr, passedOf, Fl.le]

/-! ## The reports of the native check -/

theorem failsListed_num (x l : K) (r : Rule K) : failsListed (.num x) l r = true ↔ r.cmp ∈ ["<=", "<", ">=", ">"] ∧ ¬ Meets r.cmp x l r.tol := by
  unfold failsListed Meets Rule.cmp Rule.tol
  simp only
  generalize r.comparison.getD "<=" = c
  by_cases c1 : c = "<="
  · subst c1; simp [Fl.gt]
  by_cases c2 : c = "<"
  · subst c2; simp [Fl.ge]
  by_cases c3 : c = ">="
  · subst c3; simp [Fl.lt]
  by_cases c4 : c = ">"
  · subst c4; simp [Fl.le]
  · simp [c1, c2, c3, c4]

theorem failsListed_nan (l : K) (r : Rule K) : failsListed (.nan) l r = false := by
  unfold failsListed
  simp only [Fl.gt, Fl.ge, Fl.lt, Fl.le]
  split_ifs <;> rfl

/-- C293 (partial): the list of failed criteria contains only criteria that are violated, and contains every violated criterion whose comparison is one of `<=`, `<`, `>=`, `>` and
whose metric is found without turning underscores into dots. Missing: `==` and `~=`, and the third way of finding a metric (`C293_equality`, `C293_underscore`). -/
theorem C293_failed_criteria_partial (ms : Metrics K) (acc : Acceptance K) (key : String) :
    key ∈ failedCriteria ms acc ↔ ∃ r, (key, r) ∈ acc ∧ r.cmp ∈ ["<=", "<", ">=", ">"] ∧ Violated (findReport ms) key r := by
  unfold failedCriteria
  rw [List.mem_filterMap]
  constructor
  · rintro ⟨⟨k, r⟩, hkr, h⟩
    dsimp only at h
    cases hf : findReport ms k with
    | none => rw [hf] at h; simp at h
    | some v =>
      cases hl : r.limit with
      | none => rw [hf, hl] at h; simp at h
      | some l =>
        rw [hf, hl] at h
        dsimp only at h
        split_ifs at h with hv
        · simp only [Option.some.injEq] at h
          subst h
          cases v with
          | nan => rw [failsListed_nan] at hv; simp at hv
          | num x =>
            obtain ⟨h1, h2⟩ := (failsListed_num x l r).1 hv
            exact ⟨r, hkr, h1, x, l, hf, hl, h2⟩
  · rintro ⟨r, hkr, h1, x, l, hf, hl, h2⟩
    refine ⟨(key, r), hkr, ?_⟩
    dsimp only
    rw [hf, hl]
    dsimp only
    rw [if_pos ((failsListed_num x l r).2 ⟨h1, h2⟩)]

/-- what the reports find the evaluation finds -/
theorem findReport_native (ms : Metrics K) (key : String) (v : Fl K) (h : findReport ms key = some v) : findNative ms key = some v := by
  unfold findReport at h
  unfold findNative
  rw [h]; rfl

/-- C293: a check with a failed criterion in its list has failed. -/
theorem C293_listed_failed (ms : Metrics K) (acc : Acceptance K) (h : failedCriteria ms acc ≠ []) : evalNative ms acc = "failed" := by
  obtain ⟨key, hk⟩ := List.exists_mem_of_ne_nil _ h
  obtain ⟨r, hkr, -, x, l, hf, hl, hm⟩ := (C293_failed_criteria_partial ms acc key).1 hk
  exact (C291_failed ms acc).2 ⟨(key, r), hkr, x, l, findReport_native ms key _ hf, hl, hm⟩

/-- C293 fails: a check that failed at an equality has no failed criterion. -/
theorem C293_equality (key : String) (x l t : K) (c : String) (hc : c = "==" ∨ c = "~=") (ht : t < |x - l|) :
    let r : Rule K := { limit := some l, comparison := some c, tolerance := some t }
    evalNative [(key, .num x)] [(key, r)] = "failed" ∧ failedCriteria [(key, .num x)] [(key, r)] = [] := by
  have hf : findNative [(key, Fl.num x)] key = some (.num x) := by simp [findNative, dget]
  have hr : findReport [(key, Fl.num x)] key = some (.num x) := by simp [findReport, dget]
  rcases hc with rfl | rfl
  · exact ⟨by simp [evalNative, loopNative, hf, failsNative, Fl.far, ht], by simp [failedCriteria, hr, failsListed]⟩
  · exact ⟨by simp [evalNative, loopNative, hf, failsNative, Fl.far, ht], by simp [failedCriteria, hr, failsListed]⟩

set_option maxRecDepth 100000 in
/-- C293 fails: a criterion on `bbox_x` fails at the metric `bbox.x`, but is not in the list, and its result has no value and neither passed nor failed. -/
theorem C293_underscore :
    let r : Rule ℚ := { limit := some 1, comparison := none, tolerance := none }
    evalNative [("bbox.x", .num 2)] [("bbox_x", r)] = "failed" ∧ failedCriteria [("bbox.x", .num 2)] [("bbox_x", r)] = [] ∧
      acceptanceResults [("bbox.x", .num 2)] [("bbox_x", r)] = [("bbox_x", none)] := by
  decide +kernel

theorem passedOf_num (x l : K) (r : Rule K) : passedOf (.num x) l r = some false ↔ ¬ Meets r.cmp x l r.tol := by
  unfold passedOf Meets Rule.cmp Rule.tol
  simp only
  generalize r.comparison.getD "<=" = c
  by_cases c1 : c = "<="
  · subst c1; simp [Fl.le]
  by_cases c2 : c = "<"
  · subst c2; simp [Fl.lt]
  by_cases c3 : c = ">="
  · subst c3; simp [Fl.ge]
  by_cases c4 : c = ">"
  · subst c4; simp [Fl.gt]
  by_cases c5 : c = "=="
  · subst c5; simp [Fl.near]
  by_cases c6 : c = "~="
  · subst c6; simp [Fl.near]
  · simp [c1, c2, c3, c4, c5, c6]

/-- C293: for metrics that are numbers, the result of a criterion says `passed = False` exactly if the metric found for the report is not what the criterion demands; and then the check failed. -/
theorem C293_results (ms : Metrics K) (acc : Acceptance K) (hn : ∀ kr ∈ acc, findReport ms kr.1 ≠ some .nan) (key : String) :
    ((key, some false) ∈ acceptanceResults ms acc ↔ ∃ r, (key, r) ∈ acc ∧ Violated (findReport ms) key r) ∧
    ((key, some false) ∈ acceptanceResults ms acc → evalNative ms acc = "failed") := by
  have main : (key, some false) ∈ acceptanceResults ms acc ↔ ∃ r, (key, r) ∈ acc ∧ Violated (findReport ms) key r := by
    unfold acceptanceResults
    rw [List.mem_map]
    constructor
    · rintro ⟨⟨k, r⟩, hkr, h⟩
      simp only [Prod.mk.injEq] at h
      obtain ⟨rfl, h⟩ := h
      cases hf : findReport ms k with
      | none => rw [hf] at h; simp at h
      | some v =>
        cases hl : r.limit with
        | none => rw [hf, hl] at h; simp at h
        | some l =>
          rw [hf, hl] at h
          cases v with
          | nan => exact absurd hf (hn _ hkr)
          | num x => exact ⟨r, hkr, x, l, hf, hl, (passedOf_num x l r).1 h⟩
    · rintro ⟨r, hkr, x, l, hf, hl, hm⟩
      refine ⟨(key, r), hkr, ?_⟩
      simp only [Prod.mk.injEq, true_and]
      rw [hf, hl]
      exact (passedOf_num x l r).2 hm
  refine ⟨main, fun h => ?_⟩
  obtain ⟨r, hkr, x, l, hf, hl, hm⟩ := main.1 h
  exact (C291_failed ms acc).2 ⟨(key, r), hkr, x, l, findReport_native ms key _ hf, hl, hm⟩

/-! ## The solvers' evaluations -/

/-- the limit the solvers use -/
def Rule.lim (r : Rule K) : Option K := r.limit.or r.limitMm

/-- an inequality of a criterion is not met; a metric that is not a number counts as not met for CalculiX -/
def ViolatedC (find : String → Option (Fl K)) (key : String) (r : Rule K) : Prop :=
  ∃ v l, find key = some v ∧ r.lim = some l ∧ r.cmp ∈ ["<=", "<", ">=", ">"] ∧ ∀ x, v = .num x → ¬ Meets r.cmp x l r.tol

theorem failsCalculix_iff (v : Fl K) (l : K) (r : Rule K) :
    failsCalculix v l r = true ↔ r.cmp ∈ ["<=", "<", ">=", ">"] ∧ ∀ x, v = .num x → ¬ Meets r.cmp x l r.tol := by
  unfold failsCalculix Meets Rule.cmp Rule.tol
  simp only
  generalize r.comparison.getD "<=" = c
  by_cases c1 : c = "<="
  · subst c1; cases v <;> simp [Fl.le]
  by_cases c2 : c = "<"
  · subst c2; cases v <;> simp [Fl.lt]
  by_cases c3 : c = ">="
  · subst c3; cases v <;> simp [Fl.ge]
  by_cases c4 : c = ">"
  · subst c4; cases v <;> simp [Fl.gt]
  · simp [c1, c2, c3, c4]

open Classical in
theorem loopCalculix_iff (ms : Metrics K) (acc : Acceptance K) : ∀ status, status = "passed" ∨ status = "pending" →
    loopCalculix ms status acc =
      if ∃ kr ∈ acc, ViolatedC (findCalculix ms) kr.1 kr.2 then "failed"
      else if ∃ kr ∈ acc, findCalculix ms kr.1 = none then "pending" else status := by
  induction acc with
  | nil => intro s _; simp [loopCalculix]
  | cons kr acc ih =>
    obtain ⟨k, r⟩ := kr
    intro s hs
    rw [loopCalculix]
    simp only [List.mem_cons, exists_eq_or_imp]
    cases hf : findCalculix ms k with
    | none =>
      have nv : ¬ ViolatedC (findCalculix ms) k r := by rintro ⟨v, l, h, -⟩; rw [hf] at h; simp at h
      simp only [nv, false_or, true_or, if_true]
      rw [ih "pending" (.inr rfl)]
      simp
    | some v =>
      simp only [reduceCtorEq, false_or]
      cases hl : r.limit.or r.limitMm with
      | none =>
        have nv : ¬ ViolatedC (findCalculix ms) k r := by rintro ⟨v, l, -, h, -⟩; rw [Rule.lim, hl] at h; simp at h
        simp only [nv, false_or]
        exact ih s hs
      | some l =>
        dsimp only
        by_cases hv : failsCalculix v l r = true
        · have hV : ViolatedC (findCalculix ms) k r := ⟨v, l, hf, hl, (failsCalculix_iff v l r).1 hv⟩
          rw [if_pos hv, if_pos (.inl hV)]
        · have nv : ¬ ViolatedC (findCalculix ms) k r := by
            rintro ⟨v', l', h1, h2, h3⟩
            rw [hf] at h1; rw [Rule.lim, hl] at h2
            simp only [Option.some.injEq] at h1 h2
            subst h1; subst h2
            exact hv ((failsCalculix_iff v l r).2 h3)
          rw [if_neg hv]
          simp only [nv, false_or]
          exact ih s hs

open Classical in
/-- C294: CalculiX's evaluation says "failed" if an inequality is not met (or its metric is not a number), otherwise "pending" if a metric is missing, otherwise "passed";
so the order of the criteria does not matter. Equalities are not looked at (`C294_equality_ignored`). -/
theorem C294_calculix (ms : Metrics K) (acc : Acceptance K) (h0 : acc ≠ []) :
    evalCalculix ms acc =
      if ∃ kr ∈ acc, ViolatedC (findCalculix ms) kr.1 kr.2 then "failed"
      else if ∃ kr ∈ acc, findCalculix ms kr.1 = none then "pending" else "passed" := by
  unfold evalCalculix
  rw [if_neg h0, loopCalculix_iff ms acc "passed" (.inl rfl)]

/-- C294: the order of the criteria does not matter to CalculiX's evaluation. -/
theorem C294_calculix_order (ms : Metrics K) (acc acc' : Acceptance K) (h : acc.Perm acc') : evalCalculix ms acc = evalCalculix ms acc' := by
  by_cases h0 : acc = []
  · subst h0; rw [List.nil_perm] at h; rw [h]
  · have h0' : acc' ≠ [] := by rintro rfl; exact h0 (by simpa using h)
    rw [C294_calculix ms acc h0, C294_calculix ms acc' h0']
    have m : ∀ Q : String × Rule K → Prop, (∃ kr ∈ acc, Q kr) ↔ (∃ kr ∈ acc', Q kr) := fun Q =>
      ⟨fun ⟨kr, a, b⟩ => ⟨kr, h.mem_iff.1 a, b⟩, fun ⟨kr, a, b⟩ => ⟨kr, h.mem_iff.2 a, b⟩⟩
    classical exact if_congr (m fun kr => ViolatedC (findCalculix ms) kr.1 kr.2) rfl (if_congr (m fun kr => findCalculix ms kr.1 = none) rfl rfl)

/-- C294 fails for FEniCS: whether a violated criterion fails the check depends on the order, because a missing metric ends the evaluation. -/
theorem C294_fenics_order (k k' : String) (x l : K) (r' : Rule K) (hx : l < x) (ms : Metrics K) (hk : dget ms k = some (.num x))
    (hk' : findFenics ms k' = none) :
    let r : Rule K := { limit := some l, comparison := none, tolerance := none }
    evalFenics ms [(k, r), (k', r')] = "failed" ∧ evalFenics ms [(k', r'), (k, r)] = "pending" := by
  have hf : findFenics ms k = some (.num x) := by simp [findFenics, hk]
  exact ⟨by simp [evalFenics, loopFenics, hf, failsListed, Fl.gt, hx], by simp [evalFenics, loopFenics, hk']⟩

/-- C294 (partial): FEniCS' evaluation of criteria whose metrics were all found and are numbers says "failed" exactly if an inequality is not met, and "passed" otherwise. -/
theorem C294_fenics_partial (ms : Metrics K) (acc : Acceptance K) (h0 : acc ≠ []) (hf : ∀ kr ∈ acc, ∃ x, findFenics ms kr.1 = some (.num x)) :
    (evalFenics ms acc = "failed" ↔ ∃ kr ∈ acc, ViolatedC (findFenics ms) kr.1 kr.2) ∧ (evalFenics ms acc = "failed" ∨ evalFenics ms acc = "passed") := by
  unfold evalFenics
  rw [if_neg h0]
  clear h0
  induction acc with
  | nil => simp [loopFenics]
  | cons kr acc ih =>
    obtain ⟨k, r⟩ := kr
    obtain ⟨x, hx⟩ := hf (k, r) (by simp)
    have ih' := ih (fun kr hkr => hf kr (List.mem_cons_of_mem _ hkr))
    dsimp only at hx
    rw [loopFenics, hx]
    simp only [List.mem_cons, exists_eq_or_imp]
    cases hl : r.limit.or r.limitMm with
    | none =>
      have nv : ¬ ViolatedC (findFenics ms) k r := by rintro ⟨v, l, -, h, -⟩; rw [Rule.lim, hl] at h; simp at h
      simp only [nv, false_or]; exact ih'
    | some l =>
      dsimp only
      by_cases hv : failsListed (.num x) l r = true
      · rw [if_pos hv]
        obtain ⟨a, b⟩ := (failsListed_num x l r).1 hv
        exact ⟨⟨fun _ => .inl ⟨.num x, l, hx, hl, a, by intro y hy; simp only [Fl.num.injEq] at hy; subst hy; exact b⟩, fun _ => rfl⟩, .inl rfl⟩
      · have nv : ¬ ViolatedC (findFenics ms) k r := by
          rintro ⟨v', l', h1, h2, h3, h4⟩
          rw [hx] at h1; rw [Rule.lim, hl] at h2
          simp only [Option.some.injEq] at h1 h2
          subst h1; subst h2
          exact hv ((failsListed_num x l r).2 ⟨h3, h4 x rfl⟩)
        rw [if_neg hv]
        simp only [nv, false_or]; exact ih'

/-- C294 fails: both solvers pass every criterion with `==` or `~=`, whatever the metric. -/
theorem C294_equality_ignored (key : String) (v : Fl K) (l t : K) (c : String) (hc : c = "==" ∨ c = "~=") :
    let r : Rule K := { limit := some l, comparison := some c, tolerance := some t }
    evalCalculix [(key, v)] [(key, r)] = "passed" ∧ evalFenics [(key, v)] [(key, r)] = "passed" := by
  have hf : findCalculix [(key, v)] key = some v := by simp [findCalculix, dget]
  have hr : findFenics [(key, v)] key = some v := by simp [findFenics, dget]
  rcases hc with rfl | rfl
  · exact ⟨by simp [evalCalculix, loopCalculix, hf, failsCalculix], by simp [evalFenics, loopFenics, hr, failsListed]⟩
  · exact ⟨by simp [evalCalculix, loopCalculix, hf, failsCalculix], by simp [evalFenics, loopFenics, hr, failsListed]⟩

/-- C294 fails: a stress that is not a number fails CalculiX's check and passes FEniCS'. -/
theorem C294_nan (key : String) (l : K) :
    let r : Rule K := { limit := some l, comparison := some "<=", tolerance := none }
    evalCalculix [(key, .nan)] [(key, r)] = "failed" ∧ evalFenics [(key, .nan)] [(key, r)] = "passed" := by
  have hf : findCalculix [(key, Fl.nan (K := K))] key = some .nan := by simp [findCalculix, dget]
  have hr : findFenics [(key, Fl.nan (K := K))] key = some .nan := by simp [findFenics, dget]
  exact ⟨by simp [evalCalculix, loopCalculix, hf, failsCalculix, Fl.le], by simp [evalFenics, loopFenics, hr, failsListed, Fl.gt]⟩

set_option maxRecDepth 100000 in
/-- the hypotheses are met: a plan with two criteria, one on `bbox.x` found as `bbox_x` -/
example :
    let acc : Acceptance ℚ := [("volume", { limit := some 10, comparison := some "~=", tolerance := some 1 }), ("bbox.x", { limit := some 3, comparison := none, tolerance := none })]
    evalNative [("volume", .num (21/2)), ("bbox_x", .num 3)] acc = "passed" ∧ evalNative [("volume", .num 12), ("bbox_x", .num 3)] acc = "failed" := by
  decide +kernel

end Verif.Accept
