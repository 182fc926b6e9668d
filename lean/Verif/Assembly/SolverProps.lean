import Verif.Assembly.FaceMateProps
import Verif.Base.Dict

/-! C18, C19, C62, C63, C64, C66, C67: the mate constraint solver. -/

namespace Verif.Assembly
open Verif.Kin (Rigid)
open Verif.Kin.Transform (identity compose transformPoint transformVector)
open Verif.Dict

/-! ### C19 through the solver -/

/-- C19: a coincident or rigid mate, solved for a parent placed at any rigid pose `W`: the child pose is a
proper rigid motion, takes the child datum's origin exactly where the parent datum's origin is in the
world, and turns the child normal against the parent normal (exactly outside the 1e-10 window, and always
to within 1.5e-10). -/
theorem C19_solve_coincident (reg : Reg) (m : Mate ℝ) (hm : m.mtype = .coincident ∨ m.mtype = .rigid)
    (A B : Datum) (hA : reg m.partA m.datumA = some A) (hB : reg m.partB m.datumB = some B)
    (n k : V3) (hn : flushNormal A = .ok n) (hk : flushNormal B = .ok k) (hn0 : n ≠ 0) (hk0 : k ≠ 0)
    (W : M4) (hW : ProperRigid W) :
    ∃ T, solveFresh reg m (some W) "Z" = { success := true, transform := some (some T) } ∧
      ProperRigid T ∧
      transformPoint T (first3 B.origin) = transformPoint W (first3 A.origin) ∧
      norm3 (transformVector T (hat k) + transformVector W (hat n)) < 1.5e-10 ∧
      (norm3 (cross3 (hat k) (hat n)) ≥ 1e-10 ∨ cross3 (hat k) (hat n) = 0 →
        transformVector T (hat k) = - transformVector W (hat n)) := by
  obtain ⟨T, hT, hp, ho, he, hx⟩ := C19_flush (first3 A.origin) (first3 B.origin) n k hn0 hk0 0 0 true
  have hsc : solveConstraint m A B = .ok (some T) := by
    have : flush A B 0 0 true = .ok (some T) := by
      unfold flush
      rw [hn, hk]
      change Except.ok (flushVec _ _ _ _ _ _ _) = _
      rw [hT]
    unfold solveConstraint
    rcases hm with h | h <;> rw [h] <;> exact this
  have hWv (v : V3) : norm3 (transformVector W v) = norm3 v := by
    have hv : transformVector W v = (rotOf W).mulVec v := by
      ext i; rw [mulVec_three]
      fin_cases i <;> simp [transformVector, Verif.Kin.Transform.act, Verif.Kin.Transform.hom, rotOf,
        Fin.sum_univ_four]
    rw [hv]
    exact norm_rot ⟨((rigid_iff W).1 hW.1).2, hW.2⟩ v
  have hWl (u v : V3) : transformVector W (u + v) = transformVector W u + transformVector W v := by
    ext i
    fin_cases i <;> simp [transformVector, Verif.Kin.Transform.act, Verif.Kin.Transform.hom,
        Fin.sum_univ_four] <;> ring
  have hWn (u : V3) : transformVector W (-u) = - transformVector W u := by
    ext i
    fin_cases i <;> simp [transformVector, Verif.Kin.Transform.act, Verif.Kin.Transform.hom,
        Fin.sum_univ_four] <;> ring
  refine ⟨compose W T, ?_, proper_compose hW hp, ?_, ?_, ?_⟩
  · unfold solveFresh
    simp [hA, hB, hsc]
  · rw [Verif.Kin.C07_point_compose _ _ hp.1, ho]; simp
  · rw [Verif.Kin.C07_vector_compose _ _ hp.1, ← hWl, hWv]
    simpa using he
  · intro h
    rw [Verif.Kin.C07_vector_compose _ _ hp.1, hx h]
    simp [hWn]

/-! ### C18 the cache -/

/-- one call of `solve_mate`, with the datum registry in force at that moment -/
structure Call where
  reg : Reg
  mate : Mate ℝ
  parent : Option M4
  axis : String

/-- the answer determined by the inputs of a call -/
noncomputable def Call.answer (c : Call) : SolveResult := solveFresh c.reg c.mate c.parent c.axis

def Call.key (c : Call) : String := cacheKey c.mate.name c.axis

/-- a sequence of calls on one solver, with the answers -/
noncomputable def Solver.run : Solver → List Call → List SolveResult
  | _, [] => []
  | s, c :: cs => (s.solveMate c.reg c.mate c.parent c.axis).1 ::
      Solver.run (s.solveMate c.reg c.mate c.parent c.axis).2 cs

/-- C18: with caching off, every answer in every history is the one its inputs determine. -/
theorem C18_no_cache_partial (cs : List Call) (s : Solver) (hs : s.useCache = false) :
    s.run cs = cs.map Call.answer := by
  induction cs with
  | nil => rfl
  | cons c cs ih =>
    have : s.solveMate c.reg c.mate c.parent c.axis = (c.answer, s) := by
      simp [Solver.solveMate, hs, Call.answer]
    simp only [Solver.run, this, List.map_cons, ih]

/-- C18 (partial): with caching on, in every history in which calls that share mate name and mate axis have
the same answer-determining inputs, every answer is right. Missing: histories in which a mate, a datum or
a parent pose changes (see `C18_stale_parent`, `C18_stale_mate`, `C18_stale_datum`). -/
theorem C18_consistent_history_partial (cs : List Call)
    (h : ∀ c ∈ cs, ∀ d ∈ cs, c.key = d.key → c.answer = d.answer) :
    Solver.run {} cs = cs.map Call.answer := by
  suffices H : ∀ (cs : List Call) (s : Solver), s.useCache = true →
      (∀ c ∈ cs, ∀ d ∈ cs, c.key = d.key → c.answer = d.answer) →
      (∀ k r, dget s.cache k = some r → ∀ c ∈ cs, c.key = k → r = c.answer) →
      s.run cs = cs.map Call.answer from H cs {} rfl h (by intro k r hk; simp [dget] at hk)
  intro cs
  induction cs with
  | nil => intros; rfl
  | cons c cs ih =>
    intro s hs hcons hinv
    simp only [Solver.run, List.map_cons, Solver.solveMate, hs, if_true, Bool.and_true]
    cases hc : dget s.cache (cacheKey c.mate.name c.axis) with
    | some r =>
      simp only
      rw [hinv _ r hc c (by simp) rfl,
        ih s hs (fun a ha b hb => hcons a (by simp [ha]) b (by simp [hb]))
          (fun k r hk a ha => hinv k r hk a (by simp [ha]))]
    | none =>
      simp only
      have e : solveFresh c.reg c.mate c.parent c.axis = c.answer := rfl
      rw [e]
      by_cases hsucc : c.answer.success = true
      · rw [if_pos hsucc]
        simp only
        rw [ih]
        · first | exact hs | rfl
        · exact fun a ha b hb => hcons a (by simp [ha]) b (by simp [hb])
        · intro k r hk a ha hak
          simp only at hk
          rw [dget_dset] at hk
          split_ifs at hk with hkk
          · simp only [Option.some.injEq] at hk
            rw [← hk]
            exact hcons c (by simp) a (by simp [ha]) (by rw [hak]; exact hkk.symm)
          · exact hinv k r hk a (by simp [ha]) hak
      · rw [if_neg hsucc]
        simp only
        rw [ih s hs (fun a ha b hb => hcons a (by simp [ha]) b (by simp [hb]))
          (fun k r hk a ha => hinv k r hk a (by simp [ha]))]

theorem dget_filter_none {α} (d : List (String × α)) (k : String) (p : String × α → Bool)
    (h : ∀ v, p (k, v) = false) : dget (d.filter p) k = none := by
  cases hd : dget (d.filter p) k with
  | none => rfl
  | some v =>
    have := (List.mem_filter.1 (mem_of_dget hd)).2
    rw [h v] at this
    cases this

theorem startsWith_key (name axis : String) : startsWith (cacheKey name axis) name = true := by
  unfold startsWith cacheKey
  simp [String.toList_append]

/-- C18: after `invalidate_cache()`, or after `invalidate_cache(mate.name)`, the next answer for that mate
is the one its inputs determine, whatever the solver answered before. -/
theorem C18_after_invalidate (s : Solver) (reg : Reg) (m : Mate ℝ) (parent : Option M4) (axis : String)
    (n : Option String) (hn : n = none ∨ n = some m.name) :
    ((s.invalidate n).solveMate reg m parent axis).1 = solveFresh reg m parent axis := by
  have hmiss : dget (s.invalidate n).cache (cacheKey m.name axis) = none := by
    rcases hn with rfl | rfl
    · rfl
    · exact dget_filter_none _ _ _ (by intro v; simp [startsWith_key])
  unfold Solver.solveMate
  rw [hmiss]
  simp only [ite_self]
  split_ifs <;> rfl

/-- C18 (violated): a second call for the same mate at a different parent pose gets the first answer,
not its own, for every mate that solves and any two parents that give different answers. -/
theorem C18_stale_parent (s : Solver) (hs : s.useCache = true) (reg : Reg) (m : Mate ℝ) (axis : String)
    (hfree : dget s.cache (cacheKey m.name axis) = none) (W W' : Option M4)
    (hok : (solveFresh reg m W axis).success = true)
    (hne : solveFresh reg m W axis ≠ solveFresh reg m W' axis) :
    s.run [⟨reg, m, W, axis⟩, ⟨reg, m, W', axis⟩] ≠
      [solveFresh reg m W axis, solveFresh reg m W' axis] := by
  simp [Solver.run, Solver.solveMate, hs, hfree, hok, dget_dset, hne]

def zDatum (name : String) : Datum :=
  { name := name, dtype := .plane, origin := ![0, 0, 0, 1], normal := some ![0, 0, 1, 0] }

def distMate (offset : ℝ) : Mate ℝ :=
  { name := "m", mtype := .distance, partA := "a", datumA := "f", partB := "b", datumB := "f"
    offset := offset, angle := 0, axis := [], secondaryAxis := [], limits := none, dynamics := none
    couplingRatio := 1, couplingOffset := 0, couplingReverse := false, couplingPitch := none, metadata := [] }

theorem datumDir_z (name : String) : datumDir (zDatum name) = ![0, 0, 1] := by
  have hn : norm3 (first3 ![0, 0, 1, 0]) = 1 := by
    apply norm3_of_unit; simp [dot3, first3]
  simp only [datumDir, zDatum, unitOrZ, hn]
  rw [if_pos (by norm_num)]
  ext i; fin_cases i <;> simp [first3]

theorem distMate_answer (o : ℝ) : solveFresh (fun _ n => some (zDatum n)) (distMate o) none "Z" =
    { success := true, transform := some (some (mk4 1 ![0, 0, o])) } := by
  have : solveConstraint (distMate o) (zDatum (distMate o).datumA) (zDatum (distMate o).datumB) =
      .ok (some (mk4 1 ![0, 0, o])) := by
    simp only [solveConstraint, distMate, solveDistanceS, datumDir_z]
    congr 3
    ext i; fin_cases i <;> simp [first3, zDatum]
  simp only [solveFresh, this]
  rfl

/-- C18 (violated), concrete: editing the mate's offset from 0 to 5 and solving again returns the pose for
offset 0. -/
theorem C18_stale_mate :
    ∃ (reg : Reg) (m m' : Mate ℝ), m.name = m'.name ∧
      Solver.run {} [⟨reg, m, none, "Z"⟩, ⟨reg, m', none, "Z"⟩] ≠
        [solveFresh reg m none "Z", solveFresh reg m' none "Z"] := by
  refine ⟨fun _ n => some (zDatum n), distMate 0, distMate 5, rfl, ?_⟩
  have hne : solveFresh (fun _ n => some (zDatum n)) (distMate 0) none "Z" ≠
      solveFresh (fun _ n => some (zDatum n)) (distMate 5) none "Z" := by
    rw [distMate_answer, distMate_answer]
    simp only [ne_eq, SolveResult.mk.injEq, Option.some.injEq, true_and]
    intro h
    have := congrFun (congrFun h 2) 3
    simp [mk4] at this
  simp only [Solver.run, Solver.solveMate, if_true, Bool.and_true]
  simp only [dget, distMate_answer, if_true]
  simp only [distMate_answer] at hne
  simp [dset, distMate, dget, hne]

/-- Non-vacuity of `C18_stale_parent`: the hypotheses are met by the mate above and two parent poses. -/
example : ∃ (reg : Reg) (m : Mate ℝ) (W W' : Option M4),
    (solveFresh reg m W "Z").success = true ∧ solveFresh reg m W "Z" ≠ solveFresh reg m W' "Z" := by
  refine ⟨fun _ n => some (zDatum n), distMate 0, none, some (mk4 1 ![1, 0, 0]), ?_, ?_⟩
  · rw [distMate_answer]
  · have h : solveFresh (fun _ n => some (zDatum n)) (distMate 0) (some (mk4 1 ![1, 0, 0])) "Z" =
        { success := true, transform := some (some (compose (mk4 1 ![1, 0, 0]) (mk4 1 ![0, 0, 0]))) } := by
      have h0 := distMate_answer 0
      unfold solveFresh at h0 ⊢
      simp only at h0 ⊢
      cases hc : solveConstraint (distMate 0) (zDatum (distMate 0).datumA) (zDatum (distMate 0).datumB) with
      | error e => simp [hc] at h0
      | ok T =>
        simp only [hc, if_true] at h0 ⊢
        simp at h0
        rw [h0]; rfl
    rw [distMate_answer, h]
    simp only [ne_eq, SolveResult.mk.injEq, Option.some.injEq, true_and]
    intro h
    have := congrFun (congrFun h 0) 3
    simp [mk4, compose, Fin.sum_univ_four] at this

/-! ### C62 mate axis remapping -/

theorem applyMateAxis_vec (T : M4) (a : String) (R : M3) (h : mateAxisRotation a = some R) (v : V3) :
    transformVector (applyMateAxis T a) v = transformVector T (R.mulVec v) := by
  unfold applyMateAxis
  rw [h]
  ext i
  fin_cases i <;>
    simp [transformVector, Verif.Kin.Transform.act, Verif.Kin.Transform.hom, setRot, rotOf,
      Fin.sum_univ_four, Matrix.mul_apply, Fin.sum_univ_three, mulVec_three] <;> ring

/-- C62 (partial): for the axes "Z" and "-Z" remapping sends the local z axis where the documentation
says; for every axis name the position is unchanged and a proper rigid pose stays one. Missing: "X", "Y",
"-X", "-Y", where the sign is wrong (`C62_axis_sign_reversed`). -/
theorem C62_mate_axis_partial (T : M4) (hT : ProperRigid T) (axis : String) :
    ProperRigid (applyMateAxis T axis) ∧
    transformPoint (applyMateAxis T axis) 0 = transformPoint T 0 ∧
    transformVector (applyMateAxis T "Z") ![0, 0, 1] = transformVector T ![0, 0, 1] ∧
    transformVector (applyMateAxis T "-Z") ![0, 0, 1] = transformVector T ![0, 0, -1] := by
  refine ⟨?_, ?_, ?_, ?_⟩
  · unfold applyMateAxis
    cases h : mateAxisRotation axis with
    | none => exact hT
    | some R =>
      have hR : IsRotation R := by
        unfold mateAxisRotation at h
        split_ifs at h <;> simp only [Option.some.injEq] at h <;> subst h
        all_goals first | exact isRotation_one | skip
        all_goals
          constructor
          · ext i j; fin_cases i <;> fin_cases j <;> simp [Matrix.mul_apply, Fin.sum_univ_three]
          · simp [Matrix.det_fin_three]
      have hrot : rotOf (setRot T (rotOf T * R)) = rotOf T * R := by
        ext i j; fin_cases i <;> fin_cases j <;> simp [rotOf, setRot]
      refine ⟨(rigid_iff _).2 ⟨?_, ?_⟩, ?_⟩
      · simpa [setRot] using hT.1.bottom
      · show (rotOf (setRot T (rotOf T * R))).transpose * rotOf (setRot T (rotOf T * R)) = 1
        rw [hrot, Matrix.transpose_mul, Matrix.mul_assoc, ← Matrix.mul_assoc (rotOf T).transpose,
          ((rigid_iff T).1 hT.1).2, Matrix.one_mul, hR.1]
      · show (rotOf (setRot T (rotOf T * R))).det = 1
        rw [hrot, Matrix.det_mul, hT.2, hR.2, one_mul]
  · unfold applyMateAxis
    cases h : mateAxisRotation axis with
    | none => rfl
    | some R =>
      ext i
      fin_cases i <;> simp [transformPoint, Verif.Kin.Transform.act, Verif.Kin.Transform.hom, setRot, Fin.sum_univ_four]
  · rw [applyMateAxis_vec T "Z" 1 rfl, mulVec_one3]
  · rw [applyMateAxis_vec T "-Z" !![1, 0, 0; 0, -1, 0; 0, 0, -1] (by simp [mateAxisRotation])]
    congr 1
    ext i; rw [mulVec_three]; fin_cases i <;> simp

/-- C62 (violated): asking for "X", "Y", "-X" or "-Y" sends the local z axis to the opposite of the named
axis, for every pose. -/
theorem C62_axis_sign_reversed (T : M4) :
    transformVector (applyMateAxis T "X") ![0, 0, 1] = transformVector T ![-1, 0, 0] ∧
    transformVector (applyMateAxis T "Y") ![0, 0, 1] = transformVector T ![0, -1, 0] ∧
    transformVector (applyMateAxis T "-X") ![0, 0, 1] = transformVector T ![1, 0, 0] ∧
    transformVector (applyMateAxis T "-Y") ![0, 0, 1] = transformVector T ![0, 1, 0] := by
  refine ⟨?_, ?_, ?_, ?_⟩
  · rw [applyMateAxis_vec T "X" !![0, 0, -1; 0, 1, 0; 1, 0, 0] (by simp [mateAxisRotation])]
    congr 1; ext i; rw [mulVec_three]; fin_cases i <;> simp
  · rw [applyMateAxis_vec T "Y" !![1, 0, 0; 0, 0, -1; 0, 1, 0] (by simp [mateAxisRotation])]
    congr 1; ext i; rw [mulVec_three]; fin_cases i <;> simp
  · rw [applyMateAxis_vec T "-X" !![0, 0, 1; 0, 1, 0; -1, 0, 0] (by simp [mateAxisRotation])]
    congr 1; ext i; rw [mulVec_three]; fin_cases i <;> simp
  · rw [applyMateAxis_vec T "-Y" !![1, 0, 0; 0, 0, 1; 0, -1, 0] (by simp [mateAxisRotation])]
    congr 1; ext i; rw [mulVec_three]; fin_cases i <;> simp

/-! ### C63 directional mates -/

theorem unitOrZ_unit (v : V3) : dot3 (unitOrZ v) (unitOrZ v) = 1 := by
  unfold unitOrZ
  split_ifs with h
  · have : v ≠ 0 := by
      intro h0; rw [norm3_eq_zero.2 h0] at h; norm_num at h
    exact hat_unit this
  · simp [dot3]

theorem datumDir_unit (d : Datum) : dot3 (datumDir d) (datumDir d) = 1 := by
  unfold datumDir
  cases d.normal with
  | some v => exact unitOrZ_unit _
  | none =>
    cases d.direction with
    | some v => exact unitOrZ_unit _
    | none => simp [dot3]

/-- C63: a PERPENDICULAR mate always yields a proper rotation that makes the child direction exactly
perpendicular to the parent direction. -/
theorem C63_perpendicular (A B : Datum) :
    ∃ T, solvePerpendicularS A B = some T ∧ ProperRigid T ∧
      dot3 (transformVector T (datumDir B)) (datumDir A) = 0 := by
  have ha := datumDir_unit A
  have hb := datumDir_unit B
  -- the perpendicular is a unit vector, orthogonal to the parent and nearly so to the child
  obtain ⟨p, hp, hpp, hpa, hpb⟩ : ∃ p, (if norm3 (cross3 (datumDir B) (datumDir A)) < 1e-10 then
      unit3 (perpTo (datumDir A)) else unit3 (cross3 (datumDir B) (datumDir A))) = some p ∧
      dot3 p p = 1 ∧ dot3 p (datumDir A) = 0 ∧ |dot3 (datumDir B) p| ≤ 0.9999 := by
    split_ifs with h
    · have hq := perpTo_spec ha
      obtain ⟨p, hp⟩ : ∃ p, unit3 (perpTo (datumDir A)) = some p := by
        cases e : unit3 (perpTo (datumDir A)) with
        | none => exact absurd (unit3_none.1 e) hq.1
        | some p => exact ⟨p, rfl⟩
      have hu := unit_perp ha hp
      refine ⟨p, hp, hu.1, hu.2, ?_⟩
      -- `B` is nearly `±A`: `B·p` is small
      have hcr : norm3 (cross3 (datumDir B) (datumDir A)) ^ 2 < 1e-20 := by
        nlinarith [norm3_nonneg (cross3 (datumDir B) (datumDir A))]
      rw [norm3_sq] at hcr
      -- (B·p) = (B - (B·A)A)·p, and |B-(B·A)A|² = 1-(B·A)²
      have hL := lagrange (datumDir B) (datumDir A)
      rw [ha, hb] at hL
      have hq2 : (dot3 (datumDir B) p) ^ 2 ≤ 1 - dot3 (datumDir B) (datumDir A) ^ 2 := by
        -- Cauchy-Schwarz for r = B - (B·A)A and p
        set k := dot3 (datumDir B) (datumDir A) with hk
        have hr : dot3 (datumDir B) p = dot3 (datumDir B - k • datumDir A) p := by
          have : dot3 (datumDir B - k • datumDir A) p = dot3 (datumDir B) p - k * dot3 p (datumDir A) := by
            simp [dot3]; ring
          rw [this, hu.2]; ring
        have hrr : dot3 (datumDir B - k • datumDir A) (datumDir B - k • datumDir A) = 1 - k ^ 2 := by
          have : dot3 (datumDir B - k • datumDir A) (datumDir B - k • datumDir A) =
            dot3 (datumDir B) (datumDir B) - 2 * k * dot3 (datumDir B) (datumDir A) +
              k ^ 2 * dot3 (datumDir A) (datumDir A) := by simp [dot3]; ring
          rw [this, ha, hb, ← hk]; ring
        have hcs := lagrange (datumDir B - k • datumDir A) p
        rw [hrr, hu.1] at hcs
        have hpos : 0 ≤ dot3 (cross3 (datumDir B - k • datumDir A) p) (cross3 (datumDir B - k • datumDir A) p) := by
          rw [← norm3_sq]; positivity
        rw [hr]; linarith
      apply abs_le_of_sq_le_sq _ (by norm_num)
      rw [hL] at hcr
      norm_num at hcr ⊢
      linarith
    · have hne : cross3 (datumDir B) (datumDir A) ≠ 0 := by
        intro h0; rw [norm3_eq_zero.2 h0] at h; norm_num at h
      have hu := unit3_of_ne hne
      obtain ⟨w1, w2, w3⟩ := unit_cross hu
      refine ⟨_, hu, w1, ?_, ?_⟩
      · unfold dot3
        field_simp
        simp [cross3]; left; ring
      · rw [dot3_comm, w2]; norm_num
  obtain ⟨R, hR, hrot, _, hex⟩ := rotBetweenS_unit hb hpp
  refine ⟨mk4 R 0, ?_, proper_mk4 hrot _, ?_⟩
  · unfold solvePerpendicularS
    simp only [hp, Option.bind_some, hR, Option.map_some]
  · rw [vector_mk4, hex (Or.inl hpb)]; exact hpa

/-- C63 (partial): a PARALLEL mate and a REVOLUTE mate yield proper rigid poses that turn the child
direction to within 0.0142 (0.82 degrees) of the parent direction, exactly when the angle between them is
not within that window; a REVOLUTE mate puts the datum origins together. Missing: exactness inside the
window (`C63_small_angle_ignored`). -/
theorem C63_parallel_revolute_partial (A B : Datum) :
    ∃ T T', solveParallelS A B = some T ∧ solveConcentricS A B = some T' ∧
      ProperRigid T ∧ ProperRigid T' ∧
      norm3 (transformVector T (datumDir B) - datumDir A) < 0.0142 ∧
      norm3 (transformVector T' (datumDir B) - datumDir A) < 0.0142 ∧
      (|dot3 (datumDir B) (datumDir A)| ≤ 0.9999 ∨ cross3 (datumDir B) (datumDir A) = 0 →
        transformVector T (datumDir B) = datumDir A ∧ transformVector T' (datumDir B) = datumDir A) ∧
      transformPoint T 0 = 0 ∧
      transformPoint T' (first3 B.origin) = first3 A.origin := by
  obtain ⟨R, hR, hrot, herr, hex⟩ := rotBetweenS_unit (datumDir_unit B) (datumDir_unit A)
  refine ⟨mk4 R 0, mk4 R (first3 A.origin - R.mulVec (first3 B.origin)), ?_, ?_, proper_mk4 hrot _,
    proper_mk4 hrot _, ?_, ?_, ?_, ?_, ?_⟩
  · simp only [solveParallelS, hR, Option.map_some]
  · simp only [solveConcentricS, hR, Option.map_some]
  · rw [vector_mk4]; exact herr
  · rw [vector_mk4]; exact herr
  · intro h; rw [vector_mk4, vector_mk4]; exact ⟨hex h, hex h⟩
  · rw [point_mk4]; simp
  · rw [point_mk4]; simp

/-- a child plane tilted by 0.57 degrees -/
noncomputable def tilted : Datum :=
  { name := "t", dtype := .plane, origin := ![0, 0, 0, 1]
    normal := some ![400 / 40001, 0, 39999 / 40001, 0] }

theorem tilted_dir : datumDir tilted = ![400 / 40001, 0, 39999 / 40001] := by
  have hn : norm3 (first3 ![400 / 40001, 0, 39999 / 40001, 0]) = 1 := by
    apply norm3_of_unit; simp [dot3, first3]; norm_num
  simp only [datumDir, tilted, unitOrZ, hn]
  rw [if_pos (by norm_num)]
  ext i; fin_cases i <;> simp [first3]

/-- C63 (violated): directions less than about 0.8 degrees apart are left as they are: the PARALLEL mate of
a plane tilted by 0.57 degrees returns the identity. -/
theorem C63_small_angle_ignored :
    solveParallelS (zDatum "z") tilted = some (mk4 1 0) ∧
    transformVector (mk4 1 0) (datumDir tilted) ≠ datumDir (zDatum "z") := by
  constructor
  · unfold solveParallelS rotBetweenS
    rw [unit3_of_unit (datumDir_unit _), unit3_of_unit (datumDir_unit _), datumDir_z, tilted_dir]
    simp only
    rw [if_pos]
    · rfl
    · simp [dot3]; norm_num
  · rw [vector_mk4, mulVec_one3, datumDir_z, tilted_dir]
    intro h
    have := congrFun h 0
    simp at this

/-! ### C64 distance mates -/

/-- C64 (partial): a DISTANCE mate puts the child part's own origin `offset` away from the parent datum
along its normal, without turning it; this is the documented placement of the child datum exactly when
the child datum lies at the child's origin. -/
theorem C64_distance_partial (A B : Datum) (offset : ℝ) :
    ∃ T, solveDistanceS A B offset = some T ∧ ProperRigid T ∧
      transformPoint T 0 = first3 A.origin + offset • datumDir A ∧
      (transformPoint T (first3 B.origin) = first3 A.origin + offset • datumDir A ↔ first3 B.origin = 0) := by
  refine ⟨_, rfl, proper_mk4 isRotation_one _, ?_, ?_⟩
  · rw [point_mk4]; simp
  · rw [point_mk4, mulVec_one3]
    constructor
    · intro h
      have := congrArg (· - (first3 A.origin + offset • datumDir A)) h
      simpa using this
    · intro h; rw [h]; simp

/-! ### C67 validate_transform -/

/-- C67: `validate_transform` accepts every proper rigid motion, at every positive determinant tolerance. -/
theorem C67_rigid_accepted (T : M4) (h : ProperRigid T) (tol : ℝ) (ht : 0 < tol) :
    validateTransform T tol = true := by
  unfold validateTransform
  obtain ⟨h0, h1, h2, h3⟩ := h.1.bottom
  simp only [decide_eq_true_eq]
  refine ⟨⟨?_, ?_, ?_, ?_⟩, ?_, ?_⟩
  · rw [h0]; norm_num
  · rw [h1]; norm_num
  · rw [h2]; norm_num
  · rw [h3]; norm_num
  · intro i j
    rw [((rigid_iff T).1 h.1).2]; simp; norm_num
  · rw [h.2]; simpa using ht

/-- C67: what it accepts is rigid within tolerance: columns of the rotation block orthonormal to 1e-6,
determinant positive (no reflection) when the tolerance is at most 1, bottom row within 1.1e-5 of 0 0 0 1. -/
theorem C67_accepted_near_rigid (T : M4) (tol : ℝ) (ht : tol ≤ 1) (h : validateTransform T tol = true) :
    (∀ i j : Fin 3, |(∑ k : Fin 3, T k.castSucc i.castSucc * T k.castSucc j.castSucc) -
      (if i = j then 1 else 0)| < 1e-6) ∧
    0 < (rotOf T).det ∧ |(rotOf T).det - 1| < tol ∧
    |T 3 0| ≤ 1e-10 ∧ |T 3 1| ≤ 1e-10 ∧ |T 3 2| ≤ 1e-10 ∧ |T 3 3 - 1| ≤ 1.1e-5 := by
  unfold validateTransform at h
  simp only [decide_eq_true_eq] at h
  obtain ⟨⟨b0, b1, b2, b3⟩, ho, hd⟩ := h
  refine ⟨?_, ?_, hd, b0, b1, b2, ?_⟩
  · intro i j
    have := ho i j
    rw [Matrix.mul_apply, Matrix.one_apply] at this
    exact this
  · have := (abs_lt.1 hd).1; linarith
  · refine b3.trans ?_; norm_num

/-- C67 (violated): the documented bottom-row check `[0, 0, 0, 1]` with tolerance 1e-10 is not what is
checked: a matrix whose last entry is 1.00001 is accepted. -/
theorem C67_bottom_row_loose : ∃ T : M4, T 3 3 = 1 + 1e-5 ∧ validateTransform T 1e-6 = true := by
  refine ⟨!![1, 0, 0, 0; 0, 1, 0, 0; 0, 0, 1, 0; 0, 0, 0, 1 + 1e-5], by simp, ?_⟩
  have hr : rotOf (!![1, 0, 0, 0; 0, 1, 0, 0; 0, 0, 1, 0; 0, 0, 0, 1 + 1e-5] : M4) = 1 := by
    ext i j; fin_cases i <;> fin_cases j <;> simp [rotOf]
  unfold validateTransform
  simp only [decide_eq_true_eq, hr]
  refine ⟨⟨by simp; norm_num, by simp; norm_num, by simp; norm_num, by simp; norm_num⟩, ?_, ?_⟩
  · intro i j; simp; norm_num
  · simp; norm_num

/-! ### C66 chains -/

/-- C66: a chain of mates with distinct names, solved with a new solver, places the part of the i-th mate
at `base · L₁ · … · Lᵢ`, where `Lⱼ` is the pose of mate `j` alone (with the parent at the origin);
nothing else is placed. -/
theorem C66_chain (reg : Reg) (L : Mate ℝ → M4) (ms : List (Mate ℝ)) (base : M4)
    (hL : ∀ m ∈ ms, solveFresh reg m none "Z" = { success := true, transform := some (some (L m)) })
    (hnames : (ms.map Mate.name).Nodup) (hparts : (ms.map Mate.partB).Nodup) :
    (∀ pre m post, ms = pre ++ m :: post →
      dget (solveMateChain reg ms (some base) none) m.partB =
        some (some ((pre ++ [m]).foldl (fun W x => compose W (L x)) base))) ∧
    keys (solveMateChain reg ms (some base) none) = ms.map Mate.partB := by
  unfold solveMateChain
  simp only [Option.getD_some, Option.getD_none]
  suffices H : ∀ (ms : List (Mate ℝ)) (s : Solver) (W : M4) (acc : List (String × Option M4)),
      s.useCache = true →
      (∀ m ∈ ms, solveFresh reg m none "Z" = { success := true, transform := some (some (L m)) }) →
      (ms.map Mate.name).Nodup → (ms.map Mate.partB).Nodup →
      (∀ m ∈ ms, dget s.cache (cacheKey m.name "Z") = none) →
      (∀ m ∈ ms, m.partB ∉ keys acc) →
      (∀ pre m post, ms = pre ++ m :: post →
        dget (chainLoop reg ms s W acc) m.partB =
          some (some ((pre ++ [m]).foldl (fun W x => compose W (L x)) W))) ∧
      (∀ p, p ∉ ms.map Mate.partB → dget (chainLoop reg ms s W acc) p = dget acc p) ∧
      keys (chainLoop reg ms s W acc) = keys acc ++ ms.map Mate.partB by
    obtain ⟨h1, -, h2⟩ := H ms {} base [] rfl hL hnames hparts (by intros; rfl) (by intros; simp [keys])
    exact ⟨h1, by rw [h2]; simp [keys]⟩
  intro ms
  induction ms with
  | nil =>
    intro s W acc _ _ _ _ _ _
    refine ⟨?_, fun p _ => rfl, by simp [chainLoop]⟩
    intro pre m post h; simp at h
  | cons m ms ih =>
    intro s W acc hs hL hn hp hc ha
    have hm := hL m (by simp)
    have hW : solveFresh reg m (some W) "Z" =
        { success := true, transform := some (some (compose W (L m))) } := by
      unfold solveFresh at hm ⊢
      cases hA : reg m.partA m.datumA <;> simp [hA] at hm ⊢
      cases hB : reg m.partB m.datumB <;> simp [hB] at hm ⊢
      cases hS : solveConstraint m _ _ <;> simp [hS] at hm ⊢
      exact ⟨_, hm, rfl⟩
    set r : SolveResult := { success := true, transform := some (some (compose W (L m))) } with hr
    have hstep : s.solveMate reg m (some W) "Z" =
        (r, { s with cache := dset s.cache (cacheKey m.name "Z") r }) := by
      unfold Solver.solveMate
      rw [if_pos hs, hc m (by simp), hW]
      simp [hs, hr]
    have hloop : chainLoop reg (m :: ms) s W acc =
        chainLoop reg ms { s with cache := dset s.cache (cacheKey m.name "Z") r } (compose W (L m))
          (dset acc m.partB (some (compose W (L m)))) := by
      rw [chainLoop, hstep]
    simp only [List.map_cons, List.nodup_cons] at hn hp
    have hkeys : keys (dset acc m.partB (some (compose W (L m)))) = keys acc ++ [m.partB] := by
      rw [keys_dset, if_neg (ha m (by simp))]
    obtain ⟨i1, i2, i3⟩ := ih { s with cache := dset s.cache (cacheKey m.name "Z") r } (compose W (L m))
      (dset acc m.partB (some (compose W (L m)))) hs (fun x hx => hL x (by simp [hx])) hn.2 hp.2
      (by
        intro x hx
        simp only
        rw [dget_dset, if_neg, hc x (by simp [hx])]
        intro e
        apply hn.1
        have : x.name = m.name := by
          unfold cacheKey at e
          have := congrArg String.toList e
          simp [String.toList_append] at this
          exact String.toList_injective this
        rw [← this]
        exact List.mem_map_of_mem hx)
      (by
        intro x hx
        rw [hkeys]
        simp only [List.mem_append, List.mem_singleton, not_or]
        refine ⟨ha x (by simp [hx]), ?_⟩
        intro e
        apply hp.1; rw [← e]; exact List.mem_map_of_mem hx)
    rw [hloop]
    refine ⟨?_, ?_, ?_⟩
    · intro pre x post h
      cases pre with
      | nil =>
        simp only [List.nil_append, List.cons.injEq] at h
        obtain ⟨rfl, rfl⟩ := h
        rw [i2 _ hp.1, dget_dset]
        simp
      | cons y pre =>
        simp only [List.cons_append, List.cons.injEq] at h
        obtain ⟨rfl, h⟩ := h
        rw [i1 pre x post h]
        rfl
    · intro p hpn
      simp only [List.map_cons, List.mem_cons, not_or] at hpn
      rw [i2 p hpn.2, dget_dset, if_neg hpn.1]
    · rw [i3, hkeys]; simp

/-- C66: a chain stops at the first mate that cannot be solved: that mate's part and all later ones are
left out of the result, and the earlier ones are kept. -/
theorem C66_chain_stops (reg : Reg) (L : Mate ℝ → M4) (ms post : List (Mate ℝ)) (bad : Mate ℝ) (base : M4)
    (hL : ∀ m ∈ ms, solveFresh reg m none "Z" = { success := true, transform := some (some (L m)) })
    (hbad : ∀ W, (solveFresh reg bad W "Z").success = false)
    (hnames : ((ms ++ [bad]).map Mate.name).Nodup) :
    solveMateChain reg (ms ++ bad :: post) (some base) none = solveMateChain reg ms (some base) none := by
  unfold solveMateChain
  simp only [Option.getD_some, Option.getD_none]
  suffices H : ∀ (ms : List (Mate ℝ)) (s : Solver) (W : M4) (acc : List (String × Option M4)),
      s.useCache = true →
      (∀ m ∈ ms, solveFresh reg m none "Z" = { success := true, transform := some (some (L m)) }) →
      ((ms ++ [bad]).map Mate.name).Nodup →
      (∀ m ∈ ms ++ [bad], dget s.cache (cacheKey m.name "Z") = none) →
      chainLoop reg (ms ++ bad :: post) s W acc = chainLoop reg ms s W acc by
    exact H ms {} base [] rfl hL hnames (by intros; rfl)
  intro ms
  induction ms with
  | nil =>
    intro s W acc hs _ _ hc
    have hb := hbad (some W)
    have hstep : (s.solveMate reg bad (some W) "Z").1.success = false := by
      unfold Solver.solveMate
      rw [if_pos hs, hc bad (by simp)]
      simp [hb]
    simp only [List.nil_append, chainLoop]
    generalize s.solveMate reg bad (some W) "Z" = q at hstep ⊢
    obtain ⟨⟨q1, q2⟩, q3⟩ := q
    simp only at hstep
    subst hstep
    rfl
  | cons m ms ih =>
    intro s W acc hs hL hn hc
    have hm := hL m (by simp)
    have hW : solveFresh reg m (some W) "Z" =
        { success := true, transform := some (some (compose W (L m))) } := by
      unfold solveFresh at hm ⊢
      cases hA : reg m.partA m.datumA <;> simp [hA] at hm ⊢
      cases hB : reg m.partB m.datumB <;> simp [hB] at hm ⊢
      cases hS : solveConstraint m _ _ <;> simp [hS] at hm ⊢
      exact ⟨_, hm, rfl⟩
    have hstep : s.solveMate reg m (some W) "Z" =
        ({ success := true, transform := some (some (compose W (L m))) },
          { s with cache := dset s.cache (cacheKey m.name "Z") ⟨true, some (some (compose W (L m)))⟩ }) := by
      unfold Solver.solveMate
      rw [if_pos hs, hc m (by simp), hW]
      simp [hs]
    simp only [List.cons_append, List.map_cons, List.nodup_cons] at hn
    simp only [List.cons_append, chainLoop, hstep]
    refine ih { s with cache := _ } _ _ hs (fun x hx => hL x (by simp [hx])) hn.2 ?_
    intro x hx
    simp only
    rw [dget_dset, if_neg, hc x (by simpa using Or.inr hx)]
    intro e
    apply hn.1
    have : x.name = m.name := by
      unfold cacheKey at e
      have := congrArg String.toList e
      simp [String.toList_append] at this
      exact String.toList_injective this
    rw [← this]
    exact List.mem_map_of_mem hx

/-- Non-vacuity of `C66_chain`: a two-mate chain of distance mates, with the resulting world poses. -/
example : ∃ (reg : Reg) (L : Mate ℝ → M4) (m m' : Mate ℝ), m.name ≠ m'.name ∧ m.partB ≠ m'.partB ∧
    (∀ x ∈ [m, m'], solveFresh reg x none "Z" = { success := true, transform := some (some (L x)) }) ∧
    L m ≠ identity := by
  refine ⟨fun _ n => some (zDatum n), fun m => mk4 1 ![0, 0, m.offset], distMate 3,
    { distMate 4 with name := "k", partA := "b", partB := "c" }, by simp [distMate], by simp [distMate], ?_, ?_⟩
  · intro x hx
    simp only [List.mem_cons, List.not_mem_nil, or_false] at hx
    rcases hx with rfl | rfl
    · exact distMate_answer 3
    · exact distMate_answer 4
  · intro h
    have := congrFun (congrFun h 2) 3
    simp [mk4, distMate, identity] at this

/-- C66: the chain ignores which part a mate attaches to. Two mates that both hang off the part "a" are
solved as if the second hung off the first one's child: with offsets 3 and 4 from "a", the second part is
put at 7. -/
theorem C66_star_treated_as_chain :
    let reg : Reg := fun _ n => some (zDatum n)
    let m : Mate ℝ := distMate 3
    let m' : Mate ℝ := { distMate 4 with name := "k", partB := "c" }
    m.partA = m'.partA ∧
    dget (solveMateChain reg [m, m'] (some identity) none) "c" = some (some (mk4 1 ![0, 0, 7])) := by
  intro reg m m'
  refine ⟨rfl, ?_⟩
  have h := (C66_chain reg (fun x => mk4 1 ![0, 0, x.offset]) [m, m'] identity (by
    intro x hx
    simp only [List.mem_cons, List.not_mem_nil, or_false] at hx
    rcases hx with rfl | rfl
    · exact distMate_answer 3
    · exact distMate_answer 4) (by simp [m, m', distMate]) (by simp [m, m', distMate])).1 [m] m' [] rfl
  have hc : m'.partB = "c" := rfl
  rw [hc] at h
  rw [h]
  congr 2
  ext i j
  fin_cases i <;> fin_cases j <;>
    simp [compose, mk4, identity, Fin.sum_univ_four, m, m', distMate]
  norm_num

end Verif.Assembly
