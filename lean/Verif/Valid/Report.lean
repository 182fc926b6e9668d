import Verif.Valid.Core
import Mathlib.Data.List.Nodup

/-!
# C213-C215: reports of the validation
-/

namespace Verif.Valid

theorem loop_spec (eval : Con → Option Res) (cs : List Con) (s t : Acc) (h : loop eval cs s = some t) :
    (∀ c ∈ cs, ∃ r, eval c = some r) ∧
    t.passed = s.passed + cs.countP (fun c => (eval c).any (·.satisfied)) ∧
    t.failed = s.failed ++ (cs.filter fun c => !(eval c).any (·.satisfied) && decide (c.severity = "error")).map (·.name) ∧
    t.warnings = s.warnings ++ (cs.filter fun c => !(eval c).any (·.satisfied) && decide (c.severity = "warning")).map (·.name) ∧
    t.infos = s.infos ++ (cs.filter fun c => !(eval c).any (·.satisfied) && !decide (c.severity = "error") && !decide (c.severity = "warning")).map (·.name) ∧
    (∀ n, (∀ c ∈ cs, c.name ≠ n) → t.results n = s.results n) ∧
    ((cs.map (·.name)).Nodup → ∀ c ∈ cs, t.results c.name = eval c) := by
  induction cs generalizing s with
  | nil =>
    unfold loop at h
    injection h with h
    subst h
    simp
  | cons c l ih =>
    unfold loop at h
    rcases he : eval c with _ | r
    · rw [he] at h; cases h
    rw [he] at h
    dsimp only at h
    obtain ⟨i1, i2, i3, i4, i5, i6, i7⟩ := ih _ h
    refine ⟨?_, ?_, ?_, ?_, ?_, ?_, ?_⟩
    · intro d hd
      rcases List.mem_cons.mp hd with rfl | hd
      · exact ⟨r, he⟩
      · exact i1 d hd
    · rw [i2, List.countP_cons, he]
      by_cases hr : r.satisfied = true
      · simp [record, hr]; omega
      · have hr : r.satisfied = false := by simpa using hr
        simp only [record, hr, Option.any_some, Bool.false_eq_true, if_false]
        split_ifs <;> rfl
    · rw [i3]
      by_cases hr : r.satisfied = true
      · simp [record, hr, he]
      · have hr : r.satisfied = false := by simpa using hr
        by_cases hs : c.severity = "error"
        · simp [record, hr, he, hs]
        · simp only [record, hr, Bool.false_eq_true, if_false, hs]
          split_ifs <;> simp [he, hr, hs]
    · rw [i4]
      by_cases hr : r.satisfied = true
      · simp [record, hr, he]
      · have hr : r.satisfied = false := by simpa using hr
        by_cases hs : c.severity = "error"
        · simp [record, hr, he, hs]
        · by_cases hw : c.severity = "warning"
          · simp [record, hr, he, hw]
          · simp [record, hr, he, hw, hs]
    · rw [i5]
      by_cases hr : r.satisfied = true
      · simp [record, hr, he]
      · have hr : r.satisfied = false := by simpa using hr
        by_cases hs : c.severity = "error"
        · simp [record, hr, he, hs]
        · by_cases hw : c.severity = "warning"
          · simp [record, hr, he, hw]
          · simp [record, hr, he, hw, hs]
    · intro n hn
      rw [i6 n fun d hd => hn d (List.mem_cons_of_mem _ hd)]
      have hne : n ≠ c.name := fun e => hn c (List.mem_cons_self ..) e.symm
      unfold record
      dsimp only
      split_ifs <;> simp [hne]
    · intro hnd d hd
      rw [List.map_cons, List.nodup_cons] at hnd
      rcases List.mem_cons.mp hd with rfl | hd
      · rw [i6 d.name fun e he' hh => hnd.1 (List.mem_map.mpr ⟨e, he', hh⟩), he]
        unfold record
        dsimp only
        split_ifs <;> simp
      · exact i7 hnd.2 d hd

/-- the constraint was evaluated and fails -/
def Fails (eval : Con → Option Res) (c : Con) : Prop := ∃ r, eval c = some r ∧ r.satisfied = false

/-- **C213.** The report is valid exactly if no constraint of severity "error" fails. All constraints are counted once: the passed, the failed, the warnings
and the infos add up to the total. The failed names are the names of the failing constraints of severity "error", in order; the warnings
those of severity "warning". -/
theorem C213_verdict {eval : Con → Option Res} {cs : List Con} {rep : Report} (h : validate eval cs = some rep) :
    (rep.isValid = true ↔ ∀ c ∈ cs, c.severity = "error" → ¬ Fails eval c) ∧
    rep.total = cs.length ∧ rep.passed + rep.failed + rep.warned + rep.infos.length = rep.total ∧
    rep.passed = cs.countP (fun c => (eval c).any (·.satisfied)) ∧
    rep.failed = rep.failedNames.length ∧ rep.warned = rep.warnings.length ∧
    rep.failedNames = (cs.filter fun c => !(eval c).any (·.satisfied) && decide (c.severity = "error")).map (·.name) ∧
    rep.warnings = (cs.filter fun c => !(eval c).any (·.satisfied) && decide (c.severity = "warning")).map (·.name) := by
  unfold validate at h
  rcases hl : loop eval cs {} with _ | t
  · rw [hl] at h; cases h
  rw [hl] at h
  injection h with h
  subst h
  obtain ⟨i1, i2, i3, i4, i5, i6, i7⟩ := loop_spec eval cs {} t hl
  dsimp only
  simp only [List.nil_append, Nat.zero_add] at i2 i3 i4 i5
  refine ⟨?_, rfl, ?_, i2, rfl, rfl, i3, i4⟩
  · rw [beq_iff_eq, i3, List.length_map, List.length_eq_zero_iff, List.filter_eq_nil_iff]
    constructor
    · rintro hh c hc hs ⟨r, hr, hf⟩
      exact hh c hc (by simp [hr, hf, hs])
    · intro hh c hc
      obtain ⟨r, hr⟩ := i1 c hc
      by_cases hs : c.severity = "error"
      · have : r.satisfied = true := by
          by_contra hn
          exact hh c hc hs ⟨r, hr, by simpa using hn⟩
        simp [hr, this]
      · simp [hs]
  · rw [i2, i3, i4, i5, List.length_map, List.length_map, List.length_map]
    clear * -
    induction cs with
    | nil => rfl
    | cons c l ih =>
      rw [List.countP_cons, List.filter_cons, List.filter_cons, List.filter_cons, List.length_cons]
      by_cases hp : (eval c).any (·.satisfied) = true
      · simp [hp]; omega
      · have hp : (eval c).any (·.satisfied) = false := by simpa using hp
        by_cases hs : c.severity = "error"
        · simp [hp, hs]; omega
        · by_cases hw : c.severity = "warning"
          · simp [hp, hw]; omega
          · simp [hp, hw, hs]; omega

/-- `validate_and_raise` raises ValueError exactly if a constraint of severity "error" fails. -/
theorem C213_raise {eval : Con → Option Res} {cs : List Con} {b : Bool} (h : validateAndRaise eval cs = some b) :
    b = true ↔ ∃ c ∈ cs, c.severity = "error" ∧ Fails eval c := by
  unfold validateAndRaise at h
  rcases hv : validate eval cs with _ | rep
  · rw [hv] at h; cases h
  rw [hv] at h
  injection h with h
  subst h
  have := (C213_verdict hv).1
  rw [Bool.not_eq_true', ← Bool.not_eq_true, this]
  push Not
  rfl

/-- A report is made exactly if no evaluation raises an exception. -/
theorem C213_total (eval : Con → Option Res) (cs : List Con) : (∃ rep, validate eval cs = some rep) ↔ ∀ c ∈ cs, eval c ≠ none := by
  have key : ∀ s, (∃ t, loop eval cs s = some t) ↔ ∀ c ∈ cs, eval c ≠ none := by
    induction cs with
    | nil => intro s; simp [loop]
    | cons c l ih =>
      intro s
      unfold loop
      rcases he : eval c with _ | r
      · simp [he]
      · dsimp only
        rw [ih]
        simp [he]
  rw [← key {}]
  unfold validate
  rcases hl : loop eval cs {} with _ | t <;> simp

/-- **C214, the part that holds.** If the names of the constraints differ, the report has each constraint's result under its name. -/
theorem C214_results_partial {eval : Con → Option Res} {cs : List Con} {rep : Report} (h : validate eval cs = some rep)
    (hn : (cs.map (·.name)).Nodup) : ∀ c ∈ cs, rep.results c.name = eval c := by
  unfold validate at h
  rcases hl : loop eval cs {} with _ | t
  · rw [hl] at h; cases h
  rw [hl] at h
  injection h with h
  subst h
  exact (loop_spec eval cs {} t hl).2.2.2.2.2.2 hn

/-- two constraints with the same name -/
noncomputable def twins : List Con := [{ name := "n", kind := .parallel, frameA := "a" }, { name := "n", kind := .coincident, frameA := "b" }]

/-- an evaluation in which the first fails and the second passes -/
noncomputable def firstFails (c : Con) : Option Res := some { satisfied := c.kind == .coincident }

/-- **C214, what does not.** The result of a failed constraint is lost if a later one has the same name: the report is invalid, but the only result under the
failed name is satisfied. -/
theorem C214_lost : ∃ rep, validate firstFails twins = some rep ∧ rep.isValid = false ∧ rep.failedNames = ["n"] ∧
    ∀ m r, rep.results m = some r → r.satisfied = true := by
  refine ⟨_, rfl, rfl, rfl, ?_⟩
  intro m r h
  simp only [record] at h
  dsimp at h
  split_ifs at h
  · injection h with h
    rw [← h]; rfl

example : (∃ rep, validate firstFails twins = some rep ∧ rep.passed = 1 ∧ rep.failed = 1 ∧ rep.total = 2) := ⟨_, rfl, rfl, rfl, rfl⟩

/-! ## C215: exceptions -/

/-- the second axis is used and invalid -/
def BadAxis (c : Con) : Prop := c.kind ∈ [Kind.parallel, .perpendicular, .concentric, .boltPattern] ∧ c.frameB ≠ none ∧ localAxis c.axisB = none

/-- boxes for a minimal distance without a second part -/
def NoPart (c : Con) : Prop := c.kind = .minDistance ∧ c.frameB = none ∧ c.boundsA ≠ none ∧ c.boundsB ≠ none

theorem secondAxis_ne {c : Con} {tb : Option (Tf ℝ)} {ref : Option (V ℝ)} (h : tb ≠ none → localAxis c.axisB ≠ none) : secondAxis c tb ref ≠ none := by
  unfold secondAxis
  rcases tb with _ | t
  · dsimp only
    rcases ref with _ | v <;> simp
  · dsimp only
    rcases hl : localAxis c.axisB with _ | b
    · exact absurd hl (h (by simp))
    · simp

theorem checkMesh_ne {lab : Lab ℝ} {fa fb : String} {ta tb : Tf ℝ} (hm : ∀ f m, lab.load f = some m → m.vertices ≠ []) : checkMesh lab fa ta fb tb ≠ none := by
  have hb : ∀ f m t, lab.load f = some m → bounds (move t m) ≠ none := by
    intro f m t hl
    have := hm f m hl
    unfold bounds move
    rcases hv : m.vertices with _ | ⟨p, l⟩
    · exact absurd hv this
    · simp
  unfold checkMesh
  rcases ha : lab.load fa with _ | ma
  · simp
  dsimp only
  rcases hb' : lab.load fb with _ | mb
  · simp
  dsimp only
  rcases h1 : bounds (move ta ma) with _ | ba
  · exact absurd h1 (hb fa ma ta ha)
  dsimp only
  rcases h2 : bounds (move tb mb) with _ | bb
  · exact absurd h2 (hb fb mb tb hb')
  dsimp only
  by_cases hm' : boxesMeet ba bb = true
  · rw [if_pos hm']
    rcases lab.library (move ta ma) (move tb mb) with _ | b
    · dsimp only
      split_ifs <;> simp
    · cases b <;> simp
  · rw [if_neg hm']
    simp

/-- **C215, the part that holds.** An evaluation gives a result and no exception, unless the second axis is invalid, boxes are given for a minimal distance without a
second part, or a mesh file has no vertices. -/
theorem C215_total_partial {lab : Lab ℝ} {c : Con} {world : World} (h1 : ¬ BadAxis c) (h2 : ¬ NoPart c)
    (hm : ∀ f m, lab.load f = some m → m.vertices ≠ []) : evaluate lab c world ≠ none := by
  unfold evaluate
  rcases world c.frameA with _ | ta
  · simp
  dsimp only
  rcases hB : lookB world c with _ | fb
  · simp
  dsimp only
  have htb : fb.map (·.2) ≠ none → c.frameB ≠ none := by
    intro h hn
    unfold lookB at hB
    rw [hn] at hB
    injection hB with hB
    subst hB
    simp at h
  have htb' : fb.map (·.2) = none → c.frameB = none := by
    intro h
    unfold lookB at hB
    rcases hf : c.frameB with _ | f
    · rfl
    · rw [hf] at hB
      dsimp only at hB
      rcases hw : world f with _ | t
      · rw [hw] at hB; cases hB
      · rw [hw] at hB
        injection hB with hB
        subst hB
        simp at h
  generalize second c (pointB c fb world) (fb.map (·.2)) = b
  generalize pointA c ta world = a
  generalize fb.map (·.2) = tb at *
  have hax : c.kind ∈ [Kind.parallel, .perpendicular, .concentric, .boltPattern] → ∀ ref, secondAxis c tb ref ≠ none := fun hk ref =>
    secondAxis_ne fun ht hl => h1 ⟨hk, htb ht, hl⟩
  rcases hk : c.kind with _ | _ | _ | _ | _ | _ | _ | _ | _ | _ | _ <;> dsimp only
  · simp
  · have := hax (by simp [hk]) (if c.center.isSome then c.axis else none)
    unfold concentric
    rcases localAxis c.axisA with _ | la
    · simp
    dsimp only
    rcases hs : secondAxis c tb (if c.center.isSome then c.axis else none) with _ | _ | s
    · exact absurd hs this
    · simp
    · dsimp only
      rcases second c none tb with _ | ob <;> simp
  · simp
  · have := hax (by simp [hk]) c.axis
    unfold parallel
    rcases localAxis c.axisA with _ | la
    · simp
    dsimp only
    rcases hs : secondAxis c tb c.axis with _ | _ | s
    · exact absurd hs this
    · simp
    · simp
  · have := hax (by simp [hk]) c.axis
    unfold perpendicular
    rcases localAxis c.axisA with _ | la
    · simp
    dsimp only
    rcases hs : secondAxis c tb c.axis with _ | _ | s
    · exact absurd hs this
    · simp
    · simp
  · simp
  · have := hax (by simp [hk]) (if c.center.isSome then c.normal else none)
    unfold boltPattern
    split_ifs
    · simp
    · simp
    all_goals
      rcases localAxis c.axisA with _ | la
      · simp
      dsimp only
      simp only [*] at this ⊢
      rcases hs : secondAxis c tb _ with _ | _ | s
      · exact absurd hs this
      · simp
      · dsimp only
        rcases second c none tb with _ | ob <;> simp
  · unfold minDistance
    rcases b with _ | b
    · simp
    dsimp only
    rcases c.radius with _ | r
    · simp
    dsimp only
    rcases hba : c.boundsA with _ | ba <;> rcases hbb : c.boundsB with _ | bb <;> try simp
    rcases ht : tb with _ | t
    · exact absurd ⟨hk, htb' ht, by simp [hba], by simp [hbb]⟩ h2
    · simp
  · simp
  · unfold noOverlap
    rcases tb with _ | t
    · simp
    dsimp only
    rcases c.stlA with _ | fa <;> rcases c.stlB with _ | fb
    case some.some =>
      dsimp only
      unfold meshCollision
      have := checkMesh_ne (fa := fa) (fb := fb) (ta := ta) (tb := t) hm
      rcases hc : checkMesh lab fa ta fb t with _ | r
      · exact absurd hc this
      · cases r <;> simp
    all_goals
      dsimp only
      rcases c.boundsA with _ | ba <;> rcases c.boundsB with _ | bb <;> simp
  · rcases c.validator with _ | f
    · simp
    dsimp only
    rcases f world with _ | r <;> simp

/-- A constraint on a frame that is not among the transforms fails. -/
theorem C215_missing_frame {lab : Lab ℝ} {c : Con} {world : World} (h : world c.frameA = none ∨ ∃ f, c.frameB = some f ∧ world f = none) :
    ∃ r, evaluate lab c world = some r ∧ r.satisfied = false := by
  refine ⟨cannot, ?_, rfl⟩
  unfold evaluate
  rcases ha : world c.frameA with _ | ta
  · rfl
  rcases h with h | ⟨f, hf, h⟩
  · rw [ha] at h; cases h
  · dsimp only
    unfold lookB
    rw [hf]
    dsimp only
    rw [h]

/-- **C215, what does not.** With two frames and the second axis named "w" every evaluation of a PARALLEL constraint raises (the same mistake in the first axis gives a result), and no
report on the other constraints is made. -/
theorem C215_raises (lab : Lab ℝ) {c : Con} {world : World} {ta tb : Tf ℝ} {f : String} (hk : c.kind = .parallel) (ha : world c.frameA = some ta)
    (hf : c.frameB = some f) (hb : world f = some tb) (hA : c.axisA = .name "z") (hx : c.axisB = .name "w") (cs : List Con) :
    evaluate lab c world = none ∧ (c ∈ cs → validate (fun c => evaluate lab c world) cs = none) := by
  have h1 : evaluate lab c world = none := by
    unfold evaluate
    rw [ha]
    dsimp only
    unfold lookB
    rw [hf]
    dsimp only
    rw [hb]
    dsimp only
    rw [hk]
    dsimp only
    unfold parallel secondAxis
    rw [hA, hx]
    simp [localAxis]
  refine ⟨h1, fun hc => ?_⟩
  rcases hv : validate (fun c => evaluate lab c world) cs with _ | rep
  · rfl
  · exact absurd h1 ((C213_total _ cs).mp ⟨rep, hv⟩ c hc)

end Verif.Valid
