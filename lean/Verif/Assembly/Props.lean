import Verif.Assembly.Spec
import Verif.Assembly.DatumProps

/-! # C17, C55-C57: the assembly -/

namespace Verif.Assembly
open Verif.Dict Verif.Xform

theorem mateValidate_nil (t : MateType) (a b : DatumType) : mateValidate t a b = [] ↔ Compatible t a b := by
  cases t <;> cases a <;> cases b <;> simp [mateValidate, Compatible]

theorem hasPart_iff (s : State) (n : String) : HasPart s n ↔ ∃ r, dget s.parts n = some r := by
  constructor
  · rintro ⟨r, h⟩
    cases hd : dget s.parts n with
    | some r' => exact ⟨r', rfl⟩
    | none => exact absurd (List.mem_map.mpr ⟨_, h, rfl⟩) (dget_none.mp hd)
  · rintro ⟨r, h⟩
    exact ⟨r, mem_of_dget h⟩

/-- growth of a state: parts and datums are never lost or changed -/
def Grows (s s' : State) : Prop := ∀ n dn d, HasDatum s n dn d → HasDatum s' n dn d

theorem hasDatum_iff (s : State) (n dn : String) (d : Datum) :
    HasDatum s n dn d ↔ ∃ r, dget s.parts n = some r ∧ dget (s.defs r).datums dn = some d := by
  unfold HasDatum State.datum
  cases h : dget s.parts n <;> simp

theorem importLoop_parts (l : List (String × Option TData)) : ∀ s : State,
    ∃ tr, (importLoop s l).1 = { s with transforms := tr } := by
  induction l with
  | nil => intro s; exact ⟨s.transforms, rfl⟩
  | cons e l ih =>
    intro s
    obtain ⟨n, td⟩ := e
    simp only [importLoop]
    cases dget s.parts n with
    | none => exact ih s
    | some r =>
      cases td with
      | none => exact ⟨s.transforms, rfl⟩
      | some t =>
        simp only
        cases t.parse with
        | error e => exact ⟨s.transforms, rfl⟩
        | ok a =>
          obtain ⟨tr, h⟩ := ih { s with transforms := dset s.transforms n (.ndarray a) }
          exact ⟨tr, h⟩

/-- parts stay, with the same definitions -/
theorem step_parts (s : State) (o : Op) (n : String) (r : Nat) (h : dget s.parts n = some r) :
    dget (step s o).1.parts n = some r := by
  cases o with
  | addDatum r d => simp only [step]; split <;> exact h
  | addPart r' name tr =>
    simp only [step]
    split
    · exact h
    · rename_i h0
      have hne : n ≠ name.getD (s.defs r').name := by rintro rfl; rw [h0] at h; simp at h
      split <;> simp [dget_dset, hne, h]
  | addMate m => simp only [step]; repeat' split
                 all_goals exact h
  | addConstraint c => simp only [step]; repeat' split
                       all_goals exact h
  | addLoadCase c => simp only [step]; repeat' split
                     all_goals exact h
  | addBoltPattern p c b => simp only [step]; repeat' split
                            all_goals exact h
  | importTransforms data =>
    cases data with
    | none => exact h
    | some l =>
      obtain ⟨tr, ht⟩ := importLoop_parts l s
      show dget (importLoop s l).1.parts n = _
      rw [ht]; exact h

theorem step_defs (s : State) (o : Op) (r : Nat) (dn : String) (d : Datum)
    (h : dget (s.defs r).datums dn = some d) : dget ((step s o).1.defs r).datums dn = some d := by
  cases o with
  | addDatum r' d' =>
    simp only [step]
    split
    · exact h
    · rename_i h0
      by_cases hr : r = r'
      · subst hr
        have hne : dn ≠ d'.name := by rintro rfl; rw [h0] at h; simp at h
        simp [dget_dset, hne, h]
      · simp [Function.update_of_ne hr, h]
  | addPart r' name tr => simp only [step]; repeat' split
                          all_goals exact h
  | addMate m => simp only [step]; repeat' split
                 all_goals exact h
  | addConstraint c => simp only [step]; repeat' split
                       all_goals exact h
  | addLoadCase c => simp only [step]; repeat' split
                     all_goals exact h
  | addBoltPattern p c b => simp only [step]; repeat' split
                            all_goals exact h
  | importTransforms data =>
    cases data with
    | none => exact h
    | some l =>
      obtain ⟨tr, ht⟩ := importLoop_parts l s
      show dget ((importLoop s l).1.defs r).datums dn = _
      rw [ht]; exact h

theorem step_grows (s : State) (o : Op) : Grows s (step s o).1 := by
  intro n dn d h
  rw [hasDatum_iff] at h ⊢
  obtain ⟨r, h1, h2⟩ := h
  exact ⟨r, step_parts s o n r h1, step_defs s o r dn d h2⟩

theorem step_hasPart (s : State) (o : Op) (n : String) (h : HasPart s n) : HasPart (step s o).1 n := by
  rw [hasPart_iff] at h ⊢
  obtain ⟨r, h⟩ := h
  exact ⟨r, step_parts s o n r h⟩

/-- integrity is carried over when only parts/definitions grow -/
theorem Integrity.grow {s s' : State} (h : Integrity s) (hg : Grows s s')
    (hp : ∀ n, HasPart s n → HasPart s' n) (hm : s'.mates = s.mates) (hc : s'.constraints = s.constraints)
    (hl : s'.loadCases = s.loadCases) (hb : s'.boltPatterns = s.boltPatterns)
    (hu : (s'.parts.map (·.1)).Nodup) : Integrity s' := by
  refine ⟨?_, ?_, ?_, ?_, hu, by rw [hl]; exact h.uniqLoads, by rw [hb]; exact h.uniqBolts⟩
  · intro m hm'
    rw [hm] at hm'
    obtain ⟨d1, d2, a, b, c⟩ := h.mates m hm'
    exact ⟨d1, d2, hg _ _ _ a, hg _ _ _ b, c⟩
  · intro c hc'
    rw [hc] at hc'
    obtain ⟨d, a⟩ := h.constraints c hc'
    exact ⟨d, hg _ _ _ a⟩
  · intro e he
    rw [hl] at he
    obtain ⟨a, b⟩ := h.loads e he
    exact ⟨a, b.imp id (hp _)⟩
  · intro e he
    rw [hb] at he
    obtain ⟨a, b⟩ := h.bolts e he
    exact ⟨hp _ a, hp _ b⟩

theorem mem_dset_new {K V : Type} [DecidableEq K] {d : List (K × V)} {k : K} {v : V} (h : dget d k = none) :
    dset d k v = d ++ [(k, v)] := by
  induction d with
  | nil => rfl
  | cons e d ih =>
    obtain ⟨k', v'⟩ := e
    simp only [dget] at h
    split_ifs at h with hk
    simp [dset, hk, ih h]

theorem step_integrity (s : State) (o : Op) (h : Integrity s) : Integrity (step s o).1 := by
  have hg := step_grows s o
  have hp := step_hasPart s o
  cases o with
  | addDatum r d =>
    refine h.grow hg hp ?_ ?_ ?_ ?_ ?_ <;> simp only [step] <;> split <;> try rfl
    all_goals exact h.uniqParts
  | addPart r name tr =>
    refine h.grow hg hp ?_ ?_ ?_ ?_ ?_
    · simp only [step]; repeat' split
      all_goals rfl
    · simp only [step]; repeat' split
      all_goals rfl
    · simp only [step]; repeat' split
      all_goals rfl
    · simp only [step]; repeat' split
      all_goals rfl
    · simp only [step]
      split
      · exact h.uniqParts
      · have := nodup_dset (d := s.parts) h.uniqParts (name.getD (s.defs r).name) r
        split <;> exact this
  | importTransforms data =>
    cases data with
    | none => exact h
    | some l =>
      obtain ⟨tr, ht⟩ := importLoop_parts l s
      have e : (step s (.importTransforms (some l))).1 = { s with transforms := tr } := ht
      rw [e] at hg hp ⊢
      exact h.grow hg hp rfl rfl rfl rfl h.uniqParts
  | addMate m =>
    cases h1 : dget s.parts m.partA with
    | none => simpa [step, h1] using h
    | some r1 =>
      cases h2 : dget s.parts m.partB with
      | none => simpa [step, h1, h2] using h
      | some r2 =>
        cases h3 : dget (s.defs r1).datums m.datumA with
        | none => simpa [step, h1, h2, h3] using h
        | some d1 =>
          cases h4 : dget (s.defs r2).datums m.datumB with
          | none => simpa [step, h1, h2, h3, h4] using h
          | some d2 =>
            by_cases h5 : mateValidate m.mtype d1.dtype d2.dtype = []
            · have e : (step s (.addMate m)).1 = { s with mates := s.mates ++ [m] } := by
                simp [step, h1, h2, h3, h4, h5]
              rw [e]
              refine ⟨?_, h.constraints, h.loads, h.bolts, h.uniqParts, h.uniqLoads, h.uniqBolts⟩
              intro m' hm'
              rw [List.mem_append, List.mem_singleton] at hm'
              rcases hm' with hm' | rfl
              · exact h.mates m' hm'
              · exact ⟨d1, d2, (hasDatum_iff _ _ _ _).mpr ⟨r1, h1, h3⟩, (hasDatum_iff _ _ _ _).mpr ⟨r2, h2, h4⟩,
                  (mateValidate_nil _ _ _).mp h5⟩
            · simpa [step, h1, h2, h3, h4, h5] using h
  | addConstraint c =>
    cases h1 : dget s.parts c.part with
    | none => simpa [step, h1] using h
    | some r =>
      cases h2 : dget (s.defs r).datums c.datum with
      | none => simpa [step, h1, h2] using h
      | some d =>
        have e : (step s (.addConstraint c)).1 = { s with constraints := s.constraints ++ [c] } := by
          simp [step, h1, h2]
        rw [e]
        refine ⟨h.mates, ?_, h.loads, h.bolts, h.uniqParts, h.uniqLoads, h.uniqBolts⟩
        intro c' hc'
        rw [List.mem_append, List.mem_singleton] at hc'
        rcases hc' with hc' | rfl
        · exact h.constraints c' hc'
        · exact ⟨d, (hasDatum_iff _ _ _ _).mpr ⟨r, h1, h2⟩⟩
  | addLoadCase lc =>
    by_cases h1 : lc.attachPart ≠ "_assembly" ∧ dget s.parts lc.attachPart = none
    · have e : (step s (.addLoadCase lc)).1 = s := by simp only [step]; rw [if_pos h1]
      rw [e]; exact h
    · cases h2 : dget s.loadCases lc.id with
      | some x => simp only [step, h1, if_false, h2]; exact h
      | none =>
        have e : (step s (.addLoadCase lc)).1 = { s with loadCases := dset s.loadCases lc.id lc } := by
          simp only [step, h1, if_false, h2]
        rw [e]
        refine ⟨h.mates, h.constraints, ?_, h.bolts, h.uniqParts, nodup_dset h.uniqLoads _ _, h.uniqBolts⟩
        intro e he
        simp only [mem_dset_new h2] at he
        rw [List.mem_append, List.mem_singleton] at he
        rcases he with he | rfl
        · exact h.loads e he
        · refine ⟨rfl, ?_⟩
          by_cases ha : lc.attachPart = "_assembly"
          · exact Or.inl ha
          · right
            rw [hasPart_iff]
            cases hd : dget s.parts lc.attachPart with
            | none => exact absurd ⟨ha, hd⟩ h1
            | some r => exact ⟨r, rfl⟩
  | addBoltPattern p c b =>
    cases h1 : dget s.parts p with
    | none => simpa [step, h1] using h
    | some r1 =>
      cases h2 : dget s.parts c with
      | none => simpa [step, h1, h2] using h
      | some r2 =>
        cases h3 : dget s.boltPatterns (p, c) with
        | some x => simpa [step, h1, h2, h3] using h
        | none =>
          have e : (step s (.addBoltPattern p c b)).1 =
              { s with boltPatterns := dset s.boltPatterns (p, c) b } := by simp [step, h1, h2, h3]
          rw [e]
          refine ⟨h.mates, h.constraints, h.loads, ?_, h.uniqParts, h.uniqLoads, nodup_dset h.uniqBolts _ _⟩
          intro e he
          simp only [mem_dset_new h3] at he
          rw [List.mem_append, List.mem_singleton] at he
          rcases he with he | rfl
          · exact h.bolts e he
          · exact ⟨(hasPart_iff s p).mpr ⟨r1, h1⟩, (hasPart_iff s c).mpr ⟨r2, h2⟩⟩

/-- C17: after any history of calls (accepted or rejected, including datums added later to shared part
definitions) every mate, constraint, load case and bolt pattern refers to parts and datums present in
the assembly, the datum kinds suit the mates, and part names, load case ids and bolt pattern keys are
unique. -/
theorem C17_integrity (defs : Nat → PartDef) (ops : List Op) : Integrity (run (State.empty defs) ops) := by
  have h0 : Integrity (State.empty defs) := by
    refine ⟨?_, ?_, ?_, ?_, ?_, ?_, ?_⟩ <;> simp [State.empty]
  unfold run
  generalize State.empty defs = s at h0
  induction ops generalizing s with
  | nil => exact h0
  | cons o ops ih => exact ih _ (step_integrity s o h0)

theorem dget_none' {K V : Type} [DecidableEq K] (d : List (K × V)) (k : K) :
    dget d k = none ↔ ∀ v, (k, v) ∉ d := by
  rw [dget_none]
  unfold keys
  simp

theorem importLoop_ok (l : List (String × Option TData)) : ∀ s : State,
    (importLoop s l).2 = none ↔ ∀ e ∈ l, HasPart s e.1 → ∃ t a, e.2 = some t ∧ t.parse = .ok a := by
  induction l with
  | nil => intro s; simp [importLoop]
  | cons e l ih =>
    intro s
    obtain ⟨n, td⟩ := e
    simp only [importLoop, List.forall_mem_cons]
    cases hd : dget s.parts n with
    | none =>
      have hn : ¬ HasPart s n := by rw [hasPart_iff, hd]; simp
      simp only [ih s, hn, false_implies, true_and]
    | some r =>
      have hn : HasPart s n := by rw [hasPart_iff]; exact ⟨r, hd⟩
      cases td with
      | none => simp [hn]
      | some t =>
        cases hp : t.parse with
        | error e => simp [hn, hp]
        | ok a =>
          simp only [hp, hn, true_implies]
          rw [ih]
          constructor
          · intro h; exact ⟨⟨t, a, rfl, hp⟩, fun e he h' => h e he h'⟩
          · intro h e he h'; exact h.2 e he h'

/-- C17: a call succeeds exactly when its requirements are met. -/
theorem C17_accepted_iff (s : State) (o : Op) : (step s o).2 = none ↔ Acceptable s o := by
  cases o with
  | addDatum r d =>
    simp only [step, Acceptable]
    rw [← dget_none']
    cases dget (s.defs r).datums d.name <;> simp
  | addPart r name tr =>
    simp only [step, Acceptable, hasPart_iff]
    cases dget s.parts (name.getD (s.defs r).name) with
    | some x => simp
    | none =>
      cases tr with
      | none => simp
      | some t => cases t <;> simp
  | addMate m =>
    simp only [step, Acceptable, hasDatum_iff]
    cases h1 : dget s.parts m.partA with
    | none => simp
    | some r1 =>
      cases h2 : dget s.parts m.partB with
      | none => simp
      | some r2 =>
        cases h3 : dget (s.defs r1).datums m.datumA with
        | none => simp [h3]
        | some d1 =>
          cases h4 : dget (s.defs r2).datums m.datumB with
          | none => simp [h4, h3]
          | some d2 =>
            have := mateValidate_nil m.mtype d1.dtype d2.dtype
            by_cases hm : mateValidate m.mtype d1.dtype d2.dtype = []
            · simp [h3, h4, hm, this.mp hm]
            · simp only [h3, h4, ne_eq, hm, not_false_eq_true, if_true, reduceCtorEq, false_iff]
              rintro ⟨e1, e2, ⟨_, h, ha⟩, ⟨_, h', hb⟩, hc⟩
              cases h; cases h'
              rw [h3] at ha; rw [h4] at hb
              cases ha; cases hb
              exact hm (this.mpr hc)
  | addConstraint c =>
    simp only [step, Acceptable, hasDatum_iff]
    cases h1 : dget s.parts c.part with
    | none => simp
    | some r => cases h2 : dget (s.defs r).datums c.datum <;> simp [h2]
  | addLoadCase lc =>
    simp only [step, Acceptable, hasPart_iff, ← dget_none']
    by_cases ha : lc.attachPart = "_assembly"
    · cases dget s.loadCases lc.id <;> simp [ha]
    · cases dget s.parts lc.attachPart with
      | none => simp [ha]
      | some r => cases dget s.loadCases lc.id <;> simp [ha]
  | addBoltPattern p c b =>
    simp only [step, Acceptable, hasPart_iff, ← dget_none']
    cases dget s.parts p with
    | none => simp
    | some r =>
      cases dget s.parts c with
      | none => simp
      | some r' => cases dget s.boltPatterns (p, c) <;> simp
  | importTransforms data =>
    cases data with
    | none => simp [step, Acceptable]
    | some l =>
      simp only [step, Acceptable, Option.some.injEq, exists_eq_left']
      exact importLoop_ok l s

/-- C17 (partial): a rejected call changes nothing. Missing: `add_part` given a yapCAD `Matrix` and
`import_transforms_from_kinematic_chain`, for which it is false (`C17_matrix_part_half_added`,
`C17_import_not_atomic`). -/
theorem C17_rejected_unchanged_partial (s : State) (o : Op) (h : (step s o).2 ≠ none)
    (h1 : ∀ r n A, o ≠ .addPart r n (some (.matrix A))) (h2 : ∀ d, o ≠ .importTransforms (some d)) :
    (step s o).1 = s := by
  cases o with
  | addDatum r d => revert h; simp only [step]; split <;> simp
  | addPart r name tr =>
    revert h
    cases tr with
    | none => simp only [step]; repeat' split
              all_goals simp
    | some t =>
      cases t with
      | matrix A => exact absurd rfl (h1 r name A)
      | rows a => simp only [step]; repeat' split
                  all_goals simp
      | ndarray a => simp only [step]; repeat' split
                     all_goals simp
  | addMate m => revert h; simp only [step]; repeat' split
                 all_goals simp
  | addConstraint c => revert h; simp only [step]; repeat' split
                       all_goals simp
  | addLoadCase lc => revert h; simp only [step]; repeat' split
                      all_goals simp
  | addBoltPattern p c b => revert h; simp only [step]; repeat' split
                            all_goals simp
  | importTransforms d =>
    cases d with
    | none => rfl
    | some l => exact absurd rfl (h2 l)

/-- C17 fails for `add_part(part, transform=Matrix)`: the call raises, yet the part is registered —
without a transform, so asking for any of its datums raises `KeyError` and adding it again is
refused. -/
theorem C17_matrix_part_half_added (s : State) (r : Nat) (n : String) (A : Mat ℝ) (hn : ¬ HasPart s n)
    (ht : dget s.transforms n = none) :
    let o := Op.addPart r (some n) (some (.matrix A))
    (step s o).2 = some .attributeError ∧ HasPart (step s o).1 n ∧
    (∀ t, (step (step s o).1 (.addPart r (some n) t)).2 = some .assemblyError) ∧
    (∀ dn d, dget (s.defs r).datums dn = some d →
      (step s o).1.transformedDatum n dn = .error .keyError) := by
  intro o
  have h0 : dget s.parts n = none := by
    cases hd : dget s.parts n with
    | none => rfl
    | some x => exact absurd ((hasPart_iff s n).mpr ⟨x, hd⟩) hn
  have e : step s o = ({ s with parts := dset s.parts n r }, some .attributeError) := by
    simp [o, step, h0]
  rw [e]
  refine ⟨rfl, ?_, ?_, ?_⟩
  · rw [hasPart_iff]; exact ⟨r, by simp [dget_dset]⟩
  · intro t; simp [step, dget_dset]
  · intro dn d hd; simp [State.transformedDatum, dget_dset, hd, ht]

/-- C17 fails for imports: entries before the offending one stay imported. -/
theorem C17_import_not_atomic : ∃ (s : State) (o : Op), (step s o).2 = some .assemblyError ∧
    (step s o).1 ≠ s := by
  let s : State := { State.empty (fun _ => ⟨"d", []⟩) with parts := [("a", 0), ("b", 0)] }
  refine ⟨s, .importTransforms (some [("a", some (.nested [[1,0,0,5],[0,1,0,0],[0,0,1,0],[0,0,0,1]])),
    ("b", none)]), ?_, ?_⟩
  · simp [step, importLoop, s, State.empty, dget, TData.parse]
  · intro h
    have := congrArg State.transforms h
    simp [step, importLoop, s, State.empty, dget, TData.parse, dset] at this

/-- C17 fails for names of mates and constraints: the same mate (or constraint) can be added again. -/
theorem C17_mate_names_not_unique (s : State) (m : Mate ℝ) (h : Acceptable s (.addMate m)) :
    (run s [.addMate m, .addMate m]).mates = s.mates ++ [m, m] := by
  have key : ∀ s : State, Acceptable s (.addMate m) →
      (step s (.addMate m)).1 = { s with mates := s.mates ++ [m] } := by
    intro s h
    obtain ⟨d1, d2, h1, h2, h3⟩ := h
    rw [hasDatum_iff] at h1 h2
    obtain ⟨r1, a1, b1⟩ := h1
    obtain ⟨r2, a2, b2⟩ := h2
    simp [step, a1, a2, b1, b2, (mateValidate_nil _ _ _).mpr h3]
  have h' : Acceptable { s with mates := s.mates ++ [m] } (.addMate m) := h
  simp only [run, List.foldl_cons, List.foldl_nil]
  rw [key s h, key _ h']
  simp

/-! ## C55: validation -/

theorem validateLoop_ok (s : State) (cs : List Constraint) : ∀ acc out,
    validateLoop s acc cs = .ok out →
    out.2.1 = acc.2.1 ++ (cs.filter fun c => !verdict s c && decide (c.severity = "error")).map (·.name) ∧
    out.2.2 = acc.2.2 ++ (cs.filter fun c => !verdict s c && decide (c.severity = "warning")).map (·.name) ∧
    (∀ n, (∀ c ∈ cs, c.name ≠ n) → dget out.1 n = dget acc.1 n) ∧
    (∀ c ∈ cs, ∃ r, dget out.1 c.name = some r) ∧
    ((cs.map (·.name)).Nodup → ∀ c ∈ cs, ∃ r, dget out.1 c.name = some r ∧ r.passed = verdict s c) := by
  induction cs with
  | nil =>
    intro acc out h
    simp only [validateLoop, Except.ok.injEq] at h
    subst h
    simp
  | cons c cs ih =>
    intro acc out h
    simp only [validateLoop] at h
    cases hd : s.transformedDatum c.part c.datum with
    | error e => simp [hd] at h
    | ok d =>
      simp only [hd] at h
      have hv : verdict s c = (c.evaluate d).passed := by simp [verdict, hd]
      have tail : ∀ a : List (String × CResult) × List String × List String,
          a.1 = dset acc.1 c.name (c.evaluate d) → validateLoop s a cs = .ok out →
          (∀ n, (∀ c' ∈ c :: cs, c'.name ≠ n) → dget out.1 n = dget acc.1 n) ∧
          (∀ c' ∈ c :: cs, ∃ r, dget out.1 c'.name = some r) ∧
          (((c :: cs).map (·.name)).Nodup → ∀ c' ∈ c :: cs, ∃ r, dget out.1 c'.name = some r ∧
            r.passed = verdict s c') := by
        intro a ha hok
        obtain ⟨_, _, h3, h4, h5⟩ := ih a out hok
        refine ⟨?_, ?_, ?_⟩
        · intro n hn
          rw [h3 n fun c' hc' => hn c' (List.mem_cons_of_mem _ hc'), ha, dget_dset,
            if_neg (Ne.symm (hn c List.mem_cons_self))]
        · intro c' hc'
          rcases List.mem_cons.mp hc' with rfl | hc'
          · by_cases hex : ∃ c'' ∈ cs, c''.name = c'.name
            · obtain ⟨c'', m, e⟩ := hex
              rw [← e]; exact h4 c'' m
            · push Not at hex
              exact ⟨c'.evaluate d, by rw [h3 _ hex, ha, dget_dset, if_pos rfl]⟩
          · exact h4 c' hc'
        · intro hnd c' hc'
          simp only [List.map_cons, List.nodup_cons] at hnd
          rcases List.mem_cons.mp hc' with rfl | hc'
          · have hex : ∀ c'' ∈ cs, c''.name ≠ c'.name := by
              intro c'' m e
              exact hnd.1 (List.mem_map.mpr ⟨c'', m, e⟩)
            exact ⟨c'.evaluate d, by rw [h3 _ hex, ha, dget_dset, if_pos rfl], hv.symm⟩
          · exact h5 hnd.2 c' hc'
      by_cases hp : (c.evaluate d).passed = true
      · simp only [hp, if_true] at h
        obtain ⟨h1, h2, _⟩ := ih _ out h
        refine ⟨?_, ?_, tail _ rfl h⟩
        · rw [h1]; simp [hv, hp]
        · rw [h2]; simp [hv, hp]
      · simp only [Bool.not_eq_true] at hp
        by_cases he : c.severity = "error"
        · simp only [hp, Bool.false_eq_true, if_false, he, if_true] at h
          obtain ⟨h1, h2, _⟩ := ih _ out h
          refine ⟨?_, ?_, tail _ rfl h⟩
          · rw [h1]; simp [hv, hp, he]
          · rw [h2]; simp [hv, hp, he]
        · by_cases hw : c.severity = "warning"
          · simp only [hp, Bool.false_eq_true, if_false, hw, if_true] at h
            have hne : ¬ ("warning" = "error") := by decide
            simp only [hne, if_false] at h
            obtain ⟨h1, h2, _⟩ := ih _ out h
            refine ⟨?_, ?_, tail _ rfl h⟩
            · rw [h1]; simp [hv, hp, hw]
            · rw [h2]; simp [hv, hp, hw]
          · simp only [hp, Bool.false_eq_true, if_false, hw, he] at h
            obtain ⟨h1, h2, _⟩ := ih _ out h
            refine ⟨?_, ?_, tail _ rfl h⟩
            · rw [h1]; simp [hv, hp, he]
            · rw [h2]; simp [hv, hp, hw]

/-- C55 (partial: relative to `transformedDatum`, which ignores numpy transforms): the assembly is
reported valid exactly when every constraint of severity "error" passes; the failed list and the
warnings name the failing constraints of severity "error"/"warning" in order; when constraint names are
distinct every constraint has its own result. -/
theorem C55_validate_partial (s : State) (r : VResult) (h : validate s = .ok r) :
    (r.isValid = true ↔ ∀ c ∈ s.constraints, c.severity = "error" → verdict s c = true) ∧
    r.failed = (s.constraints.filter fun c => !verdict s c && decide (c.severity = "error")).map (·.name) ∧
    r.warnings = (s.constraints.filter fun c => !verdict s c && decide (c.severity = "warning")).map (·.name) ∧
    ((s.constraints.map (·.name)).Nodup → ∀ c ∈ s.constraints, ∃ x, dget r.results c.name = some x ∧
      x.passed = verdict s c) := by
  unfold validate at h
  cases hl : validateLoop s ([], [], []) s.constraints with
  | error e => simp [hl] at h
  | ok out =>
    obtain ⟨o1, o2, o3⟩ := out
    simp only [hl, Except.ok.injEq] at h
    obtain ⟨h1, h2, _, _, h5⟩ := validateLoop_ok s _ _ _ hl
    simp only [List.nil_append] at h1 h2
    subst h
    refine ⟨?_, h1, h2, h5⟩
    simp only [decide_eq_true_eq, List.length_eq_zero_iff]
    rw [h1, List.map_eq_nil_iff, List.filter_eq_nil_iff]
    constructor
    · intro hh c hc hs
      have := hh c hc
      simpa [hs] using this
    · intro hh c hc
      by_cases hs : c.severity = "error"
      · simp [hh c hc hs]
      · simp [hs]

/-- every part has a transform that is a numpy array -/
def NumpyTransforms (s : State) : Prop := ∀ n, HasPart s n → ∃ a, dget s.transforms n = some (.ndarray a)

/-- C55 fails for moved parts: with transforms held as numpy arrays (what `add_part` and
`import_transforms_from_kinematic_chain` store), the validation result is the same wherever the parts
are. -/
theorem C55_ignores_part_positions (s : State) (tr : List (String × TArg)) (h : NumpyTransforms s)
    (h' : NumpyTransforms { s with transforms := tr }) :
    validate { s with transforms := tr } = validate s := by
  have ht : ∀ p dn, ({ s with transforms := tr } : State).transformedDatum p dn = s.transformedDatum p dn := by
    intro p dn
    unfold State.transformedDatum
    cases hp : dget s.parts p with
    | none => rfl
    | some r =>
      simp only
      cases hd : dget (s.defs r).datums dn with
      | none => rfl
      | some d =>
        obtain ⟨a, ha⟩ := h p ((hasPart_iff s p).mpr ⟨r, hp⟩)
        obtain ⟨b, hb⟩ := h' p ((hasPart_iff _ p).mpr ⟨r, hp⟩)
        simp only [ha]
        have hb' : dget tr p = some (.ndarray b) := hb
        simp only [hb']
        rw [C54_ndarray_ignored d b a]
  have hloop : ∀ cs acc, validateLoop { s with transforms := tr } acc cs = validateLoop s acc cs := by
    intro cs
    induction cs with
    | nil => intro acc; rfl
    | cons c cs ih =>
      intro acc
      simp only [validateLoop, ht, ih]
  unfold validate
  rw [hloop]

/-- C56 (partial): `validate_and_raise` raises exactly when validation fails. Missing: the exception is
never the promised `AssemblyError` (`C56_never_assembly_error`). -/
theorem C56_raises_iff_invalid_partial (s : State) (r : VResult) (h : validate s = .ok r) :
    validateAndRaise s = none ↔ r.isValid = true := by
  unfold validateAndRaise
  simp only [h]
  by_cases hv : r.isValid = true
  · simp [hv]
  · rw [if_neg hv]
    simp only [hv, iff_false]
    cases r.failed with
    | nil => simp
    | cons n l => cases hd : dget r.results n <;> simp [hd]

/-- C56 fails: when the assembly is invalid the exception is an `AttributeError`. -/
theorem C56_never_assembly_error (s : State) (r : VResult) (h : validate s = .ok r) (hv : r.isValid = false) :
    validateAndRaise s = some .attributeError := by
  unfold validate at h
  cases hl : validateLoop s ([], [], []) s.constraints with
  | error e => simp [hl] at h
  | ok out =>
    obtain ⟨o1, o2, o3⟩ := out
    have h0 := h
    simp only [hl, Except.ok.injEq] at h
    obtain ⟨h1, _, _, h4, _⟩ := validateLoop_ok s _ _ _ hl
    simp only [List.nil_append] at h1
    subst h
    have hval : validate s = .ok ⟨decide (o2.length = 0), o1, o2, o3⟩ := by unfold validate; rw [hl]
    unfold validateAndRaise
    simp only [hval, hv, Bool.false_eq_true, if_false]
    cases ho : o2 with
    | nil => simp [ho] at hv
    | cons n l =>
      simp only
      have hn : n ∈ o2 := by rw [ho]; exact List.mem_cons_self
      rw [h1] at hn
      obtain ⟨c, hc, rfl⟩ := List.mem_map.mp hn
      obtain ⟨x, hx⟩ := h4 c (List.mem_of_mem_filter hc)
      have hx' : dget o1 c.name = some x := hx
      simp [hx']

/-! ## C57: degrees of freedom -/

/-- number of mates of a type whose second part is `p` -/
def countMates (ms : List (Mate ℝ)) (t : MateType) (p : String) : Nat :=
  (ms.filter fun m => decide (m.mtype = t) && decide (m.partB = p)).length

theorem dofLoop_spec (ms : List (Mate ℝ)) : ∀ (dof : List (String × Int)),
    (∀ m ∈ ms, m.mtype = .coincident ∨ m.mtype = .concentric) →
    (∀ m ∈ ms, ∃ n, dget dof m.partB = some n) → (∀ p n, dget dof p = some n → 0 ≤ n) →
    ∃ out, dofLoop dof ms = .ok out ∧ ∀ p,
      dget out p = (dget dof p).map fun n =>
        max 0 (n - 3 * (countMates ms .coincident p : Int) - 2 * (countMates ms .concentric p : Int)) := by
  induction ms with
  | nil =>
    intro dof _ _ h0
    refine ⟨dof, rfl, ?_⟩
    intro p
    cases hd : dget dof p with
    | none => rfl
    | some n => simp [countMates, max_eq_right (h0 p n hd)]
  | cons m ms ih =>
    intro dof ht he h0
    obtain ⟨n, hn⟩ := he m List.mem_cons_self
    have step : ∀ k : Int, 0 ≤ k →
        (∀ m' ∈ ms, ∃ n', dget (dset dof m.partB (max 0 (n - k))) m'.partB = some n') ∧
        (∀ p x, dget (dset dof m.partB (max 0 (n - k))) p = some x → 0 ≤ x) := by
      intro k hk
      refine ⟨?_, ?_⟩
      · intro m' hm'
        rw [dget_dset]
        split_ifs
        · exact ⟨_, rfl⟩
        · exact he m' (List.mem_cons_of_mem _ hm')
      · intro p x hx
        rw [dget_dset] at hx
        split_ifs at hx
        · simp only [Option.some.injEq] at hx
          rw [← hx]; exact le_max_left _ _
        · exact h0 p x hx
    have ht' : ∀ m' ∈ ms, m'.mtype = .coincident ∨ m'.mtype = .concentric :=
      fun m' h => ht m' (List.mem_cons_of_mem _ h)
    rcases ht m List.mem_cons_self with hm | hm
    · obtain ⟨a, b⟩ := step 3 (by norm_num)
      obtain ⟨out, ho, hs⟩ := ih _ ht' a b
      refine ⟨out, by simp only [dofLoop, hm, hn]; exact ho, ?_⟩
      intro p
      rw [hs p, dget_dset]
      by_cases hp : p = m.partB
      · subst hp
        simp only [if_true, hn, Option.map_some, Option.some.injEq, countMates, List.filter_cons, hm]
        simp
        omega
      · have hp' : ¬ m.partB = p := fun h => hp h.symm
        simp [hp, hp', countMates, List.filter_cons]
    · obtain ⟨a, b⟩ := step 2 (by norm_num)
      obtain ⟨out, ho, hs⟩ := ih _ ht' a b
      refine ⟨out, by simp only [dofLoop, hm, hn]; exact ho, ?_⟩
      intro p
      rw [hs p, dget_dset]
      by_cases hp : p = m.partB
      · subst hp
        simp only [if_true, hn, Option.map_some, Option.some.injEq, countMates, List.filter_cons, hm]
        simp
        omega
      · have hp' : ¬ m.partB = p := fun h => hp h.symm
        simp [hp, hp', countMates, List.filter_cons]

theorem dget_map6 (l : List (String × Nat)) (p : String) :
    dget (l.map fun e => (e.1, (6 : Int))) p = (dget l p).map fun _ => 6 := by
  induction l with
  | nil => rfl
  | cons e l ih =>
    obtain ⟨k, v⟩ := e
    simp only [List.map_cons, dget]
    split_ifs <;> simp [ih]

/-- C57 (partial: assemblies whose mates are all COINCIDENT or CONCENTRIC): every part has a count,
six minus three per coincident and two per concentric mate in which it is the second part, floored at
zero — so it is always within 0..6. Missing: all other mate types, for which the method raises
(`C57_other_mates_raise`). -/
theorem C57_dof_partial (s : State) (h : Integrity s)
    (ht : ∀ m ∈ s.mates, m.mtype = .coincident ∨ m.mtype = .concentric) :
    ∃ out, degreesOfFreedom s = .ok out ∧ ∀ p, HasPart s p →
      ∃ n, dget out p = some n ∧ 0 ≤ n ∧ n ≤ 6 ∧
        n = max 0 (6 - 3 * (countMates s.mates .coincident p : Int) - 2 * (countMates s.mates .concentric p : Int)) := by
  obtain ⟨out, h1, h2⟩ := dofLoop_spec s.mates (s.parts.map fun e => (e.1, 6)) ht (by
    intro m hm
    obtain ⟨_, d2, _, b, _⟩ := h.mates m hm
    obtain ⟨r, hr, _⟩ := (hasDatum_iff _ _ _ _).mp b
    exact ⟨6, by rw [dget_map6, hr]; rfl⟩) (by
    intro p n hn
    rw [dget_map6] at hn
    cases hd : dget s.parts p with
    | none => simp [hd] at hn
    | some r => simp [hd] at hn; omega)
  refine ⟨out, h1, ?_⟩
  intro p hp
  obtain ⟨r, hr⟩ := (hasPart_iff s p).mp hp
  have := h2 p
  rw [dget_map6, hr] at this
  simp only [Option.map_some] at this
  exact ⟨_, this, le_max_left _ _, by omega, rfl⟩

/-- C57 fails for any other mate type: the method raises `AttributeError`. -/
theorem C57_other_mates_raise (s : State) (h : Integrity s) (m : Mate ℝ) (hm : m ∈ s.mates)
    (ht : m.mtype ≠ .coincident ∧ m.mtype ≠ .concentric) :
    degreesOfFreedom s = .error .attributeError := by
  have key : ∀ (ms : List (Mate ℝ)) (dof : List (String × Int)), m ∈ ms →
      (∀ m ∈ ms, ∃ n, dget dof m.partB = some n) → dofLoop dof ms = .error .attributeError := by
    intro ms
    induction ms with
    | nil => intro dof h; simp at h
    | cons a ms ih =>
      intro dof hmem he
      obtain ⟨n, hn⟩ := he a List.mem_cons_self
      have he' : ∀ x, ∀ m ∈ ms, ∃ n, dget (dset dof a.partB x) m.partB = some n := by
        intro x m' hm'
        rw [dget_dset]
        split_ifs
        · exact ⟨_, rfl⟩
        · exact he m' (List.mem_cons_of_mem _ hm')
      rcases List.mem_cons.mp hmem with rfl | hmem
      · obtain ⟨t1, t2⟩ := ht
        unfold dofLoop
        cases hmt : m.mtype <;> simp_all
      · unfold dofLoop
        cases hmt : a.mtype <;> simp only [hn] <;> first | rfl | exact ih _ hmem (he' _)
  refine key s.mates _ hm ?_
  intro m' hm'
  obtain ⟨_, d2, _, b, _⟩ := h.mates m' hm'
  obtain ⟨r, hr, _⟩ := (hasDatum_iff _ _ _ _).mp b
  exact ⟨6, by rw [dget_map6, hr]; rfl⟩

/-! ## concrete instances -/

/-- a motor with an axis and a bracket with an axis and a plane -/
def exDefs : Nat → PartDef
  | 0 => ⟨"MOTOR", []⟩
  | _ => ⟨"BRACKET", []⟩

def exAxis : Datum := { name := "ax", dtype := .axis, origin := ![1, 0, 0, 1], direction := some ![0, 0, 1, 0] }
def exPlane : Datum := { name := "pl", dtype := .plane, origin := ![0, 0, 0, 1], normal := some ![0, 1, 0, 0] }

def exM (t : MateType) (da db : String) : Mate ℝ :=
  { name := "m", mtype := t, partA := "b1", datumA := da, partB := "m1", datumB := db, offset := 0,
    angle := 0, axis := [0, 0, 1, 0], secondaryAxis := [1, 0, 0, 0], limits := none, dynamics := none,
    couplingRatio := 1, couplingOffset := 0, couplingReverse := false, couplingPitch := none, metadata := [] }

noncomputable def exC : Constraint :=
  { name := "r", ctype := .atRadius, part := "m1", datum := "ax", center := some ![0, 0, 0], radius := some 5 }

/-- the history: two parts, a late datum, an accepted and a refused mate, a constraint -/
noncomputable def exOps : List Op :=
  [.addDatum 0 exAxis, .addPart 0 (some "m1") (some (.ndarray fun i j => if i = j then 1 else 0)),
   .addPart 1 (some "b1") none, .addMate (exM .concentric "ax" "ax"),
   .addDatum 1 exAxis, .addDatum 1 exPlane, .addMate (exM .concentric "ax" "ax"),
   .addMate (exM .concentric "pl" "ax"), .addConstraint exC]

/-- after it there is exactly one mate and one constraint: the mates with a missing datum and with a
plane were refused -/
example : (run (State.empty exDefs) exOps).mates = [exM .concentric "ax" "ax"] ∧
    (run (State.empty exDefs) exOps).constraints = [exC] ∧
    (run (State.empty exDefs) exOps).parts = [("m1", 0), ("b1", 1)] := by
  simp [run, exOps, step, State.empty, exDefs, exAxis, exPlane, dget, dset, exM, exC, mateValidate,
    Function.update]

/-- its degrees of freedom: the motor keeps 4 -/
example : degreesOfFreedom (run (State.empty exDefs) exOps) = .ok [("m1", 4), ("b1", 6)] := by
  simp [run, exOps, step, State.empty, exDefs, exAxis, exPlane, dget, dset, exM, exC, mateValidate,
    Function.update, degreesOfFreedom, dofLoop]

theorem exAxis_unit : UnitDatum exAxis := by
  refine ⟨by simp [exAxis], ?_, by simp [exAxis], by simp [exAxis], by simp [exAxis], by simp [exAxis]⟩
  intro v hv
  simp only [exAxis, Option.some.injEq] at hv
  subst hv
  exact ⟨by simp, by simp [mag]⟩

/-- and it is invalid (the axis is at radius 1, not 5), so C56's hypotheses are met -/
example : ∃ r, validate (run (State.empty exDefs) exOps) = .ok r ∧ r.isValid = false ∧
    validateAndRaise (run (State.empty exDefs) exOps) = some .attributeError := by
  have ht : (run (State.empty exDefs) exOps).transformedDatum "m1" "ax" = .ok exAxis := by
    have e : dget (run (State.empty exDefs) exOps).parts "m1" = some 0 := by
      simp [run, exOps, step, State.empty, exDefs, exAxis, exPlane, dget, dset, exM, exC, mateValidate,
        Function.update]
    have e2 : dget ((run (State.empty exDefs) exOps).defs 0).datums "ax" = some exAxis := by
      simp [run, exOps, step, State.empty, exDefs, exAxis, exPlane, dget, dset, exM, exC, mateValidate,
        Function.update]
    have e3 : dget (run (State.empty exDefs) exOps).transforms "m1" =
        some (.ndarray fun i j => if i = j then 1 else 0) := by
      simp [run, exOps, step, State.empty, exDefs, exAxis, exPlane, dget, dset, exM, exC, mateValidate,
        Function.update]
    unfold State.transformedDatum
    simp only [e, e2, e3, C54_ndarray_is_identity exAxis exAxis_unit]
  have hc : (run (State.empty exDefs) exOps).constraints = [exC] := by
    simp [run, exOps, step, State.empty, exDefs, exAxis, exPlane, dget, dset, exM, exC, mateValidate,
      Function.update]
  have hf : (exC.evaluate exAxis).passed = false := by
    simp [exC, Constraint.evaluate, Constraint.checkAtRadius, exAxis, norm3, dot3, flat, first3]
    norm_num
  have hv : ∃ r, validate (run (State.empty exDefs) exOps) = .ok r ∧ r.isValid = false := by
    refine ⟨⟨false, [("r", exC.evaluate exAxis)], ["r"], []⟩, ?_, rfl⟩
    unfold validate
    rw [hc]
    have h1 : exC.part = "m1" := rfl
    have h2 : exC.datum = "ax" := rfl
    have h3 : exC.severity = "error" := rfl
    have h4 : exC.name = "r" := rfl
    simp [validateLoop, h1, h2, h3, h4, ht, hf, dset]
  obtain ⟨r, h1, h2⟩ := hv
  exact ⟨r, h1, h2, C56_never_assembly_error _ r h1 h2⟩

end Verif.Assembly
