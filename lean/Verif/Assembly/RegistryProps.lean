import Verif.Assembly.Registry
import Verif.Assembly.RotBetween
import Verif.Assembly.FaceMateProps

/-! C68 (datum registry) and C69 (datum frames). -/

namespace Verif.Assembly.Registry
open Verif.Assembly Verif.Dict

/-- Invariant: every bound name refers to an existing object. -/
def Ok (s : State) : Prop := ∀ k n, dget s.sources k = some n → n < s.heap.length

theorem ok_bindNew {s : State} (h : Ok s) (id : String) (o : Source) : Ok (s.bindNew id o) := by
  intro k n hk
  simp only [State.bindNew, dget_dset] at hk ⊢
  simp only [List.length_append, List.length_singleton]
  split_ifs at hk with e
  · simp only [Option.some.injEq] at hk; omega
  · have := h k n hk; omega

theorem obj_bindNew_same (s : State) (id : String) (o : Source) : (s.bindNew id o).obj id = some o := by
  simp [State.obj, State.bindNew, dget_dset]

theorem obj_bindNew_other {s : State} (h : Ok s) {id id' : String} (hne : id' ≠ id) (o : Source) :
    (s.bindNew id o).obj id' = s.obj id' := by
  simp only [State.obj, State.bindNew, dget_dset, if_neg hne]
  cases hk : dget s.sources id' with
  | none => rfl
  | some n =>
    have := h _ _ hk
    simp [List.getElem?_append_left this]

theorem ok_registerDatum {s : State} (h : Ok s) (id : String) (d : Datum) : Ok (s.registerDatum id d) := by
  unfold State.registerDatum
  cases hk : dget s.sources id with
  | some n =>
    simp only [hk]
    intro k n' hn'
    simp only at hn' ⊢
    rw [List.length_modify]; exact h k n' hn'
  | none =>
    have hb := ok_bindNew h id { datums := [], partNames := [id] }
    have hg : dget (s.bindNew id { datums := [], partNames := [id] }).sources id = some s.heap.length := by
      simp [State.bindNew, dget_dset]
    simp only [hg]
    intro k n' hn'
    simp only at hn' ⊢
    rw [List.length_modify]; exact hb k n' hn'

theorem ok_load {s : State} (h : Ok s) (fs : Fs) (id : String) : Ok (s.load fs id) := by
  unfold State.load
  have key : ∀ (t : State) (l : List String), Ok t → Ok { t with loaded := l } := fun t l ht => ht
  apply key
  cases hf : fs s.paths id with
  | some f =>
    cases f with
    | json c =>
      simp only
      cases c with
      | none => exact ok_bindNew h _ _
      | some c =>
        obtain ⟨pn, ds⟩ := c
        unfold State.loadJson
        cases pn with
        | none => exact ok_bindNew h _ _
        | some p =>
          simp only
          split_ifs
          · exact ok_bindNew h _ _
          · intro k n hk
            simp only [dget_dset] at hk
            split_ifs at hk with e
            · simp only [Option.some.injEq] at hk
              simp [State.bindNew]; omega
            · exact ok_bindNew h id _ k n hk
    | dslNoSidecar => exact ok_bindNew h _ _
    | other => exact h
  | none =>
    simp only [State.partLookup]
    cases hfd : s.sources.find? _ with
    | none => exact ok_bindNew h _ _
    | some e =>
      simp only
      intro k n hk
      simp only [dget_dset] at hk ⊢
      split_ifs at hk with hke
      · simp only [Option.some.injEq] at hk
        have hp := List.find?_some hfd
        rw [← hk]
        by_contra hlt
        simp [List.getElem?_eq_none (not_lt.1 hlt)] at hp
      · exact h k n hk

theorem ok_ensure {s : State} (h : Ok s) (fs : Fs) (id : String) : Ok (s.ensure fs id) := by
  unfold State.ensure
  split_ifs
  · exact h
  · exact ok_load h fs id

theorem ok_step {s : State} (h : Ok s) (op : Op) : Ok (s.step op) := by
  cases op with
  | registerSource id ds => exact ok_bindNew h _ _
  | registerDatum id d => exact ok_registerDatum h _ _
  | get fs id name => exact ok_ensure h fs id
  | addPath p =>
    simp only [State.step, State.addPath]
    split_ifs <;> exact h
  | clear => intro k n hk; simp [State.step, State.clear, dget] at hk

theorem ok_steps (ops : List Op) : Ok (State.steps {} ops) := by
  have : ∀ (ops : List Op) (s : State), Ok s → Ok (State.steps s ops) := by
    intro ops
    induction ops with
    | nil => intro s h; exact h
    | cons o ops ih => intro s h; exact ih _ (ok_step h o)
  exact this ops {} (by intro k n hk; simp [dget] at hk)

/-- C68: after any history, registering a source makes exactly its datums available under its name,
whatever is on disk, and leaves every other source as it was. -/
theorem C68_register_source (ops : List Op) (id : String) (ds : List (String × Datum)) (fs : Fs) :
    (∀ name, (((State.steps {} ops).registerSource id ds).getDatum fs id name).1 = dget ds name) ∧
    (∀ id', id' ≠ id → ((State.steps {} ops).registerSource id ds).obj id' = (State.steps {} ops).obj id') := by
  have hok := ok_steps ops
  constructor
  · intro name
    have hl : id ∈ ((State.steps {} ops).registerSource id ds).loaded := by simp [State.registerSource]
    unfold State.getDatum State.ensure
    rw [if_pos hl]
    have : ((State.steps {} ops).registerSource id ds).obj id = some { datums := ds, partNames := [id] } :=
      obj_bindNew_same _ _ _
    simp only [this, Option.bind_some]
  · intro id' hne
    exact obj_bindNew_other hok hne _

/-- C68: after any history, a datum added with `register_datum` is what the next lookup of its name
returns, whatever is on disk. The hypothesis excludes one case: a name that is bound only as the
`part_name` of a file already read and has not itself been looked up yet. -/
theorem C68_register_datum (ops : List Op) (id : String) (d : Datum) (fs : Fs)
    (hload : (dget (State.steps {} ops).sources id).isSome → id ∈ (State.steps {} ops).loaded) :
    (((State.steps {} ops).registerDatum id d).getDatum fs id d.name).1 = some d := by
  have hok := ok_steps ops
  generalize State.steps {} ops = s at *
  unfold State.registerDatum
  cases hk : dget s.sources id with
  | some n =>
    have hn := hok id n hk
    have hl := hload (by simp [hk])
    simp only [hk]
    unfold State.getDatum State.ensure
    rw [if_pos hl]
    simp [State.obj, hk, List.getElem?_modify, List.getElem?_eq_getElem hn, dget_dset]
  | none =>
    have hg : dget (s.bindNew id { datums := [], partNames := [id] }).sources id = some s.heap.length := by
      simp [State.bindNew, dget_dset]
    simp only [hg]
    unfold State.getDatum State.ensure
    rw [if_pos (by simp)]
    simp [State.obj, hg, State.bindNew, dget_dset]

/-- Non-vacuity: two registrations and a failed lookup in between meet the hypothesis. -/
example (fs : Fs) (h : fs [] "x" = none) (d e : Datum) :
    let ops : List Op := [.registerDatum "a" d, .get fs "x" "n", .registerSource "b" [("q", e)]]
    (dget (State.steps {} ops).sources "a").isSome ∧ "a" ∈ (State.steps {} ops).loaded := by
  simp [State.steps, State.step, State.registerDatum, State.getDatum, State.ensure, State.load, h,
    State.partLookup, State.bindNew, State.registerSource, dset, dget]

/-- C68: a datum in a JSON source file is found on the first lookup of that source. -/
theorem C68_file_datum (s : State) (fs : Fs) (id : String) (hl : id ∉ s.loaded)
    (pn : Option String) (ds : List (String × Datum)) (hf : fs s.paths id = some (.json (some (pn, ds))))
    (name : String) : (s.getDatum fs id name).1 = dget ds name := by
  unfold State.getDatum State.ensure
  rw [if_neg hl]
  have : (s.load fs id).obj id = some { datums := ds, partNames := id :: pn.toList } := by
    unfold State.load
    rw [hf]
    simp only [State.loadJson]
    cases pn with
    | none => exact obj_bindNew_same s id _
    | some p =>
      by_cases h : p = id
      · simp only [if_pos h]; exact obj_bindNew_same s id _
      · simp [if_neg h, State.obj, State.bindNew, dget_dset, Ne.symm h]
  simp only [this, Option.bind_some]

/-- C68 (violated): a failed lookup is remembered. Once a source has been looked up and not found, its
file is never read again, even after it appears on disk or its directory is added with
`add_search_path`. -/
theorem C68_negative_lookup_is_sticky (fs : Fs) (id name : String)
    (h : fs [] id = none) (fs' : Fs) (p : String) :
    (((State.getDatum {} fs id name).2.addPath p).getDatum fs' id name).1 = none := by
  simp [State.getDatum, State.ensure, State.load, h, State.partLookup, State.bindNew, State.addPath,
    State.obj, dset, dget]

/-- C68 (violated): registering one extra datum for a source before its file has been read hides every
datum of the file. -/
theorem C68_register_datum_shadows_file (fs : Fs) (id name : String) (d : Datum) (hne : name ≠ d.name) :
    ((State.registerDatum {} id d).getDatum fs id name).1 = none := by
  simp [State.registerDatum, State.getDatum, State.ensure, State.bindNew, State.obj, dset, dget]
  exact fun h => hne h.symm

/-- C68 (violated): reading a JSON file replaces a source that was registered under the file's
`part_name`. -/
theorem C68_file_replaces_registered (id p name : String) (hne : p ≠ id) (d : Datum) (fs : Fs)
    (hf : fs [] id = some (.json (some (some p, [])))) :
    let s := State.registerSource {} p [(name, d)]
    (s.getDatum fs p name).1 = some d ∧
    (((s.getDatum fs id name).2).getDatum fs p name).1 = none := by
  have h1 : id ≠ p := fun e => hne e.symm
  constructor
  · simp [State.registerSource, State.getDatum, State.ensure, State.bindNew, State.obj, dset, dget]
  · simp [State.registerSource, State.getDatum, State.ensure, State.bindNew, State.obj, dset, dget, h1,
      State.load, hf, State.loadJson, hne]


theorem paths_ensure (s : State) (fs : Fs) (id : String) : (s.ensure fs id).paths = s.paths := by
  unfold State.ensure
  split_ifs
  · rfl
  · unfold State.load
    simp only
    split <;> simp [State.loadJson, State.bindNew, State.partLookup] <;> (repeat' split) <;> rfl

theorem paths_step (s : State) (o : Op) : (s.step o).paths = match o with
    | .addPath p => if p ∈ s.paths then s.paths else s.paths ++ [p]
    | _ => s.paths := by
  cases o with
  | registerSource id ds => rfl
  | registerDatum id d => simp only [State.step, State.registerDatum]; (repeat' split) <;> simp_all [State.bindNew]
  | get fs id name => exact paths_ensure s fs id
  | addPath p => simp only [State.step, State.addPath]; split_ifs <;> rfl
  | clear => rfl

/-- C68: after any history the search paths are exactly the paths added, each once, in the order in which
they were first added; no other operation, `clear` included, changes them. -/
theorem C68_search_paths (ops : List Op) :
    (State.steps {} ops).paths.Nodup ∧
    (∀ p, p ∈ (State.steps {} ops).paths ↔ Op.addPath p ∈ ops) ∧
    ∀ more, (State.steps {} ops).paths <+: (State.steps {} (ops ++ more)).paths := by
  have key : ∀ (ops : List Op) (s : State), s.paths.Nodup →
      (State.steps s ops).paths.Nodup ∧ (∀ p, p ∈ (State.steps s ops).paths ↔ p ∈ s.paths ∨ Op.addPath p ∈ ops) ∧
      s.paths <+: (State.steps s ops).paths := by
    intro ops
    induction ops with
    | nil => intro s h; exact ⟨h, by simp [State.steps], List.prefix_refl _⟩
    | cons o ops ih =>
      intro s h
      have h1 : (s.step o).paths.Nodup ∧ (∀ p, p ∈ (s.step o).paths ↔ p ∈ s.paths ∨ o = Op.addPath p) ∧
          s.paths <+: (s.step o).paths := by
        rw [paths_step]
        cases o with
        | addPath q =>
          by_cases hq : q ∈ s.paths
          · simp only [hq, if_true]
            refine ⟨h, ?_, List.prefix_refl _⟩
            intro p
            constructor
            · exact Or.inl
            · rintro (hp | hp)
              · exact hp
              · injection hp with e; exact e ▸ hq
          · simp only [hq, if_false]
            refine ⟨?_, ?_, List.prefix_append _ _⟩
            · rw [List.nodup_append]
              exact ⟨h, by simp, by intro a ha b hb e; simp at hb; subst e hb; exact hq ha⟩
            · intro p
              simp only [List.mem_append, List.mem_singleton, Op.addPath.injEq]
              exact or_congr Iff.rfl eq_comm
        | _ => exact ⟨h, by simp, List.prefix_refl _⟩
      obtain ⟨a, b, c⟩ := h1
      obtain ⟨a2, b2, c2⟩ := ih (s.step o) a
      refine ⟨a2, ?_, c.trans c2⟩
      intro p
      show p ∈ (State.steps (s.step o) ops).paths ↔ _
      rw [b2 p, b p, List.mem_cons, or_assoc]
      exact or_congr Iff.rfl (or_congr eq_comm Iff.rfl)
  obtain ⟨a, b, -⟩ := key ops {} (by simp)
  refine ⟨a, ?_, ?_⟩
  · intro p; rw [b p]; simp
  · intro more
    have : State.steps {} (ops ++ more) = State.steps (State.steps {} ops) more := by
      simp [State.steps, List.foldl_append]
    rw [this]
    exact (key more _ a).2.2

end Verif.Assembly.Registry

namespace Verif.Assembly
open Verif.Kin.Transform (identity compose transformPoint transformVector)

theorem zFrame_spec (n o : V3) (hn : n ≠ 0) : ∃ T, zFrame n o = some T ∧ ProperRigid T ∧
    transformPoint T 0 = o ∧ transformVector T ![0, 0, 1] = hat n := by
  have hz := hat_unit hn
  have hp := perpTo_spec hz
  obtain ⟨x, hx⟩ : ∃ x, unit3 (perpTo (hat n)) = some x := by
    cases e : unit3 (perpTo (hat n)) with
    | none => exact absurd (unit3_none.1 e) hp.1
    | some p => exact ⟨p, rfl⟩
  obtain ⟨xx, xz⟩ := unit_perp hz hx
  refine ⟨frame4 x (cross3 (hat n) x) (hat n) o, ?_, ?_, ?_, ?_⟩
  · unfold zFrame
    rw [unit3_of_ne hn, Option.bind_some]
    change (unit3 (perpTo (hat n))).map _ = _
    rw [hx]; rfl
  · apply proper_mk4
    generalize hat n = z at *
    have a1 : x 0 * x 0 + x 1 * x 1 + x 2 * x 2 = 1 := xx
    have a2 : x 0 * z 0 + x 1 * z 1 + x 2 * z 2 = 0 := xz
    have a3 : z 0 * z 0 + z 1 * z 1 + z 2 * z 2 = 1 := hz
    constructor
    · ext i j
      fin_cases i <;> fin_cases j <;> simp [Matrix.mul_apply, Fin.sum_univ_three, cross3]
      · linarith
      · ring
      · linarith
      · ring
      · linear_combination (x 0 * x 0 + x 1 * x 1 + x 2 * x 2) * a3 + a1 -
          (x 0 * z 0 + x 1 * z 1 + x 2 * z 2) * a2
      · ring
      · linarith
      · ring
      · linarith
    · simp [Matrix.det_fin_three, cross3]
      linear_combination (x 0 * x 0 + x 1 * x 1 + x 2 * x 2) * a3 + a1 -
          (x 0 * z 0 + x 1 * z 1 + x 2 * z 2) * a2
  · rw [frame4, point_mk4]; simp
  · rw [frame4, vector_mk4]
    ext i; rw [mulVec_three]; fin_cases i <;> simp

/-- C69: for a valid plane, circle or axis datum, `datum_to_transform_matrix` gives a right-handed rigid
frame whose origin is the datum's origin and whose z axis is the datum's normal or direction; for a point
datum it gives the translation to the point. -/
theorem C69_datum_frame (d : Datum) (n : V3)
    (h : (d.dtype = .plane ∨ d.dtype = .circle) ∧ d.normal.map first3 = some n ∨
      d.dtype = .axis ∧ d.direction.map first3 = some n) (hn : n ≠ 0) :
    ∃ T, datumToTransform d = .ok (some T) ∧ ProperRigid T ∧
      transformPoint T 0 = first3 d.origin ∧ transformVector T ![0, 0, 1] = hat n := by
  obtain ⟨T, hT, h1, h2, h3⟩ := zFrame_spec n (first3 d.origin) hn
  refine ⟨T, ?_, h1, h2, h3⟩
  unfold datumToTransform
  rcases h with ⟨ht | ht, hv⟩ | ⟨ht, hv⟩ <;> rw [ht] <;> simp only
  · cases e : d.normal with
    | none => simp [e] at hv
    | some v => simp only [e, Option.map_some, Option.some.injEq] at hv ⊢; rw [hv, hT]
  · cases e : d.normal with
    | none => simp [e] at hv
    | some v => simp only [e, Option.map_some, Option.some.injEq] at hv ⊢; rw [hv, hT]
  · cases e : d.direction with
    | none => simp [e] at hv
    | some v => simp only [e, Option.map_some, Option.some.injEq] at hv ⊢; rw [hv, hT]

theorem C69_point_frame (d : Datum) (h : d.dtype = .point) (p : V3) :
    ∃ T, datumToTransform d = .ok (some T) ∧ ProperRigid T ∧ transformPoint T p = p + first3 d.origin := by
  refine ⟨mk4 1 (first3 d.origin), ?_, proper_mk4 isRotation_one _, ?_⟩
  · unfold datumToTransform
    rw [h]
    simp only [frame4]
    congr 3
    ext i j; fin_cases i <;> fin_cases j <;> simp
  · rw [point_mk4, mulVec_one3]

/-- C69 (violated for FRAME datums): the axes of a frame datum are not normalised, so a valid frame datum
with x axis of length 2 gives a matrix that is not a rigid motion. -/
theorem C69_frame_not_normalised :
    ∃ d d', Datum.mk' d = some d' ∧ ∃ T, datumToTransform d' = .ok (some T) ∧ ¬ ProperRigid T := by
  let d : Datum := { name := "f", dtype := .frame, origin := ![0, 0, 0, 1]
                     xAxis := some ![2, 0, 0, 0], yAxis := some ![0, 1, 0, 0] }
  have hx : asDir ![2, 0, 0, 0] = ![2, 0, 0, 0] := by ext i; fin_cases i <;> simp [asDir]
  have hy : asDir ![0, 1, 0, 0] = ![0, 1, 0, 0] := by ext i; fin_cases i <;> simp [asDir]
  have hs : Real.sqrt (2 * 2) = 2 := Real.sqrt_mul_self (by norm_num)
  have hmx : ¬ Verif.Xform.mag ![2, 0, 0, 0] < Verif.Xform.epsilon := by
    simp [Verif.Xform.mag, Verif.Xform.epsilon, hs]; norm_num
  have hmy : ¬ Verif.Xform.mag ![0, 1, 0, 0] < Verif.Xform.epsilon := by
    simp [Verif.Xform.mag, Verif.Xform.epsilon]; norm_num
  refine ⟨d, { d with origin := asPoint d.origin }, ?_, ?_⟩
  · simp only [Datum.mk', d, hx, hy, if_neg hmx, if_neg hmy]
  · have hc : cross3 (first3 ![2, 0, 0, 0]) (first3 ![0, 1, 0, 0]) = ![0, 0, 2] := by
      ext i; fin_cases i <;> simp [cross3, first3]
    have hu : unit3 ![0, 0, 2] = some (hat ![0, 0, 2]) :=
      unit3_of_ne (by intro h; have := congrFun h 2; simp at this)
    refine ⟨frame4 (first3 ![2, 0, 0, 0]) (first3 ![0, 1, 0, 0]) (hat ![0, 0, 2]) (first3 (asPoint ![0, 0, 0, 1])), ?_, ?_⟩
    · simp only [datumToTransform, d, Option.map_some, Option.getD_some, hc, hu]
    · intro h
      have := h.1.ortho 0 0
      simp [Fin.sum_univ_three, frame4, mk4, first3] at this
      norm_num at this

end Verif.Assembly
