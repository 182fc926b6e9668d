import Verif.Accept.Model

/-!
# Schema of plans and results, loading of plans, recording of results
-/

namespace Verif.Accept
open Verif.Dict Verif.Metadata

variable {K : Type}

/-! ## Combining reports -/

/-- a report without errors -/
def Clean (o : Out) : Prop := ∃ w, o = .ok ([], w)
/-- an exception -/
def Raises (o : Out) : Prop := ∃ e, o = .error e

theorem combine_clean (l : List Out) : Clean (combine l) ↔ ∀ x ∈ l, Clean x := by
  induction l with
  | nil => simp [combine, Clean]
  | cons x xs ih =>
    rw [combine.eq_def]; dsimp only
    simp only [List.forall_mem_cons]
    rw [← ih]
    cases x with
    | error e => simp [Clean]
    | ok a =>
      cases h : combine xs with
      | error e => simp [Clean]
      | ok b =>
        obtain ⟨a1, a2⟩ := a
        obtain ⟨b1, b2⟩ := b
        simp [Clean]

theorem combine_raises (l : List Out) : Raises (combine l) ↔ ∃ x ∈ l, Raises x := by
  induction l with
  | nil => simp [combine, Raises]
  | cons x xs ih =>
    rw [combine.eq_def]; dsimp only
    simp only [List.mem_cons, exists_eq_or_imp]
    rw [← ih]
    cases x with
    | error e => simp [Raises]
    | ok a => cases h : combine xs <;> simp [Raises]

theorem clean_fine : Clean fine := ⟨[], rfl⟩
theorem not_clean_err (p : String) : ¬ Clean (err p) := by rintro ⟨w, h⟩; simp [err] at h
theorem clean_warnIf (b : Bool) (p : String) : Clean (warnIf b p) := ⟨_, rfl⟩
theorem clean_unknown (k : List String) (d : Meta K) : Clean (unknown k d) := ⟨_, rfl⟩
theorem not_raises_fine : ¬ Raises fine := by rintro ⟨e, h⟩; simp [fine] at h
theorem not_raises_err (p : String) : ¬ Raises (err p) := by rintro ⟨e, h⟩; simp [err] at h
theorem not_raises_warnIf (b : Bool) (p : String) : ¬ Raises (warnIf b p) := by rintro ⟨e, h⟩; simp [warnIf] at h
theorem not_raises_unknown (k : List String) (d : Meta K) : ¬ Raises (unknown k d) := by rintro ⟨e, h⟩; simp [unknown] at h

/-- a value of a set of strings -/
def OneOf (v : Val K) (s : List String) : Prop := ∃ t ∈ s, v = .str t
/-- a value that can be looked up in a set -/
def Hashable (v : Val K) : Prop := (∀ l, v ≠ .list l) ∧ ∀ d, v ≠ .dict d

theorem clean_enumOut (v : Val K) (s : List String) (p : String) : Clean (enumOut v s p) ↔ OneOf v s := by
  cases v with
  | str t => by_cases h : t ∈ s <;> simp [enumOut, inSet, Clean, OneOf, h]
  | _ => simp [enumOut, inSet, Clean, OneOf]

theorem raises_enumOut (v : Val K) (s : List String) (p : String) : Raises (enumOut v s p) ↔ ¬ Hashable v := by
  cases v with
  | str t => by_cases h : t ∈ s <;> simp [enumOut, inSet, Raises, Hashable, h]
  | _ => simp [enumOut, inSet, Raises, Hashable]

theorem clean_section (v : Option (Val K)) (f : Val K → Out) : Clean (section? v f) ↔ ∀ w, v = some w → Clean (f w) := by
  cases v <;> simp [section?, clean_fine]

theorem clean_nonEmpty (blank : String → Bool) (v : Option (Val K)) (p : String) :
    Clean (nonEmptyStr blank v p) ↔ ∃ s, v = some (.str s) ∧ blank s = false := by
  unfold nonEmptyStr
  split
  · rename_i s
    split_ifs with h
    · simp [not_clean_err, h]
    · simp only [clean_fine, Option.some.injEq, Val.str.injEq, exists_eq_left', true_iff]; simpa using h
  · rename_i h
    simp only [not_clean_err, false_iff]
    rintro ⟨s, rfl, -⟩
    exact h s rfl

/-! ## What a plan has to look like -/

/-- a criterion: a limit, and one of the comparisons if any is given -/
def CriterionOk (c : Val K) : Prop :=
  ∃ d, c = .dict d ∧ hasKey d "limit" = true ∧ ∀ v, dget d "comparison" = some v → OneOf v ["<=", ">=", "<", ">", "==", "~="]

/-- a list of dictionaries whose type is one of the given -/
def TypedOk (types : List String) (v : Val K) : Prop :=
  ∃ l, v = .list l ∧ ∀ x ∈ l, ∃ d, x = .dict d ∧ ∃ t, dget d "type" = some t ∧ OneOf t types

/-- the properties that can be checked, by kind of plan -/
def PropertyOk (kind : String) (v : Val K) : Prop :=
  (kind = "geometric" ∧ OneOf v ["volume", "area", "bbox", "centroid", "distance", "clearance"]) ∨
  (kind = "measurement" ∧ OneOf v ["dimension", "mass", "centroid", "moment"]) ∨
  (kind = "assembly" ∧ OneOf v ["interference", "fit", "alignment", "clearance"])

/-- the schema of plans -/
def PlanOk (blank : String → Bool) (d : Meta K) : Prop :=
  (∃ s, dget d "id" = some (.str s) ∧ blank s = false) ∧
  (∃ s, dget d "backend" = some (.str s) ∧ blank s = false) ∧
  (∀ g, dget d "geometry" = some g → ∃ gd, g = .dict gd ∧ ∀ e, dget gd "entities" = some e → ∃ l, e = .list l) ∧
  (∀ a, dget d "acceptance" = some a → ∃ ad, a = .dict ad ∧ ∀ kv ∈ ad, CriterionOk kv.2) ∧
  ∃ kind, dget d "kind" = some (.str kind) ∧
    ((kind ∈ ["geometric", "measurement", "assembly"] ∧
        ∃ c v, dget d "check" = some (.dict c) ∧ dget c "property" = some v ∧ PropertyOk kind v) ∨
      (kind ∈ ["structural", "thermal", "cfd", "multiphysics"] ∧
        (∀ m, dget d "materials" = some m → ∃ md, m = .dict md) ∧
        (∀ l, dget d "loads" = some l → TypedOk ["pressure", "force", "moment", "gravity", "thermal", "displacement"] l) ∧
        ∀ b, (dget d "boundaryConditions").or (dget d "boundary_conditions") = some b →
          TypedOk ["fixed", "pinned", "roller", "spring", "symmetry", "thermal"] b))

theorem clean_criterion (c : Meta K) (p : String) : Clean (valCriterion c p) ↔
    hasKey c "limit" = true ∧ ∀ v, dget c "comparison" = some v → OneOf v ["<=", ">=", "<", ">", "==", "~="] := by
  unfold valCriterion
  rw [combine_clean]
  simp only [List.forall_mem_cons, List.not_mem_nil, false_imp_iff, implies_true, and_true]
  refine and_congr ?_ ?_
  · split_ifs with h <;> simp [h, clean_fine, not_clean_err]
  · cases h : dget c "comparison" with
    | none => simp [clean_fine]
    | some v =>
      simp only [combine_clean, List.forall_mem_cons, List.not_mem_nil, false_imp_iff, implies_true, and_true, clean_warnIf, clean_enumOut,
        Option.some.injEq, forall_eq']
      rfl

theorem clean_acceptance (a : Val K) (p : String) : Clean (valAcceptance a p) ↔ ∃ ad, a = .dict ad ∧ ∀ kv ∈ ad, CriterionOk kv.2 := by
  cases a with
  | dict d =>
    simp only [valAcceptance, combine_clean, List.forall_mem_map, Val.dict.injEq, exists_eq_left']
    refine forall₂_congr fun kv _ => ?_
    unfold valCriterionOf CriterionOk
    cases h : kv.2 with
    | dict c => simp only [clean_criterion, Val.dict.injEq, exists_eq_left']
    | _ => simp [not_clean_err]
  | _ => simp [valAcceptance, not_clean_err]

theorem clean_typed (types : List String) (key : String) (v : Val K) : Clean (valTypedList types key v) ↔ TypedOk types v := by
  cases v with
  | list l =>
    simp only [valTypedList, combine_clean, List.forall_mem_map, TypedOk, Val.list.injEq, exists_eq_left']
    have one : ∀ iv : Val K × Nat, Clean (valTypedOf types key iv) ↔ ∃ d, iv.1 = .dict d ∧ ∃ t, dget d "type" = some t ∧ OneOf t types := by
      intro iv
      unfold valTypedOf
      cases h : iv.1 with
      | dict d =>
        simp only [valTyped, combine_clean, List.forall_mem_cons, List.not_mem_nil, false_imp_iff, implies_true, and_true, clean_warnIf,
          Val.dict.injEq, exists_eq_left']
        cases ht : dget d "type" with
        | none => simp [not_clean_err]
        | some t => simp [clean_enumOut]
      | _ => simp [not_clean_err]
    simp only [one]
    constructor
    · intro h x hx
      obtain ⟨i, hi⟩ := List.mem_iff_getElem?.1 hx
      exact h (x, i) (by rw [List.mem_zipIdx_iff_getElem?]; exact hi)
    · rintro h ⟨x, i⟩ hx
      rw [List.mem_zipIdx_iff_getElem?] at hx
      exact h x (List.mem_of_getElem? hx)
  | _ => simp [valTypedList, not_clean_err, TypedOk]

theorem clean_geometry (g : Val K) : Clean (valGeometry g) ↔ ∃ gd, g = .dict gd ∧ ∀ e, dget gd "entities" = some e → ∃ l, e = .list l := by
  cases g with
  | dict d =>
    simp only [valGeometry, combine_clean, List.forall_mem_cons, List.not_mem_nil, false_imp_iff, implies_true, and_true, clean_warnIf, true_and,
      Val.dict.injEq, exists_eq_left']
    cases h : dget d "entities" with
    | none => simp [clean_fine]
    | some e => cases e <;> simp [isList, clean_fine, not_clean_err]
  | _ => simp [valGeometry, not_clean_err]

theorem clean_check (c : Val K) (kind : String) (hk : kind ∈ checkKinds) :
    Clean (valCheck c kind) ↔ ∃ d v, c = .dict d ∧ dget d "property" = some v ∧ PropertyOk kind v := by
  cases c with
  | dict d =>
    simp only [valCheck]
    cases h : dget d "property" with
    | none => simp [not_clean_err, h]
    | some v =>
      have e : OneOf v (checkProps kind) ↔ PropertyOk kind v := by
        simp only [checkKinds, List.mem_cons, List.not_mem_nil, or_false] at hk
        rcases hk with rfl | rfl | rfl <;> simp [checkProps, PropertyOk]
      simp only [clean_enumOut, e]
      constructor
      · intro hp; exact ⟨d, v, rfl, h, hp⟩
      · rintro ⟨d', v', h1, h2, h3⟩
        simp only [Val.dict.injEq] at h1
        subst h1
        rw [h] at h2
        simp only [Option.some.injEq] at h2
        subst h2
        exact h3
  | _ => simp [valCheck, not_clean_err]

theorem bcKey_get (d : Meta K) : dget d (bcKey d) = (dget d "boundaryConditions").or (dget d "boundary_conditions") := by
  unfold bcKey hasKey
  cases h : dget d "boundaryConditions" with
  | none => simp
  | some v => simp [h]

theorem clean_body (blank : String → Bool) (d : Meta K) (kind : String) (hk : kind ∈ kinds) (hd : dget d "kind" = some (.str kind)) :
    Clean (valPlanBody blank d kind) ↔ PlanOk blank d := by
  unfold valPlanBody PlanOk
  simp only [combine_clean, List.forall_mem_cons, List.not_mem_nil, false_imp_iff, implies_true, and_true, clean_unknown, clean_nonEmpty, clean_section,
    clean_geometry, clean_acceptance]
  refine and_congr Iff.rfl (and_congr Iff.rfl (and_congr Iff.rfl (and_congr Iff.rfl ?_)))
  have e : ∀ Q : String → Prop, (∃ k, dget d "kind" = some (.str k) ∧ Q k) ↔ Q kind := by
    intro Q
    rw [hd]
    simp
  rw [e]
  unfold valKind
  by_cases hc : kind ∈ checkKinds
  · rw [if_pos hc]
    have hs : kind ∉ ["structural", "thermal", "cfd", "multiphysics"] := by
      simp only [checkKinds, List.mem_cons, List.not_mem_nil, or_false] at hc
      rcases hc with rfl | rfl | rfl <;> decide
    have hc' : kind ∈ ["geometric", "measurement", "assembly"] := hc
    simp only [hs, false_and, or_false, hc', true_and]
    cases h : dget d "check" with
    | none => simp [not_clean_err]
    | some c =>
      simp only [clean_check c kind hc, Option.some.injEq]
  · rw [if_neg hc]
    have hs : kind ∈ ["structural", "thermal", "cfd", "multiphysics"] := by
      simp only [kinds, checkKinds, List.mem_cons, List.not_mem_nil, or_false, not_or] at hk hc ⊢
      tauto
    have hc' : kind ∉ ["geometric", "measurement", "assembly"] := hc
    simp only [hs, hc', false_and, false_or, true_and, combine_clean, List.forall_mem_cons, List.not_mem_nil, false_imp_iff, implies_true, and_true,
      clean_warnIf, clean_section, clean_typed, bcKey_get]
    refine and_congr (forall₂_congr fun m _ => ?_) Iff.rfl
    cases m <;> simp [isDict, clean_fine, not_clean_err]

/-- C295: a plan is reported valid exactly if it meets the schema. -/
theorem C295_valid (blank : String → Bool) (d : Meta K) : (∃ warnings, validatePlan blank d = .ok ([], warnings)) ↔ PlanOk blank d := by
  change Clean (validatePlan blank d) ↔ _
  unfold validatePlan
  split
  · rename_i vi k vb hi hk hb
    cases hs : inSet k kinds with
    | error e =>
      simp only
      constructor
      · rintro ⟨w, h⟩; simp at h
      · rintro ⟨-, -, -, -, kind, h, -⟩
        rw [hk] at h; simp only [Option.some.injEq] at h; subst h; simp [inSet] at hs
    | ok b =>
      cases b with
      | false =>
        simp only [not_clean_err, false_iff]
        rintro ⟨-, -, -, -, kind, h, h'⟩
        rw [hk] at h; simp only [Option.some.injEq] at h; subst h
        simp only [inSet, Except.ok.injEq, decide_eq_false_iff_not] at hs
        apply hs
        simp only [kinds, List.mem_cons, List.not_mem_nil, or_false] at h' ⊢
        rcases h' with ⟨h', -⟩ | ⟨h', -⟩ <;> tauto
      | true =>
        simp only
        cases k with
        | str s =>
          simp only [inSet, Except.ok.injEq, decide_eq_true_eq] at hs
          exact clean_body blank d s hs hk
        | _ => simp [inSet] at hs
  · rename_i h
    simp only [not_clean_err, false_iff]
    rintro ⟨⟨i, hi, -⟩, ⟨b, hb, -⟩, -, -, kind, hk, -⟩
    exact h _ _ _ hi hk hb

/-- every looked-up value is hashable: the kind, comparisons, property and types -/
def NoListInPlan (d : Meta K) : Prop :=
  (∀ v, dget d "kind" = some v → Hashable v) ∧
  (∀ ad, dget d "acceptance" = some (.dict ad) → ∀ kv ∈ ad, ∀ c, kv.2 = .dict c → ∀ v, dget c "comparison" = some v → Hashable v) ∧
  (∀ c, dget d "check" = some (.dict c) → ∀ v, dget c "property" = some v → Hashable v) ∧
  ∀ k ∈ ["loads", "boundaryConditions", "boundary_conditions"], ∀ l, dget d k = some (.list l) → ∀ x ∈ l, ∀ m, x = .dict m →
    ∀ v, dget m "type" = some v → Hashable v

theorem raises_typed (types : List String) (key : String) (v : Val K) (h : Raises (valTypedList types key v)) :
    ∃ l, v = .list l ∧ ∃ x ∈ l, ∃ m, x = .dict m ∧ ∃ t, dget m "type" = some t ∧ ¬ Hashable t := by
  cases v with
  | list l =>
    refine ⟨l, rfl, ?_⟩
    simp only [valTypedList, combine_raises, List.mem_map] at h
    obtain ⟨o, ⟨⟨x, i⟩, hx, rfl⟩, hr⟩ := h
    rw [List.mem_zipIdx_iff_getElem?] at hx
    refine ⟨x, List.mem_of_getElem? hx, ?_⟩
    cases x with
    | dict m =>
      refine ⟨m, rfl, ?_⟩
      simp only [valTypedOf, valTyped, combine_raises, List.mem_cons, List.not_mem_nil, or_false, exists_eq_or_imp, exists_eq_left, not_raises_warnIf] at hr
      cases ht : dget m "type" with
      | none => rw [ht] at hr; exact absurd hr (not_raises_err _)
      | some t => rw [ht] at hr; exact ⟨t, rfl, (raises_enumOut _ _ _).1 hr⟩
    | _ => exact absurd hr (not_raises_err _)
  | _ => exact absurd h (not_raises_err _)

/-- C296 (partial): validation of a plan returns a report instead of raising, if no list or dictionary stands where a kind, comparison, property or type is expected.
Missing: such plans (`C296_list_kind`). -/
theorem C296_total_partial (blank : String → Bool) (d : Meta K) (h : NoListInPlan d) : ∃ errors warnings, validatePlan blank d = .ok (errors, warnings) := by
  have main : ¬ Raises (validatePlan blank d) := by
    obtain ⟨hkind, hacc, hcheck, htyped⟩ := h
    intro hr
    unfold validatePlan at hr
    split at hr
    · rename_i vi k vb hi hk hb
      cases hs : inSet k kinds with
      | error e =>
        have := hkind k hk
        cases k with
        | list l => exact this.1 l rfl
        | dict m => exact this.2 m rfl
        | _ => simp [inSet] at hs
      | ok b =>
        rw [hs] at hr
        cases b with
        | false => exact not_raises_err _ hr
        | true =>
          simp only at hr
          unfold valPlanBody at hr
          simp only [combine_raises, List.mem_cons, List.not_mem_nil, or_false, exists_eq_or_imp, exists_eq_left] at hr
          have nes : ∀ (v : Option (Val K)) p, ¬ Raises (nonEmptyStr blank v p) := by
            intro v p h
            unfold nonEmptyStr at h
            split at h
            · split_ifs at h
              · exact not_raises_err _ h
              · exact not_raises_fine h
            · exact not_raises_err _ h
          have sec : ∀ (v : Option (Val K)) f, Raises (section? v f) → ∃ w, v = some w ∧ Raises (f w) := by
            intro v f h
            cases v with
            | none => exact absurd h not_raises_fine
            | some w => exact ⟨w, rfl, h⟩
          rcases hr with hr | hr | hr | hr | hr | hr
          · exact nes _ _ hr
          · exact nes _ _ hr
          · obtain ⟨g, -, hg⟩ := sec _ _ hr
            cases g with
            | dict gd =>
              simp only [valGeometry, combine_raises, List.mem_cons, List.not_mem_nil, or_false, exists_eq_or_imp, exists_eq_left, not_raises_warnIf, false_or] at hg
              split at hg
              · exact not_raises_fine hg
              · split_ifs at hg
                · exact not_raises_fine hg
                · exact not_raises_err _ hg
            | _ => exact not_raises_err _ hg
          · obtain ⟨a, ha, hg⟩ := sec _ _ hr
            cases a with
            | dict ad =>
              simp only [valAcceptance, combine_raises, List.mem_map] at hg
              obtain ⟨o, ⟨kv, hkv, rfl⟩, hc⟩ := hg
              unfold valCriterionOf at hc
              cases hv : kv.2 with
              | dict c =>
                rw [hv] at hc
                simp only [valCriterion, combine_raises, List.mem_cons, List.not_mem_nil, or_false, exists_eq_or_imp, exists_eq_left] at hc
                rcases hc with hc | hc
                · split_ifs at hc
                  · exact not_raises_fine hc
                  · exact not_raises_err _ hc
                · cases hcmp : dget c "comparison" with
                  | none => rw [hcmp] at hc; exact not_raises_fine hc
                  | some v =>
                    rw [hcmp] at hc
                    simp only [combine_raises, List.mem_cons, List.not_mem_nil, or_false, exists_eq_or_imp, exists_eq_left, not_raises_warnIf] at hc
                    exact (raises_enumOut _ _ _).1 hc (hacc ad ha kv hkv c hv v hcmp)
              | _ => rw [hv] at hc; exact not_raises_err _ hc
            | _ => exact not_raises_err _ hg
          · unfold valKind at hr
            split_ifs at hr with hck
            · cases hc : dget d "check" with
              | none => rw [hc] at hr; exact not_raises_err _ hr
              | some c =>
                rw [hc] at hr
                cases c with
                | dict m =>
                  simp only [valCheck] at hr
                  cases hp : dget m "property" with
                  | none => rw [hp] at hr; exact not_raises_err _ hr
                  | some v => rw [hp] at hr; exact (raises_enumOut _ _ _).1 hr (hcheck m hc v hp)
                | _ => exact not_raises_err _ hr
            · simp only [combine_raises, List.mem_cons, List.not_mem_nil, or_false, exists_eq_or_imp, exists_eq_left, not_raises_warnIf] at hr
              rcases hr with hr | hr | hr
              · obtain ⟨m, -, hm⟩ := sec _ _ hr
                split_ifs at hm
                · exact not_raises_fine hm
                · exact not_raises_err _ hm
              · obtain ⟨v, hv, hm⟩ := sec _ _ hr
                obtain ⟨l, rfl, x, hx, m, hxm, t, ht, hn⟩ := raises_typed _ _ _ hm
                exact hn (htyped "loads" (by simp) l hv x hx m hxm t ht)
              · obtain ⟨v, hv, hm⟩ := sec _ _ hr
                obtain ⟨l, rfl, x, hx, m, hxm, t, ht, hn⟩ := raises_typed _ _ _ hm
                refine hn (htyped (bcKey d) ?_ l hv x hx m hxm t ht)
                unfold bcKey; split_ifs <;> simp
          · exact not_raises_unknown _ _ hr
    · exact not_raises_err _ hr
  cases hv : validatePlan blank d with
  | error e => exact absurd ⟨e, hv⟩ main
  | ok o => exact ⟨o.1, o.2, rfl⟩

/-- C296 fails: a plan whose kind is a list raises `TypeError` instead of being reported. -/
theorem C296_list_kind (blank : String → Bool) (i b : Val K) (l : List (Val K)) :
    validatePlan blank [("id", i), ("kind", .list l), ("backend", b)] = .error "TypeError" := by
  simp [validatePlan, dget, inSet]

/-- C296 fails: so does a result whose status is a list. -/
theorem C296_list_status (blank : String → Bool) (i : Val K) (l : List (Val K)) :
    validateResult blank [("plan_id", i), ("status", .list l)] = .error "TypeError" := by
  simp [validateResult, dget, enumOut, inSet, combine]

/-- the schema of results -/
def ResultOk (blank : String → Bool) (d : Meta K) : Prop :=
  (∃ s, dget d "status" = some s ∧ OneOf s ["passed", "failed", "error", "skipped", "pending"]) ∧
  (∃ s, dget d "plan_id" = some (.str s) ∧ blank s = false) ∧
  (∀ m, dget d "metrics" = some m → ∃ md, m = .dict md) ∧
  (∀ a, dget d "acceptance_results" = some a → ∃ ad, a = .dict ad ∧ ∀ kv ∈ ad, ∃ r, kv.2 = .dict r) ∧
  ∀ a, dget d "artifacts" = some a → ∃ l, a = .list l ∧ ∀ x ∈ l, ∃ m, x = .dict m

/-- C295: a result is reported valid exactly if it meets the schema. -/
theorem C295_result (blank : String → Bool) (d : Meta K) : (∃ warnings, validateResult blank d = .ok ([], warnings)) ↔ ResultOk blank d := by
  change Clean (validateResult blank d) ↔ _
  unfold validateResult
  split
  · rename_i i s hi hs
    unfold ResultOk
    simp only [combine_clean, List.forall_mem_cons, List.not_mem_nil, false_imp_iff, implies_true, and_true, clean_unknown, clean_nonEmpty, clean_section,
      clean_enumOut]
    refine and_congr ?_ (and_congr ?_ (and_congr ?_ (and_congr ?_ ?_)))
    · rw [hs]; simp only [Option.some.injEq, exists_eq_left']; rfl
    · rw [hi]
    · refine forall₂_congr fun m _ => ?_
      cases m <;> simp [isDict, clean_fine, not_clean_err]
    · refine forall₂_congr fun a _ => ?_
      cases a with
      | dict ad =>
        simp only [valResults, combine_clean, List.forall_mem_map, Val.dict.injEq, exists_eq_left']
        refine forall₂_congr fun kv _ => ?_
        unfold valResultOf
        cases kv.2 <;> simp [combine_clean, clean_warnIf, not_clean_err]
      | _ => simp [valResults, not_clean_err]
    · refine forall₂_congr fun a _ => ?_
      cases a with
      | list l =>
        simp only [valArtifacts, combine_clean, List.forall_mem_map, Val.list.injEq, exists_eq_left']
        have one : ∀ iv : Val K × Nat, Clean (valArtifactOf iv) ↔ ∃ m, iv.1 = .dict m := by
          intro iv; unfold valArtifactOf; cases iv.1 <;> simp [clean_warnIf, not_clean_err]
        simp only [one]
        constructor
        · intro h x hx
          obtain ⟨i, hi⟩ := List.mem_iff_getElem?.1 hx
          exact h (x, i) (by rw [List.mem_zipIdx_iff_getElem?]; exact hi)
        · rintro h ⟨x, i⟩ hx
          rw [List.mem_zipIdx_iff_getElem?] at hx
          exact h x (List.mem_of_getElem? hx)
      | _ => simp [valArtifacts, not_clean_err]
  · rename_i h
    simp only [not_clean_err, false_iff]
    rintro ⟨⟨s, hs, -⟩, ⟨i, hi, -⟩, -⟩
    exact h _ _ hi hs

/-- C295: a field that is not in the schema of results is reported in the warnings, and the fields that are in it are not: a valid result with these fields only, without sections, has no warnings -/
theorem C295_unknown (blank : String → Bool) (d : Meta K) (e w : List String) (h : validateResult blank d = .ok (e, w)) (hp : (dget d "plan_id").isSome) (hs : (dget d "status").isSome) :
    let fields := ["plan_id", "status", "timestamp", "backend", "backend_version", "execution_time_s", "metrics", "acceptance_results", "artifacts", "errors", "warnings", "notes"]
    (∀ kv ∈ d, kv.1 ∉ fields → kv.1 ∈ w) ∧ ((∀ kv ∈ d, kv.1 ∈ fields) → (∀ k ∈ ["metrics", "acceptance_results", "artifacts"], dget d k = none) → e = [] → w = []) := by
  intro fields
  obtain ⟨i, hi⟩ := Option.isSome_iff_exists.1 hp
  obtain ⟨s, hs⟩ := Option.isSome_iff_exists.1 hs
  have last : ∀ (x : Out) (k : List String) (l : List Out) (r : List String × List String), combine (l ++ [.ok ([], k)]) = .ok r → ∃ r', combine l = .ok r' ∧ r = (r'.1, r'.2 ++ k) := by
    intro _ k l
    induction l with
    | nil => intro r h; simp only [List.nil_append, combine, List.append_nil, Except.ok.injEq] at h; exact ⟨([], []), rfl, by rw [← h]; simp⟩
    | cons x l ih =>
      intro r h
      rw [List.cons_append] at h
      unfold combine at h ⊢
      cases x with
      | error e => cases hc : combine (l ++ [.ok ([], k)]) <;> rw [hc] at h <;> cases h
      | ok a =>
        cases hc : combine (l ++ [.ok ([], k)]) with
        | error e => rw [hc] at h; cases h
        | ok b =>
          rw [hc] at h
          obtain ⟨r', h1, h2⟩ := ih b hc
          rw [h1]
          cases h
          exact ⟨_, rfl, by rw [h2]; simp⟩
  unfold validateResult at h
  rw [hi, hs] at h
  dsimp only at h
  constructor
  · intro kv hkv hnot
    obtain ⟨r', -, h2⟩ := last (.ok ([], [])) _ [_, _, _, _, _] _ h
    rw [show w = r'.2 ++ _ from congrArg Prod.snd h2]
    refine List.mem_append_right _ (List.mem_filter.2 ⟨List.mem_map.2 ⟨kv, hkv, rfl⟩, decide_eq_true ?_⟩)
    exact hnot
  · intro hk hsec he
    subst he
    have hm := hsec "metrics" (by simp)
    have ha := hsec "acceptance_results" (by simp)
    have ht := hsec "artifacts" (by simp)
    rw [hm, ha, ht] at h
    have hu : unknown resultFields d = fine := by
      unfold unknown fine
      congr 2
      rw [List.filter_eq_nil_iff]
      intro k hkm
      obtain ⟨kv, hkv, rfl⟩ := List.mem_map.1 hkm
      simpa using (show kv.1 ∈ resultFields from hk kv hkv)
    rw [hu] at h
    have he : ∀ o : Out, (o = enumOut s statuses "status" ∨ o = nonEmptyStr blank (some i) "plan_id") → ∀ a b, o = .ok (a, b) → b = [] := by
      intro o ho a b hb
      rcases ho with rfl | rfl
      · unfold enumOut at hb
        split at hb <;> cases hb <;> rfl
      · unfold nonEmptyStr at hb
        split at hb
        all_goals (try split at hb) <;> first | (unfold fine at hb; cases hb; rfl) | (unfold err at hb; cases hb; rfl)
    unfold section? fine at h
    dsimp only [combine] at h
    cases h1 : enumOut s statuses "status" with
    | error e => rw [h1] at h; cases h2 : nonEmptyStr blank (some i) "plan_id" <;> rw [h2] at h <;> cases h
    | ok a =>
      cases h2 : nonEmptyStr blank (some i) "plan_id" with
      | error e => rw [h1, h2] at h; cases h
      | ok b =>
        rw [h1, h2] at h
        have hw : w = a.2 ++ (b.2 ++ []) := (congrArg Prod.snd (Except.ok.inj h)).symm
        rw [hw, he _ (.inl rfl) a.1 a.2 h1, he _ (.inr rfl) b.1 b.2 h2]
        rfl

example : PlanOk (K := Nat) (fun s => decide (s = ""))
    [("id", .str "v1"), ("kind", .str "geometric"), ("backend", .str "yapcad"), ("check", .dict [("property", .str "volume")]),
      ("acceptance", .dict [("volume", .dict [("limit", .num 10), ("comparison", .str "~=")])])] := by
  rw [← C295_valid]; exact ⟨_, rfl⟩

end Verif.Accept
