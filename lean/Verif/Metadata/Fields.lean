import Verif.Metadata.Props

/-! C20/C21: what each setter stores, field by field. -/

namespace Verif.Metadata
open Verif.Dict

variable {K : Type} [DecidableEq K] [Zero K] [One K]

/-- Specification: the section `ns` of a metadata dictionary, empty if missing or not a dictionary. -/
def sectionOf (m : Meta K) (ns : String) : Meta K :=
  match dget m ns with
  | some (.dict s) => s
  | _ => []

/-- Specification: a field that was given holds the given value, a field that was not keeps its old one. -/
def Kept (given old new : Option (Val K)) : Prop :=
  match given with
  | none => new = old
  | some v => new = some v

/-- Specification: the same for a field converted to a number. -/
def KeptNum (given old new : Option (Val K)) : Prop :=
  match given with
  | none => new = old
  | some v => ∃ x, toFloat v = some x ∧ new = some (.num x)

/-- Specification: the same for a vector of exactly three numbers. -/
def KeptVec (given : Option (List (Val K))) (old new : Option (Val K)) : Prop :=
  match given with
  | none => new = old
  | some l => ∃ a b c x y z, l = [a, b, c] ∧ toFloat a = some x ∧ toFloat b = some y ∧ toFloat c = some z ∧
      new = some (.list [.num x, .num y, .num z])

theorem dget_optSet (s : Meta K) (k k' : String) (v : Option (Val K)) :
    dget (optSet s k v) k' = if k' = k then (match v with | some v => some v | none => dget s k) else dget s k' := by
  unfold optSet
  cases v with
  | none => simp only; split_ifs with h <;> simp [h]
  | some v => simp only [dget_dset]

theorem kept_optSet (s : Meta K) (k : String) (v : Option (Val K)) : Kept v (dget s k) (dget (optSet s k v) k) := by
  rw [dget_optSet, if_pos rfl]; cases v <;> rfl

theorem ensureNamespace_spec (m : Meta K) (ns : String) (hns : ns ∉ ["layer", "schema", "tags", "entityId"]) :
    (ensureNamespace (ensureRoot m none) ns).2 = sectionOf m ns ∧
    ∀ k, k ≠ ns → dget (ensureNamespace (ensureRoot m none) ns).1 k = dget (ensureRoot m none) k := by
  have h := ensureRoot_other m none ns hns
  unfold ensureNamespace sectionOf
  rw [h]
  cases hd : dget m ns with
  | none => exact ⟨rfl, fun k hk => by simp [dget_dset, hk]⟩
  | some v =>
    cases v <;> first
      | exact ⟨rfl, fun k hk => rfl⟩
      | exact ⟨rfl, fun k hk => by simp [dget_dset, hk]⟩

/-- C20: `set_material` stores each given field under its own name (the density as a number), keeps every field
that was not given and every other entry of the section, and touches no other section. -/
theorem C20_set_material (m : Meta K) (name standard grade density source : Option (Val K))
    (hok : (setMaterial m name standard grade density source).1 = .ok ()) :
    ∃ s, dget (setMaterial m name standard grade density source).2 "material" = some (.dict s) ∧
      Kept name (dget (sectionOf m "material") "name") (dget s "name") ∧
      Kept standard (dget (sectionOf m "material") "standard") (dget s "standard") ∧
      Kept grade (dget (sectionOf m "material") "grade") (dget s "grade") ∧
      KeptNum density (dget (sectionOf m "material") "density_kg_m3") (dget s "density_kg_m3") ∧
      Kept source (dget (sectionOf m "material") "source") (dget s "source") ∧
      (∀ k, k ∉ ["name", "standard", "grade", "density_kg_m3", "source"] → dget s k = dget (sectionOf m "material") k) ∧
      ∀ k, k ≠ "material" →
        dget (setMaterial m name standard grade density source).2 k = dget (ensureRoot m none) k := by
  obtain ⟨e1, e2⟩ := ensureNamespace_spec m "material" (by decide)
  unfold setMaterial at hok ⊢
  simp only [e1] at hok ⊢
  generalize sectionOf m "material" = old at *
  cases density with
  | none =>
    simp only at hok ⊢
    refine ⟨_, by rw [dget_dset, if_pos rfl], ?_, ?_, ?_, ?_, ?_, ?_, ?_⟩
    · simp only [dget_optSet]; cases name <;> simp [Kept]
    · simp only [dget_optSet]; cases standard <;> simp [Kept]
    · simp only [dget_optSet]; cases grade <;> simp [Kept]
    · simp [dget_optSet, KeptNum]
    · simp only [dget_optSet]; cases source <;> simp [Kept]
    · intro k hk
      simp only [List.mem_cons, List.not_mem_nil, or_false, not_or] at hk
      simp [dget_optSet, hk]
    · intro k hk; rw [dget_dset, if_neg hk]; exact e2 k hk
  | some d =>
    simp only at hok ⊢
    cases hx : toFloat d with
    | none => rw [hx] at hok; cases hok
    | some x =>
      simp only
      refine ⟨_, by rw [dget_dset, if_pos rfl], ?_, ?_, ?_, ?_, ?_, ?_, ?_⟩
      · simp only [dget_optSet, dget_dset]; cases name <;> simp [Kept]
      · simp only [dget_optSet, dget_dset]; cases standard <;> simp [Kept]
      · simp only [dget_optSet, dget_dset]; cases grade <;> simp [Kept]
      · simp [dget_optSet, dget_dset, KeptNum, hx]
      · simp only [dget_optSet, dget_dset]; cases source <;> simp [Kept]
      · intro k hk
        simp only [List.mem_cons, List.not_mem_nil, or_false, not_or] at hk
        simp [dget_optSet, dget_dset, hk]
      · intro k hk; rw [dget_dset, if_neg hk]; exact e2 k hk

/-- Non-vacuity -/
example : (setMaterial ([("material", .dict [("grade", .str "old")])] : Meta Int) (some (.str "steel"))
    (some (.str "EN")) none (some (.num 7850)) none).1 = .ok () := rfl

theorem complianceLoop_spec (ss : List String) : ∀ l : List (Val K), complianceLoop l ss =
    l ++ ((ss.filter (fun t => t ≠ "" && !hasTag l t)).eraseDups).map .str := by
  induction ss with
  | nil => intro l; simp [complianceLoop]
  | cons t ss ih =>
    intro l
    unfold complianceLoop
    by_cases h : t ≠ "" ∧ (!l.any (isStr t)) = true
    · rw [if_pos h, ih, List.filter_cons_of_pos (by simpa [hasTag] using h), List.eraseDups_cons, List.filter_filter]
      have hf : (fun a => (!(a == t)) && (decide (a ≠ "") && !hasTag l a)) =
          (fun a => decide (a ≠ "") && !hasTag (l ++ [Val.str t]) a) := by
        funext a
        rw [hasTag_append]
        by_cases e : a = t
        · subst e; simp
        · have e' : t ≠ a := fun h => e h.symm
          simp [e, e']
      rw [hf]
      simp only [List.map_cons, List.append_assoc, List.singleton_append]
    · rw [if_neg h, ih, List.filter_cons_of_neg (by simpa [hasTag] using h)]

/-- C20: `add_compliance` keeps the standards already listed and appends the new non-empty ones, each once, in the
order given; other entries stay. -/
theorem C20_add_compliance (m : Meta K) (ss : List String) (old : List (Val K))
    (hold : dget (sectionOf m "constraints") "compliance" = some (.list old) ∨
      (dget (sectionOf m "constraints") "compliance" = none ∧ old = [])) :
    (addCompliance m ss).1 = .ok () ∧
    (∃ s, dget (addCompliance m ss).2 "constraints" = some (.dict s) ∧
      dget s "compliance" = some (.list (old ++ ((ss.filter (fun t => t ≠ "" && !hasTag old t)).eraseDups).map .str)) ∧
      ∀ k, k ≠ "compliance" → dget s k = dget (sectionOf m "constraints") k) ∧
    ∀ k, k ≠ "constraints" → dget (addCompliance m ss).2 k = dget (ensureRoot m none) k := by
  obtain ⟨e1, e2⟩ := ensureNamespace_spec m "constraints" (by decide)
  unfold addCompliance
  simp only [e1]
  rcases hold with h | ⟨h, rfl⟩
  · simp only [h]
    refine ⟨trivial, ⟨_, by rw [dget_dset, if_pos rfl], ?_, ?_⟩, ?_⟩
    · rw [dget_dset, if_pos rfl, complianceLoop_spec]
    · intro k hk; rw [dget_dset, if_neg hk]
    · intro k hk; rw [dget_dset, if_neg hk]; exact e2 k hk
  · simp only [h]
    refine ⟨trivial, ⟨_, by rw [dget_dset, if_pos rfl], ?_, ?_⟩, ?_⟩
    · rw [dget_dset, if_pos rfl, complianceLoop_spec]
    · intro k hk; rw [dget_dset, if_neg hk]
    · intro k hk; rw [dget_dset, if_neg hk]; exact e2 k hk

/-- Non-vacuity -/
example : (addCompliance ([("constraints", .dict [("compliance", .list [.str "CE"])])] : Meta Int) ["UL", "CE", "UL"]) =
    (.ok (), [("constraints", .dict [("compliance", .list [.str "CE", .str "UL"])]),
      ("schema", .str "metadata-namespace-v1.1"), ("tags", .list []), ("layer", .str "default")]) := rfl

/-- C20: `add_analysis_record` appends exactly its record. -/
theorem C20_add_analysis (m : Meta K) (record : Meta K) (old : List (Val K))
    (hold : dget (sectionOf m "analysis") "simulations" = some (.list old) ∨
      (dget (sectionOf m "analysis") "simulations" = none ∧ old = [])) :
    (addAnalysisRecord m record).1 = .ok () ∧
    (∃ s, dget (addAnalysisRecord m record).2 "analysis" = some (.dict s) ∧
      dget s "simulations" = some (.list (old ++ [.dict record])) ∧
      ∀ k, k ≠ "simulations" → dget s k = dget (sectionOf m "analysis") k) ∧
    ∀ k, k ≠ "analysis" → dget (addAnalysisRecord m record).2 k = dget (ensureRoot m none) k := by
  obtain ⟨e1, e2⟩ := ensureNamespace_spec m "analysis" (by decide)
  unfold addAnalysisRecord
  simp only [e1]
  rcases hold with h | ⟨h, rfl⟩
  · simp only [h]
    refine ⟨trivial, ⟨_, by rw [dget_dset, if_pos rfl], ?_, ?_⟩, ?_⟩
    · rw [dget_dset, if_pos rfl]
    · intro k hk; rw [dget_dset, if_neg hk]
    · intro k hk; rw [dget_dset, if_neg hk]; exact e2 k hk
  · simp only [h]
    refine ⟨trivial, ⟨_, by rw [dget_dset, if_pos rfl], ?_, ?_⟩, ?_⟩
    · rw [dget_dset, if_pos rfl]; rfl
    · intro k hk; rw [dget_dset, if_neg hk]
    · intro k hk; rw [dget_dset, if_neg hk]; exact e2 k hk

theorem optFloat_spec {e e' : Meta K} {k : String} {v : Option (Val K)} (h : optFloat e k v = .ok e') :
    KeptNum v (dget e k) (dget e' k) ∧ ∀ k', k' ≠ k → dget e' k' = dget e k' := by
  unfold optFloat at h
  cases v with
  | none => simp only at h; injection h with h; subst h; exact ⟨rfl, fun _ _ => rfl⟩
  | some v =>
    simp only at h
    cases hx : toFloat v with
    | none => rw [hx] at h; cases h
    | some x =>
      rw [hx] at h
      injection h with h; subst h
      exact ⟨⟨x, hx, by rw [dget_dset, if_pos rfl]⟩, fun k' hk => by rw [dget_dset, if_neg hk]⟩

theorem optVec3_spec {e e' : Meta K} {k : String} {v : Option (List (Val K))} (h : optVec3 e k v = .ok e') :
    KeptVec v (dget e k) (dget e' k) ∧ ∀ k', k' ≠ k → dget e' k' = dget e k' := by
  unfold optVec3 at h
  cases v with
  | none => simp only at h; injection h with h; subst h; exact ⟨rfl, fun _ _ => rfl⟩
  | some l =>
    simp only at h
    split_ifs at h with hl
    have hl' : l.length = 3 := by omega
    obtain ⟨a, b, c, rfl⟩ := List.length_eq_three.mp hl'
    cases ha : toFloat a with
    | none => simp [ha] at h
    | some x =>
      cases hb : toFloat b with
      | none => simp [ha, hb] at h
      | some y =>
        cases hc : toFloat c with
        | none => simp [ha, hb, hc] at h
        | some z =>
          simp [ha, hb, hc] at h
          subst h
          exact ⟨⟨a, b, c, x, y, z, rfl, ha, hb, hc, by rw [dget_dset, if_pos rfl]⟩,
            fun k' hk => by rw [dget_dset, if_neg hk]⟩

/-- C21: the entry `add_surface` appends has exactly the given fields. -/
theorem C21_surface_fields (m : Meta K) (id kind : String) (mateTo finish : Option String) (tol : Option (Val K))
    (hok : (addSurface m id kind mateTo finish tol).1 = .ok ()) :
    ∃ e s old, dget (addSurface m id kind mateTo finish tol).2 "assembly" = some (.dict s) ∧
      dget s "surfaces" = some (.list (old ++ [.dict e])) ∧
      (∀ d l, dget m "assembly" = some (.dict d) → dget d "surfaces" = some (.list l) → old = l) ∧
      dget e "id" = some (.str id) ∧ dget e "kind" = some (.str kind) ∧ dget e "mate_to" = mateTo.map .str ∧
      dget e "finish" = finish.map .str ∧ KeptNum tol none (dget e "tolerance_mm") ∧
      ∀ k, k ∉ ["id", "kind", "mate_to", "finish", "tolerance_mm"] → dget e k = none := by
  obtain ⟨e, s, old, h1, h2, h3, h4⟩ := C21_add_appends m _ "surfaces" _ hok
  obtain ⟨g1, g2⟩ := optFloat_spec h1
  refine ⟨e, s, old, h2, h3, h4, ?_, ?_, ?_, ?_, ?_, ?_⟩
  · rw [g2 _ (by decide)]; simp [dget_optSet, dget]
  · rw [g2 _ (by decide)]; simp [dget_optSet, dget]
  · rw [g2 _ (by decide)]; cases mateTo <;> simp [dget_optSet, dget]
  · rw [g2 _ (by decide)]; cases finish <;> simp [dget_optSet, dget]
  · simpa [dget_optSet, dget] using g1
  · intro k hk
    simp only [List.mem_cons, List.not_mem_nil, or_false, not_or] at hk
    rw [g2 _ hk.2.2.2.2]
    have a1 : "id" ≠ k := fun h => hk.1 h.symm
    have a2 : "kind" ≠ k := fun h => hk.2.1 h.symm
    simp [dget_optSet, dget, hk, a1, a2]

/-- C21: the entry `add_keepout` appends has exactly the given fields. -/
theorem C21_keepout_fields (m : Meta K) (id kind : String) (shape : Val K) (reason : Option String)
    (hok : (addKeepout m id kind shape reason).1 = .ok ()) :
    ∃ e s old, dget (addKeepout m id kind shape reason).2 "assembly" = some (.dict s) ∧
      dget s "keepouts" = some (.list (old ++ [.dict e])) ∧
      (∀ d l, dget m "assembly" = some (.dict d) → dget d "keepouts" = some (.list l) → old = l) ∧
      dget e "id" = some (.str id) ∧ dget e "kind" = some (.str kind) ∧ dget e "reason" = reason.map .str ∧
      ((shape = .none ∧ dget e "shape" = none) ∨ ∃ d, shape = .dict d ∧ dget e "shape" = some (.dict d)) ∧
      ∀ k, k ∉ ["id", "kind", "shape", "reason"] → dget e k = none := by
  obtain ⟨e, s, old, h1, h2, h3, h4⟩ := C21_add_appends m _ "keepouts" _ hok
  refine ⟨e, s, old, h2, h3, h4, ?_⟩
  have no : ∀ k, k ∉ ["id", "kind", "shape", "reason"] → "id" ≠ k ∧ "kind" ≠ k ∧ k ≠ "shape" ∧ k ≠ "reason" := by
    intro k hk
    simp only [List.mem_cons, List.not_mem_nil, or_false, not_or] at hk
    exact ⟨fun h => hk.1 h.symm, fun h => hk.2.1 h.symm, hk.2.2.1, hk.2.2.2⟩
  cases shape with
  | none =>
    injection h1 with h1; subst h1
    refine ⟨?_, ?_, ?_, Or.inl ⟨rfl, ?_⟩, ?_⟩
    · simp [dget_optSet, dget]
    · simp [dget_optSet, dget]
    · cases reason <;> simp [dget_optSet, dget]
    · simp [dget_optSet, dget]
    · intro k hk; obtain ⟨a, b, c, d⟩ := no k hk; simp [dget_optSet, dget, a, b, d]
  | dict d =>
    injection h1 with h1; subst h1
    refine ⟨?_, ?_, ?_, Or.inr ⟨d, rfl, ?_⟩, ?_⟩
    · simp [dget_optSet, dget_dset, dget]
    · simp [dget_optSet, dget_dset, dget]
    · cases reason <;> simp [dget_optSet, dget_dset, dget]
    · simp [dget_optSet, dget_dset]
    · intro k hk; obtain ⟨a, b, c, d⟩ := no k hk; simp [dget_optSet, dget_dset, dget, a, b, c, d]
  | bool b => cases h1
  | num x => cases h1
  | str x => cases h1
  | list x => cases h1

/-- C21: the entry `add_datum` appends has exactly the given fields; positions and directions have three numbers. -/
theorem C21_datum_fields (m : Meta K) (id kind : String) (ring : Option String) (R z : Option (Val K))
    (origin direction : Option (List (Val K))) (hok : (addDatum m id kind ring R z origin direction).1 = .ok ()) :
    ∃ e s old, dget (addDatum m id kind ring R z origin direction).2 "assembly" = some (.dict s) ∧
      dget s "datums" = some (.list (old ++ [.dict e])) ∧
      (∀ d l, dget m "assembly" = some (.dict d) → dget d "datums" = some (.list l) → old = l) ∧
      dget e "id" = some (.str id) ∧ dget e "kind" = some (.str kind) ∧ dget e "ring" = ring.map .str ∧
      KeptNum R none (dget e "R_mm") ∧ KeptNum z none (dget e "z_mm") ∧
      KeptVec origin none (dget e "origin_mm") ∧ KeptVec direction none (dget e "direction") ∧
      ∀ k, k ∉ ["id", "kind", "ring", "R_mm", "z_mm", "origin_mm", "direction"] → dget e k = none := by
  obtain ⟨e, s, old, h1, h2, h3, h4⟩ := C21_add_appends m _ "datums" _ hok
  unfold datumEntry at h1
  simp only [bind, Except.bind] at h1
  cases q1 : optFloat (optSet [("id", Val.str id), ("kind", Val.str kind)] "ring" (ring.map .str)) "R_mm" R with
  | error x => rw [q1] at h1; cases h1
  | ok e1 =>
  rw [q1] at h1; simp only at h1
  cases q2 : optFloat e1 "z_mm" z with
  | error x => rw [q2] at h1; cases h1
  | ok e2 =>
  rw [q2] at h1; simp only at h1
  cases q3 : optVec3 e2 "origin_mm" origin with
  | error x => rw [q3] at h1; cases h1
  | ok e3 =>
  rw [q3] at h1; simp only at h1
  obtain ⟨a1, b1⟩ := optFloat_spec q1
  obtain ⟨a2, b2⟩ := optFloat_spec q2
  obtain ⟨a3, b3⟩ := optVec3_spec q3
  obtain ⟨a4, b4⟩ := optVec3_spec h1
  refine ⟨e, s, old, h2, h3, h4, ?_, ?_, ?_, ?_, ?_, ?_, ?_, ?_⟩
  · rw [b4 _ (by decide), b3 _ (by decide), b2 _ (by decide), b1 _ (by decide)]; simp [dget_optSet, dget]
  · rw [b4 _ (by decide), b3 _ (by decide), b2 _ (by decide), b1 _ (by decide)]; simp [dget_optSet, dget]
  · rw [b4 _ (by decide), b3 _ (by decide), b2 _ (by decide), b1 _ (by decide)]
    cases ring <;> simp [dget_optSet, dget]
  · rw [b4 _ (by decide), b3 _ (by decide), b2 _ (by decide)]; simpa [dget_optSet, dget] using a1
  · rw [b4 _ (by decide), b3 _ (by decide)]
    rw [b1 _ (by decide)] at a2
    simpa [dget_optSet, dget] using a2
  · rw [b4 _ (by decide)]
    rw [b2 _ (by decide), b1 _ (by decide)] at a3
    simpa [dget_optSet, dget] using a3
  · rw [b3 _ (by decide), b2 _ (by decide), b1 _ (by decide)] at a4
    simpa [dget_optSet, dget] using a4
  · intro k hk
    simp only [List.mem_cons, List.not_mem_nil, or_false, not_or] at hk
    obtain ⟨k1, k2, k3, k4, k5, k6, k7⟩ := hk
    rw [b4 _ k7, b3 _ k6, b2 _ k5, b1 _ k4]
    have a1 : "id" ≠ k := fun h => k1 h.symm
    have a2 : "kind" ≠ k := fun h => k2 h.symm
    simp [dget_optSet, dget, k3, a1, a2]

/-- Non-vacuity -/
example : (addSurface ([] : Meta Int) "s" "mating" (some "t") (some "polished") (some (.num 1))).1 = .ok () ∧
    (addKeepout ([] : Meta Int) "k" "ring" (.dict [("r", .num 3)]) none).1 = .ok () ∧
    (addDatum ([] : Meta Int) "d" "axis" none (some (.num 5)) none (some [.num 0, .num 0, .num 1]) none).1 = .ok () :=
  ⟨rfl, rfl, rfl⟩

end Verif.Metadata
