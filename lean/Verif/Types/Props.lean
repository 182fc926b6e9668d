import Verif.Types.Model
import Mathlib.Tactic.Common

/-! C25 (assignability laws) and C76 (list literals). -/

namespace Verif.Types

theorem geoAccepts_refl (g : Geo) : geoAccepts g g = true := by cases g <;> rfl

/-- C25: every type accepts its own values. -/
theorem C25_reflexive (t : Ty) : accepts t t = true := by
  induction t with
  | list t ih => simpa [accepts] using ih
  | opt t ih => simpa [accepts] using ih
  | geo g => simpa [accepts] using geoAccepts_refl g
  | _ => simp [accepts]

/-- C25: lists are covariant, and a list type accepts nothing but lists. -/
theorem C25_lists_covariant (t u : Ty) :
    (accepts (.list t) (.list u) = accepts t u) ∧ (accepts (.list t) u = true → ∃ v, u = .list v) := by
  constructor
  · rfl
  · intro h; cases u <;> simp [accepts] at h
    exact ⟨_, rfl⟩

/-- C25: an optional accepts exactly what its inner type accepts, and optionals of such types. -/
theorem C25_optional (t u : Ty) :
    (accepts t u = true → accepts (.opt t) u = true ∨ ∃ v, u = .opt v) ∧
    (accepts (.opt t) (.opt u) = accepts t u) := by
  constructor
  · intro h
    cases u <;> simp_all [accepts]
  · rfl

/-- C25: an optional accepts its inner type. -/
theorem C25_optional_inner (t : Ty) : accepts (.opt t) t = true := by
  induction t with
  | opt t ih => 
    show accepts (.opt t) t = true
    exact ih
  | _ => first
    | exact C25_reflexive _
    | (simp [accepts])

/-- C25: a computed common type accepts both. -/
theorem C25_common_type (t u c : Ty) (h : commonType t u = some c) : accepts c t = true ∧ accepts c u = true := by
  unfold commonType at h
  split_ifs at h with h1 h2 h3 h4 h5
  · simp at h; subst h; exact ⟨C25_reflexive _, h1⟩
  · simp at h; subst h; exact ⟨h2, C25_reflexive _⟩
  · simp at h; subst h
    simp only [Bool.and_eq_true] at h3
    constructor
    · have := h3.1
      cases t <;> simp [isNumeric] at this
      rename_i p; cases p <;> simp_all [isNumeric, accepts]
    · have := h3.2
      cases u <;> simp [isNumeric] at this
      rename_i p; cases p <;> simp_all [isNumeric, accepts]
  · simp at h; subst h
    simp only [Bool.and_eq_true] at h4
    constructor
    · have := h4.1
      cases t <;> simp [isPoint] at this
      rename_i p; cases p <;> simp_all [isPoint, accepts, geoAccepts]
    · have := h4.2
      cases u <;> simp [isPoint] at this
      rename_i p; cases p <;> simp_all [isPoint, accepts, geoAccepts]
  · simp at h; subst h
    simp only [Bool.and_eq_true] at h5
    constructor
    · have := h5.1
      cases t <;> simp [isVector] at this
      rename_i p; cases p <;> simp_all [isVector, accepts, geoAccepts]
    · have := h5.2
      cases u <;> simp [isVector] at this
      rename_i p; cases p <;> simp_all [isVector, accepts, geoAccepts]

/-- Non-vacuity -/
example : commonType (.list (.prim .int)) (.list (.prim .float)) = some (.list (.prim .float)) ∧
    commonType (.geo .point2d) (.geo .point3d) = some (.geo .point) := by decide

/-- a type without optionals, unknown and error -/
def Plain : Ty → Prop
  | .list t => Plain t
  | .opt _ => False
  | .unknown => False
  | .error => False
  | _ => True

/-- C25: for types that are not lists (or optional or unknown), a common type is found whenever a plain one
exists. For lists it may be missed, see `C25_common_type_misses_lists`. -/
theorem C25_common_type_complete_partial (t u c : Ty) (ht : Plain t) (hu : Plain u) (hc : Plain c)
    (hl : ∀ v, t ≠ .list v) (h1 : accepts c t = true) (h2 : accepts c u = true) :
    (commonType t u).isSome = true := by
  cases c with
  | prim p =>
    cases t <;> simp [accepts] at h1
    cases u <;> simp [accepts] at h2
    rename_i a b
    cases p <;> cases a <;> cases b <;> simp_all [commonType, accepts, isNumeric]
  | geo g =>
    cases t <;> simp [accepts] at h1
    cases u <;> simp [accepts] at h2
    rename_i a b
    cases g <;> cases a <;> cases b <;> simp_all [commonType, accepts, isNumeric, geoAccepts, isPoint, isVector]
  | compound g =>
    cases t <;> simp [accepts] at h1
    cases u <;> simp [accepts] at h2
    rename_i a b
    cases g <;> cases a <;> cases b <;> simp_all [commonType, accepts]
  | list c =>
    cases t <;> simp [accepts] at h1
    exact absurd rfl (hl _)
  | opt c => cases hc
  | unknown => cases hc
  | error => cases hc
  | _ =>
    simp [accepts] at h1 h2
    subst h1 h2
    simp [commonType, accepts]

/-- C25 (violated): no common type is found for lists of 2-d and 3-d points although `list<point>` accepts both. -/
theorem C25_common_type_misses_lists :
    commonType (.list (.geo .point2d)) (.list (.geo .point3d)) = Option.none ∧
    accepts (.list (.geo .point)) (.list (.geo .point2d)) = true ∧
    accepts (.list (.geo .point)) (.list (.geo .point3d)) = true := by decide

/-- C25 (violated): assignability is not transitive: a 3-d point reaches a 2-d place through a `point`. -/
theorem C25_not_transitive :
    accepts (.geo .point) (.geo .point3d) = true ∧ accepts (.geo .point2d) (.geo .point) = true ∧
    accepts (.geo .point2d) (.geo .point3d) = false := by decide

/-- C25 (violated): `none`, documented as valid for optional types, is accepted by an optional only if its
inner type accepts it already. -/
theorem C25_optional_rejects_none (t : Ty) (h : accepts t .none = false) : accepts (.opt t) .none = false := by
  simpa [accepts] using h

/-- C25 (violated): the empty list's type `list<unknown>` is accepted by no list of a known element type. -/
theorem C25_empty_list_rejected (t : Ty) (h : Plain t) : accepts (.list t) (.list (inferList []).1) = false := by
  show accepts t .unknown = false
  cases t <;> simp_all [Plain, accepts]

/-! ### C76 list literals -/

/-- a common type of plain types is plain -/
theorem plain_common {t u c : Ty} (ht : Plain t) (hu : Plain u) (h : commonType t u = some c) : Plain c := by
  unfold commonType at h
  split_ifs at h <;> (simp at h; subst h) <;> first | assumption | trivial

theorem plain_widen (a : Ty) : ∀ (b x : Ty), Plain a → Plain b → Plain x → accepts b a = true →
    accepts a b = false → accepts a x = true → accepts b x = true := by
  induction a with
  | list a ih =>
    intro b x pa pb px h1 h2 h3
    cases b <;> simp [accepts, Plain] at h1 pb
    cases x <;> simp [accepts] at h3
    rename_i b' x'
    have h2' : accepts a b' = false := h2
    have px' : Plain x' := px
    show accepts b' x' = true
    exact ih b' x' pa pb px' h1 h2' h3
  | prim p =>
    intro b x pa pb px h1 h2 h3
    cases b <;> simp [accepts, Plain] at h1 pb
    cases x <;> simp [accepts] at h3
    rename_i q r
    cases p <;> cases q <;> cases r <;> simp_all [accepts]
  | geo p =>
    intro b x pa pb px h1 h2 h3
    cases b <;> simp [accepts, Plain] at h1 pb
    cases x <;> simp [accepts] at h3
    rename_i q r
    cases p <;> cases q <;> cases r <;> simp_all [accepts, geoAccepts]
  | compound p =>
    intro b x pa pb px h1 h2 h3
    cases b <;> simp [accepts, Plain] at h1 pb
    cases x <;> simp [accepts] at h3
    rename_i q r
    cases p <;> cases q <;> cases r <;> simp_all [accepts]
  | opt _ => intro b x pa; cases pa
  | unknown => intro b x pa; cases pa
  | error => intro b x pa; cases pa
  | _ =>
    intro b x pa pb px h1 h2 h3
    cases b <;> simp_all [accepts, Plain]

/-- widening through `commonType` keeps what was accepted -/
theorem common_widen {a t c x : Ty} (pa : Plain a) (pt : Plain t) (px : Plain x) (hn : accepts a t = false)
    (h : commonType a t = some c) (hx : accepts a x = true) : accepts c x = true := by
  have hca := (C25_common_type _ _ _ h).1
  have hct := (C25_common_type _ _ _ h).2
  have pc := plain_common pa pt h
  cases hac : accepts a c with
  | false => exact plain_widen a c x pa pc px hca hac hx
  | true =>
    -- `a` and `c` accept each other; then `c` is the polymorphic one or equal to `a`
    unfold commonType at h
    rw [hn] at h
    simp only [Bool.false_eq_true, if_false] at h
    split_ifs at h with h2 h3 h4 h5
    · simp at h; subst h; rw [hn] at hac; cases hac
    · simp at h; subst h
      cases a <;> simp [isNumeric] at h3
      rename_i p
      cases p <;> simp_all [isNumeric, accepts]
    · simp at h; subst h
      simp only [Bool.and_eq_true] at h4
      cases a <;> simp [isPoint] at h4
      rename_i p
      cases x <;> simp [accepts] at hx
      rename_i q
      cases p <;> cases q <;> simp_all [isPoint, accepts, geoAccepts]
    · simp at h; subst h
      simp only [Bool.and_eq_true] at h5
      cases a <;> simp [isVector] at h5
      rename_i p
      cases x <;> simp [accepts] at hx
      rename_i q
      cases p <;> cases q <;> simp_all [isVector, accepts, geoAccepts]

theorem inferStep_sound (ts : List Ty) : ∀ (acc : Ty × Bool) (seen : List Ty), Plain acc.1 →
    (∀ x ∈ seen, Plain x ∧ accepts acc.1 x = true) → (∀ t ∈ ts, Plain t) →
    (ts.foldl inferStep acc).2 = true →
    acc.2 = true ∧ ∀ x, x ∈ seen ∨ x ∈ ts → accepts (ts.foldl inferStep acc).1 x = true := by
  induction ts with
  | nil =>
    intro acc seen _ hs _ h
    refine ⟨h, ?_⟩
    intro x hx
    rcases hx with hx | hx
    · exact (hs x hx).2
    · cases hx
  | cons t ts ih =>
    intro acc seen pa hs hts h
    have pt := hts t (by simp)
    rw [List.foldl_cons] at h ⊢
    have hts' : ∀ t ∈ ts, Plain t := fun u hu => hts u (List.mem_cons_of_mem _ hu)
    unfold inferStep at h ⊢
    cases ha : accepts acc.1 t with
    | true =>
      rw [ha] at h
      simp only [if_true] at h ⊢
      obtain ⟨h1, h2⟩ := ih acc (t :: seen) pa (by
        intro x hx
        rcases List.mem_cons.mp hx with rfl | hx
        · exact ⟨pt, ha⟩
        · exact hs x hx) hts' h
      refine ⟨h1, fun x hx => h2 x ?_⟩
      simp only [List.mem_cons] at hx ⊢; tauto
    | false =>
      rw [ha] at h
      simp only [Bool.false_eq_true, if_false] at h ⊢
      cases hc : commonType acc.1 t with
      | none =>
        rw [hc] at h
        simp only at h
        have := (ih (acc.1, false) seen pa hs hts' h).1
        cases this
      | some c =>
        rw [hc] at h
        simp only at h ⊢
        obtain ⟨h1, h2⟩ := ih (c, acc.2) (t :: seen) (plain_common pa pt hc) (by
          intro x hx
          rcases List.mem_cons.mp hx with rfl | hx
          · exact ⟨pt, (C25_common_type _ _ _ hc).2⟩
          · exact ⟨(hs x hx).1, common_widen pa pt (hs x hx).1 ha hc (hs x hx).2⟩) hts' h
        refine ⟨h1, fun x hx => h2 x ?_⟩
        simp only [List.mem_cons] at hx ⊢; tauto

/-- C76 (partial): a list literal that type-checks gets an element type that accepts every element, as long
as no element is of optional, unknown or error type. Missing: such elements, see
`C76_optional_element_wrong`. -/
theorem C76_list_literal_partial (ts : List Ty) (hne : ts ≠ []) (hp : ∀ t ∈ ts, Plain t)
    (h : (inferList ts).2 = true) : ∀ t ∈ ts, accepts (inferList ts).1 t = true := by
  cases ts with
  | nil => exact absurd rfl hne
  | cons a ts =>
    have := inferStep_sound ts (a, true) [a] (hp a (by simp))
      (by intro x hx; simp at hx; subst hx; exact ⟨hp x (by simp), C25_reflexive x⟩)
      (fun t ht => hp t (List.mem_cons_of_mem _ ht)) h
    intro t ht
    apply this.2
    simp at ht ⊢; exact ht

/-- Non-vacuity: widened twice. -/
example : inferList [.geo .point2d, .geo .point, .geo .point3d] = (.geo .point, true) := by decide

/-- C76 (violated): with an optional element the inferred type may reject an earlier element. -/
theorem C76_optional_element_wrong :
    inferList [.geo .point, .geo .point3d, .opt (.geo .point2d)] = (.opt (.geo .point2d), true) ∧
    accepts (.opt (.geo .point2d)) (.geo .point3d) = false := by decide

/-! ### C25: the documented rules, and nothing else -/

/-- Specification: the assignability rules of the DSL reference. `Fits t u`: a place of type `t` takes a value of
type `u`. -/
inductive Fits : Ty → Ty → Prop
  /-- a type fits itself (except that optionals and lists go by their element, below) -/
  | same (t) : Fits t t
  /-- unknown and error types suppress follow-up errors -/
  | unknown (u) : Fits .unknown u
  | error (u) : Fits .error u
  /-- an int is good where a float is wanted -/
  | intFloat : Fits (.prim .float) (.prim .int)
  /-- `point` and the dimensioned points convert into each other, and so do vectors -/
  | point (g) : g ∈ [Geo.point2d, .point3d] → Fits (.geo .point) (.geo g)
  | point' (g) : g ∈ [Geo.point2d, .point3d] → Fits (.geo g) (.geo .point)
  | vector (g) : g ∈ [Geo.vector2d, .vector3d] → Fits (.geo .vector) (.geo g)
  | vector' (g) : g ∈ [Geo.vector2d, .vector3d] → Fits (.geo g) (.geo .vector)
  /-- a profile is a region -/
  | profileRegion : Fits (.compound .region2d) (.compound .profile2d)
  | list (t u) : Fits t u → Fits (.list t) (.list u)
  | opt (t u) : Fits t u → Fits (.opt t) (.opt u)
  | optIn (t u) : (∀ v, u ≠ .opt v) → Fits t u → Fits (.opt t) u

/-- C25: assignability is exactly the relation given by those rules. -/
theorem C25_rules (t u : Ty) : accepts t u = true ↔ Fits t u := by
  constructor
  · induction t generalizing u with
    | list t ih =>
      intro h
      cases u <;> simp [accepts] at h
      exact .list _ _ (ih _ h)
    | opt t ih =>
      intro h
      by_cases hu : ∃ v, u = .opt v
      · obtain ⟨v, rfl⟩ := hu
        exact .opt _ _ (ih _ h)
      · refine .optIn _ _ (fun v e => hu ⟨v, e⟩) (ih _ ?_)
        cases u <;> first | exact h | exact absurd ⟨_, rfl⟩ hu
    | unknown => intro _; exact .unknown _
    | error => intro _; exact .error _
    | prim p =>
      intro h
      cases u <;> simp [accepts] at h
      rcases h with rfl | ⟨rfl, rfl⟩
      · exact .same _
      · exact .intFloat
    | geo a =>
      intro h
      cases u <;> simp [accepts] at h
      rename_i b
      cases a <;> cases b <;> simp [geoAccepts] at h <;>
        first
          | exact .same _
          | exact .point _ (by simp)
          | exact .point' _ (by simp)
          | exact .vector _ (by simp)
          | exact .vector' _ (by simp)
    | compound a =>
      intro h
      cases u <;> simp [accepts] at h
      rcases h with rfl | ⟨rfl, rfl⟩
      · exact .same _
      · exact .profileRegion
    | _ =>
      intro h
      simp only [accepts, decide_eq_true_eq] at h
      subst h
      exact .same _
  · intro h
    induction h with
    | same t => exact C25_reflexive t
    | unknown u => simp [accepts]
    | error u => simp [accepts]
    | intFloat => rfl
    | point g hg => simp at hg; rcases hg with rfl | rfl <;> rfl
    | point' g hg => simp at hg; rcases hg with rfl | rfl <;> rfl
    | vector g hg => simp at hg; rcases hg with rfl | rfl <;> rfl
    | vector' g hg => simp at hg; rcases hg with rfl | rfl <;> rfl
    | profileRegion => rfl
    | list t u _ ih => exact ih
    | opt t u _ ih => exact ih
    | optIn t u hu _ ih => cases u <;> first | exact ih | exact absurd rfl (hu _)

/-- Non-vacuity: both answers occur. -/
example : Fits (.opt (.list (.prim .float))) (.list (.prim .int)) ∧ ¬ Fits (.compound .profile2d) (.compound .region2d) :=
  ⟨(C25_rules _ _).mp rfl, fun h => by have := (C25_rules _ _).mpr h; revert this; decide⟩

end Verif.Types
