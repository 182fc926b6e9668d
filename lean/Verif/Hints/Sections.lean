import Verif.Hints.Twice

/-!
# C289: the list fields of `assembly`, and the other namespaces
-/

namespace Verif.Hints
open Verif.Dict Verif.Metadata

variable {K : Type} [DecidableEq K] [Zero K] [One K]

/-- the helper is called for each entry in turn, each time on the metadata the call before left, and never raises -/
inductive Calls (P : Py K) (field : String) : Meta K → List (Meta K) → Meta K → Prop
  | nil (m : Meta K) : Calls P field m [] m
  | cons (m m1 m2 d : Meta K) (ds : List (Meta K)) (h : P.helper field m d = (.ok (), m1)) (hs : Calls P field m1 ds m2) : Calls P field m (d :: ds) m2

/-- C289: a list field of `assembly` (datums, bolt patterns, surfaces, keepouts) is applied entry by entry: the hint is applied without an exception, leaving `m'`, iff its value is a list of
dictionaries for which the calls of the helper, one after another, lead from `m` to `m'`. -/
theorem C289_entries (P : Py K) (field : String) (hf : field ∈ listFields) (v : Val K) (m m' : Meta K) :
    applyHint P m [("assembly." ++ field, v)] = (.ok (), m') ↔ ∃ ds : List (Meta K), v = .list (ds.map .dict) ∧ Calls P field m ds m' := by
  have h1 : field ≠ "joint_kind" := by rintro rfl; exact absurd hf (by decide)
  have h2 : field ≠ "no_cut" := by rintro rfl; exact absurd hf (by decide)
  have ha : applyKey P m ("assembly." ++ field, v) = applyAssembly P m field v := applyKey_assembly P m _ field v rfl
  have key : ∀ (l : List (Val K)) (m : Meta K), applyEntries P field m l = (.ok (), m') ↔ ∃ ds : List (Meta K), l = ds.map .dict ∧ Calls P field m ds m' := by
    intro l
    induction l with
    | nil =>
      intro m
      simp only [applyEntries, Prod.mk.injEq, true_and]
      constructor
      · rintro rfl; exact ⟨[], rfl, .nil _⟩
      · rintro ⟨ds, hd, hc⟩
        cases ds with
        | nil => cases hc; rfl
        | cons d ds => simp at hd
    | cons x l ih =>
      intro m
      cases x with
      | dict d =>
        simp only [applyEntries]
        cases hh : P.helper field m d with
        | mk r m1 =>
          cases r with
          | error e =>
            simp only [Prod.mk.injEq, reduceCtorEq, false_and, false_iff]
            rintro ⟨ds, hd, hc⟩
            cases hc with
            | nil => simp at hd
            | cons _ m1' _ d' ds' h' hs' =>
              simp only [List.map_cons, List.cons.injEq, Val.dict.injEq] at hd
              rw [← hd.1, hh] at h'; simp at h'
          | ok u =>
            simp only
            rw [ih m1]
            constructor
            · rintro ⟨ds, hd, hc⟩
              exact ⟨d :: ds, by rw [hd]; rfl, .cons _ m1 _ _ _ hh hc⟩
            · rintro ⟨ds, hd, hc⟩
              cases hc with
              | nil => simp at hd
              | cons _ m1' _ d' ds' h' hs' =>
                simp only [List.map_cons, List.cons.injEq, Val.dict.injEq] at hd
                rw [← hd.1, hh, Prod.mk.injEq] at h'
                exact ⟨ds', hd.2, h'.2 ▸ hs'⟩
      | _ =>
        simp only [applyEntries, Prod.mk.injEq, reduceCtorEq, false_and, false_iff]
        rintro ⟨ds, hd, _⟩
        cases ds with
        | nil => simp at hd
        | cons d ds => simp at hd
  unfold applyHint
  rw [ha]
  unfold applyAssembly
  rw [if_neg h1, if_neg h2, if_pos hf]
  cases v with
  | list l =>
    simp only
    rw [show (∃ ds : List (Meta K), Val.list l = .list (ds.map .dict) ∧ Calls P field m ds m') ↔ ∃ ds : List (Meta K), l = ds.map .dict ∧ Calls P field m ds m' by simp, ← key l m]
    cases hr : applyEntries P field m l with
    | mk r m1 => cases r <;> simp [applyHint]
  | _ => simp

/-- C289: an entry of any other namespace lands there, and every other field of that namespace, and every other root field, stays. -/
theorem C289_other (P : Py K) (ns f : String) (v : Val K) (hd : '.' ∉ ns.toList)
    (hns : ns ∉ ["assembly", "operation", "layer", "schema", "tags", "entityId"]) (m m' : Meta K)
    (h : applyHint P m [(ns ++ "." ++ f, v)] = (.ok (), m')) :
    (∃ s, dget m' ns = some (.dict s) ∧ dget s f = some v ∧
      ∀ g, g ≠ f → dget s g = (match dget m ns with | some (.dict t) => dget t g | _ => none)) ∧
    ∀ k w, k ≠ ns → dget m k = some w → (k = "layer" → w.truthy = true) → dget m' k = some w := by
  simp only [List.mem_cons, List.not_mem_nil, or_false, not_or] at hns
  have hp : parseKey (ns ++ "." ++ f) = some (ns, f) := (parseKey_some _ _ _).2 ⟨hd, rfl⟩
  have h0 : ns ++ "." ++ f ≠ "" := by intro e; rw [e] at hp; exact absurd hp (by rw [show parseKey "" = none by decide]; simp)
  have ha : applyKey P m (ns ++ "." ++ f, v) = applyOther m ns f v := by
    unfold applyKey
    simp only [if_neg h0, hp, if_neg hns.1, if_neg hns.2.1]
  have hroot : dget (ensureRoot m none) ns = dget m ns := by
    rw [dget_ensureRoot, if_neg hns.2.2.1, if_neg hns.2.2.2.1, if_neg hns.2.2.2.2.1, if_neg hns.2.2.2.2.2]
  have hkeep : ∀ k w, k ≠ ns → dget m k = some w → (k = "layer" → w.truthy = true) → dget (ensureRoot m none) k = some w := by
    intro k w _ hw hl
    rw [dget_ensureRoot]
    by_cases h1 : k = "layer"
    · have hw' : dget m "layer" = some w := h1 ▸ hw
      rw [if_pos h1, hw']
      simp [hl h1]
    rw [if_neg h1]
    by_cases h2 : k = "schema"
    · have hw' : dget m "schema" = some w := h2 ▸ hw
      rw [if_pos h2, hw']; rfl
    rw [if_neg h2]
    by_cases h3 : k = "tags"
    · have hw' : dget m "tags" = some w := h3 ▸ hw
      rw [if_pos h3, hw']; rfl
    rw [if_neg h3]
    by_cases h4 : k = "entityId"
    · have hw' : dget m "entityId" = some w := h4 ▸ hw
      rw [if_pos h4, hw']
    rw [if_neg h4]; exact hw
  unfold applyHint at h
  rw [ha] at h
  unfold applyOther at h
  simp only [hroot] at h
  cases hm : dget m ns with
  | none =>
    rw [hm] at h
    simp only [applyHint, Prod.mk.injEq, true_and] at h
    subst h
    exact ⟨⟨[(f, v)], dget_dset_same _ _ _, by simp [dget], fun g hg => by simp [dget, Ne.symm hg]⟩,
      fun k w hk hw hl => by rw [dget_dset_other _ _ _ _ hk]; exact hkeep k w hk hw hl⟩
  | some x =>
    rw [hm] at h
    cases x with
    | dict t =>
      simp only [applyHint, Prod.mk.injEq, true_and] at h
      subst h
      exact ⟨⟨dset t f v, dget_dset_same _ _ _, dget_dset_same _ _ _, fun g hg => dget_dset_other _ _ _ _ hg⟩,
        fun k w hk hw hl => by rw [dget_dset_other _ _ _ _ hk]; exact hkeep k w hk hw hl⟩
    | _ => simp at h

example : (applyHint demoPy [("materials", .dict [("density", .num 3)])] [("materials.colour", .str "red")]).1 = .ok () := by decide

end Verif.Hints
