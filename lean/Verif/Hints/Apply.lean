import Verif.Hints.Props
import Verif.Metadata.Props

/-!
# `@meta` hints: applying them
-/

namespace Verif.Hints
open Verif.Dict Verif.Metadata

variable {K : Type} [DecidableEq K] [Zero K] [One K]

/-! ## C290: what the transform does to values is not seen by the application -/

omit [One K] in
theorem boolOf_coerced (P : Py K) (v : Val K) (c k : String) : boolOf P (coerced ((coerceBool P v).map Val.bool) v c k).1 = boolOf P v := by
  cases h : coerceBool P v with
  | none => rfl
  | some b =>
    simp only [Option.map_some, coerced]
    cases v with
    | bool b' => simp only [coerceBool, Option.some.injEq] at h; subst h; rfl
    | str s =>
      simp only [coerceBool] at h
      simp only [boolOf, Val.truthy]
      split_ifs at h with h1 h2
      · simp only [Option.some.injEq] at h; subst h; simp [h1]
      · simp only [Option.some.injEq] at h; subst h; simp [h1]
    | _ => simp [coerceBool] at h

omit [DecidableEq K] [Zero K] [One K] in
theorem none_coerced (P : Py K) (v : Val K) (c k : String) : (coerced ((coerceBool P v).map Val.bool) v c k).1 = .none ↔ v = .none := by
  cases h : coerceBool P v with
  | none => simp [coerced]
  | some b =>
    simp only [Option.map_some, coerced, reduceCtorEq, false_iff]
    rintro rfl; simp [coerceBool] at h

/-- C290: on every entry, except a list of other things than strings as target filter, application of the normalised value is application of the value. -/
theorem applyKey_norm (P : Py K) (cmd : String) (m : Meta K) (kv : String × Val K)
    (ht : ∀ l, kv = ("operation.target_filter", .list l) → ∀ x ∈ l, ∃ s, x = .str s) :
    applyKey P m (kv.1, (normKey P cmd kv).1) = applyKey P m kv := by
  obtain ⟨k, v⟩ := kv
  unfold applyKey normKey
  dsimp only
  by_cases h0 : k = ""
  · simp only [if_pos h0]
  simp only [if_neg h0]
  cases h : parseKey k with
  | none =>
    simp only
    by_cases h1 : k = "layer" ∨ k = "tags"
    · simp only [if_pos h1]
    · simp only [if_neg h1]
  | some p =>
    obtain ⟨ns, f⟩ := p
    simp only
    by_cases h1 : ns = "assembly"
    · simp only [if_pos h1]
      unfold normAssembly
      by_cases c1 : f = "joint_kind"
      · simp only [if_pos c1]
      by_cases c2 : f = "no_cut"
      · simp only [if_neg c1, if_pos c2]
        unfold applyAssembly
        simp only [if_neg c1, if_pos c2]
        by_cases hv : v = .none
        · subst hv; rfl
        · have hw := (none_coerced P v cmd k).not.2 hv
          have hb := boolOf_coerced P v cmd k
          generalize (coerced ((coerceBool P v).map Val.bool) v cmd k).1 = w at hw hb
          cases v with
          | none => exact absurd rfl hv
          | _ => cases w <;> first | exact absurd rfl hw | (simp only [hb])
      by_cases c3 : f ∈ listFields
      · simp only [if_neg c1, if_neg c2, if_pos c3]
      · simp only [if_neg c1, if_neg c2, if_neg c3]
    by_cases h2 : ns = "operation"
    · simp only [if_neg h1, if_pos h2]
      unfold normOperation
      by_cases c1 : f = "kind"
      · simp only [if_pos c1]
      by_cases c2 : f = "policy"
      · simp only [if_neg c1, if_pos c2]
      by_cases c3 : f = "feature_kind"
      · simp only [if_neg c1, if_neg c2, if_pos c3]
      by_cases c4 : f = "through" ∨ f = "consume"
      · simp only [if_neg c1, if_neg c2, if_neg c3, if_pos c4]
        have c6 : f ≠ "target_filter" := by rcases c4 with rfl | rfl <;> decide
        unfold applyOperation
        simp only [if_neg c1, if_neg c2, if_neg c3, if_pos c4, if_neg c6, boolOf_coerced]
      by_cases c5 : f = "priority"
      · have c6 : f ≠ "target_filter" := by rw [c5]; decide
        simp only [if_neg c1, if_neg c2, if_neg c3, if_neg c4, if_pos c5]
        unfold applyOperation
        simp only [if_neg c1, if_neg c2, if_neg c3, if_neg c4, if_neg c6, if_pos c5]
        cases hx : P.floatOf v with
        | none => simp only [Option.map_none, coerced]
        | some x => simp only [Option.map_some, coerced, setPriority, P.floatOf_num, hx]
      by_cases c6 : f = "target_filter"
      · simp only [if_neg c1, if_neg c2, if_neg c3, if_neg c4, if_neg c5, if_pos c6]
        unfold applyOperation
        simp only [if_pos c6]
        have hk : k = "operation.target_filter" := by
          rw [((parseKey_some _ _ _).1 h).2, h2, c6]; decide
        congr 1
        cases v with
        | str s => simp [coerceList, coerced, targetOf]
        | list l =>
          simp only [coerceList, coerced, targetOf, Val.list.injEq]
          have hl := ht l (by rw [hk])
          conv_rhs => rw [← List.map_id l]
          apply List.map_congr_left
          intro x hx
          obtain ⟨s, rfl⟩ := hl x hx
          simp [P.strOf_str]
        | _ => simp [coerceList, coerced, targetOf]
      by_cases c7 : f = "feature_id" ∨ f = "stage"
      · simp only [if_neg c1, if_neg c2, if_neg c3, if_neg c4, if_neg c5, if_neg c6, if_pos c7]
        unfold applyOperation
        simp only [if_neg c1, if_neg c2, if_neg c3, if_neg c4, if_neg c5, if_neg c6, if_pos c7, P.strOf_str]
      · simp only [if_neg c1, if_neg c2, if_neg c3, if_neg c4, if_neg c5, if_neg c6, if_neg c7]
    · simp only [if_neg h1, if_neg h2]

/-- C290 (partial): applying a hint after the transform has the same outcome, error or metadata, as applying it as written, whether or not the transform reported errors.
Missing: target filters given as a list with something else than strings in it (see `C290_target_filter`). -/
theorem C290_normalised_partial (P : Py K) (cmd : String) (m : Meta K) (h : Meta K)
    (ht : ∀ l, ("operation.target_filter", Val.list l) ∈ h → ∀ x ∈ l, ∃ s, x = .str s) :
    applyHint P m (normHint P cmd h).1 = applyHint P m h := by
  by_cases h0 : h = []
  · subst h0; rfl
  unfold normHint
  rw [if_neg h0]
  simp only
  clear h0
  induction h generalizing m with
  | nil => rfl
  | cons kv h ih =>
    simp only [List.map_cons]
    have hk : applyKey P m (kv.1, if kv.1 = "" then kv.2 else (normKey P cmd kv).1) = applyKey P m kv := by
      split_ifs
      · rfl
      · exact applyKey_norm P cmd m kv (fun l e => ht l (by simp [← e]))
    unfold applyHint
    rw [hk]
    have ih' := fun m => ih m (fun l hl => ht l (List.mem_cons_of_mem _ hl))
    cases hr : applyKey P m kv with
    | mk r m' => cases r <;> simp [ih']

/-- the operations of Python for examples: numbers are not strings -/
def demoPy : Py Nat where
  strOf v := match v with | .str s => s | .num n => toString n | _ => "?"
  strOf_str _ := rfl
  floatOf v := match v with | .num n => some n | _ => none
  floatOf_num _ := rfl
  lower s := s
  split s := [s]
  helper _ m _ := (.ok (), m)

/-- C290 fails for other lists: the target filter `[1]` is stored as `[1]` when applied as written, as `["1"]` after the transform, which reports nothing about it. -/
theorem C290_target_filter :
    let h : Meta Nat := [("operation.kind", .str "subtract"), ("operation.target_filter", .list [.num 1])]
    (transform demoPy [("CUT", h)]).2 = [] ∧
    ((applyHint demoPy [] h).2.find? (fun kv => kv.1 = "operation")).map (fun kv => match kv.2 with | .dict d => dget d "target_filter" | _ => none) =
      some (some (.list [.num 1])) ∧
    ((applyHint demoPy [] (normHint demoPy "CUT" h).1).2.find? (fun kv => kv.1 = "operation")).map
      (fun kv => match kv.2 with | .dict d => dget d "target_filter" | _ => none) = some (some (.list [.str "1"])) := by
  refine ⟨rfl, rfl, rfl⟩

/-! ## C288: accepted hints can be applied -/

/-- the keys whose rules in the transform and at run time agree -/
def agreedKeys : List String :=
  ["assembly.no_cut", "operation.kind", "operation.policy", "operation.through", "operation.consume", "operation.priority",
    "operation.target_filter", "operation.feature_id", "operation.stage", "layer", "tags"]

/-- tags, if there, are a list -/
def TagsOk (m : Meta K) : Prop := ∀ v, dget m "tags" = some v → ∃ l, v = .list l

theorem tagsOk_ensureRoot (m : Meta K) (h : TagsOk m) : TagsOk (ensureRoot m none) := by
  intro v hv
  rw [dget_ensureRoot, if_neg (by decide), if_neg (by decide), if_pos rfl] at hv
  cases ht : dget m "tags" with
  | none => rw [ht] at hv; simp at hv; exact ⟨[], hv.symm⟩
  | some w => rw [ht] at hv; simp at hv; subst hv; exact h _ ht

omit [DecidableEq K] [Zero K] [One K] in
theorem tagsOk_dset (m : Meta K) (k : String) (v : Val K) (h : TagsOk m) (hk : k ≠ "tags") : TagsOk (dset m k v) := by
  intro w hw
  rw [dget_dset_other _ _ _ _ (Ne.symm hk)] at hw
  exact h w hw

omit [DecidableEq K] [Zero K] [One K] in
theorem tagsOk_ensureNamespace (m : Meta K) (ns : String) (h : TagsOk m) (hk : ns ≠ "tags") : TagsOk (ensureNamespace m ns).1 := by
  unfold ensureNamespace
  split
  · exact h
  · exact tagsOk_dset _ _ _ h hk

theorem tagsOk_getSection (m : Meta K) (ns : String) (h : TagsOk m) (hk : ns ≠ "tags") : TagsOk (getSection m ns).1 := by
  unfold getSection
  split
  · exact h
  · exact tagsOk_ensureNamespace _ _ (tagsOk_ensureRoot m h) hk

theorem setOp_ok (m : Meta K) (f : String) (v : Val K) (h : TagsOk m) : (setOp m f v).1 = .ok () ∧ TagsOk (setOp m f v).2 := by
  unfold setOp
  exact ⟨rfl, tagsOk_dset _ _ _ (tagsOk_getSection m _ h (by decide)) (by decide)⟩

theorem setAssembly_ok (m : Meta K) (nc : Option Bool) (h : TagsOk m) :
    (setAssembly m .none nc).1 = .ok () ∧ TagsOk (setAssembly m .none nc).2 := by
  unfold setAssembly
  rw [if_pos (by simp [validEnum])]
  exact ⟨rfl, tagsOk_dset _ _ _ (tagsOk_ensureNamespace _ _ (tagsOk_ensureRoot m h) (by decide)) (by decide)⟩

omit [DecidableEq K] [Zero K] [One K] in
theorem validEnum_str (l : List String) (v : Val K) (h : ∃ s ∈ l, v = .str s) : validEnum v l = true := by
  obtain ⟨s, hs, rfl⟩ := h; simp [validEnum, hs]

theorem applyKey_operation (P : Py K) (m : Meta K) (k f : String) (v : Val K) (hk : k = "operation." ++ f) :
    applyKey P m (k, v) = applyOperation P m f v := by
  have hp : parseKey k = some ("operation", f) := (parseKey_some _ _ _).2 ⟨by decide, by rw [hk]; rfl⟩
  have h0 : k ≠ "" := by rintro rfl; exact absurd hp (by rw [show parseKey "" = none by decide]; simp)
  unfold applyKey
  simp only [if_neg h0, hp, if_neg (show ("operation" : String) ≠ "assembly" by decide), if_true]

theorem applyKey_assembly (P : Py K) (m : Meta K) (k f : String) (v : Val K) (hk : k = "assembly." ++ f) :
    applyKey P m (k, v) = applyAssembly P m f v := by
  have hp : parseKey k = some ("assembly", f) := (parseKey_some _ _ _).2 ⟨by decide, by rw [hk]; rfl⟩
  have h0 : k ≠ "" := by rintro rfl; exact absurd hp (by rw [show parseKey "" = none by decide]; simp)
  unfold applyKey
  simp only [if_neg h0, hp, if_true]

theorem applyKey_root (P : Py K) (m : Meta K) (k : String) (v : Val K) (hk : '.' ∉ k.toList) (h0 : k ≠ "") :
    applyKey P m (k, v) = applyRoot P m k v := by
  unfold applyKey
  simp only [if_neg h0, (parseKey_none k).2 hk]

theorem applyKey_ok (P : Py K) (m : Meta K) (kv : String × Val K) (hk : kv.1 ∈ agreedKeys) (hv : EntryOk P kv.1 kv.2) (ht : TagsOk m) :
    (applyKey P m kv).1 = .ok () ∧ TagsOk (applyKey P m kv).2 := by
  obtain ⟨k, v⟩ := kv
  simp only [agreedKeys, List.mem_cons, List.not_mem_nil, or_false] at hk
  rcases hk with rfl | rfl | rfl | rfl | rfl | rfl | rfl | rfl | rfl | rfl | rfl
  · rw [applyKey_assembly P m _ "no_cut" v (by decide)]
    unfold applyAssembly
    rw [if_neg (by decide), if_pos rfl]
    cases v <;> exact setAssembly_ok m _ ht
  · rw [applyKey_operation P m _ "kind" v (by decide)]
    have : applyOperation P m "kind" v = setEnum m "kind" opKinds v := by simp [applyOperation]
    rw [this, setEnum, if_pos (validEnum_str _ _ (hv.2.1 rfl))]
    exact setOp_ok m _ _ ht
  · rw [applyKey_operation P m _ "policy" v (by decide)]
    have : applyOperation P m "policy" v = setEnum m "policy" opPolicies v := by simp [applyOperation]
    rw [this, setEnum, if_pos (validEnum_str _ _ (hv.2.2.1 rfl))]
    exact setOp_ok m _ _ ht
  · rw [applyKey_operation P m _ "through" v (by decide)]
    have : applyOperation P m "through" v = setOp m "through" (.bool (boolOf P v)) := by simp [applyOperation]
    rw [this]; exact setOp_ok m _ _ ht
  · rw [applyKey_operation P m _ "consume" v (by decide)]
    have : applyOperation P m "consume" v = setOp m "consume" (.bool (boolOf P v)) := by simp [applyOperation]
    rw [this]; exact setOp_ok m _ _ ht
  · rw [applyKey_operation P m _ "priority" v (by decide)]
    have : applyOperation P m "priority" v = setPriority P m v := by simp [applyOperation]
    obtain ⟨x, hx⟩ := hv.2.2.2.2.2.2.1 rfl
    rw [this, setPriority, hx]
    exact setOp_ok m _ _ ht
  · rw [applyKey_operation P m _ "target_filter" v (by decide)]
    have : applyOperation P m "target_filter" v = setOp m "target_filter" (targetOf P v) := by simp [applyOperation]
    rw [this]; exact setOp_ok m _ _ ht
  · rw [applyKey_operation P m _ "feature_id" v (by decide)]
    have : applyOperation P m "feature_id" v = setOp m "feature_id" (.str (P.strOf v)) := by simp [applyOperation]
    rw [this]; exact setOp_ok m _ _ ht
  · rw [applyKey_operation P m _ "stage" v (by decide)]
    have : applyOperation P m "stage" v = setOp m "stage" (.str (P.strOf v)) := by simp [applyOperation]
    rw [this]; exact setOp_ok m _ _ ht
  · rw [applyKey_root P m "layer" v (by decide) (by decide)]
    unfold applyRoot
    simp only [if_true]
    exact ⟨trivial, tagsOk_dset _ _ _ (tagsOk_ensureRoot m ht) (by decide)⟩
  · rw [applyKey_root P m "tags" v (by decide) (by decide)]
    unfold applyRoot
    simp only [if_neg (show ("tags" : String) ≠ "layer" by decide), if_true]
    have hs := (C20_init_keeps m none).2.1 "tags" (by simp)
    obtain ⟨w, hw⟩ := Option.isSome_iff_exists.1 hs
    obtain ⟨l, rfl⟩ := tagsOk_ensureRoot m ht w hw
    rw [hw]
    refine ⟨rfl, ?_⟩
    intro w' hw'
    simp only [dget_dset_same, Option.some.injEq] at hw'
    exact ⟨_, hw'.symm⟩

theorem applyHint_ok (P : Py K) (h : Meta K) : ∀ (m : Meta K), (∀ kv ∈ h, kv.1 ∈ agreedKeys ∧ EntryOk P kv.1 kv.2) → TagsOk m →
    (applyHint P m h).1 = .ok () := by
  induction h with
  | nil => intros; rfl
  | cons kv h ih =>
    intro m hh ht
    obtain ⟨h1, h2⟩ := applyKey_ok P m kv (hh kv (by simp)).1 (hh kv (by simp)).2 ht
    unfold applyHint
    cases hr : applyKey P m kv with
    | mk r m' =>
      rw [hr] at h1 h2
      simp only at h1 h2
      subst h1
      exact ih m' (fun kv hkv => hh kv (List.mem_cons_of_mem _ hkv)) h2

/-- C288 (partial): a hint the transform reports no error for is applied, as normalised, without an exception, if it uses only the keys listed in `agreedKeys`.
Missing: `assembly.joint_kind` and `operation.feature_kind`, for which the two tables differ (see below), the lists of assembly entries, which have further rules, and unknown keys. -/
theorem C288_accepted_partial (P : Py K) (cmd : String) (h m : Meta K) (hk : ∀ kv ∈ h, kv.1 ∈ agreedKeys)
    (hok : ∀ d ∈ (transform P [(cmd, h)]).2, d.level ≠ "error") (ht : TagsOk m) :
    (applyHint P m (normHint P cmd h).1).1 = .ok () := by
  have h1 : (transform P [(cmd, h)]).2 = (normHint P cmd h).2 := by simp [transform]
  have h2 : (normHint P cmd (normHint P cmd h).1).2 = (normHint P cmd h).2 := by rw [normHint_idem]
  rw [h1, ← h2] at hok
  have h3 := (normHint_ok P cmd _).1 hok
  refine applyHint_ok P _ m (fun kv hkv => ⟨?_, h3.1 kv hkv⟩) ht
  have := (C286_keys P [(cmd, h)]).2
  simp only [transform, List.map_cons, List.map_nil, List.cons.injEq, and_true] at this
  have hm : kv.1 ∈ (normHint P cmd h).1.map Prod.fst := List.mem_map_of_mem hkv
  rw [this] at hm
  obtain ⟨kv', hkv', e⟩ := List.mem_map.1 hm
  rw [← e]; exact hk kv' hkv'

/-- C288 fails for joints: no value of `assembly.joint_kind` passes both the transform and the application. -/
theorem C288_joint_kind (P : Py K) (m : Meta K) (s : String) :
    ((transform P [("F", [("assembly.joint_kind", .str s)])]).2 = [] → applyHint P m [("assembly.joint_kind", .str s)] = (.error "ValueError", m)) ∧
    ((applyHint P m [("assembly.joint_kind", .str s)]).1 = .ok () →
      (transform P [("F", [("assembly.joint_kind", .str s)])]).2 = [⟨"error", "F", "assembly.joint_kind"⟩]) := by
  have ht : (transform P [("F", [("assembly.joint_kind", .str s)])]).2 = errorUnless (checkEnum (.str s : Val K) trJoints) "F" "assembly.joint_kind" := by
    have hp : parseKey "assembly.joint_kind" = some ("assembly", "joint_kind") := by decide
    have hc : crossCheck "F" [("assembly.joint_kind", (.str s : Val K))] = [] := by
      simp [crossCheck, isOp, hp, dget, isTrue]
    have hk : normKey P "F" ("assembly.joint_kind", .str s) = (.str s, errorUnless (checkEnum (.str s : Val K) trJoints) "F" "assembly.joint_kind") := by
      simp [normKey, hp, normAssembly]
    simp [transform, normHint, hk, hc]
  have ha : applyKey P m ("assembly.joint_kind", .str s) = setAssembly m (.str s) none := by
    rw [applyKey_assembly P m _ "joint_kind" _ (by decide)]; simp [applyAssembly]
  rw [ht]
  by_cases hs : s ∈ trJoints
  · have hn : s ∉ ["axial", "radial", "mixed", "none"] := by
      simp only [trJoints, List.mem_cons, List.not_mem_nil, or_false] at hs
      rcases hs with rfl | rfl | rfl | rfl | rfl | rfl | rfl <;> decide
    have he : setAssembly m (.str s) none = (.error "ValueError", m) := by
      unfold setAssembly; rw [if_neg]; simpa [validEnum] using hn
    have hh : applyHint P m [("assembly.joint_kind", .str s)] = (.error "ValueError", m) := by
      unfold applyHint; rw [ha, he]
    rw [hh]
    exact ⟨fun _ => rfl, fun e => nomatch e⟩
  · have : checkEnum (.str s : Val K) trJoints = false := by simpa [checkEnum] using hs
    rw [this]
    exact ⟨fun e => absurd e (by simp [errorUnless]), fun _ => rfl⟩

/-- C288 fails for features: of the kinds of features the transform accepts, the application accepts the pocket only. -/
theorem C288_feature_kind (P : Py K) (m : Meta K) (s : String) (hs : s ∈ trFeatures) :
    (applyHint P m [("operation.feature_kind", .str s)]).1 = .ok () ↔ s = "pocket" := by
  have ha : applyKey P m ("operation.feature_kind", .str s) = setEnum m "feature_kind" rtFeatures (.str s) := by
    rw [applyKey_operation P m _ "feature_kind" _ (by decide)]; simp [applyOperation]
  unfold applyHint
  rw [ha]
  unfold setEnum
  simp only [trFeatures, List.mem_cons, List.not_mem_nil, or_false] at hs
  rcases hs with rfl | rfl | rfl | rfl | rfl | rfl | rfl | rfl | rfl | rfl | rfl <;>
    simp [validEnum, rtFeatures, setOp, applyHint]

/-- C288 fails for joints: the example of the documentation of `apply_meta_hint` raises. -/
theorem C288_documented_example (P : Py K) (m : Meta K) :
    (applyHint P m [("assembly.joint_kind", .str "revolute"), ("layer", .str "kinematics")]).1 = .error "ValueError" := by
  have ha : applyKey P m ("assembly.joint_kind", .str "revolute") = (.error "ValueError", m) := by
    rw [applyKey_assembly P m _ "joint_kind" _ (by decide)]; simp [applyAssembly, setAssembly, validEnum]
  unfold applyHint; rw [ha]

set_option maxRecDepth 100000 in
example : (applyHint demoPy [] (normHint demoPy "CUT"
    [("operation.kind", .str "subtract"), ("operation.through", .str "yes"), ("layer", .str "kinematics"), ("tags", .list [.str "a"])]).1).1 = .ok () :=
  C288_accepted_partial demoPy "CUT"
    [("operation.kind", .str "subtract"), ("operation.through", .str "yes"), ("layer", .str "kinematics"), ("tags", .list [.str "a"])] []
    (by decide) (by decide) (by intro v h; simp [dget] at h)

end Verif.Hints
