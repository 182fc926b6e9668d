import Verif.Hints.Model

/-!
# `@meta` hints: the metadata transform

The schema is written down by full key in `EntryOk` and `HintOk`, independently of how the model takes keys apart.
-/

namespace Verif.Hints
open Verif.Dict Verif.Metadata

variable {K : Type} [DecidableEq K] [Zero K] [One K]

/-! ## Keys -/

theorem cut_some (l : List Char) : ∀ a b, cut l = some (a, b) ↔ ('.' ∉ a ∧ l = a ++ '.' :: b) := by
  induction l with
  | nil => intro a b; simp [cut]
  | cons c cs ih =>
    intro a b
    rw [cut]
    by_cases hc : c = '.'
    · subst hc
      rw [if_pos rfl]
      constructor
      · intro h
        simp only [Option.some.injEq, Prod.mk.injEq] at h
        obtain ⟨rfl, rfl⟩ := h
        exact ⟨by simp, rfl⟩
      · rintro ⟨ha, hl⟩
        cases a with
        | nil => simp only [List.nil_append, List.cons.injEq, true_and] at hl; subst hl; rfl
        | cons d a => simp only [List.cons_append, List.cons.injEq] at hl; rw [← hl.1] at ha; simp at ha
    · rw [if_neg hc]
      constructor
      · intro h
        simp only [Option.map_eq_some_iff, Prod.mk.injEq] at h
        obtain ⟨⟨x, y⟩, h1, rfl, rfl⟩ := h
        obtain ⟨h2, h3⟩ := (ih x y).1 h1
        refine ⟨?_, ?_⟩
        · simp only [List.mem_cons, not_or]; exact ⟨fun h => hc h.symm, h2⟩
        · rw [h3]; rfl
      · rintro ⟨ha, hl⟩
        cases a with
        | nil => simp only [List.nil_append, List.cons.injEq] at hl; exact absurd hl.1 hc
        | cons d a =>
          simp only [List.cons_append, List.cons.injEq] at hl
          simp only [List.mem_cons, not_or] at ha
          have := (ih a b).2 ⟨ha.2, hl.2⟩
          rw [this, hl.1]; rfl

theorem cut_none (l : List Char) : cut l = none ↔ '.' ∉ l := by
  induction l with
  | nil => simp [cut]
  | cons c cs ih =>
    rw [cut]
    by_cases hc : c = '.'
    · subst hc; simp
    · rw [if_neg hc]
      simp only [Option.map_eq_none_iff, ih, List.mem_cons, not_or]
      exact ⟨fun h => ⟨fun e => hc e.symm, h⟩, fun h => h.2⟩

/-- a key has namespace `a` and field `b` iff `a` has no dot and the key is `a.b` -/
theorem parseKey_some (k a b : String) : parseKey k = some (a, b) ↔ ('.' ∉ a.toList ∧ k = a ++ "." ++ b) := by
  unfold parseKey
  simp only [Option.map_eq_some_iff, Prod.mk.injEq]
  constructor
  · rintro ⟨⟨x, y⟩, h, rfl, rfl⟩
    obtain ⟨h1, h2⟩ := (cut_some _ _ _).1 h
    refine ⟨by simpa using h1, ?_⟩
    apply String.ext
    rw [h2]; simp
  · rintro ⟨h1, rfl⟩
    refine ⟨(a.toList, b.toList), (cut_some _ _ _).2 ⟨h1, by simp⟩, ?_, ?_⟩ <;> simp

theorem parseKey_none (k : String) : parseKey k = none ↔ '.' ∉ k.toList := by
  unfold parseKey; rw [Option.map_eq_none_iff, cut_none]

/-! ## C286 -/

omit [DecidableEq K] [Zero K] [One K] in
theorem coerceBool_bool (P : Py K) (b : Bool) : coerceBool P (.bool b : Val K) = some b := rfl

omit [DecidableEq K] [Zero K] [One K] in
theorem coerceList_idem (P : Py K) (v w : Val K) (h : coerceList P v = some w) : coerceList P w = some w := by
  have key : ∀ l : List String, coerceList P (.list (l.map Val.str) : Val K) = some (.list (l.map Val.str)) := by
    intro l
    simp only [coerceList, List.map_map]
    congr 2
    apply List.map_congr_left
    intro s _
    simp [P.strOf_str]
  cases v with
  | str s => simp only [coerceList, Option.some.injEq] at h; subst h; exact key _
  | list l =>
    simp only [coerceList, Option.some.injEq] at h; subst h
    have := key (l.map P.strOf)
    rwa [List.map_map] at this
  | _ => simp [coerceList] at h

omit [DecidableEq K] [Zero K] [One K] in
theorem coerced_idem (f : Val K → Option (Val K)) (hf : ∀ v w, f v = some w → f w = some w) (v : Val K) (cmd k : String) :
    coerced (f (coerced (f v) v cmd k).1) (coerced (f v) v cmd k).1 cmd k = coerced (f v) v cmd k := by
  cases h : f v with
  | none => simp [coerced, h]
  | some w => simp [coerced, hf v w h]

omit [DecidableEq K] [Zero K] [One K] in
theorem bool_idem (P : Py K) : ∀ v w : Val K, (coerceBool P v).map Val.bool = some w → (coerceBool P w).map Val.bool = some w := by
  intro v w h
  cases hb : coerceBool P v with
  | none => rw [hb] at h; simp at h
  | some b => rw [hb] at h; simp only [Option.map_some, Option.some.injEq] at h; subst h; rfl

omit [DecidableEq K] [Zero K] [One K] in
theorem float_idem (P : Py K) : ∀ v w : Val K, (P.floatOf v).map Val.num = some w → (P.floatOf w).map Val.num = some w := by
  intro v w h
  cases hb : P.floatOf v with
  | none => rw [hb] at h; simp at h
  | some b => rw [hb] at h; simp only [Option.map_some, Option.some.injEq] at h; subst h; rw [P.floatOf_num]; rfl

omit [DecidableEq K] [Zero K] [One K] in
theorem normAssembly_idem (P : Py K) (cmd k f : String) (v : Val K) :
    normAssembly P cmd k f (normAssembly P cmd k f v).1 = normAssembly P cmd k f v := by
  unfold normAssembly
  by_cases h1 : f = "joint_kind"
  · simp only [if_pos h1]
  by_cases h2 : f = "no_cut"
  · simp only [if_neg h1, if_pos h2]
    exact coerced_idem (fun v => (coerceBool P v).map Val.bool) (bool_idem P) v cmd k
  by_cases h3 : f ∈ listFields
  · simp only [if_neg h1, if_neg h2, if_pos h3]
  · simp only [if_neg h1, if_neg h2, if_neg h3]

omit [DecidableEq K] [Zero K] [One K] in
theorem normOperation_idem (P : Py K) (cmd k f : String) (v : Val K) :
    normOperation P cmd k f (normOperation P cmd k f v).1 = normOperation P cmd k f v := by
  unfold normOperation
  by_cases h1 : f = "kind"
  · simp only [if_pos h1]
  by_cases h2 : f = "policy"
  · simp only [if_neg h1, if_pos h2]
  by_cases h3 : f = "feature_kind"
  · simp only [if_neg h1, if_neg h2, if_pos h3]
  by_cases h4 : f = "through" ∨ f = "consume"
  · simp only [if_neg h1, if_neg h2, if_neg h3, if_pos h4]
    exact coerced_idem (fun v => (coerceBool P v).map Val.bool) (bool_idem P) v cmd k
  by_cases h5 : f = "priority"
  · simp only [if_neg h1, if_neg h2, if_neg h3, if_neg h4, if_pos h5]
    exact coerced_idem (fun v => (P.floatOf v).map Val.num) (float_idem P) v cmd k
  by_cases h6 : f = "target_filter"
  · simp only [if_neg h1, if_neg h2, if_neg h3, if_neg h4, if_neg h5, if_pos h6]
    exact coerced_idem (coerceList P) (coerceList_idem P) v cmd k
  by_cases h7 : f = "feature_id" ∨ f = "stage"
  · simp only [if_neg h1, if_neg h2, if_neg h3, if_neg h4, if_neg h5, if_neg h6, if_pos h7, P.strOf_str]
  · simp only [if_neg h1, if_neg h2, if_neg h3, if_neg h4, if_neg h5, if_neg h6, if_neg h7]

omit [DecidableEq K] [Zero K] [One K] in
theorem normKey_idem (P : Py K) (cmd : String) (kv : String × Val K) :
    normKey P cmd (kv.1, (normKey P cmd kv).1) = normKey P cmd kv := by
  unfold normKey
  cases h : parseKey kv.1 with
  | none =>
    simp only [h]
    by_cases h1 : kv.1 = "layer" ∨ kv.1 = "tags"
    · simp only [if_pos h1]
    · simp only [if_neg h1]
  | some p =>
    obtain ⟨ns, f⟩ := p
    simp only [h]
    by_cases h1 : ns = "assembly"
    · simp only [if_pos h1]; exact normAssembly_idem P cmd _ _ _
    by_cases h2 : ns = "operation"
    · simp only [if_neg h1, if_pos h2]; exact normOperation_idem P cmd _ _ _
    · simp only [if_neg h1, if_neg h2]

omit [DecidableEq K] [Zero K] [One K] in
theorem normHint_idem (P : Py K) (cmd : String) (h : Meta K) :
    normHint P cmd (normHint P cmd h).1 = normHint P cmd h := by
  by_cases h0 : h = []
  · subst h0; rfl
  have hne : (normHint P cmd h).1 ≠ [] := by
    unfold normHint; rw [if_neg h0]; simpa using h0
  conv_lhs => rw [normHint, if_neg hne]
  unfold normHint
  simp only [if_neg h0]
  have step : ∀ kv : String × Val K, kv.1 ≠ "" → normKey P cmd (kv.1, if kv.1 = "" then kv.2 else (normKey P cmd kv).1) = normKey P cmd kv := by
    intro kv hk; rw [if_neg hk]; exact normKey_idem P cmd kv
  have filt : (h.map fun kv => (kv.1, if kv.1 = "" then kv.2 else (normKey P cmd kv).1)).filter (fun kv => decide (kv.1 ≠ "")) =
      (h.filter fun kv => decide (kv.1 ≠ "")).map fun kv => (kv.1, if kv.1 = "" then kv.2 else (normKey P cmd kv).1) := by
    rw [List.filter_map]; rfl
  refine Prod.ext ?_ ?_
  · simp only [List.map_map]
    apply List.map_congr_left
    intro kv _
    simp only [Function.comp_apply]
    by_cases hk : kv.1 = ""
    · simp only [if_pos hk]
    · simp only [if_neg hk]; rw [normKey_idem]
  · simp only
    rw [filt]
    congr 1
    · rw [List.flatMap_map]
      apply List.flatMap_congr
      intro kv hkv
      have := (List.mem_filter.1 hkv).2
      rw [step kv (by simpa using this)]
    · congr 1
      rw [List.map_map]
      apply List.map_congr_left
      intro kv hkv
      have := (List.mem_filter.1 hkv).2
      simp only [Function.comp_apply]
      rw [step kv (by simpa using this)]

omit [DecidableEq K] [Zero K] [One K] in
/-- C286: the metadata transform changes values only: the functions, their order, and the keys of every hint and their order stay. -/
theorem C286_keys (P : Py K) (fs : List (String × Meta K)) :
    (transform P fs).1.map Prod.fst = fs.map Prod.fst ∧
      (transform P fs).1.map (fun f => f.2.map Prod.fst) = fs.map fun f => f.2.map Prod.fst := by
  constructor
  · simp [transform]
  · simp only [transform, List.map_map]
    apply List.map_congr_left
    intro f _
    simp only [Function.comp_apply, normHint]
    by_cases h : f.2 = []
    · rw [if_pos h, h]
    · rw [if_neg h]; simp

omit [DecidableEq K] [Zero K] [One K] in
/-- C286: running the metadata transform again changes no hint and reports the same diagnostics. -/
theorem C286_idempotent (P : Py K) (fs : List (String × Meta K)) :
    transform P (transform P fs).1 = transform P fs := by
  unfold transform
  refine Prod.ext ?_ ?_
  · simp only [List.map_map]
    apply List.map_congr_left
    intro f _
    simp only [Function.comp_apply]
    rw [normHint_idem]
  · simp only
    rw [List.flatMap_map]
    apply List.flatMap_congr
    intro f _
    rw [normHint_idem]

/-! ## C287 -/

/-- the schema of one entry, by full key -/
def EntryOk (P : Py K) (k : String) (v : Val K) : Prop :=
  (k = "assembly.joint_kind" → ∃ s ∈ trJoints, v = .str s) ∧
  (k = "operation.kind" → ∃ s ∈ opKinds, v = .str s) ∧
  (k = "operation.policy" → ∃ s ∈ opPolicies, v = .str s) ∧
  (k = "operation.feature_kind" → ∃ s ∈ trFeatures, v = .str s) ∧
  (k ∈ ["assembly.no_cut", "operation.through", "operation.consume"] →
    (∃ b, v = .bool b) ∨ ∃ s, v = .str s ∧ P.lower s ∈ ["true", "1", "yes", "false", "0", "no"]) ∧
  (k ∈ ["assembly.bolt_patterns", "assembly.datums", "assembly.surfaces", "assembly.keepouts"] →
    ∃ l, v = .list l ∧ ∀ x ∈ l, ∃ d, x = .dict d) ∧
  (k = "operation.priority" → ∃ x, P.floatOf v = some x) ∧
  (k = "operation.target_filter" → (∃ s, v = .str s) ∨ ∃ l, v = .list l)

/-- the schema of a hint: every entry, and `operation.kind` is there if anything of `operation` is -/
def HintOk (P : Py K) (h : Meta K) : Prop :=
  (∀ kv ∈ h, EntryOk P kv.1 kv.2) ∧
    ((∃ kv ∈ h, "operation.".toList <+: kv.1.toList) → ∃ kv ∈ h, kv.1 = "operation.kind")

/-- no diagnostic of level error -/
def NoErrors (ds : List Diag) : Prop := ∀ d ∈ ds, d.level ≠ "error"

theorem noErrors_append (a b : List Diag) : NoErrors (a ++ b) ↔ NoErrors a ∧ NoErrors b := by
  unfold NoErrors; simp only [List.mem_append]; exact ⟨fun h => ⟨fun d hd => h d (.inl hd), fun d hd => h d (.inr hd)⟩, fun h d hd => hd.elim (h.1 d) (h.2 d)⟩

theorem noErrors_flatMap {α : Type} (l : List α) (f : α → List Diag) : NoErrors (l.flatMap f) ↔ ∀ x ∈ l, NoErrors (f x) := by
  unfold NoErrors
  simp only [List.mem_flatMap]
  exact ⟨fun h x hx d hd => h d ⟨x, hx, hd⟩, fun h d ⟨x, hx, hd⟩ => h x hx d hd⟩

theorem noErrors_errorUnless (ok : Bool) (c k : String) : NoErrors (errorUnless ok c k) ↔ ok = true := by
  cases ok <;> simp [NoErrors, errorUnless]

theorem noErrors_warning (c k : String) : NoErrors [⟨"warning", c, k⟩] := by simp [NoErrors]
theorem noErrors_nil : NoErrors [] := by simp [NoErrors]

omit [DecidableEq K] [Zero K] [One K] in
theorem noErrors_coerced (o : Option (Val K)) (v : Val K) (c k : String) : NoErrors (coerced o v c k).2 ↔ o.isSome = true := by
  cases o <;> simp [NoErrors, coerced]

omit [DecidableEq K] [Zero K] [One K] in
theorem checkEnum_iff (v : Val K) (l : List String) : checkEnum v l = true ↔ ∃ s ∈ l, v = .str s := by
  cases v <;> simp [checkEnum]

omit [DecidableEq K] [Zero K] [One K] in
theorem isDictList_iff (v : Val K) : isDictList v = true ↔ ∃ l, v = .list l ∧ ∀ x ∈ l, ∃ d, x = .dict d := by
  have hd : ∀ x : Val K, isDict x = true ↔ ∃ d, x = .dict d := by intro x; cases x <;> simp [isDict]
  cases v <;> simp [isDictList, hd]

omit [DecidableEq K] [Zero K] [One K] in
theorem coerceBool_iff (P : Py K) (v : Val K) : ((coerceBool P v).map (Val.bool (K := K))).isSome = true ↔
    (∃ b, v = .bool b) ∨ ∃ s, v = .str s ∧ P.lower s ∈ ["true", "1", "yes", "false", "0", "no"] := by
  rw [Option.isSome_map]
  cases v with
  | str s =>
    simp only [coerceBool, reduceCtorEq, exists_false, false_or, Val.str.injEq, exists_eq_left']
    have : P.lower s ∈ ["true", "1", "yes", "false", "0", "no"] ↔ P.lower s ∈ trueWords ∨ P.lower s ∈ falseWords := by
      simp [trueWords, falseWords, or_assoc]
    rw [this]
    split_ifs with h1 h2
    · simp [h1]
    · simp [h2]
    · simp [h1, h2]
  | _ => simp [coerceBool]

omit [DecidableEq K] [Zero K] [One K] in
theorem coerceList_iff (P : Py K) (v : Val K) : (coerceList P v).isSome = true ↔ (∃ s, v = .str s) ∨ ∃ l, v = .list l := by
  cases v <;> simp [coerceList]

omit [DecidableEq K] [Zero K] [One K] in
/-- a key of a namespace is the full key -/
theorem key_eq {k ns f : String} (h : parseKey k = some (ns, f)) (ns' f' : String) (hd : '.' ∉ ns'.toList) :
    k = ns' ++ "." ++ f' ↔ ns = ns' ∧ f = f' := by
  constructor
  · intro hk
    have := (parseKey_some k ns' f').2 ⟨hd, hk⟩
    rw [h] at this
    simpa using this
  · rintro ⟨rfl, rfl⟩
    exact ((parseKey_some k ns f).1 h).2

omit [DecidableEq K] [Zero K] [One K] in
theorem key_ne {k : String} (h : parseKey k = none) (ns' f' : String) (hd : '.' ∉ ns'.toList) : k ≠ ns' ++ "." ++ f' := by
  intro hk
  have := (parseKey_some k ns' f').2 ⟨hd, hk⟩
  rw [h] at this
  simp at this

omit [DecidableEq K] [Zero K] [One K] in
/-- an entry that is none of the entries with a rule meets the schema -/
theorem entryOk_of_none (P : Py K) (k : String) (v : Val K)
    (h : k ∉ ["assembly.joint_kind", "operation.kind", "operation.policy", "operation.feature_kind", "assembly.no_cut", "operation.through",
      "operation.consume", "assembly.bolt_patterns", "assembly.datums", "assembly.surfaces", "assembly.keepouts", "operation.priority",
      "operation.target_filter"]) : EntryOk P k v := by
  simp only [List.mem_cons, List.not_mem_nil, or_false, not_or] at h
  unfold EntryOk
  simp only [List.mem_cons, List.not_mem_nil, or_false]
  refine ⟨fun e => ?_, fun e => ?_, fun e => ?_, fun e => ?_, fun e => ?_, fun e => ?_, fun e => ?_, fun e => ?_⟩ <;> exfalso <;> tauto

omit [DecidableEq K] [Zero K] [One K] in
theorem normKey_ok (P : Py K) (cmd : String) (kv : String × Val K) : NoErrors (normKey P cmd kv).2 ↔ EntryOk P kv.1 kv.2 := by
  obtain ⟨k, v⟩ := kv
  unfold normKey
  dsimp only
  cases h : parseKey k with
  | none =>
    dsimp only
    have hn : EntryOk P k v := by
      apply entryOk_of_none
      intro hk
      simp only [List.mem_cons, List.not_mem_nil, or_false] at hk
      rcases hk with rfl | rfl | rfl | rfl | rfl | rfl | rfl | rfl | rfl | rfl | rfl | rfl | rfl <;>
        exact absurd h (by decide)
    split_ifs with h1
    · exact ⟨fun _ => hn, fun _ => noErrors_nil⟩
    · exact ⟨fun _ => hn, fun _ => noErrors_warning _ _⟩
  | some p =>
    obtain ⟨ns, f⟩ := p
    dsimp only
    by_cases h1 : ns = "assembly"
    · rw [if_pos h1]
      subst h1
      have hk : k = "assembly." ++ f := ((parseKey_some k "assembly" f).1 h).2
      unfold normAssembly
      by_cases c1 : f = "joint_kind"
      · subst c1; subst hk; rw [if_pos rfl]; rw [noErrors_errorUnless, checkEnum_iff]; simp [EntryOk]
      rw [if_neg c1]
      by_cases c2 : f = "no_cut"
      · subst c2; subst hk; rw [if_pos rfl]; rw [noErrors_coerced, coerceBool_iff]; simp [EntryOk]
      rw [if_neg c2]
      by_cases c3 : f ∈ listFields
      · rw [if_pos c3, noErrors_errorUnless, isDictList_iff]
        simp only [listFields, List.mem_cons, List.not_mem_nil, or_false] at c3
        rcases c3 with rfl | rfl | rfl | rfl <;> subst hk <;> simp [EntryOk]
      rw [if_neg c3]
      have hn : EntryOk P k v := by
        apply entryOk_of_none
        intro hk'
        simp only [listFields, List.mem_cons, List.not_mem_nil, or_false, not_or] at c3
        simp only [List.mem_cons, List.not_mem_nil, or_false] at hk'
        rcases hk' with e | e | e | e | e | e | e | e | e | e | e | e | e <;> rw [e] at h <;>
          simp [parseKey, cut] at h <;> simp_all
      exact ⟨fun _ => hn, fun _ => noErrors_warning _ _⟩
    rw [if_neg h1]
    by_cases h2 : ns = "operation"
    · rw [if_pos h2]
      subst h2
      have hk : k = "operation." ++ f := ((parseKey_some k "operation" f).1 h).2
      unfold normOperation
      by_cases c1 : f = "kind"
      · subst c1; subst hk; rw [if_pos rfl, noErrors_errorUnless, checkEnum_iff]; simp [EntryOk]
      rw [if_neg c1]
      by_cases c2 : f = "policy"
      · subst c2; subst hk; rw [if_pos rfl, noErrors_errorUnless, checkEnum_iff]; simp [EntryOk]
      rw [if_neg c2]
      by_cases c3 : f = "feature_kind"
      · subst c3; subst hk; rw [if_pos rfl, noErrors_errorUnless, checkEnum_iff]; simp [EntryOk]
      rw [if_neg c3]
      by_cases c4 : f = "through" ∨ f = "consume"
      · rw [if_pos c4, noErrors_coerced, coerceBool_iff]
        rcases c4 with rfl | rfl <;> subst hk <;> simp [EntryOk]
      rw [if_neg c4]
      by_cases c5 : f = "priority"
      · subst c5; subst hk; rw [if_pos rfl, noErrors_coerced, Option.isSome_map, Option.isSome_iff_exists]; simp [EntryOk]
      rw [if_neg c5]
      by_cases c6 : f = "target_filter"
      · subst c6; subst hk; rw [if_pos rfl, noErrors_coerced, coerceList_iff]; simp [EntryOk]
      rw [if_neg c6]
      have hn : EntryOk P k v := by
        apply entryOk_of_none
        intro hk'
        simp only [not_or] at c4
        simp only [List.mem_cons, List.not_mem_nil, or_false] at hk'
        rcases hk' with e | e | e | e | e | e | e | e | e | e | e | e | e <;> rw [e] at h <;>
          simp [parseKey, cut] at h <;> simp_all
      split_ifs
      · exact ⟨fun _ => hn, fun _ => noErrors_nil⟩
      · exact ⟨fun _ => hn, fun _ => noErrors_warning _ _⟩
    · rw [if_neg h2]
      have hn : EntryOk P k v := by
        apply entryOk_of_none
        intro hk'
        simp only [List.mem_cons, List.not_mem_nil, or_false] at hk'
        rcases hk' with e | e | e | e | e | e | e | e | e | e | e | e | e <;> rw [e] at h <;>
          simp [parseKey, cut] at h <;> simp_all
      exact ⟨fun _ => hn, fun _ => noErrors_warning _ _⟩

omit [DecidableEq K] [Zero K] [One K] in
theorem isOp_iff (kv : String × Val K) : isOp kv = true ↔ "operation.".toList <+: kv.1.toList := by
  unfold isOp
  cases h : parseKey kv.1 with
  | none =>
    rw [parseKey_none] at h
    constructor
    · intro h'; exact absurd h' (by simp)
    · rintro ⟨t, ht⟩
      exact absurd (by rw [← ht]; simp) h
  | some p =>
    obtain ⟨ns, f⟩ := p
    simp only [decide_eq_true_eq]
    constructor
    · rintro rfl
      rw [((parseKey_some _ _ _).1 h).2]
      exact ⟨f.toList, by simp⟩
    · rintro ⟨t, ht⟩
      have hk : kv.1 = "operation" ++ "." ++ String.ofList t := by
        apply String.ext; rw [← ht]; simp
      have := (parseKey_some kv.1 "operation" (String.ofList t)).2 ⟨by decide, hk⟩
      rw [h] at this
      simpa using congrArg (fun o => o.map Prod.fst) this

omit [DecidableEq K] [Zero K] [One K] in
theorem noErrors_crossCheck (cmd : String) (h : Meta K) :
    NoErrors (crossCheck cmd h) ↔ ((∃ kv ∈ h, "operation.".toList <+: kv.1.toList) → ∃ kv ∈ h, kv.1 = "operation.kind") := by
  unfold crossCheck
  rw [noErrors_append, noErrors_append]
  have h2 : NoErrors (if isTrue (dget h "assembly.no_cut") ∧ isString "subtract" (dget h "operation.kind") then [⟨"warning", cmd, "assembly.no_cut"⟩] else []) := by
    split_ifs <;> simp [NoErrors]
  have h3 : NoErrors (if h.any isOp ∧ dget h "operation.target_filter" = none then [⟨"info", cmd, "operation.target_filter"⟩] else []) := by
    split_ifs <;> simp [NoErrors]
  simp only [h2, h3, and_true]
  have e1 : h.any isOp = true ↔ ∃ kv ∈ h, "operation.".toList <+: kv.1.toList := by
    rw [List.any_eq_true]; simp only [isOp_iff]
  have e2 : dget h "operation.kind" = none ↔ ¬ ∃ kv ∈ h, kv.1 = "operation.kind" := by
    rw [dget_none]
    simp only [keys, List.mem_map]
  rw [← e1]
  by_cases c1 : h.any isOp = true
  · by_cases c2 : ∃ kv ∈ h, kv.1 = "operation.kind"
    · have : dget h "operation.kind" ≠ none := fun e => e2.1 e c2
      simp [c1, this, c2, NoErrors]
    · rw [if_pos ⟨c1, e2.2 c2⟩]
      constructor
      · intro hh; exact absurd rfl (hh ⟨"error", cmd, "operation.kind"⟩ (by simp))
      · intro hh; exact absurd (hh c1) c2
  · rw [if_neg (fun e => c1 e.1)]
    exact ⟨fun _ e => absurd e c1, fun _ => noErrors_nil⟩

omit [DecidableEq K] [Zero K] [One K] in
theorem normHint_ok (P : Py K) (cmd : String) (h : Meta K) : NoErrors (normHint P cmd h).2 ↔ HintOk P h := by
  unfold normHint
  by_cases h0 : h = []
  · subst h0; simp [NoErrors, HintOk]
  rw [if_neg h0]
  simp only
  rw [noErrors_append, noErrors_flatMap, noErrors_crossCheck]
  unfold HintOk
  have empty_ok : ∀ v : Val K, EntryOk P "" v := fun v => entryOk_of_none P "" v (by decide)
  refine and_congr ?_ ?_
  · constructor
    · intro hh kv hkv
      by_cases hk : kv.1 = ""
      · rw [hk]; exact empty_ok _
      · exact (normKey_ok P cmd kv).1 (hh kv (List.mem_filter.2 ⟨hkv, by simpa using hk⟩))
    · intro hh kv hkv
      exact (normKey_ok P cmd kv).2 (hh kv (List.mem_filter.1 hkv).1)
  · have ex : ∀ Q : String → Prop, ¬ Q "" →
        ((∃ kv ∈ (h.filter fun kv => decide (kv.1 ≠ "")).map (fun kv => (kv.1, (normKey P cmd kv).1)), Q kv.1) ↔ ∃ kv ∈ h, Q kv.1) := by
      intro Q hQ
      constructor
      · rintro ⟨kv, hkv, hq⟩
        obtain ⟨kv', h1, rfl⟩ := List.mem_map.1 hkv
        exact ⟨kv', (List.mem_filter.1 h1).1, hq⟩
      · rintro ⟨kv, hkv, hq⟩
        have hne : kv.1 ≠ "" := fun e => hQ (e ▸ hq)
        exact ⟨_, List.mem_map.2 ⟨kv, List.mem_filter.2 ⟨hkv, by simpa using hne⟩, rfl⟩, hq⟩
    rw [ex (fun k => "operation.".toList <+: k.toList) (by decide), ex (fun k => k = "operation.kind") (by decide)]

omit [DecidableEq K] [Zero K] [One K] in
/-- C287: the metadata transform reports no error exactly if every hint of the module meets the schema. -/
theorem C287_errors (P : Py K) (fs : List (String × Meta K)) :
    NoErrors (transform P fs).2 ↔ ∀ f ∈ fs, HintOk P f.2 := by
  unfold transform
  simp only
  rw [noErrors_flatMap]
  exact forall₂_congr fun f _ => normHint_ok P f.1 f.2

omit [DecidableEq K] [Zero K] [One K] in
/-- C287: an error names the function whose hint breaks the schema. -/
theorem C287_named (P : Py K) (fs : List (String × Meta K)) (d : Diag) (hd : d ∈ (transform P fs).2) (he : d.level = "error") :
    ∃ f ∈ fs, f.1 = d.command ∧ ¬ HintOk P f.2 := by
  unfold transform at hd
  simp only [List.mem_flatMap] at hd
  obtain ⟨f, hf, hd⟩ := hd
  refine ⟨f, hf, ?_, fun hok => (normHint_ok P f.1 f.2).2 hok d hd he⟩
  have cmdA : ∀ (ok : Bool) k, ∀ d ∈ errorUnless ok f.1 k, d.command = f.1 := by
    intro ok k d hd; cases ok <;> simp_all [errorUnless]
  have cmdC : ∀ o (v : Val K) k, ∀ d ∈ (coerced o v f.1 k).2, d.command = f.1 := by
    intro o v k d hd; cases o <;> simp_all [coerced]
  have cmdK : ∀ kv : String × Val K, ∀ d ∈ (normKey P f.1 kv).2, d.command = f.1 := by
    intro kv d hd
    unfold normKey at hd
    split at hd
    · unfold normAssembly normOperation at hd
      split_ifs at hd <;> first | exact cmdA _ _ d hd | exact cmdC _ _ _ d hd | simp_all
    · split_ifs at hd <;> simp_all
  unfold normHint at hd
  split_ifs at hd with h0
  · simp at hd
  · simp only [List.mem_append, List.mem_flatMap] at hd
    rcases hd with ⟨kv, _, hd⟩ | hd
    · exact (cmdK kv d hd).symm
    · unfold crossCheck at hd
      simp only [List.mem_append] at hd
      rcases hd with (hd | hd) | hd <;> split_ifs at hd <;> simp_all

end Verif.Hints
