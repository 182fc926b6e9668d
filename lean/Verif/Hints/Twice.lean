import Verif.Hints.Apply

/-!
# `@meta` hints: applying a hint twice
-/

namespace Verif.Hints
open Verif.Dict Verif.Metadata

set_option linter.unusedSectionVars false
variable {K : Type} [DecidableEq K] [Zero K] [One K]

theorem dset_id (d : Meta K) (k : String) (v : Val K) (h : dget d k = some v) : dset d k v = d := by
  induction d with
  | nil => simp [dget] at h
  | cons e d ih =>
    obtain ⟨k', v'⟩ := e
    rw [dget] at h
    rw [dset]
    split_ifs at h ⊢ with hk
    · simp only [Option.some.injEq] at h; rw [h]
    · rw [ih h]

/-- the root is initialised -/
def RootOk (m : Meta K) : Prop :=
  (dget m "schema").isSome ∧ (dget m "tags").isSome ∧ ∃ v, dget m "layer" = some v ∧ v.truthy = true

theorem ensureRoot_id (m : Meta K) (h : RootOk m) : ensureRoot m none = m := ensureRoot_fixed m none h.1 h.2.1 h.2.2 (.inl rfl)

theorem rootOk_ensureRoot (m : Meta K) : RootOk (ensureRoot m none) := by
  obtain ⟨-, h2, h3, -⟩ := C20_init_keeps m none
  exact ⟨h2 _ (by simp), h2 _ (by simp), h3⟩

theorem rootOk_dset (m : Meta K) (k : String) (v : Val K) (h : RootOk m) (hl : k = "layer" → v.truthy = true) : RootOk (dset m k v) := by
  obtain ⟨h1, h2, w, h3, h4⟩ := h
  refine ⟨?_, ?_, ?_⟩
  · rw [dget_dset]; split_ifs <;> simp [h1]
  · rw [dget_dset]; split_ifs <;> simp [h2]
  · rw [dget_dset]
    split_ifs with c
    · exact ⟨v, rfl, hl c.symm⟩
    · exact ⟨w, h3, h4⟩

/-- the section of a namespace has the value -/
def Has (m : Meta K) (ns f : String) (v : Val K) : Prop := ∃ s, dget m ns = some (.dict s) ∧ dget s f = some v

/-- entry `kv` is in the metadata: applying it again changes nothing -/
def Fixed (P : Py K) (m : Meta K) (kv : String × Val K) : Prop := applyKey P m kv = (.ok (), m)

/-- what one entry writes: into a section, at the root, or nothing but the initial fields -/
inductive Write (K : Type)
  | sect (ns f : String) (v : Val K)
  | root (f : String) (v : Val K)
  | init
  | both (f : String) (v : Val K)

/-- the writes of `Write` -/
def run (m : Meta K) : Write K → Meta K
  | .sect ns f v => dset (getSection m ns).1 ns (.dict (dset (getSection m ns).2 f v))
  | .root f v => dset (ensureRoot m none) f v
  | .init => dset (ensureNamespace (ensureRoot m none) "assembly").1 "assembly" (.dict (ensureNamespace (ensureRoot m none) "assembly").2)
  | .both f v => dset (ensureNamespace (ensureRoot m none) "assembly").1 "assembly" (.dict (dset (ensureNamespace (ensureRoot m none) "assembly").2 f v))

/-- the write has been made -/
def Done (m : Meta K) : Write K → Prop
  | .sect ns f v => Has m ns f v
  | .root f v => RootOk m ∧ dget m f = some v
  | .init => RootOk m ∧ ∃ s, dget m "assembly" = some (.dict s)
  | .both f v => RootOk m ∧ Has m "assembly" f v

/-- the writes considered: two namespaces, and root fields that are not namespaces nor an empty layer -/
def Good : Write K → Prop
  | .sect ns _ _ => ns = "assembly" ∨ ns = "operation"
  | .root f v => f ≠ "assembly" ∧ f ≠ "operation" ∧ (f = "layer" → v.truthy = true)
  | _ => True

/-- two writes to different places -/
def Apart : Write K → Write K → Prop
  | .sect ns f _, .sect ns' f' _ => (ns, f) ≠ (ns', f')
  | .sect ns f _, .both f' _ => (ns, f) ≠ ("assembly", f')
  | .both f' _, .sect ns f _ => (ns, f) ≠ ("assembly", f')
  | .both f _, .both f' _ => f ≠ f'
  | .root f _, .root f' _ => f ≠ f'
  | _, _ => True

theorem ensureNamespace_fst (m : Meta K) (ns : String) (k : String) (hk : k ≠ ns) : dget (ensureNamespace m ns).1 k = dget m k := by
  unfold ensureNamespace
  split
  · rfl
  · exact dget_dset_other _ _ _ _ hk

theorem ensureNamespace_dict (m : Meta K) (ns : String) (s : Meta K) (h : dget m ns = some (.dict s)) : ensureNamespace m ns = (m, s) := by
  unfold ensureNamespace; rw [h]

theorem rootOk_ensureNamespace (m : Meta K) (ns : String) (h : RootOk m) (hn : ns ≠ "layer") : RootOk (ensureNamespace m ns).1 := by
  unfold ensureNamespace
  split
  · exact h
  · exact rootOk_dset _ _ _ h (fun e => absurd e hn)

theorem getSection_dict (m : Meta K) (ns : String) (s : Meta K) (h : dget m ns = some (.dict s)) : getSection m ns = (m, s) := by
  unfold getSection; rw [h]

theorem ensureRoot_ns (m : Meta K) (ns : String) (h : ns = "assembly" ∨ ns = "operation") : dget (ensureRoot m none) ns = dget m ns :=
  ensureRoot_other m none ns (by rcases h with rfl | rfl <;> decide)

theorem run_done (m : Meta K) (w : Write K) (hw : Good w) : Done (run m w) w := by
  cases w with
  | sect ns f v =>
    exact ⟨_, dget_dset_same _ _ _, dget_dset_same _ _ _⟩
  | root f v =>
    exact ⟨rootOk_dset _ _ _ (rootOk_ensureRoot m) hw.2.2, dget_dset_same _ _ _⟩
  | init =>
    exact ⟨rootOk_dset _ _ _ (rootOk_ensureNamespace _ _ (rootOk_ensureRoot m) (by decide)) (fun e => absurd e (by decide)), _, dget_dset_same _ _ _⟩
  | both f v =>
    exact ⟨rootOk_dset _ _ _ (rootOk_ensureNamespace _ _ (rootOk_ensureRoot m) (by decide)) (fun e => absurd e (by decide)),
      _, dget_dset_same _ _ _, dget_dset_same _ _ _⟩

theorem run_id (m : Meta K) (w : Write K) (h : Done m w) : run m w = m := by
  cases w with
  | sect ns f v =>
    obtain ⟨s, h1, h2⟩ := h
    rw [run, getSection_dict m ns s h1]
    simp only
    rw [dset_id s f v h2, dset_id m ns _ h1]
  | root f v => rw [run, ensureRoot_id m h.1, dset_id m f v h.2]
  | init =>
    obtain ⟨h0, s, h1⟩ := h
    rw [run, ensureRoot_id m h0, ensureNamespace_dict m _ s h1]
    exact dset_id m _ _ h1
  | both f v =>
    obtain ⟨h0, s, h1, h2⟩ := h
    rw [run, ensureRoot_id m h0, ensureNamespace_dict m _ s h1]
    simp only
    rw [dset_id s f v h2, dset_id m _ _ h1]

/-- what `run` keeps: an initialised root stays so -/
theorem run_rootOk (m : Meta K) (w : Write K) (hw : Good w) (h : RootOk m) : RootOk (run m w) := by
  cases w with
  | sect ns f v =>
    have hn : ns ≠ "layer" := by rcases hw with rfl | rfl <;> decide
    refine rootOk_dset _ _ _ ?_ (fun e => absurd e hn)
    unfold getSection
    split
    · exact h
    · exact rootOk_ensureNamespace _ _ (rootOk_ensureRoot m) hn
  | root f v => exact (run_done m (.root f v) hw).1
  | init => exact (run_done m .init hw).1
  | both f v => exact (run_done m (.both f v) hw).1

/-- the section after a write, seen from one of the two namespaces -/
theorem run_section (m : Meta K) (w : Write K) (hw : Good w) (ns : String) (hns : ns = "assembly" ∨ ns = "operation") (s : Meta K)
    (h : dget m ns = some (.dict s)) :
    dget (run m w) ns = some (.dict (match w with
      | .sect ns' f v => if ns' = ns then dset s f v else s
      | .both f v => if ns = "assembly" then dset s f v else s
      | _ => s)) := by
  have hr : dget (ensureRoot m none) ns = some (.dict s) := by rw [ensureRoot_ns m ns hns, h]
  cases w with
  | sect ns' f v =>
    simp only [run]
    by_cases hn : ns' = ns
    · subst hn
      rw [getSection_dict m ns' s h]
      simp only [dget_dset_same, if_true]
    · rw [dget_dset_other _ _ _ _ (Ne.symm hn), if_neg hn]
      unfold getSection
      split
      · exact h
      · rw [ensureNamespace_fst _ _ _ (Ne.symm hn)]; exact hr
  | root f v =>
    have : ns ≠ f := by rcases hns with rfl | rfl; exact Ne.symm hw.1; exact Ne.symm hw.2.1
    simp only [run]
    rw [dget_dset_other _ _ _ _ this]; exact hr
  | init =>
    simp only [run]
    by_cases hn : ns = "assembly"
    · subst hn
      rw [ensureNamespace_dict _ _ s hr]
      simp only [dget_dset_same]
    · rw [dget_dset_other _ _ _ _ hn, ensureNamespace_fst _ _ _ hn]; exact hr
  | both f v =>
    simp only [run]
    by_cases hn : ns = "assembly"
    · subst hn
      rw [ensureNamespace_dict _ _ s hr]
      simp only [dget_dset_same, if_true]
    · rw [dget_dset_other _ _ _ _ hn, ensureNamespace_fst _ _ _ hn, if_neg hn]; exact hr

/-- the root fields after a write elsewhere -/
theorem run_root (m : Meta K) (w : Write K) (hw : Good w) (f : String) (hf1 : f ≠ "assembly") (hf2 : f ≠ "operation")
    (hw' : ∀ f' v', w = .root f' v' → f ≠ f') (v : Val K) (h : dget m f = some v) (hl : f = "layer" → v.truthy = true) :
    dget (run m w) f = some v := by
  have hr : dget (ensureRoot m none) f = some v := (C20_init_keeps m none).1 f v h hl
  cases w with
  | sect ns g u =>
    have hn : f ≠ ns := by rcases hw with rfl | rfl <;> assumption
    simp only [run]
    rw [dget_dset_other _ _ _ _ hn]
    unfold getSection
    split
    · exact h
    · rw [ensureNamespace_fst _ _ _ hn]; exact hr
  | root f' v' => simp only [run]; rw [dget_dset_other _ _ _ _ (hw' f' v' rfl)]; exact hr
  | init => simp only [run]; rw [dget_dset_other _ _ _ _ hf1, ensureNamespace_fst _ _ _ hf1]; exact hr
  | both g u => simp only [run]; rw [dget_dset_other _ _ _ _ hf1, ensureNamespace_fst _ _ _ hf1]; exact hr

/-- a write that has been made survives a write to another place -/
theorem run_keeps (m : Meta K) (w w' : Write K) (hw : Good w) (hw' : Good w') (ha : Apart w w') (h : Done m w) : Done (run m w') w := by
  have hsec : ∀ (ns f : String) (v : Val K), (ns = "assembly" ∨ ns = "operation") → Has m ns f v →
      (∀ f' v', w' = .sect ns f' v' → f ≠ f') → (∀ f' v', w' = .both f' v' → ns = "assembly" → f ≠ f') → Has (run m w') ns f v := by
    intro ns f v hns ⟨s, h1, h2⟩ hs hb
    refine ⟨_, run_section m w' hw' ns hns s h1, ?_⟩
    cases w' with
    | sect ns' f' v' =>
      simp only
      split_ifs with c
      · subst c; rw [dget_dset_other _ _ _ _ (hs f' v' rfl)]; exact h2
      · exact h2
    | both f' v' =>
      simp only
      split_ifs with c
      · rw [dget_dset_other _ _ _ _ (hb f' v' rfl c)]; exact h2
      · exact h2
    | _ => exact h2
  cases w with
  | sect ns f v =>
    refine hsec ns f v hw h ?_ ?_
    · rintro f' v' rfl; simpa [Apart] using ha
    · rintro f' v' rfl rfl; simpa [Apart] using ha
  | root f v =>
    refine ⟨run_rootOk m w' hw' h.1, run_root m w' hw' f hw.1 hw.2.1 ?_ v h.2 hw.2.2⟩
    rintro f' v' rfl; exact ha
  | init =>
    obtain ⟨h0, s, h1⟩ := h
    exact ⟨run_rootOk m w' hw' h0, _, run_section m w' hw' "assembly" (.inl rfl) s h1⟩
  | both f v =>
    obtain ⟨h0, h1⟩ := h
    refine ⟨run_rootOk m w' hw' h0, hsec "assembly" f v (.inl rfl) h1 ?_ ?_⟩
    · rintro f' v' rfl; exact fun e => ha (by rw [e])
    · rintro f' v' rfl _; exact ha

/-! ## The write of an entry -/

/-- the value written for a field of `operation`; `none` = exception -/
def opWrite (P : Py K) (f : String) (v : Val K) : Option (Val K) :=
  if f = "target_filter" then some (targetOf P v)
  else if f = "kind" then (if validEnum v opKinds then some v else none)
  else if f = "policy" then (if validEnum v opPolicies then some v else none)
  else if f = "feature_kind" then (if validEnum v rtFeatures then some v else none)
  else if f = "through" ∨ f = "consume" then some (.bool (boolOf P v))
  else if f = "priority" then (P.floatOf v).map .num
  else if f = "feature_id" ∨ f = "stage" then some (.str (P.strOf v))
  else some v

theorem applyOperation_ok (P : Py K) (m m' : Meta K) (f : String) (v : Val K) (h : applyOperation P m f v = (.ok (), m')) :
    ∃ u, opWrite P f v = some u ∧ ∀ n, applyOperation P n f v = (.ok (), run n (.sect "operation" f u)) := by
  unfold applyOperation at h
  unfold opWrite
  by_cases c1 : f = "target_filter"
  · subst c1; exact ⟨targetOf P v, by simp, fun n => by simp [applyOperation, setOp, run]⟩
  by_cases c2 : f = "kind"
  · subst c2
    simp only [if_neg c1, if_true] at h ⊢
    unfold setEnum at h
    split_ifs at h with hv
    · exact ⟨v, by simp [hv], fun n => by simp [applyOperation, setEnum, hv, setOp, run]⟩
    · simp at h
  by_cases c3 : f = "policy"
  · subst c3
    simp only [if_neg c1, if_neg c2, if_true] at h ⊢
    unfold setEnum at h
    split_ifs at h with hv
    · exact ⟨v, by simp [hv], fun n => by simp [applyOperation, setEnum, hv, setOp, run]⟩
    · simp at h
  by_cases c4 : f = "feature_kind"
  · subst c4
    simp only [if_neg c1, if_neg c2, if_neg c3, if_true] at h ⊢
    unfold setEnum at h
    split_ifs at h with hv
    · exact ⟨v, by simp [hv], fun n => by simp [applyOperation, setEnum, hv, setOp, run]⟩
    · simp at h
  by_cases c5 : f = "through" ∨ f = "consume"
  · exact ⟨.bool (boolOf P v), by simp only [if_neg c1, if_neg c2, if_neg c3, if_neg c4, if_pos c5],
      fun n => by simp only [applyOperation, if_neg c1, if_neg c2, if_neg c3, if_neg c4, if_pos c5]; rfl⟩
  by_cases c6 : f = "priority"
  · subst c6
    simp only [if_neg c1, if_neg c2, if_neg c3, if_neg c4, if_neg c5, if_true] at h ⊢
    cases hx : P.floatOf v with
    | none => simp [setPriority, hx] at h
    | some x => exact ⟨.num x, rfl, fun n => by simp [applyOperation, setPriority, hx, setOp, run]⟩
  by_cases c7 : f = "feature_id" ∨ f = "stage"
  · exact ⟨.str (P.strOf v), by simp only [if_neg c1, if_neg c2, if_neg c3, if_neg c4, if_neg c5, if_neg c6, if_pos c7],
      fun n => by simp only [applyOperation, if_neg c1, if_neg c2, if_neg c3, if_neg c4, if_neg c5, if_neg c6, if_pos c7]; rfl⟩
  · exact ⟨v, by simp only [if_neg c1, if_neg c2, if_neg c3, if_neg c4, if_neg c5, if_neg c6, if_neg c7],
      fun n => by simp only [applyOperation, if_neg c1, if_neg c2, if_neg c3, if_neg c4, if_neg c5, if_neg c6, if_neg c7]; rfl⟩

theorem applyAssembly_ok (P : Py K) (m m' : Meta K) (f : String) (v : Val K) (hf : f ∉ listFields) (h : applyAssembly P m f v = (.ok (), m')) :
    ∃ w : Write K, (w = .init ∨ (∃ u, w = .both f u) ∨ ∃ u, w = .sect "assembly" f u) ∧ ∀ n, applyAssembly P n f v = (.ok (), run n w) := by
  unfold applyAssembly at h
  by_cases c1 : f = "joint_kind"
  · subst c1
    simp only [if_true] at h
    unfold setAssembly at h
    split_ifs at h with hv
    · by_cases hn : v = .none
      · subst hn
        exact ⟨.init, .inl rfl, fun n => by simp [applyAssembly, setAssembly, hv, optSet, run]⟩
      · refine ⟨.both "joint_kind" v, .inr (.inl ⟨_, rfl⟩), fun n => ?_⟩
        simp only [applyAssembly, if_true, setAssembly, hv]
        cases v <;> first | exact absurd rfl hn | rfl
    · simp at h
  by_cases c2 : f = "no_cut"
  · subst c2
    by_cases hn : v = .none
    · subst hn
      exact ⟨.init, .inl rfl, fun n => by simp [applyAssembly, setAssembly, validEnum, optSet, run]⟩
    · refine ⟨.both "no_cut" (.bool (boolOf P v)), .inr (.inl ⟨_, rfl⟩), fun n => ?_⟩
      cases v <;> first | exact absurd rfl hn | simp [applyAssembly, setAssembly, validEnum, optSet, run]
  · exact ⟨.sect "assembly" f v, .inr (.inr ⟨_, rfl⟩), fun n => by
      simp only [applyAssembly, if_neg c1, if_neg c2, if_neg hf]; rfl⟩

/-- the keys for which the claim is made: fields of `assembly` other than the four lists, fields of `operation`, and root fields other than `tags` -/
def Once (P : Py K) (kv : String × Val K) : Prop :=
  (∃ f, kv.1 = "assembly." ++ f ∧ f ∉ listFields) ∨ (∃ f, kv.1 = "operation." ++ f) ∨
    ('.' ∉ kv.1.toList ∧ kv.1 ∉ ["", "tags", "assembly", "operation"] ∧ (kv.1 = "layer" → P.strOf kv.2 ≠ ""))

/-- the places a key can write to -/
def Place (k : String) (w : Write K) : Prop :=
  match w with
  | .sect ns f _ => k = ns ++ "." ++ f ∧ (ns = "assembly" ∨ ns = "operation")
  | .both f _ => k = "assembly." ++ f
  | .root f _ => k = f ∧ '.' ∉ f.toList
  | .init => True

theorem applyKey_write (P : Py K) (m m' : Meta K) (kv : String × Val K) (ho : Once P kv) (h : applyKey P m kv = (.ok (), m')) :
    ∃ w : Write K, Good w ∧ Place kv.1 w ∧ ∀ n, applyKey P n kv = (.ok (), run n w) := by
  obtain ⟨k, v⟩ := kv
  rcases ho with ⟨f, hk, hf⟩ | ⟨f, hk⟩ | ⟨hd, hk, hl⟩
  · simp only at hk
    rw [applyKey_assembly P m k f v hk] at h
    obtain ⟨w, hw, hr⟩ := applyAssembly_ok P m m' f v hf h
    refine ⟨w, ?_, ?_, fun n => by rw [applyKey_assembly P n k f v hk]; exact hr n⟩
    · rcases hw with rfl | ⟨u, rfl⟩ | ⟨u, rfl⟩
      · trivial
      · trivial
      · exact .inl rfl
    · rcases hw with rfl | ⟨u, rfl⟩ | ⟨u, rfl⟩
      · trivial
      · exact hk
      · exact ⟨hk, .inl rfl⟩
  · simp only at hk
    rw [applyKey_operation P m k f v hk] at h
    obtain ⟨u, -, hr⟩ := applyOperation_ok P m m' f v h
    exact ⟨.sect "operation" f u, .inr rfl, ⟨hk, .inr rfl⟩, fun n => by rw [applyKey_operation P n k f v hk]; exact hr n⟩
  · simp only at hd hk hl
    simp only [List.mem_cons, List.not_mem_nil, or_false, not_or] at hk
    by_cases c : k = "layer"
    · subst c
      refine ⟨.root "layer" (.str (P.strOf v)), ⟨by decide, by decide, fun _ => ?_⟩, ⟨rfl, hd⟩, fun n => ?_⟩
      · simpa [Val.truthy] using hl rfl
      · rw [applyKey_root P n _ v hd hk.1]; simp [applyRoot, run]
    · refine ⟨.root k v, ⟨hk.2.2.1, hk.2.2.2, fun e => absurd e c⟩, ⟨rfl, hd⟩, fun n => ?_⟩
      rw [applyKey_root P n _ v hd hk.1]
      simp only [applyRoot, if_neg c, if_neg hk.2.1, run]

theorem place_apart (k k' : String) (w w' : Write K) (hk : k ≠ k') (h : Place k w) (h' : Place k' w') : Apart w w' := by
  have app : ∀ f, "assembly." ++ f = "assembly" ++ "." ++ f := fun f => rfl
  cases w <;> cases w' <;> simp only [Place, Apart, ne_eq, Prod.mk.injEq, not_and] at *
  · rintro rfl rfl; exact hk (h.1.trans h'.1.symm)
  · rintro rfl rfl; exact hk (h.1.trans ((app _).symm.trans h'.symm))
  · rintro rfl; exact hk (h.1.trans h'.1.symm)
  · rintro rfl rfl; exact hk (h.trans ((app _).trans h'.1.symm))
  · rintro rfl; exact hk (h.trans h'.symm)

theorem applyHint_fixed (P : Py K) (h : Meta K) : ∀ (m m' : Meta K) (done : List (Write K)) (ks : List String), (∀ kv ∈ h, Once P kv) → (ks ++ h.map Prod.fst).Nodup →
    (∀ w ∈ done, Good w ∧ Done m w ∧ ∃ k ∈ ks, Place k w) → applyHint P m h = (.ok (), m') →
    (∀ w ∈ done, Done m' w) ∧ ∀ kv ∈ h, Fixed P m' kv := by
  induction h with
  | nil =>
    intro m m' done ks _ _ hd hr
    simp only [applyHint, Prod.mk.injEq, true_and] at hr
    subst hr
    exact ⟨fun w hw => (hd w hw).2.1, fun kv hkv => by simp at hkv⟩
  | cons kv h ih =>
    intro m m' done ks ho hn hd hr
    unfold applyHint at hr
    cases hk : applyKey P m kv with
    | mk r m1 =>
      rw [hk] at hr
      cases r with
      | error e => simp at hr
      | ok u =>
        simp only at hr
        obtain ⟨w, hg, hp, hw⟩ := applyKey_write P m m1 kv (ho kv (by simp)) hk
        have hm1 : m1 = run m w := by have := hw m; rw [hk] at this; simpa using this
        have hn' : ((ks ++ [kv.1]) ++ h.map Prod.fst).Nodup := by simpa using hn
        have hnot : kv.1 ∉ ks := by
          intro hin
          rw [List.nodup_append] at hn
          exact hn.2.2 kv.1 hin kv.1 (by simp) rfl
        obtain ⟨hA, hB⟩ := ih m1 m' (done ++ [w]) (ks ++ [kv.1]) (fun kv' hkv' => ho kv' (List.mem_cons_of_mem _ hkv')) hn' (by
          intro w' hw'
          rcases List.mem_append.1 hw' with hw' | hw'
          · obtain ⟨g, d, k, hk', hp'⟩ := hd w' hw'
            refine ⟨g, ?_, k, List.mem_append_left _ hk', hp'⟩
            rw [hm1]
            exact run_keeps m w' w g hg (place_apart k kv.1 w' w (fun e => hnot (e ▸ hk')) hp' hp) d
          · simp only [List.mem_singleton] at hw'
            subst hw'
            exact ⟨hg, hm1 ▸ run_done m w' hg, kv.1, by simp, hp⟩) hr
        refine ⟨fun w' hw' => hA w' (List.mem_append_left _ hw'), fun kv' hkv' => ?_⟩
        rcases List.mem_cons.1 hkv' with rfl | hkv'
        · unfold Fixed
          rw [hw m', run_id m' w (hA w (by simp))]
        · exact hB kv' hkv'

/-- C289 (partial): a hint that was applied can be applied again, and that changes nothing, for hints of the keys described by `Once`: all fields of `assembly` and `operation` but the four
lists, and root fields other than `tags`. Missing: `tags` and the four lists, which grow each time (see `C289_tags`), and unknown namespaces. -/
theorem C289_twice_partial (P : Py K) (h m m' : Meta K) (hk : ∀ kv ∈ h, Once P kv) (hn : (h.map Prod.fst).Nodup) (hr : applyHint P m h = (.ok (), m')) :
    applyHint P m' h = (.ok (), m') := by
  have hf := (applyHint_fixed P h m m' [] [] hk (by simpa using hn) (by simp) hr).2
  clear hr hn hk
  induction h with
  | nil => rfl
  | cons kv h ih =>
    unfold applyHint
    rw [hf kv (by simp)]
    exact ih (fun kv' hkv' => hf kv' (List.mem_cons_of_mem _ hkv'))

/-- C289: what a hint does not mention it leaves alone: root fields (a layer that is not empty) and fields of the two sections. -/
theorem C289_additive (P : Py K) (h : Meta K) : ∀ (m m' : Meta K), (∀ kv ∈ h, Once P kv) → applyHint P m h = (.ok (), m') →
    (∀ f v, dget m f = some v → f ≠ "assembly" → f ≠ "operation" → f ∉ h.map Prod.fst → (f = "layer" → v.truthy = true) → dget m' f = some v) ∧
    ∀ ns f v, ns = "assembly" ∨ ns = "operation" → Has m ns f v → ns ++ "." ++ f ∉ h.map Prod.fst → Has m' ns f v := by
  induction h with
  | nil =>
    intro m m' _ hr
    simp only [applyHint, Prod.mk.injEq, true_and] at hr
    subst hr
    exact ⟨fun f v hv _ _ _ _ => hv, fun ns f v _ hv _ => hv⟩
  | cons kv h ih =>
    intro m m' ho hr
    unfold applyHint at hr
    cases hk : applyKey P m kv with
    | mk r m1 =>
      rw [hk] at hr
      cases r with
      | error e => simp at hr
      | ok u =>
        simp only at hr
        obtain ⟨w, hg, hp, hw⟩ := applyKey_write P m m1 kv (ho kv (by simp)) hk
        have hm1 : m1 = run m w := by have := hw m; rw [hk] at this; simpa using this
        obtain ⟨hA, hB⟩ := ih m1 m' (fun kv' hkv' => ho kv' (List.mem_cons_of_mem _ hkv')) hr
        refine ⟨fun f v hv h1 h2 h3 h4 => ?_, fun ns f v hns hv h3 => ?_⟩
        · simp only [List.map_cons, List.mem_cons, not_or] at h3
          refine hA f v ?_ h1 h2 h3.2 h4
          rw [hm1]
          refine run_root m w hg f h1 h2 ?_ v hv h4
          rintro f' v' rfl
          rw [← hp.1]; exact h3.1
        · simp only [List.map_cons, List.mem_cons, not_or] at h3
          refine hB ns f v hns ?_ h3.2
          rw [hm1]
          have : Done (run m w) (.sect ns f v) := run_keeps m (.sect ns f v) w hns hg
            (place_apart (ns ++ "." ++ f) kv.1 _ w h3.1 ⟨rfl, hns⟩ hp) hv
          exact this

/-- C289: what a hint says is in the metadata afterwards: kind, policy, kind of feature, target filter, priority, flags, identifiers and unknown fields of `operation` (as `opWrite` says), and the layer. -/
theorem C289_lands (P : Py K) (h m m' : Meta K) (hk : ∀ kv ∈ h, Once P kv) (hn : (h.map Prod.fst).Nodup) (hr : applyHint P m h = (.ok (), m')) :
    (∀ f v, ("operation." ++ f, v) ∈ h → ∃ u, opWrite P f v = some u ∧ Has m' "operation" f u) ∧
    (∀ s, ("layer", .str s) ∈ h → dget m' "layer" = some (.str s)) ∧
    (∀ s, ("assembly.joint_kind", .str s) ∈ h → Has m' "assembly" "joint_kind" (.str s)) ∧
    (∀ b, ("assembly.no_cut", .bool b) ∈ h → Has m' "assembly" "no_cut" (.bool b)) := by
  have hf := (applyHint_fixed P h m m' [] [] hk (by simpa using hn) (by simp) hr).2
  refine ⟨fun f v hv => ?_, fun s hv => ?_, fun s hv => ?_, fun b hv => ?_⟩
  · have h1 := hf _ hv
    unfold Fixed at h1
    rw [applyKey_operation P m' _ f v rfl] at h1
    obtain ⟨u, hu, hr⟩ := applyOperation_ok P m' m' f v h1
    refine ⟨u, hu, ?_⟩
    have e : run m' (.sect "operation" f u) = m' := by have := hr m'; rw [h1] at this; simpa using this.symm
    have hd := run_done m' (.sect "operation" f u) (.inr rfl)
    rwa [e] at hd
  · have h1 := hf _ hv
    unfold Fixed at h1
    rw [applyKey_root P m' "layer" _ (by decide) (by decide)] at h1
    simp only [applyRoot, if_true, P.strOf_str, Prod.mk.injEq, true_and] at h1
    rw [← h1, dget_dset_same]
  · have h1 := hf _ hv
    unfold Fixed at h1
    rw [applyKey_assembly P m' _ "joint_kind" _ (by decide)] at h1
    simp only [applyAssembly, if_true, setAssembly] at h1
    split_ifs at h1 with c
    · simp only [Prod.mk.injEq, true_and] at h1
      rw [← h1]
      exact ⟨_, dget_dset_same _ _ _, by simp [optSet, dget_dset_same]⟩
    · simp at h1
  · have h1 := hf _ hv
    unfold Fixed at h1
    rw [applyKey_assembly P m' _ "no_cut" _ (by decide)] at h1
    simp only [applyAssembly, if_neg (show ("no_cut" : String) ≠ "joint_kind" by decide), if_true, setAssembly, boolOf, Val.truthy] at h1
    rw [if_pos (by simp [validEnum])] at h1
    simp only [Prod.mk.injEq, true_and] at h1
    rw [← h1]
    exact ⟨_, dget_dset_same _ _ _, by simp [optSet, dget_dset_same]⟩

/-- C289 fails for tags: "idempotent" application of one tag to fresh metadata leaves the tag there once, then twice. -/
theorem C289_tags (P : Py K) (t : String) :
    let h : Meta K := [("tags", .str t)]
    dget (applyHint P [] h).2 "tags" = some (.list [.str t]) ∧
      dget (applyHint P (applyHint P [] h).2 h).2 "tags" = some (.list [.str t, .str t]) := by
  have hk : ∀ (m : Meta K) (l : List (Val K)), dget (ensureRoot m none) "tags" = some (.list l) →
      applyHint P m [("tags", .str t)] = (.ok (), dset (ensureRoot m none) "tags" (.list (l ++ [.str t]))) := by
    intro m l hl
    unfold applyHint
    rw [applyKey_root P m "tags" _ (by decide) (by decide)]
    simp only [applyRoot, if_neg (show ("tags" : String) ≠ "layer" by decide), if_true, hl, newTags, P.strOf_str, applyHint]
  have h1 : dget (ensureRoot ([] : Meta K) none) "tags" = some (.list []) := by simp [dget_ensureRoot, dget]
  have e1 := hk [] [] h1
  refine ⟨by rw [e1]; simp [dget_dset_same], ?_⟩
  have h2 : dget (ensureRoot (dset (ensureRoot ([] : Meta K) none) "tags" (.list ([] ++ [.str t]))) none) "tags" = some (.list [.str t]) := by
    rw [dget_ensureRoot]; simp [dget_dset_same]
  rw [e1, hk _ _ h2]
  simp [dget_dset_same]

example : Once demoPy ("assembly.no_cut", .bool true) ∧ Once demoPy ("operation.kind", .str "subtract") ∧ Once demoPy ("layer", .str "top") ∧
    (applyHint demoPy [] [("assembly.no_cut", .bool true), ("operation.kind", .str "subtract"), ("layer", .str "top")]).1 = .ok () :=
  ⟨.inl ⟨"no_cut", by decide, by decide⟩, .inr (.inl ⟨"kind", by decide⟩), .inr (.inr ⟨by decide, by decide, fun _ => by decide⟩), rfl⟩

end Verif.Hints
