import Verif.Accept.Schema

/-!
# Loading of valid plans, recording of results
-/

namespace Verif.Accept
open Verif.Dict Verif.Metadata

variable {K : Type}

/-! ## Loading -/

/-- an execution section: nothing, or a dictionary whose env, options and license are dictionaries -/
def ExecOk (v : Val K) : Prop :=
  v = .none ∨ ∃ e, v = .dict e ∧ ∀ k ∈ ["env", "options", "license"], ∀ w, dget e k = some w → ∃ m, w = .dict m

/-- the dictionary stored under a key, empty if there is none -/
def DictAt (d : Meta K) (k : String) (m : Meta K) : Prop := dget d k = some (.dict m) ∨ (dget d k = none ∧ m = [])

/-- the list stored under a key, empty if there is none or null -/
def ListAt (d : Meta K) (k : String) (l : List (Val K)) : Prop :=
  dget d k = some (.list l) ∨ ((dget d k = none ∨ dget d k = some .none) ∧ l = [])

theorem asDict_ok (d : Meta K) (k : String) (h : ∀ v, dget d k = some v → ∃ m, v = .dict m) : ∃ m, asDict d k = .ok m ∧ DictAt d k m := by
  unfold asDict DictAt
  cases hg : dget d k with
  | none => exact ⟨[], rfl, .inr ⟨rfl, rfl⟩⟩
  | some v =>
    obtain ⟨m, rfl⟩ := h v hg
    exact ⟨m, rfl, .inl rfl⟩

theorem asList_orEmpty (isZero : K → Bool) (d : Meta K) (k : String) (h : ∀ v, dget d k = some v → v = .none ∨ ∃ l, v = .list l) :
    ∃ l, asList (orEmpty isZero d k) = .ok l ∧ ListAt d k l := by
  unfold orEmpty ListAt
  cases hg : dget d k with
  | none => exact ⟨[], rfl, .inr ⟨.inl rfl, rfl⟩⟩
  | some v =>
    rcases h v hg with rfl | ⟨l, rfl⟩
    · exact ⟨[], rfl, .inr ⟨.inr rfl, rfl⟩⟩
    · cases l with
      | nil => exact ⟨[], rfl, .inl rfl⟩
      | cons x xs => exact ⟨x :: xs, rfl, .inl rfl⟩

theorem loadExecution_ok (isZero : K → Bool) (d : Meta K) (h : ∀ v, dget d "execution" = some v → ExecOk v) : loadExecution isZero d = .ok () := by
  unfold loadExecution
  cases hg : dget d "execution" with
  | none => rfl
  | some v =>
    rcases h v hg with rfl | ⟨e, rfl, he⟩
    · rfl
    · simp only
      split_ifs
      · obtain ⟨m1, h1, -⟩ := asDict_ok e "env" (he _ (by simp))
        obtain ⟨m2, h2, -⟩ := asDict_ok e "options" (he _ (by simp))
        obtain ⟨m3, h3, -⟩ := asDict_ok e "license" (he _ (by simp))
        rw [h1, h2, h3]; rfl
      · rfl

/-- the boundary conditions of a plan: the camel case key, unless it is absent or null -/
def BcsAt (d : Meta K) (l : List (Val K)) : Prop :=
  ((dget d "boundaryConditions" = none ∨ dget d "boundaryConditions" = some .none) ∧ ListAt d "boundary_conditions" l) ∨
    dget d "boundaryConditions" = some (.list l)

theorem loadBcs_ok (isZero : K → Bool) (d : Meta K)
    (h1 : ∀ v, dget d "boundaryConditions" = some v → v = .none ∨ ∃ l, v = .list l)
    (h2 : dget d "boundaryConditions" = none ∨ dget d "boundaryConditions" = some .none →
      ∀ v, dget d "boundary_conditions" = some v → v = .none ∨ ∃ l, v = .list l) :
    ∃ l, asList (loadBcs isZero d) = .ok l ∧ BcsAt d l := by
  unfold loadBcs BcsAt
  cases hg : dget d "boundaryConditions" with
  | none =>
    obtain ⟨l, hl, ha⟩ := asList_orEmpty isZero d "boundary_conditions" (h2 (.inl hg))
    exact ⟨l, hl, .inl ⟨.inl rfl, ha⟩⟩
  | some v =>
    rcases h1 v hg with rfl | ⟨l, rfl⟩
    · obtain ⟨l, hl, ha⟩ := asList_orEmpty isZero d "boundary_conditions" (h2 (.inr hg))
      exact ⟨l, hl, .inl ⟨.inr rfl, ha⟩⟩
    · cases l with
      | nil => exact ⟨[], rfl, .inr rfl⟩
      | cons x xs => exact ⟨x :: xs, rfl, .inr rfl⟩

/-- C297 (partial): a plan that the validator reports valid can be loaded, and the loaded plan has its geometry, materials, loads, boundary conditions,
acceptance criteria, backend options and attachments, provided the sections the validator does not look at have the right shape: execution, backendOptions and
attachments always; materials, loads and boundary conditions if the plan is of a kind with a check section.
Missing: plans where they do not (`C297_execution`, `C297_null_options`, `C297_null_materials`). -/
theorem C297_load_partial (blank : String → Bool) (isZero : K → Bool) (d : Meta K) (hd : ∃ warnings, validatePlan blank d = .ok ([], warnings))
    (hexec : ∀ v, dget d "execution" = some v → ExecOk v)
    (hopt : ∀ v, dget d "backendOptions" = some v → (∃ m, v = .dict m) ∨ v = .list [])
    (hatt : ∀ v, dget d "attachments" = some v → v = .none ∨ ∃ l, v = .list l)
    (hcheck : ∀ kind ∈ ["geometric", "measurement", "assembly"], dget d "kind" = some (.str kind) →
      (∀ v, dget d "materials" = some v → ∃ m, v = .dict m) ∧
      ∀ k ∈ ["loads", "boundaryConditions", "boundary_conditions"], ∀ v, dget d k = some v → v = .none ∨ ∃ l, v = .list l) :
    ∃ p, loadPlan isZero d = .ok p ∧ DictAt d "geometry" p.geometry ∧ DictAt d "materials" p.materials ∧ ListAt d "loads" p.loads ∧ BcsAt d p.bcs ∧
      DictAt d "acceptance" p.acceptance ∧ (DictAt d "backendOptions" p.options ∨ dget d "backendOptions" = some (.list []) ∧ p.options = []) ∧ ListAt d "attachments" p.attachments := by
  rw [C295_valid] at hd
  obtain ⟨⟨i, hi, -⟩, ⟨b, hb, -⟩, hgeo, hacc, kind, hk, hkind⟩ := hd
  have hmat : ∀ v, dget d "materials" = some v → ∃ m, v = .dict m := by
    rcases hkind with ⟨hc, -⟩ | ⟨-, hm, -⟩
    · exact (hcheck kind hc hk).1
    · exact hm
  have hloads : ∀ v, dget d "loads" = some v → v = .none ∨ ∃ l, v = .list l := by
    rcases hkind with ⟨hc, -⟩ | ⟨-, -, hl, -⟩
    · exact (hcheck kind hc hk).2 _ (by simp)
    · intro v hv
      obtain ⟨l, rfl, -⟩ := hl v hv
      exact .inr ⟨l, rfl⟩
  have hbc1 : ∀ v, dget d "boundaryConditions" = some v → v = .none ∨ ∃ l, v = .list l := by
    rcases hkind with ⟨hc, -⟩ | ⟨-, -, -, hl⟩
    · exact (hcheck kind hc hk).2 _ (by simp)
    · intro v hv
      obtain ⟨l, rfl, -⟩ := hl v (by simp [hv])
      exact .inr ⟨l, rfl⟩
  have hbc2 : dget d "boundaryConditions" = none ∨ dget d "boundaryConditions" = some .none →
      ∀ v, dget d "boundary_conditions" = some v → v = .none ∨ ∃ l, v = .list l := by
    rcases hkind with ⟨hc, -⟩ | ⟨-, -, -, hl⟩
    · exact fun _ => (hcheck kind hc hk).2 _ (by simp)
    · rintro (h | h) v hv
      · obtain ⟨l, rfl, -⟩ := hl v (by simp [h, hv])
        exact .inr ⟨l, rfl⟩
      · obtain ⟨l, h', -⟩ := hl .none (by simp [h])
        exact absurd h' (by simp)
  obtain ⟨g, eg, ag⟩ := asDict_ok d "geometry" (fun v hv => by obtain ⟨gd, h, -⟩ := hgeo v hv; exact ⟨gd, h⟩)
  obtain ⟨m, em, am⟩ := asDict_ok d "materials" hmat
  obtain ⟨a, ea, aa⟩ := asDict_ok d "acceptance" (fun v hv => by obtain ⟨gd, h, -⟩ := hacc v hv; exact ⟨gd, h⟩)
  obtain ⟨o, eo, ao⟩ : ∃ m, asDict d "backendOptions" = .ok m ∧ (DictAt d "backendOptions" m ∨ dget d "backendOptions" = some (.list []) ∧ m = []) := by
    by_cases hl : dget d "backendOptions" = some (.list [])
    · exact ⟨[], by unfold asDict; rw [hl], .inr ⟨hl, rfl⟩⟩
    · obtain ⟨m, h1, h2⟩ := asDict_ok d "backendOptions" (fun v hv => (hopt v hv).resolve_right fun h => hl (h ▸ hv))
      exact ⟨m, h1, .inl h2⟩
  obtain ⟨l, el, al⟩ := asList_orEmpty isZero d "loads" hloads
  obtain ⟨bc, eb, ab⟩ := loadBcs_ok isZero d hbc1 hbc2
  obtain ⟨t, et, at'⟩ := asList_orEmpty isZero d "attachments" hatt
  refine ⟨⟨g, m, l, bc, a, o, t⟩, ?_, ag, am, al, ab, aa, ao, at'⟩
  unfold loadPlan
  rw [if_pos (by simp [hasKey, hi, hk, hb]), loadExecution_ok isZero d hexec, eg, em, ea, eo, el, eb, et]
  rfl

/-- a plan of a kind with a check, extended with one more section -/
def volumePlan (k : String) (v : Val K) : Meta K :=
  [("id", .str "v1"), ("kind", .str "geometric"), ("backend", .str "yapcad"), ("check", .dict [("property", .str "volume")]), (k, v)]

/-- C297 fails: an execution section that is a number (or any other true value that is not a dictionary) is valid and cannot be loaded. -/
theorem C297_execution (blank : String → Bool) (isZero : K → Bool) (hb : blank "v1" = false) (hy : blank "yapcad" = false) (x : K) (hx : isZero x = false) :
    (∃ warnings, validatePlan blank (volumePlan "execution" (.num x)) = .ok ([], warnings)) ∧
      loadPlan isZero (volumePlan "execution" (.num x)) = .error "AttributeError" := by
  constructor
  · rw [C295_valid]
    refine ⟨⟨_, rfl, hb⟩, ⟨_, rfl, hy⟩, ?_, ?_, "geometric", rfl, .inl ⟨by simp, [("property", .str "volume")], .str "volume", rfl, rfl, .inl ⟨rfl, "volume", by simp, rfl⟩⟩⟩
    · intro g hg; simp [volumePlan, dget] at hg
    · intro g hg; simp [volumePlan, dget] at hg
  · simp [loadPlan, volumePlan, hasKey, dget, loadExecution, truthy, hx]
    rfl

/-- C297 fails: null backend options are valid (YAML: `backendOptions:` with nothing after it) and raise `TypeError`. -/
theorem C297_null_options (blank : String → Bool) (isZero : K → Bool) (hb : blank "v1" = false) (hy : blank "yapcad" = false) :
    (∃ warnings, validatePlan (K := K) blank (volumePlan "backendOptions" .none) = .ok ([], warnings)) ∧
      loadPlan (K := K) isZero (volumePlan "backendOptions" .none) = .error "TypeError" := by
  constructor
  · rw [C295_valid]
    refine ⟨⟨_, rfl, hb⟩, ⟨_, rfl, hy⟩, ?_, ?_, "geometric", rfl, .inl ⟨by simp, [("property", .str "volume")], .str "volume", rfl, rfl, .inl ⟨rfl, "volume", by simp, rfl⟩⟩⟩
    · intro g hg; simp [volumePlan, dget] at hg
    · intro g hg; simp [volumePlan, dget] at hg
  · simp [loadPlan, volumePlan, hasKey, dget, loadExecution, asDict, asList, orEmpty, loadBcs]
    rfl

/-- C297 fails: so are null materials in a plan of a kind with a check. -/
theorem C297_null_materials (blank : String → Bool) (isZero : K → Bool) (hb : blank "v1" = false) (hy : blank "yapcad" = false) :
    (∃ warnings, validatePlan (K := K) blank (volumePlan "materials" .none) = .ok ([], warnings)) ∧
      loadPlan (K := K) isZero (volumePlan "materials" .none) = .error "TypeError" := by
  constructor
  · rw [C295_valid]
    refine ⟨⟨_, rfl, hb⟩, ⟨_, rfl, hy⟩, ?_, ?_, "geometric", rfl, .inl ⟨by simp, [("property", .str "volume")], .str "volume", rfl, rfl, .inl ⟨rfl, "volume", by simp, rfl⟩⟩⟩
    · intro g hg; simp [volumePlan, dget] at hg
    · intro g hg; simp [volumePlan, dget] at hg
  · simp [loadPlan, volumePlan, hasKey, dget, loadExecution, asDict]
    rfl

/-- the hypotheses of `C297_load_partial` are met by a plan with loads -/
example : ∃ p, loadPlan (K := Nat) (fun x => decide (x = 0))
    [("id", .str "s1"), ("kind", .str "structural"), ("backend", .str "calculix"), ("materials", .dict [("default", .dict [])]),
      ("loads", .list [.dict [("type", .str "force")]]), ("execution", .dict [("mode", .str "local"), ("env", .dict [])])] = .ok p ∧
    p.loads = [.dict [("type", .str "force")]] := ⟨_, rfl, rfl⟩

/-- C297: a dictionary without an id, a kind or a backend is not loaded -/
theorem C297_required (isZero : K → Bool) (d : Meta K) (k : String) (hk : k ∈ ["id", "kind", "backend"]) (hd : dget d k = none) : loadPlan isZero d = .error "ValueError" := by
  have : (hasKey d "id" && hasKey d "kind" && hasKey d "backend") = false := by
    have hf : hasKey d k = false := by unfold hasKey; rw [hd]; rfl
    simp only [List.mem_cons, List.not_mem_nil, or_false] at hk
    rcases hk with rfl | rfl | rfl <;> rw [hf] <;> simp
  unfold loadPlan
  rw [this]
  rfl

/-- the hypotheses of `C297_required` hold of this dictionary -/
example : dget ([("id", .str "a"), ("kind", .str "modal")] : Meta Nat) "backend" = none := by decide

/-! ## Recording -/

theorem dget_update (e : Meta K) (hn : (e.map Prod.fst).Nodup) (d : Meta K) (k : String) : dget (update d e) k = (dget e k).or (dget d k) := by
  induction e generalizing d with
  | nil => rfl
  | cons kv e ih =>
    obtain ⟨k1, v1⟩ := kv
    simp only [List.map_cons, List.nodup_cons] at hn
    change dget (update (dset d k1 v1) e) k = _
    rw [ih hn.2, dget_dset]
    simp only [dget]
    by_cases hk : k1 = k
    · subst hk
      have : dget e k1 = none := by
        cases h : dget e k1 with
        | none => rfl
        | some v =>
          exfalso; apply hn.1
          clear ih hn
          induction e with
          | nil => simp [dget] at h
          | cons a e ih =>
            obtain ⟨k2, v2⟩ := a
            simp only [dget] at h
            split_ifs at h with hh
            · simp [hh]
            · simp only [List.map_cons, List.mem_cons]; exact .inr (ih h)
      simp [this]
    · simp [hk, Ne.symm hk]

theorem nodup_manifestEntry (plan : String) (r : Result K) : ((manifestEntry plan r).map Prod.fst).Nodup := by
  have hs : List.Sublist ((manifestEntry plan r).map Prod.fst) ["plan", "status", "backend", "timestamp", "path", "metrics", "artifacts", "notes", "summary"] := by
    have ho : ∀ (k : String) (v : Option (Val K)), List.Sublist ((opt k v).map Prod.fst) [k] := by
      intro k v; cases v <;> simp [opt]
    have := (((((((List.Sublist.refl ["plan", "status"]).append (ho "backend" r.backend)).append (ho "timestamp" r.timestamp)).append
      (List.Sublist.refl ["path"])).append (ho "metrics" r.metrics)).append (ho "artifacts" r.artifacts)).append (ho "notes" r.notes)).append (ho "summary" r.summary)
    simpa [manifestEntry] using this
  exact hs.nodup (by decide)

/-- the entry written for a run: its fields -/
theorem dget_manifestEntry (plan : String) (r : Result K) :
    dget (manifestEntry plan r) "plan" = some (.str plan) ∧ dget (manifestEntry plan r) "status" = some r.status ∧
    dget (manifestEntry plan r) "path" = some r.path ∧ dget (manifestEntry plan r) "metrics" = r.metrics ∧
    dget (manifestEntry plan r) "artifacts" = r.artifacts ∧ dget (manifestEntry plan r) "notes" = r.notes ∧
    dget (manifestEntry plan r) "summary" = r.summary ∧ dget (manifestEntry plan r) "backend" = r.backend ∧
    dget (manifestEntry plan r) "timestamp" = r.timestamp := by
  obtain ⟨s, b, t, p, m, a, n, su⟩ := r
  cases b <;> cases t <;> cases m <;> cases a <;> cases n <;> cases su <;> simp [manifestEntry, opt, dget]

theorem ofPlan_update (plan : String) (r : Result K) (e : Meta K) : ofPlan plan (update e (manifestEntry plan r)) = true := by
  unfold ofPlan
  rw [dget_update _ (nodup_manifestEntry plan r), (dget_manifestEntry plan r).1]
  simp

theorem ofPlan_entry (plan : String) (r : Result K) : ofPlan plan (manifestEntry plan r) = true := by
  unfold ofPlan
  rw [(dget_manifestEntry plan r).1]
  simp

theorem ofPlan_iff (plan : String) (e : Meta K) : ofPlan plan e = true ↔ dget e "plan" = some (.str plan) := by
  unfold ofPlan
  split
  · rename_i s h; simp [h]
  · rename_i h
    simp only [Bool.false_eq_true, false_iff]
    exact fun h' => h _ h'

/-- C298: recording the first run of a plan appends an entry with the plan, the status, the path and the rest of the result. -/
theorem C298_first (rs : List (Meta K)) (plan : String) (r : Result K) (h : ∀ e ∈ rs, dget e "plan" ≠ some (.str plan)) :
    ∃ e, record rs plan r = rs ++ [e] ∧ dget e "plan" = some (.str plan) ∧ dget e "status" = some r.status ∧ dget e "path" = some r.path ∧
      dget e "metrics" = r.metrics ∧ dget e "artifacts" = r.artifacts ∧ dget e "notes" = r.notes ∧ dget e "summary" = r.summary ∧
      dget e "backend" = r.backend ∧ dget e "timestamp" = r.timestamp := by
  refine ⟨manifestEntry plan r, ?_, dget_manifestEntry plan r⟩
  induction rs with
  | nil => rfl
  | cons a rs ih =>
    rw [List.forall_mem_cons] at h
    rw [record, if_neg (by rw [ofPlan_iff]; exact h.1), ih h.2, List.cons_append]

/-- C298 (partial): recording a further run changes the plan's (first) entry only, in place: the entries before and after it stay as they are, plan, status and path
are those of the run, and so is every other field the run reports.
Missing: fields the run does not report keep the value of an earlier run (`C298_stale`). -/
theorem C298_again_partial (pre post : List (Meta K)) (e : Meta K) (plan : String) (r : Result K) (h : ∀ e ∈ pre, dget e "plan" ≠ some (.str plan))
    (he : dget e "plan" = some (.str plan)) :
    ∃ e', record (pre ++ e :: post) plan r = pre ++ e' :: post ∧ dget e' "plan" = some (.str plan) ∧ dget e' "status" = some r.status ∧
      dget e' "path" = some r.path ∧ (∀ v, r.metrics = some v → dget e' "metrics" = some v) ∧ (∀ v, r.artifacts = some v → dget e' "artifacts" = some v) ∧
      (∀ v, r.notes = some v → dget e' "notes" = some v) ∧ (∀ v, r.summary = some v → dget e' "summary" = some v) ∧
      (∀ v, r.backend = some v → dget e' "backend" = some v) ∧ (∀ v, r.timestamp = some v → dget e' "timestamp" = some v) := by
  refine ⟨update e (manifestEntry plan r), ?_, ?_⟩
  · induction pre with
    | nil => rw [List.nil_append, record, if_pos ((ofPlan_iff _ _).2 he)]; rfl
    | cons a rs ih =>
      rw [List.forall_mem_cons] at h
      rw [List.cons_append, record, if_neg (by rw [ofPlan_iff]; exact h.1), ih h.2, List.cons_append]
  · obtain ⟨h1, h2, h3, h4, h5, h6, h7, h8, h9⟩ := dget_manifestEntry plan r
    simp only [dget_update _ (nodup_manifestEntry plan r), h1, h2, h3, h4, h5, h6, h7, h8, h9]
    simp +contextual

/-- C298: however many runs are recorded, the manifest has one entry per plan if it had. -/
theorem C298_one_entry (rs : List (Meta K)) (plan : String) (r : Result K) (h : rs.Pairwise fun a b => dget a "plan" ≠ dget b "plan") :
    (record rs plan r).Pairwise fun a b => dget a "plan" ≠ dget b "plan" := by
  have hmem : ∀ (rs : List (Meta K)) e, e ∈ record rs plan r → dget e "plan" = some (.str plan) ∨ e ∈ rs := by
    intro rs
    induction rs with
    | nil =>
      intro e he
      simp only [record, List.mem_singleton] at he
      subst he
      exact .inl (dget_manifestEntry plan r).1
    | cons a rs ih =>
      intro e he
      rw [record] at he
      split_ifs at he with ha
      · rcases List.mem_cons.1 he with rfl | he
        · exact .inl ((ofPlan_iff _ _).1 (ofPlan_update plan r a))
        · exact .inr (List.mem_cons_of_mem _ he)
      · rcases List.mem_cons.1 he with rfl | he
        · exact .inr List.mem_cons_self
        · exact (ih e he).imp id (List.mem_cons_of_mem _)
  induction rs with
  | nil => simp [record]
  | cons a rs ih =>
    rw [List.pairwise_cons] at h
    rw [record]
    split_ifs with ha
    · rw [List.pairwise_cons]
      refine ⟨fun b hb => ?_, h.2⟩
      rw [(ofPlan_iff _ _).1 (ofPlan_update plan r a), ← (ofPlan_iff _ _).1 ha]
      exact h.1 b hb
    · rw [List.pairwise_cons]
      refine ⟨fun b hb => ?_, ih h.2⟩
      rcases hmem rs b hb with hb | hb
      · rw [hb]; exact fun h' => ha ((ofPlan_iff _ _).2 h')
      · exact h.1 b hb

/-- a run that passed, with metrics -/
def passedRun (m : Val K) : Result K := ⟨.str "passed", none, none, .str "validation/results/v1/summary.json", some m, none, none, none⟩
/-- a run without an adapter for the backend: it records the given status and no metrics, cli.py:73-103 -/
def recordedOnly (status : Val K) : Result K := ⟨status, none, none, .str "validation/results/v1/summary.json", none, none, none, none⟩

/-- C298 fails: after a run without an adapter the plan's entry has the new status, "pending" say, beside the metrics of the run before it. -/
theorem C298_stale (m status : Val K) :
    ∃ e, record (record [] "v1" (passedRun m)) "v1" (recordedOnly status) = [e] ∧ dget e "status" = some status ∧ dget e "metrics" = some m := by
  refine ⟨_, rfl, ?_, ?_⟩ <;> simp [passedRun, recordedOnly, manifestEntry, opt, update, dset, dget]

end Verif.Accept
