import Verif.Metadata.Model
import Mathlib.Tactic.Common
import Mathlib.Data.List.Nodup

/-! C20, C21, C70, C71: metadata. -/

namespace Verif.Metadata
open Verif.Dict

variable {K : Type} [DecidableEq K] [Zero K] [One K]

/-! ### C20 -/

theorem dget_setIfAbsent (m : Meta K) (k : String) (v : Val K) (k' : String) :
    dget (setIfAbsent m k v) k' = if k' = k then some ((dget m k).getD v) else dget m k' := by
  unfold setIfAbsent
  cases h : dget m k with
  | none =>
    simp only [dget_dset]
    rfl
  | some w =>
    simp only
    split_ifs with e
    · rw [e, h]; rfl
    · rfl

theorem dget_setEid (m : Meta K) (e : Option String) (k : String) :
    dget (setEid m e) k = if k = "entityId" then
        match dget m "entityId" with
        | some v => some v
        | none => match e with
          | some e => if e ≠ "" then some (.str e) else none
          | none => none
      else dget m k := by
  unfold setEid
  cases e with
  | none =>
    simp only
    split_ifs with b
    · subst b; cases dget m "entityId" <;> rfl
    · rfl
  | some e =>
    simp only
    by_cases he : e = ""
    · subst he
      rw [if_pos rfl]
      by_cases b : k = "entityId"
      · subst b
        rw [if_pos rfl]
        cases dget m "entityId" with
        | none => simp
        | some v => rfl
      · rw [if_neg b]
    · rw [if_neg he, dget_setIfAbsent]
      split_ifs with b
      · subst b; cases dget m "entityId" <;> simp [he]
      · rfl

theorem dget_fixLayer (m : Meta K) (k : String) :
    dget (fixLayer m) k = if k = "layer" then
        match dget m "layer" with
        | some v => if v.truthy then some v else some (.str "default")
        | none => some (.str "default")
      else dget m k := by
  unfold fixLayer
  cases h : dget m "layer" with
  | none => simp only [dget_dset]
  | some v =>
    simp only
    by_cases hv : v.truthy = true
    · simp only [hv, if_true]
      split_ifs with e
      · rw [e, h]
      · rfl
    · rw [if_neg hv, dget_dset, if_neg hv]

theorem dget_ensureRoot (m : Meta K) (e : Option String) (k : String) :
    dget (ensureRoot m e) k =
      if k = "layer" then
        match dget m "layer" with
        | some v => if v.truthy then some v else some (.str "default")
        | none => some (.str "default")
      else if k = "schema" then some ((dget m "schema").getD (.str "metadata-namespace-v1.1"))
      else if k = "tags" then some ((dget m "tags").getD (.list []))
      else if k = "entityId" then
        match dget m "entityId" with
        | some v => some v
        | none => match e with
          | some e => if e ≠ "" then some (.str e) else none
          | none => none
      else dget m k := by
  unfold ensureRoot
  simp only [dget_fixLayer, dget_setIfAbsent, dget_setEid]
  by_cases c0 : k = "layer"
  · subst c0; simp
  by_cases c1 : k = "schema"
  · subst c1; simp
  by_cases c2 : k = "tags"
  · subst c2; simp
  by_cases c3 : k = "entityId"
  · subst c3; cases dget m "entityId" <;> cases e <;> simp
  · simp [c0, c1, c2, c3]

/-- C20: initialising metadata keeps every value present (an empty `layer` is the one thing replaced, by
"default"), fills in `schema`, `tags` and a non-empty `layer`, and adds nothing else but the entity id. -/
theorem C20_init_keeps (m : Meta K) (e : Option String) :
    (∀ k v, dget m k = some v → (k = "layer" → v.truthy = true) → dget (ensureRoot m e) k = some v) ∧
    (∀ k ∈ ["schema", "tags", "layer"], (dget (ensureRoot m e) k).isSome) ∧
    (∃ v, dget (ensureRoot m e) "layer" = some v ∧ v.truthy = true) ∧
    (∀ k, dget m k = none → k ∉ ["schema", "tags", "layer", "entityId"] → dget (ensureRoot m e) k = none) := by
  refine ⟨?_, ?_, ?_, ?_⟩
  · intro k v hv ht
    rw [dget_ensureRoot]
    split_ifs with h1 h2 h3 h4
    · subst h1; rw [hv]; simp [ht rfl]
    · subst h2; rw [hv]; rfl
    · subst h3; rw [hv]; rfl
    · subst h4; rw [hv]
    · exact hv
  · intro k hk
    rw [dget_ensureRoot]
    simp only [List.mem_cons, List.not_mem_nil, or_false] at hk
    rcases hk with rfl | rfl | rfl
    · simp
    · simp
    · rw [if_pos rfl]
      cases dget m "layer" with
      | none => rfl
      | some v => simp only; split_ifs <;> rfl
  · rw [dget_ensureRoot, if_pos rfl]
    have hd : (Val.str "default" : Val K).truthy = true := by simp [Val.truthy]
    cases dget m "layer" with
    | none => exact ⟨_, rfl, hd⟩
    | some v =>
      simp only
      split_ifs with h
      · exact ⟨_, rfl, h⟩
      · exact ⟨_, rfl, hd⟩
  · intro k hk hn
    simp only [List.mem_cons, List.not_mem_nil, or_false, not_or] at hn
    rw [dget_ensureRoot, if_neg hn.2.2.1, if_neg hn.1, if_neg hn.2.1, if_neg hn.2.2.2, hk]

/-- a dictionary that already has what `ensureRoot` fills in is not changed by it -/
theorem ensureRoot_fixed (m : Meta K) (e : Option String)
    (h1 : (dget m "schema").isSome) (h2 : (dget m "tags").isSome)
    (h3 : ∃ v, dget m "layer" = some v ∧ v.truthy = true)
    (h4 : e = none ∨ e = some "" ∨ (dget m "entityId").isSome) : ensureRoot m e = m := by
  obtain ⟨v, hv, ht⟩ := h3
  have fix : ∀ k w, (dget m k).isSome → setIfAbsent m k w = m := by
    intro k w hk
    unfold setIfAbsent
    cases h : dget m k with
    | none => simp [h] at hk
    | some _ => rfl
  have fe : setEid m e = m := by
    unfold setEid
    rcases h4 with h | h | h
    · subst h; rfl
    · subst h; simp
    · cases e with
      | none => rfl
      | some e =>
        simp only
        rw [fix _ _ h]; simp
  unfold ensureRoot
  rw [fix _ _ h1, fe, fix _ _ h2]
  unfold fixLayer
  rw [hv]; simp [ht]

/-- C20: initialising twice equals initialising once. -/
theorem C20_init_idempotent (m : Meta K) (e : Option String) :
    ensureRoot (ensureRoot m e) e = ensureRoot m e := by
  obtain ⟨-, h2, h3, -⟩ := C20_init_keeps m e
  apply ensureRoot_fixed _ _ (h2 _ (by simp)) (h2 _ (by simp)) h3
  cases e with
  | none => exact Or.inl rfl
  | some e =>
    by_cases he : e = ""
    · subst he; exact Or.inr (Or.inl rfl)
    · right; right
      rw [dget_ensureRoot]
      simp only [show ("entityId" : String) ≠ "layer" by decide, show ("entityId" : String) ≠ "schema" by decide,
        show ("entityId" : String) ≠ "tags" by decide, if_false, if_true]
      cases dget m "entityId" <;> simp [he]

/-- the strings of a tag list -/
def hasTag (l : List (Val K)) (t : String) : Bool := l.any (isStr t)

theorem hasTag_append (l : List (Val K)) (t u : String) :
    hasTag (l ++ [Val.str t]) u = (hasTag l u || decide (t = u)) := by
  simp [hasTag, isStr]

theorem addLoop_spec (ts : List String) : ∀ (m : Meta K) (l : List (Val K)), dget m "tags" = some (.list l) →
    dget (ts.foldl appendTag m) "tags" =
      some (.list (l ++ ((ts.filter (fun t => t ≠ "" && !hasTag l t)).eraseDups).map .str)) ∧
    ∀ k, k ≠ "tags" → dget (ts.foldl appendTag m) k = dget m k := by
  induction ts with
  | nil => intro m l h; simp [h]
  | cons t ts ih =>
    intro m l h
    simp only [List.foldl_cons]
    by_cases ht : t = ""
    · have : appendTag m t = m := by simp [appendTag, ht]
      rw [this]
      obtain ⟨i1, i2⟩ := ih m l h
      refine ⟨?_, i2⟩
      rw [i1]
      rw [List.filter_cons_of_neg (by simp [ht])]
    · by_cases hm : hasTag l t = true
      · have : appendTag m t = m := by
          unfold appendTag
          rw [if_neg ht, h]
          unfold hasTag at hm
          simp [hm]
        rw [this]
        obtain ⟨i1, i2⟩ := ih m l h
        refine ⟨?_, i2⟩
        rw [i1, List.filter_cons_of_neg (by simp [hm])]
      · have ha : appendTag m t = dset m "tags" (.list (l ++ [.str t])) := by
          unfold appendTag
          rw [if_neg ht, h]
          unfold hasTag at hm
          simp only [hm]
          rfl
        rw [ha]
        obtain ⟨i1, i2⟩ := ih (dset m "tags" (.list (l ++ [.str t]))) (l ++ [.str t])
          (by rw [dget_dset, if_pos rfl])
        refine ⟨?_, ?_⟩
        · rw [i1, List.filter_cons_of_pos (by simp [ht, hm]), List.eraseDups_cons, List.filter_filter]
          have hf : (fun a => (!(a == t)) && (decide (a ≠ "") && !hasTag l a)) =
              (fun a => decide (a ≠ "") && !hasTag (l ++ [Val.str t]) a) := by
            funext a
            rw [hasTag_append]
            by_cases e : a = t
            · subst e; simp
            · have e' : t ≠ a := fun h => e h.symm
              simp [e, e']
          rw [hf]
          simp only [List.map_cons, List.append_assoc, List.singleton_append]
        · intro k hk
          rw [i2 k hk, dget_dset, if_neg hk]

/-- C20: adding tags appends exactly the new, non-empty ones, each once, in the order first seen, and
touches no other entry. (`l` is the tag list before.) -/
theorem C20_add_tags (m : Meta K) (ts : List String) (l : List (Val K))
    (hl : dget (ensureRoot m none) "tags" = some (.list l)) :
    dget (addTags m ts) "tags" =
      some (.list (l ++ ((ts.filter (fun t => t ≠ "" && !hasTag l t)).eraseDups).map .str)) ∧
    ∀ k, k ≠ "tags" → dget (addTags m ts) k = dget (ensureRoot m none) k :=
  addLoop_spec ts _ l hl

theorem nodup_eraseDups (l : List String) : l.eraseDups.Nodup := by
  induction h : l.length using Nat.strongRecOn generalizing l with
  | _ n ih =>
    cases l with
    | nil => simp
    | cons a as =>
      rw [List.eraseDups_cons, List.nodup_cons]
      constructor
      · simp
      · refine ih _ ?_ _ rfl
        subst h
        have := List.length_filter_le (fun x => !(x == a)) as
        simp only [List.length_cons]; omega

/-- C20: a duplicate-free list of string tags stays duplicate-free. -/
theorem C20_tags_nodup (m : Meta K) (ts : List String) (l : List String) (hn : l.Nodup)
    (hl : dget (ensureRoot m none) "tags" = some (.list (l.map .str))) :
    ∃ l' : List String, dget (addTags m ts) "tags" = some (.list (l'.map .str)) ∧ l'.Nodup ∧ l <+: l' ∧
      ∀ t, t ∈ l' ↔ t ∈ l ∨ (t ∈ ts ∧ t ≠ "") := by
  have hh : ∀ t, hasTag (l.map (Val.str (K := K))) t = decide (t ∈ l) := by
    intro t
    simp [hasTag, isStr, List.any_map, Function.comp_def, List.any_eq]
  obtain ⟨h1, -⟩ := C20_add_tags m ts _ hl
  refine ⟨l ++ (ts.filter (fun t => t ≠ "" && !hasTag (l.map (Val.str (K := K))) t)).eraseDups, ?_, ?_, ?_, ?_⟩
  · rw [h1, List.map_append]
  · rw [List.nodup_append]
    refine ⟨hn, nodup_eraseDups _, ?_⟩
    intro a ha b hb e
    subst e
    simp [hh] at hb
    exact hb.2.2 ha
  · exact List.prefix_append _ _
  · intro t
    simp only [List.mem_append, List.mem_eraseDups, List.mem_filter, hh]
    by_cases ht : t ∈ l <;> simp [ht]

/-- Non-vacuity: tags added to metadata that already has one. -/
example : dget (addTags ([("tags", .list [.str "a"])] : Meta Int) ["b", "a", "", "b", "c"]) "tags" =
    some (.list [.str "a", .str "b", .str "c"]) := by
  rfl

/-- C20: `set_layer` sets the layer ("default" for an empty name) and nothing else. -/
theorem C20_set_layer (m : Meta K) (layer : String) :
    dget (setLayer m layer) "layer" = some (.str (if layer = "" then "default" else layer)) ∧
    ∀ k, k ≠ "layer" → dget (setLayer m layer) k = dget (ensureRoot m none) k := by
  constructor
  · simp [setLayer, dget_dset]
  · intro k hk; simp [setLayer, dget_dset, hk]

/-! ### C21 -/

/-- C21 (partial): a setter rejected because an enumerated argument or the id is invalid leaves the
metadata exactly as it was. Missing: rejections noticed later (see the theorems below). -/
theorem C21_enum_rejected_partial (m : Meta K) :
    (∀ jk nc, validEnum jk ["axial", "radial", "mixed", "none"] = false →
      setAssembly m jk nc = (.error "ValueError", m)) ∧
    (∀ id ring R z c t tol f, id = "" ∨ ring ∉ ["axial", "radial"] →
      addBoltPattern m id ring R z c t tol f = (.error "ValueError", m)) ∧
    (∀ id kind ring R z o d, id = "" ∨ kind ∉ ["bolt_circle", "axis", "plane", "point", "edge"] ∨
        (∃ r, ring = some r ∧ r ∉ ["axial", "radial"]) →
      addDatum m id kind ring R z o d = (.error "ValueError", m)) ∧
    (∀ id kind mt fi tol, id = "" ∨ kind ∉ ["mating", "bearing", "sealing", "datum", "wear"] →
      addSurface m id kind mt fi tol = (.error "ValueError", m)) ∧
    (∀ id kind sh r, id = "" ∨ kind ∉ ["volume", "axis", "ring"] →
      addKeepout m id kind sh r = (.error "ValueError", m)) ∧
    (∀ kind tg pr th co po fk fi st, kind ∉ ["subtract", "intersect", "union"] ∨
        validEnum po ["strict", "warn", "ignore"] = false ∨
        validEnum fk ["access_panel", "vent", "parachute_door", "fastener_through", "wire_pass", "channel",
          "pocket", "other"] = false →
      setOperation m kind tg pr th co po fk fi st = (.error "ValueError", m)) := by
  refine ⟨?_, ?_, ?_, ?_, ?_, ?_⟩
  · intro jk nc h; simp only [setAssembly, h]; rfl
  · intro id ring R z c t tol f h
    unfold addBoltPattern addVia
    rw [if_neg]
    rcases h with h | h <;> simp_all
  · intro id kind ring R z o d h
    unfold addDatum addVia
    rw [if_neg]
    rcases h with h | h | ⟨r, rfl, h⟩ <;> simp_all
  · intro id kind mt fi tol h
    unfold addSurface addVia
    rw [if_neg]
    rcases h with h | h <;> simp_all
  · intro id kind sh r h
    unfold addKeepout addVia
    rw [if_neg]
    rcases h with h | h <;> simp_all
  · intro kind tg pr th co po fk fi st h
    unfold setOperation
    rw [if_neg]
    rcases h with h | h | h <;> simp_all

theorem getSection_keeps (m : Meta K) (ns k : String) (v : Val K) (h : dget m k = some v)
    (hl : k = "layer" → v.truthy = true) (hs : k = ns → ∃ d, v = .dict d) :
    dget (getSection m ns).1 k = some v := by
  unfold getSection
  split
  · exact h
  · rename_i hno
    have hr := (C20_init_keeps m none).1 k v h hl
    unfold ensureNamespace
    split
    · exact hr
    · rename_i hno2
      by_cases e : k = ns
      · subst e
        obtain ⟨d, rfl⟩ := hs rfl
        exact absurd h (hno d)
      · simp only; rw [dget_dset, if_neg e]; exact hr

/-- C21: whenever one of the `add_*` functions raises, nothing that was in the metadata is changed or
lost: every value is still there (so no entry was appended), except an empty `layer` or a non-dictionary
`assembly`, which are replaced. New keys may appear, see `C21_rejected_datum_leaves_namespace`. -/
theorem C21_add_rejected_keeps_partial (m : Meta K) (valid : Bool) (key : String)
    (entry : Except String (Meta K)) (err : String)
    (hraise : (addVia m valid key entry).1 = .error err) (k : String) (v : Val K) (h : dget m k = some v)
    (hl : k = "layer" → v.truthy = true) (hs : k = "assembly" → ∃ d, v = .dict d) :
    dget (addVia m valid key entry).2 k = some v := by
  have hk := getSection_keeps m "assembly" k v h hl hs
  unfold addVia at hraise ⊢
  cases valid
  · exact h
  · simp only [if_true] at hraise ⊢
    cases entry with
    | error e => exact hk
    | ok e =>
      simp only at hraise ⊢
      unfold appendEntry at hraise ⊢
      cases hd : dget (getSection m "assembly").2 key with
      | none => simp [hd] at hraise
      | some w =>
        cases w <;> simp [hd] at hraise ⊢ <;> exact hk

/-- C21 (violated): a datum rejected for a two-component direction still leaves behind a new `assembly`
section (and schema, tags and layer). -/
theorem C21_rejected_datum_leaves_namespace :
    addDatum ([] : Meta Int) "d1" "axis" none none none none (some [.num 0, .num 1]) =
      (.error "ValueError", [("schema", .str "metadata-namespace-v1.1"), ("tags", .list []),
        ("layer", .str "default"), ("assembly", .dict [])]) := by
  rfl

/-- C21 (violated): an operation update rejected for its priority has already overwritten the operation's
kind. -/
theorem C21_rejected_operation_overwrites_kind :
    setOperation ([("operation", .dict [("kind", .str "union")])] : Meta Int) "subtract" none
      (some (.str "high")) none none .none .none none none =
      (.error "ValueError", [("operation", .dict [("kind", .str "subtract")])]) := by
  rfl

/-- C21 (violated): a material update rejected for its density has already written the name. -/
theorem C21_rejected_material_writes_name :
    (setMaterial ([] : Meta Int) (some (.str "steel")) none none (some (.str "heavy")) none).1 =
      .error "ValueError" ∧
    dget (setMaterial ([] : Meta Int) (some (.str "steel")) none none (some (.str "heavy")) none).2 "material" =
      some (.dict [("name", .str "steel")]) := by
  constructor <;> rfl

/-- C21: a successful `add_*` appends exactly its entry to its list and keeps the earlier entries. -/
theorem C21_add_appends (m : Meta K) (valid : Bool) (key : String) (entry : Except String (Meta K))
    (hok : (addVia m valid key entry).1 = .ok ()) :
    ∃ e s old, entry = .ok e ∧ dget (addVia m valid key entry).2 "assembly" = some (.dict s) ∧
      dget s key = some (.list (old ++ [.dict e])) ∧
      (∀ d l, dget m "assembly" = some (.dict d) → dget d key = some (.list l) → old = l) := by
  unfold addVia at hok ⊢
  cases valid
  · simp at hok
  · simp only [if_true] at hok ⊢
    cases entry with
    | error e => simp at hok
    | ok e =>
      simp only at hok ⊢
      unfold appendEntry at hok ⊢
      have hsec : ∀ d, dget m "assembly" = some (.dict d) → (getSection m "assembly").2 = d := by
        intro d hd; simp [getSection, hd]
      cases hd : dget (getSection m "assembly").2 key with
      | none =>
        refine ⟨e, dset (getSection m "assembly").2 key (.list [.dict e]), [], rfl, ?_, ?_, ?_⟩
        · simp [dget_dset]
        · simp [dget_dset]
        · intro d l h1 h2
          rw [hsec d h1, h2] at hd
          cases hd
      | some w =>
        cases w with
        | list l =>
          refine ⟨e, dset (getSection m "assembly").2 key (.list (l ++ [.dict e])), l, rfl, ?_, ?_, ?_⟩
          · simp [dget_dset]
          · simp [dget_dset]
          · intro d l' h1 h2
            rw [hsec d h1, h2] at hd
            simp at hd; exact hd.symm
        | none => simp [hd] at hok
        | bool b => simp [hd] at hok
        | num x => simp [hd] at hok
        | str x => simp [hd] at hok
        | dict x => simp [hd] at hok

/-! ### C70 ids, C71 reading -/

/-- operations on a surface's metadata -/
inductive SOp
  | ensureId (fresh : String)
  | getMeta (fresh : String)
  | setUnits (fresh units : String)
  | setLayer (layer : String)
  | addTags (tags : List String)

def sstep (s : Surf K) : SOp → Surf K
  | .ensureId f => (Metadata.ensureId s f).2
  | .getMeta f => (getMetaCreate s f).2
  | .setUnits f u => Metadata.setUnits s f u
  | .setLayer l => { s with entry := some (.dict (Metadata.setLayer (metaOf s.entry) l)) }
  | .addTags t => { s with entry := some (.dict (Metadata.addTags (metaOf s.entry) t)) }

theorem ensureRoot_other (m : Meta K) (e : Option String) (k : String)
    (h : k ∉ ["layer", "schema", "tags", "entityId"]) : dget (ensureRoot m e) k = dget m k := by
  simp only [List.mem_cons, List.not_mem_nil, or_false, not_or] at h
  rw [dget_ensureRoot, if_neg h.1, if_neg h.2.1, if_neg h.2.2.1, if_neg h.2.2.2]

theorem ensureId_id (s : Surf K) (f : String) (i : Val K) (h : dget (metaOf s.entry) "id" = some i) :
    (ensureId s f).1 = i ∧ dget (metaOf (ensureId s f).2.entry) "id" = some i := by
  have h1 : dget (ensureRoot (metaOf s.entry) none) "id" = some i := by
    rw [ensureRoot_other _ _ _ (by decide), h]
  unfold ensureId
  generalize metaOf s.entry = m at h1 ⊢
  simp only [metaOf, dget_setIfAbsent]
  simp [h1]

theorem ensureId_sets (s : Surf K) (f : String) :
    dget (metaOf (ensureId s f).2.entry) "id" = some (ensureId s f).1 := by
  unfold ensureId
  simp only [metaOf, dget_setIfAbsent]
  simp

theorem addTags_id (m : Meta K) (ts : List String) (k : String) (h : k ∉ ["layer", "schema", "tags", "entityId"]) :
    dget (addTags m ts) k = dget m k := by
  have hk : k ≠ "tags" := by
    intro e; apply h; simp [e]
  have : ∀ (ts : List String) (m : Meta K), dget (ts.foldl appendTag m) k = dget m k := by
    intro ts
    induction ts with
    | nil => intro m; rfl
    | cons t ts ih =>
      intro m
      rw [List.foldl_cons, ih]
      unfold appendTag
      split_ifs
      · rfl
      · cases dget m "tags" with
        | none => simp only; rw [dget_dset, if_neg hk]
        | some v =>
          cases v <;> simp only
          split_ifs
          · rfl
          · rw [dget_dset, if_neg hk]
  unfold addTags
  rw [this, ensureRoot_other _ _ _ h]

theorem sstep_id (s : Surf K) (op : SOp) (i : Val K) (h : dget (metaOf s.entry) "id" = some i) :
    dget (metaOf (sstep s op).entry) "id" = some i := by
  cases op with
  | ensureId f => exact (ensureId_id s f i h).2
  | getMeta f =>
    simp only [sstep, getMetaCreate, metaOf]
    rw [ensureRoot_other _ _ _ (by decide)]
    exact (ensureId_id s f i h).2
  | setUnits f u =>
    simp only [sstep, Metadata.setUnits, getMetaCreate, metaOf]
    rw [dget_dset, if_neg (by decide), ensureRoot_other _ _ _ (by decide)]
    exact (ensureId_id s f i h).2
  | setLayer l =>
    simp only [sstep, metaOf, Metadata.setLayer]
    rw [dget_dset, if_neg (by decide), ensureRoot_other _ _ _ (by decide)]
    exact h
  | addTags t =>
    simp only [sstep, metaOf]
    rw [addTags_id _ _ _ (by decide)]
    exact h

/-- C70: once a surface or solid has an id, every later request returns the same id, whatever metadata
operations come in between and whatever fresh identifiers they are offered. -/
theorem C70_id_stable (s : Surf K) (f f' : String) (ops : List SOp) :
    (ensureId (ops.foldl sstep (ensureId s f).2) f').1 = (ensureId s f).1 := by
  have h : ∀ (ops : List SOp) (s : Surf K) (i : Val K), dget (metaOf s.entry) "id" = some i →
      dget (metaOf (ops.foldl sstep s).entry) "id" = some i := by
    intro ops
    induction ops with
    | nil => intro s i h; exact h
    | cons o ops ih => intro s i h; exact ih _ i (sstep_id s o i h)
  exact (ensureId_id _ f' _ (h ops _ _ (ensureId_sets s f))).1

/-- C71 (violated): asking for a surface's metadata without `create` changes a surface that has none. -/
theorem C71_read_mutates (b : Nat) :
    (getMetaRead ({ body := b, entry := none } : Surf K)).2 ≠ { body := b, entry := none } := by
  intro h
  have := congrArg Surf.entry h
  simp [getMetaRead] at this

/-- C71 (partial): it changes nothing if the metadata is already initialised. -/
theorem C71_read_initialised_partial (s : Surf K) (m : Meta K) (hs : s.entry = some (.dict m))
    (h1 : (dget m "schema").isSome) (h2 : (dget m "tags").isSome)
    (h3 : ∃ v, dget m "layer" = some v ∧ v.truthy = true) : getMetaRead s = (m, s) := by
  obtain ⟨b, e⟩ := s
  simp only at hs
  subst hs
  have hfix : ensureRoot m (asEid (dget m "entityId")) = m := by
    apply ensureRoot_fixed _ _ h1 h2 h3
    cases h : dget m "entityId" with
    | none => exact Or.inl rfl
    | some v => right; right; rfl
  simp only [getMetaRead, metaOf]
  rw [hfix]

end Verif.Metadata
