import Verif.GeoJson.Props

/-! # Geometry JSON: the theorems -/

namespace Verif.GeoJson
open Verif.Dict

variable {P S : Type}

theorem vE_step {w w1 : World P} {c c1 : Cache P} (h : Step w w1 c c1) (e : Entity S) : vE w1 e = vE w e := by
  cases e with
  | solid r ov => simp only [vE, h.shell, h.slot2, h.pay]
  | _ => rfl

theorem refs_step {w w1 : World P} {c c1 : Cache P} (h : Step w w1 c c1) (e : Entity S) : e.refs w1 = e.refs w := by
  cases e with
  | solid r ov => simp only [Entity.refs, h.shell, h.slot2]
  | _ => rfl

structure AllSpec (w w' : World P) (c c' : Cache P) (es : List (Entity S)) (xs : List (REntry P S)) : Prop where
  step : Step w w' c c'
  ns : ∀ x ∈ xs, x.notSurface
  view : ∀ c2 : Cache P, (∀ k v, dget c' k = some v → dget c2 k = some v) → xs.filterMap (vR c2) = es.filterMap (vE w)
  sk : xs.filterMap REntry.sk = es.filterMap Entity.sk
  ids : IdsOk w → (∀ e ∈ es, e.ov.eid ≠ some "") → (∀ k ∈ keys c, k ≠ "") →
    IdsOk w' ∧ (∀ k ∈ keys c', k ≠ "") ∧ ∀ x ∈ xs, x.id ≠ ""
  frame : ∀ i, i ∉ es.flatMap (Entity.refs w) → w'.surfs i = w.surfs i
  cached : (es.flatMap (Entity.refs w)).Nodup →
    ∀ k v, dget c' k = some v → dget c k = some v ∨ (v.1 ∈ es.flatMap (Entity.refs w) ∧ (w'.surfs v.1).info.eid = some k)

theorem serializeAll_spec : ∀ {es : List (Entity S)} {w w' : World P} {c c' : Cache P} {xs : List (REntry P S)},
    serializeAll w c es = some (xs, w', c') → AllSpec w w' c c' es xs := by
  intro es
  induction es with
  | nil =>
    intro w w' c c' xs h
    simp only [serializeAll, Option.some.injEq, Prod.mk.injEq] at h
    obtain ⟨rfl, rfl, rfl⟩ := h
    exact ⟨Step.refl _ _, by simp, fun _ _ => rfl, rfl, fun a _ b => ⟨a, b, by simp⟩, fun _ _ => rfl, fun _ _ _ h => Or.inl h⟩
  | cons e es ih =>
    intro w w' c c' xs h
    simp only [serializeAll] at h
    cases h1 : serializeOne w c e with
    | none => rw [h1] at h; simp at h
    | some q =>
      obtain ⟨x1, w1, c1⟩ := q
      rw [h1] at h
      dsimp only at h
      cases h2 : serializeAll w1 c1 es with
      | none => rw [h2] at h; simp at h
      | some q2 =>
        obtain ⟨x2, w2, c2⟩ := q2
        rw [h2] at h
        simp only [Option.some.injEq, Prod.mk.injEq] at h
        obtain ⟨rfl, rfl, rfl⟩ := h
        have a := serializeOne_spec h1
        have b := ih h2
        have hr : es.flatMap (Entity.refs w1) = es.flatMap (Entity.refs w) := by
          rw [List.flatMap_congr]; intro x _; exact refs_step a.step x
        refine ⟨a.step.trans b.step, ?_, ?_, ?_, ?_, ?_, ?_⟩
        · intro x hx
          rcases List.mem_append.mp hx with hx | hx
          · exact a.ns x hx
          · exact b.ns x hx
        · intro c3 hc3
          rw [List.filterMap_append, a.view c3 (fun k v hk => hc3 k v (b.step.pre k v hk)), b.view c3 hc3]
          rw [List.filterMap_congr (g := vE w) (fun x _ => vE_step a.step x)]
          rw [← List.filterMap_append]; rfl
        · rw [List.filterMap_append, a.sk, b.sk, ← List.filterMap_append]; rfl
        · intro hw ho hk
          obtain ⟨p1, p2, p3⟩ := a.ids hw (ho e List.mem_cons_self) hk
          obtain ⟨q1, q2, q3⟩ := b.ids p1 (fun x hx => ho x (List.mem_cons_of_mem _ hx)) p2
          refine ⟨q1, q2, fun x hx => ?_⟩
          rcases List.mem_append.mp hx with hx | hx
          · exact p3 x hx
          · exact q3 x hx
        · intro i hi
          rw [List.flatMap_cons, List.mem_append, not_or] at hi
          rw [b.frame i (by rw [hr]; exact hi.2), a.frame i hi.1]
        · intro hn k v hk
          rw [List.flatMap_cons, List.nodup_append] at hn
          rw [List.flatMap_cons, List.mem_append]
          have hb := b.cached (by rw [hr]; exact hn.2.1) k v hk
          rw [hr] at hb
          rcases hb with hb | hb
          · rcases a.cached hn.1 k v hb with ha | ha
            · exact Or.inl ha
            · refine Or.inr ⟨Or.inl ha.1, ?_⟩
              rw [b.frame v.1 (by rw [hr]; exact fun hh => hn.2.2 _ ha.1 _ hh rfl)]
              exact ha.2
          · exact Or.inr ⟨Or.inr hb.1, hb.2⟩

/-! ### Loading a document made by `toJson` -/

/-- the loaded form of surface object `r` -/
def ld (w' : World P) (v : Nat × P) : LSurf P := ⟨v.2, some (w'.surfs v.1).info⟩

theorem dget_map {α β : Type} (f : α → β) (d : List (String × α)) (k : String) :
    dget (d.map fun e => (e.1, f e.2)) k = (dget d k).map f := by
  induction d with
  | nil => rfl
  | cons e d ih =>
    simp only [List.map_cons, dget]
    split_ifs
    · rfl
    · exact ih

theorem firstPass_step_fold (empty : P) (w' : World P) (c : Cache P) : ∀ (d : List (String × LSurf P)),
    (keys c).Nodup → (∀ k ∈ keys c, k ∉ keys d) →
    ((c.map fun e => (REntry.surface e.1 e.2.1 e.2.2 : REntry P S)).map (freeze w')).foldl (firstStep empty) d = d ++ c.map fun e => (e.1, ld w' e.2) := by
  induction c with
  | nil => intro d _ _; simp
  | cons e c ih =>
    intro d hn hd
    simp only [keys, List.map_cons, List.nodup_cons] at hn hd
    simp only [List.map_cons, List.foldl_cons, freeze, firstStep]
    have he : e.1 ∉ keys d := hd e.1 List.mem_cons_self
    rw [dset_absent _ _ _ he]
    rw [ih _ hn.2]
    · simp [rehydrate, ld]
    · intro k hk
      simp only [keys, List.map_append, List.map_cons, List.map_nil, List.mem_append, List.mem_singleton, not_or]
      refine ⟨hd k (List.mem_cons_of_mem _ hk), ?_⟩
      rintro rfl; exact hn.1 hk

theorem firstPass_doc (empty : P) (w' : World P) (xs : List (REntry P S)) (c : Cache P)
    (hx : ∀ x ∈ xs, x.notSurface) (hn : (keys c).Nodup) :
    firstPass empty ((xs ++ c.map fun e => (REntry.surface e.1 e.2.1 e.2.2 : REntry P S)).map (freeze w')) =
      c.map fun e => (e.1, ld w' e.2) := by
  unfold firstPass
  rw [List.map_append, List.foldl_append]
  have : (xs.map (freeze w')).foldl (firstStep empty) [] = [] := by
    induction xs with
    | nil => rfl
    | cons x xs ih =>
      rw [List.map_cons, List.foldl_cons]
      have hxx := hx x List.mem_cons_self
      have := ih (fun y hy => hx y (List.mem_cons_of_mem _ hy))
      cases x with
      | surface _ _ _ => exact absurd hxx (by simp [REntry.notSurface])
      | solid _ _ _ _ => exact this
      | sketch _ _ _ => exact this
  rw [this, firstPass_step_fold empty w' c [] hn (by simp [keys])]
  simp

theorem getSurfaces_ok (empty : P) (byId : List (String × Entry P S)) (surfs : List (String × LSurf P))
    (ids : List String) (ss : List (LSurf P)) (h : ids.map (dget surfs) = ss.map some) :
    getSurfaces empty byId surfs ids = .ok (ss, surfs) := by
  induction ids generalizing ss with
  | nil => cases ss with
    | nil => rfl
    | cons a b => simp at h
  | cons x xs ih => cases ss with
    | nil => simp at h
    | cons a b =>
      simp only [List.map_cons, List.cons.injEq] at h
      simp only [getSurfaces, getSurface, h.1, ih b h.2]

theorem getVoids_ok (empty : P) (byId : List (String × Entry P S)) (surfs : List (String × LSurf P))
    (ids : List (List String)) (ss : List (List (LSurf P))) (h : ids.map (·.map (dget surfs)) = ss.map (·.map some)) :
    getVoids empty byId surfs ids = .ok (ss, surfs) := by
  induction ids generalizing ss with
  | nil => cases ss with
    | nil => rfl
    | cons a b => simp at h
  | cons x xs ih => cases ss with
    | nil => simp at h
    | cons a b =>
      simp only [List.map_cons, List.cons.injEq] at h
      simp only [getVoids, getSurfaces_ok empty byId surfs x a h.1, ih b h.2]

/-- a solid as it comes back -/
def ldSolid (w w' : World P) (r : Nat) : LSolid P :=
  ⟨(refs (w.solids r).shell).map (fun i => ld w' (i, (w.surfs i).payload)),
   (w.solids r).slot2.map (fun v => (refs v).map fun i => ld w' (i, (w.surfs i).payload)), (w'.solids r).info⟩

/-- the solids among the entities -/
def solidRefs (es : List (Entity S)) : List Nat :=
  es.filterMap fun e => match e with
    | .solid r _ => some r
    | _ => none

theorem map_of_some {α β : Type} (f : α → β) (l : List (Option α)) (g : String → Option α) (ids : List String)
    (h : ids.map g = l) : ids.map (fun k => (g k).map f) = l.map (Option.map f) := by
  rw [← h, List.map_map]; rfl

theorem solids_match (w w' : World P) (c : Cache P) (xs : List (REntry P S)) (es : List (Entity S))
    (h : xs.filterMap (vR c) = es.filterMap (vE w)) (empty : P) (byId : List (String × Entry P S))
    (tail : List (Entry P S)) (ht : ∀ e ∈ tail, ∃ i m p, e = Entry.surface i m p)
    (hx : ∀ x ∈ xs, x.notSurface) :
    secondPass empty byId (c.map fun e => (e.1, ld w' e.2)) (xs.map (freeze w') ++ tail) =
      .ok ((solidRefs es).map (ldSolid w w'), c.map fun e => (e.1, ld w' e.2)) := by
  induction xs generalizing es with
  | nil =>
    have hes : solidRefs es = [] := by
      unfold solidRefs
      rw [List.filterMap_eq_nil_iff]
      intro e he
      rw [List.filterMap_nil, eq_comm, List.filterMap_eq_nil_iff] at h
      have := h e he
      cases e <;> simp_all [vE]
    rw [hes, List.map_nil, List.nil_append, List.map_nil]
    induction tail with
    | nil => rfl
    | cons t ts ih =>
      obtain ⟨i, m, p, rfl⟩ := ht t List.mem_cons_self
      simp only [secondPass]
      exact ih (fun e he => ht e (List.mem_cons_of_mem _ he))
  | cons x xs ih =>
    have hxx := hx x List.mem_cons_self
    have hxs : ∀ y ∈ xs, y.notSurface := fun y hy => hx y (List.mem_cons_of_mem _ hy)
    cases x with
    | surface _ _ _ => exact absurd hxx (by simp [REntry.notSurface])
    | sketch i l d =>
      rw [List.map_cons, List.cons_append]
      simp only [freeze, secondPass]
      exact ih es (by rw [← h]; rfl) hxs
    | solid sid r sh vs =>
      rw [List.map_cons, List.cons_append]
      -- skip to the first solid of `es`
      have hstrip : ∃ (ov : Override) (es' : List (Entity S)), solidRefs es = r :: solidRefs es' ∧
          vE w (Entity.solid (S := S) r ov) = vR c (REntry.solid (S := S) sid r sh vs) ∧
          xs.filterMap (vR c) = es'.filterMap (vE w) := by
        clear ih ht
        induction es with
        | nil => simp [vR] at h
        | cons e es ihe =>
          cases e with
          | solid r' ov =>
            simp only [List.filterMap_cons, vR, vE, List.cons.injEq, Prod.mk.injEq] at h
            obtain ⟨⟨h1, h2, h3⟩, h4⟩ := h
            subst h1
            refine ⟨ov, es, rfl, ?_, h4⟩
            simp only [vR, vE, h2, h3]
          | surface r' ov =>
            obtain ⟨a, b, h1, h2, h3⟩ := ihe h
            exact ⟨a, b, h1, h2, h3⟩
          | sketch r' ov =>
            obtain ⟨a, b, h1, h2, h3⟩ := ihe h
            exact ⟨a, b, h1, h2, h3⟩
          | other =>
            obtain ⟨a, b, h1, h2, h3⟩ := ihe h
            exact ⟨a, b, h1, h2, h3⟩
      obtain ⟨ov, es', h1, h2, h3⟩ := hstrip
      simp only [vR, vE, Option.some.injEq, Prod.mk.injEq, true_and] at h2
      obtain ⟨h2a, h2b⟩ := h2
      have hg : dget (c.map fun e => (e.1, ld w' e.2)) = fun k => (dget c k).map (ld w') := by
        funext k; exact dget_map (ld w') c k
      have hsh : sh.map (dget (c.map fun e => (e.1, ld w' e.2))) =
          ((refs (w.solids r).shell).map (fun i => ld w' (i, (w.surfs i).payload))).map some := by
        rw [hg, map_of_some (ld w') _ _ _ h2a.symm, List.map_map, List.map_map]
        rfl
      have hvs : vs.map (·.map (dget (c.map fun e => (e.1, ld w' e.2)))) =
          ((w.solids r).slot2.map (fun v => (refs v).map fun i => ld w' (i, (w.surfs i).payload))).map (·.map some) := by
        rw [hg]
        have : (vs.map fun v => v.map fun k => (dget c k).map (ld w')) =
            (vs.map (·.map (dget c))).map (·.map (Option.map (ld w'))) := by
          rw [List.map_map]
          apply List.map_congr_left
          intro v _
          simp [Function.comp_def]
        rw [this, ← h2b]
        simp only [List.map_map]
        apply List.map_congr_left
        intro v _
        simp [Function.comp_def]
      simp only [freeze, secondPass, getSurfaces_ok empty byId _ sh _ hsh, getVoids_ok empty byId _ vs _ hvs,
        ih es' h3 hxs, h1, List.map_cons]
      rfl

theorem freeze_id (w : World P) (x : REntry P S) : (freeze w x).id = x.id := by cases x <;> rfl

/-- loading what was exported -/
theorem fromJson_toJson (empty : P) {w w' : World P} {es : List (Entity S)} {doc : List (Entry P S)}
    (h : toJson w es = some (doc, w')) (hw : IdsOk w) (ho : ∀ e ∈ es, e.ov.eid ≠ some "") :
    ∃ xs c, serializeAll w [] es = some (xs, w', c) ∧
      fromJson empty doc = .ok (if solidRefs es ≠ [] then .solids ((solidRefs es).map (ldSolid w w'))
        else if es.filterMap Entity.sk ≠ [] then .sketches (es.filterMap Entity.sk)
        else .surfaces (c.map fun e => ld w' e.2)) := by
  unfold toJson at h
  cases hs : serializeAll w [] es with
  | none => rw [hs] at h; simp at h
  | some q =>
    obtain ⟨xs, w1, c⟩ := q
    rw [hs] at h
    simp only [Option.some.injEq, Prod.mk.injEq] at h
    obtain ⟨rfl, rfl⟩ := h
    have a := serializeAll_spec hs
    obtain ⟨i1, i2, i3⟩ := a.ids hw ho (by simp [keys])
    have hn := a.step.nod (by simp [keys])
    refine ⟨xs, c, rfl, ?_⟩
    have hid : (((xs ++ c.map fun (e : String × Nat × P) => (REntry.surface e.1 e.2.1 e.2.2 : REntry P S)).map
        (freeze w1)).any fun e => decide (e.id = "")) = false := by
      rw [List.any_eq_false]
      intro e he
      rw [List.mem_map] at he
      obtain ⟨x, hx, rfl⟩ := he
      rw [freeze_id, decide_eq_true_eq]
      rcases List.mem_append.mp hx with hx | hx
      · exact i3 x hx
      · rw [List.mem_map] at hx
        obtain ⟨e, he, rfl⟩ := hx
        exact i2 e.1 (List.mem_map_of_mem he)
    unfold fromJson
    rw [if_neg (by rw [hid]; simp), firstPass_doc empty w1 xs c a.ns hn]
    rw [show ((xs ++ c.map fun (e : String × Nat × P) => (REntry.surface e.1 e.2.1 e.2.2 : REntry P S)).map (freeze w1)) =
      xs.map (freeze w1) ++ (c.map fun (e : String × Nat × P) => (REntry.surface e.1 e.2.1 e.2.2 : REntry P S)).map (freeze w1)
      from List.map_append]
    rw [solids_match w w1 c xs es (a.view c (fun _ _ h => h)) empty _ _ ?_ a.ns]
    · have hsk : sketchesOf (xs.map (freeze w1) ++
          (c.map fun (e : String × Nat × P) => (REntry.surface e.1 e.2.1 e.2.2 : REntry P S)).map (freeze w1)) =
          es.filterMap Entity.sk := by
        rw [← a.sk]
        unfold sketchesOf
        rw [List.filterMap_append]
        have h1 : ∀ l : List (REntry P S), (l.map (freeze w1)).filterMap Entry.sketch? = l.filterMap REntry.sk := by
          intro l
          rw [List.filterMap_map]
          apply List.filterMap_congr
          intro x _
          cases x <;> rfl
        rw [h1, h1, List.filterMap_map]
        have : (c.filterMap (REntry.sk ∘ fun (e : String × Nat × P) => (REntry.surface e.1 e.2.1 e.2.2 : REntry P S))) = [] := by
          rw [List.filterMap_eq_nil_iff]; intro e _; rfl
        rw [this, List.append_nil]
      dsimp only
      rw [hsk]
      by_cases hr : solidRefs es = []
      · rw [hr]
        by_cases hk : es.filterMap Entity.sk = []
        · rw [hk]; simp
        · simp [hk]
      · simp [hr]
    · intro e he
      rw [List.map_map, List.mem_map] at he
      obtain ⟨x, _, rfl⟩ := he
      exact ⟨_, _, _, rfl⟩

/-- **C36** (round trip). Whatever list of entities is exported, including solids that share surface objects or
whose surfaces carry equal ids: if there is a solid among them, loading the document gives back the solids, in
order, each with the same surfaces (vertices, normals, faces) and voids in the same order. -/
theorem C36_round_trip (empty : P) {w w' : World P} {es : List (Entity S)} {doc : List (Entry P S)}
    (h : toJson w es = some (doc, w')) (hw : IdsOk w) (ho : ∀ e ∈ es, e.ov.eid ≠ some "")
    (hs : ∃ r ov, Entity.solid r ov ∈ es) :
    ∃ ls, fromJson empty doc = .ok (.solids ls) ∧ loadedContents ls = solidContents w es := by
  obtain ⟨xs, c, h1, h2⟩ := fromJson_toJson empty h hw ho
  obtain ⟨r, ov, hr⟩ := hs
  have hne : solidRefs es ≠ [] := by
    intro h0
    unfold solidRefs at h0
    rw [List.filterMap_eq_nil_iff] at h0
    simpa using h0 _ hr
  rw [if_pos hne] at h2
  refine ⟨_, h2, ?_⟩
  unfold loadedContents solidContents solidRefs
  rw [List.map_map, List.map_filterMap]
  apply List.filterMap_congr
  intro e _
  cases e with
  | solid r ov =>
    simp only [Option.map_some, Function.comp_apply, ldSolid, ld, List.map_map, payloads, Option.some.injEq, Prod.mk.injEq]
    refine ⟨rfl, ?_⟩
    apply List.map_congr_left
    intro v _
    simp [Function.comp_def, payloads]
  | _ => rfl

/-- **C36** (references). In the exported document every surface is listed under an id of its own, and every id
a solid refers to is listed. -/
theorem C36_references {w w' : World P} {es : List (Entity S)} {doc : List (Entry P S)}
    (h : toJson w es = some (doc, w')) :
    (surfaceIds doc).Nodup ∧ ∀ i ∈ referencedIds doc, i ∈ surfaceIds doc := by
  unfold toJson at h
  cases hs : serializeAll w [] es with
  | none => rw [hs] at h; simp at h
  | some q =>
    obtain ⟨xs, w1, c⟩ := q
    rw [hs] at h
    simp only [Option.some.injEq, Prod.mk.injEq] at h
    obtain ⟨rfl, rfl⟩ := h
    have a := serializeAll_spec hs
    have hn := a.step.nod (by simp [keys])
    have hids : surfaceIds ((xs ++ c.map fun (e : String × Nat × P) => (REntry.surface e.1 e.2.1 e.2.2 : REntry P S)).map (freeze w1)) =
        keys c := by
      unfold surfaceIds
      rw [List.filterMap_map, List.filterMap_append]
      have h1 : xs.filterMap (Entry.surfaceId? ∘ freeze w1) = [] := by
        rw [List.filterMap_eq_nil_iff]
        intro x hx
        have := a.ns x hx
        cases x with
        | surface _ _ _ => exact absurd this (by simp [REntry.notSurface])
        | _ => rfl
      rw [h1, List.nil_append, List.filterMap_map]
      unfold keys
      rw [← List.filterMap_eq_map]
      apply List.filterMap_congr
      intro e _
      rfl
    refine ⟨by rw [hids]; exact hn, ?_⟩
    intro i hi
    rw [hids]
    unfold referencedIds at hi
    rw [List.mem_flatMap] at hi
    obtain ⟨e, he, hie⟩ := hi
    rw [List.mem_map] at he
    obtain ⟨x, hx, rfl⟩ := he
    rcases List.mem_append.mp hx with hx | hx
    · cases x with
      | surface _ _ _ => simp [freeze] at hie
      | sketch _ _ _ => simp [freeze] at hie
      | solid sid r sh vs =>
        simp only [freeze] at hie
        have hv := a.view c (fun _ _ h => h)
        have hm : (r, sh.map (dget c), vs.map (·.map (dget c))) ∈ es.filterMap (vE w) := by
          rw [← hv, List.mem_filterMap]
          exact ⟨_, hx, rfl⟩
        rw [List.mem_filterMap] at hm
        obtain ⟨e, _, he⟩ := hm
        rw [mem_keys]
        cases e with
        | solid r' ov =>
          simp only [vE, Option.some.injEq, Prod.mk.injEq] at he
          obtain ⟨_, h2, h3⟩ := he
          rcases List.mem_append.mp hie with hie | hie
          · have : dget c i ∈ sh.map (dget c) := List.mem_map_of_mem hie
            rw [← h2, List.mem_map] at this
            obtain ⟨j, _, hj⟩ := this
            rw [← hj]; rfl
          · rw [List.mem_flatten] at hie
            obtain ⟨v, hv, hiv⟩ := hie
            have : v.map (dget c) ∈ vs.map (·.map (dget c)) := List.mem_map_of_mem hv
            rw [← h3, List.map_map, List.mem_map] at this
            obtain ⟨l, _, hl⟩ := this
            have : dget c i ∈ v.map (dget c) := List.mem_map_of_mem hiv
            rw [← hl, Function.comp_apply, List.mem_map] at this
            obtain ⟨j, _, hj⟩ := this
            rw [← hj]; rfl
        | surface _ _ => simp [vE] at he
        | sketch _ _ => simp [vE] at he
        | other => simp [vE] at he
    · rw [List.mem_map] at hx
      obtain ⟨e, _, rfl⟩ := hx
      simp [freeze] at hie

/-- **C99** (partial: proved when no surface object occurs twice). Every surface entry of the document carries
its own id in its metadata, so that reloaded surfaces keep the ids they are listed under. -/
theorem C99_metadata_id_partial {w w' : World P} {es : List (Entity S)} {doc : List (Entry P S)}
    (h : toJson w es = some (doc, w')) (hn : (es.flatMap (Entity.refs w)).Nodup) :
    ∀ i m p, Entry.surface i m p ∈ doc → m.eid = some i := by
  intro i m p hi
  unfold toJson at h
  cases hs : serializeAll w [] es with
  | none => rw [hs] at h; simp at h
  | some q =>
    obtain ⟨xs, w1, c⟩ := q
    rw [hs] at h
    simp only [Option.some.injEq, Prod.mk.injEq] at h
    obtain ⟨rfl, rfl⟩ := h
    have a := serializeAll_spec hs
    have hc := a.step.nod (by simp [keys])
    rw [List.mem_map] at hi
    obtain ⟨x, hx, hxe⟩ := hi
    rcases List.mem_append.mp hx with hx | hx
    · have := a.ns x hx
      cases x with
      | surface _ _ _ => exact absurd this (by simp [REntry.notSurface])
      | _ => simp [freeze] at hxe
    · rw [List.mem_map] at hx
      obtain ⟨⟨k, r, q⟩, hm, rfl⟩ := hx
      simp only [freeze, Entry.surface.injEq] at hxe
      obtain ⟨rfl, rfl, rfl⟩ := hxe
      have hd := dget_of_mem hc hm
      rcases a.cached hn _ _ hd with h0 | h0
      · simp [dget] at h0
      · exact h0.2

end Verif.GeoJson
