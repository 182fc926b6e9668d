import Verif.GeoJson.Main

/-! # Geometry JSON: layers, what gets lost, rejection of incomplete documents -/

namespace Verif.GeoJson
open Verif.Dict

variable {P S : Type}

theorem ovLayer_eq (own : String) (ov : Override) : ovLayer own ov = solidLayer own ov := by
  unfold ovLayer solidLayer
  cases ov.layer with
  | none => simp only [Option.getD_none]; split_ifs <;> simp_all
  | some l => simp only [Option.getD_some]

theorem solidLayer_ne (own : String) (ov : Override) : solidLayer own ov ≠ "" := by
  unfold solidLayer
  cases ov.layer with
  | none => dsimp only; split_ifs <;> simp_all
  | some l => dsimp only; split_ifs <;> simp_all

theorem childLayer_eq (own parent : String) (ov : Override) (hp : parent ≠ "") :
    childLayer own parent ov = surfaceLayer own parent ov := by
  unfold childLayer surfOverride surfaceLayer
  split_ifs with h
  · rw [ovLayer_eq]; simp [solidLayer, hp]
  · rw [ovLayer_eq]
    unfold solidLayer
    cases ov.layer with
    | none =>
      have : own ≠ "" := fun h0 => h (Or.inl h0)
      simp [this]
    | some l => rfl

/-- **C102**. When no surface object occurs twice: on export every surface of a solid that has no layer of its own
takes the solid's layer, every other surface keeps its layer (or takes the layer named by the export). -/
theorem C102_layers {w w' : World P} {es : List (Entity S)} {doc : List (Entry P S)}
    (h : toJson w es = some (doc, w')) (hn : (es.flatMap (Entity.refs w)).Nodup) :
    ∀ r ov, Entity.solid r ov ∈ es → ∀ i ∈ Entity.refs (S := S) w (.solid r ov),
      (w'.surfs i).info.layer =
        surfaceLayer (w.surfs i).info.layer (solidLayer (w.solids r).info.layer ov) ov := by
  unfold toJson at h
  cases hs : serializeAll w [] es with
  | none => rw [hs] at h; simp at h
  | some q =>
    obtain ⟨xs, w1, c⟩ := q
    rw [hs] at h
    simp only [Option.some.injEq, Prod.mk.injEq] at h
    obtain ⟨hdoc, rfl⟩ := h
    clear hdoc doc
    generalize hc0 : ([] : Cache P) = c0 at hs
    clear hc0
    induction es generalizing w c0 xs with
    | nil => intro r ov hr; simp at hr
    | cons e es ih =>
      intro r ov hr i hi
      simp only [serializeAll] at hs
      cases h1 : serializeOne w c0 e with
      | none => rw [h1] at hs; simp at hs
      | some q =>
        obtain ⟨x1, wa, c1⟩ := q
        rw [h1] at hs
        dsimp only at hs
        cases h2 : serializeAll wa c1 es with
        | none => rw [h2] at hs; simp at hs
        | some q2 =>
          obtain ⟨x2, wb, c2⟩ := q2
          rw [h2] at hs
          simp only [Option.some.injEq, Prod.mk.injEq] at hs
          obtain ⟨_, rfl, rfl⟩ := hs
          have a := serializeOne_spec h1
          have b := serializeAll_spec h2
          have hrf : es.flatMap (Entity.refs wa) = es.flatMap (Entity.refs w) := by
            rw [List.flatMap_congr]; intro x _; exact refs_step a.step x
          rw [List.flatMap_cons, List.nodup_append] at hn
          by_cases hmem : Entity.solid r ov ∈ es
          · have hie : i ∈ es.flatMap (Entity.refs w) := List.mem_flatMap.mpr ⟨_, hmem, hi⟩
            have hine : i ∉ e.refs w := fun hh => hn.2.2 i hh i hie rfl
            have := ih (w := wa) (by rw [hrf]; exact hn.2.1) x2 c1 h2 r ov hmem i
              (by rw [refs_step a.step]; exact hi)
            rw [this, a.frame i hine, a.solids r]
            intro ov' he
            apply hine
            rw [he]; exact hi
          · have he : e = .solid r ov := by
              rcases List.mem_cons.mp hr with h | h
              · exact h.symm
              · exact absurd h hmem
            subst he
            have hne : i ∉ es.flatMap (Entity.refs w) := fun hh => hn.2.2 i hi i hh rfl
            rw [b.frame i (by rw [hrf]; exact hne)]
            simp only [serializeOne] at h1
            cases h3 : serializeSolid (S := S) w c0 r ov with
            | none => rw [h3] at h1; simp at h1
            | some q3 =>
              obtain ⟨e3, w3, c3⟩ := q3
              rw [h3] at h1
              simp only [Option.some.injEq, Prod.mk.injEq] at h1
              obtain ⟨_, rfl, rfl⟩ := h1
              obtain ⟨_, _, _, _, s5, _⟩ := serializeSolid_spec h3
              obtain ⟨id, _, hinfo⟩ := s5 hn.1 i hi
              rw [hinfo, ovLayer_eq]
              exact childLayer_eq _ _ _ (solidLayer_ne _ _)

/-! ### What gets lost -/

/-- plain surfaces, each with an id of its own and no override -/
def plain (rs : List Nat) : List (Entity S) := rs.map fun r => .surface r {}

theorem serializeAll_plain (w : World P) (ids : Nat → String) :
    ∀ (rs : List Nat) (w0 : World P) (c : Cache P),
      (∀ r ∈ rs, (w0.surfs r).info.eid = some (ids r)) → rs.Nodup → (rs.map ids).Nodup → (∀ r ∈ rs, ids r ∉ keys c) →
      (∀ r, (w0.surfs r).payload = (w.surfs r).payload) →
      ∃ w', serializeAll (S := S) w0 c (plain rs) = some ([], w', c ++ rs.map fun r => (ids r, r, (w.surfs r).payload)) ∧
        (∀ r, r ∉ rs → w'.surfs r = w0.surfs r) ∧ ∀ r ∈ rs, (w'.surfs r).info.eid = some (ids r) := by
  intro rs
  induction rs with
  | nil => intro w0 c _ _ _ _ _; exact ⟨w0, by simp [plain, serializeAll], fun _ _ => rfl, by simp⟩
  | cons r rs ih =>
    intro w0 c hid hnd hnod hk hp
    have hr := hid r List.mem_cons_self
    have hser : ∃ w1, serializeSurface w0 r {} = some (ids r, w1) := by
      refine ⟨w0.setSurf r (fixLayer (applyOv (fixLayer (w0.surfs r).info) {})) w0.fresh, ?_⟩
      unfold serializeSurface ensureId
      rw [hr]
      simp only [Option.some.injEq, Prod.mk.injEq, and_true]
      rw [fixLayer_eid]; simp [applyOv, fixLayer_eid, hr]
    obtain ⟨w1, h1⟩ := hser
    obtain ⟨s1, s2, s3, _, _⟩ := serializeSurface_spec h1 c
    rw [List.nodup_cons] at hnd
    rw [List.map_cons, List.nodup_cons] at hnod
    have hkr : ids r ∉ keys c := hk r List.mem_cons_self
    have hset : setDefault c (ids r) (r, (w1.surfs r).payload) = c ++ [(ids r, r, (w.surfs r).payload)] := by
      unfold setDefault
      rw [dget_none.mpr hkr]
      dsimp only
      rw [dset_absent _ _ _ hkr, s1.pay, hp]
    obtain ⟨w', e1, e2, e3⟩ := ih w1 (c ++ [(ids r, r, (w.surfs r).payload)])
      (fun q hq => by rw [s3 q (fun hh => hnd.1 (hh ▸ hq))]; exact hid q (List.mem_cons_of_mem _ hq))
      hnd.2 hnod.2
      (fun q hq => by
        simp only [keys, List.map_append, List.map_cons, List.map_nil, List.mem_append, List.mem_singleton, not_or]
        exact ⟨hk q (List.mem_cons_of_mem _ hq), fun hh => hnod.1 (hh ▸ List.mem_map_of_mem hq)⟩)
      (fun q => (s1.pay q).trans (hp q))
    refine ⟨w', ?_, ?_, ?_⟩
    · rw [plain, List.map_cons, serializeAll]
      simp only [serializeOne, h1, hset]
      rw [show rs.map (fun r => (Entity.surface r {} : Entity S)) = plain rs from rfl, e1]
      simp
    · intro q hq
      simp only [List.mem_cons, not_or] at hq
      rw [e2 q hq.2, s3 q hq.1]
    · intro q hq
      rcases List.mem_cons.mp hq with rfl | hq
      · rw [e2 q hnd.1]; exact s2
      · exact e3 q hq

/-- **C98** (partial: documents of surfaces only, with distinct ids). All the surfaces come back, in order, with
their ids. -/
theorem C98_surfaces_partial (empty : P) (w : World P) (ids : Nat → String) (rs : List Nat)
    (hw : IdsOk w) (hid : ∀ r ∈ rs, (w.surfs r).info.eid = some (ids r)) (hr : rs.Nodup) (hd : (rs.map ids).Nodup) :
    ∃ doc w' ls, toJson (S := S) w (plain rs) = some (doc, w') ∧ fromJson empty doc = .ok (.surfaces ls) ∧
      ls.map (·.payload) = rs.map (fun r => (w.surfs r).payload) ∧
      ls.map (fun s => s.info.bind (·.eid)) = rs.map (fun r => some (ids r)) := by
  obtain ⟨w', h1, _, h3⟩ := serializeAll_plain (S := S) w ids rs w [] hid hr hd (by simp [keys]) (fun _ => rfl)
  obtain ⟨doc, ht⟩ : ∃ doc, toJson (S := S) w (plain rs) = some (doc, w') := by
    unfold toJson; rw [h1]; exact ⟨_, rfl⟩
  obtain ⟨xs, c, e1, e2⟩ := fromJson_toJson empty ht hw (by
    intro e he
    unfold plain at he
    rw [List.mem_map] at he
    obtain ⟨r, _, rfl⟩ := he
    simp [Entity.ov])
  rw [h1] at e1
  simp only [Option.some.injEq, Prod.mk.injEq] at e1
  obtain ⟨_, _, rfl⟩ := e1
  have hsr : solidRefs (plain (S := S) rs) = [] := by
    unfold solidRefs plain
    rw [List.filterMap_map, List.filterMap_eq_nil_iff]; intro r _; rfl
  have hsk : (plain (S := S) rs).filterMap Entity.sk = [] := by
    unfold plain
    rw [List.filterMap_map, List.filterMap_eq_nil_iff]; intro r _; rfl
  rw [hsr, hsk] at e2
  refine ⟨_, w', _, ht, by simpa using e2, ?_, ?_⟩
  · simp [ld, Function.comp_def]
  · rw [List.map_map]
    simp only [List.nil_append, List.map_map, List.map_inj_left, Function.comp_apply, ld, Option.bind_some]
    exact fun r hr => h3 r hr

/-- a store for examples: surfaces 0, 1 and 2 with payloads 10, 11 and 12 and the given ids, solids 0 and 1 -/
def demo (a b c : Option String) (s0 s1 : Solid) (fresh : List String) : World Nat :=
  { surfs := fun i => match i with
      | 0 => ⟨10, ⟨a, "default"⟩⟩
      | 1 => ⟨11, ⟨b, "default"⟩⟩
      | _ => ⟨12, ⟨c, "default"⟩⟩,
    solids := fun i => match i with
      | 0 => s0
      | _ => s1,
    fresh := fresh }

/-- export followed by import -/
def roundTrip (w : World P) (empty : P) (es : List (Entity S)) : Option (Except LErr (Loaded P S)) :=
  (toJson w es).map fun d => fromJson empty d.1

/-- a document's entries -/
def docOf (w : World P) (es : List (Entity S)) : Option (List (Entry P S)) := (toJson w es).map (·.1)

def oneSolid (rs : List Nat) (id : String) : Solid := ⟨rs.map .surf, [], ⟨some id, "metal"⟩⟩

/-- **C98** (violated). Exporting a solid, a sketch and a free-standing surface: only the solid comes back. -/
theorem C98_others_dropped :
    roundTrip (S := String) (demo (some "a") (some "b") (some "c") (oneSolid [0] "s") (oneSolid [] "t") ["u1", "u2"]) 0
      [.solid 0 {}, .sketch "drawing" {}, .surface 1 {}] =
    some (.ok (.solids [⟨[⟨10, some ⟨some "a", "metal"⟩⟩], [], ⟨some "s", "metal"⟩⟩])) := by decide +kernel

/-- **C98** (violated). Of two free-standing surfaces with the same id (for instance a surface and its translated
copy, which keeps the metadata) only the first is exported. -/
theorem C98_same_id_dropped :
    roundTrip (S := String) (demo (some "a") (some "a") (some "c") (oneSolid [] "s") (oneSolid [] "t") ["u1", "u2"]) 0
      [.surface 0 {}, .surface 1 {}] =
    some (.ok (.surfaces [⟨10, some ⟨some "a", "default"⟩⟩])) := by decide +kernel

/-- **C99** (violated when solids share a surface object). The shared surface is exported under `a` and `u1`, but
both entries then carry the id `u1` in their metadata. -/
theorem C99_shared_surface_id :
    docOf (S := String) (demo (some "a") (some "b") (some "c") (oneSolid [0] "s") (oneSolid [0] "t") ["u1", "u2"])
      [.solid 0 {}, .solid 1 {}] =
    some [.solid "s" ⟨some "s", "metal"⟩ ["a"] [], .solid "t" ⟨some "t", "metal"⟩ ["u1"] [],
      .surface "a" ⟨some "u1", "metal"⟩ 10, .surface "u1" ⟨some "u1", "metal"⟩ 10] := by decide +kernel

/-- **C100** (violated). Solids with equal ids (a solid and its copy keep the same `entityId`) are exported under
the same id; surface ids are unique only among surfaces. -/
theorem C100_solid_ids_clash :
    (docOf (S := String) (demo (some "a") (some "b") (some "c") (oneSolid [0] "s") (oneSolid [1] "s") ["u1", "u2"])
      [.solid 0 {}, .solid 1 {}]).map (·.map Entry.id) = some ["s", "s", "a", "b"] := by decide +kernel

/-- **C101** (violated). What a solid holds in its third slot besides lists of surfaces (for example the name of a
material, `solid(surfaces, material)`) does not survive: the slot comes back as voids without surfaces. -/
theorem C101_material_lost :
    roundTrip (S := String) (demo (some "a") (some "b") (some "c") ⟨[.surf 0], [[.junk, .junk]], ⟨some "s", "metal"⟩⟩
      (oneSolid [] "t") ["u1"]) 0 [.solid 0 {}] =
    some (.ok (.solids [⟨[⟨10, some ⟨some "a", "metal"⟩⟩], [[]], ⟨some "s", "metal"⟩⟩])) := by decide +kernel

/-- the round trip theorem applies to solids that share a surface and surfaces that repeat an id -/
example : ∃ doc w', toJson (S := String) (demo (some "a") (some "a") none (oneSolid [0, 1, 2] "s") (oneSolid [0] "t")
      ["a", "u1", "u2", "u3"]) [.solid 0 {}, .surface 2 {}, .solid 1 {}] = some (doc, w') ∧
    IdsOk (demo (some "a") (some "a") none (oneSolid [0, 1, 2] "s") (oneSolid [0] "t") ["a", "u1", "u2", "u3"]) := by
  refine ⟨_, _, rfl, ⟨?_, ?_, ?_⟩⟩
  · intro r; rcases r with _ | _ | r <;> simp [demo]
  · intro r; rcases r with _ | r <;> simp [demo, oneSolid]
  · simp [demo]

/-- the hypotheses of `C99_metadata_id_partial` and `C102_layers` are met by two solids of three surfaces, one of
them with a layer of its own -/
example : (([.solid 0 {}, .solid 1 {}] : List (Entity String)).flatMap
    (Entity.refs (demo (some "a") (some "a") none (oneSolid [0, 2] "s") (oneSolid [1] "t") ["u1", "u2"]))).Nodup ∧
    (toJson (S := String) (demo (some "a") (some "a") none (oneSolid [0, 2] "s") (oneSolid [1] "t") ["u1", "u2"])
      [.solid 0 {}, .solid 1 {}]).isSome = true := by
  refine ⟨by decide +kernel, by decide +kernel⟩

/-! ### Incomplete documents -/

theorem dget_foldl_id (doc : List (Entry P S)) (d : List (String × Entry P S)) (k : String) :
    (dget (doc.foldl (fun d e => dset d e.id e) d) k).isSome ↔ (dget d k).isSome ∨ ∃ e ∈ doc, e.id = k := by
  induction doc generalizing d with
  | nil => simp
  | cons e doc ih =>
    rw [List.foldl_cons, ih, dget_dset]
    by_cases h : k = e.id
    · subst h; simp
    · rw [if_neg h]
      have : ¬ e.id = k := fun hh => h hh.symm
      simp [this]

theorem firstPass_keys (empty : P) (doc : List (Entry P S)) (d : List (String × LSurf P)) (k : String)
    (h : (dget (doc.foldl (firstStep empty) d) k).isSome) : (dget d k).isSome ∨ ∃ e ∈ doc, e.id = k := by
  induction doc generalizing d with
  | nil => exact Or.inl h
  | cons e doc ih =>
    rw [List.foldl_cons] at h
    rcases ih _ h with h1 | ⟨e', h1, h2⟩
    · cases e with
      | surface i m p =>
        simp only [firstStep, dget_dset] at h1
        split_ifs at h1 with hk
        · exact Or.inr ⟨_, List.mem_cons_self, hk.symm⟩
        · exact Or.inl h1
      | solid _ _ _ _ => exact Or.inl h1
      | sketch _ _ _ => exact Or.inl h1
    · exact Or.inr ⟨e', List.mem_cons_of_mem _ h1, h2⟩

/-- the surface table only ever holds ids of the document -/
def Sub (byId : List (String × Entry P S)) (surfs : List (String × LSurf P)) : Prop :=
  ∀ k, (dget surfs k).isSome → (dget byId k).isSome

theorem getSurfaces_iff (empty : P) (byId : List (String × Entry P S)) : ∀ (ids : List String) (surfs : List (String × LSurf P)),
    Sub byId surfs →
    ((∀ i ∈ ids, (dget byId i).isSome) → ∃ ss s', getSurfaces empty byId surfs ids = .ok (ss, s') ∧ Sub byId s' ∧ ss.length = ids.length) ∧
    (∀ ss s', getSurfaces empty byId surfs ids = .ok (ss, s') → Sub byId s' ∧ ∀ i ∈ ids, (dget byId i).isSome) ∧
    (∀ e, getSurfaces empty byId surfs ids = .error e → ∃ i ∈ ids, e = .missingSurface i ∧ dget byId i = none) := by
  intro ids
  induction ids with
  | nil =>
    intro surfs hs
    refine ⟨fun _ => ⟨_, _, rfl, hs, rfl⟩, fun ss s' h => ?_, fun e h => by simp [getSurfaces] at h⟩
    simp only [getSurfaces, Except.ok.injEq, Prod.mk.injEq] at h
    rw [← h.2]; exact ⟨hs, by simp⟩
  | cons i ids ih =>
    intro surfs hs
    have hstep : (∃ s s1, getSurface empty byId surfs i = .ok (s, s1) ∧ Sub byId s1 ∧ (dget byId i).isSome) ∨
        (getSurface empty byId surfs i = .error (.missingSurface i) ∧ dget byId i = none) := by
      unfold getSurface
      cases h : dget surfs i with
      | some s => exact Or.inl ⟨s, surfs, rfl, hs, hs i (by rw [h]; rfl)⟩
      | none =>
        cases h2 : dget byId i with
        | none => exact Or.inr ⟨rfl, rfl⟩
        | some e =>
          refine Or.inl ⟨_, _, rfl, ?_, rfl⟩
          intro k hk
          rw [dget_dset] at hk
          split_ifs at hk with hh
          · rw [hh, h2]; rfl
          · exact hs k hk
    simp only [getSurfaces]
    rcases hstep with ⟨s, s1, h1, h2, h3⟩ | ⟨h1, h2⟩
    · rw [h1]
      dsimp only
      obtain ⟨i1, i2, i3⟩ := ih s1 h2
      refine ⟨fun ha => ?_, fun ss s' h => ?_, fun e h => ?_⟩
      · obtain ⟨ss, s', e1, e2, e3⟩ := i1 (fun j hj => ha j (List.mem_cons_of_mem _ hj))
        rw [e1]
        exact ⟨_, _, rfl, e2, by simp [e3]⟩
      · cases hg : getSurfaces empty byId s1 ids with
        | error e => rw [hg] at h; simp at h
        | ok q =>
          rw [hg] at h
          obtain ⟨q1, q2⟩ := q
          simp only [Except.ok.injEq, Prod.mk.injEq] at h
          obtain ⟨a, b⟩ := i2 q1 q2 hg
          rw [← h.2]
          refine ⟨a, fun j hj => ?_⟩
          rcases List.mem_cons.mp hj with rfl | hj
          · exact h3
          · exact b j hj
      · cases hg : getSurfaces empty byId s1 ids with
        | error e' =>
          rw [hg] at h
          obtain ⟨j, hj, hj2⟩ := i3 e' hg
          simp only [Except.error.injEq] at h
          rw [← h]
          exact ⟨j, List.mem_cons_of_mem _ hj, hj2⟩
        | ok q => rw [hg] at h; simp at h
    · rw [h1]
      dsimp only
      refine ⟨fun ha => ?_, fun ss s' h => by simp at h, fun e h => ?_⟩
      · have := ha i List.mem_cons_self
        rw [h2] at this; simp at this
      · simp only [Except.error.injEq] at h
        exact ⟨i, List.mem_cons_self, h.symm, h2⟩

theorem getVoids_iff (empty : P) (byId : List (String × Entry P S)) : ∀ (vs : List (List String)) (surfs : List (String × LSurf P)),
    Sub byId surfs →
    ((∀ i ∈ vs.flatten, (dget byId i).isSome) → ∃ ss s', getVoids empty byId surfs vs = .ok (ss, s') ∧ Sub byId s' ∧ ss.map (·.length) = vs.map (·.length)) ∧
    (∀ ss s', getVoids empty byId surfs vs = .ok (ss, s') → Sub byId s' ∧ ∀ i ∈ vs.flatten, (dget byId i).isSome) ∧
    (∀ e, getVoids empty byId surfs vs = .error e → ∃ i ∈ vs.flatten, e = .missingSurface i ∧ dget byId i = none) := by
  intro vs
  induction vs with
  | nil =>
    intro surfs hs
    refine ⟨fun _ => ⟨_, _, rfl, hs, rfl⟩, fun ss s' h => ?_, fun e h => by simp [getVoids] at h⟩
    simp only [getVoids, Except.ok.injEq, Prod.mk.injEq] at h
    rw [← h.2]; exact ⟨hs, by simp⟩
  | cons v vs ih =>
    intro surfs hs
    obtain ⟨g1, g2, g3⟩ := getSurfaces_iff empty byId v surfs hs
    simp only [getVoids, List.flatten_cons, List.mem_append]
    cases hv : getSurfaces empty byId surfs v with
    | error e =>
      obtain ⟨i, hi, he, hb⟩ := g3 e hv
      dsimp only
      refine ⟨fun ha => ?_, fun ss s' h => by simp at h, fun e' h => ?_⟩
      · have := ha i (Or.inl hi)
        rw [hb] at this; simp at this
      · simp only [Except.error.injEq] at h
        rw [← h]; exact ⟨i, Or.inl hi, he, hb⟩
    | ok q =>
      obtain ⟨s, s1⟩ := q
      obtain ⟨hs1, hv1⟩ := g2 s s1 hv
      obtain ⟨i1, i2, i3⟩ := ih s1 hs1
      dsimp only
      refine ⟨fun ha => ?_, fun ss s' h => ?_, fun e h => ?_⟩
      · obtain ⟨ss, s', e1, e2, e3⟩ := i1 (fun j hj => ha j (Or.inr hj))
        obtain ⟨ss2, s2', f1, f2, f3⟩ := g1 (fun j hj => ha j (Or.inl hj))
        rw [hv] at f1
        simp only [Except.ok.injEq, Prod.mk.injEq] at f1
        rw [e1]
        exact ⟨_, _, rfl, e2, by simp [e3, f1.1, f3]⟩
      · cases hg : getVoids empty byId s1 vs with
        | error e => rw [hg] at h; simp at h
        | ok q =>
          rw [hg] at h
          obtain ⟨q1, q2⟩ := q
          simp only [Except.ok.injEq, Prod.mk.injEq] at h
          obtain ⟨a, b⟩ := i2 q1 q2 hg
          rw [← h.2]
          refine ⟨a, fun j hj => ?_⟩
          rcases hj with hj | hj
          · exact hv1 j hj
          · exact b j hj
      · cases hg : getVoids empty byId s1 vs with
        | error e' =>
          rw [hg] at h
          obtain ⟨j, hj, hj2⟩ := i3 e' hg
          simp only [Except.error.injEq] at h
          rw [← h]
          exact ⟨j, Or.inr hj, hj2⟩
        | ok q => rw [hg] at h; simp at h

theorem secondPass_iff (empty : P) (byId : List (String × Entry P S)) : ∀ (doc : List (Entry P S)) (surfs : List (String × LSurf P)),
    Sub byId surfs →
    ((∀ i ∈ referencedIds doc, (dget byId i).isSome) → ∃ r, secondPass empty byId surfs doc = .ok r) ∧
    (∀ e, secondPass empty byId surfs doc = .error e → ∃ i ∈ referencedIds doc, e = .missingSurface i ∧ dget byId i = none) := by
  intro doc
  induction doc with
  | nil => intro surfs _; exact ⟨fun _ => ⟨_, rfl⟩, fun e h => by simp [secondPass] at h⟩
  | cons x doc ih =>
    intro surfs hs
    cases x with
    | surface i m p => simp only [secondPass, referencedIds, List.flatMap_cons, List.nil_append]; exact ih surfs hs
    | sketch i m p => simp only [secondPass, referencedIds, List.flatMap_cons, List.nil_append]; exact ih surfs hs
    | solid i m sh vs =>
      simp only [secondPass, referencedIds, List.flatMap_cons, List.mem_append]
      obtain ⟨g1, g2, g3⟩ := getSurfaces_iff empty byId sh surfs hs
      cases hv : getSurfaces empty byId surfs sh with
      | error e =>
        obtain ⟨i, hi, he, hb⟩ := g3 e hv
        dsimp only
        refine ⟨fun ha => ?_, fun e' h => ?_⟩
        · have := ha i (Or.inl (Or.inl hi))
          rw [hb] at this; simp at this
        · simp only [Except.error.injEq] at h
          rw [← h]; exact ⟨i, Or.inl (Or.inl hi), he, hb⟩
      | ok q =>
        obtain ⟨s, s1⟩ := q
        obtain ⟨hs1, _⟩ := g2 s s1 hv
        dsimp only
        obtain ⟨v1, v2, v3⟩ := getVoids_iff empty byId vs s1 hs1
        cases hw : getVoids empty byId s1 vs with
        | error e =>
          obtain ⟨i, hi, he, hb⟩ := v3 e hw
          dsimp only
          refine ⟨fun ha => ?_, fun e' h => ?_⟩
          · have := ha i (Or.inl (Or.inr hi))
            rw [hb] at this; simp at this
          · simp only [Except.error.injEq] at h
            rw [← h]; exact ⟨i, Or.inl (Or.inr hi), he, hb⟩
        | ok q2 =>
          obtain ⟨ss, s2⟩ := q2
          obtain ⟨hs2, _⟩ := v2 ss s2 hw
          dsimp only
          obtain ⟨i1, i2⟩ := ih s2 hs2
          refine ⟨fun ha => ?_, fun e h => ?_⟩
          · obtain ⟨r, hr⟩ := i1 (fun j hj => ha j (Or.inr hj))
            rw [hr]; exact ⟨_, rfl⟩
          · cases hg : secondPass empty byId s2 doc with
            | error e' =>
              rw [hg] at h
              obtain ⟨j, hj, hj2⟩ := i2 e' hg
              simp only [Except.error.injEq] at h
              rw [← h]
              exact ⟨j, Or.inr hj, hj2⟩
            | ok q => rw [hg] at h; simp at h

theorem secondPass_ok_refs (empty : P) (byId : List (String × Entry P S)) : ∀ (doc : List (Entry P S)) (surfs : List (String × LSurf P)),
    Sub byId surfs → ∀ r, secondPass empty byId surfs doc = .ok r → ∀ i ∈ referencedIds doc, (dget byId i).isSome := by
  intro doc
  induction doc with
  | nil => intro surfs _ r _ i hi; simp [referencedIds] at hi
  | cons x doc ih =>
    intro surfs hs r hr
    cases x with
    | surface i m p => simp only [secondPass] at hr; exact ih surfs hs r hr
    | sketch i m p => simp only [secondPass] at hr; exact ih surfs hs r hr
    | solid i m sh vs =>
      simp only [secondPass] at hr
      simp only [referencedIds, List.flatMap_cons, List.mem_append]
      cases hv : getSurfaces empty byId surfs sh with
      | error e => rw [hv] at hr; simp at hr
      | ok q =>
        obtain ⟨s, s1⟩ := q
        rw [hv] at hr
        dsimp only at hr
        obtain ⟨hs1, h1⟩ := (getSurfaces_iff empty byId sh surfs hs).2.1 s s1 hv
        cases hw : getVoids empty byId s1 vs with
        | error e => rw [hw] at hr; simp at hr
        | ok q2 =>
          obtain ⟨ss, s2⟩ := q2
          rw [hw] at hr
          dsimp only at hr
          obtain ⟨hs2, h2⟩ := (getVoids_iff empty byId vs s1 hs1).2.1 ss s2 hw
          cases hg : secondPass empty byId s2 doc with
          | error e => rw [hg] at hr; simp at hr
          | ok q3 =>
            have h3 := ih s2 hs2 q3 hg
            rintro j ((hj | hj) | hj)
            · exact h1 j hj
            · exact h2 j hj
            · exact h3 j hj

/-- **C103**. For every document whatsoever: loading succeeds exactly when no entry has an empty id and every id a
solid refers to is an id of the document; a dangling reference is reported, naming a missing id. -/
theorem C103_rejects (empty : P) (doc : List (Entry P S)) :
    ((∃ r, fromJson empty doc = .ok r) ↔
      (∀ e ∈ doc, e.id ≠ "") ∧ ∀ i ∈ referencedIds doc, ∃ e ∈ doc, e.id = i) ∧
    (∀ i, fromJson empty doc = .error (.missingSurface i) → i ∈ referencedIds doc ∧ ∀ e ∈ doc, e.id ≠ i) := by
  have hby : ∀ k, (dget (entriesById doc) k).isSome ↔ ∃ e ∈ doc, e.id = k := by
    intro k
    unfold entriesById
    rw [dget_foldl_id]; simp [dget]
  have hsub : Sub (entriesById doc) (firstPass empty doc) := by
    intro k hk
    rw [hby]
    rcases firstPass_keys empty doc [] k hk with h | h
    · simp [dget] at h
    · exact h
  obtain ⟨s1, s2⟩ := secondPass_iff empty (entriesById doc) doc (firstPass empty doc) hsub
  unfold fromJson
  by_cases hid : (doc.any fun e => decide (e.id = "")) = true
  · rw [if_pos hid]
    refine ⟨⟨fun ⟨r, h⟩ => by simp at h, fun h => ?_⟩, fun i h => by simp at h⟩
    rw [List.any_eq_true] at hid
    obtain ⟨e, he, h0⟩ := hid
    exact absurd (of_decide_eq_true h0) (h.1 e he)
  · rw [if_neg hid]
    have hne : ∀ e ∈ doc, e.id ≠ "" := by
      intro e he h0
      exact hid (List.any_eq_true.mpr ⟨e, he, decide_eq_true h0⟩)
    cases hsp : secondPass empty (entriesById doc) (firstPass empty doc) doc with
    | error e =>
      obtain ⟨i, hi, he, hb⟩ := s2 e hsp
      have hni : ¬ ∃ e ∈ doc, e.id = i := by rw [← hby, hb]; simp
      dsimp only
      refine ⟨⟨fun ⟨r, h⟩ => by simp at h, fun h => absurd (h.2 i hi) hni⟩, fun j h => ?_⟩
      simp only [Except.error.injEq] at h
      rw [he] at h
      simp only [LErr.missingSurface.injEq] at h
      subst h
      exact ⟨hi, fun e he h0 => hni ⟨e, he, h0⟩⟩
    | ok q =>
      obtain ⟨solids, surfs⟩ := q
      dsimp only
      refine ⟨⟨fun _ => ⟨hne, fun i hi => ?_⟩, fun _ => ?_⟩, fun i h => ?_⟩
      · rw [← hby]; exact secondPass_ok_refs empty _ doc _ hsub _ hsp i hi
      · split_ifs <;> exact ⟨_, rfl⟩
      · split_ifs at h

end Verif.GeoJson
