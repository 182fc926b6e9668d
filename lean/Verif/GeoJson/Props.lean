import Verif.GeoJson.Lemmas

/-! # Geometry JSON: round trip, ids, layers -/

namespace Verif.GeoJson
open Verif.Dict

variable {P S : Type}

theorem map_congr_pre {c c' : Cache P} {ids : List String} {rs : List Nat} {f : Nat → P}
    (h : ids.map (dget c) = rs.map fun r => some (r, f r)) (hp : ∀ k v, dget c k = some v → dget c' k = some v) :
    ids.map (dget c') = rs.map fun r => some (r, f r) := by
  rw [← h]
  apply List.map_congr_left
  intro k hk
  have hm : dget c k ∈ ids.map (dget c) := List.mem_map_of_mem hk
  rw [h, List.mem_map] at hm
  obtain ⟨r, _, hr⟩ := hm
  rw [← hr]; exact hp _ _ hr.symm

theorem map_congr_pre2 {c c' : Cache P} {ids : List (List String)} {rs : List (List Nat)} {f : Nat → P}
    (h : ids.map (·.map (dget c)) = rs.map fun l => l.map fun r => some (r, f r))
    (hp : ∀ k v, dget c k = some v → dget c' k = some v) :
    ids.map (·.map (dget c')) = rs.map fun l => l.map fun r => some (r, f r) := by
  induction ids generalizing rs with
  | nil => cases rs with
    | nil => rfl
    | cons a b => simp at h
  | cons x xs ih => cases rs with
    | nil => simp at h
    | cons a b =>
      simp only [List.map_cons, List.cons.injEq] at h ⊢
      exact ⟨map_congr_pre h.1 hp, ih h.2⟩

/-- what serialising one solid does -/
theorem serializeSolid_spec {w w' : World P} {c c' : Cache P} {r : Nat} {ov : Override} {e : REntry P S}
    (h : serializeSolid w c r ov = some (e, w', c')) :
    Step w w' c c' ∧
    (∃ sid sh vs, e = .solid sid r sh vs ∧
      sh.map (dget c') = (refs (w.solids r).shell).map (fun i => some (i, (w.surfs i).payload)) ∧
      vs.map (·.map (dget c')) = ((w.solids r).slot2.map refs).map (fun l => l.map fun i => some (i, (w.surfs i).payload)) ∧
      (IdsOk w → ov.eid ≠ some "" → (∀ k ∈ keys c, k ≠ "") → IdsOk w' ∧ (∀ k ∈ keys c', k ≠ "") ∧ sid ≠ "") ∧
      (w'.solids r).info = ⟨some sid, ovLayer (w.solids r).info.layer ov⟩) ∧
    (∀ i, i ≠ r → w'.solids i = w.solids i) ∧
    (∀ i, i ∉ refs (w.solids r).shell ++ (w.solids r).slot2.flatMap refs → w'.surfs i = w.surfs i) ∧
    ((refs (w.solids r).shell ++ (w.solids r).slot2.flatMap refs).Nodup →
      ∀ i ∈ refs (w.solids r).shell ++ (w.solids r).slot2.flatMap refs,
        ∃ id, dget c' id = some (i, (w.surfs i).payload) ∧
        (w'.surfs i).info = ⟨some id, childLayer (w.surfs i).info.layer (ovLayer (w.solids r).info.layer ov) ov⟩) ∧
    (∀ k v, dget c' k = some v → dget c k = some v ∨
      (v.1 ∈ refs (w.solids r).shell ++ (w.solids r).slot2.flatMap refs ∧
       ((refs (w.solids r).shell ++ (w.solids r).slot2.flatMap refs).Nodup → (w'.surfs v.1).info.eid = some k))) := by
  unfold serializeSolid at h
  cases he : ensureId (w.solids r).info w.fresh with
  | none => rw [he] at h; simp at h
  | some q =>
    obtain ⟨m, f⟩ := q
    rw [he] at h
    dsimp only at h
    have hs := ensureId_spec he
    have hl := ensureId_layer he
    have ho := applyOv_spec m ov
    have hsome : (fixLayer (applyOv m ov)).eid.isSome := by rw [fixLayer_eid]; exact ho.1 hs.1
    obtain ⟨sid, hsid⟩ := Option.isSome_iff_exists.mp hsome
    have hlay : (fixLayer (applyOv m ov)).layer = ovLayer (w.solids r).info.layer ov := by
      unfold ovLayer fixLayer applyOv
      dsimp only
      rw [hl]
      split_ifs <;> simp_all
    generalize hm' : fixLayer (applyOv m ov) = m' at h hsome hsid hlay
    have hst := setSolid_step w r m' f c
    have hsol : (w.setSolid r m' f).solids r = { w.solids r with info := m' } := by simp [World.setSolid]
    have hsf : (w.setSolid r m' f).surfs = w.surfs := rfl
    cases ha : addSurfaces m'.layer ov (w.setSolid r m' f) c ((w.setSolid r m' f).solids r).shell with
    | none => rw [ha] at h; simp at h
    | some q1 =>
      obtain ⟨sh, w1, c1⟩ := q1
      rw [ha] at h
      dsimp only at h
      obtain ⟨a1, a2, a3, a4, a5, a6⟩ := addSurfaces_spec ha
      cases hb : addVoids m'.layer ov w1 c1 (w1.solids r).slot2 with
      | none => rw [hb] at h; simp at h
      | some q2 =>
        obtain ⟨vs, w2, c2⟩ := q2
        rw [hb] at h
        simp only [Option.some.injEq, Prod.mk.injEq] at h
        obtain ⟨rfl, rfl, rfl⟩ := h
        obtain ⟨b1, b2, b3, b4, b5, b6⟩ := addVoids_spec hb
        have hsh : ((w.setSolid r m' f).solids r).shell = (w.solids r).shell := hst.shell r
        have hs2 : (w1.solids r).slot2 = (w.solids r).slot2 := (a1.slot2 r).trans (hst.slot2 r)
        rw [hsh] at a2 a3 a4 a5
        rw [hs2] at b2 b3 b4 b5
        rw [hsf] at a2 a3 a4
        have hsolids1 : ∀ {is : List Item} {w w1 : World P} {c c1 : Cache P} {ids : List String},
            addSurfaces m'.layer ov w c is = some (ids, w1, c1) → w1.solids = w.solids := by
          intro is
          induction is with
          | nil => intro w w1 c c1 ids h; simp only [addSurfaces, Option.some.injEq, Prod.mk.injEq] at h; rw [h.2.1]
          | cons x is ih =>
            intro w w1 c c1 ids h
            cases x with
            | junk => simp only [addSurfaces] at h; exact ih h
            | surf r =>
              simp only [addSurfaces] at h
              cases ha : addSurface m'.layer ov w c r with
              | none => rw [ha] at h; simp at h
              | some q =>
                obtain ⟨id, wa, ca⟩ := q
                rw [ha] at h
                dsimp only at h
                cases hb : addSurfaces m'.layer ov wa ca is with
                | none => rw [hb] at h; simp at h
                | some q2 =>
                  obtain ⟨ids2, wb, cb⟩ := q2
                  rw [hb] at h
                  simp only [Option.some.injEq, Prod.mk.injEq] at h
                  rw [← h.2.1, ih hb]
                  unfold addSurface serializeSurface at ha
                  cases h0 : ensureId (w.surfs r).info w.fresh with
                  | none => rw [h0] at ha; simp at ha
                  | some q =>
                    obtain ⟨m, f⟩ := q
                    rw [h0] at ha
                    dsimp only at ha
                    split at ha
                    · simp at ha
                    · simp only [Option.some.injEq, Prod.mk.injEq] at ha
                      rw [← ha.2.1]; rfl
        have hsolids2 : ∀ {vs : List (List Item)} {w w1 : World P} {c c1 : Cache P} {ids : List (List String)},
            addVoids m'.layer ov w c vs = some (ids, w1, c1) → w1.solids = w.solids := by
          intro is
          induction is with
          | nil => intro w w1 c c1 ids h; simp only [addVoids, Option.some.injEq, Prod.mk.injEq] at h; rw [h.2.1]
          | cons x is ih =>
            intro w w1 c c1 ids h
            simp only [addVoids] at h
            cases ha : addSurfaces m'.layer ov w c x with
            | none => rw [ha] at h; simp at h
            | some q =>
              obtain ⟨id, wa, ca⟩ := q
              rw [ha] at h
              dsimp only at h
              cases hb : addVoids m'.layer ov wa ca is with
              | none => rw [hb] at h; simp at h
              | some q2 =>
                obtain ⟨ids2, wb, cb⟩ := q2
                rw [hb] at h
                simp only [Option.some.injEq, Prod.mk.injEq] at h
                rw [← h.2.1, ih hb, hsolids1 ha]
        have hfin : w2.solids = (w.setSolid r m' f).solids := (hsolids2 hb).trans (hsolids1 ha)
        refine ⟨(hst.trans a1).trans b1, ⟨sid, sh, vs, ?_, map_congr_pre a2 b1.pre, ?_, ?_, ?_⟩, ?_, ?_, ?_, ?_⟩
        · rw [hsid]; rfl
        · rw [b2, List.map_map]
          apply List.map_congr_left
          intro v _
          simp only [Function.comp_apply, a1.pay, hsf]
        · intro hw hov hk
          obtain ⟨x1, x2⟩ := hs.2 (hw.solids r) hw.fresh
          have hne : m'.eid ≠ some "" := by rw [← hm', fixLayer_eid]; exact ho.2 x1 hov
          obtain ⟨y1, y2⟩ := a6 (setSolid_ne hw r m' f hne x2) hov hk
          obtain ⟨z1, z2⟩ := b6 y1 hov y2
          refine ⟨z1, z2, fun h0 => hne (by rw [hsid, h0])⟩
        · rw [hfin, hsol]
          dsimp only
          rw [← hlay, ← hsid]
        · intro i hi
          rw [hfin]; simp [World.setSolid, hi]
        · intro i hi
          rw [List.mem_append, not_or] at hi
          rw [b3 i hi.2, a3 i hi.1]
        · intro hn
          rw [List.nodup_append] at hn
          obtain ⟨n1, n2, hd⟩ := hn
          intro i hi
          rw [List.mem_append] at hi
          rw [← hlay]
          rcases hi with hi | hi
          · obtain ⟨id, _, i2, i3⟩ := a4 n1 i hi
            refine ⟨id, b1.pre _ _ i2, ?_⟩
            rw [b3 i (fun hh => hd i hi i hh rfl), i3]
          · obtain ⟨id, _, i2, i3⟩ := b4 n2 i hi
            refine ⟨id, by rw [i2, a1.pay, hsf], ?_⟩
            rw [i3, a3 i (fun hh => hd i hh i hi rfl)]
        · intro k v hk
          rw [List.mem_append]
          rw [List.nodup_append]
          rcases b5 k v hk with hk | ⟨hk, hk'⟩
          · rcases a5 k v hk with hk | ⟨hk, hk'⟩
            · exact Or.inl hk
            · refine Or.inr ⟨Or.inl hk, fun hn => ?_⟩
              rw [b3 v.1 (fun hh => hn.2.2 _ hk _ hh rfl)]
              exact hk' hn.1
          · exact Or.inr ⟨Or.inr hk, fun hn => hk' hn.2.1⟩

/-- a solid entry with its ids resolved in the cache -/
def vR (c : Cache P) : REntry P S → Option (Nat × List (Option (Nat × P)) × List (List (Option (Nat × P))))
  | .solid _ r sh vs => some (r, sh.map (dget c), vs.map (·.map (dget c)))
  | _ => none

/-- the surfaces of a solid entity -/
def vE (w : World P) : Entity S → Option (Nat × List (Option (Nat × P)) × List (List (Option (Nat × P))))
  | .solid r _ => some (r, (refs (w.solids r).shell).map (fun i => some (i, (w.surfs i).payload)),
      ((w.solids r).slot2.map refs).map (fun l => l.map fun i => some (i, (w.surfs i).payload)))
  | _ => none

def REntry.id : REntry P S → String
  | .surface i _ _ => i
  | .solid i _ _ _ => i
  | .sketch i _ _ => i

def REntry.notSurface : REntry P S → Prop
  | .surface _ _ _ => False
  | _ => True

def REntry.sk : REntry P S → Option S
  | .sketch _ _ d => some d
  | _ => none

def Entity.sk : Entity S → Option S
  | .sketch d _ => some d
  | _ => none

/-- what one entity does -/
structure OneSpec (w w' : World P) (c c' : Cache P) (e : Entity S) (xs : List (REntry P S)) : Prop where
  step : Step w w' c c'
  ns : ∀ x ∈ xs, x.notSurface
  view : ∀ c2 : Cache P, (∀ k v, dget c' k = some v → dget c2 k = some v) → xs.filterMap (vR c2) = ([e].filterMap (vE w))
  sk : xs.filterMap REntry.sk = [e].filterMap Entity.sk
  ids : IdsOk w → e.ov.eid ≠ some "" → (∀ k ∈ keys c, k ≠ "") →
    IdsOk w' ∧ (∀ k ∈ keys c', k ≠ "") ∧ ∀ x ∈ xs, x.id ≠ ""
  frame : ∀ i, i ∉ e.refs w → w'.surfs i = w.surfs i
  cached : (e.refs w).Nodup →
    ∀ k v, dget c' k = some v → dget c k = some v ∨ (v.1 ∈ e.refs w ∧ (w'.surfs v.1).info.eid = some k)
  solids : ∀ i, (∀ ov, e ≠ .solid i ov) → w'.solids i = w.solids i

theorem setDefault_spec {c : Cache P} {id : String} {e : Nat × P} (w : World P) :
    Step w w c (setDefault c id e) ∧ ((∀ k ∈ keys c, k ≠ "") → id ≠ "" → ∀ k ∈ keys (setDefault c id e), k ≠ "") ∧
    (∀ k v, dget (setDefault c id e) k = some v → dget c k = some v ∨ (k = id ∧ v = e)) := by
  unfold setDefault
  cases h : dget c id with
  | some x => exact ⟨Step.refl _ _, fun a _ => a, fun _ _ h => Or.inl h⟩
  | none =>
    refine ⟨dset_step _ h, fun a b => keys_dset_ne a b, fun k v hk => ?_⟩
    rw [dget_dset] at hk
    split_ifs at hk with hh
    · right; simp only [Option.some.injEq] at hk; exact ⟨hh, hk.symm⟩
    · exact Or.inl hk

theorem serializeOne_spec {w w' : World P} {c c' : Cache P} {e : Entity S} {xs : List (REntry P S)}
    (h : serializeOne w c e = some (xs, w', c')) : OneSpec w w' c c' e xs := by
  cases e with
  | other => simp [serializeOne] at h
  | sketch d ov =>
    unfold serializeOne at h
    cases hf : w.fresh with
    | nil => rw [hf] at h; simp at h
    | cons u us =>
      rw [hf] at h
      simp only [Option.some.injEq, Prod.mk.injEq] at h
      obtain ⟨rfl, rfl, rfl⟩ := h
      refine ⟨⟨fun _ => rfl, fun _ => rfl, fun _ => rfl, fun _ _ h => h, fun h => h⟩, ?_, fun _ _ => rfl, rfl, ?_, fun _ _ => rfl,
        fun _ _ _ h => Or.inl h, fun _ _ => rfl⟩
      · intro x hx; rw [List.mem_singleton] at hx; rw [hx]; trivial
      · intro hw ho hk
        refine ⟨⟨hw.surfs, hw.solids, fun v hv => hw.fresh v (by rw [hf]; exact List.mem_cons_of_mem _ hv)⟩, hk, ?_⟩
        intro x hx; rw [List.mem_singleton] at hx; rw [hx]
        simp only [REntry.id, Entity.ov] at ho ⊢
        cases hov : ov.eid with
        | none => exact hw.fresh u (by rw [hf]; exact List.mem_cons_self)
        | some x => rw [hov] at ho; simpa using ho
  | surface r ov =>
    simp only [serializeOne] at h
    cases hs : serializeSurface w r ov with
    | none => rw [hs] at h; simp at h
    | some q =>
      obtain ⟨id, w1⟩ := q
      rw [hs] at h
      simp only [Option.some.injEq, Prod.mk.injEq] at h
      obtain ⟨rfl, rfl, rfl⟩ := h
      obtain ⟨s1, s2, s3, s4, s5⟩ := serializeSurface_spec hs c
      obtain ⟨d1, d2, d3⟩ := setDefault_spec (c := c) (id := id) (e := (r, (w1.surfs r).payload)) w1
      refine ⟨s1.trans d1, by simp, fun _ _ => rfl, rfl, ?_, ?_, ?_, ?_⟩
      · intro hw ho hk
        obtain ⟨a, b⟩ := s5 hw ho
        exact ⟨a, d2 hk b, by simp⟩
      · intro i hi
        exact s3 i (by simpa [Entity.refs] using hi)
      · intro _ k v hk
        rcases d3 k v hk with hk | ⟨rfl, rfl⟩
        · exact Or.inl hk
        · right; exact ⟨by simp [Entity.refs], s2⟩
      · intro i _
        unfold serializeSurface at hs
        cases he : ensureId (w.surfs r).info w.fresh with
        | none => rw [he] at hs; simp at hs
        | some q =>
          rw [he] at hs
          simp only [Option.some.injEq, Prod.mk.injEq] at hs
          rw [← hs.2]; rfl
  | solid r ov =>
    simp only [serializeOne] at h
    cases hs : serializeSolid (S := S) w c r ov with
    | none => rw [hs] at h; simp at h
    | some q =>
      obtain ⟨e, w1, c1⟩ := q
      rw [hs] at h
      simp only [Option.some.injEq, Prod.mk.injEq] at h
      obtain ⟨rfl, rfl, rfl⟩ := h
      obtain ⟨s1, ⟨sid, sh, vs, rfl, t1, t2, t3, t4⟩, s3, s4, s5, s6⟩ := serializeSolid_spec hs
      refine ⟨s1, ?_, ?_, rfl, ?_, s4, ?_, ?_⟩
      · intro x hx; rw [List.mem_singleton] at hx; rw [hx]; trivial
      · intro c2 hc2
        simp only [List.filterMap_cons, List.filterMap_nil, vR, vE]
        rw [map_congr_pre t1 hc2, map_congr_pre2 t2 hc2]
      · intro hw ho hk
        obtain ⟨a, b, d⟩ := t3 hw ho hk
        refine ⟨a, b, ?_⟩
        intro x hx; rw [List.mem_singleton] at hx; rw [hx]; exact d
      · intro hn k v hk
        rcases s6 k v hk with h | ⟨h1, h2⟩
        · exact Or.inl h
        · exact Or.inr ⟨h1, h2 hn⟩
      · intro i hi
        apply s3
        rintro rfl
        exact hi ov rfl

end Verif.GeoJson
