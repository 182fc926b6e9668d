import Verif.GeoJson.Spec
import Mathlib.Data.List.Basic
import Mathlib.Data.List.Nodup

/-! # Geometry JSON: supporting lemmas -/

namespace Verif.GeoJson
open Verif.Dict

variable {P S : Type}

abbrev Cache (P : Type) := List (String × Nat × P)

/-- what serialisation steps preserve -/
structure Step (w w' : World P) (c c' : Cache P) : Prop where
  pay : ∀ r, (w'.surfs r).payload = (w.surfs r).payload
  shell : ∀ r, (w'.solids r).shell = (w.solids r).shell
  slot2 : ∀ r, (w'.solids r).slot2 = (w.solids r).slot2
  pre : ∀ k v, dget c k = some v → dget c' k = some v
  nod : (keys c).Nodup → (keys c').Nodup

theorem Step.refl (w : World P) (c : Cache P) : Step w w c c :=
  ⟨fun _ => rfl, fun _ => rfl, fun _ => rfl, fun _ _ h => h, fun h => h⟩

theorem Step.trans {w w1 w2 : World P} {c c1 c2 : Cache P} (a : Step w w1 c c1) (b : Step w1 w2 c1 c2) :
    Step w w2 c c2 :=
  ⟨fun r => (b.pay r).trans (a.pay r), fun r => (b.shell r).trans (a.shell r),
   fun r => (b.slot2 r).trans (a.slot2 r), fun k v h => b.pre k v (a.pre k v h), fun h => b.nod (a.nod h)⟩

theorem fixLayer_eid (m : Meta) : (fixLayer m).eid = m.eid := by
  unfold fixLayer; split_ifs <;> rfl

theorem ensureId_spec {m m' : Meta} {f f' : List String} (h : ensureId m f = some (m', f')) :
    m'.eid.isSome ∧ (m.eid ≠ some "" → (∀ u ∈ f, u ≠ "") → m'.eid ≠ some "" ∧ ∀ u ∈ f', u ≠ "") := by
  unfold ensureId at h
  cases he : m.eid with
  | some e =>
    rw [he] at h
    simp only [Option.some.injEq, Prod.mk.injEq] at h
    rw [← h.1, ← h.2, fixLayer_eid, he]
    exact ⟨rfl, fun a b => ⟨a, b⟩⟩
  | none =>
    rw [he] at h
    cases f with
    | nil => simp at h
    | cons u us =>
      simp only [Option.some.injEq, Prod.mk.injEq] at h
      rw [← h.1, ← h.2, fixLayer_eid]
      refine ⟨rfl, fun _ b => ⟨?_, fun v hv => b v (List.mem_cons_of_mem _ hv)⟩⟩
      simp only [ne_eq, Option.some.injEq]
      exact b u List.mem_cons_self

theorem applyOv_spec (m : Meta) (ov : Override) :
    (m.eid.isSome → (applyOv m ov).eid.isSome) ∧
    (m.eid ≠ some "" → ov.eid ≠ some "" → (applyOv m ov).eid ≠ some "") := by
  unfold applyOv
  cases ov.eid <;> simp

theorem setSurf_step (w : World P) (r : Nat) (m : Meta) (f : List String) (c : Cache P) :
    Step w (w.setSurf r m f) c c := by
  refine ⟨fun i => ?_, fun _ => rfl, fun _ => rfl, fun _ _ h => h, fun h => h⟩
  unfold World.setSurf
  dsimp only
  split_ifs with h
  · rw [h]
  · rfl

theorem setSolid_step (w : World P) (r : Nat) (m : Meta) (f : List String) (c : Cache P) :
    Step w (w.setSolid r m f) c c := by
  refine ⟨fun _ => rfl, fun i => ?_, fun i => ?_, fun _ _ h => h, fun h => h⟩ <;>
  · unfold World.setSolid
    dsimp only
    split_ifs with h
    · rw [h]
    · rfl

theorem setSurf_ne {w : World P} (hw : IdsOk w) (r : Nat) (m : Meta) (f : List String) (hm : m.eid ≠ some "")
    (hf : ∀ u ∈ f, u ≠ "") : IdsOk (w.setSurf r m f) := by
  refine ⟨fun i => ?_, hw.solids, hf⟩
  unfold World.setSurf
  dsimp only
  split_ifs with h
  · exact hm
  · exact hw.surfs i

theorem setSolid_ne {w : World P} (hw : IdsOk w) (r : Nat) (m : Meta) (f : List String) (hm : m.eid ≠ some "")
    (hf : ∀ u ∈ f, u ≠ "") : IdsOk (w.setSolid r m f) := by
  refine ⟨hw.surfs, fun i => ?_, hf⟩
  unfold World.setSolid
  dsimp only
  split_ifs with h
  · exact hm
  · exact hw.solids i

theorem setSurf_same (w : World P) (r : Nat) (m : Meta) (f : List String) :
    ((w.setSurf r m f).surfs r) = { w.surfs r with info := m } := by
  simp [World.setSurf]

theorem setSurf_other (w : World P) (r i : Nat) (m : Meta) (f : List String) (h : i ≠ r) :
    (w.setSurf r m f).surfs i = w.surfs i := by
  simp [World.setSurf, h]

/-- layer of a surface after `_serialize_surface` with override `ov` -/
def ovLayer (own : String) (ov : Override) : String :=
  let l := ov.layer.getD (if own = "" then "default" else own)
  if l = "" then "default" else l

theorem ensureId_layer {m m' : Meta} {f f' : List String} (h : ensureId m f = some (m', f')) :
    m'.layer = if m.layer = "" then "default" else m.layer := by
  unfold ensureId at h
  cases he : m.eid with
  | some e =>
    rw [he] at h
    simp only [Option.some.injEq, Prod.mk.injEq] at h
    rw [← h.1]; unfold fixLayer; split_ifs <;> rfl
  | none =>
    rw [he] at h
    cases f with
    | nil => simp at h
    | cons u us =>
      simp only [Option.some.injEq, Prod.mk.injEq] at h
      rw [← h.1]; unfold fixLayer; dsimp only; split_ifs <;> rfl

theorem serializeSurface_spec {w w1 : World P} {r : Nat} {ov : Override} {id : String}
    (h : serializeSurface w r ov = some (id, w1)) (c : Cache P) :
    Step w w1 c c ∧ (w1.surfs r).info.eid = some id ∧ (∀ i, i ≠ r → w1.surfs i = w.surfs i) ∧
    (w1.surfs r).info.layer = ovLayer (w.surfs r).info.layer ov ∧
    (IdsOk w → ov.eid ≠ some "" → IdsOk w1 ∧ id ≠ "") := by
  unfold serializeSurface at h
  cases he : ensureId (w.surfs r).info w.fresh with
  | none => rw [he] at h; simp at h
  | some q =>
    obtain ⟨m, f⟩ := q
    rw [he] at h
    simp only [Option.some.injEq, Prod.mk.injEq] at h
    obtain ⟨h1, h2⟩ := h
    have hs := ensureId_spec he
    have hl := ensureId_layer he
    have ho := applyOv_spec m ov
    have hsome : (fixLayer (applyOv m ov)).eid.isSome := by rw [fixLayer_eid]; exact ho.1 hs.1
    have hid : (fixLayer (applyOv m ov)).eid = some id := by
      rw [← h1]
      cases hq : (fixLayer (applyOv m ov)).eid with
      | none => rw [hq] at hsome; simp at hsome
      | some x => rfl
    subst h2
    refine ⟨setSurf_step _ _ _ _ _, ?_, fun i hi => setSurf_other _ _ _ _ _ hi, ?_, ?_⟩
    · rw [setSurf_same]; exact hid
    · rw [setSurf_same]
      unfold ovLayer fixLayer applyOv
      dsimp only
      rw [hl]
      split_ifs <;> simp_all
    · intro hw hov
      obtain ⟨a, b⟩ := hs.2 (hw.surfs r) hw.fresh
      have hne : (fixLayer (applyOv m ov)).eid ≠ some "" := by
        rw [fixLayer_eid]; exact ho.2 a hov
      refine ⟨setSurf_ne hw _ _ _ hne b, ?_⟩
      intro h0; rw [h0] at hid; exact hne hid

theorem uniqueId_spec {c : Cache P} {id id' : String} {f f' : List String} (h : uniqueId c id f = some (id', f')) :
    dget c id' = none ∧ (id ≠ "" → (∀ u ∈ f, u ≠ "") → id' ≠ "" ∧ ∀ u ∈ f', u ≠ "") ∧
    (dget c id = none → id' = id) := by
  induction f generalizing id with
  | nil =>
    unfold uniqueId at h
    by_cases hc : (dget c id).isSome
    · rw [if_pos hc] at h; simp at h
    · rw [if_neg hc] at h
      simp only [Option.some.injEq, Prod.mk.injEq] at h
      obtain ⟨rfl, rfl⟩ := h
      exact ⟨by simpa using hc, fun a b => ⟨a, b⟩, fun _ => rfl⟩
  | cons u us ih =>
    unfold uniqueId at h
    by_cases hc : (dget c id).isSome
    · rw [if_pos hc] at h
      obtain ⟨a, b, _⟩ := ih h
      refine ⟨a, fun _ hf => b (hf u List.mem_cons_self) fun v hv => hf v (List.mem_cons_of_mem _ hv), ?_⟩
      intro hn; rw [hn] at hc; simp at hc
    · rw [if_neg hc] at h
      simp only [Option.some.injEq, Prod.mk.injEq] at h
      obtain ⟨rfl, rfl⟩ := h
      exact ⟨by simpa using hc, fun a b => ⟨a, b⟩, fun _ => rfl⟩

theorem dset_step {w : World P} {c : Cache P} {id : String} (e : Nat × P) (h : dget c id = none) :
    Step w w c (dset c id e) := by
  refine ⟨fun _ => rfl, fun _ => rfl, fun _ => rfl, fun k v hk => ?_, fun hn => nodup_dset hn _ _⟩
  rw [dget_dset]
  split_ifs with hh
  · rw [hh, h] at hk; simp at hk
  · exact hk

theorem keys_dset_ne {c : Cache P} {id : String} {e : Nat × P} (hc : ∀ k ∈ keys c, k ≠ "") (hi : id ≠ "") :
    ∀ k ∈ keys (dset c id e), k ≠ "" := by
  intro k hk
  rw [keys_dset] at hk
  split_ifs at hk with h
  · exact hc k hk
  · rw [List.mem_append, List.mem_singleton] at hk
    rcases hk with hk | hk
    · exact hc k hk
    · rw [hk]; exact hi

/-- layer a surface of a solid ends up in -/
def childLayer (own parentLayer : String) (ov : Override) : String :=
  ovLayer own (surfOverride own parentLayer ov)

theorem addSurface_spec {pl : String} {ov : Override} {w w1 : World P} {c c1 : Cache P} {r : Nat} {id : String}
    (h : addSurface pl ov w c r = some (id, w1, c1)) :
    Step w w1 c c1 ∧ dget c1 id = some (r, (w.surfs r).payload) ∧
    (w1.surfs r).info = ⟨some id, childLayer (w.surfs r).info.layer pl ov⟩ ∧
    (∀ i, i ≠ r → w1.surfs i = w.surfs i) ∧
    c1 = dset c id (r, (w.surfs r).payload) ∧ dget c id = none ∧
    (IdsOk w → ov.eid ≠ some "" → (∀ k ∈ keys c, k ≠ "") → IdsOk w1 ∧ ∀ k ∈ keys c1, k ≠ "") := by
  unfold addSurface at h
  cases hs : serializeSurface w r (surfOverride (w.surfs r).info.layer pl ov) with
  | none => rw [hs] at h; simp at h
  | some q =>
    obtain ⟨id0, w0⟩ := q
    rw [hs] at h
    dsimp only at h
    cases hu : uniqueId c id0 w0.fresh with
    | none => rw [hu] at h; simp at h
    | some q2 =>
      obtain ⟨id', f⟩ := q2
      rw [hu] at h
      simp only [Option.some.injEq, Prod.mk.injEq] at h
      obtain ⟨rfl, rfl, rfl⟩ := h
      obtain ⟨s1, s2, s3, s4, s5⟩ := serializeSurface_spec hs c
      obtain ⟨u1, u2, _⟩ := uniqueId_spec hu
      have hov : (surfOverride (w.surfs r).info.layer pl ov).eid = ov.eid := by
        unfold surfOverride; split_ifs <;> rfl
      rw [s1.pay r]
      refine ⟨(s1.trans (setSurf_step _ _ _ _ _)).trans (dset_step _ u1), ?_, ?_, ?_, rfl, u1, ?_⟩
      · rw [dget_dset, if_pos rfl]
      · rw [setSurf_same]
        unfold childLayer
        rw [← s4]
      · intro i hi
        rw [setSurf_other _ _ _ _ _ hi, s3 i hi]
      · intro hw ho hk
        obtain ⟨a, b⟩ := s5 hw (by rw [hov]; exact ho)
        obtain ⟨d, e⟩ := u2 b a.fresh
        refine ⟨setSurf_ne a _ _ _ ?_ e, keys_dset_ne hk d⟩
        simpa using d

theorem addSurfaces_spec {pl : String} {ov : Override} : ∀ {is : List Item} {w w1 : World P} {c c1 : Cache P} {ids : List String},
    addSurfaces pl ov w c is = some (ids, w1, c1) →
    Step w w1 c c1 ∧ ids.map (dget c1) = (refs is).map (fun r => some (r, (w.surfs r).payload)) ∧
    (∀ i, i ∉ refs is → w1.surfs i = w.surfs i) ∧
    ((refs is).Nodup → ∀ r ∈ refs is, ∃ id ∈ ids, dget c1 id = some (r, (w.surfs r).payload) ∧
      (w1.surfs r).info = ⟨some id, childLayer (w.surfs r).info.layer pl ov⟩) ∧
    (∀ k v, dget c1 k = some v → dget c k = some v ∨
      (v.1 ∈ refs is ∧ ((refs is).Nodup → (w1.surfs v.1).info.eid = some k))) ∧
    (IdsOk w → ov.eid ≠ some "" → (∀ k ∈ keys c, k ≠ "") → IdsOk w1 ∧ ∀ k ∈ keys c1, k ≠ "") := by
  intro is
  induction is with
  | nil =>
    intro w w1 c c1 ids h
    simp only [addSurfaces, Option.some.injEq, Prod.mk.injEq] at h
    obtain ⟨rfl, rfl, rfl⟩ := h
    exact ⟨Step.refl _ _, rfl, fun _ _ => rfl, fun _ r hr => by simp [refs] at hr, fun _ _ h => Or.inl h,
      fun a _ b => ⟨a, b⟩⟩
  | cons x is ih =>
    intro w w1 c c1 ids h
    cases x with
    | junk => simp only [addSurfaces] at h; exact ih h
    | surf r =>
      simp only [addSurfaces] at h
      cases ha : addSurface pl ov w c r with
      | none => rw [ha] at h; simp at h
      | some q =>
        obtain ⟨id, wa, ca⟩ := q
        rw [ha] at h
        dsimp only at h
        cases hb : addSurfaces pl ov wa ca is with
        | none => rw [hb] at h; simp at h
        | some q2 =>
          obtain ⟨ids2, wb, cb⟩ := q2
          rw [hb] at h
          simp only [Option.some.injEq, Prod.mk.injEq] at h
          obtain ⟨rfl, rfl, rfl⟩ := h
          obtain ⟨a1, a2, a3, a4, a5, a5', a6⟩ := addSurface_spec ha
          obtain ⟨b1, b2, b3, b4, b5, b6⟩ := ih hb
          refine ⟨a1.trans b1, ?_, ?_, ?_, ?_, ?_⟩
          · simp only [refs, List.map_cons, b1.pre _ _ a2, b2, a1.pay]
          · intro i hi
            simp only [refs, List.mem_cons, not_or] at hi
            rw [b3 i hi.2, a4 i hi.1]
          · intro hn
            simp only [refs, List.nodup_cons] at hn
            intro r' hr'
            simp only [refs, List.mem_cons] at hr'
            by_cases hr : r' ∈ refs is
            · obtain ⟨id', i1, i2, i3⟩ := b4 hn.2 r' hr
              have hne : r' ≠ r := fun h => hn.1 (h ▸ hr)
              refine ⟨id', List.mem_cons_of_mem _ i1, ?_, ?_⟩
              · rw [i2, a1.pay]
              · rw [i3, a4 r' hne]
            · have : r' = r := by tauto
              subst this
              refine ⟨id, List.mem_cons_self, b1.pre _ _ a2, ?_⟩
              rw [b3 r' hr, a3]
          · intro k v hk
            rcases b5 k v hk with hk | ⟨hk, hk'⟩
            · rw [a5, dget_dset] at hk
              split_ifs at hk with hkk
              · right
                simp only [Option.some.injEq] at hk
                rw [← hk]
                refine ⟨by simp [refs], fun hn => ?_⟩
                simp only [refs, List.nodup_cons] at hn
                rw [b3 r hn.1, a3, hkk]
              · exact Or.inl hk
            · right
              refine ⟨by simp [refs, hk], fun hn => ?_⟩
              simp only [refs, List.nodup_cons] at hn
              exact hk' hn.2
          · intro hw ho hk
            obtain ⟨p, q⟩ := a6 hw ho hk
            exact b6 p ho q

theorem addVoids_spec {pl : String} {ov : Override} : ∀ {vs : List (List Item)} {w w1 : World P} {c c1 : Cache P} {ids : List (List String)},
    addVoids pl ov w c vs = some (ids, w1, c1) →
    Step w w1 c c1 ∧ ids.map (·.map (dget c1)) = vs.map (fun v => (refs v).map (fun r => some (r, (w.surfs r).payload))) ∧
    (∀ i, i ∉ vs.flatMap refs → w1.surfs i = w.surfs i) ∧
    ((vs.flatMap refs).Nodup → ∀ r ∈ vs.flatMap refs, ∃ id ∈ ids.flatten, dget c1 id = some (r, (w.surfs r).payload) ∧
      (w1.surfs r).info = ⟨some id, childLayer (w.surfs r).info.layer pl ov⟩) ∧
    (∀ k v, dget c1 k = some v → dget c k = some v ∨
      (v.1 ∈ vs.flatMap refs ∧ ((vs.flatMap refs).Nodup → (w1.surfs v.1).info.eid = some k))) ∧
    (IdsOk w → ov.eid ≠ some "" → (∀ k ∈ keys c, k ≠ "") → IdsOk w1 ∧ ∀ k ∈ keys c1, k ≠ "") := by
  intro vs
  induction vs with
  | nil =>
    intro w w1 c c1 ids h
    simp only [addVoids, Option.some.injEq, Prod.mk.injEq] at h
    obtain ⟨rfl, rfl, rfl⟩ := h
    exact ⟨Step.refl _ _, rfl, fun _ _ => rfl, fun _ r hr => by simp at hr, fun _ _ h => Or.inl h, fun a _ b => ⟨a, b⟩⟩
  | cons x vs ih =>
    intro w w1 c c1 ids h
    simp only [addVoids] at h
    cases ha : addSurfaces pl ov w c x with
    | none => rw [ha] at h; simp at h
    | some q =>
      obtain ⟨id, wa, ca⟩ := q
      rw [ha] at h
      dsimp only at h
      cases hb : addVoids pl ov wa ca vs with
      | none => rw [hb] at h; simp at h
      | some q2 =>
        obtain ⟨ids2, wb, cb⟩ := q2
        rw [hb] at h
        simp only [Option.some.injEq, Prod.mk.injEq] at h
        obtain ⟨rfl, rfl, rfl⟩ := h
        obtain ⟨a1, a2, a3, a4, a5, a6⟩ := addSurfaces_spec ha
        obtain ⟨b1, b2, b3, b4, b5, b6⟩ := ih hb
        refine ⟨a1.trans b1, ?_, ?_, ?_, ?_, ?_⟩
        · simp only [List.map_cons, b2, a1.pay]
          congr 1
          rw [← a2]
          apply List.map_congr_left
          intro k hk
          have : (dget ca k) ∈ id.map (dget ca) := List.mem_map_of_mem hk
          rw [a2, List.mem_map] at this
          obtain ⟨r, _, hr⟩ := this
          rw [← hr]; exact b1.pre _ _ hr.symm
        · intro i hi
          simp only [List.flatMap_cons, List.mem_append, not_or] at hi
          rw [b3 i hi.2, a3 i hi.1]
        · intro hn
          rw [List.flatMap_cons, List.nodup_append] at hn
          obtain ⟨hn1, hn2, hd⟩ := hn
          intro r' hr'
          rw [List.flatMap_cons, List.mem_append] at hr'
          rw [List.flatten_cons]
          rcases hr' with hr' | hr'
          · obtain ⟨i, i1, i2, i3⟩ := a4 hn1 r' hr'
            refine ⟨i, List.mem_append_left _ i1, b1.pre _ _ i2, ?_⟩
            rw [b3 r' (fun hh => hd r' hr' r' hh rfl), i3]
          · obtain ⟨i, i1, i2, i3⟩ := b4 hn2 r' hr'
            have hx : r' ∉ refs x := fun hh => hd r' hh r' hr' rfl
            refine ⟨i, List.mem_append_right _ i1, by rw [i2, a1.pay], ?_⟩
            rw [i3, a3 r' hx]
        · intro k v hk
          rw [List.flatMap_cons, List.mem_append]
          rw [List.nodup_append]
          rcases b5 k v hk with hk | ⟨hk, hk'⟩
          · rcases a5 k v hk with hk | ⟨hk, hk'⟩
            · exact Or.inl hk
            · refine Or.inr ⟨Or.inl hk, fun hn => ?_⟩
              rw [b3 v.1 (fun hh => hn.2.2 _ hk _ hh rfl)]
              exact hk' hn.1
          · exact Or.inr ⟨Or.inr hk, fun hn => hk' hn.2.1⟩
        · intro hw ho hk
          obtain ⟨p, q⟩ := a6 hw ho hk
          exact b6 p ho q

end Verif.GeoJson
