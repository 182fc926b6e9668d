import Verif.Step.Read
import Mathlib.Tactic.Linarith

/-! # What `write_step` writes, step by step -/

namespace Verif.Step

set_option linter.unusedSectionVars false

variable {P D L : Type} [DecidableEq P]

/-! ## vertices -/

/-- the vertices are in the file -/
def VOk (w : List (Ent P D L)) (vm : List (Vtx P)) : Prop := ∀ v ∈ vm, get w v.pt = some (.point v.coords) ∧ get w v.id = some (.vertex v.pt)

theorem VOk.left {w v : List (Ent P D L)} {vm : List (Vtx P)} (h : VOk w vm) : VOk (w ++ v) vm := fun x hx => ⟨get_left (h x hx).1, get_left (h x hx).2⟩

theorem VOk.read {w : List (Ent P D L)} {vm : List (Vtx P)} (h : VOk w vm) {v : Vtx P} (hv : v ∈ vm) : readVertex w v.id = some v.coords := by
  unfold readVertex
  rw [(h v hv).2]
  dsimp only
  rw [(h v hv).1]

theorem find_mem {vm : List (Vtx P)} {p : P} {v : Vtx P} (h : find vm p = some v) : v ∈ vm ∧ v.coords = p := by
  unfold find at h
  exact ⟨List.mem_of_find?_eq_some h, by simpa using List.find?_some h⟩

theorem find_none {vm : List (Vtx P)} {p : P} (h : find vm p = none) : ∀ v ∈ vm, v.coords ≠ p := by
  unfold find at h
  simpa using List.find?_eq_none.1 h

/-- what holds after some corners -/
structure VInv (w : List (Ent P D L)) (vm : List (Vtx P)) (ps : List P) : Prop where
  wf : WellFormed w
  ok : VOk w vm
  points : pointsOf w = vm.map (·.coords)
  nodup : (vm.map (·.coords)).Nodup
  mem : ∀ p, p ∈ vm.map (·.coords) ↔ p ∈ ps
  edges : ∀ e ∈ w, e.kind = .point ∨ e.kind = .vertex

theorem addVertex_inv {w : List (Ent P D L)} {vm : List (Vtx P)} {ps : List P} (h : VInv w vm ps) (p : P) :
    VInv (addVertex (w, vm) p).1 (addVertex (w, vm) p).2 (ps ++ [p]) := by
  unfold addVertex
  dsimp only
  cases hf : find vm p with
  | some v =>
    dsimp only
    refine ⟨h.wf, h.ok, h.points, h.nodup, fun q => ?_, h.edges⟩
    rw [h.mem q, List.mem_append, List.mem_singleton]
    constructor
    · exact .inl
    · rintro (hq | rfl)
      · exact hq
      · rw [← h.mem]
        exact List.mem_map.2 ⟨v, (find_mem hf).1, (find_mem hf).2⟩
  | none =>
    dsimp only
    have hnew : ∀ k e, ([.point p, .vertex (w.length + 1)] : List (Ent P D L))[k]? = some e → get (w ++ [.point p, .vertex (w.length + 1)]) (w.length + k + 1) = some e := fun k e he => by
      rw [get_right, he]
    refine ⟨?_, ?_, ?_, ?_, fun q => ?_, ?_⟩
    · refine wf_append h.wf ⟨?_, ?_, trivial⟩
      · intro r hr; simp [Ent.refs] at hr
      · intro r hr
        simp only [Ent.refs, List.mem_singleton] at hr
        subst hr
        exact Has.new [.point p] (k := 0) rfl rfl rfl
    · intro v hv
      rw [List.mem_append, List.mem_singleton] at hv
      rcases hv with hv | rfl
      · exact h.ok.left v hv
      · exact ⟨hnew 0 _ rfl, hnew 1 _ rfl⟩
    · have hp := h.points
      unfold pointsOf at hp ⊢
      rw [List.filterMap_append, hp, List.map_append]
      rfl
    · rw [List.map_append]
      refine List.Nodup.append h.nodup (by simp) ?_
      intro q hq hq'
      simp only [List.map_cons, List.map_nil, List.mem_singleton] at hq'
      subst hq'
      obtain ⟨v, hv, e⟩ := List.mem_map.1 hq
      exact find_none hf v hv e
    · simp only [List.map_append, List.map_cons, List.map_nil, List.mem_append, List.mem_singleton]
      rw [h.mem q]
    · intro e he
      simp only [List.mem_append, List.mem_cons, List.not_mem_nil, or_false] at he
      rcases he with he | rfl | rfl
      · exact h.edges e he
      · exact .inl rfl
      · exact .inr rfl

theorem foldl_addVertex_inv : ∀ (qs : List P) {st : List (Ent P D L) × List (Vtx P)} {ps : List P}, VInv st.1 st.2 ps → VInv (qs.foldl addVertex st).1 (qs.foldl addVertex st).2 (ps ++ qs)
  | [], st, ps, h => by rw [List.append_nil]; exact h
  | q :: qs, st, ps, h => by
    rw [List.foldl_cons]
    have := foldl_addVertex_inv qs (addVertex_inv h q)
    rwa [List.append_assoc] at this

theorem addVertices_inv (tris : List (Tri P D)) : VInv (addVertices (L := L) tris).1 (addVertices (L := L) tris).2 (tris.flatMap corners) := by
  have := foldl_addVertex_inv (tris.flatMap corners) (st := (([], []) : List (Ent P D L) × List (Vtx P))) (ps := [])
    ⟨wf_nil, by intro v hv; simp at hv, rfl, by simp, by simp, by simp⟩
  exact this

/-- a corner is found -/
theorem look_spec {w : List (Ent P D L)} {vm : List (Vtx P)} {ps : List P} (h : VInv w vm ps) {p : P} (hp : p ∈ ps) : look vm p ∈ vm ∧ (look vm p).coords = p := by
  unfold look
  cases hf : find vm p with
  | none =>
    exfalso
    obtain ⟨v, hv, e⟩ := List.mem_map.1 ((h.mem p).2 hp)
    exact find_none hf v hv e
  | some v => exact find_mem hf

/-- vertices with the same number have the same coordinates -/
theorem id_inj {w : List (Ent P D L)} {vm : List (Vtx P)} (h : VOk w vm) {a b : Vtx P} (ha : a ∈ vm) (hb : b ∈ vm) : a.id = b.id ↔ a.coords = b.coords ∧ a.id = b.id := by
  constructor
  · intro e
    refine ⟨?_, e⟩
    have h1 := h.read ha
    rw [e, h.read hb, Option.some.injEq] at h1
    exact h1.symm
  · exact fun h => h.2

theorem coords_inj {w : List (Ent P D L)} {vm : List (Vtx P)} {ps : List P} (h : VInv w vm ps) {a b : Vtx P} (ha : a ∈ vm) (hb : b ∈ vm) : a.id = b.id ↔ a.coords = b.coords := by
  constructor
  · exact fun e => ((id_inj h.ok ha hb).1 e).1
  · intro e
    have := List.inj_on_of_nodup_map h.nodup ha hb e
    rw [this]

/-! ## edges -/

theorem edgeKey_eq {a b c d : Nat} : edgeKey a b = edgeKey c d ↔ (a = c ∧ b = d) ∨ (a = d ∧ b = c) := by
  unfold edgeKey
  split <;> split <;> simp only [Prod.mk.injEq] <;> omega

/-- the edges stored are in the file -/
structure SOk (geo : Geo P D L) (w : List (Ent P D L)) (vm : List (Vtx P)) (es : List ((Nat × Nat) × EdgeData)) : Prop where
  at' : ∀ e ∈ es, get w e.2.forward = some (.oriented e.2.curve true) ∧ get w e.2.reverse = some (.oriented e.2.curve false) ∧ (∃ l, get w e.2.curve = some (.edge e.2.start e.2.stop l)) ∧
    e.1 = edgeKey e.2.start e.2.stop

theorem SOk.left {geo : Geo P D L} {w v : List (Ent P D L)} {vm : List (Vtx P)} {es : List ((Nat × Nat) × EdgeData)} (h : SOk geo w vm es) : SOk geo (w ++ v) vm es :=
  ⟨fun e he => by
    obtain ⟨a, b, ⟨l, c⟩, d⟩ := h.at' e he
    exact ⟨get_left a, get_left b, ⟨l, get_left c⟩, d⟩⟩

theorem stored_mem {es : List ((Nat × Nat) × EdgeData)} {k : Nat × Nat} {d : EdgeData} (h : stored es k = some d) : (k, d) ∈ es := by
  unfold stored at h
  rw [Option.map_eq_some_iff] at h
  obtain ⟨e, h1, rfl⟩ := h
  have := List.find?_some h1
  simp only [decide_eq_true_eq] at this
  rw [← this]
  exact List.mem_of_find?_eq_some h1

theorem stored_none {es : List ((Nat × Nat) × EdgeData)} {k : Nat × Nat} (h : stored es k = none) : ∀ e ∈ es, e.1 ≠ k := by
  unfold stored at h
  rw [Option.map_eq_none_iff, List.find?_eq_none] at h
  simpa using h

/-- the ends of the edges of a file, by the numbers of the vertices -/
def edgeIds (w : List (Ent P D L)) : List (Nat × Nat) := w.filterMap fun e => match e with
  | .edge a b _ => some (a, b)
  | _ => none

/-- what holds while sides are added -/
structure SInv (geo : Geo P D L) (w : List (Ent P D L)) (vm : List (Vtx P)) (es : List ((Nat × Nat) × EdgeData)) : Prop where
  wf : WellFormed w
  vok : VOk w vm
  sok : SOk geo w vm es
  points : pointsOf w = vm.map (·.coords)
  ids : edgeIds w = es.map fun e => (e.2.start, e.2.stop)
  keys : (es.map (·.1)).Nodup
  lines : ∀ n a b l, get w n = some (.edge a b l) → ∃ x y, x ∈ vm ∧ y ∈ vm ∧ a = x.id ∧ b = y.id ∧
    ∃ v d, get w l = some (.line x.pt v) ∧ get w v = some (.vector d (geo.len x.coords y.coords)) ∧ get w d = some (.direction (geo.dir x.coords y.coords))

/-- an entity of the longer file is one of the shorter or one of the rest -/
theorem get_append {w v : List (Ent P D L)} {n : Nat} {e : Ent P D L} (h : get (w ++ v) n = some e) : get w n = some e ∨ e ∈ v := by
  unfold get at h ⊢
  by_cases h0 : n = 0
  · simp [h0] at h
  · rw [if_neg h0] at h ⊢
    by_cases hn : n - 1 < w.length
    · left; rwa [List.getElem?_append_left hn] at h
    · right
      rw [List.getElem?_append_right (by omega)] at h
      exact List.mem_of_getElem? h

/-- entities appended that are no points and no edges -/
theorem SInv.append {geo : Geo P D L} {w : List (Ent P D L)} {vm : List (Vtx P)} {es : List ((Nat × Nat) × EdgeData)} (h : SInv geo w vm es) {v : List (Ent P D L)} (hv : OkAll w v)
    (hk : ∀ e ∈ v, e.kind ≠ .point ∧ e.kind ≠ .edge) : SInv geo (w ++ v) vm es := by
  refine ⟨wf_append h.wf hv, h.vok.left, h.sok.left, ?_, ?_, h.keys, fun n a b l hn => ?_⟩
  · rw [← h.points]
    unfold pointsOf
    rw [List.filterMap_append]
    refine (congrArg _ (List.filterMap_eq_nil_iff.2 ?_)).trans (List.append_nil _)
    intro e he
    cases e <;> first | rfl | exact absurd rfl (hk _ he).1
  · rw [← h.ids]
    unfold edgeIds
    rw [List.filterMap_append]
    refine (congrArg _ (List.filterMap_eq_nil_iff.2 ?_)).trans (List.append_nil _)
    intro e he
    cases e <;> first | rfl | exact absurd rfl (hk _ he).2
  · rcases get_append hn with hn | hn
    · obtain ⟨x, y, hx, hy, e1, e2, q, d, h1, h2, h3⟩ := h.lines n a b l hn
      exact ⟨x, y, hx, hy, e1, e2, q, d, get_left h1, get_left h2, get_left h3⟩
    · exact absurd rfl (hk _ hn).2

theorem addSide_inv {geo : Geo P D L} {w : List (Ent P D L)} {vm : List (Vtx P)} {es : List ((Nat × Nat) × EdgeData)} (h : SInv geo w vm es) {a b : Vtx P} (ha : a ∈ vm) (hb : b ∈ vm) :
    ∃ v, (addSide geo (w, es) (a, b)).1.1 = w ++ v ∧ SInv geo (w ++ v) vm (addSide geo (w, es) (a, b)).1.2 ∧
      readSide (w ++ v) (addSide geo (w, es) (a, b)).2 = some (a.coords, b.coords) ∧
      (∃ c, (addSide geo (w, es) (a, b)).1.2 = es ++ c ∧ ∀ e ∈ c, e.1 = edgeKey a.id b.id) ∧ edgeKey a.id b.id ∈ (addSide geo (w, es) (a, b)).1.2.map (·.1) := by
  unfold addSide
  dsimp only
  cases hs : stored es (edgeKey a.id b.id) with
  | some d =>
    dsimp only
    have hmem := stored_mem hs
    obtain ⟨h1, h2, ⟨l, h3⟩, h4⟩ := h.sok.at' _ hmem
    dsimp only at h1 h2 h3 h4
    refine ⟨[], by simp, by simpa using h, ?_, ⟨[], by simp, by simp⟩, List.mem_map.2 ⟨_, hmem, rfl⟩⟩
    rw [List.append_nil]
    by_cases hp : d.start = a.id ∧ d.stop = b.id
    · rw [if_pos hp]
      unfold readSide
      rw [h1]
      dsimp only
      rw [h3]
      dsimp only
      rw [hp.1, hp.2, h.vok.read ha, h.vok.read hb]
      rfl
    · rw [if_neg hp]
      have hq : d.start = b.id ∧ d.stop = a.id := by
        rcases edgeKey_eq.1 h4 with e | e
        · exact absurd ⟨e.1.symm, e.2.symm⟩ hp
        · exact ⟨e.2.symm, e.1.symm⟩
      unfold readSide
      rw [h2]
      dsimp only
      rw [h3]
      dsimp only
      rw [hq.1, hq.2, h.vok.read ha, h.vok.read hb]
      rfl
  | none =>
    unfold newEdge
    dsimp only
    rw [if_pos ⟨rfl, rfl⟩]
    have hnone := stored_none hs
    generalize hv : ([.direction (geo.dir a.coords b.coords), .vector (w.length + 1) (geo.len a.coords b.coords), .line a.pt (w.length + 2), .edge a.id b.id (w.length + 3),
      .oriented (w.length + 4) true, .oriented (w.length + 4) false] : List (Ent P D L)) = v
    have hnew : ∀ k e, v[k]? = some e → get (w ++ v) (w.length + k + 1) = some e := fun k e he => by rw [get_right, he]
    have hok : OkAll w v := by
      subst hv
      refine ⟨?_, ?_, ?_, ?_, ?_, ?_, trivial⟩
      · intro r hr; simp [Ent.refs] at hr
      · intro r hr
        simp only [Ent.refs, List.mem_singleton] at hr
        subst hr
        exact Has.new [_] (k := 0) rfl rfl rfl
      · intro r hr
        simp only [Ent.refs, List.mem_cons, List.not_mem_nil, or_false] at hr
        rcases hr with rfl | rfl
        · exact (show Has w a.pt .point from ⟨_, (h.vok a ha).1, rfl⟩).left.left
        · rw [List.append_assoc]; exact Has.new [_, _] (k := 1) rfl rfl rfl
      · intro r hr
        simp only [Ent.refs, List.mem_cons, List.not_mem_nil, or_false] at hr
        rcases hr with rfl | rfl | rfl
        · exact (show Has w a.id .vertex from ⟨_, (h.vok a ha).2, rfl⟩).left.left.left
        · exact (show Has w b.id .vertex from ⟨_, (h.vok b hb).2, rfl⟩).left.left.left
        · simp only [List.append_assoc, List.cons_append, List.nil_append]; exact Has.new [_, _, _] (k := 2) rfl rfl rfl
      · intro r hr
        simp only [Ent.refs, List.mem_singleton] at hr
        subst hr
        simp only [List.append_assoc, List.cons_append, List.nil_append]; exact Has.new [_, _, _, _] (k := 3) rfl rfl rfl
      · intro r hr
        simp only [Ent.refs, List.mem_singleton] at hr
        subst hr
        simp only [List.append_assoc, List.cons_append, List.nil_append]; exact Has.new [_, _, _, _, _] (k := 3) rfl rfl rfl
    have hv' : ∀ k, k < 6 → ∃ e, v[k]? = some e := fun k hk => by subst hv; exact ⟨_, List.getElem?_eq_getElem (by simpa using hk)⟩
    refine ⟨v, rfl, ⟨wf_append h.wf hok, h.vok.left, ⟨fun e he => ?_⟩, ?_, ?_, ?_, fun n x y l hn => ?_⟩, ?_, ⟨_, rfl, by simp⟩, by simp⟩
    · rw [List.mem_append, List.mem_singleton] at he
      rcases he with he | rfl
      · exact h.sok.left.at' e he
      · subst hv
        exact ⟨hnew 4 _ rfl, hnew 5 _ rfl, ⟨_, hnew 3 _ rfl⟩, rfl⟩
    · rw [← h.points]
      unfold pointsOf
      rw [List.filterMap_append]
      subst hv
      exact List.append_nil _
    · have := h.ids
      unfold edgeIds at this ⊢
      rw [List.filterMap_append, this, List.map_append]
      subst hv
      rfl
    · rw [List.map_append]
      refine List.Nodup.append h.keys (by simp) ?_
      intro q hq hq'
      simp only [List.map_cons, List.map_nil, List.mem_singleton] at hq'
      subst hq'
      obtain ⟨v, hv, e⟩ := List.mem_map.1 hq
      exact hnone v hv e
    · rcases get_append hn with hn | hn
      · obtain ⟨x, y, hx, hy, e1, e2, q, d, h1, h2, h3⟩ := h.lines n _ _ l hn
        exact ⟨x, y, hx, hy, e1, e2, q, d, get_left h1, get_left h2, get_left h3⟩
      · subst hv
        simp only [List.mem_cons, reduceCtorEq, List.not_mem_nil, or_false, false_or, Ent.edge.injEq] at hn
        obtain ⟨rfl, rfl, rfl⟩ := hn
        exact ⟨a, b, ha, hb, rfl, rfl, _, _, hnew 2 _ rfl, hnew 1 _ rfl, hnew 0 _ rfl⟩
    · unfold readSide
      subst hv
      have e4 := hnew 4 _ rfl
      have e3 := hnew 3 _ rfl
      rw [show w.length + 4 + 1 = w.length + 5 from rfl] at e4
      rw [show w.length + 3 + 1 = w.length + 4 from rfl] at e3
      rw [e4]
      dsimp only
      rw [e3]
      dsimp only
      rw [(h.vok.left).read ha, (h.vok.left).read hb]
      rfl

theorem addSides_inv {geo : Geo P D L} {vm : List (Vtx P)} : ∀ (ss : List (Vtx P × Vtx P)) {w : List (Ent P D L)} {es : List ((Nat × Nat) × EdgeData)}, SInv geo w vm es →
    (∀ s ∈ ss, s.1 ∈ vm ∧ s.2 ∈ vm) →
    ∃ v, (addSides geo (w, es) ss).1.1 = w ++ v ∧ SInv geo (w ++ v) vm (addSides geo (w, es) ss).1.2 ∧
      (addSides geo (w, es) ss).2.map (readSide (w ++ v)) = ss.map (fun s => some (s.1.coords, s.2.coords)) ∧
      (∃ c, (addSides geo (w, es) ss).1.2 = es ++ c ∧ ∀ e ∈ c, ∃ s ∈ ss, e.1 = edgeKey s.1.id s.2.id) ∧
      ∀ s ∈ ss, edgeKey s.1.id s.2.id ∈ (addSides geo (w, es) ss).1.2.map (·.1)
  | [], w, es, h, _ => ⟨[], by simp [addSides], by simpa [addSides] using h, by simp [addSides], ⟨[], by simp [addSides], by simp⟩, by simp⟩
  | s :: ss, w, es, h, hs => by
    obtain ⟨v, h1, h2, h3, ⟨c, h4, h4'⟩, h5⟩ := addSide_inv h (hs s (by simp)).1 (hs s (by simp)).2
    rw [addSides]
    generalize hr : addSide geo (w, es) (s.1, s.2) = r at *
    obtain ⟨⟨rw', rs⟩, rn⟩ := r
    dsimp only at h1 h2 h3 h4 h5 ⊢
    subst h1
    obtain ⟨v', k1, k2, k3, ⟨c', k4, k4'⟩, k5⟩ := addSides_inv ss h2 fun t ht => hs t (by simp [ht])
    refine ⟨v ++ v', by rw [k1, List.append_assoc], by rw [← List.append_assoc]; exact k2, ?_, ⟨c ++ c', by rw [k4, h4, List.append_assoc], ?_⟩, ?_⟩
    · rw [List.map_cons, List.map_cons, ← List.append_assoc, k3, readSide_left h3]
    · intro e he
      rw [List.mem_append] at he
      rcases he with he | he
      · exact ⟨s, by simp, h4' e he⟩
      · obtain ⟨t, ht, e'⟩ := k4' e he
        exact ⟨t, by simp [ht], e'⟩
    · intro t ht
      rcases List.mem_cons.1 ht with rfl | ht
      · rw [k4, List.map_append, List.mem_append]
        exact .inl h5
      · exact k5 t ht

/-- the sides of a triangle are sides between vertices in the file -/
theorem sides_mem {w : List (Ent P D L)} {vm : List (Vtx P)} {ps : List P} (h : VInv w vm ps) {t : Tri P D} (ht : ∀ p ∈ corners t, p ∈ ps) :
    (∀ s ∈ sides vm t, s.1 ∈ vm ∧ s.2 ∈ vm) ∧ (sides vm t).map (fun s => (s.1.coords, s.2.coords)) = t.sides := by
  have h0 := look_spec h (ht t.v0 (by simp [corners]))
  have h1 := look_spec h (ht t.v1 (by simp [corners]))
  have h2 := look_spec h (ht t.v2 (by simp [corners]))
  refine ⟨fun s hs => ?_, by simp [sides, Tri.sides, h0.2, h1.2, h2.2]⟩
  simp only [sides, List.mem_cons, List.not_mem_nil, or_false] at hs
  rcases hs with rfl | rfl | rfl
  · exact ⟨h0.1, h1.1⟩
  · exact ⟨h1.1, h2.1⟩
  · exact ⟨h2.1, h0.1⟩

theorem addTri_inv {geo : Geo P D L} {w0 : List (Ent P D L)} {vm : List (Vtx P)} {ps : List P} (h0 : VInv w0 vm ps) {w : List (Ent P D L)} {es : List ((Nat × Nat) × EdgeData)} (h : SInv geo w vm es)
    {t : Tri P D} (ht : ∀ p ∈ corners t, p ∈ ps) :
    ∃ v, (addTri geo vm (w, es) t).1.1 = w ++ v ∧ SInv geo (w ++ v) vm (addTri geo vm (w, es) t).1.2 ∧ readFace (w ++ v) (addTri geo vm (w, es) t).2 = some (faceOf geo t) ∧
      (∃ c, (addTri geo vm (w, es) t).1.2 = es ++ c ∧ ∀ e ∈ c, ∃ s ∈ sides vm t, e.1 = edgeKey s.1.id s.2.id) ∧
      (∀ s ∈ sides vm t, edgeKey s.1.id s.2.id ∈ (addTri geo vm (w, es) t).1.2.map (·.1)) ∧ Has (w ++ v) (addTri geo vm (w, es) t).2 .face := by
  obtain ⟨hs1, hs2⟩ := sides_mem h0 ht
  obtain ⟨v, h1, h2, h3, h4, h5⟩ := addSides_inv (sides vm t) h hs1
  rw [addTri]
  dsimp only
  generalize hr : addSides geo (w, es) (sides vm t) = r at *
  obtain ⟨⟨rw', rs⟩, rn⟩ := r
  dsimp only at h1 h2 h3 h4 h5 ⊢
  subst h1
  have hv0 := look_spec h0 (ht t.v0 (by simp [corners]))
  generalize hu : ([.loop rn, .bound ((w ++ v).length + 1), .direction t.normal, .direction (geo.perp t.normal), .axis (look vm t.v0).pt ((w ++ v).length + 3) ((w ++ v).length + 4),
    .plane ((w ++ v).length + 5), .face ((w ++ v).length + 2) ((w ++ v).length + 6)] : List (Ent P D L)) = u
  have hpt : get (w ++ v) (look vm t.v0).pt = some (.point t.v0) := by rw [(h2.vok _ hv0.1).1, hv0.2]
  have hnew : ∀ k e, u[k]? = some e → get (w ++ v ++ u) ((w ++ v).length + k + 1) = some e := fun k e he => by rw [get_right, he]
  have hrn : allSome (rn.map (readSide (w ++ v))) = some t.sides := by
    rw [allSome_eq, h3, ← hs2, List.map_map]; rfl
  have hok : OkAll (w ++ v) u := by
    subst hu
    refine ⟨?_, ?_, ?_, ?_, ?_, ?_, ?_, trivial⟩
    · intro r hr
      simp only [Ent.refs, List.mem_map] at hr
      obtain ⟨n, hn, rfl⟩ := hr
      dsimp only
      have h6 := allSome_eq.1 hrn
      have : readSide (w ++ v) n ∈ t.sides.map some := h6 ▸ List.mem_map.2 ⟨n, hn, rfl⟩
      obtain ⟨s, -, hs⟩ := List.mem_map.1 this
      unfold readSide at hs
      split at hs
      · rename_i e f he
        exact ⟨_, he, rfl⟩
      · exact nomatch hs
    · intro r hr
      simp only [Ent.refs, List.mem_singleton] at hr
      subst hr
      exact Has.new [_] (k := 0) rfl rfl rfl
    · intro r hr; simp [Ent.refs] at hr
    · intro r hr; simp [Ent.refs] at hr
    · intro r hr
      simp only [Ent.refs, List.mem_cons, List.not_mem_nil, or_false] at hr
      rcases hr with rfl | rfl | rfl
      · exact (show Has (w ++ v) (look vm t.v0).pt .point from ⟨_, hpt, rfl⟩).left.left.left.left
      · rw [List.append_assoc (w ++ v), List.append_assoc (w ++ v), List.append_assoc (w ++ v)]; exact Has.new [_, _, _, _] (k := 2) rfl rfl rfl
      · rw [List.append_assoc (w ++ v), List.append_assoc (w ++ v), List.append_assoc (w ++ v)]; exact Has.new [_, _, _, _] (k := 3) rfl rfl rfl
    · intro r hr
      simp only [Ent.refs, List.mem_singleton] at hr
      subst hr
      rw [List.append_assoc (w ++ v), List.append_assoc (w ++ v), List.append_assoc (w ++ v), List.append_assoc (w ++ v)]; exact Has.new [_, _, _, _, _] (k := 4) rfl rfl rfl
    · intro r hr
      simp only [Ent.refs, List.mem_cons, List.not_mem_nil, or_false] at hr
      rcases hr with rfl | rfl
      · rw [List.append_assoc (w ++ v), List.append_assoc (w ++ v), List.append_assoc (w ++ v), List.append_assoc (w ++ v), List.append_assoc (w ++ v)]
        exact Has.new [_, _, _, _, _, _] (k := 1) rfl rfl rfl
      · rw [List.append_assoc (w ++ v), List.append_assoc (w ++ v), List.append_assoc (w ++ v), List.append_assoc (w ++ v), List.append_assoc (w ++ v)]
        exact Has.new [_, _, _, _, _, _] (k := 5) rfl rfl rfl
  have hkind : ∀ e ∈ u, e.kind ≠ .point ∧ e.kind ≠ .edge := by
    subst hu
    intro e he
    simp only [List.mem_cons, List.not_mem_nil, or_false] at he
    rcases he with rfl | rfl | rfl | rfl | rfl | rfl | rfl <;> exact ⟨nofun, nofun⟩
  refine ⟨v ++ u, by rw [List.append_assoc], by rw [← List.append_assoc]; exact h2.append hok hkind, ?_, h4, h5, ?_⟩
  · rw [← List.append_assoc]
    have e6 : get (w ++ v ++ u) ((w ++ v).length + 7) = some (.face ((w ++ v).length + 2) ((w ++ v).length + 6)) := by subst hu; exact hnew 6 _ rfl
    have e5 : get (w ++ v ++ u) ((w ++ v).length + 6) = some (.plane ((w ++ v).length + 5)) := by subst hu; exact hnew 5 _ rfl
    have e4 : get (w ++ v ++ u) ((w ++ v).length + 5) = some (.axis (look vm t.v0).pt ((w ++ v).length + 3) ((w ++ v).length + 4)) := by subst hu; exact hnew 4 _ rfl
    have e3 : get (w ++ v ++ u) ((w ++ v).length + 4) = some (.direction (geo.perp t.normal)) := by subst hu; exact hnew 3 _ rfl
    have e2 : get (w ++ v ++ u) ((w ++ v).length + 3) = some (.direction t.normal) := by subst hu; exact hnew 2 _ rfl
    have e1 : get (w ++ v ++ u) ((w ++ v).length + 2) = some (.bound ((w ++ v).length + 1)) := by subst hu; exact hnew 1 _ rfl
    have e0 : get (w ++ v ++ u) ((w ++ v).length + 1) = some (.loop rn) := by subst hu; exact hnew 0 _ rfl
    have ep : readPlane (w ++ v ++ u) ((w ++ v).length + 6) = some (t.v0, t.normal, geo.perp t.normal) := by
      unfold readPlane
      rw [e5]; dsimp only; rw [e4]; dsimp only; rw [get_left hpt, e2, e3]
    unfold readFace
    rw [e6]; dsimp only; rw [e1]; dsimp only; rw [e0]; dsimp only
    rw [allSome_left (fun n x => readSide_left) hrn, ep]
    rfl
  · rw [← List.append_assoc]
    exact ⟨_, by subst hu; exact hnew 6 _ rfl, rfl⟩

end Verif.Step
