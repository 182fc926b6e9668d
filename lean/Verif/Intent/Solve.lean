import Verif.Intent.Props

/-!
# Properties of assembly intents: C360 to C363
-/

namespace Verif.Intent

/-! ## specification -/

/-- every geometry is filed under its own name -/
def Keyed (refs : Refs) : Prop := ∀ e ∈ refs, e.1 = e.2.name

/-- the requirement is a contact of a part with the cylinder filed under the target, whose radius is `r` -/
def Touches (refs : Refs) (q : Req) (part : Name) (r : Option ℝ) : Prop :=
  ∃ n s t g, q = .contact n part s t ∧ dget refs t = some g ∧ g.kind = .cylinder ∧ g.radius = r

/-! ## lemmas -/

theorem dget_isSome {V : Type} (d : List (Name × V)) (k : Name) : (dget d k).isSome ↔ ∃ e ∈ d, e.1 = k := by
  simp [dget, List.find?_isSome]

theorem find_isSome (refs : Refs) (t : Name) : (findTarget refs t).isSome ↔ ∃ e ∈ refs, e.1 = t ∨ e.2.name = t := by
  simp [findTarget, List.find?_isSome]

theorem dget_dset {V : Type} (d : List (Name × V)) (k k' : Name) (v : V) : dget (dset d k v) k' = if k' = k then some v else dget d k' := by
  induction d with
  | nil => by_cases h : k = k' <;> simp [dset, dget, h, eq_comm]
  | cons e d ih =>
    simp only [dget] at ih
    by_cases h : e.1 = k
    · by_cases h' : k' = k
      · simp [dset, dget, h, h']
      · have : ¬ k = k' := fun x => h' x.symm
        simp [dset, dget, h, h', this]
    · by_cases h' : e.1 = k'
      · have : ¬ k' = k := fun x => h (h'.trans x)
        simp [dset, dget, h, h', this]
      · simp [dset, dget, h, h', ih]

theorem mem_dset {V : Type} (d : List (Name × V)) (k : Name) (v : V) (e : Name × V) (h : e ∈ dset d k v) : e ∈ d ∨ e = (k, v) := by
  induction d with
  | nil => simp [dset] at h; exact .inr h
  | cons x d ih =>
    simp only [dset] at h
    split at h
    · rcases List.mem_cons.1 h with h | h
      · exact .inr h
      · exact .inl (List.mem_cons_of_mem _ h)
    · rcases List.mem_cons.1 h with h | h
      · exact .inl (h ▸ List.mem_cons_self)
      · rcases ih h with h | h
        · exact .inl (List.mem_cons_of_mem _ h)
        · exact .inr h

theorem implied_error (refs : Refs) (q : Req) (l : List Spec) : implied refs q = .ok l →
    l.filterMap errorOf = match q with
      | .contact _ _ _ t => if (findTarget refs t).isSome then [] else [t]
      | _ => [] := by
  intro h
  cases q with
  | contact n p s t =>
    cases h
    simp only [contactSpecs]
    rcases findTarget refs t with _ | g
    · rfl
    · cases hk : g.kind <;> simp [hk, errorOf]
  | roll p a d =>
    cases h
    simp only [rollSpecs]
    split_ifs
    · split <;> simp [errorOf]
    · simp [errorOf]
  | orient p a o r w =>
    cases h
    cases o <;> simp only [orientSpecs]
    · split
      · split_ifs <;> simp [errorOf]
      · simp [errorOf]
    · split <;> simp [errorOf]
    · split <;> simp [errorOf]
    · simp [errorOf]
    · simp
  | parallel p a b =>
    simp only [implied, parallelSpecs] at h
    split at h
    · cases h
    · split at h
      · cases h
      · cases h; simp [errorOf]
  | reach p lo hi => cases h; simp [errorOf]

theorem errors_eq (i : Intent) (cs : List Spec) (h : i.collect = .ok cs) :
    cs.filterMap errorOf = i.reqs.filterMap fun q => match q with
      | .contact _ _ _ t => if (findTarget i.refs t).isSome then none else some t
      | _ => none := by
  obtain ⟨ls, hf, rfl⟩ := C359_all i cs h
  have hm : (i.conns.map fun c => Spec.mate c.mate).filterMap errorOf = [] := by
    rw [List.filterMap_eq_nil_iff]
    intro s hs
    obtain ⟨c, -, rfl⟩ := List.mem_map.1 hs
    rfl
  rw [List.filterMap_append, hm, List.append_nil]
  clear h hm
  generalize i.reqs = qs at hf
  induction hf with
  | nil => rfl
  | cons h1 _ ih =>
    rename_i q l qs ls _
    have e1 := implied_error _ _ _ h1
    clear h1
    rw [List.flatten_cons, List.filterMap_append, ih, e1, List.filterMap_cons]
    cases q with
    | contact n p s t => by_cases h : (findTarget i.refs t).isSome = true <;> simp [h]
    | _ => rfl

/-! ## C360 -/

/-- C360: solving succeeds if and only if the target of every contact is known, by the name it is filed under or its own; there is an error for each contact whose target is not, in the order of the requirements. -/
theorem C360_success (i : Intent) (r : Result) (h : i.solve = .ok r) :
    (r.success = true ↔ ∀ n p s t, Req.contact n p s t ∈ i.reqs → ∃ e ∈ i.refs, e.1 = t ∨ e.2.name = t) ∧ (r.success = true ↔ r.errors = []) ∧
    (∀ t, t ∈ r.errors ↔ ∃ n p s, Req.contact n p s t ∈ i.reqs ∧ ∀ e ∈ i.refs, e.1 ≠ t ∧ e.2.name ≠ t) ∧ i.collect = .ok r.constraints := by
  unfold Intent.solve at h
  split at h
  · cases h
  · rename_i cs hc
    cases h
    have he := errors_eq i cs hc
    have hm : ∀ t, t ∈ cs.filterMap errorOf ↔ ∃ n p s, Req.contact n p s t ∈ i.reqs ∧ ∀ e ∈ i.refs, e.1 ≠ t ∧ e.2.name ≠ t := by
      intro t
      rw [he, List.mem_filterMap]
      constructor
      · rintro ⟨q, hq, hq'⟩
        cases q with
        | contact n p s t' =>
          simp only at hq'
          split_ifs at hq' with hs
          cases hq'
          rw [find_isSome] at hs
          push Not at hs
          exact ⟨n, p, s, hq, hs⟩
        | _ => simp at hq'
      · rintro ⟨n, p, s, hq, hn⟩
        refine ⟨_, hq, ?_⟩
        have : ¬ (findTarget i.refs t).isSome := by
          rw [find_isSome]; push Not; exact hn
        simp only [if_neg this]
    have hs : (cs.filterMap errorOf).isEmpty = true ↔ cs.filterMap errorOf = [] := List.isEmpty_iff
    refine ⟨?_, hs, hm, hc⟩
    rw [hs, List.eq_nil_iff_forall_not_mem]
    constructor
    · intro h n p s t hq
      by_contra hc'
      push Not at hc'
      exact h t ((hm t).2 ⟨n, p, s, hq, hc'⟩)
    · intro h t ht
      obtain ⟨n, p, s, hq, hn⟩ := (hm t).1 ht
      obtain ⟨e, he1, he2⟩ := h n p s t hq
      rcases he2 with he2 | he2
      · exact (hn e he1).1 he2
      · exact (hn e he1).2 he2

theorem key_inj {a b : Name} (h : radiusKey a = radiusKey b) : a = b := List.append_cancel_right h

theorem derive1_touch (refs : Refs) (d : List (Name × Option ℝ)) (q : Req) (part : Name) (r : Option ℝ) (h : Touches refs q part r) : dget (derive1 refs d q) (radiusKey part) = some r := by
  obtain ⟨n, s, t, g, rfl, h1, h2, rfl⟩ := h
  simp [derive1, h1, h2, dget_dset]

theorem derive1_not (refs : Refs) (d : List (Name × Option ℝ)) (q : Req) (part : Name) (h : ∀ r, ¬ Touches refs q part r) : dget (derive1 refs d q) (radiusKey part) = dget d (radiusKey part) := by
  unfold derive1
  split
  · rename_i n p s t
    split
    · rename_i g hg
      split_ifs with hk
      · rw [dget_dset, if_neg]
        intro e
        cases key_inj e
        exact h g.radius ⟨n, s, t, g, rfl, hg, hk, rfl⟩
      · rfl
    · rfl
  · rfl

/-- C360: the contact radius derived for a part is the radius of the cylinder of its last contact with a cylinder; without such a contact there is none. -/
theorem C360_radius (i : Intent) (r : Result) (h : i.solve = .ok r) (part : Name) (v : Option ℝ) :
    dget r.derived (radiusKey part) = some v ↔ ∃ xs q ys, i.reqs = xs ++ q :: ys ∧ Touches i.refs q part v ∧ ∀ q' ∈ ys, ∀ w, ¬ Touches i.refs q' part w := by
  unfold Intent.solve at h
  split at h
  · cases h
  · cases h
    simp only
    generalize i.reqs = qs
    induction qs using List.reverseRecOn with
    | nil => simp [dget]
    | append_singleton qs q ih =>
      rw [List.foldl_append, List.foldl_cons, List.foldl_nil]
      by_cases hq : ∃ w, Touches i.refs q part w
      · obtain ⟨w, hw⟩ := hq
        rw [derive1_touch _ _ _ _ _ hw]
        constructor
        · rintro ⟨⟩
          exact ⟨qs, q, [], rfl, hw, by simp⟩
        · rintro ⟨xs, q', ys, e, ht, hn⟩
          rcases List.eq_nil_or_concat ys with rfl | ⟨zs, z, rfl⟩
          · have := List.append_inj' e rfl
            simp only [List.cons.injEq, and_true] at this
            obtain ⟨-, rfl⟩ := this
            obtain ⟨n, s, t, g, e1, e2, e3, rfl⟩ := hw
            obtain ⟨n', s', t', g', e1', e2', e3', rfl⟩ := ht
            rw [e1] at e1'
            cases e1'
            rw [e2] at e2'
            cases e2'
            rfl
          · rw [List.concat_eq_append, ← List.cons_append, ← List.append_assoc] at e
            have := (List.append_inj' e rfl).2
            simp only [List.cons.injEq, and_true] at this
            subst this
            exact absurd hw (hn q (by simp) w)
      · push Not at hq
        rw [derive1_not _ _ _ _ hq, ih]
        constructor
        · rintro ⟨xs, q', ys, rfl, ht, hn⟩
          refine ⟨xs, q', ys ++ [q], by simp, ht, ?_⟩
          intro q'' hq''
          rcases List.mem_append.1 hq'' with h | h
          · exact hn q'' h
          · rw [List.mem_singleton.1 h]; exact hq
        · rintro ⟨xs, q', ys, e, ht, hn⟩
          rcases List.eq_nil_or_concat ys with rfl | ⟨zs, z, rfl⟩
          · have := (List.append_inj' e rfl).2
            simp only [List.cons.injEq, and_true] at this
            subst this
            exact absurd ht (hq v)
          · rw [List.concat_eq_append, ← List.cons_append, ← List.append_assoc] at e
            exact ⟨xs, q', zs, (List.append_inj' e rfl).1, ht, fun q'' h => hn q'' (by simp [h])⟩

/-- a wheel in a tube -/
def wheel : Intent := ⟨[.contact "c".toList "wheel".toList "tire".toList "tube".toList, .parallel "wheel".toList "hub".toList "arm.bore".toList], [⟨"arm.end".toList, "wheel".toList, .revolute, none, some (-15, 15)⟩],
  [("tube".toList, ⟨"tube".toList, .cylinder, some ⟨0, 0, 0⟩, some ⟨0, 0, 1⟩, some 175, none, true⟩)]⟩

/-- the wheel's intent is solved, with the radius of the tube -/
example : ∃ r, wheel.solve = .ok r ∧ r.success = true ∧ dget r.derived (radiusKey "wheel".toList) = some (some 175) := by
  refine ⟨_, rfl, rfl, ?_⟩
  simp [wheel, derive1, dget, dset, radiusKey]

/-! ## C361 -/

/-- C361: `validate` has a message for every contact whose target is not filed under that name, and one for every part with a requirement that no connection has at an end; there are no others, and none twice for a part. -/
theorem C361_issues (i : Intent) :
    (∀ n t, Issue.unknownGeometry n t ∈ i.validate ↔ ∃ p s, Req.contact n p s t ∈ i.reqs ∧ ∀ e ∈ i.refs, e.1 ≠ t) ∧
    (∀ p, Issue.unconnected p ∈ i.validate ↔ (∃ q ∈ i.reqs, q.part = p) ∧ ∀ c ∈ i.conns, partOf c.parent ≠ p ∧ partOf c.child ≠ p) ∧
    ∀ p, i.validate.count (.unconnected p) ≤ 1 := by
  have hu : ∀ p, Issue.unconnected p ∉ i.reqs.filterMap (unknownOf i.refs) := by
    intro p h
    obtain ⟨q, -, hq⟩ := List.mem_filterMap.1 h
    cases q <;> simp [unknownOf] at hq
  have hconn : ∀ p, p ∈ i.connected ↔ ∃ c ∈ i.conns, partOf c.parent = p ∨ partOf c.child = p := by
    intro p
    simp [Intent.connected, eq_comm]
  refine ⟨?_, ?_, ?_⟩
  · intro n t
    unfold Intent.validate
    rw [List.mem_append, List.mem_filterMap]
    constructor
    · rintro (⟨q, hq, e⟩ | h)
      · cases q with
        | contact n' p s t' =>
          simp only [unknownOf] at e
          split_ifs at e with hd
          cases e
          refine ⟨p, s, hq, fun e he h => ?_⟩
          have := (dget_isSome i.refs t).2 ⟨e, he, h⟩
          rw [Option.isNone_iff_eq_none] at hd
          simp [hd] at this
        | _ => simp [unknownOf] at e
      · simp at h
    · rintro ⟨p, s, hq, hn⟩
      refine .inl ⟨_, hq, ?_⟩
      have : (dget i.refs t).isNone := by
        rw [← Option.not_isSome, Bool.not_eq_true', Bool.eq_false_iff]
        rw [Ne, dget_isSome]; push Not; exact hn
      simp [unknownOf, this]
  · intro p
    unfold Intent.validate
    rw [List.mem_append]
    simp only [hu, false_or, List.mem_map, List.mem_filter, List.mem_dedup, List.mem_append, decide_eq_true_eq, Issue.unconnected.injEq, exists_eq_right]
    constructor
    · rintro ⟨h, hn⟩
      refine ⟨h.resolve_right hn, fun c hc => ?_⟩
      rw [hconn] at hn
      push Not at hn
      exact hn c hc
    · rintro ⟨h, hn⟩
      refine ⟨.inl h, ?_⟩
      rw [hconn]
      push Not
      exact hn
  · intro p
    unfold Intent.validate
    rw [List.count_append, List.count_eq_zero_of_not_mem (hu p), Nat.zero_add]
    apply List.nodup_iff_count_le_one.1
    refine List.Nodup.map (fun a b h => by cases h; rfl) ((List.nodup_dedup _).filter _)

/-- C361: if geometries are filed under their own names, as `add_reference_geometry` does, solving succeeds if and only if `validate` reports no unknown geometry. -/
theorem C361_agrees (i : Intent) (hk : Keyed i.refs) (r : Result) (h : i.solve = .ok r) :
    (r.success = true ↔ ∀ n t, Issue.unknownGeometry n t ∉ i.validate) ∧ ∀ g, Keyed (i.addRef g).refs := by
  constructor
  · rw [(C360_success i r h).1]
    constructor
    · intro hs n t hi
      obtain ⟨p, s, hq, hn⟩ := ((C361_issues i).1 n t).1 hi
      obtain ⟨e, he, h' | h'⟩ := hs n p s t hq
      · exact hn e he h'
      · exact hn e he ((hk e he).trans h')
    · intro hs n p s t hq
      by_contra hc
      push Not at hc
      exact hs n t (((C361_issues i).1 n t).2 ⟨p, s, hq, fun e he => (hc e he).1⟩)
  · intro g e he
    rcases mem_dset _ _ _ _ he with h | rfl
    · exact hk e h
    · rfl

/-- without that the two disagree: a geometry known by its own name only is found by the contact, solving succeeds, but `validate` reports it as unknown and no radius is derived -/
theorem C361_disagree : ∃ (i : Intent) (r : Result), i.solve = .ok r ∧ r.success = true ∧ r.derived = [] ∧ ∃ n t, Issue.unknownGeometry n t ∈ i.validate := by
  refine ⟨⟨[.contact ['c'] ['p'] ['s'] ['t']], [], [(['k'], ⟨['t'], .cylinder, none, none, some 1, none, false⟩)]⟩, _, rfl, rfl, ?_, ['c'], ['t'], ?_⟩
  · simp [derive1, dget]
  · simp [Intent.validate, unknownOf, dget]

example : Keyed wheel.refs ∧ Issue.unconnected "wheel".toList ∉ wheel.validate := by
  constructor
  · intro e he
    simp [wheel] at he
    subst he; rfl
  · rw [(C361_issues wheel).2.1]
    rintro ⟨-, h⟩
    exact (h ⟨"arm.end".toList, "wheel".toList, .revolute, none, some (-15, 15)⟩ (by simp [wheel])).2 (by decide)

/-! ## C362 -/

/-- the boxes, moved by the transforms, have a point in common -/
def Overlap (a b : Box) (u v : P3) : Prop :=
  ∃ p : P3, (a.lo.x ≤ p.x - u.x ∧ p.x - u.x ≤ a.hi.x ∧ a.lo.y ≤ p.y - u.y ∧ p.y - u.y ≤ a.hi.y ∧ a.lo.z ≤ p.z - u.z ∧ p.z - u.z ≤ a.hi.z) ∧
    b.lo.x ≤ p.x - v.x ∧ p.x - v.x ≤ b.hi.x ∧ b.lo.y ≤ p.y - v.y ∧ p.y - v.y ≤ b.hi.y ∧ b.lo.z ≤ p.z - v.z ∧ p.z - v.z ≤ b.hi.z

/-- C362 (partial): the result of a clearance is consistent: it has the distance required, and is satisfied only if the distance reported is no smaller. The full property is that it is satisfied only if the parts are that far apart. -/
theorem C362_consistent_partial (c : Clearance) (tr : Name → P3) (bounds : Name → Box) :
    (c.validate tr bounds).required = c.minDistance ∧ ((c.validate tr bounds).satisfied = true ↔ (c.validate tr bounds).required ≤ (c.validate tr bounds).actual) := by
  simp [Clearance.validate]

/-- C362 is violated: the parts are not looked at: a clearance is satisfied for parts that overlap -/
theorem C362_overlapping : ∃ (c : Clearance) (tr : Name → P3) (bounds : Name → Box), 0 < c.minDistance ∧ Overlap (bounds c.partA) (bounds c.partB) (tr c.partA) (tr c.partB) ∧
    (c.validate tr bounds).satisfied = true ∧ 0 < (c.validate tr bounds).actual :=
  ⟨⟨['a'], ['b'], 5⟩, fun _ => ⟨0, 0, 0⟩, fun _ => ⟨⟨0, 0, 0⟩, ⟨1, 1, 1⟩⟩, by norm_num, ⟨⟨0, 0, 0⟩, by norm_num, by norm_num⟩, rfl, by norm_num [Clearance.validate]⟩

/-! ## C363 -/

/-- C363: a contact with a known cylinder puts the surface at its radius around its centre; with a known plane, in that plane; with any other known geometry it implies nothing. -/
theorem C363_contact (refs : Refs) (n p s t : Name) (g : RefGeom) (hg : findTarget refs t = some g) :
    (g.kind = .cylinder → implied refs (.contact n p s t) = .ok [.atRadius p s g.center g.radius]) ∧
    (g.kind = .plane → implied refs (.contact n p s t) = .ok [.inPlane p s g.center g.normal]) ∧
    (g.kind ≠ .cylinder → g.kind ≠ .plane → implied refs (.contact n p s t) = .ok []) := by
  refine ⟨?_, ?_, ?_⟩ <;> intros <;> cases hk : g.kind <;> simp_all [implied, contactSpecs]

/-- C363: rolling in a direction makes the axis perpendicular to that direction, and, along z (either way), also tangent to the first cylinder of the reference geometry if there is one. -/
theorem C363_roll (refs : Refs) (p a : Name) (d : RollDir) :
    ∃ v l, implied refs (.roll p a d) = .ok (l ++ [.perpendicular p a v]) ∧
      (∀ w, d = .vec w → v = w) ∧ (d = .word "-z".toList → v = ⟨0, 0, -1⟩) ∧ (∀ s, d = .word s → s ≠ "-z".toList → v = ⟨0, 0, 1⟩) ∧
      ((v ≠ ⟨0, 0, 1⟩ ∧ v ≠ ⟨0, 0, -1⟩) ∨ (∀ e ∈ refs, e.2.kind ≠ .cylinder) → l = []) ∧
      ∀ xs e ys, refs = xs ++ e :: ys → (∀ x ∈ xs, x.2.kind ≠ .cylinder) → e.2.kind = .cylinder → v = ⟨0, 0, 1⟩ ∨ v = ⟨0, 0, -1⟩ → l = [.tangentTo p a e.2.center e.2.radius] := by
  refine ⟨rollVec d, _, rfl, ?_, ?_, ?_, ?_, ?_⟩
  · rintro w rfl; rfl
  · rintro rfl; simp [rollVec]
  · rintro s rfl h; simp only [rollVec, if_neg h]
  · rintro (⟨h1, h2⟩ | h)
    · rw [if_neg (by rintro (h | h) <;> contradiction)]
    · have : refs.find? (fun e => decide (e.2.kind = .cylinder)) = none := by simpa [List.find?_eq_none] using h
      split_ifs
      · rw [this]
      · rfl
  · rintro xs e ys rfl hx he hv
    rw [if_pos hv, List.find?_append]
    have : xs.find? (fun e => decide (e.2.kind = .cylinder)) = none := by simpa [List.find?_eq_none] using hx
    simp [this, he]

/-- C363: an axis that is to be tangent, radial or axial is put in relation to the reference: to its centre and radius, its centre, or its axis; without a reference to the origin and the z axis. -/
theorem C363_orient (refs : Refs) (p a ref : Name) (away : Bool) :
    (∀ g, dget refs ref = some g →
      (g.kind = .cylinder → implied refs (.orient p a .tangent ref away) = .ok [.tangentTo p a g.center g.radius]) ∧
      implied refs (.orient p a .radial ref away) = .ok [.radialFrom p a g.center away] ∧
      (∀ v, g.axis = some v → implied refs (.orient p a .axial ref away) = .ok [.parallelAxis p a v])) ∧
    ((∀ e ∈ refs, e.1 ≠ ref) →
      implied refs (.orient p a .tangent ref away) = .ok [.tangentTo p a (some ⟨0, 0, 0⟩) none] ∧
      implied refs (.orient p a .radial ref away) = .ok [.radialFrom p a (some ⟨0, 0, 0⟩) away] ∧
      implied refs (.orient p a .axial ref away) = .ok [.parallelAxis p a ⟨0, 0, 1⟩]) ∧
    ∀ d, implied refs (.orient p a (.facing d) ref away) = .ok [.facing p a d] := by
  refine ⟨?_, ?_, fun _ => rfl⟩
  · intro g hg
    refine ⟨fun hk => by simp [implied, orientSpecs, hg, hk], by simp [implied, orientSpecs, hg], fun v hv => by simp [implied, orientSpecs, hg, hv]⟩
  · intro h
    have : dget refs ref = none := by
      rw [← Option.not_isSome_iff_eq_none, dget_isSome]; push Not; exact h
    simp [implied, orientSpecs, this, origin]

/-- C363: parallel axes: `a.x` is the axis `x` of the part `a`, a name without a dot an axis of the requirement's own part. -/
theorem C363_parallel (refs : Refs) (p a x b y : Name) (ha : '.' ∉ a) (hx : '.' ∉ x) (hb : '.' ∉ b) (hy : '.' ∉ y) :
    implied refs (.parallel p (a ++ '.' :: x) (b ++ '.' :: y)) = .ok [.parallelTo a x b y] ∧
    implied refs (.parallel p x (b ++ '.' :: y)) = .ok [.parallelTo p x b y] ∧
    implied refs (.parallel p (a ++ '.' :: x) y) = .ok [.parallelTo a x p y] := by
  simp [implied, parallelSpecs, axisOf, split_dot, split_plain, ha, hx, hb, hy]

example : '.' ∉ "arm".toList ∧ '.' ∉ "bore".toList ∧ findTarget wheel.refs "tube".toList ≠ none := ⟨by decide, by decide, by simp [wheel, findTarget]⟩

end Verif.Intent
