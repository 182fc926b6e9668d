import Verif.Kin.TopoLemmas
import Verif.Kin.TransformProps
import Mathlib.Data.Nat.Lattice
import Mathlib.Data.Int.Order.Basic

/-! # Properties C04, C05, C06, C08, C09, C48 (kinematic chains) -/

namespace Verif.Kin
variable {V T : Type} [LinearOrder V]
set_option linter.unusedSectionVars false

/-! ## C04 -/
section
variable [Monoid T]

/-- C04: in every reachable chain, whatever is cached, `get_world_transform(part, frame)` succeeds
and returns the product along the path from the datum with the *current* joint values (the unique
`Pose`), followed by the frame's offset; the call changes nothing but caches. -/
theorem C04_world_transform_coherent {s : Chain V T} (hr : Reach s) {p : Part V T}
    (hp : p ∈ s.parts) (frame : String) :
    ∃ w s', Chain.getWorld (s.parts.length + 1) s p.name frame = some (some (w * p.offset frame, s')) ∧
      Pose s p.name w ∧ (∀ w', Pose s p.name w' → w' = w) ∧ SameButCache s s' := by
  have hi := reach_inv hr
  have hl : s.sk.length = s.parts.length := by simp [Chain.sk]
  obtain ⟨w, s', he, hw, hs, _⟩ := getWorld_spec hi (s.parts.length + 1) p hp
    (by have := rank_le s.sk p.name; omega) frame
  exact ⟨w, s', he, hw, fun w' h => pose_unique hi.wf h hw, hs⟩

/-- C04: an unknown part name is reported, never answered. -/
theorem C04_unknown_part {s : Chain V T} (n frame : String) (h : ∀ p ∈ s.parts, p.name ≠ n) :
    Chain.getWorld (s.parts.length + 1) s n frame = some none := by
  have : s.find n = none := by
    cases hf : s.find n with
    | none => rfl
    | some p => exact absurd (find_some hf).2 (h p (find_some hf).1)
  simp [Chain.getWorld, this]

/-- C04: setting a joint moves exactly the part and its descendants: every other part keeps its
pose, and the poses afterwards are those of the chain with only that joint value changed. -/
theorem C04_set_joint_local {s s' : Chain V T} (hr : Reach s) {n : String} {v : V} {c : Bool}
    (hex : ∃ p ∈ s.parts, p.name = n) (h : s.setJointValue n v c = .ok (some s')) :
    (∀ m w, ¬ Desc s n m → Pose s m w → Pose s' m w) ∧
    SameButCache (s.modify n fun p => { p with joint := p.joint.setValue v c }) s' := by
  obtain ⟨s1, he, _, hsame⟩ := setJoint_inv (reach_inv hr) n v c hex
  rw [he] at h
  simp only [Except.ok.injEq, Option.some.injEq] at h
  subst h
  exact ⟨fun m w hnd hp => hsame.pose (pose_not_desc _ hp hnd), hsame⟩

/-- The side condition of `Reach` (frames in use are not redefined) is met by every *new* frame
name: no part can be attached to a frame that does not exist. -/
theorem C04_new_frame_free {s : Chain V T} (hr : Reach s) {q : Part V T} (hq : q ∈ s.parts) {f : String}
    (hnew : q.getFrame f = none) : FrameFree s q.name f := by
  intro p hp hpar e
  have := (reach_frameOK hr).attach p hp q.name hpar q hq rfl
  rw [e, hnew] at this
  cases this

end

/-! Concrete chain over the monoid `ℕ` (multiplication), used for the witnesses. -/

def exJoint (base : ℕ) : Joint ℤ ℕ := ⟨.revolute, base, fun v => v.toNat + 1, 0, -5, 5⟩
def exPart (name parent frame : String) (base : ℕ) : Part ℤ ℕ :=
  { name, parent := some parent, parentFrame := frame, joint := exJoint base, frames := [], cache := none }

/-- Run a list of operations. -/
def exRun (ops : List (Op ℤ ℕ)) : Option (Chain ℤ ℕ) :=
  ops.foldlM (fun s o => s.step o) (Chain.init 0 (-5) 5)

/-- world transform after a history -/
def exWorld (ops : List (Op ℤ ℕ)) (n : String) : Option ℕ :=
  match exRun ops with
  | none => none
  | some s => match Chain.getWorld (s.parts.length + 1) s n "ORIGIN" with
    | some (some (w, _)) => some w
    | _ => none

/-- A history with two links, a query that fills caches, a joint change above the queried part. -/
example : exWorld [.addFrame datumName "F" 2, .addPart (exPart "A" datumName "F" 3),
    .addPart (exPart "B" "A" "ORIGIN" 5), .getWorld "B" "ORIGIN", .setJoint "A" 4 true] "B"
    = some (2 * 3 * 5 * 5) := by decide +kernel

/-- C04, negative: redefining a frame *in use* after its children were queried leaves the cached
poses of the children stale: the returned transform differs from the same chain queried only at
the end. -/
theorem C04_stale_after_frame_redefinition :
    exWorld [.addFrame datumName "F" 2, .addPart (exPart "A" datumName "F" 3),
      .getWorld "A" "ORIGIN", .addFrame datumName "F" 7] "A" = some 6 ∧
    exWorld [.addFrame datumName "F" 2, .addPart (exPart "A" datumName "F" 3),
      .addFrame datumName "F" 7] "A" = some 21 := by
  constructor <;> decide +kernel

/-! ## C05 -/
section
variable [Monoid T]

/-- C05: the tree invariant of every reachable chain. Names are unique, the datum is present and is
the only part without a parent, every parent named exists, children lists and parent pointers
agree and have no repetitions, and every attachment frame exists. -/
theorem C05_forest {s : Chain V T} (hr : Reach s) :
    (s.parts.map (·.name)).Nodup ∧
    (∃ d ∈ s.parts, d.name = datumName ∧ d.parent = none) ∧
    (∀ p ∈ s.parts, p.name ≠ datumName → ∃ q ∈ s.parts, p.parent = some q.name) ∧
    (∀ n c, c ∈ s.children n ↔ ∃ p ∈ s.parts, p.name = c ∧ p.parent = some n) ∧
    (∀ n, (s.children n).Nodup) ∧
    (∀ p ∈ s.parts, ∀ q ∈ s.parts, p.parent = some q.name → (q.getFrame p.parentFrame).isSome) := by
  have hi := reach_inv hr
  refine ⟨by have := hi.wf.nodup; rwa [names_sk] at this, ?_, ?_, hi.child, hi.nodup, ?_⟩
  · have := hi.wf.datum
    simp only [Chain.sk, List.mem_map, Prod.mk.injEq] at this
    exact this
  · intro p hp hd
    rcases hi.wf.parent (mem_sk hp) with ⟨hn, _⟩ | ⟨q, hq, hqm, _⟩
    · exact absurd hn hd
    · rw [names_sk] at hqm
      obtain ⟨pq, hpq, e⟩ := List.mem_map.mp hqm
      exact ⟨pq, hpq, by rw [hq, e]⟩
  · intro p hp q hq hpar
    exact (reach_frameOK hr).attach p hp _ hpar q hq rfl

/-- C05: `get_chain_to_root` terminates and lists the path from the part to the datum (provided no
part has the empty name, which Python treats as "no parent"). -/
theorem C05_chain_to_root {s : Chain V T} (hr : Reach s) (hne : ∀ p ∈ s.parts, p.name ≠ "")
    {p : Part V T} (hp : p ∈ s.parts) :
    ∃ L, Chain.toRoot (s.parts.length + 2) s (some p.name) = some L ∧ L.length ≤ s.parts.length ∧
      L.head? = some p.name ∧ L.getLast? = some datumName ∧
      L.IsChain (fun a b => ∃ pa ∈ s.parts, pa.name = a ∧ pa.parent = some b) := by
  have hl : s.sk.length = s.parts.length := by simp [Chain.sk]
  have hrk := rank_le s.sk p.name
  obtain ⟨L, h1, h2, h3⟩ := toRoot_spec (reach_inv hr) hne (s.parts.length + 2) p hp (by omega)
  exact ⟨L, h1, by omega, h3⟩

/-- C05: `get_all_descendants` terminates and lists each strict descendant exactly once. -/
theorem C05_descendants {s : Chain V T} (hr : Reach s) {p : Part V T} (hp : p ∈ s.parts) :
    ∃ L, Chain.descendants (s.parts.length + 1) s p.name = some L ∧ L.Nodup ∧
      ∀ m, m ∈ L ↔ m ≠ p.name ∧ Desc s p.name m := by
  have hi := reach_inv hr
  obtain ⟨L, h1, h2, h3⟩ := descendants_spec (s.parts.length + 1) s hi p.name ⟨p, hp, rfl⟩ (by omega)
  refine ⟨L, h1, h2, fun m => ?_⟩
  rw [h3 m]
  constructor
  · rintro ⟨p1, hp1, e, hd⟩
    refine ⟨?_, Desc.trans (.child hp1 rfl e .refl) hd⟩
    intro em
    have := desc_rank hi.wf hd
    rcases hi.wf.parent (mem_sk hp1) with ⟨_, hnone⟩ | ⟨q, hq, _, hlt⟩
    · rw [e] at hnone; cases hnone
    · rw [e] at hq; cases hq; rw [em] at this; omega
  · rintro ⟨hne, hd⟩
    rcases hd.head with h | ⟨p1, hp1, e, hd⟩
    · exact absurd h hne
    · exact ⟨p1, hp1, e, hd⟩

/-- C05: no operation ever runs away (recursion in `_invalidate_subtree` and
`get_world_transform` is bounded by the number of parts), so histories can be continued. -/
theorem C05_step_total {s : Chain V T} (hr : Reach s) (op : Op V T) : ∃ s', s.step op = some s' := by
  have hi := reach_inv hr
  have hl : s.sk.length = s.parts.length := by simp [Chain.sk]
  cases op with
  | addPart p =>
    simp only [Chain.step]
    cases s.addPart p.postInit <;> exact ⟨_, rfl⟩
  | setJoint n v c =>
    simp only [Chain.step]
    by_cases hex : ∃ p ∈ s.parts, p.name = n
    · obtain ⟨s1, he, _⟩ := setJoint_inv hi n v c hex
      exact ⟨s1, by rw [he]⟩
    · have : s.setJointValue n v c = .error .notFound := by
        unfold Chain.setJointValue
        rw [if_neg]
        rw [find_isSome_iff]
        exact hex
      exact ⟨s, by rw [this]⟩
  | getWorld n f =>
    simp only [Chain.step]
    by_cases hex : ∃ p ∈ s.parts, p.name = n
    · obtain ⟨p, hp, rfl⟩ := hex
      obtain ⟨w, s1, he, _⟩ := getWorld_spec hi (s.parts.length + 1) p hp
        (by have := rank_le s.sk p.name; omega) f
      exact ⟨s1, by rw [he]⟩
    · refine ⟨s, ?_⟩
      rw [C04_unknown_part n f (fun p hp e => hex ⟨p, hp, e⟩)]
  | addFrame n f t => exact ⟨_, rfl⟩

/-- C05: `add_part` is rejected exactly for a duplicate name or an unknown parent. -/
theorem C05_add_part_rejects {s : Chain V T} (p : Part V T) :
    (∃ s', s.addPart p = .ok s') ↔
      (∀ q ∈ s.parts, q.name ≠ p.name) ∧ ∃ q ∈ s.parts, q.name = p.parent.getD datumName := by
  unfold Chain.addPart
  by_cases hdup : (s.find p.name).isSome = true
  · rw [if_pos hdup]
    obtain ⟨q, hq, hn⟩ := find_isSome_iff.mp hdup
    simp only [reduceCtorEq, exists_false, false_iff, not_and]
    intro h
    exact absurd hn (h q hq)
  · rw [if_neg hdup]
    have h1 : ∀ q ∈ s.parts, q.name ≠ p.name := fun q hq e => hdup (find_isSome_iff.mpr ⟨q, hq, e⟩)
    simp only
    cases hq : s.find (p.parent.getD datumName) with
    | none =>
      simp only [reduceCtorEq, exists_false, false_iff, not_and]
      rintro _ ⟨q, hqm, hqn⟩
      have := find_isSome_iff.mpr ⟨q, hqm, hqn⟩
      rw [hq] at this; cases this
    | some q => exact ⟨fun _ => ⟨h1, q, (find_some hq).1, (find_some hq).2⟩, fun _ => ⟨_, rfl⟩⟩

/-- C05: `validate` finds nothing to complain about in any reachable chain. -/
theorem C05_validate_clean {s : Chain V T} (hr : Reach s) (hne : ∀ p ∈ s.parts, p.name ≠ "") :
    s.validate = [] := by
  have hi := reach_inv hr
  obtain ⟨_, _, hpar, _, _, hfr⟩ := C05_forest hr
  unfold Chain.validate
  simp only [List.map_eq_nil_iff, List.append_eq_nil_iff, List.filter_eq_nil_iff, List.mem_filter]
  refine ⟨⟨?_, ?_⟩, ?_⟩
  · rintro p ⟨hp, hd⟩
    simp only [ne_eq, decide_not, Bool.not_eq_eq_eq_not, Bool.not_true, decide_eq_false_iff_not] at hd
    obtain ⟨q, hq, e⟩ := hpar p hp hd
    simp [e, find_of_mem hi.wf hq]
  · rintro p ⟨hp, hd⟩
    simp only [ne_eq, decide_not, Bool.not_eq_eq_eq_not, Bool.not_true, decide_eq_false_iff_not] at hd
    obtain ⟨q, hq, e⟩ := hpar p hp hd
    have := hfr p hp q hq e
    simp [e, find_of_mem hi.wf hq]
    intro _ h
    rw [h] at this; cases this
  · intro p hp
    obtain ⟨L, h1, h2, _⟩ := C05_chain_to_root hr hne hp
    simp only [h1, decide_eq_true_eq]
    omega

end

/-- A reachable two-link chain whose path and descendants are computed. -/
example : (exRun [.addPart (exPart "A" datumName "ORIGIN" 3), .addPart (exPart "B" "A" "X" 5),
      .addPart (exPart "C" "A" "X" 5), .addPart (exPart "A" "B" "X" 5), .addPart (exPart "D" "Q" "X" 5)]).map
    (fun s => (Chain.toRoot 10 s (some "B"), Chain.descendants 10 s datumName, s.validate)) =
    some (some ["B", "A", datumName], some ["A", "B", "C"], []) := by decide +kernel

/-! ## C06 -/

/-- C06: whatever the iteration order of Python's sets, `_topological_sort` terminates and returns
every name exactly once (even for cyclic data). -/
theorem C06_topo_perm (ord : List String → List String) (hord : ∀ l, (ord l).Perm l)
    (data : List (String × Option String)) (hnd : (data.map (·.1)).Nodup) :
    ∃ L, topoSort ord data = some L ∧ L.Perm (data.map (·.1)) :=
  topoLoop_perm ord hord _ _ _ hnd (by simp)

/-- C06: and if the parent relation has no cycle (some rank decreases towards parents), every part
comes after its parent. Parents named `""` are falsy in Python and hence excluded. -/
theorem C06_parents_first (ord : List String → List String) (hord : ∀ l, (ord l).Perm l)
    (data : List (String × Option String)) (hnd : (data.map (·.1)).Nodup)
    (r : String → ℕ) (hacyc : ∀ n q, (n, some q) ∈ data → q ∈ data.map (·.1) → r q < r n)
    {L : List String} (hL : topoSort ord data = some L) {n q : String} (hn : (n, some q) ∈ data)
    (hq : q ∈ data.map (·.1)) (hq0 : q ≠ "") {pre post : List String} (hsplit : L = pre ++ n :: post) :
    q ∈ pre := by
  have lk : ∀ n q, (n, some q) ∈ data → data.lookup n = some (some q) := by
    intro n q h
    clear hacyc hL hn hq
    induction data with
    | nil => simp at h
    | cons e data ih =>
      obtain ⟨k, v⟩ := e
      rw [List.lookup_cons]
      simp only [List.map_cons, List.nodup_cons] at hnd
      rcases List.mem_cons.mp h with h | h
      · simp only [Prod.mk.injEq] at h
        simp [h.1, h.2]
      · have : n ≠ k := fun e => hnd.1 (e ▸ List.mem_map.mpr ⟨_, h, rfl⟩)
        have : (n == k) = false := by simpa using this
        simp only [this]
        exact ih hnd.2 h
  refine topoLoop_sorted ord hord (topoDep data) r ?_ data.length _ L hnd hL pre n post hsplit q ?_ hq
  · intro n q h
    unfold topoDep at h
    cases hl : data.lookup n with
    | none => simp [hl] at h
    | some o =>
      cases o with
      | none => simp [hl] at h
      | some q' =>
        simp only [hl, Option.getD_some] at h
        split_ifs at h with hc
        simp only [Option.some.injEq] at h
        subst h
        refine hacyc n q' ?_ hc.2
        obtain ⟨l1, l2, he, _⟩ := List.lookup_eq_some_iff.mp hl
        rw [he]; simp
  · unfold topoDep
    rw [lk n q hn]
    simp only [Option.getD_some]
    rw [if_pos ⟨hq0, hq⟩]

/-- The dictionary order is children-first; the result is parents-first. -/
example : topoSort id [("C", some "B"), ("B", some "A"), ("A", none), ("D", some "B")] =
    some ["A", "B", "C", "D"] := by decide +kernel
example : ∀ n q, (n, some q) ∈ [("C", some "B"), ("B", some "A"), ("A", none), ("D", some "B")] →
    (fun n => if n = "A" then 0 else if n = "B" then 1 else 2 : String → ℕ) q <
    (fun n => if n = "A" then 0 else if n = "B" then 1 else 2 : String → ℕ) n := by
  intro n q h
  simp at h
  rcases h with ⟨rfl, rfl⟩ | ⟨rfl, rfl⟩ | ⟨rfl, rfl⟩ <;> decide
/-- A cycle is still listed once each. -/
example : topoSort id [("A", some "B"), ("B", some "A"), ("C", none)] = some ["C", "A", "B"] := by
  decide +kernel

/-! ## C48 -/
section
variable [Monoid T]

/-- C48: exporting a reachable chain with `to_dict` and loading it with `from_dict` succeeds and
gives a chain with the same part names and the same pose for every part, provided nothing is
attached to a custom frame of the datum and no part has the empty name. -/
theorem C48_chain_roundtrip {s : Chain V T} (hr : Reach s) (hne : ∀ p ∈ s.parts, p.name ≠ "")
    (hor : ∀ p ∈ s.parts, p.parent = some datumName → p.parentFrame = "ORIGIN")
    (ord : List String → List String) (hord : ∀ l, (ord l).Perm l) (v0 vmin vmax : V) :
    ∃ s', Chain.fromDict v0 vmin vmax ord s.toDict = some (.ok s') ∧
      (∀ n w, Pose s' n w ↔ Pose s n w) ∧
      (s'.parts.map (·.name)).Perm (s.parts.map (·.name)) := by
  have hi := reach_inv hr
  have hf := reach_frameOK hr
  obtain ⟨hnames, ⟨d0, hd0, hd0n, hd0p⟩, hpar, _, _, _⟩ := C05_forest hr
  set ps := s.parts.reverse.filter (fun p => p.name ≠ datumName) with hps
  have hpsm : ∀ p, p ∈ ps ↔ p ∈ s.parts ∧ p.name ≠ datumName := by
    intro p; simp [hps, List.mem_filter]
  have hpsn : (ps.map (·.name)).Nodup := by
    have h1 : (s.parts.reverse.map (·.name)).Nodup := by
      rw [List.map_reverse, List.nodup_reverse]; exact hnames
    exact h1.sublist (List.Sublist.map _ List.filter_sublist)
  set data : List (String × Option String) := ps.map (fun p => (p.name, p.parent)) with hdata
  have hd1 : s.toDict.map (fun d => (d.1, d.2.parent)) = data := by
    simp [Chain.toDict, hdata, hps, Function.comp_def]
  have hkeys : data.map (·.1) = ps.map (·.name) := by simp [hdata, Function.comp_def]
  have hdn : (data.map (·.1)).Nodup := by rw [hkeys]; exact hpsn
  obtain ⟨names, hnm, hperm⟩ := C06_topo_perm ord hord data hdn
  have hacyc : ∀ n q, (n, some q) ∈ data → q ∈ data.map (·.1) → rank s.sk q < rank s.sk n := by
    intro n q hm _
    obtain ⟨p, hp, e⟩ := List.mem_map.mp hm
    simp only [Prod.mk.injEq] at e
    rcases hi.wf.parent (mem_sk ((hpsm p).mp hp).1) with ⟨_, hnone⟩ | ⟨q', hq', _, hlt⟩
    · rw [e.2] at hnone; cases hnone
    · rw [e.2] at hq'; cases hq'; rw [← e.1]; exact hlt
  -- the parts in sorted order
  have hlook : ∀ p ∈ ps, s.toDict.lookup p.name = some { p with cache := none } := by
    intro p hp
    have : ∀ l : List (Part V T), (l.map (·.name)).Nodup → p ∈ l →
        (l.map fun p => (p.name, ({ p with cache := none } : Part V T))).lookup p.name =
          some { p with cache := none } := by
      intro l
      induction l with
      | nil => intro _ h; simp at h
      | cons a l ih =>
        intro hn h
        simp only [List.map_cons, List.nodup_cons] at hn
        simp only [List.map_cons, List.lookup_cons]
        rcases List.mem_cons.mp h with rfl | h
        · simp
        · have : p.name ≠ a.name := fun e => hn.1 (e ▸ List.mem_map.mpr ⟨p, h, rfl⟩)
          have : (p.name == a.name) = false := by simpa using this
          simp only [this]
          exact ih hn.2 h
    exact this ps hpsn hp
  obtain ⟨L, hLmem, hLeq, hLn⟩ : ∃ L : List (Part V T), (∀ p ∈ L, p ∈ ps) ∧
      names.filterMap (fun n => s.toDict.lookup n) = L.map (fun p => { p with cache := none }) ∧
      L.map (·.name) = names := by
    have : ∀ ns : List String, (∀ n ∈ ns, n ∈ ps.map (·.name)) → ∃ L : List (Part V T), (∀ p ∈ L, p ∈ ps) ∧
        ns.filterMap (fun n => s.toDict.lookup n) = L.map (fun p => { p with cache := none }) ∧
        L.map (·.name) = ns := by
      intro ns
      induction ns with
      | nil => intro _; exact ⟨[], by simp, by simp, by simp⟩
      | cons n ns ih =>
        intro h
        obtain ⟨L, h1, h2, h3⟩ := ih (fun m hm => h m (List.mem_cons_of_mem _ hm))
        obtain ⟨p, hp, rfl⟩ := List.mem_map.mp (h n (by simp))
        refine ⟨p :: L, ?_, ?_, by simp [h3]⟩
        · intro p' hp'
          rcases List.mem_cons.mp hp' with rfl | hp'
          · exact hp
          · exact h1 p' hp'
        · simp only [List.filterMap_cons, hlook p hp, List.map_cons, h2]
    exact this names (fun n hn => by rw [← hkeys]; exact hperm.mem_iff.mp hn)
  set c0 : Chain V T := Chain.init v0 vmin vmax with hc0
  have hpf : ∀ pre p post, L = pre ++ p :: post → ∀ q, p.parent = some q → q ≠ datumName →
      ∃ pq ∈ pre, pq.name = q := by
    intro pre p post e q hq hqd
    have hpL : p ∈ ps := hLmem p (by rw [e]; simp)
    have hps' := (hpsm p).mp hpL
    obtain ⟨pq, hpq, epq⟩ := hpar p hps'.1 hps'.2
    rw [hq] at epq
    simp only [Option.some.injEq] at epq
    have hqk : q ∈ data.map (·.1) := by
      rw [hkeys, epq]
      exact List.mem_map.mpr ⟨pq, (hpsm pq).mpr ⟨hpq, epq ▸ hqd⟩, rfl⟩
    have hmem : (p.name, some q) ∈ data := by
      rw [hdata, ← hq]
      exact List.mem_map.mpr ⟨p, hpL, rfl⟩
    have := C06_parents_first ord hord data hdn (rank s.sk) hacyc hnm hmem hqk
      (by rw [epq]; exact hne pq hpq) (pre := pre.map (·.name)) (post := post.map (·.name))
      (by rw [← hLn, e]; simp)
    exact List.mem_map.mp this
  obtain ⟨c', hc', hparts⟩ := addAll_spec hf hor
    (fun p hp hd => by obtain ⟨q, _, e⟩ := hpar p hp hd; exact ⟨_, e⟩)
    { name := datumName, parent := none, parentFrame := "ORIGIN",
      joint := ⟨.fixed, 1, fun _ => 1, v0, vmin, vmax⟩, frames := [("ORIGIN", 1)], cache := some 1 }
    rfl (by simp [Part.getFrame, List.lookup]) L [] c0 (by simp [hc0, Chain.init]) (by simp)
    (fun p hp => (hpsm p).mp (hLmem p hp))
    (by simp only [List.nil_append, hLn]; exact hperm.nodup_iff.mpr hdn)
    (fun pre p post e q hq hqd => by simpa using hpf pre p post e q hq hqd)
  refine ⟨c', ?_, ?_, ?_⟩
  · simp only [Chain.fromDict, hd1, hnm, hLeq]
    rw [hc']
  · simp only [List.nil_append] at hparts
    have hLall : ∀ p ∈ ps, p ∈ L := by
      intro p hp
      have : p.name ∈ L.map (·.name) := by
        rw [hLn]
        exact hperm.mem_iff.mpr (by rw [hkeys]; exact List.mem_map.mpr ⟨p, hp, rfl⟩)
      obtain ⟨p', hp', e⟩ := List.mem_map.mp this
      have := part_unique hi.wf ((hpsm p').mp (hLmem p' hp')).1 ((hpsm p).mp hp).1 e
      exact this ▸ hp'
    have hsim1 : Sim s c' := by
      refine ⟨⟨_, by rw [hparts]; exact List.mem_append_right _ (List.mem_singleton.mpr rfl), rfl⟩, ?_⟩
      intro p hp hd
      refine ⟨{ p with cache := none }, ?_, rfl⟩
      rw [hparts, List.mem_append, List.mem_reverse]
      exact .inl (List.mem_map.mpr ⟨p, hLall p ((hpsm p).mpr ⟨hp, hd⟩), rfl⟩)
    have hsim2 : Sim c' s := by
      refine ⟨⟨d0, hd0, hd0n⟩, ?_⟩
      intro p hp hd
      rw [hparts, List.mem_append, List.mem_reverse, List.mem_singleton] at hp
      rcases hp with hp | rfl
      · obtain ⟨p0, h0, rfl⟩ := List.mem_map.mp hp
        exact ⟨p0, ((hpsm p0).mp (hLmem p0 h0)).1, rfl⟩
      · exact absurd rfl hd
    have hor' : ∀ p ∈ c'.parts, p.parent = some datumName → p.parentFrame = "ORIGIN" := by
      intro p hp hpp
      rw [hparts, List.mem_append, List.mem_reverse, List.mem_singleton] at hp
      rcases hp with hp | rfl
      · obtain ⟨p0, h0, rfl⟩ := List.mem_map.mp hp
        exact hor p0 ((hpsm p0).mp (hLmem p0 h0)).1 hpp
      · cases hpp
    exact fun n w => ⟨hsim2.pose hor', hsim1.pose hor⟩
  · rw [hparts]
    simp only [List.nil_append, List.map_append, List.map_reverse, List.map_map, Function.comp_def,
      List.map_cons, List.map_nil]
    rw [List.perm_ext_iff_of_nodup _ hnames]
    · intro n
      simp only [List.mem_append, List.mem_reverse, List.mem_singleton, hLn]
      rw [hperm.mem_iff, hkeys]
      constructor
      · rintro (h | rfl)
        · obtain ⟨p, hp, rfl⟩ := List.mem_map.mp h
          exact List.mem_map.mpr ⟨p, ((hpsm p).mp hp).1, rfl⟩
        · exact List.mem_map.mpr ⟨d0, hd0, hd0n⟩
      · intro h
        obtain ⟨p, hp, rfl⟩ := List.mem_map.mp h
        by_cases hd : p.name = datumName
        · exact .inr hd
        · exact .inl (List.mem_map.mpr ⟨p, (hpsm p).mpr ⟨hp, hd⟩, rfl⟩)
    · rw [hLn]
      refine List.Nodup.append ?_ (by simp) ?_
      · rw [List.nodup_reverse]; exact hperm.nodup_iff.mpr hdn
      · intro n h1 h2
        simp only [List.mem_singleton] at h2
        rw [List.mem_reverse, hperm.mem_iff, hkeys] at h1
        obtain ⟨p, hp, e⟩ := List.mem_map.mp h1
        exact ((hpsm p).mp hp).2 (e.trans h2)

end

/-- World transform of `n` after loading the exported chain. -/
def exReload (ops : List (Op ℤ ℕ)) (n : String) : Option ℕ :=
  match exRun ops with
  | none => none
  | some s => match Chain.fromDict 0 (-5) 5 id s.toDict with
    | some (.ok s') => match Chain.getWorld (s'.parts.length + 1) s' n "ORIGIN" with
      | some (some (w, _)) => some w
      | _ => none
    | _ => none

/-- A chain meeting the hypotheses: attachment to a custom frame of a link survives. -/
example : exReload [.addPart (exPart "A" datumName "ORIGIN" 3), .addFrame "A" "TIP" 2,
    .addPart (exPart "B" "A" "TIP" 5), .setJoint "A" 1 true] "B" = some (3 * 2 * 2 * 5) := by decide +kernel

/-- C48, negative: frames added to the datum are not exported, so a part attached to one moves to
the origin when the chain is reloaded. -/
theorem C48_datum_frames_lost :
    exWorld [.addFrame datumName "F" 2, .addPart (exPart "A" datumName "F" 3)] "A" = some 6 ∧
    exReload [.addFrame datumName "F" 2, .addPart (exPart "A" datumName "F" 3)] "A" = some 3 := by
  constructor <;> decide +kernel

/-! ## C08 -/

/-- C08: after any sequence of (clamped) `set_value` calls the value is within consistent limits,
provided it was initially or at least one call was made. -/
theorem C08_value_within_limits (j : Joint V T) (hlim : j.minLimit ≤ j.maxLimit) (vs : List V)
    (h0 : vs ≠ [] ∨ (j.minLimit ≤ j.value ∧ j.value ≤ j.maxLimit)) :
    j.minLimit ≤ (vs.foldl (fun j v => j.setValue v) j).value ∧
    (vs.foldl (fun j v => j.setValue v) j).value ≤ j.maxLimit := by
  have step : ∀ (j : Joint V T) (v : V), j.minLimit ≤ j.maxLimit →
      j.minLimit ≤ (j.setValue v).value ∧ (j.setValue v).value ≤ j.maxLimit := by
    intro j v h
    simp only [Joint.setValue, if_true, Joint.clampValue]
    exact ⟨le_max_left _ _, max_le h (min_le_left _ _)⟩
  have key : ∀ (vs : List V) (j : Joint V T), j.minLimit ≤ j.maxLimit →
      (j.minLimit ≤ j.value ∧ j.value ≤ j.maxLimit) →
      j.minLimit ≤ (vs.foldl (fun j v => j.setValue v) j).value ∧
      (vs.foldl (fun j v => j.setValue v) j).value ≤ j.maxLimit := by
    intro vs
    induction vs with
    | nil => intro j _ h; exact h
    | cons v vs ih =>
      intro j hl _
      exact ih (j.setValue v) (by simpa [Joint.setValue] using hl) (step j v hl)
  cases vs with
  | nil => exact h0.resolve_left (fun h => h rfl)
  | cons v vs => exact key vs (j.setValue v) (by simpa [Joint.setValue] using hlim) (step j v hlim)

/-- C08: a value in range is stored as is; clamping is idempotent; limits, kind and base are never
changed by `set_value`. -/
theorem C08_clamp (j : Joint V T) (v : V) :
    (j.minLimit ≤ v → v ≤ j.maxLimit → (j.setValue v).value = v) ∧
    j.clampValue (j.clampValue v) = j.clampValue v ∧
    (j.maxLimit < v → j.minLimit ≤ j.maxLimit → (j.setValue v).value = j.maxLimit) ∧
    (v < j.minLimit → (j.setValue v).value = j.minLimit) ∧
    (∀ c, (j.setValue v c).minLimit = j.minLimit ∧ (j.setValue v c).maxLimit = j.maxLimit ∧
      (j.setValue v c).kind = j.kind ∧ (j.setValue v c).base = j.base) := by
  refine ⟨?_, ?_, ?_, ?_, ?_⟩
  · intro h1 h2
    simp [Joint.setValue, Joint.clampValue, h1, h2]
  · unfold Joint.clampValue
    rcases le_total j.minLimit j.maxLimit with h | h
    · have : max j.minLimit (min j.maxLimit v) ≤ j.maxLimit := max_le h (min_le_left _ _)
      rw [min_eq_right this, max_eq_right (le_max_left _ _)]
    · have h1 : ∀ x, max j.minLimit (min j.maxLimit x) = j.minLimit := fun x =>
        max_eq_left ((min_le_left _ _).trans h)
      rw [h1, h1]
  · intro h1 h2
    simp [Joint.setValue, Joint.clampValue, h1.le, h2]
  · intro h
    simp only [Joint.setValue, if_true, Joint.clampValue]
    exact max_eq_left ((min_le_right _ _).trans h.le)
  · intro c
    unfold Joint.setValue
    split_ifs <;> exact ⟨rfl, rfl, rfl, rfl⟩

/-- C08: a fixed joint ignores its value. -/
theorem C08_fixed_no_motion [Mul T] (j : Joint V T) (h : j.kind = .fixed) (v : V) (c : Bool) :
    (j.setValue v c).getTransform = j.base := by
  unfold Joint.setValue Joint.getTransform
  split_ifs <;> simp [h]

/-- C08: chain level. After any history in which every joint set is clamped, every part whose limits
are consistent and whose joint was added in range has its joint value within its limits. -/
theorem C08_chain_in_limits [Monoid T] (ops : List (Op V T))
    (hops : ∀ o ∈ ops, (∀ p, o = .addPart p → p.joint.minLimit ≤ p.joint.value ∧ p.joint.value ≤ p.joint.maxLimit) ∧
      (∀ n v c, o = .setJoint n v c → c = true))
    (a b c : V) (h0 : b ≤ a ∧ a ≤ c) {s : Chain V T}
    (hs : ops.foldlM (fun s o => s.step o) (Chain.init a b c : Chain V T) = some s) :
    ∀ p ∈ s.parts, p.joint.minLimit ≤ p.joint.value ∧ p.joint.value ≤ p.joint.maxLimit := by
  let Q : Part V T → Prop := fun p => p.joint.minLimit ≤ p.joint.value ∧ p.joint.value ≤ p.joint.maxLimit
  have hmod : ∀ (s : Chain V T) (n : String) (f : Part V T → Part V T),
      (∀ p, Q p → Q (f p)) → (∀ p ∈ s.parts, Q p) → ∀ p ∈ (s.modify n f).parts, Q p := by
    intro s n f hf hs p hp
    simp only [Chain.modify, List.mem_map] at hp
    obtain ⟨p0, h0, rfl⟩ := hp
    split_ifs
    · exact hf p0 (hs p0 h0)
    · exact hs p0 h0
  have hgw : ∀ (fuel : ℕ) (s s' : Chain V T) (n fr : String) (w : T),
      Chain.getWorld fuel s n fr = some (some (w, s')) → (∀ p ∈ s.parts, Q p) → ∀ p ∈ s'.parts, Q p := by
    intro fuel
    induction fuel with
    | zero => intro s s' n fr w h; simp [Chain.getWorld] at h
    | succ fuel ih =>
      intro s s' n fr w h hq
      simp only [Chain.getWorld] at h
      cases hf : s.find n with
      | none => simp [hf] at h
      | some p =>
        simp only [hf] at h
        have fin : ∀ (w1 : T) (s1 : Chain V T), (if fr = "ORIGIN" then some (some (w1, s1)) else
            match p.getFrame fr with
            | none => some (some (w1, s1))
            | some f => some (some (w1 * f, s1))) = some (some (w, s')) → s' = s1 := by
          intro w1 s1 h
          split_ifs at h
          · simp only [Option.some.injEq, Prod.mk.injEq] at h; exact h.2.symm
          · cases hg : p.getFrame fr <;> rw [hg] at h <;>
              simp only [Option.some.injEq, Prod.mk.injEq] at h <;> exact h.2.symm
        cases hc : p.cache with
        | some w1 =>
          simp only [hc] at h
          rw [fin _ _ h]; exact hq
        | none =>
          simp only [hc] at h
          by_cases hroot : p.parent = none ∨ p.name = datumName
          · simp only [if_pos hroot] at h
            rw [fin _ _ h]
            exact hmod s n _ (fun p hp => hp) hq
          · simp only [if_neg hroot] at h
            cases hr : Chain.getWorld fuel s (p.parent.getD "") p.parentFrame with
            | none => simp [hr] at h
            | some o =>
              cases o with
              | none => simp [hr] at h
              | some r =>
                obtain ⟨pw, s1⟩ := r
                simp only [hr] at h
                rw [fin _ _ h]
                exact hmod s1 n (fun q => { q with cache := some (pw * p.joint.getTransform) })
                  (fun p hp => hp) (ih s s1 _ _ _ hr hq)
  have hinv : ∀ fuel, (∀ (s s' : Chain V T) (n : String), Chain.invalidate fuel s n = some s' →
      (∀ p ∈ s.parts, Q p) → ∀ p ∈ s'.parts, Q p) := by
    intro fuel
    induction fuel with
    | zero => intro s s' n h; simp [Chain.invalidate] at h
    | succ fuel ih =>
      have loop : ∀ (cs : List String) (s s' : Chain V T), Chain.invalidateList (Chain.invalidate fuel) s cs = some s' →
          (∀ p ∈ s.parts, Q p) → ∀ p ∈ s'.parts, Q p := by
        intro cs
        induction cs with
        | nil => intro s s' h hq; simp [Chain.invalidateList] at h; subst h; exact hq
        | cons c cs ihc =>
          intro s s' h hq
          simp only [Chain.invalidateList] at h
          cases hr : Chain.invalidate fuel s c with
          | none => simp [hr] at h
          | some s1 =>
            simp only [hr] at h
            exact ihc s1 s' h (ih s s1 c hr hq)
      intro s s' n h hq
      simp only [Chain.invalidate] at h
      split_ifs at h
      · exact loop _ _ _ h (hmod s n (fun p => { p with cache := none }) (fun p hp => hp) hq)
      · simp only [Option.some.injEq] at h; subst h; exact hq
  have hstep : ∀ (s s' : Chain V T) (o : Op V T),
      (∀ p, o = .addPart p → p.joint.minLimit ≤ p.joint.value ∧ p.joint.value ≤ p.joint.maxLimit) →
      (∀ n v c, o = .setJoint n v c → c = true) → s.step o = some s' →
      (∀ p ∈ s.parts, Q p) → ∀ p ∈ s'.parts, Q p := by
    intro s s' o h1 h2 h hq
    cases o with
    | addPart p =>
      simp only [Chain.step] at h
      cases hr : s.addPart p.postInit with
      | error e => simp [hr] at h; subst h; exact hq
      | ok s1 =>
        simp [hr] at h
        subst h
        unfold Chain.addPart at hr
        split_ifs at hr
        simp only at hr
        cases hf : s.find (p.postInit.parent.getD datumName) with
        | none => simp [hf] at hr
        | some q =>
          simp only [hf, Except.ok.injEq] at hr
          subst hr
          have hj : p.postInit.joint = p.joint := by unfold Part.postInit; split_ifs <;> rfl
          intro p' hp'
          rcases List.mem_cons.mp hp' with rfl | hp'
          · have := h1 p rfl
            simpa only [Q, hj] using this
          · exact hq p' hp'
    | setJoint n v c =>
      simp only [Chain.step, Chain.setJointValue] at h
      have := h2 n v c rfl
      subst this
      split_ifs at h
      · refine hinv _ _ _ _ h (hmod s n (fun p => { p with joint := p.joint.setValue v true }) ?_ hq)
        intro p hp
        simp only [Q, Joint.setValue, if_true, Joint.clampValue]
        exact ⟨le_max_left _ _, max_le (hp.1.trans hp.2) (min_le_left _ _)⟩
      · simp only [Option.some.injEq] at h; subst h; exact hq
    | getWorld n f =>
      simp only [Chain.step] at h
      cases hr : Chain.getWorld (s.parts.length + 1) s n f with
      | none => simp [hr] at h
      | some o =>
        cases o with
        | none => simp [hr] at h; subst h; exact hq
        | some r =>
          obtain ⟨w, s1⟩ := r
          simp [hr] at h
          subst h
          exact hgw _ _ _ _ _ _ hr hq
    | addFrame n f t =>
      simp only [Chain.step, Option.some.injEq] at h
      subst h
      exact hmod s n (fun p => p.addFrame f t) (fun p hp => hp) hq
  have hall : ∀ (ops : List (Op V T)) (s s' : Chain V T),
      (∀ o ∈ ops, (∀ p, o = .addPart p → p.joint.minLimit ≤ p.joint.value ∧ p.joint.value ≤ p.joint.maxLimit) ∧
      (∀ n v c, o = .setJoint n v c → c = true)) →
      ops.foldlM (fun s o => s.step o) s = some s' → (∀ p ∈ s.parts, Q p) → ∀ p ∈ s'.parts, Q p := by
    intro ops
    induction ops with
    | nil => intro s s' _ h hq; simp at h; subst h; exact hq
    | cons o ops ih =>
      intro s s' ho h hq
      simp only [List.foldlM_cons, Option.bind_eq_bind, Option.bind_eq_some_iff] at h
      obtain ⟨s1, h1, h2⟩ := h
      exact ih s1 s' (fun o' h' => ho o' (List.mem_cons_of_mem _ h')) h2
        (hstep s s1 o (ho o (by simp)).1 (ho o (by simp)).2 h1 hq)
  refine hall ops _ s hops hs ?_
  intro p hp
  simp only [Chain.init, List.mem_singleton] at hp
  subst hp
  exact h0

example : ((exRun [.addPart (exPart "A" datumName "ORIGIN" 3), .setJoint "A" 77 true]).map
    fun s => s.parts.map fun p => p.joint.value) = some [5, 0] := by decide +kernel
/-- Unclamped sets are stored as requested: the limit is only enforced by `clamp=True`. -/
example : ((exRun [.addPart (exPart "A" datumName "ORIGIN" 3), .setJoint "A" 77 false]).map
    fun s => s.parts.map fun p => p.joint.value) = some [77, 0] := by decide +kernel

/-! ## C09 -/
section
variable [Group T]

/-- C09: relative transforms compose, `relative(a,a)` is the identity, and
`world(b) = world(a) · relative(a,b)`; for every reachable chain and any frames. -/
theorem C09_relative_compose {s : Chain V T} (hr : Reach s) {a b c : Part V T} (ha : a ∈ s.parts)
    (hb : b ∈ s.parts) (hc : c ∈ s.parts) (fa fb fc : String) :
    ∃ rab rbc rac : T, ∃ s1 s2 s3 s4 : Chain V T,
      s.getRelative a.name fa b.name fb = some (some (rab, s1)) ∧
      s.getRelative b.name fb c.name fc = some (some (rbc, s2)) ∧
      s.getRelative a.name fa c.name fc = some (some (rac, s3)) ∧
      s.getRelative a.name fa a.name fa = some (some (1, s4)) ∧
      rac = rab * rbc ∧
      (∀ wa wb, Pose s a.name wa → Pose s b.name wb → wb * b.offset fb = wa * a.offset fa * rab) := by
  have hi := reach_inv hr
  have key : ∀ p ∈ s.parts, ∀ q ∈ s.parts, ∀ fp fq, ∃ wp wq s', Pose s p.name wp ∧ Pose s q.name wq ∧
      s.getRelative p.name fp q.name fq =
        some (some ((wp * p.offset fp)⁻¹ * (wq * q.offset fq), s')) := by
    intro p hp q hq fp fq
    have hl : s.sk.length = s.parts.length := by simp [Chain.sk]
    obtain ⟨wp, s1, he1, hw1, hs1, hi1⟩ := getWorld_spec hi (s.parts.length + 1) p hp
      (by have := rank_le s.sk p.name; omega) fp
    obtain ⟨q', hq', e⟩ := hs1.mem hq
    have hl1 : s1.sk.length = s1.parts.length := by simp [Chain.sk]
    obtain ⟨wq, s2, he2, hw2, _, _⟩ := getWorld_spec hi1 (s1.parts.length + 1) q' hq'
      (by have := rank_le s1.sk q'.name; omega) fq
    rw [eqName e] at he2 hw2
    have eo : q'.offset fq = q.offset fq := by simp [Part.offset, Part.getFrame, eqFrames e]
    rw [eo] at he2
    refine ⟨wp, wq, s2, hw1, hs1.symm.pose hw2, ?_⟩
    simp only [Chain.getRelative, he1, he2]
  obtain ⟨wa, wb, s1, pa, pb, e1⟩ := key a ha b hb fa fb
  obtain ⟨wb', wc, s2, pb', pc, e2⟩ := key b hb c hc fb fc
  obtain ⟨wa', wc', s3, pa', pc', e3⟩ := key a ha c hc fa fc
  obtain ⟨wa1, wa2, s4, pa1, pa2, e4⟩ := key a ha a ha fa fa
  have u1 := pose_unique hi.wf pb' pb
  have u2 := pose_unique hi.wf pa' pa
  have u3 := pose_unique hi.wf pc' pc
  have u4 := pose_unique hi.wf pa1 pa2
  subst u1 u2 u3 u4
  refine ⟨_, _, _, s1, s2, s3, s4, e1, e2, e3, by rw [e4]; simp, by group, ?_⟩
  intro x y hx hy
  rw [pose_unique hi.wf hx pa, pose_unique hi.wf hy pb]
  group

end

/-! The rigid transforms of `transform.py` form a group under the code's own operations, so C04–C09
apply to them. -/

/-- Rigid transforms with the code's `compose`, `identity` and `inverse`. -/
def RigidT (K : Type) [CommRing K] := { A : Transform K // Rigid A }

instance (K : Type) [CommRing K] : Group (RigidT K) where
  mul A B := ⟨Transform.compose A.1 B.1, C07_rigid_compose A.2 B.2⟩
  one := ⟨Transform.identity, C07_rigid_identity⟩
  inv A := ⟨Transform.inverse A.1, C07_rigid_inverse A.2⟩
  mul_assoc A B C := Subtype.ext (C07_compose_assoc A.1 B.1 C.1)
  one_mul A := Subtype.ext (C07_identity_neutral A.1).1
  mul_one A := Subtype.ext (C07_identity_neutral A.1).2
  inv_mul_cancel A := Subtype.ext (C07_inverse_left A.2)

/-- C09 instantiated at the concrete transforms. -/
example {s : Chain V (RigidT ℤ)} (hr : Reach s) {a b c : Part V (RigidT ℤ)} (ha : a ∈ s.parts)
    (hb : b ∈ s.parts) (hc : c ∈ s.parts) : ∃ rab rbc rac : RigidT ℤ, ∃ s1 s2 s3 : Chain V (RigidT ℤ),
      s.getRelative a.name "ORIGIN" b.name "ORIGIN" = some (some (rab, s1)) ∧
      s.getRelative b.name "ORIGIN" c.name "ORIGIN" = some (some (rbc, s2)) ∧
      s.getRelative a.name "ORIGIN" c.name "ORIGIN" = some (some (rac, s3)) ∧ rac = rab * rbc := by
  obtain ⟨x, y, z, s1, s2, s3, s4, h1, h2, h3, _, h5, _⟩ :=
    C09_relative_compose hr ha hb hc "ORIGIN" "ORIGIN" "ORIGIN"
  exact ⟨x, y, z, s1, s2, s3, h1, h2, h3, h5⟩

end Verif.Kin
