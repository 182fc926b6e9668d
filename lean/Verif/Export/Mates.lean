import Verif.Export.Graph
import Mathlib.Analysis.Real.Pi.Bounds

/-! # What the interfaces say (C341-C343) -/

namespace Verif.Export
open Verif.Dict Verif.Xform Verif.Assembly

section
variable {G H : Type} (conv : G → Option H) (attrs : Nat → Attrs G)

/-- the mates that are exported as a joint -/
def Motion (t : MateType) : Prop := t = .rigid ∨ t = .revolute ∨ t = .prismatic ∨ t = .spherical

theorem isMotion_iff (t : MateType) : isMotion t = true ↔ Motion t := by
  unfold Motion
  cases t <;> simp [isMotion]

/-- how many ways of moving a joint leaves -/
def Joint.dof : Joint → Int
  | .fixed => 0 | .revolute _ => 1 | .prismatic _ => 1 | .ball => 3

/-- the joint says what the mate says: it is of the mate's kind, and turns or slides along the direction of the parent's datum -/
def JointSays (s : State) (m : Mate ℝ) (j : Joint) : Prop :=
  (m.mtype = .rigid ∧ j = .fixed) ∨ (m.mtype = .spherical ∧ j = .ball) ∨
  ∃ a : V3, (m.mtype = .revolute ∧ j = .revolute a ∨ m.mtype = .prismatic ∧ j = .prismatic a) ∧
    ∀ d v, HasDatum s m.partA m.datumA d → d.direction = some v → a = ![v 0, v 1, v 2]

theorem jointFor_says (s : State) {m : Mate ℝ} (h : Motion m.mtype) : JointSays s m (jointFor s m) := by
  have hax : ∀ d v, HasDatum s m.partA m.datumA d → d.direction = some v → (mateAxis s m).getD up = ![v 0, v 1, v 2] := by
    intro d v hd hv
    unfold HasDatum at hd
    unfold mateAxis
    rw [hd]
    show (d.direction.map drop4).getD up = _
    rw [hv]
    rfl
  rcases h with h | h | h | h
  · exact Or.inl ⟨h, by unfold jointFor; rw [h]⟩
  · exact Or.inr (Or.inr ⟨_, Or.inl ⟨h, by unfold jointFor; rw [h]⟩, hax⟩)
  · exact Or.inr (Or.inr ⟨_, Or.inr ⟨h, by unfold jointFor; rw [h]⟩, hax⟩)
  · exact Or.inr (Or.inl ⟨h, by unfold jointFor; rw [h]⟩)

theorem joint_eq {s : State} {f : Iface} (h : f ∈ (snapshot conv attrs s).interfaces) :
    f.joint = match (between s.mates f.parent f.child).find? (fun m => isMotion m.mtype) with | none => .fixed | some m => jointFor s m := by
  obtain ⟨-, k, e⟩ := interface_mem conv attrs h
  exact congrArg Iface.joint e

/-- C341 (partial: two motion mates of one pair and the joints the target does not know are not kept, see `C341_second_lost` and `C341_unknown_frozen`): the joint of an interface is the one of the first motion
mate of its pair, with the axis of that mate's parent datum, and leaves as many ways of moving as the mate; without a motion mate it is fixed -/
theorem C341_joint_partial {s : State} {f : Iface} (h : f ∈ (snapshot conv attrs s).interfaces) :
    ((∀ m ∈ s.mates, m.partA = f.parent → m.partB = f.child → ¬ Motion m.mtype) → f.joint = .fixed) ∧
    (∀ l1 m l2, between s.mates f.parent f.child = l1 ++ m :: l2 → Motion m.mtype → (∀ m' ∈ l1, ¬ Motion m'.mtype) → JointSays s m f.joint ∧ f.joint.dof = m.mtype.dof) := by
  have hj := joint_eq conv attrs h
  constructor
  · intro hn
    rw [List.find?_eq_none.2] at hj
    · exact hj
    · intro m hm
      rw [between, List.mem_filter] at hm
      have hp : pair m = (f.parent, f.child) := by simpa using hm.2
      rw [isMotion_iff]
      exact hn m hm.1 (congrArg Prod.fst hp) (congrArg Prod.snd hp)
  · intro l1 m l2 he hm h1
    have : (between s.mates f.parent f.child).find? (fun m => isMotion m.mtype) = some m := by
      rw [he, List.find?_append, List.find?_eq_none.2 (fun m' hm' => by rw [isMotion_iff]; exact h1 m' hm'), Option.none_or, List.find?_cons_of_pos (p := fun x : Mate ℝ => isMotion x.mtype) ((isMotion_iff _).2 hm)]
    rw [this] at hj
    rw [hj]
    refine ⟨jointFor_says s hm, ?_⟩
    show (jointFor s m).dof = _
    rcases hm with e | e | e | e <;> (unfold jointFor; rw [e]; rfl)

/-- C341: a second motion mate of the same pair is lost: of a pair with several motion mates and nothing else the interface has the first as its joint and no constraint, whatever the others are -/
theorem C341_second_lost {s : State} {f : Iface} (h : f ∈ (snapshot conv attrs s).interfaces) {m : Mate ℝ} {l : List (Mate ℝ)} (he : between s.mates f.parent f.child = m :: l) (hm : Motion m.mtype)
    (hl : ∀ x ∈ l, Motion x.mtype) : JointSays s m f.joint ∧ f.constraints = [] := by
  refine ⟨((C341_joint_partial conv attrs h).2 [] m l he hm (by simp)).1, ?_⟩
  obtain ⟨b, hb⟩ := C339_own_mates conv attrs h
  rw [hb, he, List.filter_eq_nil_iff.2]
  · rfl
  · intro x hx
    have : Motion x.mtype := by
      rcases List.mem_cons.1 hx with rfl | hx
      · exact hm
      · exact hl x hx
    rw [(isMotion_iff _).2 this]
    simp

/-- C341: parts joined by one mate that lets them move in a way the target has no joint for (cylindrical, planar, pin in a slot, universal, screw) are exported as fixed to each other, with no constraint -/
theorem C341_unknown_frozen {s : State} {f : Iface} (h : f ∈ (snapshot conv attrs s).interfaces) {m : Mate ℝ} (he : between s.mates f.parent f.child = [m])
    (hm : m.mtype = .cylindrical ∨ m.mtype = .planar ∨ m.mtype = .pinSlot ∨ m.mtype = .universal ∨ m.mtype = .screw) : f.joint = .fixed ∧ f.constraints = [] ∧ m.mtype.dof ≠ f.joint.dof := by
  have hj := joint_eq conv attrs h
  obtain ⟨b, hb⟩ := C339_own_mates conv attrs h
  rw [he] at hj hb
  rw [hj, hb]
  rcases hm with e | e | e | e | e <;> simp [isMotion, e, constraintFor, MateType.dof, Joint.dof]

/-- what an exported constraint has to say of its mate; `fixed`: the joint of the interface is fixed -/
def Says (s : State) (fixed : Bool) (m : Mate ℝ) (c : OutConstraint) : Prop :=
  match m.mtype with
  | .concentric => c = .bilateral (if fixed then "AxisCoincident" else "Concentric") m.datumA m.datumB
  | .coincident => c = .bilateral "Coincident" m.datumA m.datumB
  | .tangent => c = .bilateral "Tangent" m.datumA m.datumB
  | .angle => c = .angle m.datumA m.datumB (degrees m.angle)
  | .parallel => ∃ a : V3, c = .axisAlign m.datumB a ∧ ∀ d v, HasDatum s m.partA m.datumA d → (d.direction = some v ∨ d.direction = none ∧ d.normal = some v) → a = ![v 0, v 1, v 2]
  | _ => False

/-- the geometric mates the target knows -/
def Geometric (t : MateType) : Prop := t = .concentric ∨ t = .coincident ∨ t = .tangent ∨ t = .angle ∨ t = .parallel

/-- whether a joint is fixed -/
def Joint.isFixed : Joint → Bool
  | .fixed => true
  | _ => false

/-- the mates for which the export is right: no angle but zero, and no parallel planes -/
def Plain (s : State) (m : Mate ℝ) : Prop := (m.mtype = .angle → m.angle = 0) ∧ (m.mtype = .parallel → ∃ d v, HasDatum s m.partA m.datumA d ∧ d.direction = some v)

theorem constraintFor_says {s : State} {m : Mate ℝ} {b fixed : Bool} (hb : m.mtype = .concentric → b = !fixed) (hg : Geometric m.mtype) (hp : Plain s m) : ∃ c, constraintFor s b m = some c ∧ Says s fixed m c := by
  unfold Says constraintFor
  rcases hg with e | e | e | e | e <;> simp only [e]
  · refine ⟨_, rfl, ?_⟩
    rw [hb e]
    cases fixed <;> rfl
  · exact ⟨_, rfl, rfl⟩
  · exact ⟨_, rfl, rfl⟩
  · refine ⟨_, rfl, ?_⟩
    rw [hp.1 e]
    simp [degrees]
  · refine ⟨_, rfl, _, rfl, ?_⟩
    intro d v hd hv
    obtain ⟨d', v', hd', hv'⟩ := hp.2 e
    have : d = d' := Option.some.inj (hd.symm.trans hd')
    subst this
    rcases hv with hv | ⟨hn, -⟩
    · unfold HasDatum at hd
      unfold mateAxis
      rw [hd]
      show (d.direction.map drop4).getD up = _
      rw [hv]
      rfl
    · rw [hn] at hv'
      cases hv'

theorem constraintFor_none {s : State} {m : Mate ℝ} {b : Bool} (h : ¬ Geometric m.mtype) : constraintFor s b m = none := by
  unfold constraintFor
  unfold Geometric at h
  cases e : m.mtype <;> simp_all

theorem geometric_not_motion {t : MateType} (h : Geometric t) : ¬ Motion t := by
  unfold Motion
  rcases h with rfl | rfl | rfl | rfl | rfl <;> simp

/-- C342 (partial: angles other than zero, parallel planes, and a rigid mate beside a concentric one are exported wrongly, see below): the constraints of an interface are, in order, those of the geometric
mates of its pair that the target knows, each saying what its mate says -/
theorem C342_constraints_partial {s : State} {f : Iface} (h : f ∈ (snapshot conv attrs s).interfaces) (hp : ∀ m ∈ between s.mates f.parent f.child, Plain s m)
    (hr : ∀ m ∈ between s.mates f.parent f.child, m.mtype ≠ .rigid) :
    ∃ ms, ms.Sublist (between s.mates f.parent f.child) ∧ (∀ m ∈ between s.mates f.parent f.child, Geometric m.mtype ↔ m ∈ ms) ∧ List.Forall₂ (Says s f.joint.isFixed) ms f.constraints := by
  obtain ⟨-, k, e⟩ := interface_mem conv attrs h
  have hj := joint_eq conv attrs h
  set B := between s.mates f.parent f.child with hB
  set o := B.find? (fun m => isMotion m.mtype) with ho
  have hc : f.constraints = (B.filter fun m => !isMotion m.mtype).filterMap (constraintFor s o.isSome) := congrArg Iface.constraints e
  have hfix : o.isSome = !f.joint.isFixed := by
    rw [hj]
    cases ho' : o with
    | none => rfl
    | some m =>
      have hm : Motion m.mtype := (isMotion_iff _).1 (List.find?_some (p := fun m => isMotion m.mtype) (l := B) (by rw [← ho]; exact ho'))
      have hmB : m ∈ B := List.mem_of_find?_eq_some (p := fun m => isMotion m.mtype) (by rw [← ho]; exact ho')
      show true = !(jointFor s m).isFixed
      unfold jointFor
      rcases hm with e | e | e | e
      · exact absurd e (hr m hmB)
      · rw [e]; rfl
      · rw [e]; rfl
      · rw [e]; rfl
  rw [hc, hfix]
  clear hc e hj ho
  classical
  refine ⟨B.filter fun m => decide (Geometric m.mtype), List.filter_sublist, fun m hm => ?_, ?_⟩
  · rw [List.mem_filter]
    simp [hm]
  · generalize f.joint.isFixed = b
    clear hfix hr
    clear_value o
    clear_value B
    clear hB
    induction B with
    | nil => exact List.Forall₂.nil
    | cons m B ih =>
      have ih' := ih (fun x hx => hp x (List.mem_cons_of_mem _ hx))
      by_cases hg : Geometric m.mtype
      · rw [List.filter_cons_of_pos (by simpa using hg), List.filter_cons_of_pos]
        · obtain ⟨c, h1, h2⟩ := constraintFor_says (s := s) (m := m) (b := !b) (fixed := b) (fun _ => rfl) hg (hp m (List.mem_cons_self ..))
          rw [List.filterMap_cons_some h1]
          exact List.Forall₂.cons h2 ih'
        · cases hc : isMotion m.mtype with
          | false => rfl
          | true => exact absurd ((isMotion_iff _).1 hc) (geometric_not_motion hg)
      · rw [List.filter_cons_of_neg (by simpa using hg)]
        cases hc : isMotion m.mtype with
        | false =>
          rw [List.filter_cons_of_pos (by rw [hc]; rfl), List.filterMap_cons_none (constraintFor_none hg)]
          exact ih'
        | true =>
          rw [List.filter_cons_of_neg (by rw [hc]; simp)]
          exact ih'

/-- C342: the angle of a mate, which is in radians, is exported unchanged as a number of degrees: no angle but zero keeps its meaning -/
theorem C342_angle_radians {s : State} {b : Bool} {m : Mate ℝ} (h : m.mtype = .angle) : constraintFor s b m = some (.angle m.datumA m.datumB m.angle) ∧ (m.angle = degrees m.angle ↔ m.angle = 0) := by
  constructor
  · unfold constraintFor; rw [h]
  · unfold degrees
    constructor
    · intro e
      by_contra h0
      rw [eq_div_iff Real.pi_ne_zero] at e
      have := mul_left_cancel₀ h0 e
      have := Real.pi_lt_four
      linarith
    · intro e; rw [e]; simp

/-- C342: of parallel planes the direction is lost: whatever the normal of the parent's plane, the axis of the child is aligned with z -/
theorem C342_parallel_planes {s : State} {b : Bool} {m : Mate ℝ} (h : m.mtype = .parallel) {d : Datum} (hd : HasDatum s m.partA m.datumA d) (hn : d.direction = none) :
    constraintFor s b m = some (.axisAlign m.datumB ![0, 0, 1]) := by
  unfold HasDatum at hd
  unfold constraintFor mateAxis
  rw [h, hd]
  show some (OutConstraint.axisAlign m.datumB ((d.direction.map drop4).getD up)) = _
  rw [hn]
  rfl

/-- C342: two parts bolted rigidly and concentrically: the joint is fixed, but the concentric mate is exported as for a joint that moves -/
theorem C342_rigid_concentric {s : State} {f : Iface} (h : f ∈ (snapshot conv attrs s).interfaces) {m1 m2 : Mate ℝ} (he : between s.mates f.parent f.child = [m1, m2]) (h1 : m1.mtype = .rigid) (h2 : m2.mtype = .concentric) :
    f.joint = .fixed ∧ f.constraints = [.bilateral "Concentric" m2.datumA m2.datumB] := by
  obtain ⟨-, k, e⟩ := interface_mem conv attrs h
  have hj := joint_eq conv attrs h
  rw [he] at hj e
  have hc := congrArg Iface.constraints e
  rw [hj, hc]
  simp [ifaceFor, isMotion, h1, h2, jointFor, constraintFor]

/-- the mate is on a face or a circle of the parent with normal `n` -/
def OnFace (s : State) (m : Mate ℝ) (n : V3) : Prop := ∃ d v, HasDatum s m.partA m.datumA d ∧ (d.dtype = .plane ∨ d.dtype = .circle) ∧ d.normal = some v ∧ n = ![v 0, v 1, v 2]

theorem mateNormal_iff (s : State) (m : Mate ℝ) (n : V3) : mateNormal s m = some n ↔ OnFace s m n := by
  unfold mateNormal OnFace HasDatum
  cases hd : s.datum m.partA m.datumA with
  | none => simp
  | some d =>
    constructor
    · intro h
      replace h : (if d.dtype = .plane ∨ d.dtype = .circle then d.normal.map drop4 else none) = some n := h
      split at h
      · rename_i ht
        obtain ⟨v, hv, rfl⟩ := Option.map_eq_some_iff.1 h
        exact ⟨d, v, rfl, ht, hv, rfl⟩
      · cases h
    · rintro ⟨d', v, e, ht, hv, rfl⟩
      cases e
      show (if d.dtype = .plane ∨ d.dtype = .circle then d.normal.map drop4 else none) = _
      rw [if_pos ht, hv]
      rfl

/-- C343: the direction of insertion of an interface is against the outward normal of the first face or circle of the parent that a mate of the pair is on; it is given exactly when there is one -/
theorem C343_insertion {s : State} {f : Iface} (h : f ∈ (snapshot conv attrs s).interfaces) :
    (f.insertion = none ↔ ∀ m ∈ s.mates, m.partA = f.parent → m.partB = f.child → ∀ n, ¬ OnFace s m n) ∧
    ∀ v, f.insertion = some v ↔ ∃ l1 m l2, between s.mates f.parent f.child = l1 ++ m :: l2 ∧ OnFace s m (-v) ∧ ∀ m' ∈ l1, ∀ n, ¬ OnFace s m' n := by
  obtain ⟨-, k, e⟩ := interface_mem conv attrs h
  have hi : f.insertion = insertion s (between s.mates f.parent f.child) := congrArg Iface.insertion e
  have hno : ∀ m', mateNormal s m' = none ↔ ∀ n, ¬ OnFace s m' n := by
    intro m'
    constructor
    · intro h0 n hn
      rw [← mateNormal_iff, h0] at hn
      cases hn
    · intro h0
      cases hm : mateNormal s m' with
      | none => rfl
      | some n => exact absurd ((mateNormal_iff s m' n).1 hm) (h0 n)
  rw [hi]
  unfold insertion
  constructor
  · rw [Option.map_eq_none_iff, List.findSome?_eq_none_iff]
    constructor
    · intro h0 m hm ha hb
      rw [← hno]
      exact h0 m (by rw [between, List.mem_filter]; exact ⟨hm, by simp [pair, ha, hb]⟩)
    · intro h0 m hm
      rw [between, List.mem_filter] at hm
      have hp : pair m = (f.parent, f.child) := by simpa using hm.2
      rw [hno]
      exact h0 m hm.1 (congrArg Prod.fst hp) (congrArg Prod.snd hp)
  · intro v
    rw [Option.map_eq_some_iff]
    constructor
    · rintro ⟨n, hn, rfl⟩
      obtain ⟨l1, m, l2, e1, e2, e3⟩ := List.findSome?_eq_some_iff.1 hn
      exact ⟨l1, m, l2, e1, by rw [neg_neg]; exact (mateNormal_iff s m n).1 e2, fun m' hm' => (hno m').1 (e3 m' hm')⟩
    · rintro ⟨l1, m, l2, e1, e2, e3⟩
      refine ⟨-v, List.findSome?_eq_some_iff.2 ⟨l1, m, l2, e1, (mateNormal_iff s m _).2 e2, fun m' hm' => (hno m').2 (e3 m' hm')⟩, neg_neg v⟩

end

/-- an assembly with a hinge, a coincident face and parallel axes between two parts -/
noncomputable def hinge : State :=
  { State.empty (fun _ => ⟨"P", [("ax", exAxis), ("pl", exPlane)]⟩) with
    parts := [("b1", 0), ("m1", 1)], mates := [exM .coincident "pl" "pl", exM .revolute "ax" "ax", exM .concentric "ax" "ax", exM .parallel "ax" "ax"] }

/-- the four mates are one group -/
theorem hinge_groups : groups hinge.mates = [(("b1", "m1"), [exM .coincident "pl" "pl", exM .revolute "ax" "ax", exM .concentric "ax" "ax", exM .parallel "ax" "ax"])] := by
  simp [groups, hinge, exM, dset, dget]

/-- its one interface: turning about z, three constraints, inserted against y -/
example : ∃ f, (snapshot (fun _ : Unit => (none : Option Unit)) (fun _ => ⟨none, none, []⟩) hinge).interfaces = [f] ∧ f.parent = "b1" ∧ f.child = "m1" ∧ f.joint = .revolute ![0, 0, 1] ∧
    f.constraints = [.bilateral "Coincident" "pl" "pl", .bilateral "Concentric" "ax" "ax", .axisAlign "ax" ![0, 0, 1]] ∧ f.insertion = some ![0, -1, 0] := by
  refine ⟨ifaceFor hinge 0 _, by unfold snapshot; rw [hinge_groups]; rfl, rfl, rfl, ?_, ?_, ?_⟩
  · simp [ifaceFor, exM, isMotion, jointFor, mateAxis, State.datum, hinge, State.empty, dget, exAxis, drop4]
  · simp [ifaceFor, exM, isMotion, constraintFor, mateAxis, State.datum, hinge, State.empty, dget, exAxis, drop4]
  · simp [ifaceFor, exM, insertion, mateNormal, State.datum, hinge, State.empty, dget, exPlane, drop4]

end Verif.Export
