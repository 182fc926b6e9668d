import Verif.Collision.Lemmas
import Mathlib.Tactic.Linarith
import Mathlib.Tactic.NormNum
import Mathlib.Tactic.Ring
import Mathlib.Tactic.FieldSimp
import Mathlib.Tactic.FinCases
import Mathlib.Data.Fintype.Basic

/-! # Properties C10–C13, C49–C51 (collision package) -/

namespace Verif.Collision
open Verif.Dict
variable {α G F : Type}

/-! ## C10 -/

/-- C10: after any history of register/unregister/clear (including rejected registrations) no
exception escapes and every lookup answers as the plain list of registered interfaces would. -/
theorem C10_registry_refines_list (ops : List (RegOp α)) :
    ∃ r, runReg ops = some r ∧
      (∀ n, r.get n = (specRun ops).find? fun i => i.name = n) ∧
      (∀ p, r.forPart p = some ((specRun ops).filter fun i => i.part = p)) ∧
      (∀ k, r.byKind k = some ((specRun ops).filter fun i => i.kind = k)) ∧
      r.all = specRun ops ∧ r.len = (specRun ops).length ∧
      (∀ p, r.hasInterfaces p = true ↔ ∃ i ∈ specRun ops, i.part = p) ∧
      r.allParts.Nodup ∧ (∀ p, p ∈ r.allParts ↔ ∃ i ∈ specRun ops, i.part = p) ∧
      ((specRun ops).map (·.name)).Nodup := by
  obtain ⟨r, e, h⟩ := rel_run ops
  refine ⟨r, e, ?_, forPart_eq h, byKind_eq h, ?_, ?_, ?_, h.part.1, ?_, h.names⟩
  · intro n
    unfold Registry.get
    rw [h.ifaces, dget_ifaces]
  · unfold Registry.all
    rw [h.ifaces]
    simp [Function.comp_def]
  · unfold Registry.len
    rw [h.ifaces, List.length_map]
  · intro p
    unfold Registry.hasInterfaces
    rw [h.part.2 p]
    split_ifs with hx
    · have := (filter_ne_nil_iff Iface.part (specRun ops) p).mpr hx
      simp only [decide_eq_true_eq, hx, iff_true]
      exact List.length_pos_iff.mpr this
    · simp [hx]
  · intro p
    unfold Registry.allParts
    rw [mem_keys, h.part.2 p]
    split_ifs with hx <;> simp [hx]

/-- C10: registering an existing name is rejected and changes nothing; a fresh name is accepted. -/
theorem C10_register_rejects (ops : List (RegOp α)) (i : Iface α) :
    ∃ r, runReg ops = some r ∧ (r.register i = none ↔ ∃ j ∈ specRun ops, j.name = i.name) := by
  obtain ⟨r, e, h⟩ := rel_run ops
  refine ⟨r, e, ?_⟩
  unfold Registry.register
  have hfind : (dget r.ifaces i.name).isSome = true ↔ ∃ j ∈ specRun ops, j.name = i.name := by
    rw [h.ifaces, dget_ifaces, List.find?_isSome]
    simp
  by_cases hd : ∃ j ∈ specRun ops, j.name = i.name
  · rw [if_pos (hfind.mpr hd)]; simp only [true_iff]; exact hd
  · rw [if_neg (fun x => hd (hfind.mp x))]; simp only [reduceCtorEq, false_iff]; exact hd

/-- Sample interfaces. -/
def exI (n p : String) (k : IType) (d : ℕ) : Iface ℕ := ⟨n, p, k, d⟩

/-- A history that re-registers a name under another part. -/
example : ((runReg [.register (exI "a" "P" .key 1), .register (exI "b" "P" .thread 2),
      .register (exI "a" "Q" .key 9), .unregister "a", .register (exI "a" "Q" .spline 3)]).map fun r =>
      ((r.forPart "P").map (·.map (·.name)), (r.forPart "Q").map (·.map (·.data)),
        (r.byKind .key).map (·.length), r.len, r.allParts)) =
    some (some ["b"], some [3], some 0, 2, ["P", "Q"]) := by decide +kernel

/-! ## C11 -/

/-- C11: an overlap of two parts is excused exactly when some touching pair of their interfaces is
compatible and no touching pair is incompatible; the reported results are exactly the verdicts of
the touching pairs. -/
theorem C11_overlap_verdict (ops : List (RegOp α)) (overlaps compat : Iface α → Iface α → Bool)
    (pa pb : String) :
    ∃ r v res, runReg ops = some r ∧ r.checkOverlap overlaps compat pa pb = some (v, res) ∧
      (v = true ↔ (∃ a b, Touching (specRun ops) overlaps pa pb a b ∧ compat a b = true) ∧
        ∀ a b, Touching (specRun ops) overlaps pa pb a b → compat a b = true) ∧
      (∀ a b c, (a, b, c) ∈ res ↔ Touching (specRun ops) overlaps pa pb a b ∧ c = compat a b) := by
  obtain ⟨r, e, h⟩ := rel_run ops
  set l := specRun ops
  have hT : ∀ a b, Touching l overlaps pa pb a b ↔
      (a, b) ∈ ((l.filter fun i => i.part = pa).flatMap fun a =>
        (l.filter fun i => i.part = pb).map fun b => (a, b)) ∧ overlaps a b = true := by
    intro a b
    simp only [Touching, List.mem_flatMap, List.mem_map, List.mem_filter, Prod.mk.injEq, decide_eq_true_eq]
    constructor
    · rintro ⟨h1, h2, h3, h4, h5⟩
      exact ⟨⟨a, ⟨h1, h3⟩, b, ⟨h2, h4⟩, rfl, rfl⟩, h5⟩
    · rintro ⟨⟨a', ⟨h1, h3⟩, b', ⟨h2, h4⟩, rfl, rfl⟩, h5⟩
      exact ⟨h1, h2, h3, h4, h5⟩
  have hch : r.checkOverlap overlaps compat pa pb =
      if (l.filter fun i => i.part = pa) = [] ∨ (l.filter fun i => i.part = pb) = [] then some (false, [])
      else
        let res := overlapLoop overlaps compat ((l.filter fun i => i.part = pa).flatMap fun a =>
          (l.filter fun i => i.part = pb).map fun b => (a, b))
        some (res.2.1 && !res.2.2, res.1) := by
    unfold Registry.checkOverlap
    simp only [forPart_eq h]
  by_cases hemp : (l.filter fun i => i.part = pa) = [] ∨ (l.filter fun i => i.part = pb) = []
  · refine ⟨r, false, [], e, by rw [hch, if_pos hemp], ?_, ?_⟩
    · simp only [Bool.false_eq_true, false_iff, not_and]
      rintro ⟨a, b, ht, _⟩
      rw [hT] at ht
      rcases hemp with h0 | h0 <;> simp [h0] at ht
    · intro a b c
      simp only [List.not_mem_nil, false_iff, not_and]
      intro ht
      rw [hT] at ht
      rcases hemp with h0 | h0 <;> simp [h0] at ht
  · refine ⟨r, _, _, e, by rw [hch, if_neg hemp], ?_, ?_⟩
    · rw [overlapLoop_spec]
      simp only [Bool.and_eq_true, Bool.not_eq_true', List.any_eq_true, List.any_eq_false, Prod.exists,
        Prod.forall, hT]
      constructor
      · rintro ⟨⟨a, b, hm, ho, hc⟩, h2⟩
        refine ⟨⟨a, b, ⟨hm, ho⟩, hc⟩, ?_⟩
        rintro a' b' ⟨hm', ho'⟩
        have := h2 a' b' hm'
        rw [ho'] at this
        simpa using this
      · rintro ⟨⟨a, b, ⟨hm, ho⟩, hc⟩, h2⟩
        refine ⟨⟨a, b, hm, ho, hc⟩, ?_⟩
        rintro a' b' hm' ⟨ho', hc'⟩
        rw [h2 a' b' ⟨hm', ho'⟩] at hc'
        cases hc'
    · intro a b c
      rw [overlapLoop_spec, hT]
      simp only [List.mem_map, List.mem_filter, Prod.mk.injEq, Prod.exists]
      constructor
      · rintro ⟨a', b', ⟨hm, ho⟩, rfl, rfl, rfl⟩
        exact ⟨⟨hm, ho⟩, rfl⟩
      · rintro ⟨⟨hm, ho⟩, rfl⟩
        exact ⟨a, b, ⟨hm, ho⟩, rfl, rfl, rfl⟩

/-- C11: `get_compatible_interface_names` names exactly the interfaces of compatible touching pairs
when the overlap is excused, and nothing otherwise. -/
theorem C11_compatible_names (ops : List (RegOp α)) (overlaps compat : Iface α → Iface α → Bool)
    (pa pb : String) :
    ∃ r v res ns, runReg ops = some r ∧ r.checkOverlap overlaps compat pa pb = some (v, res) ∧
      r.compatibleNames overlaps compat pa pb = some ns ∧
      ∀ n, n ∈ ns ↔ v = true ∧ ∃ a b, Touching (specRun ops) overlaps pa pb a b ∧ compat a b = true ∧
        (n = a.name ∨ n = b.name) := by
  obtain ⟨r, e, h⟩ := rel_run ops
  obtain ⟨⟨v, res, e1⟩, ns, e2⟩ := compatibleNames_isSome h overlaps compat pa pb
  refine ⟨r, v, res, ns, e, e1, e2, fun n => ?_⟩
  unfold Registry.compatibleNames at e2
  simp only [e1, forPart_eq h] at e2
  cases v with
  | false => simp only [Option.some.injEq] at e2; subst e2; simp
  | true =>
    simp only [Option.some.injEq] at e2
    subst e2
    simp only [List.mem_flatMap, List.mem_map, List.mem_filter, decide_eq_true_eq, true_and, Touching]
    constructor
    · rintro ⟨ab, ⟨a, ⟨ha, hpa⟩, b, ⟨hb, hpb⟩, rfl⟩, hn⟩
      split_ifs at hn with hc
      · simp only [Bool.and_eq_true] at hc
        simp only [List.mem_cons, List.not_mem_nil, or_false] at hn
        exact ⟨a, b, ⟨ha, hb, hpa, hpb, hc.1⟩, hc.2, hn⟩
      · simp at hn
    · rintro ⟨a, b, ⟨ha, hb, hpa, hpb, ho⟩, hc, hn⟩
      refine ⟨(a, b), ⟨a, ⟨ha, hpa⟩, b, ⟨hb, hpb⟩, rfl⟩, ?_⟩
      simp only [ho, hc, Bool.and_self, if_true, List.mem_cons, List.not_mem_nil, or_false]
      exact hn

/-- Two parts with one compatible and one incompatible touching pair: not excused; without the
incompatible interface: excused. -/
example : ((runReg [.register (exI "a" "P" .key 1), .register (exI "b" "Q" .key 1),
      .register (exI "c" "Q" .key 2)]).bind fun r =>
      (r.checkOverlap (fun _ _ => true) (fun x y => x.data == y.data) "P" "Q").map (·.1)) = some false ∧
    ((runReg [.register (exI "a" "P" .key 1), .register (exI "b" "Q" .key 1)]).bind fun r =>
      (r.checkOverlap (fun _ _ => true) (fun x y => x.data == y.data) "P" "Q").map (·.1)) = some true := by
  constructor <;> decide +kernel

/-! ## C12 -/

/-- C12: `check_assembly` produces, for every pair of distinct parts not listed in `skip_pairs` (in
either order), exactly one result, and no other results; each result is the verdict on the stored
transforms, independent of what the geometry cache held. -/
theorem C12_every_pair_once (w : World α G F) (ops : List (RegOp α)) (cache : List (String × G))
    (hc : ∀ k g, dget cache k = some g → w.provider k = some g)
    (tfs : List (String × F)) (hn : (keys tfs).Nodup) (skip : List (String × String)) :
    ∃ reg rs c', runReg ops = some reg ∧ checkAssembly w reg cache tfs skip = some (rs, c') ∧
      (∀ x ∈ keys tfs, ∀ y ∈ keys tfs, x ≠ y → (x, y) ∉ skip → (y, x) ∉ skip →
        rs.countP (fun r => (r.partA = x ∧ r.partB = y) ∨ (r.partA = y ∧ r.partB = x)) = 1) ∧
      (∀ r ∈ rs, r.partA ∈ keys tfs ∧ r.partB ∈ keys tfs ∧ r.partA ≠ r.partB ∧
        (r.partA, r.partB) ∉ skip ∧ (r.partB, r.partA) ∉ skip ∧
        ∃ ta tb, dget tfs r.partA = some ta ∧ dget tfs r.partB = some tb ∧
          (checkCollision w reg [] r.partA ta r.partB tb).map (·.1) = some r) := by
  obtain ⟨reg, er, hr⟩ := rel_run ops
  set sk := skip.flatMap fun ab => [(ab.1, ab.2), (ab.2, ab.1)] with hsk
  have hskm : ∀ x y, (x, y) ∈ sk ↔ (x, y) ∈ skip ∨ (y, x) ∈ skip := by
    intro x y
    simp only [hsk, List.mem_flatMap, List.mem_cons, Prod.mk.injEq, List.not_mem_nil, or_false, Prod.exists]
    constructor
    · rintro ⟨a, b, h, ⟨rfl, rfl⟩ | ⟨rfl, rfl⟩⟩
      · exact .inl h
      · exact .inr h
    · rintro (h | h)
      · exact ⟨x, y, h, .inl ⟨rfl, rfl⟩⟩
      · exact ⟨y, x, h, .inr ⟨rfl, rfl⟩⟩
  obtain ⟨rs, c', e, _, hm⟩ := checkPairs_spec w hr sk (pairs tfs) cache hc
  refine ⟨reg, rs, c', er, e, ?_, ?_⟩
  · intro x hx y hy hxy hs1 hs2
    have hcount := pairs_count hn hxy hx hy
    -- count on the filtered pairs
    have h1 : ((pairs tfs).filter fun ab => (ab.1.1, ab.2.1) ∉ sk).countP
        (fun ab => (ab.1.1 = x ∧ ab.2.1 = y) ∨ (ab.1.1 = y ∧ ab.2.1 = x)) = 1 := by
      rw [List.countP_filter, ← hcount]
      apply List.countP_congr
      rintro ⟨a, b⟩ _
      simp only [Bool.and_eq_true, decide_eq_true_eq, and_iff_left_iff_imp]
      rintro (⟨rfl, rfl⟩ | ⟨rfl, rfl⟩) <;> rw [hskm] <;> simp [hs1, hs2]
    have h2 : ∀ (ps : List ((String × F) × (String × F))) (rs : List Result),
        rs.map some = ps.map (fun xy => pureCheck w reg xy.1.1 xy.1.2 xy.2.1 xy.2.2) →
        rs.countP (fun r => (r.partA = x ∧ r.partB = y) ∨ (r.partA = y ∧ r.partB = x)) =
        ps.countP (fun ab => (ab.1.1 = x ∧ ab.2.1 = y) ∨ (ab.1.1 = y ∧ ab.2.1 = x)) := by
      intro ps
      induction ps with
      | nil =>
        intro rs h
        simp only [List.map_nil, List.map_eq_nil_iff] at h
        subst h; rfl
      | cons p ps ih =>
        intro rs h
        cases rs with
        | nil => simp at h
        | cons r rs =>
          simp only [List.map_cons, List.cons.injEq] at h
          obtain ⟨r', er', ea, eb⟩ := pureCheck_names (w := w) hr p.1.1 p.1.2 p.2.1 p.2.2
          rw [er'] at h
          simp only [Option.some.injEq] at h
          obtain ⟨rfl, h⟩ := h
          rw [List.countP_cons, List.countP_cons, ih rs h, ea, eb]
    rw [h2 _ rs hm, h1]
  · intro r hrm
    have : some r ∈ rs.map some := List.mem_map.mpr ⟨r, hrm, rfl⟩
    rw [hm] at this
    obtain ⟨⟨a, b⟩, hab, ep⟩ := List.mem_map.mp this
    simp only [List.mem_filter, decide_eq_true_eq] at hab
    obtain ⟨ha, hb, hne⟩ := pairs_mem hn hab.1
    obtain ⟨r', er', ea, eb⟩ := pureCheck_names (w := w) hr a.1 a.2 b.1 b.2
    simp only at ep
    rw [ep] at er'
    simp only [Option.some.injEq] at er'
    subst er'
    have hs := hab.2
    rw [hskm, not_or] at hs
    rw [ea, eb]
    refine ⟨List.mem_map.mpr ⟨a, ha, rfl⟩, List.mem_map.mpr ⟨b, hb, rfl⟩, hne, hs.1, hs.2,
      a.2, b.2, dget_of_mem hn ha, dget_of_mem hn hb, ?_⟩
    obtain ⟨c1, _, e1⟩ := checkCollision_spec w reg (cacheOK_nil w) a.1 a.2 b.1 b.2
    rw [e1, ep]
    rfl

/-- C12: the counts of the summary add up, and the error pairs are exactly the colliding pairs not
excused by an interface. -/
theorem C12_summary_adds_up (rs : List Result) :
    (summary rs).total = rs.length ∧
    (summary rs).collisions = (summary rs).errors + (summary rs).interfaces ∧
    (summary rs).collisions ≤ (summary rs).total ∧
    (∀ a b, (a, b) ∈ (summary rs).errorPairs ↔
      ∃ r ∈ rs, r.partA = a ∧ r.partB = b ∧ r.collides = true ∧ r.compatibleInterface = false) := by
  refine ⟨rfl, ?_, List.length_filter_le _ _, ?_⟩
  · simp only [summary]
    induction rs with
    | nil => rfl
    | cons r rs ih =>
      by_cases hc : r.collides = true
      · by_cases hi : r.compatibleInterface = true
        · simp only [List.filter_cons, hc, if_true, List.length_cons, Result.isError, Result.isInterface,
            hi, Bool.not_true, Bool.and_false, Bool.false_eq_true, if_false, Bool.and_true] at ih ⊢
          omega
        · simp only [List.filter_cons, hc, if_true, List.length_cons, Result.isError, Result.isInterface,
            (by simpa using hi : r.compatibleInterface = false), Bool.not_false, Bool.and_true, Bool.and_false, Bool.false_eq_true,
            if_false] at ih ⊢
          omega
      · simp only [List.filter_cons, hc, Bool.false_eq_true, if_false] at ih ⊢
        exact ih
  · intro a b
    simp only [summary, List.mem_map, List.mem_filter, Prod.mk.injEq, Result.isError, Bool.and_eq_true,
      Bool.not_eq_true']
    constructor
    · rintro ⟨r, ⟨⟨h1, h2⟩, _, h3⟩, rfl, rfl⟩
      exact ⟨r, h1, rfl, rfl, h2, h3⟩
    · rintro ⟨r, h1, rfl, rfl, h2, h3⟩
      exact ⟨r, ⟨⟨h1, h2⟩, h2, h3⟩, rfl, rfl⟩

/-- World used by the witnesses: geometry always available, always colliding. -/
def exWorld : World ℕ ℕ ℕ :=
  { provider := fun p => if p = "missing" then none else some p.length
    toMatrix := some, kernel := fun _ _ _ _ => some true
    overlaps := fun _ _ => true, compat := fun a b => a.data == b.data }

/-- Four parts, one skipped pair given in the opposite order, one part without geometry. -/
example : (checkAssembly exWorld .empty [] [("A", 0), ("B", 0), ("C", 0), ("missing", 0)]
      [("B", "A")]).map (fun r => r.1.map fun r => (r.partA, r.partB, r.collides, r.failed)) =
    some [("A", "C", true, false), ("A", "missing", false, true), ("B", "C", true, false),
      ("B", "missing", false, true), ("C", "missing", false, true)] := by decide +kernel

/-! ## C13 -/

/-- C13 (partial: the registry passed must be non-empty at construction time, see
`C13_empty_registry_dropped`; or it is installed with `set_interface_registry`): the detector holds
the caller's registry object, so registrations made later are seen. -/
theorem C13_registry_shared_partial (h : Heap α) (r : Nat) (hne : 0 < (h.at_ r).len)
    (f : Registry α → Registry α) :
    (newDetector h (some r)).1 = r ∧
    ((newDetector h (some r)).2.update r f).at_ (newDetector h (some r)).1 = f (h.at_ r) ∧
    ∀ old, setRegistry old r = r := by
  have : newDetector h (some r) = (r, h) := by
    simp [newDetector, Nat.pos_iff_ne_zero.mp hne]
  rw [this]
  exact ⟨rfl, by simp [Heap.update], fun _ => rfl⟩

/-- C13, negative: a registry that is empty when passed to the constructor is replaced by a private
one; an interface registered afterwards in the caller's registry is not consulted and the excused
overlap is reported as a collision. -/
theorem C13_empty_registry_dropped :
    ∃ (h : Heap ℕ) (f : Registry ℕ → Registry ℕ), h.at_ 0 = .empty ∧
      let d := newDetector h (some 0)
      let h' := d.2.update 0 f
      -- with the caller's registry the overlap is excused ...
      ((checkCollision exWorld (h'.at_ 0) [] "P" 0 "Q" 0).map fun r => r.1.isError) = some false ∧
      -- ... but the detector reports an error
      ((checkCollision exWorld (h'.at_ d.1) [] "P" 0 "Q" 0).map fun r => r.1.isError) = some true := by
  refine ⟨⟨1, fun _ => .empty⟩, fun r =>
    ((r.register (exI "a" "P" .key 1)).getD r |>.register (exI "b" "Q" .key 1)).getD r, rfl, ?_⟩
  constructor <;> decide +kernel

/-! ## C49, C51: gears and threads -/

section
variable {K : Type} [Field K] [LinearOrder K] [IsStrictOrderedRing K]

/-- C49 (partial: parameters equal, or tolerances met on both sides): matching gears/threads are
compatible in both orders, and equal parameters are always compatible. -/
theorem C49_compatible_symm_partial (a b : Gear K) (h : a.module = b.module) :
    a.compatible b = b.compatible a := by
  unfold Gear.compatible
  rw [abs_sub_comm a.module, abs_sub_comm a.pressureAngle, h]

/-- C49: same for threads. -/
theorem C49_thread_symm_partial (a b : Thread K) (h : a.major = b.major) (h' : a.pitch = b.pitch) :
    a.compatible b = b.compatible a := by
  unfold Thread.compatible
  rw [abs_sub_comm a.major, abs_sub_comm a.pitch, h, h']
  by_cases hi : a.internal = b.internal
  · rw [if_pos hi, if_pos hi.symm]
  · rw [if_neg hi, if_neg (Ne.symm hi)]

/-- C49: a gear meshes with itself, threads mate only across internal/external. -/
theorem C49_compatible_basic (a : Gear K) (hm : 0 ≤ a.module) (s t : Thread K)
    (h : s.compatible t = true) : a.compatible a = true ∧ s.internal ≠ t.internal := by
  constructor
  · unfold Gear.compatible
    have h1 : ¬ (|a.module - a.module| > a.module * (1 / 1000)) := by
      rw [sub_self, abs_zero, not_lt]; positivity
    have h2 : ¬ (|a.pressureAngle - a.pressureAngle| > 1 / 2) := by
      rw [sub_self, abs_zero, not_lt]; positivity
    rw [if_neg h1, if_neg h2]
  · intro e
    unfold Thread.compatible at h
    rw [if_pos e] at h
    cases h

end

/-- C49, negative: the 0.1 % tolerance is taken relative to the first interface only, so
compatibility (hence the collision verdict) depends on the order of the two parts. -/
theorem C49_gear_compat_asymmetric :
    (⟨1000, 20, 20, 10⟩ : Gear ℚ).compatible ⟨999, 20, 20, 10⟩ = true ∧
    (⟨999, 20, 20, 10⟩ : Gear ℚ).compatible ⟨1000, 20, 20, 10⟩ = false := by
  constructor <;> decide +kernel

/-- C49: and so does the verdict of the registry. -/
theorem C49_verdict_order_dependent :
    let reg := (((Registry.empty : Registry (Gear ℚ)).register ⟨"a", "P", .gearMesh, ⟨1000, 20, 20, 10⟩⟩).getD
      .empty |>.register ⟨"b", "Q", .gearMesh, ⟨999, 20, 20, 10⟩⟩).getD .empty
    let compat := fun (x y : Iface (Gear ℚ)) => x.data.compatible y.data
    (reg.checkOverlap (fun _ _ => true) compat "P" "Q").map (·.1) = some true ∧
    (reg.checkOverlap (fun _ _ => true) compat "Q" "P").map (·.1) = some false := by
  constructor <;> decide +kernel

section
variable {K : Type} [Field K] [LinearOrder K] [IsStrictOrderedRing K]

/-- C51: the positioned gear check never raises, and accepts exactly when modules and pressure angles
match within tolerance and the centre distance is within `tol` of the mean pitch diameter. -/
theorem C51_gear_mesh_check (a b : Gear K) (dist tol : K) :
    ∃ v, gearMeshOk a b dist tol = some v ∧
      (v = true ↔ |a.module - b.module| ≤ a.module / 1000 ∧
        |a.pressureAngle - b.pressureAngle| ≤ 1 / 2 ∧
        |dist - (a.module * a.teeth + b.module * b.teeth) / 2| ≤ tol) := by
  unfold gearMeshOk Gear.compatible Gear.centerDistance Gear.pitchDiameter
  have hd : a.module * (1 / 1000) = a.module / 1000 := by ring
  rw [hd]
  by_cases h1 : |a.module - b.module| > a.module / 1000
  · refine ⟨false, by simp [h1], ?_⟩
    simp [not_le.mpr h1]
  · by_cases h2 : |a.pressureAngle - b.pressureAngle| > 1 / 2
    · refine ⟨false, ?_, ?_⟩
      · rw [if_neg h1, if_pos h2]; rfl
      · simp only [Bool.false_eq_true, false_iff, not_and]
        intro _ h; exact absurd h (not_le.mpr h2)
    · simp only [if_neg h1, if_neg h2, Bool.not_true, Bool.false_eq_true, if_false]
      by_cases h3 : |dist - (a.module * a.teeth + b.module * b.teeth) / 2| > tol
      · refine ⟨false, by rw [if_pos h3], ?_⟩
        simp only [Bool.false_eq_true, false_iff, not_and]
        intro _ _; exact not_le.mpr h3
      · refine ⟨true, by rw [if_neg h3], ?_⟩
        simp only [true_iff]
        exact ⟨not_lt.mp h1, not_lt.mp h2, not_lt.mp h3⟩

/-- C51: gear diameters are ordered root < pitch < outside for positive modules. -/
theorem C51_gear_diameters (g : Gear K) (hm : 0 < g.module) :
    g.rootDiameter < g.pitchDiameter ∧ g.pitchDiameter < g.outsideDiameter ∧
    g.outsideDiameter - g.rootDiameter = 9 / 2 * g.module := by
  unfold Gear.rootDiameter Gear.outsideDiameter
  refine ⟨by linarith, by linarith, by ring⟩

example : gearMeshOk (⟨3/4, 18, 20, 10⟩ : Gear ℚ) ⟨3/4, 36, 20, 10⟩ (81/4) (1/10) = some true := by
  decide +kernel

/-! ## C50 -/

/-- C50: the bounding-box pre-filter never rejects boxes that share a point, and accepts only boxes
that do (for well-formed boxes); it is symmetric. -/
theorem C50_aabb_exact (amin amax bmin bmax : Fin 3 → K) (ha : ∀ i, amin i ≤ amax i)
    (hb : ∀ i, bmin i ≤ bmax i) :
    (aabbIntersects amin amax bmin bmax = true ↔
      ∃ p : Fin 3 → K, (∀ i, amin i ≤ p i ∧ p i ≤ amax i) ∧ (∀ i, bmin i ≤ p i ∧ p i ≤ bmax i)) ∧
    aabbIntersects amin amax bmin bmax = aabbIntersects bmin bmax amin amax := by
  have hall : aabbIntersects amin amax bmin bmax = true ↔ ∀ i, bmin i ≤ amax i ∧ amin i ≤ bmax i := by
    simp only [aabbIntersects, List.all_cons, List.all_nil, Bool.and_true, Bool.and_eq_true,
      Bool.not_eq_true', Bool.or_eq_false_iff, decide_eq_false_iff_not, not_lt]
    constructor
    · rintro ⟨h0, h1, h2⟩ i
      fin_cases i
      · exact h0
      · exact h1
      · exact h2
    · intro h; exact ⟨h 0, h 1, h 2⟩
  refine ⟨?_, ?_⟩
  · rw [hall]
    constructor
    · intro h
      refine ⟨fun i => max (amin i) (bmin i), fun i => ⟨le_max_left _ _, max_le (ha i) (h i).1⟩,
        fun i => ⟨le_max_right _ _, max_le (h i).2 (hb i)⟩⟩
    · rintro ⟨p, h1, h2⟩ i
      exact ⟨(h2 i).1.trans (h1 i).2, (h1 i).1.trans (h2 i).2⟩
  · unfold aabbIntersects
    simp only [Bool.or_comm]

example : aabbIntersects (fun _ => (0 : ℚ)) (fun _ => 1) (fun _ => 1) (fun _ => 2) = true ∧
    aabbIntersects (fun _ => (0 : ℚ)) (fun _ => 1) (fun i => if i = 1 then 3/2 else 1/2) (fun _ => 2) = false := by
  constructor <;> decide +kernel

end

end Verif.Collision
