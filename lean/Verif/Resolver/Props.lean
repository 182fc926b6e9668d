import Verif.Resolver.Staged

/-! # Properties C14–C16 and C52 (assembly resolver) -/

namespace Verif.Resolver
open Verif.Dict
variable {G : Type}

/-! ## C14 -/

/-- C14: resolving a valid assembly succeeds in producing a result in which every target part
carries the geometry obtained by performing all its cut requests in nondecreasing priority, ties in
supply order; `applied_operations` lists the cutters that succeeded, in that order. -/
theorem C14_priority_order (bool : G → G → String → Option G) (parts : List (String × G))
    (m : List (String × Meta)) (hp : (keys parts).Nodup) (hm : (keys m).Nodup) (hv : Valid m) :
    ∃ r, basicResolve bool parts m = some r ∧ ∀ p g, (p, g) ∈ parts → IsTarget m p →
      ∃ order fl rp, InPriorityOrder (requests m p) order ∧ dget r.parts p = some rp ∧
        CutRun bool parts g order rp.geometry rp.applied fl ∧
        rp.errors = (fl.filter fun f => f.policy = "strict").map (Failure.msg p) ∧
        rp.warnings = (fl.filter fun f => f.policy = "warn").map (Failure.msg p) := by
  refine ⟨_, basicResolve_eq bool parts m hp hm hv, ?_⟩
  intro p g hpg ht
  obtain ⟨app, fl, h1, h2, h3, h4, h5, h6⟩ :=
    applyEntry_run bool parts p (sortP (requests m p)) { geom := g }
  refine ⟨sortP (requests m p), fl, outOf bool parts m (p, g), sortP_order _, ?_, ?_, ?_, ?_⟩
  · apply dget_of_mem
    · have : keys ((parts.filter fun p => keeps m p.1).map fun p => (p.1, outOf bool parts m p)) =
          (parts.filter fun p => keeps m p.1).map (·.1) := by
        unfold keys; rw [List.map_map]; rfl
      rw [this]
      exact hp.sublist (List.Sublist.map _ List.filter_sublist)
    · apply List.mem_map.mpr
      exact ⟨(p, g), List.mem_filter.mpr ⟨hpg, by unfold keeps; simp [ht]⟩, rfl⟩
  · unfold outOf
    rw [if_pos ht]
    unfold accOf
    simp only [h2, List.nil_append]
    exact h1
  · unfold outOf accOf
    rw [if_pos ht]
    simpa using h3
  · unfold outOf accOf
    rw [if_pos ht]
    simpa using h4

/-- C14: the priority order and the outcome of a run are unique, so `C14_priority_order` determines
the result. -/
theorem C14_order_unique (r a b : List (String × Operation)) (ha : InPriorityOrder r a)
    (hb : InPriorityOrder r b) : a = b := ha.unique hb

theorem C14_run_unique (bool : G → G → String → Option G) (parts : List (String × G)) (g g1 g2 : G)
    (es : List (String × Operation)) (app app' : List String) (fl fl' : List Failure)
    (h : CutRun bool parts g es g1 app fl) (h' : CutRun bool parts g es g2 app' fl') :
    g1 = g2 ∧ app = app' ∧ fl = fl' := h.functional h'

/-- C14: each cutter is applied once per target: if no `target_filter` repeats a target, the requests
aimed at a part are pairwise distinct cutters. -/
theorem C14_each_once (m : List (String × Meta)) (hm : (keys m).Nodup) (p : String)
    (h : ∀ e ∈ m, e.2.op.targetFilter.Nodup) : ((requests m p).map (·.1)).Nodup := by
  induction m with
  | nil => simp [requests]
  | cons e m ih =>
    unfold keys at hm
    simp only [List.map_cons, List.nodup_cons] at hm
    have hsub : ∀ x ∈ (requests m p).map (·.1), x ∈ m.map (·.1) := by
      intro x hx
      obtain ⟨c, hc, rfl⟩ := List.mem_map.mp hx
      obtain ⟨y, hy, rfl, _⟩ := mem_requests hc
      exact List.mem_map.mpr ⟨y, hy, rfl⟩
    have ih := ih hm.2 fun x hx => h x (List.mem_cons_of_mem _ hx)
    have hc := List.nodup_iff_count_le_one.mp (h e (by simp)) p
    unfold requests
    rw [List.flatMap_cons, List.map_append]
    refine List.Nodup.append ?_ ih ?_
    · split_ifs
      · have : e.2.op.targetFilter.count p = 0 ∨ e.2.op.targetFilter.count p = 1 := by omega
        rcases this with h | h <;> simp [h]
      · simp
    · intro x hx hx'
      have h1 := hsub x hx'
      have : x = e.1 := by
        split_ifs at hx
        · obtain ⟨c, hc, rfl⟩ := List.mem_map.mp hx
          rw [(List.mem_replicate.mp hc).2]
        · simp at hx
      exact hm.1 (this ▸ h1)

/-! ## C15 -/

/-- C15 (partial: holds with "consumed cutters that are not themselves targets"): the output holds
exactly the input parts, in input order, minus the consumed cutters that no cutter targets; parts that
are not targets keep their geometry and carry no messages. -/
theorem C15_output_parts_partial (bool : G → G → String → Option G) (parts : List (String × G))
    (m : List (String × Meta)) (hp : (keys parts).Nodup) (hm : (keys m).Nodup) (hv : Valid m) :
    ∃ r, basicResolve bool parts m = some r ∧
      keys r.parts = (keys parts).filter (fun p => IsTarget m p ∨ ¬ IsConsumed m p) ∧
      (∀ p rp, dget r.parts p = some rp → rp.partId = p) ∧
      (∀ p g, (p, g) ∈ parts → ¬ IsTarget m p → ¬ IsConsumed m p →
        dget r.parts p = some { partId := p, geometry := g }) := by
  refine ⟨_, basicResolve_eq bool parts m hp hm hv, ?_, ?_, ?_⟩
  · unfold keys
    rw [List.map_map, List.filter_map]
    rfl
  · intro p rp h
    obtain ⟨q, _, hq⟩ := List.mem_map.mp (mem_of_dget h)
    simp only [Prod.mk.injEq] at hq
    obtain ⟨rfl, rfl⟩ := hq
    unfold outOf
    split_ifs <;> rfl
  · intro p g hpg ht hc
    apply dget_of_mem
    · have : keys ((parts.filter fun p => keeps m p.1).map fun p => (p.1, outOf bool parts m p)) =
          (parts.filter fun p => keeps m p.1).map (·.1) := by
        unfold keys; rw [List.map_map]; rfl
      rw [this]
      exact hp.sublist (List.Sublist.map _ List.filter_sublist)
    · apply List.mem_map.mpr
      refine ⟨(p, g), List.mem_filter.mpr ⟨hpg, by unfold keeps; simp [hc]⟩, ?_⟩
      unfold outOf
      rw [if_neg ht]

/-- C15: the run is successful exactly when no request with policy `strict` failed on any part;
failures under `warn` or any other policy never make it unsuccessful. -/
theorem C15_success_iff (bool : G → G → String → Option G) (parts : List (String × G))
    (m : List (String × Meta)) (hp : (keys parts).Nodup) (hm : (keys m).Nodup) (hv : Valid m) :
    ∃ r, basicResolve bool parts m = some r ∧
      (r.success = true ↔ ∀ p g order g' app fl, (p, g) ∈ parts → IsTarget m p →
        InPriorityOrder (requests m p) order → CutRun bool parts g order g' app fl →
        ∀ f ∈ fl, f.policy ≠ "strict") := by
  refine ⟨_, basicResolve_eq bool parts m hp hm hv, ?_⟩
  simp only [decide_eq_true_eq, List.flatMap_eq_nil_iff, List.mem_filter]
  constructor
  · intro h p g order g' app fl hpg ht ho hr f hf hs
    obtain ⟨app', fl', h1, h2, h3, _⟩ :=
      applyEntry_run bool parts p (sortP (requests m p)) { geom := g }
    rw [ho.unique (sortP_order _)] at hr
    obtain ⟨rfl, rfl, rfl⟩ := hr.functional h1
    have := h (p, g) ⟨hpg, by simpa using ht⟩
    unfold accOf at this
    rw [h3] at this
    simp only [List.nil_append, List.map_eq_nil_iff, List.filter_eq_nil_iff] at this
    exact this f hf (by simpa using hs)
  · rintro h ⟨p, g⟩ ⟨hpg, ht⟩
    obtain ⟨app', fl', h1, h2, h3, _⟩ :=
      applyEntry_run bool parts p (sortP (requests m p)) { geom := g }
    unfold accOf
    rw [h3]
    simp only [List.nil_append, List.map_eq_nil_iff, List.filter_eq_nil_iff]
    intro f hf
    have := h p g _ _ _ _ hpg (by simpa using ht) (sortP_order _) h1 f hf
    simpa using this

/-- witness data: `a` is consumed and cuts `b`, while `c` cuts `a` -/
def exParts : List (String × Nat) := [("a", 1), ("b", 10), ("c", 100)]
def exMeta : List (String × Meta) :=
  [("a", ⟨some { kind := some "subtract", targetFilter := ["b"] }⟩),
   ("c", ⟨some { kind := some "subtract", targetFilter := ["a"], priority := some 10 }⟩)]
def exBool : Nat → Nat → String → Option Nat := fun a b _ => some (a + b)

/-- C15 fails as stated: a consumed cutter that is itself a target stays in the output. -/
theorem C15_consumed_cutter_in_output :
    IsConsumed exMeta "a" ∧ Valid exMeta ∧ (keys exMeta).Nodup ∧ (keys exParts).Nodup ∧
      ∃ r, basicResolve exBool exParts exMeta = some r ∧ "a" ∈ keys r.parts := by
  refine ⟨by decide +kernel, by decide +kernel, by decide +kernel, by decide +kernel, ?_⟩
  exact ⟨_, rfl, by decide +kernel⟩

/-- the hypotheses of C14/C15 hold for a concrete assembly in which priorities reorder two cuts, one
cut fails under `warn`, and a non-consumed cutter survives -/
example :
    let parts : List (String × List Nat) := [("x", [1]), ("t", [0]), ("y", [2]), ("z", [3])]
    let m : List (String × Meta) :=
      [("x", ⟨some { kind := some "subtract", targetFilter := ["t"], priority := some 90 }⟩),
       ("y", ⟨some { kind := some "subtract", targetFilter := ["t"], consume := some false }⟩),
       ("z", ⟨some { kind := some "union", targetFilter := ["t"], policy := some "warn" }⟩)]
    let bool : List Nat → List Nat → String → Option (List Nat) :=
      fun a b k => if k = "union" then none else some (a ++ b)
    (keys parts).Nodup ∧ (keys m).Nodup ∧ Valid m ∧ IsTarget m "t" ∧
    basicResolve bool parts m = some
      { parts := [("t", { partId := "t", geometry := [0, 2, 1], applied := ["y", "x"],
                            retained := ["y"], warnings := [.booleanFailed "union" "z" "t"] }),
                  ("y", { partId := "y", geometry := [2] })]
        log := [.apply "subtract" "y" "t" 50, .apply "union" "z" "t" 50, .apply "subtract" "x" "t" 90]
        success := true, errors := [] } := by decide +kernel

/-! ## C16 -/

/-- C16: an assembly with a cutter that names no target is rejected by both resolvers: success is
False, at least one error is reported, every part comes back untouched in order and the result does
not depend on the boolean engine (none is run). -/
theorem C16_invalid_passthrough (parts : List (String × G)) (m : List (String × Meta))
    (hv : ¬ Valid m) (stages : List String) (hs : stages ≠ []) :
    ∃ r : ResolveResult G, (∀ bool, basicResolve bool parts m = some r) ∧
      (∀ bool, stagedResolve bool stages parts m = some r) ∧
      r.success = false ∧ r.errors ≠ [] ∧
      (∀ c, Msg.noTarget c ∈ r.errors ↔
        ∃ e ∈ m, e.1 = c ∧ e.2.op.isCutter ∧ e.2.op.targetFilter = []) ∧
      r.parts = parts.map fun p => (p.1, { partId := p.1, geometry := p.2 }) := by
  have he : validateCutters (collectCutters m) ≠ [] := fun h => hv ((valid_iff m).mp h)
  refine ⟨invalidResult parts (validateCutters (collectCutters m)), ?_, ?_, rfl, he, ?_, rfl⟩
  · intro bool
    unfold basicResolve
    simp only [he, ne_eq, not_false_iff, if_true]
  · intro bool
    unfold stagedResolve
    obtain ⟨l, hl⟩ : ∃ l, stages.getLast? = some l := by
      cases h : stages.getLast? with
      | none => exact absurd (List.getLast?_eq_none_iff.mp h) hs
      | some l => exact ⟨l, rfl⟩
    rw [hl]
    simp only [he, ne_eq, not_false_iff, if_true]
  · intro c
    simp only [invalidResult, validateCutters, List.mem_map, List.mem_filter]
    constructor
    · rintro ⟨x, ⟨hx, ht⟩, hm⟩
      obtain ⟨e, hem, rfl, hk⟩ := (mem_collect m x).mp hx
      simp only [Msg.noTarget.injEq] at hm
      exact ⟨e, hem, hm, hk, by simpa using ht⟩
    · rintro ⟨e, hem, rfl, hk, ht⟩
      exact ⟨_, ⟨(mem_collect m _).mpr ⟨e, hem, rfl, hk⟩, by simp [ht]⟩, rfl⟩

/-- C16: conversely a valid assembly is never rejected by validation: without strict failures it
succeeds, in particular an assembly without cutters passes through successfully. -/
theorem C16_no_cutters (bool : G → G → String → Option G) (parts : List (String × G))
    (m : List (String × Meta)) (hp : (keys parts).Nodup) (hm : (keys m).Nodup)
    (h : ∀ e ∈ m, e.2.op.isCutter = false) :
    basicResolve bool parts m = some
      { parts := parts.map fun p => (p.1, { partId := p.1, geometry := p.2 }), log := [],
        success := true, errors := [] } := by
  have hv : Valid m := by
    intro e he hk
    rw [h e he] at hk; exact absurd hk (by simp)
  have ht : ∀ p, ¬ IsTarget m p := by
    rintro p ⟨e, he, hk, _⟩
    rw [h e he] at hk; exact absurd hk (by simp)
  have hc : ∀ p, ¬ IsConsumed m p := by
    rintro p ⟨e, he, _, hk, _⟩
    rw [h e he] at hk; exact absurd hk (by simp)
  rw [basicResolve_eq bool parts m hp hm hv]
  simp [ht, hc, keeps, outOf]

/-! ## C52: stages -/

/-- C52: with distinct stage names, when no cutter is itself a target, staged resolution gives every
part that is not a consumed cutter the geometry obtained from its *original* geometry by performing,
stage after stage in the declared order, that stage's requests in priority order, using the original
cutters; operations with no or an unknown stage run in the last stage; consumed cutters disappear; and
the run is successful exactly when no strict request failed. -/
theorem C52_stages_in_order (bool : G → G → String → Option G) (stages : List String) (fb : String)
    (hfb : stages.getLast? = some fb) (hst : stages.Nodup)
    (parts : List (String × G)) (m : List (String × Meta))
    (hp : (keys parts).Nodup) (hm : (keys m).Nodup) (hv : Valid m)
    (hct : ∀ e ∈ m, e.2.op.isCutter → ¬ IsTarget m e.1) :
    ∃ r, stagedResolve bool stages parts m = some r ∧
      keys r.parts = (keys parts).filter (fun p => ¬ IsConsumed m p) ∧
      (∀ p g, (p, g) ∈ parts → ¬ IsConsumed m p →
        ∃ orders rp fl, List.Forall₂
          (fun st o => InPriorityOrder (requests (onlyStage stages fb st m) p) o) stages orders ∧
          dget r.parts p = some rp ∧
          CutRun bool parts g orders.flatten rp.geometry rp.applied fl) ∧
      (r.success = true ↔ ∀ p g orders g' app fl, (p, g) ∈ parts →
        List.Forall₂ (fun st o => InPriorityOrder (requests (onlyStage stages fb st m) p) o)
          stages orders →
        CutRun bool parts g orders.flatten g' app fl → ∀ f ∈ fl, f.policy ≠ "strict") := by
  obtain ⟨s, hs, hk, hpt, her⟩ := staged_inv bool stages fb parts m hp hm hv hct stages [] rfl hst
    { parts := parts, log := (collectCutters m).flatMap (stageWarn stages) }
    (StInv.init bool stages fb parts m hp _)
  have hcons : ∀ p, (∃ st ∈ stages, IsConsumed (onlyStage stages fb st m) p) ↔ IsConsumed m p :=
    consumed_some_stage stages fb hfb m
  refine ⟨{ parts := s.parts.map fun p =>
              (p.1, { partId := p.1, geometry := p.2, applied := (dget s.ops p.1).getD [] })
            log := s.log, success := decide (s.errors = []), errors := s.errors }, ?_, ?_, ?_, ?_⟩
  · unfold stagedResolve
    rw [hfb]
    simp only [(valid_iff m).mpr hv, ne_eq, not_true, if_false]
    rw [hs]
  · have : keys (s.parts.map fun p : String × G => (p.1,
        ({ partId := p.1, geometry := p.2, applied := (dget s.ops p.1).getD [] } : ResolvedPart G))) =
        keys s.parts := by unfold keys; rw [List.map_map]; rfl
    rw [this, hk]
    apply List.filter_congr
    intro p _
    rw [List.nil_append, decide_eq_decide, hcons p]
  · intro p g hpg hc
    have hpk : p ∈ keys s.parts := by
      rw [hk, List.mem_filter]
      exact ⟨List.mem_map.mpr ⟨_, hpg, rfl⟩, by
        rw [decide_eq_true_eq, List.nil_append, hcons p]; exact hc⟩
    obtain ⟨orders, g', fl, h1, h2, h3⟩ := hpt p g hpg hpk
    rw [List.nil_append] at h1
    refine ⟨orders, { partId := p, geometry := g', applied := (dget s.ops p).getD [] }, fl, h1, ?_, h3⟩
    have := dget_map_fst (fun k g => ({ partId := k, geometry := g, applied := (dget s.ops k).getD [] } :
      ResolvedPart G)) s.parts p
    rw [h2] at this
    exact this
  · simpa using her

/-- the hypotheses of C52 are met by an assembly with two stages and two cutters -/
def exMeta2 : List (String × Meta) :=
  [("a", ⟨some { kind := some "subtract", targetFilter := ["b"], stage := some "late" }⟩),
   ("b", {}),
   ("c", ⟨some { kind := some "union", targetFilter := ["b"], stage := some "early", consume := some false }⟩)]

example : ["early", "late"].getLast? = some "late" ∧ ["early", "late"].Nodup ∧
    (keys exMeta2).Nodup ∧ Valid exMeta2 ∧
    (∀ e ∈ exMeta2, e.2.op.isCutter → ¬ IsTarget exMeta2 e.1) ∧
    (stagedResolve (fun a b k => some (if k = "union" then a * b else a + b)) ["early", "late"]
      exParts exMeta2).map (fun r => (r.success, r.parts.map fun p => (p.1, p.2.geometry, p.2.applied)))
      = some (true, [("b", 1001, ["c", "a"]), ("c", 100, [])]) := by decide +kernel

/-- C52: an empty list of stages is refused; a single stage gives the same parts, applied operations,
verdict and errors as the basic resolver. -/
theorem C52_single_stage (bool : G → G → String → Option G) (st : String)
    (parts : List (String × G)) (m : List (String × Meta))
    (hp : (keys parts).Nodup) (hm : (keys m).Nodup) (hv : Valid m) :
    ∃ r r', stagedResolve bool [st] parts m = some r ∧ basicResolve bool parts m = some r' ∧
      r.success = r'.success ∧ r.errors = r'.errors ∧
      r.parts.map (fun p => (p.1, p.2.geometry, p.2.applied)) =
        r'.parts.map fun p => (p.1, p.2.geometry, p.2.applied) := by
  obtain ⟨r', hr'⟩ : ∃ r', basicResolve bool parts m = some r' := ⟨_, basicResolve_eq bool parts m hp hm hv⟩
  have hall : ((collectCutters m).filter fun c => decide (stageOf [st] st c.2 = st)) =
      collectCutters m := by
    rw [List.filter_eq_self]
    intro c _
    unfold stageOf
    rcases c.2.stage with _ | s
    · simp
    · by_cases h : s = st <;> simp [h]
  unfold stagedResolve
  simp only [List.getLast?_singleton, (valid_iff m).mpr hv, ne_eq, not_true, if_false,
    List.foldl_cons, List.foldl_nil]
  unfold runStage
  simp only [hall]
  by_cases he : collectCutters m = []
  · simp only [he, if_true]
    refine ⟨_, r', rfl, hr', ?_⟩
    have := C16_no_cutters bool parts m hp hm (by
      intro e hem
      by_contra hk
      have : (e.1, e.2.op) ∈ collectCutters m := (mem_collect m _).mpr ⟨e, hem, rfl, by simpa using hk⟩
      rw [he] at this; simp at this)
    rw [this] at hr'
    cases hr'
    simp [dget]
  · simp only [he, if_false]
    rw [basicResolve_congr bool parts _ m (collect_stageMeta m hm _ (List.Sublist.refl _)), hr']
    refine ⟨_, r', rfl, rfl, ?_, ?_, ?_⟩
    · have : r'.success = decide (r'.errors = []) := by
        rw [basicResolve_eq bool parts m hp hm hv] at hr'
        cases hr'; rfl
      rw [this]; simp
    · simp
    · have hn : (keys r'.parts).Nodup := by
        rw [basicResolve_eq bool parts m hp hm hv] at hr'
        cases hr'
        exact keys_out_nodup bool parts m hp
      simp only [List.map_map, Function.comp_def]
      apply List.map_congr_left
      intro p hpm
      rw [dget_accumulate _ _ hn, dget_of_mem hn (show (p.1, p.2) ∈ r'.parts from hpm)]
      simp [dget]

/-- C52 needs distinct stage names: a repeated stage name applies its operations again. -/
theorem C52_repeated_stage_applies_twice :
    (stagedResolve exBool ["s", "s"] [("a", 1), ("b", 10)]
      [("a", ⟨some { kind := some "subtract", targetFilter := ["b"], consume := some false }⟩)]).map
        (fun r => dget (r.parts.map fun p => (p.1, p.2.geometry, p.2.applied)) "b") =
      some (some (12, ["a", "a"])) := by decide +kernel

end Verif.Resolver
