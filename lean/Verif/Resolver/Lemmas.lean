import Verif.Resolver.Spec
import Mathlib.Data.List.Perm.Basic
import Mathlib.Tactic.SplitIfs
import Mathlib.Tactic.Linarith

namespace Verif.Resolver
open Verif.Dict
variable {G : Type}

/-! ## sorting -/
theorem insertP_perm (e : Entry) (l : List Entry) : (insertP e l).Perm (e :: l) := by
  induction l with
  | nil => exact List.Perm.refl _
  | cons x xs ih =>
    simp only [insertP]
    split_ifs
    · exact List.Perm.refl _
    · exact (List.Perm.cons x ih).trans (List.Perm.swap e x xs)

theorem sortP_perm (l : List Entry) : (sortP l).Perm l := by
  induction l with
  | nil => exact List.Perm.refl _
  | cons x xs ih => exact (insertP_perm x _).trans (List.Perm.cons x ih)

theorem insertP_sorted (e : Entry) (l : List Entry)
    (h : l.Pairwise fun a b => a.2.prio ≤ b.2.prio) :
    (insertP e l).Pairwise fun a b => a.2.prio ≤ b.2.prio := by
  induction l with
  | nil => simp [insertP]
  | cons x xs ih =>
    simp only [insertP]
    split_ifs with hx
    · refine List.pairwise_cons.mpr ⟨?_, h⟩
      intro y hy
      rcases List.mem_cons.mp hy with rfl | hy
      · exact hx
      · exact le_trans hx ((List.pairwise_cons.mp h).1 y hy)
    · refine List.pairwise_cons.mpr ⟨?_, ih (List.pairwise_cons.mp h).2⟩
      intro y hy
      rcases List.mem_cons.mp ((insertP_perm e xs).mem_iff.mp hy) with rfl | hy
      · exact le_of_lt (not_le.mp hx)
      · exact (List.pairwise_cons.mp h).1 y hy

theorem sortP_sorted (l : List Entry) : (sortP l).Pairwise fun a b => a.2.prio ≤ b.2.prio := by
  induction l with
  | nil => simp [sortP]
  | cons x xs ih => exact insertP_sorted x _ ih

theorem insertP_filter (e : Entry) (l : List Entry) (k : Rat) :
    ((insertP e l).filter fun e => e.2.prio = k) = (e :: l).filter fun e => e.2.prio = k := by
  induction l with
  | nil => rfl
  | cons x xs ih =>
    simp only [insertP]
    split_ifs with hx
    · rfl
    · rw [List.filter_cons, ih]
      simp only [List.filter_cons]
      by_cases h1 : x.2.prio = k <;> by_cases h2 : e.2.prio = k <;> simp [h1, h2]
      exact absurd (le_of_eq (h2.trans h1.symm)) hx

theorem sortP_filter (l : List Entry) (k : Rat) :
    ((sortP l).filter fun e => e.2.prio = k) = l.filter fun e => e.2.prio = k := by
  induction l with
  | nil => rfl
  | cons x xs ih =>
    show ((insertP x (sortP xs)).filter _) = _
    rw [insertP_filter]
    simp only [List.filter_cons, ih]

theorem sortP_order (l : List Entry) : InPriorityOrder l (sortP l) :=
  ⟨sortP_perm l, sortP_sorted l, sortP_filter l⟩

/-! ## the index -/
theorem dget_addTarget (t : List (String × List Entry)) (x p : String) (e : Entry) :
    (dget (addTarget t x e) p).getD [] = (dget t p).getD [] ++ (if x = p then [e] else []) ∧
    ((dget (addTarget t x e) p).isSome ↔ (dget t p).isSome ∨ x = p) := by
  unfold addTarget
  rw [dget_dset]
  by_cases h : p = x
  · subst h; simp
  · have h' : ¬ x = p := fun e => h e.symm
    simp [h, h']

theorem dget_inner (tf : List String) (e : Entry) (t : List (String × List Entry)) (p : String) :
    (dget (tf.foldl (fun t x => addTarget t x e) t) p).getD [] =
      (dget t p).getD [] ++ List.replicate (tf.count p) e ∧
    ((dget (tf.foldl (fun t x => addTarget t x e) t) p).isSome ↔ (dget t p).isSome ∨ p ∈ tf) := by
  induction tf generalizing t with
  | nil => simp
  | cons x tf ih =>
    simp only [List.foldl_cons]
    obtain ⟨h1, h2⟩ := ih (addTarget t x e)
    obtain ⟨g1, g2⟩ := dget_addTarget t x p e
    refine ⟨?_, ?_⟩
    · rw [h1, g1, List.count_cons]
      by_cases h : x = p
      · subst h
        simp only [if_true, beq_self_eq_true, List.append_assoc]
        congr 1
      · simp [h]
    · rw [h2, g2, List.mem_cons, or_assoc, eq_comm (a := x)]

theorem dget_buildIndex_aux (cs : List Entry) (t : List (String × List Entry)) (p : String) :
    (dget (cs.foldl (fun t e => e.2.targetFilter.foldl (fun t x => addTarget t x e) t) t) p).getD [] =
      (dget t p).getD [] ++ cs.flatMap (fun e => List.replicate (e.2.targetFilter.count p) e) ∧
    ((dget (cs.foldl (fun t e => e.2.targetFilter.foldl (fun t x => addTarget t x e) t) t) p).isSome ↔
      (dget t p).isSome ∨ ∃ e ∈ cs, p ∈ e.2.targetFilter) := by
  induction cs generalizing t with
  | nil => simp
  | cons c cs ih =>
    simp only [List.foldl_cons]
    obtain ⟨h1, h2⟩ := ih (c.2.targetFilter.foldl (fun t x => addTarget t x c) t)
    obtain ⟨g1, g2⟩ := dget_inner c.2.targetFilter c t p
    refine ⟨?_, ?_⟩
    · rw [h1, g1, List.flatMap_cons, List.append_assoc]
    · rw [h2, g2, or_assoc]; simp

theorem requests_eq (m : List (String × Meta)) (p : String) :
    (collectCutters m).flatMap (fun e => List.replicate (e.2.targetFilter.count p) e) =
      requests m p := by
  unfold collectCutters requests
  induction m with
  | nil => rfl
  | cons e m ih =>
    simp only [List.map_cons, List.filter_cons, List.flatMap_cons]
    split_ifs with h
    · rw [List.flatMap_cons, ih]
    · rw [ih]; rfl

theorem mem_collect (m : List (String × Meta)) (c : Entry) :
    c ∈ collectCutters m ↔ ∃ e ∈ m, (e.1, e.2.op) = c ∧ e.2.op.isCutter := by
  unfold collectCutters
  rw [List.mem_filter, List.mem_map]
  constructor
  · rintro ⟨⟨e, he, rfl⟩, h⟩; exact ⟨e, he, rfl, h⟩
  · rintro ⟨e, he, rfl, h⟩; exact ⟨⟨e, he, rfl⟩, h⟩

theorem isTarget_iff (m : List (String × Meta)) (p : String) :
    IsTarget m p ↔ ∃ e ∈ collectCutters m, p ∈ e.2.targetFilter := by
  unfold IsTarget
  constructor
  · rintro ⟨e, he, h1, h2⟩
    exact ⟨_, (mem_collect m _).mpr ⟨e, he, rfl, h1⟩, h2⟩
  · rintro ⟨c, hc, h⟩
    obtain ⟨e, he, rfl, h1⟩ := (mem_collect m c).mp hc
    exact ⟨e, he, h1, h⟩

theorem dget_map_snd {V W : Type} (f : V → W) (d : List (String × V)) (k : String) :
    dget (d.map fun t => (t.1, f t.2)) k = (dget d k).map f := by
  induction d with
  | nil => rfl
  | cons e d ih =>
    simp only [List.map_cons, dget, ih]
    split_ifs <;> rfl

theorem dget_targetOps (m : List (String × Meta)) (p : String) :
    dget (targetOps (collectCutters m)) p =
      if IsTarget m p then some (sortP (requests m p)) else none := by
  unfold targetOps
  rw [dget_map_snd]
  obtain ⟨h1, h2⟩ := dget_buildIndex_aux (collectCutters m) [] p
  rw [requests_eq] at h1
  simp only [dget, Option.getD_none, List.nil_append, Option.isSome_none, Bool.false_eq_true,
    false_or] at h1 h2
  rw [← isTarget_iff] at h2
  unfold buildIndex
  split_ifs with h
  · have := h2.mpr h
    obtain ⟨v, hv⟩ := Option.isSome_iff_exists.mp this
    rw [hv] at h1 ⊢
    simp only [Option.getD_some] at h1
    rw [h1]; rfl
  · have : ¬ (dget (List.foldl (fun t e => List.foldl (fun t x => addTarget t x e) t
        e.2.targetFilter) [] (collectCutters m)) p).isSome = true := fun hh => h (h2.mp hh)
    rw [Option.not_isSome_iff_eq_none.mp this]; rfl

theorem mem_requests {m : List (String × Meta)} {p : String} {c : Entry} (h : c ∈ requests m p) :
    ∃ e ∈ m, (e.1, e.2.op) = c ∧ e.2.op.isCutter ∧ p ∈ e.2.op.targetFilter := by
  unfold requests at h
  obtain ⟨e, he, hc⟩ := List.mem_flatMap.mp h
  split_ifs at hc with hk
  · obtain ⟨h1, h2⟩ := List.mem_replicate.mp hc
    exact ⟨e, he, h2.symm, hk, List.count_pos_iff.mp (Nat.pos_of_ne_zero h1)⟩
  · simp at hc

theorem consumed_iff (m : List (String × Meta)) (p : String) :
    p ∈ ((collectCutters m).filter fun c => c.2.consumes).map (·.1) ↔ IsConsumed m p := by
  unfold IsConsumed
  simp only [List.mem_map, List.mem_filter]
  constructor
  · rintro ⟨c, ⟨hc, h⟩, rfl⟩
    obtain ⟨e, he, rfl, h1⟩ := (mem_collect m c).mp hc
    exact ⟨e, he, rfl, h1, h⟩
  · rintro ⟨e, he, rfl, h1, h2⟩
    exact ⟨_, ⟨(mem_collect m _).mpr ⟨e, he, rfl, h1⟩, h2⟩, rfl⟩

theorem valid_iff (m : List (String × Meta)) : validateCutters (collectCutters m) = [] ↔ Valid m := by
  unfold validateCutters Valid
  rw [List.map_eq_nil_iff, List.filter_eq_nil_iff]
  constructor
  · intro h e he hk ht
    exact h _ ((mem_collect m _).mpr ⟨e, he, rfl, hk⟩) (by simp [ht])
  · intro h c hc
    obtain ⟨e, he, rfl, h1⟩ := (mem_collect m c).mp hc
    have := h e he h1
    simpa using this

/-! ## the per-target loop -/

/-- effect of `es` on an accumulator -/
theorem applyEntry_run (bool : G → G → String → Option G) (parts : List (String × G)) (p : String)
    (es : List Entry) (a : Acc G) :
    ∃ app fl, CutRun bool parts a.geom es (es.foldl (applyEntry bool parts p) a).geom app fl ∧
      (es.foldl (applyEntry bool parts p) a).applied = a.applied ++ app ∧
      (es.foldl (applyEntry bool parts p) a).errors =
        a.errors ++ (fl.filter fun f => f.policy = "strict").map (Failure.msg p) ∧
      (es.foldl (applyEntry bool parts p) a).warnings =
        a.warnings ++ (fl.filter fun f => f.policy = "warn").map (Failure.msg p) ∧
      (es.foldl (applyEntry bool parts p) a).retained =
        a.retained ++ (es.filter fun e => (dget parts e.1).isSome && !e.2.consumes).map (·.1) ∧
      (es.foldl (applyEntry bool parts p) a).log =
        a.log ++ (es.filter fun e => (dget parts e.1).isSome).map
          fun e => LogLine.apply e.2.kindD e.1 p e.2.prio := by
  induction es generalizing a with
  | nil => exact ⟨[], [], .nil _, by simp⟩
  | cons e es ih =>
    simp only [List.foldl_cons]
    obtain ⟨app, fl, h1, h2, h3, h4, h5, h6⟩ := ih (applyEntry bool parts p a e)
    rcases hd : dget parts e.1 with _ | cg
    · refine ⟨app, .missing e :: fl, ?_, ?_, ?_, ?_, ?_, ?_⟩
      · have : (applyEntry bool parts p a e).geom = a.geom := by
          unfold applyEntry; rw [hd]
        rw [this] at h1
        exact .missing hd h1
      · rw [h2]; unfold applyEntry; rw [hd]
      · rw [h3]
        unfold applyEntry handlePolicy
        rw [hd]
        simp only [List.filter_cons, Failure.policy]
        by_cases hs : e.2.pol = "strict"
        · simp [hs, Failure.msg]
        · by_cases hw : e.2.pol = "warn" <;> simp [hs, hw]
      · rw [h4]
        unfold applyEntry handlePolicy
        rw [hd]
        simp only [List.filter_cons, Failure.policy]
        by_cases hs : e.2.pol = "strict"
        · simp [hs]
        · by_cases hw : e.2.pol = "warn" <;> simp [hs, hw, Failure.msg]
      · rw [h5]; unfold applyEntry; rw [hd]; simp [List.filter_cons, hd]
      · rw [h6]; unfold applyEntry; rw [hd]; simp [List.filter_cons, hd]
    · rcases hb : bool a.geom cg e.2.kindD with _ | g1
      · refine ⟨app, .boolean e :: fl, ?_, ?_, ?_, ?_, ?_, ?_⟩
        · have : (applyEntry bool parts p a e).geom = a.geom := by
            unfold applyEntry; rw [hd]; simp only [hb]; split_ifs <;> rfl
          rw [this] at h1
          exact .fail hd hb h1
        · rw [h2]; unfold applyEntry; rw [hd]; simp only [hb]; split_ifs <;> rfl
        · rw [h3]
          have : (applyEntry bool parts p a e).errors = a.errors ++
              (if e.2.pol = "strict" then [Msg.booleanFailed e.2.kindD e.1 p] else []) := by
            unfold applyEntry handlePolicy
            rw [hd]; simp only [hb]
            split_ifs <;> simp
          rw [this]
          simp only [List.filter_cons, Failure.policy]
          by_cases hs : e.2.pol = "strict" <;> simp [hs, Failure.msg]
        · rw [h4]
          have : (applyEntry bool parts p a e).warnings = a.warnings ++
              (if e.2.pol = "warn" then [Msg.booleanFailed e.2.kindD e.1 p] else []) := by
            unfold applyEntry handlePolicy
            rw [hd]; simp only [hb]
            by_cases hs : e.2.pol = "strict"
            · simp only [hs, if_true]; split_ifs <;> simp_all
            · simp only [hs, if_false]; split_ifs <;> simp
          rw [this]
          simp only [List.filter_cons, Failure.policy]
          by_cases hs : e.2.pol = "warn" <;> simp [hs, Failure.msg]
        · rw [h5]
          unfold applyEntry; rw [hd]; simp only [hb, List.filter_cons, hd, Option.isSome_some, Bool.true_and]
          by_cases hc : e.2.consumes <;> simp [hc]
        · rw [h6]
          unfold applyEntry; rw [hd]; simp only [hb, List.filter_cons, hd, Option.isSome_some]
          by_cases hc : e.2.consumes <;> simp [hc]
      · refine ⟨e.1 :: app, fl, ?_, ?_, ?_, ?_, ?_, ?_⟩
        · have : (applyEntry bool parts p a e).geom = g1 := by
            unfold applyEntry; rw [hd]; simp only [hb]; split_ifs <;> rfl
          rw [this] at h1
          exact .ok hd hb h1
        · rw [h2]; unfold applyEntry; rw [hd]; simp only [hb]; split_ifs <;> simp
        · rw [h3]; unfold applyEntry; rw [hd]; simp only [hb]; split_ifs <;> simp
        · rw [h4]; unfold applyEntry; rw [hd]; simp only [hb]; split_ifs <;> simp
        · rw [h5]
          unfold applyEntry; rw [hd]; simp only [hb, List.filter_cons, hd, Option.isSome_some, Bool.true_and]
          by_cases hc : e.2.consumes <;> simp [hc]
        · rw [h6]
          unfold applyEntry; rw [hd]; simp only [hb, List.filter_cons, hd, Option.isSome_some]
          by_cases hc : e.2.consumes <;> simp [hc]

/-- accumulator after processing all requests of `p` -/
def accOf (bool : G → G → String → Option G) (parts : List (String × G)) (m : List (String × Meta))
    (p : String × G) : Acc G :=
  (sortP (requests m p.1)).foldl (applyEntry bool parts p.1) { geom := p.2 }

/-- the output entry of part `p` -/
def outOf (bool : G → G → String → Option G) (parts : List (String × G)) (m : List (String × Meta))
    (p : String × G) : ResolvedPart G :=
  if IsTarget m p.1 then
    let a := accOf bool parts m p
    { partId := p.1, geometry := a.geom, applied := a.applied, retained := a.retained,
      warnings := a.warnings, errors := a.errors }
  else { partId := p.1, geometry := p.2 }

/-- the parts that appear in the output -/
def keeps (m : List (String × Meta)) (p : String) : Bool :=
  decide (IsTarget m p ∨ ¬ IsConsumed m p)

theorem resolveLoop (bool : G → G → String → Option G) (parts : List (String × G))
    (m : List (String × Meta)) (ps : List (String × G)) (s : St G)
    (hn : (keys ps).Nodup) (hd : ∀ k ∈ keys ps, k ∉ keys s.resolved) :
    ps.foldl (resolvePart bool parts (targetOps (collectCutters m))
      (((collectCutters m).filter fun c => c.2.consumes).map (·.1))) s =
    { resolved := s.resolved ++ (ps.filter fun p => keeps m p.1).map
        fun p => (p.1, outOf bool parts m p)
      retainedAll := s.retainedAll ++ (ps.filter fun p => IsTarget m p.1).flatMap
        fun p => (accOf bool parts m p).retained
      log := s.log ++ (ps.filter fun p => IsTarget m p.1).flatMap fun p => (accOf bool parts m p).log
      errors := s.errors ++ (ps.filter fun p => IsTarget m p.1).flatMap
        fun p => (accOf bool parts m p).errors } := by
  induction ps generalizing s with
  | nil => simp
  | cons p ps ih =>
    simp only [List.foldl_cons]
    have hn' : p.1 ∉ keys ps ∧ (keys ps).Nodup := by
      unfold keys at hn ⊢
      simpa using hn
    have hp : p.1 ∉ keys s.resolved := hd p.1 (by unfold keys; simp)
    have hd' : ∀ k ∈ keys ps, k ∉ keys s.resolved := fun k hk => hd k (by
      unfold keys at hk ⊢; simp only [List.map_cons, List.mem_cons]; exact Or.inr hk)
    have hdisj : ∀ v : ResolvedPart G, ∀ k ∈ keys ps, k ∉ keys (s.resolved ++ [(p.1, v)]) := by
      intro v k hk hm
      unfold keys at hm
      rw [List.map_append, List.mem_append] at hm
      rcases hm with hm | hm
      · exact hd' k hk hm
      · simp only [List.map_cons, List.map_nil, List.mem_singleton] at hm
        exact hn'.1 (hm ▸ hk)
    by_cases ht : IsTarget m p.1
    · have hk : keeps m p.1 = true := by unfold keeps; simp [ht]
      have : resolvePart bool parts (targetOps (collectCutters m))
          (((collectCutters m).filter fun c => c.2.consumes).map (·.1)) s p =
          { resolved := s.resolved ++ [(p.1, outOf bool parts m p)]
            retainedAll := s.retainedAll ++ (accOf bool parts m p).retained
            log := s.log ++ (accOf bool parts m p).log
            errors := s.errors ++ (accOf bool parts m p).errors } := by
        unfold resolvePart
        rw [dget_targetOps, if_pos ht]
        simp only []
        rw [dset_absent _ _ _ hp]
        unfold outOf
        rw [if_pos ht]
        rfl
      rw [this, ih _ hn'.2 (hdisj _)]
      simp [List.filter_cons, hk, ht]
    · by_cases hc : IsConsumed m p.1
      · have hk : keeps m p.1 = false := by unfold keeps; simp [ht, hc]
        have : resolvePart bool parts (targetOps (collectCutters m))
            (((collectCutters m).filter fun c => c.2.consumes).map (·.1)) s p = s := by
          unfold resolvePart
          rw [dget_targetOps, if_neg ht]
          simp only []
          rw [if_pos ((consumed_iff m p.1).mpr hc)]
        rw [this, ih _ hn'.2 hd']
        simp [List.filter_cons, hk, ht]
      · have hk : keeps m p.1 = true := by unfold keeps; simp [hc]
        have : resolvePart bool parts (targetOps (collectCutters m))
            (((collectCutters m).filter fun c => c.2.consumes).map (·.1)) s p =
            { s with resolved := s.resolved ++ [(p.1, outOf bool parts m p)] } := by
          unfold resolvePart
          rw [dget_targetOps, if_neg ht]
          simp only []
          rw [if_neg (fun h => hc ((consumed_iff m p.1).mp h)), dset_absent _ _ _ hp]
          unfold outOf
          rw [if_neg ht]
        rw [this, ih _ hn'.2 (hdisj _)]
        simp [List.filter_cons, hk, ht]

theorem addRetained_noop (parts : List (String × G)) (ra : List String)
    (r : List (String × ResolvedPart G)) (cs : List Entry)
    (h : ∀ c ∈ cs, c.1 ∈ ra → (dget r c.1).isSome = true) :
    cs.foldl (addRetained parts ra) (some r) = some r := by
  induction cs with
  | nil => rfl
  | cons c cs ih =>
    rw [List.foldl_cons]
    have : addRetained parts ra (some r) c = some r := by
      unfold addRetained
      by_cases h1 : (dget r c.1).isSome = true
      · simp [h1]
      · by_cases h2 : c.1 ∈ ra
        · exact absurd (h c (by simp) h2) h1
        · simp [h1, h2]
    rw [this]
    exact ih fun c hc => h c (List.mem_cons_of_mem _ hc)

/-- closed form of `BasicResolver.resolve` -/
theorem basicResolve_eq (bool : G → G → String → Option G) (parts : List (String × G))
    (m : List (String × Meta)) (hp : (keys parts).Nodup) (hm : (keys m).Nodup) (hv : Valid m) :
    basicResolve bool parts m = some
      { parts := (parts.filter fun p => keeps m p.1).map fun p => (p.1, outOf bool parts m p)
        log := (parts.filter fun p => IsTarget m p.1).flatMap fun p => (accOf bool parts m p).log
        success := decide (((parts.filter fun p => IsTarget m p.1).flatMap
          fun p => (accOf bool parts m p).errors) = [])
        errors := (parts.filter fun p => IsTarget m p.1).flatMap
          fun p => (accOf bool parts m p).errors } := by
  unfold basicResolve
  simp only [(valid_iff m).mpr hv, ne_eq, not_true, if_false]
  rw [resolveLoop bool parts m parts {} hp (by simp [keys])]
  simp only [List.nil_append]
  rw [addRetained_noop]
  rintro c hc hr
  obtain ⟨p, hpm, hr⟩ := List.mem_flatMap.mp hr
  obtain ⟨app, fl, h1, h2, h3, h4, h5, h6⟩ :=
    applyEntry_run bool parts p.1 (sortP (requests m p.1)) { geom := p.2 }
  unfold accOf at hr
  rw [h5] at hr
  simp only [List.nil_append, List.mem_map, List.mem_filter, Bool.and_eq_true,
    Bool.not_eq_true'] at hr
  obtain ⟨e, ⟨he, hsome, hcons⟩, hec⟩ := hr
  obtain ⟨x, hx, rfl, hxc, hxt⟩ := mem_requests ((sortP_perm _).mem_iff.mp he)
  simp only at hec hsome hcons
  rw [← hec] 
  have hk : keeps m x.1 = true := by
    unfold keeps
    rw [decide_eq_true_iff]
    right
    rintro ⟨y, hy, hyx, _, hyc⟩
    have : dget m x.1 = some y.2 := by
      rw [← hyx]; exact dget_of_mem hm hy
    have h' : dget m x.1 = some x.2 := dget_of_mem hm hx
    rw [this] at h'
    simp only [Option.some.injEq] at h'
    rw [h', hcons] at hyc
    exact absurd hyc (by simp)
  rw [← mem_keys]
  obtain ⟨g, hg⟩ := Option.isSome_iff_exists.mp hsome
  have hmem := mem_of_dget hg
  unfold keys
  rw [List.map_map, List.mem_map]
  exact ⟨(x.1, g), List.mem_filter.mpr ⟨hmem, hk⟩, rfl⟩

end Verif.Resolver
