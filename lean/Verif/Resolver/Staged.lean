import Verif.Resolver.Lemmas

namespace Verif.Resolver
open Verif.Dict
variable {G : Type}

/-! ## the staged resolver -/

theorem basicResolve_congr (bool : G → G → String → Option G) (parts : List (String × G))
    (m m' : List (String × Meta)) (h : collectCutters m = collectCutters m') :
    basicResolve bool parts m = basicResolve bool parts m' := by
  unfold basicResolve
  rw [h]

theorem collect_onlyStage (stages : List String) (fb st : String) (m : List (String × Meta)) :
    collectCutters (onlyStage stages fb st m) =
      (collectCutters m).filter fun c => decide (stageOf stages fb c.2 = st) := by
  unfold collectCutters onlyStage
  induction m with
  | nil => rfl
  | cons e m ih =>
    simp only [List.map_cons, List.filter_cons] at ih ⊢
    by_cases h1 : stageOf stages fb e.2.op = st
    · by_cases h2 : e.2.op.isCutter
      · simp only [h1, h2, if_true, decide_true, List.filter_cons, ih]
      · simp only [h1, h2, if_true, ih, Bool.false_eq_true, if_false]
    · have h0 : Operation.isCutter (Meta.op {}) = false := rfl
      by_cases h2 : e.2.op.isCutter
      · simp only [h1, h2, if_true, if_false, h0, Bool.false_eq_true, decide_false,
          List.filter_cons, ih]
      · simp only [h1, h2, if_false, h0, Bool.false_eq_true, ih]

theorem keys_collect_sublist (m : List (String × Meta)) :
    ((collectCutters m).map (·.1)).Sublist (keys m) := by
  unfold collectCutters keys
  have : (List.map (fun e : String × Meta => (e.1, e.2.op)) m).map (·.1) = m.map (·.1) := by
    rw [List.map_map]; rfl
  rw [← this]
  exact List.Sublist.map _ List.filter_sublist

theorem foldl_dset_fresh {V W : Type} (f : String × W → V) (l : List (String × W))
    (m : List (String × V)) (hn : (l.map (·.1)).Nodup) (hd : ∀ k ∈ l.map (·.1), k ∉ keys m) :
    l.foldl (fun m c => dset m c.1 (f c)) m = m ++ l.map fun c => (c.1, f c) := by
  induction l generalizing m with
  | nil => simp
  | cons c l ih =>
    simp only [List.map_cons, List.nodup_cons] at hn
    rw [List.foldl_cons, dset_absent _ _ _ (hd c.1 (by simp)), ih _ hn.2]
    · simp
    · intro k hk hm
      unfold keys at hm
      rw [List.map_append, List.mem_append] at hm
      rcases hm with hm | hm
      · exact hd k (by simp [List.mem_map] at hk ⊢; exact Or.inr hk) hm
      · simp only [List.map_cons, List.map_nil, List.mem_singleton] at hm
        exact hn.1 (hm ▸ hk)

theorem stripped_fold (ms : List (String × Meta)) (m0 : List (String × Meta)) :
    ∃ l : List (String × Meta), (∀ e ∈ l, e.2 = {}) ∧
      ms.foldl (fun m e => if (dget m e.1).isSome then m else dset m e.1 {}) m0 = m0 ++ l := by
  induction ms generalizing m0 with
  | nil => exact ⟨[], by simp⟩
  | cons e ms ih =>
    rw [List.foldl_cons]
    by_cases h : (dget m0 e.1).isSome = true
    · rw [if_pos h]; exact ih m0
    · rw [if_neg h]
      have h' : e.1 ∉ keys m0 := fun hk => h (mem_keys.mp hk)
      rw [dset_absent _ _ _ h']
      obtain ⟨l, h1, h2⟩ := ih (m0 ++ [(e.1, (⟨none⟩ : Meta))])
      refine ⟨(e.1, {}) :: l, ?_, by rw [h2]; simp⟩
      intro x hx
      rcases List.mem_cons.mp hx with rfl | hx
      · rfl
      · exact h1 x hx

theorem collect_stageMeta (m : List (String × Meta)) (hm : (keys m).Nodup)
    (b : List (String × Operation)) (hb : b.Sublist (collectCutters m)) :
    collectCutters (stageMeta m b) = b := by
  have hbn : (b.map (·.1)).Nodup :=
    hm.sublist ((hb.map _).trans (keys_collect_sublist m))
  unfold stageMeta
  simp only []
  rw [foldl_dset_fresh (fun c : String × Operation => (dget m c.1).getD {}) b [] hbn (by simp [keys])]
  obtain ⟨l, hl, e⟩ := stripped_fold m ([] ++ b.map fun c => (c.1, (dget m c.1).getD {}))
  rw [e]
  unfold collectCutters
  rw [List.nil_append, List.map_append, List.filter_append]
  have h2 : (List.map (fun e : String × Meta => (e.1, e.2.op)) l).filter (fun e => e.2.isCutter) = [] := by
    rw [List.filter_eq_nil_iff]
    intro x hx
    obtain ⟨y, hy, rfl⟩ := List.mem_map.mp hx
    rw [hl y hy]
    simp [Meta.op, Operation.isCutter]
  rw [h2, List.append_nil, List.map_map]
  have hmem : ∀ c ∈ b, ((dget m c.1).getD {}).op = c.2 ∧ c.2.isCutter = true := by
    intro c hc
    obtain ⟨e, he, rfl, hk⟩ := (mem_collect m c).mp (hb.subset hc)
    rw [dget_of_mem hm he]
    exact ⟨rfl, hk⟩
  have h3 : List.map ((fun e : String × Meta => (e.1, e.2.op)) ∘
      fun c : String × Operation => (c.1, (dget m c.1).getD {})) b = b := by
    conv_rhs => rw [← List.map_id b]
    apply List.map_congr_left
    intro c hc
    simp only [Function.comp, id, (hmem c hc).1]
  rw [h3, List.filter_eq_self]
  exact fun c hc => (hmem c hc).2

theorem keys_onlyStage (stages : List String) (fb st : String) (m : List (String × Meta)) :
    keys (onlyStage stages fb st m) = keys m := by
  unfold onlyStage keys
  rw [List.map_map]
  apply List.map_congr_left
  intro e _
  simp only [Function.comp]
  split_ifs <;> rfl

theorem valid_onlyStage {stages : List String} {fb st : String} {m : List (String × Meta)}
    (h : Valid m) : Valid (onlyStage stages fb st m) := by
  intro e he hk
  unfold onlyStage at he
  obtain ⟨x, hx, rfl⟩ := List.mem_map.mp he
  revert hk
  split_ifs
  · exact h x hx
  · intro hk; simp [Meta.op, Operation.isCutter] at hk

/-! ## cut runs -/

theorem CutRun.append {bool : G → G → String → Option G} {parts : List (String × G)}
    {g g1 g2 : G} {es fs app app' fl fl'} (h : CutRun bool parts g es g1 app fl)
    (h' : CutRun bool parts g1 fs g2 app' fl') :
    CutRun bool parts g (es ++ fs) g2 (app ++ app') (fl ++ fl') := by
  induction h with
  | nil => exact h'
  | ok a b _ ih => exact .ok a b (ih h')
  | fail a b _ ih => exact .fail a b (ih h')
  | missing a _ ih => exact .missing a (ih h')

theorem CutRun.congr {bool : G → G → String → Option G} {parts parts' : List (String × G)}
    {g g1 : G} {es app fl} (h : CutRun bool parts g es g1 app fl)
    (hp : ∀ e ∈ es, dget parts' e.1 = dget parts e.1) : CutRun bool parts' g es g1 app fl := by
  induction h with
  | nil => exact .nil _
  | ok a b _ ih =>
    exact .ok ((hp _ (by simp)).trans a) b (ih fun e he => hp e (List.mem_cons_of_mem _ he))
  | fail a b _ ih =>
    exact .fail ((hp _ (by simp)).trans a) b (ih fun e he => hp e (List.mem_cons_of_mem _ he))
  | missing a _ ih =>
    exact .missing ((hp _ (by simp)).trans a) (ih fun e he => hp e (List.mem_cons_of_mem _ he))

theorem CutRun.functional {bool : G → G → String → Option G} {parts : List (String × G)}
    {g g1 g2 : G} {es app app' fl fl'} (h : CutRun bool parts g es g1 app fl)
    (h' : CutRun bool parts g es g2 app' fl') : g1 = g2 ∧ app = app' ∧ fl = fl' := by
  induction h generalizing g2 app' fl' with
  | nil => cases h'; exact ⟨rfl, rfl, rfl⟩
  | ok a b _ ih =>
    cases h' with
    | ok a' b' h' =>
      rw [a] at a'; cases a'; rw [b] at b'; cases b'
      obtain ⟨rfl, rfl, rfl⟩ := ih h'; exact ⟨rfl, rfl, rfl⟩
    | fail a' b' _ => rw [a] at a'; cases a'; rw [b] at b'; cases b'
    | missing a' _ => rw [a] at a'; cases a'
  | fail a b _ ih =>
    cases h' with
    | ok a' b' h' => rw [a] at a'; cases a'; rw [b] at b'; cases b'
    | fail a' b' h' => obtain ⟨rfl, rfl, rfl⟩ := ih h'; exact ⟨rfl, rfl, rfl⟩
    | missing a' _ => rw [a] at a'; cases a'
  | missing a _ ih =>
    cases h' with
    | ok a' b' h' => rw [a] at a'; cases a'
    | fail a' b' h' => rw [a] at a'; cases a'
    | missing a' h' => obtain ⟨rfl, rfl, rfl⟩ := ih h'; exact ⟨rfl, rfl, rfl⟩

/-! ## uniqueness of the priority order -/

theorem InPriorityOrder.unique {r a b : List Entry} (ha : InPriorityOrder r a)
    (hb : InPriorityOrder r b) : a = b := by
  have key : ∀ (a b : List Entry), a.Perm b →
      a.Pairwise (fun a b => a.2.prio ≤ b.2.prio) → b.Pairwise (fun a b => a.2.prio ≤ b.2.prio) →
      (∀ k, (a.filter fun e => e.2.prio = k) = b.filter fun e => e.2.prio = k) → a = b := by
    intro a
    induction a with
    | nil => intro b h _ _ _; exact (List.nil_perm.mp h).symm
    | cons x xs ih =>
      intro b h hs hs' hk
      cases b with
      | nil => exact absurd h.symm (by simp)
      | cons y ys =>
        have hxy : x.2.prio = y.2.prio := by
          apply le_antisymm
          · rcases List.mem_cons.mp (h.mem_iff.mpr (List.mem_cons_self (a := y))) with e | hy
            · rw [e]
            · exact (List.pairwise_cons.mp hs).1 y hy
          · rcases List.mem_cons.mp (h.mem_iff.mp (List.mem_cons_self (a := x))) with e | hx
            · rw [e]
            · exact (List.pairwise_cons.mp hs').1 x hx
        have h0 := hk x.2.prio
        simp only [List.filter_cons, decide_true, if_true, hxy.symm, List.cons.injEq] at h0
        obtain ⟨rfl, _⟩ := h0
        congr 1
        refine ih ys (List.Perm.cons_inv h) (List.pairwise_cons.mp hs).2 (List.pairwise_cons.mp hs').2 ?_
        intro k
        have := hk k
        simp only [List.filter_cons] at this
        split_ifs at this
        · exact (List.cons.inj this).2
        · exact this
  exact key a b (ha.perm.trans hb.perm.symm) ha.sorted hb.sorted
    fun k => (ha.stable k).trans (hb.stable k).symm

/-! ## the loop over the stages -/

theorem dget_map_fst {V W : Type} (f : String → V → W) (d : List (String × V)) (k : String) :
    dget (d.map fun t => (t.1, f t.1 t.2)) k = (dget d k).map (f k) := by
  induction d with
  | nil => rfl
  | cons e d ih =>
    simp only [List.map_cons, dget, ih]
    split_ifs with h
    · rw [h]; rfl
    · rfl

theorem dget_accumulate (rs : List (String × ResolvedPart G)) (ops : List (String × List String))
    (hn : (keys rs).Nodup) (p : String) :
    dget (rs.foldl accumulate ops) p =
      match dget rs p with
      | none => dget ops p
      | some rp => some ((dget ops p).getD [] ++ rp.applied) := by
  induction rs generalizing ops with
  | nil => rfl
  | cons e rs ih =>
    have hn' : e.1 ∉ keys rs ∧ (keys rs).Nodup := by unfold keys at hn ⊢; simpa using hn
    rw [List.foldl_cons, ih _ hn'.2]
    unfold accumulate
    simp only [dget_dset, dget]
    by_cases h : e.1 = p
    · subst h
      rw [dget_none.mpr hn'.1]
      simp
    · have h' : ¬ p = e.1 := fun x => h x.symm
      simp only [h, h', if_false]

theorem keys_out_nodup (bool : G → G → String → Option G) (parts : List (String × G))
    (m : List (String × Meta)) (hp : (keys parts).Nodup) :
    (keys ((parts.filter fun p => keeps m p.1).map fun p => (p.1, outOf bool parts m p))).Nodup := by
  have : keys ((parts.filter fun p => keeps m p.1).map fun p => (p.1, outOf bool parts m p)) =
      (parts.filter fun p => keeps m p.1).map (·.1) := by
    unfold keys; rw [List.map_map]; rfl
  rw [this]
  exact hp.sublist (List.Sublist.map _ List.filter_sublist)

theorem stageOf_mem {stages : List String} {fb : String} (h : stages.getLast? = some fb)
    (o : Operation) : stageOf stages fb o ∈ stages := by
  have hfb : fb ∈ stages := List.mem_of_getLast? h
  unfold stageOf
  rcases o.stage with _ | s
  · exact hfb
  · by_cases hs : s ∈ stages <;> simp [hs, hfb]

theorem mem_onlyStage {stages : List String} {fb st : String} {m : List (String × Meta)}
    {e : String × Meta} (he : e ∈ onlyStage stages fb st m) (hk : e.2.op.isCutter) :
    e ∈ m ∧ stageOf stages fb e.2.op = st := by
  unfold onlyStage at he
  obtain ⟨x, hx, rfl⟩ := List.mem_map.mp he
  revert hk
  split_ifs with h
  · intro _; exact ⟨hx, h⟩
  · intro hk; simp [Meta.op, Operation.isCutter] at hk

theorem onlyStage_mem {stages : List String} {fb : String} {m : List (String × Meta)}
    {e : String × Meta} (he : e ∈ m) : e ∈ onlyStage stages fb (stageOf stages fb e.2.op) m :=
  List.mem_map.mpr ⟨e, he, by simp⟩

theorem consumed_some_stage (stages : List String) (fb : String) (h : stages.getLast? = some fb)
    (m : List (String × Meta)) (p : String) :
    (∃ st ∈ stages, IsConsumed (onlyStage stages fb st m) p) ↔ IsConsumed m p := by
  constructor
  · rintro ⟨st, _, e, he, h1, h2, h3⟩
    exact ⟨e, (mem_onlyStage he h2).1, h1, h2, h3⟩
  · rintro ⟨e, he, h1, h2, h3⟩
    exact ⟨_, stageOf_mem h e.2.op, e, onlyStage_mem he, h1, h2, h3⟩

theorem isTarget_onlyStage {stages : List String} {fb st : String} {m : List (String × Meta)}
    {p : String} (h : IsTarget (onlyStage stages fb st m) p) : IsTarget m p := by
  obtain ⟨e, he, h1, h2⟩ := h
  exact ⟨e, (mem_onlyStage he h1).1, h1, h2⟩

theorem requests_nil {m : List (String × Meta)} {p : String} (h : ¬ IsTarget m p) :
    requests m p = [] := by
  rw [List.eq_nil_iff_forall_not_mem]
  intro c hc
  obtain ⟨e, he, _, h1, h2⟩ := mem_requests hc
  exact h ⟨e, he, h1, h2⟩

theorem InPriorityOrder.nil_of {o : List Entry} (h : InPriorityOrder [] o) : o = [] :=
  List.perm_nil.mp h.perm

/-- loop invariant of the stages: `d` have been run -/
structure StInv (bool : G → G → String → Option G) (stages : List String) (fb : String)
    (parts : List (String × G)) (m : List (String × Meta)) (d : List String) (s : StagedSt G) :
    Prop where
  keys_eq : keys s.parts =
    (keys parts).filter fun p => ¬ ∃ st ∈ d, IsConsumed (onlyStage stages fb st m) p
  run : ∀ p g, (p, g) ∈ parts → p ∈ keys s.parts → ∃ orders g' fl,
    List.Forall₂ (fun st o => InPriorityOrder (requests (onlyStage stages fb st m) p) o) d orders ∧
    dget s.parts p = some g' ∧
    CutRun bool parts g orders.flatten g' ((dget s.ops p).getD []) fl
  err : s.errors = [] ↔ ∀ p g orders g' app fl, (p, g) ∈ parts →
    List.Forall₂ (fun st o => InPriorityOrder (requests (onlyStage stages fb st m) p) o) d orders →
    CutRun bool parts g orders.flatten g' app fl → ∀ f ∈ fl, f.policy ≠ "strict"

theorem StInv.init (bool : G → G → String → Option G) (stages : List String) (fb : String)
    (parts : List (String × G)) (m : List (String × Meta)) (hp : (keys parts).Nodup)
    (l : List LogLine) : StInv bool stages fb parts m [] { parts := parts, log := l } := by
  refine ⟨by simp, ?_, ?_⟩
  · intro p g hpg _
    exact ⟨[], g, [], .nil, dget_of_mem hp hpg, .nil g⟩
  · simp only [true_iff]
    intro p g orders g' app fl _ hf hr f hfm
    cases hf
    cases hr
    simp at hfm

theorem forall2_snoc {α β : Type} {R : α → β → Prop} {l : List α} {a : α} {o : List β}
    (h : List.Forall₂ R (l ++ [a]) o) : ∃ o' b, o = o' ++ [b] ∧ List.Forall₂ R l o' ∧ R a b := by
  induction l generalizing o with
  | nil =>
    cases h with
    | cons h1 h2 => cases h2; exact ⟨[], _, rfl, .nil, h1⟩
  | cons x l ih =>
    cases h with
    | cons h1 h2 =>
      obtain ⟨o', b, rfl, h3, h4⟩ := ih h2
      exact ⟨_ :: o', b, rfl, .cons h1 h3, h4⟩

theorem forall2_snoc_mk {α β : Type} {R : α → β → Prop} {l : List α} {a : α} {o : List β} {b : β}
    (h : List.Forall₂ R l o) (hb : R a b) : List.Forall₂ R (l ++ [a]) (o ++ [b]) := by
  induction h with
  | nil => exact .cons hb .nil
  | cons h1 _ ih => exact .cons h1 ih

theorem orders_unique {m : String → List Entry} {d : List String} {o o' : List (List Entry)}
    (h : List.Forall₂ (fun st o => InPriorityOrder (m st) o) d o)
    (h' : List.Forall₂ (fun st o => InPriorityOrder (m st) o) d o') : o = o' := by
  induction h generalizing o' with
  | nil => cases h'; rfl
  | cons h1 _ ih =>
    cases h' with
    | cons h1' h2' => rw [h1.unique h1', ih h2']

theorem orders_exist (m : String → List Entry) (d : List String) :
    List.Forall₂ (fun st o => InPriorityOrder (m st) o) d (d.map fun st => sortP (m st)) := by
  induction d with
  | nil => exact .nil
  | cons x d ih => exact .cons (sortP_order _) ih

theorem orders_nil {m : String → List Entry} {d : List String} {o : List (List Entry)}
    (hm : ∀ st, m st = []) (h : List.Forall₂ (fun st o => InPriorityOrder (m st) o) d o) :
    o.flatten = [] := by
  induction h with
  | nil => rfl
  | @cons a b l1 l2 h1 _ ih =>
    rw [hm a] at h1
    rw [List.flatten_cons, h1.nil_of, ih]; rfl

theorem cutRun_exists (bool : G → G → String → Option G) (parts : List (String × G)) (g : G)
    (es : List Entry) : ∃ g' app fl, CutRun bool parts g es g' app fl := by
  obtain ⟨app, fl, h, _⟩ := applyEntry_run bool parts "" es { geom := g }
  exact ⟨_, app, fl, h⟩

theorem staged_step (bool : G → G → String → Option G) (stages : List String) (fb : String)
    (parts : List (String × G)) (m : List (String × Meta)) (hp : (keys parts).Nodup)
    (hm : (keys m).Nodup) (hv : Valid m) (hct : ∀ e ∈ m, e.2.op.isCutter → ¬ IsTarget m e.1)
    (d : List String) (st : String) (hst : st ∉ d) (s : StagedSt G)
    (hs : StInv bool stages fb parts m d s) :
    ∃ s', runStage bool m
        (fun st => (collectCutters m).filter fun c => decide (stageOf stages fb c.2 = st))
        (some s) st = some s' ∧ StInv bool stages fb parts m (d ++ [st]) s' := by
  have hkn : (keys s.parts).Nodup := by rw [hs.keys_eq]; exact hp.filter _
  have hdis : ∀ c g, (c, g) ∈ parts → (∃ e ∈ m, e.1 = c ∧ e.2.op.isCutter) → ∀ g', 
      dget s.parts c = some g' → g' = g := by
    rintro c g hcg ⟨e, he, rfl, hk⟩ g' hg'
    have hmem : e.1 ∈ keys s.parts := mem_keys.mpr (by rw [hg']; rfl)
    obtain ⟨orders, g2, fl, h1, h2, h3⟩ := hs.run e.1 g hcg hmem
    rw [hg'] at h2
    cases h2
    rw [orders_nil (fun st => requests_nil fun h => hct e he hk (isTarget_onlyStage h)) h1] at h3
    generalize hop : (dget s.ops e.1).getD [] = op at h3
    cases h3
    rfl
  by_cases hb : ((collectCutters m).filter fun c => decide (stageOf stages fb c.2 = st)) = []
  · have hnone : ∀ e ∈ onlyStage stages fb st m, ¬ e.2.op.isCutter := by
      intro e he hk
      obtain ⟨h1, h2⟩ := mem_onlyStage he hk
      have : (e.1, e.2.op) ∈ (collectCutters m).filter fun c => decide (stageOf stages fb c.2 = st) :=
        List.mem_filter.mpr ⟨(mem_collect m _).mpr ⟨e, h1, rfl, hk⟩, by simpa using h2⟩
      rw [hb] at this; simp at this
    have hreq : ∀ p, requests (onlyStage stages fb st m) p = [] := fun p =>
      requests_nil (by rintro ⟨e, he, hk, _⟩; exact hnone e he hk)
    refine ⟨{ s with log := s.log ++ [LogLine.skip st] }, ?_, ?_, ?_, ?_⟩
    · unfold runStage; simp only [hb, if_true]
    · simp only [hs.keys_eq]
      apply List.filter_congr
      intro p _
      rw [decide_eq_decide, not_iff_not]
      constructor
      · rintro ⟨x, hx, h⟩; exact ⟨x, by simp [hx], h⟩
      · rintro ⟨x, hx, h⟩
        rcases List.mem_append.mp hx with hx | hx
        · exact ⟨x, hx, h⟩
        · rw [List.mem_singleton] at hx
          subst hx
          obtain ⟨e, he, _, hk, _⟩ := h
          exact absurd hk (hnone e he)
    · intro p g hpg hk
      obtain ⟨orders, g', fl, h1, h2, h3⟩ := hs.run p g hpg hk
      refine ⟨orders ++ [[]], g', fl, forall2_snoc_mk h1 ?_, h2, by simpa using h3⟩
      rw [hreq p]; exact sortP_order []
    · simp only []
      rw [hs.err]
      constructor
      · intro h p g orders g' app fl hpg ho hr
        obtain ⟨o', b, rfl, h1, h2⟩ := forall2_snoc ho
        rw [hreq p] at h2
        rw [h2.nil_of] at hr
        exact h p g o' g' app fl hpg h1 (by simpa using hr)
      · intro h p g orders g' app fl hpg ho hr
        refine h p g (orders ++ [[]]) g' app fl hpg (forall2_snoc_mk ho ?_) (by simpa using hr)
        rw [hreq p]; exact sortP_order []
  · have hmo : (keys (onlyStage stages fb st m)).Nodup := by rw [keys_onlyStage]; exact hm
    have hvo : Valid (onlyStage stages fb st m) := valid_onlyStage hv
    have hbr := basicResolve_eq bool s.parts (onlyStage stages fb st m) hkn hmo hvo
    have hcg : basicResolve bool s.parts (stageMeta m
        ((collectCutters m).filter fun c => decide (stageOf stages fb c.2 = st))) =
        basicResolve bool s.parts (onlyStage stages fb st m) :=
      basicResolve_congr bool s.parts _ _ (by
        rw [collect_onlyStage, collect_stageMeta m hm _ List.filter_sublist])
    have hon := keys_out_nodup bool s.parts (onlyStage stages fb st m) hkn
    -- lookups of this stage's cutters are unaffected by earlier stages
    have hlook : ∀ p, ∀ e ∈ sortP (requests (onlyStage stages fb st m) p),
        dget parts e.1 = dget s.parts e.1 := by
      intro p e he
      obtain ⟨x, hx, rfl, hk, _⟩ := mem_requests ((sortP_perm _).mem_iff.mp he)
      obtain ⟨hxm, hxs⟩ := mem_onlyStage hx hk
      simp only
      rcases hd : dget parts x.1 with _ | g
      · have : x.1 ∉ keys s.parts := by
          rw [hs.keys_eq]
          intro h
          exact dget_none.mp hd (List.mem_filter.mp h).1
        rw [dget_none.mpr this]
      · have hin : x.1 ∈ keys s.parts := by
          rw [hs.keys_eq, List.mem_filter]
          refine ⟨mem_keys.mpr (by rw [hd]; rfl), ?_⟩
          rw [decide_eq_true_eq]
          rintro ⟨st', hst', y, hy, hyx, hyk, _⟩
          obtain ⟨hym, hys⟩ := mem_onlyStage hy hyk
          have h1 := dget_of_mem hm hym
          have h2 := dget_of_mem hm hxm
          rw [hyx, h2] at h1
          rw [← Option.some.inj h1, hxs] at hys
          exact hst (hys ▸ hst')
        obtain ⟨g', hg'⟩ := Option.isSome_iff_exists.mp (mem_keys.mp hin)
        rw [hg', hdis x.1 g (mem_of_dget hd) ⟨x, hxm, rfl, hk⟩ g' hg']
    have hstep : ∀ p g1, dget s.parts p = some g1 →
        ∃ app fl, CutRun bool parts g1 (sortP (requests (onlyStage stages fb st m) p))
          (outOf bool s.parts (onlyStage stages fb st m) (p, g1)).geometry app fl ∧
          (outOf bool s.parts (onlyStage stages fb st m) (p, g1)).applied = app ∧
          ((IsTarget (onlyStage stages fb st m) p →
            (accOf bool s.parts (onlyStage stages fb st m) (p, g1)).errors = []) ↔
            ∀ f ∈ fl, f.policy ≠ "strict") := by
      intro p g1 hg1
      by_cases ht : IsTarget (onlyStage stages fb st m) p
      · obtain ⟨app, fl, h1, h2, h3, _⟩ := applyEntry_run bool s.parts p
          (sortP (requests (onlyStage stages fb st m) p)) { geom := g1 }
        refine ⟨app, fl, ?_, ?_, ?_⟩
        · unfold outOf; rw [if_pos ht]
          exact h1.congr (hlook p)
        · unfold outOf accOf; rw [if_pos ht]
          simpa using h2
        · unfold accOf
          rw [h3]
          simp [ht, List.filter_eq_nil_iff]
      · refine ⟨[], [], ?_, ?_, by simp [ht]⟩
        · unfold outOf
          rw [if_neg ht, requests_nil ht]
          exact .nil _
        · unfold outOf; rw [if_neg ht]
    refine ⟨{ parts := ((s.parts.filter fun p => keeps (onlyStage stages fb st m) p.1).map
                fun p => (p.1, outOf bool s.parts (onlyStage stages fb st m) p)).map
                fun p => (p.1, p.2.geometry)
              ops := ((s.parts.filter fun p => keeps (onlyStage stages fb st m) p.1).map
                fun p => (p.1, outOf bool s.parts (onlyStage stages fb st m) p)).foldl accumulate s.ops
              log := s.log ++ [LogLine.stage st ((collectCutters m).filter
                  fun c => decide (stageOf stages fb c.2 = st)).length] ++
                (s.parts.filter fun p => IsTarget (onlyStage stages fb st m) p.1).flatMap
                  fun p => (accOf bool s.parts (onlyStage stages fb st m) p).log
              errors := s.errors ++ (s.parts.filter fun p =>
                IsTarget (onlyStage stages fb st m) p.1).flatMap
                fun p => (accOf bool s.parts (onlyStage stages fb st m) p).errors }, ?_, ?_, ?_, ?_⟩
    · unfold runStage
      simp only [hb, if_false, hcg, hbr]
    · unfold keys
      rw [List.map_map, List.map_map]
      have : ((fun x : String × G => x.1) ∘ fun p : String × ResolvedPart G => (p.1, p.2.geometry)) ∘
          (fun p : String × G => (p.1, outOf bool s.parts (onlyStage stages fb st m) p)) =
          fun p => p.1 := rfl
      rw [this]
      have h2 : (s.parts.filter fun p => keeps (onlyStage stages fb st m) p.1).map (fun p => p.1) =
          (keys s.parts).filter (keeps (onlyStage stages fb st m)) := by
        unfold keys; rw [List.filter_map]; rfl
      rw [h2, hs.keys_eq, List.filter_filter]
      apply List.filter_congr
      intro p _
      unfold keeps
      rw [← Bool.decide_and, decide_eq_decide]
      have htc : IsConsumed (onlyStage stages fb st m) p → ¬ IsTarget (onlyStage stages fb st m) p := by
        rintro ⟨e, he, rfl, hk, _⟩ ht
        exact hct e (mem_onlyStage he hk).1 hk (isTarget_onlyStage ht)
      constructor
      · rintro ⟨h1, h2⟩ ⟨x, hx, h⟩
        rcases List.mem_append.mp hx with hx | hx
        · exact h2 ⟨x, hx, h⟩
        · rw [List.mem_singleton] at hx; subst hx
          rcases h1 with h1 | h1
          · exact htc h h1
          · exact h1 h
      · intro h
        exact ⟨Or.inr fun hc => h ⟨st, by simp, hc⟩, fun ⟨x, hx, hc⟩ => h ⟨x, by simp [hx], hc⟩⟩
    · intro p g hpg hk
      have hkm : p ∈ keys s.parts ∧ keeps (onlyStage stages fb st m) p = true := by
        unfold keys at hk
        simp only [List.map_map, List.mem_map, List.mem_filter, Function.comp] at hk
        obtain ⟨q, ⟨hq, hq2⟩, rfl⟩ := hk
        exact ⟨List.mem_map.mpr ⟨q, hq, rfl⟩, hq2⟩
      obtain ⟨orders, g1, fl, h1, h2, h3⟩ := hs.run p g hpg hkm.1
      obtain ⟨app', fl', h4, h5, _⟩ := hstep p g1 h2
      have hout : dget ((s.parts.filter fun p => keeps (onlyStage stages fb st m) p.1).map
          fun p => (p.1, outOf bool s.parts (onlyStage stages fb st m) p)) p =
          some (outOf bool s.parts (onlyStage stages fb st m) (p, g1)) :=
        dget_of_mem hon (List.mem_map.mpr ⟨(p, g1), List.mem_filter.mpr
          ⟨mem_of_dget h2, hkm.2⟩, rfl⟩)
      refine ⟨orders ++ [sortP (requests (onlyStage stages fb st m) p)],
        (outOf bool s.parts (onlyStage stages fb st m) (p, g1)).geometry, fl ++ fl',
        forall2_snoc_mk h1 (sortP_order _), ?_, ?_⟩
      · simp only []
        rw [dget_map_snd (fun r : ResolvedPart G => r.geometry), hout]; rfl
      · simp only []
        rw [dget_accumulate _ _ hon, hout]
        simp only [Option.getD_some, List.flatten_append, List.flatten_cons, List.flatten_nil,
          List.append_nil]
        rw [h5]
        exact h3.append h4
    · simp only [List.append_eq_nil_iff, List.flatMap_eq_nil_iff, List.mem_filter,
        decide_eq_true_eq]
      rw [hs.err]
      constructor
      · rintro ⟨ha, hb'⟩ p g orders g' app fl hpg ho hr
        obtain ⟨o', b, rfl, h1, h2⟩ := forall2_snoc ho
        by_cases hks : p ∈ keys s.parts
        · obtain ⟨orders, g1, fl1, h3, h4, h5⟩ := hs.run p g hpg hks
          obtain ⟨app', fl', h6, _, h8⟩ := hstep p g1 h4
          have hcomb := h5.append h6
          rw [orders_unique h1 h3, h2.unique (sortP_order _)] at hr
          simp only [List.flatten_append, List.flatten_cons, List.flatten_nil,
            List.append_nil] at hr
          obtain ⟨_, _, hfl⟩ := hr.functional hcomb
          rw [hfl]
          intro f hf
          rcases List.mem_append.mp hf with hf | hf
          · exact ha p g orders g1 _ fl1 hpg h3 h5 f hf
          · exact h8.mp (fun ht => hb' (p, g1) ⟨mem_of_dget h4, ht⟩) f hf
        · -- a consumed cutter: never a target
          have hnt : ¬ IsTarget m p := by
            rw [hs.keys_eq, List.mem_filter] at hks
            simp only [not_and, decide_eq_true_eq, not_not] at hks
            obtain ⟨x, _, e, he, rfl, hk, _⟩ := hks (List.mem_map.mpr ⟨_, hpg, rfl⟩)
            exact hct e (mem_onlyStage he hk).1 hk
          rw [orders_nil (fun st => requests_nil fun h => hnt (isTarget_onlyStage h)) ho] at hr
          cases hr
          simp
      · intro h
        refine ⟨?_, ?_⟩
        · intro p g orders g' app fl hpg ho hr f hf
          obtain ⟨g2, app2, fl2, hr2⟩ := cutRun_exists bool parts g'
            (sortP (requests (onlyStage stages fb st m) p))
          exact h p g _ g2 (app ++ app2) (fl ++ fl2) hpg (forall2_snoc_mk ho (sortP_order _))
            (by simpa using hr.append hr2) f (by simp [hf])
        · rintro ⟨p, g1⟩ ⟨hpm, ht⟩
          have hg1 := dget_of_mem hkn hpm
          have hks : p ∈ keys s.parts := mem_keys.mpr (by rw [hg1]; rfl)
          have hpp : p ∈ keys parts := by
            rw [hs.keys_eq] at hks; exact (List.mem_filter.mp hks).1
          obtain ⟨g, hg⟩ := Option.isSome_iff_exists.mp (mem_keys.mp hpp)
          have hpg := mem_of_dget hg
          obtain ⟨orders, g1', fl1, h3, h4, h5⟩ := hs.run p g hpg hks
          rw [hg1] at h4
          cases h4
          obtain ⟨app', fl', h6, _, h8⟩ := hstep p g1 hg1
          refine h8.mpr ?_ ht
          intro f hf
          exact h p g _ _ _ (fl1 ++ fl') hpg (forall2_snoc_mk h3 (sortP_order _))
            (by simpa using h5.append h6) f (by simp [hf])

theorem staged_inv (bool : G → G → String → Option G) (stages : List String) (fb : String)
    (parts : List (String × G)) (m : List (String × Meta)) (hp : (keys parts).Nodup)
    (hm : (keys m).Nodup) (hv : Valid m) (hct : ∀ e ∈ m, e.2.op.isCutter → ¬ IsTarget m e.1)
    (rest d : List String) (hd : d ++ rest = stages) (hn : stages.Nodup) (s : StagedSt G)
    (hs : StInv bool stages fb parts m d s) :
    ∃ s', rest.foldl (runStage bool m
        (fun st => (collectCutters m).filter fun c => decide (stageOf stages fb c.2 = st)))
        (some s) = some s' ∧ StInv bool stages fb parts m (d ++ rest) s' := by
  induction rest generalizing d s with
  | nil => exact ⟨s, rfl, by simpa using hs⟩
  | cons st rest ih =>
    have hst : st ∉ d := by
      intro h
      rw [← hd, List.nodup_append] at hn
      exact hn.2.2 st h st (by simp) rfl
    obtain ⟨s1, e1, h1⟩ := staged_step bool stages fb parts m hp hm hv hct d st hst s hs
    rw [List.foldl_cons, e1]
    obtain ⟨s2, e2, h2⟩ := ih (d ++ [st]) (by simpa using hd) s1 h1
    exact ⟨s2, e2, by simpa using h2⟩

end Verif.Resolver
