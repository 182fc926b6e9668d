import Verif.Kin.ChainLemmas2
import Mathlib.Data.List.Perm.Basic
import Mathlib.Order.WellFounded

namespace Verif.Kin
variable {V T : Type} [LinearOrder V] [Monoid T]
set_option linter.unusedSectionVars false

theorem topoLoop_perm (ord : List String → List String) (hord : ∀ l, (ord l).Perm l)
    (dep : String → Option String) (fuel : Nat) :
    ∀ rem : List String, rem.Nodup → rem.length ≤ fuel →
      ∃ L, topoLoop ord dep fuel rem = some L ∧ L.Perm rem := by
  induction fuel with
  | zero =>
    intro rem _ hl
    have : rem = [] := List.length_eq_zero_iff.mp (by omega)
    subst this
    exact ⟨[], by simp [topoLoop], .nil⟩
  | succ fuel ih =>
    intro rem hnd hl
    cases rem with
    | nil => exact ⟨[], by simp [topoLoop], .nil⟩
    | cons a rem =>
      simp only [topoLoop]
      set R := a :: rem with hR
      set ready := (ord R).filter _ with hready
      by_cases hr : ready = []
      · exact ⟨ord R, by rw [if_pos hr], hord R⟩
      · rw [if_neg hr]
        have hrn : ready.Nodup := ((hord R).nodup_iff.mpr hnd).filter _
        have hsub : ∀ x ∈ ready, x ∈ R := fun x hx =>
          (hord R).mem_iff.mp (List.mem_of_mem_filter hx)
        have hlt : (R.filter (· ∉ ready)).length < R.length := by
          obtain ⟨b, hb⟩ := List.exists_mem_of_ne_nil _ hr
          apply List.length_filter_lt_length_iff_exists.mpr
          exact ⟨b, hsub b hb, by simpa using hb⟩
        obtain ⟨L, hL, hp⟩ := ih (R.filter (· ∉ ready)) (hnd.filter _) (by omega)
        refine ⟨ready ++ L, by rw [hL]; rfl, ?_⟩
        refine (List.Perm.append_left ready hp).trans ?_
        rw [List.perm_ext_iff_of_nodup]
        · intro x
          simp only [List.mem_append, List.mem_filter, decide_eq_true_eq]
          constructor
          · rintro (h | h)
            · exact hsub x h
            · exact h.1
          · intro h
            by_cases hx : x ∈ ready
            · exact .inl hx
            · exact .inr ⟨h, hx⟩
        · refine List.Nodup.append hrn (hnd.filter _) ?_
          intro x h1 h2
          simp only [List.mem_filter, decide_eq_true_eq] at h2
          exact h2.2 h1
        · exact hnd

theorem topoLoop_sorted (ord : List String → List String) (hord : ∀ l, (ord l).Perm l)
    (dep : String → Option String) (r : String → Nat) (hacyc : ∀ n q, dep n = some q → r q < r n)
    (fuel : Nat) :
    ∀ (rem L : List String), rem.Nodup → topoLoop ord dep fuel rem = some L →
      ∀ pre n post, L = pre ++ n :: post → ∀ q, dep n = some q → q ∈ rem → q ∈ pre := by
  induction fuel with
  | zero =>
    intro rem L _ h pre n post e q _ _
    cases rem with
    | nil => simp [topoLoop] at h; subst h; simp at e
    | cons a rem => simp [topoLoop] at h
  | succ fuel ih =>
    intro rem L hnd h pre n post e q hq hqr
    cases rem with
    | nil => simp at hqr
    | cons a rem =>
      simp only [topoLoop] at h
      set R := a :: rem with hR
      set ready := (ord R).filter _ with hready
      by_cases hr : ready = []
      · exfalso
        obtain ⟨m, hm, hmin⟩ := WellFounded.has_min (measure r).wf {x | x ∈ R} ⟨a, by simp [hR]⟩
        have : m ∈ ready := by
          rw [hready, List.mem_filter]
          refine ⟨(hord R).mem_iff.mpr hm, ?_⟩
          cases hd : dep m with
          | none => rfl
          | some q' =>
            simp only [decide_eq_true_eq]
            intro hc
            exact hmin q' hc (hacyc m q' hd)
        rw [hr] at this
        simp at this
      · rw [if_neg hr] at h
        cases hL : topoLoop ord dep fuel (R.filter (· ∉ ready)) with
        | none => rw [hL] at h; simp at h
        | some L' =>
          rw [hL] at h
          simp only [Option.map_some, Option.some.injEq] at h
          rw [e] at h
          rcases List.append_eq_append_iff.mp h with ⟨a', h1, h2⟩ | ⟨c', h1, h2⟩
          · -- pre = ready ++ a'
            by_cases hqd : q ∈ ready
            · rw [h1]; exact List.mem_append_left _ hqd
            · have := ih _ L' (hnd.filter _) hL a' n post h2 q hq
                (by simp only [List.mem_filter, decide_eq_true_eq]; exact ⟨hqr, hqd⟩)
              rw [h1]; exact List.mem_append_right _ this
          · -- ready = pre ++ c'
            cases c' with
            | nil =>
              simp only [List.append_nil] at h1
              simp only [List.nil_append] at h2
              by_cases hqd : q ∈ ready
              · rw [← h1]; exact hqd
              · have := ih _ L' (hnd.filter _) hL [] n post h2.symm q hq
                  (by simp only [List.mem_filter, decide_eq_true_eq]; exact ⟨hqr, hqd⟩)
                simp at this
            | cons x c' =>
              simp only [List.cons_append, List.cons.injEq] at h2
              have hn : n ∈ ready := by rw [h1, h2.1]; simp
              rw [hready, List.mem_filter] at hn
              have := hn.2
              rw [hq] at this
              simp only [decide_eq_true_eq] at this
              exact absurd hqr this

/-! ### Round trip -/

/-- `s'` contains every non-datum part of `s` (up to caches). -/
structure Sim (s s' : Chain V T) : Prop where
  datum : ∃ d ∈ s'.parts, d.name = datumName
  parts : ∀ p ∈ s.parts, p.name ≠ datumName →
    ∃ p' ∈ s'.parts, ({ p' with cache := none } : Part V T) = { p with cache := none }

theorem Sim.pose {s s' : Chain V T} (h : Sim s s')
    (hor : ∀ p ∈ s.parts, p.parent = some datumName → p.parentFrame = "ORIGIN") {n : String} {w : T}
    (hp : Pose s n w) : Pose s' n w := by
  induction hp with
  | root => exact .root
  | @child n q p pq w hp hn hd hq hpq hqn hw ih =>
    obtain ⟨p', hp', e⟩ := h.parts p hp (hn ▸ hd)
    have key : ∃ pq' ∈ s'.parts, pq'.name = q ∧ pq'.offset p'.parentFrame = pq.offset p.parentFrame := by
      by_cases hqd : q = datumName
      · obtain ⟨d, hd, hdn⟩ := h.datum
        refine ⟨d, hd, hdn.trans hqd.symm, ?_⟩
        have := hor p hp (by rw [hq, hqd])
        simp [Part.offset, eqParentFrame e, this]
      · obtain ⟨pq', hpq', e'⟩ := h.parts pq hpq (hqn ▸ hqd)
        refine ⟨pq', hpq', (eqName e').trans hqn, ?_⟩
        simp [Part.offset, Part.getFrame, eqParentFrame e, eqFrames e']
    obtain ⟨pq', hpq', hqn', eo⟩ := key
    rw [← eo, ← eqJoint e]
    exact .child hp' ((eqName e).trans hn) hd ((eqParent e).trans hq) hpq' hqn' ih

theorem postInit_of_origin (p : Part V T) (h : (p.getFrame "ORIGIN").isSome = true) :
    p.postInit = p := by
  unfold Part.postInit
  unfold Part.getFrame at h
  rw [if_pos h]

/-- Adding, in parents-first order, the parts of a well-formed chain rebuilds its part list. -/
theorem addAll_spec {s : Chain V T} (hf : FrameOK s)
    (hor : ∀ p ∈ s.parts, p.parent = some datumName → p.parentFrame = "ORIGIN")
    (hpar : ∀ p ∈ s.parts, p.name ≠ datumName → ∃ q, p.parent = some q) (d : Part V T)
    (hd : d.name = datumName) (hdo : (d.getFrame "ORIGIN").isSome = true) :
    ∀ (L done : List (Part V T)) (c : Chain V T),
      c.parts = (done.map fun p => { p with cache := none }).reverse ++ [d] →
      (∀ p ∈ done, p ∈ s.parts ∧ p.name ≠ datumName) →
      (∀ p ∈ L, p ∈ s.parts ∧ p.name ≠ datumName) →
      ((done ++ L).map (·.name)).Nodup →
      (∀ pre p post, L = pre ++ p :: post → ∀ q, p.parent = some q → q ≠ datumName →
        ∃ pq ∈ done ++ pre, pq.name = q) →
      ∃ c', c.addAll (L.map fun p => { p with cache := none }) = .ok c' ∧
        c'.parts = ((done ++ L).map fun p => { p with cache := none }).reverse ++ [d] := by
  intro L
  induction L with
  | nil =>
    intro done c hc _ _ _ _
    exact ⟨c, by simp [Chain.addAll], by simpa using hc⟩
  | cons p L ih =>
    intro done c hc hdone hL hnd hpf
    obtain ⟨hps, hpd⟩ := hL p (by simp)
    obtain ⟨q, hq⟩ := hpar p hps hpd
    have horg : (({ p with cache := none } : Part V T).getFrame "ORIGIN").isSome = true := hf.origin p hps
    -- not a duplicate
    have hfresh : (c.find p.name).isSome = false := by
      by_contra hcon
      simp only [Bool.not_eq_false] at hcon
      obtain ⟨p', hp', hn'⟩ := find_isSome_iff.mp hcon
      rw [hc, List.mem_append, List.mem_reverse, List.mem_map, List.mem_singleton] at hp'
      rcases hp' with ⟨p0, h0, rfl⟩ | rfl
      · simp only [List.map_append, List.map_cons] at hnd
        have := (List.nodup_append.mp hnd).2.2
        exact this p0.name (List.mem_map.mpr ⟨p0, h0, rfl⟩) p.name (by simp) hn'
      · exact hpd (hn'.symm.trans hd)
    -- the parent is there and has the frame
    obtain ⟨pq, hfind, hframe⟩ : ∃ pq, c.find q = some pq ∧ (pq.getFrame p.parentFrame).isSome = true := by
      have hex : (c.find q).isSome = true := by
        rw [find_isSome_iff]
        by_cases hqd : q = datumName
        · exact ⟨d, by rw [hc]; simp, by rw [hd, hqd]⟩
        · obtain ⟨p0, h0, hn0⟩ := hpf [] p L rfl q hq hqd
          simp only [List.append_nil] at h0
          refine ⟨{ p0 with cache := none }, ?_, hn0⟩
          rw [hc, List.mem_append, List.mem_reverse, List.mem_map]
          exact .inl ⟨p0, h0, rfl⟩
      obtain ⟨pq, hpq⟩ := Option.isSome_iff_exists.mp hex
      refine ⟨pq, hpq, ?_⟩
      obtain ⟨hm, hn⟩ := find_some hpq
      rw [hc, List.mem_append, List.mem_reverse, List.mem_map, List.mem_singleton] at hm
      rcases hm with ⟨p0, h0, rfl⟩ | rfl
      · exact hf.attach p hps q hq p0 (hdone p0 h0).1 hn
      · have := hor p hps (by rw [hq, ← hn, hd])
        rw [this]; exact hdo
    have hadd : ∃ c1, c.addPart ({ p with cache := none } : Part V T) = .ok c1 ∧
        c1.parts = { p with cache := none } :: c.parts := by
      cases hadd : c.addPart ({ p with cache := none } : Part V T) with
      | error e =>
        unfold Chain.addPart at hadd
        simp [hfresh, hq, hfind] at hadd
      | ok c1 =>
        refine ⟨c1, rfl, ?_⟩
        unfold Chain.addPart at hadd
        simp only [hfresh, Bool.false_eq_true, if_false, hq, Option.getD_some, hfind, hframe, if_true,
          Except.ok.injEq] at hadd
        subst hadd
        simp only [hq]
    obtain ⟨c1, hc1, hparts⟩ := hadd
    obtain ⟨c', hc', hp'⟩ := ih (done ++ [p]) c1 (by rw [hparts, hc]; simp) (by
        intro p0 h0
        rcases List.mem_append.mp h0 with h0 | h0
        · exact hdone p0 h0
        · simp only [List.mem_singleton] at h0; subst h0; exact ⟨hps, hpd⟩)
      (fun p0 h0 => hL p0 (List.mem_cons_of_mem _ h0)) (by simpa using hnd) (by
        intro pre p0 post e q' hq' hqd'
        obtain ⟨pq, hpq, hn⟩ := hpf (p :: pre) p0 post (by rw [e]; rfl) q' hq' hqd'
        exact ⟨pq, by simpa using hpq, hn⟩)
    refine ⟨c', ?_, by simpa using hp'⟩
    simp only [List.map_cons, Chain.addAll, postInit_of_origin _ horg, hc1]
    exact hc'

end Verif.Kin
