import Verif.Kin.ChainLemmas

namespace Verif.Kin
variable {V T : Type} [LinearOrder V] [Monoid T]
set_option linter.unusedSectionVars false

/-! ### Frames invariant -/

/-- Every part has an ORIGIN frame and every attachment frame exists on the parent. -/
structure FrameOK (s : Chain V T) : Prop where
  origin : ∀ p ∈ s.parts, (p.getFrame "ORIGIN").isSome = true
  attach : ∀ p ∈ s.parts, ∀ q, p.parent = some q → ∀ pq ∈ s.parts, pq.name = q →
    (pq.getFrame p.parentFrame).isSome = true

theorem FrameOK.same {s s' : Chain V T} (h : SameButCache s s') (hf : FrameOK s) : FrameOK s' := by
  constructor
  · intro p hp
    obtain ⟨p', hp', e⟩ := h.symm.mem hp
    have := hf.origin p' hp'
    simpa [Part.getFrame, eqFrames e] using this
  · intro p hp q hq pq hpq hn
    obtain ⟨p', hp', e⟩ := h.symm.mem hp
    obtain ⟨pq', hpq', e'⟩ := h.symm.mem hpq
    have := hf.attach p' hp' q ((eqParent e).trans hq) pq' hpq' ((eqName e').trans hn)
    simpa [Part.getFrame, eqFrames e', eqParentFrame e] using this

theorem postInit_origin (p : Part V T) : (p.postInit.getFrame "ORIGIN").isSome = true := by
  unfold Part.postInit Part.getFrame
  split_ifs with h
  · exact h
  · simp only [List.lookup_append, Option.isSome_or]
    simp [List.lookup]

theorem addPart_frameOK {s s' : Chain V T} (hi : Inv s) (hf : FrameOK s) (p : Part V T)
    (ho : (p.getFrame "ORIGIN").isSome = true) (h : s.addPart p = .ok s') : FrameOK s' := by
  unfold Chain.addPart at h
  split_ifs at h with hdup
  simp only at h
  cases hq : s.find (p.parent.getD datumName) with
  | none => simp [hq] at h
  | some q =>
    simp only [hq, Except.ok.injEq] at h
    subst h
    obtain ⟨hqm, hqn⟩ := find_some hq
    have hfresh : ∀ p' ∈ s.parts, p'.name ≠ p.name := by
      intro p' hp' e
      exact hdup (find_isSome_iff.mpr ⟨p', hp', e⟩)
    constructor
    · intro p' hp'
      rcases List.mem_cons.mp hp' with rfl | hp'
      · exact ho
      · exact hf.origin p' hp'
    · intro p' hp' r hr pr hpr hn
      simp only [List.mem_cons] at hp' hpr
      rcases hp' with rfl | hp'
      · simp only [Option.some.injEq] at hr
        subst hr
        rcases hpr with rfl | hpr
        · exact absurd (hqn.trans hn.symm) (by simpa using hfresh q hqm)
        · have := part_unique hi.wf hpr hqm (hn.trans hqn.symm)
          subst this
          simp only
          split_ifs with hh
          · exact hh
          · exact hf.origin pr hpr
      · rcases hpr with rfl | hpr
        · exfalso
          rcases hi.wf.parent (mem_sk hp') with ⟨_, hnone⟩ | ⟨q', hq', hqm', _⟩
          · rw [hr] at hnone; cases hnone
          · rw [hr] at hq'
            cases hq'
            rw [names_sk] at hqm'
            obtain ⟨p2, hp2, e2⟩ := List.mem_map.mp hqm'
            exact hfresh p2 hp2 (e2.trans hn.symm)
        · exact hf.attach p' hp' r hr pr hpr hn

theorem modify_frameOK {s : Chain V T} (n : String) (f : Part V T → Part V T)
    (hf : ∀ p, (f p).name = p.name ∧ (f p).parent = p.parent ∧ (f p).parentFrame = p.parentFrame ∧
      ∀ g, (p.getFrame g).isSome = true → ((f p).getFrame g).isSome = true)
    (h : FrameOK s) : FrameOK (s.modify n f) := by
  constructor
  · intro p hp
    simp only [Chain.modify, List.mem_map] at hp
    obtain ⟨p0, hp0, rfl⟩ := hp
    split_ifs
    · exact (hf p0).2.2.2 _ (h.origin p0 hp0)
    · exact h.origin p0 hp0
  · intro p hp q hq pq hpq hn
    simp only [Chain.modify, List.mem_map] at hp hpq
    obtain ⟨p0, hp0, rfl⟩ := hp
    obtain ⟨p1, hp1, rfl⟩ := hpq
    have e1 : (if p0.name = n then f p0 else p0).parent = p0.parent := by
      split_ifs; exacts [(hf p0).2.1, rfl]
    have e2 : (if p0.name = n then f p0 else p0).parentFrame = p0.parentFrame := by
      split_ifs; exacts [(hf p0).2.2.1, rfl]
    have e3 : (if p1.name = n then f p1 else p1).name = p1.name := by
      split_ifs; exacts [(hf p1).1, rfl]
    rw [e1] at hq; rw [e3] at hn; rw [e2]
    have := h.attach p0 hp0 q hq p1 hp1 hn
    split_ifs
    · exact (hf p1).2.2.2 _ this
    · exact this

theorem addFrame_getFrame (p : Part V T) (f g : String) (t : T)
    (h : (p.getFrame g).isSome = true) : ((p.addFrame f t).getFrame g).isSome = true := by
  unfold Part.getFrame Part.addFrame at *
  rw [List.lookup_cons]
  by_cases hg : g = f
  · subst hg; simp
  · have : (g == f) = false := by simpa using hg
    simp only [this]
    rw [lookup_filter_ne _ _ _ hg]
    exact h

theorem init_frameOK (a b c : V) : FrameOK (Chain.init a b c : Chain V T) := by
  constructor
  · intro p hp
    simp only [Chain.init, List.mem_singleton] at hp
    subst hp
    simp [Part.getFrame, List.lookup]
  · intro p hp q hq
    simp only [Chain.init, List.mem_singleton] at hp
    subst hp
    cases hq

theorem reach_frameOK {s : Chain V T} (h : Reach s) : FrameOK s := by
  induction h with
  | init a b c => exact init_frameOK a b c
  | @step s s' op hr hok hs hf =>
    have hi := reach_inv hr
    cases op with
    | addPart p =>
      simp only [Chain.step] at hs
      cases hr : s.addPart p.postInit with
      | error e => simp [hr] at hs; subst hs; exact hf
      | ok s1 => simp [hr] at hs; subst hs; exact addPart_frameOK hi hf _ (postInit_origin p) hr
    | setJoint n v c =>
      simp only [Chain.step] at hs
      by_cases hex : ∃ p ∈ s.parts, p.name = n
      · obtain ⟨s1, he, hi1, hsame⟩ := setJoint_inv hi n v c hex
        simp [he] at hs
        subst hs
        exact FrameOK.same hsame (modify_frameOK n (fun p => { p with joint := p.joint.setValue v c })
          (fun p => ⟨rfl, rfl, rfl, fun g h => h⟩) hf)
      · have : s.setJointValue n v c = .error .notFound := by
          unfold Chain.setJointValue
          rw [if_neg]
          rw [find_isSome_iff]
          exact hex
        simp [this] at hs
        subst hs
        exact hf
    | getWorld n f =>
      simp only [Chain.step] at hs
      by_cases hex : ∃ p ∈ s.parts, p.name = n
      · obtain ⟨p, hp, rfl⟩ := hex
        have hl : s.sk.length = s.parts.length := by simp [Chain.sk]
        obtain ⟨w, s1, he, _, hsame, hi1⟩ := getWorld_spec hi (s.parts.length + 1) p hp
          (by have := rank_le s.sk p.name; omega) f
        simp [he] at hs
        subst hs
        exact hf.same hsame
      · have hfn : s.find n = none := by
          cases hf : s.find n with
          | none => rfl
          | some p => exact absurd ⟨p, (find_some hf).1, (find_some hf).2⟩ hex
        simp [Chain.getWorld, hfn] at hs
        subst hs
        exact hf
    | addFrame n f t =>
      simp only [Chain.step, Option.some.injEq] at hs
      subst hs
      exact modify_frameOK n _ (fun p => ⟨rfl, rfl, rfl, fun g h => addFrame_getFrame p f g t h⟩) hf

/-! ### Ancestors and descendants -/

theorem desc_rank {s : Chain V T} (h : WF s.sk) {a n : String} (hd : Desc s a n) :
    rank s.sk a ≤ rank s.sk n := by
  induction hd with
  | refl => exact le_refl _
  | @child n q p hp hn hq _ ih =>
    rcases h.parent (mem_sk hp) with ⟨_, hnone⟩ | ⟨q', hq', _, hr⟩
    · rw [hq] at hnone; cases hnone
    · rw [hq] at hq'; cases hq'; rw [← hn]; omega

theorem desc_linear {s : Chain V T} (h : WF s.sk) {a b n : String} (h1 : Desc s a n)
    (h2 : Desc s b n) : Desc s a b ∨ Desc s b a := by
  induction h1 with
  | refl => exact .inr h2
  | @child n q p hp hn hq h1 ih =>
    cases h2 with
    | refl => exact .inl (.child hp hn hq h1)
    | @child _ q' p' hp' hn' hq' h2 =>
      have := part_unique h hp hp' (hn.trans hn'.symm)
      subst this
      rw [hq] at hq'; cases hq'
      exact ih h2

/-- Siblings have disjoint subtrees. -/
theorem sibling_disjoint {s : Chain V T} (h : WF s.sk) {n : String} {p1 p2 : Part V T}
    (hp1 : p1 ∈ s.parts) (hp2 : p2 ∈ s.parts) (e1 : p1.parent = some n) (e2 : p2.parent = some n)
    {m : String} (h1 : Desc s p1.name m) (h2 : Desc s p2.name m) : p1 = p2 := by
  have key : ∀ {p1 p2 : Part V T}, p1 ∈ s.parts → p2 ∈ s.parts → p1.parent = some n →
      p2.parent = some n → Desc s p1.name p2.name → p1 = p2 := by
    intro p1 p2 hp1 hp2 e1 e2 hd
    generalize hm : p2.name = m at hd
    cases hd with
    | refl => exact (part_unique h hp2 hp1 hm).symm
    | @child _ q p hp hn hq hd =>
      have := part_unique h hp hp2 (hn.trans hm.symm)
      subst this
      rw [e2] at hq; cases hq
      have := desc_rank h hd
      rcases h.parent (mem_sk hp1) with ⟨_, hnone⟩ | ⟨q', hq', _, hr⟩
      · rw [e1] at hnone; cases hnone
      · rw [e1] at hq'; cases hq'; omega
  rcases desc_linear h h1 h2 with hd | hd
  · exact key hp1 hp2 e1 e2 hd
  · exact (key hp2 hp1 e2 e1 hd).symm

theorem descendants_spec (fuel : Nat) :
    ∀ (s : Chain V T), Inv s → ∀ n, (∃ p ∈ s.parts, p.name = n) →
      s.parts.length < fuel + rank s.sk n →
      ∃ L, Chain.descendants fuel s n = some L ∧ L.Nodup ∧
        ∀ m, m ∈ L ↔ ∃ p ∈ s.parts, p.parent = some n ∧ Desc s p.name m := by
  induction fuel with
  | zero =>
    intro s _ n _ hl
    have h1 := rank_le s.sk n
    have h2 : s.sk.length = s.parts.length := by simp [Chain.sk]
    omega
  | succ fuel ih =>
    intro s hi n hex hl
    have loop : ∀ (cs : List String), cs.Nodup → (∀ c ∈ cs, c ∈ s.children n) →
        ∃ L, Chain.descendantsList (Chain.descendants fuel s) cs = some L ∧ L.Nodup ∧
          ∀ m, m ∈ L ↔ ∃ c ∈ cs, Desc s c m := by
      intro cs
      induction cs with
      | nil => intro _ _; exact ⟨[], by simp [Chain.descendantsList], by simp, by simp⟩
      | cons c cs ihc =>
        intro hnd hcs
        simp only [List.nodup_cons] at hnd
        obtain ⟨Ls, hLs, hLn, hLm⟩ := ihc hnd.2 (fun c' h => hcs c' (List.mem_cons_of_mem _ h))
        obtain ⟨p, hp, hpn, hpp⟩ := (hi.child n c).mp (hcs c (by simp))
        have hr : rank s.sk n < rank s.sk c := by
          rcases hi.wf.parent (mem_sk hp) with ⟨_, hnone⟩ | ⟨q, hq, _, hr⟩
          · rw [hpp] at hnone; cases hnone
          · rw [hpp] at hq; cases hq; rw [← hpn]; exact hr
        obtain ⟨L, hL, hN, hM⟩ := ih s hi c ⟨p, hp, hpn⟩ (by omega)
        have hmem : ∀ m, m ∈ c :: L ↔ Desc s c m := by
          intro m
          rw [List.mem_cons, hM m]
          constructor
          · rintro (rfl | ⟨p1, hp1, e, hd⟩)
            · exact .refl
            · exact Desc.trans (.child hp1 rfl e .refl) hd
          · intro hd
            rcases hd.head with h | ⟨p1, hp1, e, hd⟩
            · exact .inl h
            · exact .inr ⟨p1, hp1, e, hd⟩
        refine ⟨c :: L ++ Ls, by simp [Chain.descendantsList, hL, hLs], ?_, ?_⟩
        · refine List.Nodup.append ?_ hLn ?_
          · refine List.nodup_cons.mpr ⟨?_, hN⟩
            intro hc
            obtain ⟨p1, hp1, e, hd⟩ := (hM c).mp hc
            have := desc_rank hi.wf hd
            rcases hi.wf.parent (mem_sk hp1) with ⟨_, hnone⟩ | ⟨q, hq, _, hr⟩
            · rw [e] at hnone; cases hnone
            · rw [e] at hq; cases hq; omega
          · intro m hm1 hm2
            rw [hmem] at hm1
            obtain ⟨c', hc', hd'⟩ := (hLm m).mp hm2
            obtain ⟨p', hp', hpn', hpp'⟩ := (hi.child n c').mp (hcs c' (by simp [hc']))
            have := sibling_disjoint hi.wf hp hp' hpp hpp' (m := m) (by rw [hpn]; exact hm1)
              (by rw [hpn']; exact hd')
            subst this
            apply hnd.1
            rw [← hpn, hpn']
            exact hc'
        · intro m
          rw [List.mem_append, hmem, hLm]
          simp
    obtain ⟨L, hL, hN, hM⟩ := loop (s.children n) (hi.nodup n) (fun c h => h)
    refine ⟨L, by simp only [Chain.descendants]; exact hL, hN, ?_⟩
    intro m
    rw [hM]
    constructor
    · rintro ⟨c, hc, hd⟩
      obtain ⟨p, hp, hpn, hpp⟩ := (hi.child n c).mp hc
      exact ⟨p, hp, hpp, by rw [hpn]; exact hd⟩
    · rintro ⟨p, hp, hpp, hd⟩
      exact ⟨p.name, (hi.child n p.name).mpr ⟨p, hp, rfl, hpp⟩, hd⟩

theorem toRoot_spec {s : Chain V T} (hi : Inv s) (hne : ∀ p ∈ s.parts, p.name ≠ "") (fuel : Nat) :
    ∀ p ∈ s.parts, rank s.sk p.name < fuel →
      ∃ L, Chain.toRoot fuel s (some p.name) = some L ∧ L.length ≤ rank s.sk p.name ∧
        L.head? = some p.name ∧
        L.getLast? = some datumName ∧
        L.IsChain (fun a b => ∃ pa ∈ s.parts, pa.name = a ∧ pa.parent = some b) := by
  induction fuel with
  | zero => intro p _ h; omega
  | succ fuel ih =>
    intro p hp hr
    simp only [Chain.toRoot, if_neg (hne p hp), find_of_mem hi.wf hp]
    have hpos := rank_pos (l := s.sk) (n := p.name) (List.mem_map.mpr ⟨_, mem_sk hp, rfl⟩)
    rcases hi.wf.parent (mem_sk hp) with ⟨hn, hpar⟩ | ⟨q, hq, hqm, hlt⟩
    · cases fuel with
      | zero => omega
      | succ fuel =>
        refine ⟨[p.name], by simp [hpar, Chain.toRoot], by simp; omega, by simp, by simp [hn], by simp⟩
    · rw [names_sk] at hqm
      obtain ⟨pq, hpq, e⟩ := List.mem_map.mp hqm
      obtain ⟨L, hL, hlen, hh, hlast, hch⟩ := ih pq hpq (by rw [e]; omega)
      refine ⟨p.name :: L, by rw [hq, ← e, hL]; simp, by simp; rw [e] at hlen; omega, by simp, ?_, ?_⟩
      · cases L with
        | nil => simp at hh
        | cons a L => simpa using hlast
      · cases L with
        | nil => simp
        | cons a L =>
          simp only [List.head?_cons, Option.some.injEq] at hh
          rw [List.isChain_cons_cons]
          exact ⟨⟨p, hp, rfl, by rw [hq, hh, e]⟩, hch⟩

end Verif.Kin
