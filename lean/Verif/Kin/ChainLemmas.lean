import Verif.Kin.ChainSpec
import Mathlib.Data.List.Nodup
import Mathlib.Tactic.Set
import Mathlib.Tactic.SplitIfs

namespace Verif.Kin
variable {V T : Type} [LinearOrder V] [Monoid T]
set_option linter.unusedSectionVars false

section
variable {p p' : Part V T}
theorem eqName (e : ({ p' with cache := none } : Part V T) = { p with cache := none }) :
    p'.name = p.name := by simp only [Part.mk.injEq] at e; exact e.1
theorem eqParent (e : ({ p' with cache := none } : Part V T) = { p with cache := none }) :
    p'.parent = p.parent := by simp only [Part.mk.injEq] at e; exact e.2.1
theorem eqParentFrame (e : ({ p' with cache := none } : Part V T) = { p with cache := none }) :
    p'.parentFrame = p.parentFrame := by simp only [Part.mk.injEq] at e; exact e.2.2.1
theorem eqJoint (e : ({ p' with cache := none } : Part V T) = { p with cache := none }) :
    p'.joint = p.joint := by simp only [Part.mk.injEq] at e; exact e.2.2.2.1
theorem eqFrames (e : ({ p' with cache := none } : Part V T) = { p with cache := none }) :
    p'.frames = p.frames := by simp only [Part.mk.injEq] at e; exact e.2.2.2.2.1
end

/-- Names and parents only. -/
def Chain.sk (s : Chain V T) : List (String × Option String) := s.parts.map fun p => (p.name, p.parent)

/-- Well-formed skeleton, newest first: parents are older. -/
def WF : List (String × Option String) → Prop
  | [] => False
  | p :: ps => (ps = [] ∧ p = (datumName, none)) ∨
      (p.1 ∉ ps.map (·.1) ∧ (∃ q, p.2 = some q ∧ q ∈ ps.map (·.1)) ∧ WF ps)

/-- Age rank: 1 for the datum. -/
def rank : List (String × Option String) → String → Nat
  | [], _ => 0
  | p :: ps, n => if p.1 = n then ps.length + 1 else rank ps n

theorem rank_le (l : List (String × Option String)) (n : String) : rank l n ≤ l.length := by
  induction l with
  | nil => simp [rank]
  | cons p ps ih => simp only [rank, List.length_cons]; split_ifs <;> omega

theorem rank_pos {l : List (String × Option String)} {n : String} (h : n ∈ l.map (·.1)) :
    0 < rank l n := by
  induction l with
  | nil => simp at h
  | cons p ps ih =>
    simp only [rank]
    split_ifs with hp
    · omega
    · apply ih
      simp only [List.map_cons, List.mem_cons] at h
      rcases h with h | h
      · exact absurd h.symm hp
      · exact h

theorem WF.nodup {l : List (String × Option String)} (h : WF l) : (l.map (·.1)).Nodup := by
  induction l with
  | nil => simp
  | cons p ps ih =>
    rcases h with ⟨rfl, _⟩ | ⟨h1, _, h3⟩
    · simp
    · simp only [List.map_cons, List.nodup_cons]
      exact ⟨h1, ih h3⟩

theorem WF.datum {l : List (String × Option String)} (h : WF l) : (datumName, none) ∈ l := by
  induction l with
  | nil => cases h
  | cons p ps ih =>
    rcases h with ⟨rfl, rfl⟩ | ⟨_, _, h3⟩
    · simp
    · exact List.mem_cons_of_mem _ (ih h3)

/-- Every non-datum part has a parent that is strictly older. -/
theorem WF.parent {l : List (String × Option String)} (h : WF l) {n : String} {o : Option String}
    (hm : (n, o) ∈ l) :
    (n = datumName ∧ o = none) ∨
    ∃ q, o = some q ∧ q ∈ l.map (·.1) ∧ rank l q < rank l n := by
  induction l with
  | nil => cases h
  | cons p ps ih =>
    rcases h with ⟨rfl, rfl⟩ | ⟨h1, ⟨q, hq, hqm⟩, h3⟩
    · simp only [List.mem_singleton, Prod.mk.injEq] at hm
      exact .inl hm
    · rcases List.mem_cons.mp hm with rfl | hm
      · right
        refine ⟨q, hq, by simp [hqm], ?_⟩
        simp only [rank]
        have : n ≠ q := fun e => h1 (e ▸ hqm)
        rw [if_neg this]
        simp only [if_true]
        exact Nat.lt_succ_of_le (rank_le ps q)
      · rcases ih h3 hm with hh | ⟨q', hq', hqm', hr⟩
        · exact .inl hh
        · right
          refine ⟨q', hq', by simp only [List.map_cons, List.mem_cons]; exact .inr hqm', ?_⟩
          have hn : n ∈ ps.map (·.1) := List.mem_map.mpr ⟨_, hm, rfl⟩
          have e1 : p.1 ≠ q' := fun e => h1 (e ▸ hqm')
          have e2 : p.1 ≠ n := fun e => h1 (e ▸ hn)
          simp only [rank, if_neg e1, if_neg e2]
          exact hr

theorem mem_sk {s : Chain V T} {p : Part V T} (h : p ∈ s.parts) : (p.name, p.parent) ∈ s.sk :=
  List.mem_map.mpr ⟨p, h, rfl⟩

theorem names_sk (s : Chain V T) : s.sk.map (·.1) = s.parts.map (·.name) := by
  simp [Chain.sk, Function.comp_def]

theorem part_unique {s : Chain V T} (h : WF s.sk) {p q : Part V T} (hp : p ∈ s.parts)
    (hq : q ∈ s.parts) (he : p.name = q.name) : p = q := by
  have := h.nodup
  rw [names_sk] at this
  exact List.inj_on_of_nodup_map this hp hq he

theorem find_some {s : Chain V T} {n : String} {p : Part V T} (h : s.find n = some p) :
    p ∈ s.parts ∧ p.name = n := by
  unfold Chain.find at h
  exact ⟨List.mem_of_find?_eq_some h, by simpa using List.find?_some h⟩

theorem find_of_mem {s : Chain V T} (h : WF s.sk) {p : Part V T} (hp : p ∈ s.parts) :
    s.find p.name = some p := by
  cases hf : s.find p.name with
  | none =>
    unfold Chain.find at hf
    rw [List.find?_eq_none] at hf
    exact absurd (by simp) (hf p hp)
  | some q =>
    obtain ⟨hq, hqn⟩ := find_some hf
    rw [part_unique h hq hp hqn]

theorem find_isSome_iff {s : Chain V T} {n : String} :
    (s.find n).isSome = true ↔ ∃ p ∈ s.parts, p.name = n := by
  unfold Chain.find
  rw [List.find?_isSome]
  simp

theorem pose_unique {s : Chain V T} (h : WF s.sk) {n : String} {w w' : T} (h1 : Pose s n w)
    (h2 : Pose s n w') : w = w' := by
  induction h1 generalizing w' with
  | root =>
    cases h2 with
    | root => rfl
    | child hp hn hd => exact absurd rfl hd
  | child hp hn hd hq hpq hqn hw ih =>
    cases h2 with
    | root => exact absurd rfl hd
    | child hp' hn' hd' hq' hpq' hqn' hw' =>
      have e1 := part_unique h hp hp' (hn.trans hn'.symm)
      subst e1
      rw [hq] at hq'
      cases hq'
      have e2 := part_unique h hpq hpq' (hqn.trans hqn'.symm)
      subst e2
      rw [ih hw']

theorem pose_mem {s : Chain V T} (h : WF s.sk) {n : String} {w : T} (hp : Pose s n w) :
    ∃ p ∈ s.parts, p.name = n := by
  cases hp with
  | root =>
    have := h.datum
    simp only [Chain.sk, List.mem_map, Prod.mk.injEq] at this
    obtain ⟨p, hp, hn, _⟩ := this
    exact ⟨p, hp, hn⟩
  | child hp hn => exact ⟨_, hp, hn⟩

/-! ### Changes that only touch caches -/

theorem SameButCache.refl (s : Chain V T) : SameButCache s s := ⟨rfl, rfl⟩

theorem SameButCache.symm {s s' : Chain V T} (h : SameButCache s s') : SameButCache s' s :=
  ⟨h.1.symm, h.2.symm⟩

theorem SameButCache.trans {s s' s'' : Chain V T} (h : SameButCache s s')
    (h' : SameButCache s' s'') : SameButCache s s'' :=
  ⟨h'.1.trans h.1, h'.2.trans h.2⟩

theorem SameButCache.mem {s s' : Chain V T} (h : SameButCache s s') {p : Part V T}
    (hp : p ∈ s.parts) : ∃ p' ∈ s'.parts, { p' with cache := none } = { p with cache := none } := by
  have : ({ p with cache := none } : Part V T) ∈ s.parts.map (fun p => { p with cache := none }) :=
    List.mem_map.mpr ⟨p, hp, rfl⟩
  rw [← h.2] at this
  obtain ⟨p', hp', he⟩ := List.mem_map.mp this
  exact ⟨p', hp', he⟩

theorem SameButCache.sk {s s' : Chain V T} (h : SameButCache s s') : s'.sk = s.sk := by
  have := congrArg (List.map fun p : Part V T => (p.name, p.parent)) h.2
  simpa [Chain.sk, Function.comp_def] using this

theorem SameButCache.length {s s' : Chain V T} (h : SameButCache s s') :
    s'.parts.length = s.parts.length := by
  have := congrArg List.length h.2
  simpa using this

theorem SameButCache.pose {s s' : Chain V T} (h : SameButCache s s') {n : String} {w : T}
    (hp : Pose s n w) : Pose s' n w := by
  induction hp with
  | root => exact .root
  | @child n q p pq w hp hn hd hq hpq hqn hw ih =>
    obtain ⟨p', hp', e⟩ := h.mem hp
    obtain ⟨pq', hpq', e'⟩ := h.mem hpq
    have en : p'.name = p.name := eqName e
    have ep : p'.parent = p.parent := eqParent e
    have ef : p'.parentFrame = p.parentFrame := eqParentFrame e
    have ej : p'.joint = p.joint := eqJoint e
    have en' : pq'.name = pq.name := eqName e'
    have efr : pq'.frames = pq.frames := eqFrames e'
    have eo : pq'.offset p'.parentFrame = pq.offset p.parentFrame := by
      simp [Part.offset, Part.getFrame, ef, efr]
    rw [← eo, ← ej]
    exact .child hp' (en.trans hn) hd (ep.trans hq) hpq' (en'.trans hqn) ih

theorem modify_cache_same (s : Chain V T) (n : String) (c : Option T) :
    SameButCache s (s.modify n fun p => { p with cache := c }) := by
  refine ⟨rfl, ?_⟩
  simp only [Chain.modify, List.map_map]
  apply List.map_congr_left
  intro p _
  simp only [Function.comp_def]
  split_ifs <;> rfl

/-- Caches are the pose. -/
def CacheOK (s : Chain V T) : Prop := ∀ p ∈ s.parts, ∀ w, p.cache = some w → Pose s p.name w

/-- Children lists and parent pointers agree. -/
def ChildOK (s : Chain V T) : Prop :=
  ∀ n c, c ∈ s.children n ↔ ∃ p ∈ s.parts, p.name = c ∧ p.parent = some n

structure Inv (s : Chain V T) : Prop where
  wf : WF s.sk
  child : ChildOK s
  cache : CacheOK s
  /-- every part appears once in the children lists -/
  nodup : ∀ n, (s.children n).Nodup

theorem SameButCache.childOK {s s' : Chain V T} (h : SameButCache s s') (hc : ChildOK s) :
    ChildOK s' := by
  intro n c
  rw [h.1, hc n c]
  constructor
  · rintro ⟨p, hp, e1, e2⟩
    obtain ⟨p', hp', e⟩ := h.mem hp
    exact ⟨p', hp', (eqName e).trans e1, (eqParent e).trans e2⟩
  · rintro ⟨p, hp, e1, e2⟩
    obtain ⟨p', hp', e⟩ := h.symm.mem hp
    exact ⟨p', hp', (eqName e).trans e1, (eqParent e).trans e2⟩

theorem SameButCache.inv {s s' : Chain V T} (h : SameButCache s s') (hi : Inv s)
    (hc : CacheOK s') : Inv s' :=
  ⟨by rw [h.sk]; exact hi.wf, h.childOK hi.child, hc, by rw [h.1]; exact hi.nodup⟩

/-- Storing the right pose in one cache keeps caches right. -/
theorem cacheOK_modify {s : Chain V T} (hc : CacheOK s) {n : String} {w : T} (hw : Pose s n w) :
    CacheOK (s.modify n fun p => { p with cache := some w }) := by
  intro p hp w' hw'
  apply (modify_cache_same s n (some w)).pose
  simp only [Chain.modify, List.mem_map] at hp
  obtain ⟨p0, hp0, rfl⟩ := hp
  split_ifs at hw' ⊢ with h
  · simp only [Option.some.injEq] at hw'
    subst hw'
    simp only [h]
    exact hw
  · exact hc p0 hp0 w' hw'

theorem getWorld_spec {s : Chain V T} (hi : Inv s) (fuel : Nat) (p : Part V T) (hp : p ∈ s.parts)
    (hf : rank s.sk p.name ≤ fuel) (frame : String) :
    ∃ w s', Chain.getWorld fuel s p.name frame = some (some (w * p.offset frame, s')) ∧
      Pose s p.name w ∧ SameButCache s s' ∧ Inv s' := by
  induction fuel generalizing p frame with
  | zero =>
    have := rank_pos (l := s.sk) (n := p.name) (List.mem_map.mpr ⟨_, mem_sk hp, rfl⟩)
    omega
  | succ fuel ih =>
    simp only [Chain.getWorld, find_of_mem hi.wf hp]
    have fin : ∀ (w : T) (s1 : Chain V T), (if frame = "ORIGIN" then some (some (w, s1)) else
        match p.getFrame frame with
        | none => some (some (w, s1))
        | some f => some (some (w * f, s1))) = some (some (w * p.offset frame, s1)) := by
      intro w s1
      simp only [Part.offset]
      split_ifs with h1
      · simp
      · cases p.getFrame frame <;> simp
    cases hc : p.cache with
    | some w => exact ⟨w, s, fin w s, hi.cache p hp w hc, .refl s, hi⟩
    | none =>
      simp only
      rcases hi.wf.parent (mem_sk hp) with ⟨hn, hpar⟩ | ⟨q, hq, hqm, hr⟩
      · rw [if_pos (.inl hpar)]
        have hpose : Pose s p.name (1 : T) := by rw [hn]; exact .root
        exact ⟨1, _, fin _ _, hpose, modify_cache_same s _ _,
          (modify_cache_same s _ _).inv hi (cacheOK_modify hi.cache hpose)⟩
      · have hnd : p.name ≠ datumName := by
          intro e
          have h1 := hi.wf.datum
          have h2 := mem_sk hp
          rw [e, hq] at h2
          have := List.inj_on_of_nodup_map hi.wf.nodup h1 h2 rfl
          simp at this
        rw [if_neg (by simp [hq, hnd])]
        obtain ⟨pq, hpq, hpqn⟩ : ∃ pq ∈ s.parts, pq.name = q := by
          rw [names_sk] at hqm
          exact List.mem_map.mp hqm
        obtain ⟨w, s', he, hw, hs, hi'⟩ := ih pq hpq (by rw [hpqn]; omega) p.parentFrame
        rw [hq, Option.getD_some, ← hpqn, he]
        simp only
        have hpose : Pose s p.name (w * pq.offset p.parentFrame * p.joint.getTransform) :=
          .child hp rfl hnd (by rw [hq, hpqn]) hpq rfl hw
        refine ⟨_, _, fin _ _, hpose, hs.trans (modify_cache_same _ _ _), ?_⟩
        exact (modify_cache_same _ _ _).inv hi' (cacheOK_modify hi'.cache (hs.pose hpose))

/-! ### Invalidation -/

/-- `Desc s a n`: `n` is `a` or a descendant of `a`. -/
inductive Desc (s : Chain V T) (a : String) : String → Prop
  | refl : Desc s a a
  | child {n q : String} {p : Part V T} (hp : p ∈ s.parts) (hn : p.name = n)
      (hq : p.parent = some q) (h : Desc s a q) : Desc s a n

theorem Desc.trans {s : Chain V T} {a b c : String} (h : Desc s a b) (h' : Desc s b c) :
    Desc s a c := by
  induction h' with
  | refl => exact h
  | child hp hn hq _ ih => exact .child hp hn hq ih

/-- Split off the first step. -/
theorem Desc.head {s : Chain V T} {a n : String} (h : Desc s a n) :
    n = a ∨ ∃ p ∈ s.parts, p.parent = some a ∧ Desc s p.name n := by
  induction h with
  | refl => exact .inl rfl
  | @child n q p hp hn hq _ ih =>
    right
    rcases ih with rfl | ⟨p', hp', hpa, hd⟩
    · exact ⟨p, hp, hq, by rw [hn]; exact .refl⟩
    · exact ⟨p', hp', hpa, .child hp hn hq hd⟩

theorem SameButCache.desc {s s' : Chain V T} (h : SameButCache s s') {a n : String}
    (hd : Desc s a n) : Desc s' a n := by
  induction hd with
  | refl => exact .refl
  | child hp hn hq _ ih =>
    obtain ⟨p', hp', e⟩ := h.mem hp
    exact .child hp' ((eqName e).trans hn) ((eqParent e).trans hq) ih

/-- Only cache drops happened. -/
def CacheDrop (s s' : Chain V T) : Prop :=
  SameButCache s s' ∧ ∀ p' ∈ s'.parts, p'.cache = none ∨ p' ∈ s.parts

theorem CacheDrop.refl (s : Chain V T) : CacheDrop s s := ⟨.refl s, fun _ h => .inr h⟩

theorem CacheDrop.trans {s s' s'' : Chain V T} (h : CacheDrop s s') (h' : CacheDrop s' s'') :
    CacheDrop s s'' :=
  ⟨h.1.trans h'.1, fun p hp => by
    rcases h'.2 p hp with h1 | h1
    · exact .inl h1
    · exact h.2 p h1⟩

theorem drop_modify (s : Chain V T) (n : String) :
    CacheDrop s (s.modify n fun p => { p with cache := none }) := by
  refine ⟨modify_cache_same s n none, ?_⟩
  intro p' hp'
  simp only [Chain.modify, List.mem_map] at hp'
  obtain ⟨p, hp, rfl⟩ := hp'
  split_ifs
  · exact .inl rfl
  · exact .inr hp

/-- All parts named by descendants of `n` have an empty cache. -/
def Cleared (s : Chain V T) (n : String) : Prop :=
  ∀ m, Desc s n m → ∀ p ∈ s.parts, p.name = m → p.cache = none

theorem Cleared.drop {s s' : Chain V T} {n : String} (h : Cleared s n) (hd : CacheDrop s s') :
    Cleared s' n := by
  intro m hm p hp hn
  rcases hd.2 p hp with h1 | h1
  · exact h1
  · exact h m (hd.1.symm.desc hm) p h1 hn

theorem invalidate_spec (fuel : Nat) :
    ∀ (s : Chain V T), WF s.sk → ChildOK s →
      (∀ n, (∃ p ∈ s.parts, p.name = n) → s.parts.length < fuel + rank s.sk n →
        ∃ s', Chain.invalidate fuel s n = some s' ∧ CacheDrop s s' ∧ Cleared s' n) := by
  induction fuel with
  | zero =>
    intro s _ _ n _ hl
    have h1 := rank_le s.sk n
    have h2 : s.sk.length = s.parts.length := by simp [Chain.sk]
    omega
  | succ fuel ih =>
    intro s hwf hch n hex hl
    -- the loop
    have loop : ∀ (cs : List String) (s1 : Chain V T), WF s1.sk → ChildOK s1 →
        (∀ c ∈ cs, (∃ p ∈ s1.parts, p.name = c) ∧ s1.parts.length < fuel + rank s1.sk c) →
        ∃ s', Chain.invalidateList (Chain.invalidate fuel) s1 cs = some s' ∧ CacheDrop s1 s' ∧
          ∀ c ∈ cs, Cleared s' c := by
      intro cs
      induction cs with
      | nil => intro s1 _ _ _; exact ⟨s1, by simp [Chain.invalidateList], .refl s1, by simp⟩
      | cons c cs ihc =>
        intro s1 hwf1 hch1 hcs
        obtain ⟨s2, he, hd, hcl⟩ := ih s1 hwf1 hch1 c (hcs c (by simp)).1 (hcs c (by simp)).2
        obtain ⟨s3, he3, hd3, hcl3⟩ := ihc s2 (by rw [hd.1.sk]; exact hwf1) (hd.1.childOK hch1) (by
          intro c' hc'
          obtain ⟨⟨p, hp, hpn⟩, hlt⟩ := hcs c' (by simp [hc'])
          obtain ⟨p', hp', e⟩ := hd.1.mem hp
          refine ⟨⟨p', hp', (eqName e).trans hpn⟩, ?_⟩
          rw [hd.1.sk, hd.1.length]; exact hlt)
        refine ⟨s3, by simp [Chain.invalidateList, he, he3], hd.trans hd3, ?_⟩
        intro c' hc'
        rcases List.mem_cons.mp hc' with rfl | hc'
        · exact hcl.drop hd3
        · exact hcl3 c' hc'
    simp only [Chain.invalidate, find_isSome_iff.mpr hex, if_true]
    have hdm := drop_modify s n
    obtain ⟨s', he, hd, hcl⟩ := loop (s.children n) (s.modify n fun p => { p with cache := none })
      (by rw [hdm.1.sk]; exact hwf) (hdm.1.childOK hch) (by
        intro c hc
        obtain ⟨p, hp, hpn, hpp⟩ := (hch n c).mp hc
        obtain ⟨p', hp', e⟩ := hdm.1.mem hp
        refine ⟨⟨p', hp', (eqName e).trans hpn⟩, ?_⟩
        rw [hdm.1.sk, hdm.1.length]
        rcases hwf.parent (mem_sk hp) with ⟨_, hnone⟩ | ⟨q, hq, _, hr⟩
        · rw [hpp] at hnone; cases hnone
        · rw [hpp] at hq; cases hq; rw [← hpn]; omega)
    refine ⟨s', he, hdm.trans hd, ?_⟩
    intro m hm p hp hpn
    rcases hm.head with rfl | ⟨p1, hp1, hpar, hdsc⟩
    · rcases hd.2 p hp with h1 | h1
      · exact h1
      · simp only [Chain.modify, List.mem_map] at h1
        obtain ⟨p0, _, rfl⟩ := h1
        by_cases hh : p0.name = m
        · simp [hh]
        · simp [hh] at hpn
    · have hc1 : p1.name ∈ s.children n := by
        have := (hdm.1.trans hd.1).symm.mem hp1
        obtain ⟨p2, hp2, e⟩ := this
        rw [hch n p1.name]
        exact ⟨p2, hp2, eqName e, (eqParent e).trans hpar⟩
      exact hcl p1.name hc1 m hdsc p hp hpn

/-- Changing the joint of `n` does not move anything that is not below `n`. -/
theorem pose_not_desc {s : Chain V T} {n : String} (f : Part V T → Part V T)
    {m : String} {w : T} (hp : Pose s m w) (hnd : ¬ Desc s n m) :
    Pose (s.modify n f) m w := by
  induction hp with
  | root => exact .root
  | @child m q p pq w hp hn hd hq hpq hqn hw ih =>
    have hmn : m ≠ n := fun e => hnd (e ▸ .refl)
    have hqd : ¬ Desc s n q := fun h => hnd (.child hp hn hq h)
    have hqne : q ≠ n := fun e => hqd (e ▸ .refl)
    have mem : ∀ p0 ∈ s.parts, p0.name ≠ n → p0 ∈ (s.modify n f).parts := by
      intro p0 h0 h1
      simp only [Chain.modify, List.mem_map]
      exact ⟨p0, h0, by rw [if_neg h1]⟩
    exact .child (mem p hp (hn ▸ hmn)) hn hd hq (mem pq hpq (hqn ▸ hqne)) hqn (ih hqd)

theorem modify_sk (s : Chain V T) (n : String) (f : Part V T → Part V T)
    (hf : ∀ p, (f p).name = p.name ∧ (f p).parent = p.parent) : (s.modify n f).sk = s.sk := by
  simp only [Chain.sk, Chain.modify, List.map_map]
  apply List.map_congr_left
  intro p _
  simp only [Function.comp_def]
  split_ifs
  · rw [(hf p).1, (hf p).2]
  · rfl

theorem modify_childOK (s : Chain V T) (n : String) (f : Part V T → Part V T)
    (hf : ∀ p, (f p).name = p.name ∧ (f p).parent = p.parent) (h : ChildOK s) :
    ChildOK (s.modify n f) := by
  intro a c
  change c ∈ s.children a ↔ _
  rw [h a c]
  simp only [Chain.modify, List.mem_map]
  constructor
  · rintro ⟨p, hp, e1, e2⟩
    refine ⟨_, ⟨p, hp, rfl⟩, ?_⟩
    split_ifs
    · rw [(hf p).1, (hf p).2]; exact ⟨e1, e2⟩
    · exact ⟨e1, e2⟩
  · rintro ⟨_, ⟨p, hp, rfl⟩, e1, e2⟩
    refine ⟨p, hp, ?_⟩
    split_ifs at e1 e2
    · rw [(hf p).1] at e1; rw [(hf p).2] at e2; exact ⟨e1, e2⟩
    · exact ⟨e1, e2⟩

theorem setJoint_inv {s : Chain V T} (hi : Inv s) (n : String) (v : V) (c : Bool)
    (hex : ∃ p ∈ s.parts, p.name = n) :
    ∃ s', s.setJointValue n v c = .ok (some s') ∧ Inv s' ∧
      SameButCache (s.modify n fun p => { p with joint := p.joint.setValue v c }) s' := by
  unfold Chain.setJointValue
  rw [if_pos (find_isSome_iff.mpr hex)]
  set f : Part V T → Part V T := fun p => { p with joint := p.joint.setValue v c } with hfdef
  have hf : ∀ p, (f p).name = p.name ∧ (f p).parent = p.parent := fun p => ⟨rfl, rfl⟩
  have hsk := modify_sk s n f hf
  have hwf1 : WF (s.modify n f).sk := by rw [hsk]; exact hi.wf
  have hch1 := modify_childOK s n f hf hi.child
  have hex1 : ∃ p ∈ (s.modify n f).parts, p.name = n := by
    obtain ⟨p, hp, hpn⟩ := hex
    refine ⟨f p, ?_, hpn⟩
    simp only [Chain.modify, List.mem_map]
    exact ⟨p, hp, by rw [if_pos hpn]⟩
  obtain ⟨s', he, hd, hcl⟩ := invalidate_spec ((s.modify n f).parts.length + 1) (s.modify n f) hwf1 hch1
    n hex1 (by omega)
  refine ⟨s', by simp only [he], ?_, hd.1⟩
  refine ⟨by rw [hd.1.sk]; exact hwf1, hd.1.childOK hch1, ?_, by rw [hd.1.1]; exact hi.nodup⟩
  intro p hp w hw
  have hnd : ¬ Desc s' n p.name := fun h => by
    have := hcl p.name h p hp rfl
    rw [this] at hw; cases hw
  have hnd1 : ¬ Desc (s.modify n f) n p.name := fun h => hnd (hd.1.desc h)
  have hp1 : p ∈ (s.modify n f).parts := by
    rcases hd.2 p hp with h | h
    · rw [h] at hw; cases hw
    · exact h
  have hpn : p.name ≠ n := fun e => hnd (e ▸ .refl)
  have hp0 : p ∈ s.parts := by
    simp only [Chain.modify, List.mem_map] at hp1
    obtain ⟨p0, h0, rfl⟩ := hp1
    by_cases h : p0.name = n
    · rw [if_pos h] at hpn; exact absurd h hpn
    · rw [if_neg h]; exact h0
  have hnd0 : ¬ Desc s n p.name := by
    intro h
    apply hnd1
    clear hnd hnd1 hw hpn hp hp1 hp0
    generalize p.name = m0 at h
    induction h with
    | refl => exact .refl
    | @child m q p1 hp1 hn1 hq1 _ ih =>
      refine .child (p := if p1.name = n then f p1 else p1) ?_ ?_ ?_ ih
      · simp only [Chain.modify, List.mem_map]; exact ⟨p1, hp1, rfl⟩
      · split_ifs <;> exact hn1
      · split_ifs <;> exact hq1
  exact hd.1.pose (pose_not_desc f (hi.cache p hp0 w hw) hnd0)

theorem addPart_inv {s s' : Chain V T} (hi : Inv s) (p : Part V T) (h : s.addPart p = .ok s') :
    Inv s' := by
  unfold Chain.addPart at h
  split_ifs at h with hdup
  simp only at h
  cases hq : s.find (p.parent.getD datumName) with
  | none => simp [hq] at h
  | some q =>
    simp only [hq, Except.ok.injEq] at h
    subst h
    obtain ⟨hqm, hqn⟩ := find_some hq
    have hfresh : ∀ p' ∈ s.parts, p'.name ≠ p.name := by
      intro p' hp' e
      exact hdup (find_isSome_iff.mpr ⟨p', hp', e⟩)
    refine ⟨?_, ?_, ?_, ?_⟩
    · right
      refine ⟨?_, ⟨p.parent.getD datumName, rfl, ?_⟩, hi.wf⟩
      · change p.name ∉ s.sk.map (·.1)
        rw [names_sk]
        intro hm
        obtain ⟨p', hp', e⟩ := List.mem_map.mp hm
        exact hfresh p' hp' e
      · change _ ∈ s.sk.map (·.1)
        rw [names_sk]
        exact List.mem_map.mpr ⟨q, hqm, hqn⟩
    · intro a c
      simp only [List.mem_cons]
      constructor
      · intro hm
        split_ifs at hm with ha
        · rcases List.mem_append.mp hm with hm | hm
          · obtain ⟨p', hp', e1, e2⟩ := (hi.child a c).mp hm
            exact ⟨p', .inr hp', e1, e2⟩
          · simp only [List.mem_singleton] at hm
            exact ⟨_, .inl rfl, hm.symm, by simp [ha]⟩
        · obtain ⟨p', hp', e1, e2⟩ := (hi.child a c).mp hm
          exact ⟨p', .inr hp', e1, e2⟩
      · rintro ⟨p', rfl | hp', e1, e2⟩
        · simp only [Option.some.injEq] at e2
          rw [if_pos e2.symm]
          simp [← e1]
        · have := (hi.child a c).mpr ⟨p', hp', e1, e2⟩
          split_ifs
          · exact List.mem_append_left _ this
          · exact this
    · intro p' hp' w hw
      rcases List.mem_cons.mp hp' with rfl | hp'
      · cases hw
      · have := hi.cache p' hp' w hw
        clear hw hp'
        generalize p'.name = m0 at this
        induction this with
        | root => exact .root
        | child h1 h2 h3 h4 h5 h6 _ ih =>
          exact .child (List.mem_cons_of_mem _ h1) h2 h3 h4 (List.mem_cons_of_mem _ h5) h6 ih
    · intro a
      simp only
      split_ifs
      · refine List.Nodup.append (hi.nodup a) (by simp) ?_
        intro c hc hc'
        simp only [List.mem_singleton] at hc'
        obtain ⟨p', hp', e1, _⟩ := (hi.child a c).mp hc
        exact hfresh p' hp' (e1.trans hc')
      · exact hi.nodup a

theorem lookup_filter_ne {α : Type} (l : List (String × α)) (f g : String) (h : g ≠ f) :
    (l.filter fun e => e.1 ≠ f).lookup g = l.lookup g := by
  induction l with
  | nil => rfl
  | cons e l ih =>
    obtain ⟨k, v⟩ := e
    by_cases hk : k = f
    · subst hk
      have : (g == k) = false := by simpa using h
      simp only [List.filter_cons, ne_eq, not_true, decide_false, Bool.false_eq_true, if_false,
        List.lookup_cons, this]
      exact ih
    · simp only [List.filter_cons, ne_eq, hk, not_false_iff, decide_true, if_true, List.lookup_cons]
      cases g == k with
      | true => rfl
      | false => exact ih

theorem addFrame_pose {s : Chain V T} {n f : String} {t : T} (hff : FrameFree s n f)
    {m : String} {w : T} (h : Pose s m w) : Pose (s.modify n fun p => p.addFrame f t) m w := by
  induction h with
  | root => exact .root
  | @child m q p pq w hp hn hd hq hpq hqn hw ih =>
    have hm : ∀ p0 ∈ s.parts, (if p0.name = n then p0.addFrame f t else p0) ∈
        (s.modify n fun p => p.addFrame f t).parts := by
      intro p0 h0
      simp only [Chain.modify, List.mem_map]
      exact ⟨p0, h0, rfl⟩
    have e1 : (if p.name = n then p.addFrame f t else p).joint = p.joint := by split_ifs <;> rfl
    have e2 : (if p.name = n then p.addFrame f t else p).parentFrame = p.parentFrame := by
      split_ifs <;> rfl
    have e3 : (if pq.name = n then pq.addFrame f t else pq).offset p.parentFrame =
        pq.offset p.parentFrame := by
      split_ifs with hqq
      · have hne : p.parentFrame ≠ f := hff p hp (by rw [hq, ← hqq, hqn])
        simp only [Part.offset, Part.getFrame, Part.addFrame]
        rw [List.lookup_cons]
        have : (p.parentFrame == f) = false := by simpa using hne
        simp only [this, lookup_filter_ne _ _ _ hne]
      · rfl
    rw [← e3, ← e1, ← e2]
    refine .child (hm p hp) ?_ hd ?_ (hm pq hpq) ?_ ih
    · split_ifs <;> exact hn
    · split_ifs <;> exact hq
    · split_ifs <;> exact hqn

theorem init_inv (a b c : V) : Inv (Chain.init a b c : Chain V T) := by
  refine ⟨.inl ⟨rfl, rfl⟩, ?_, ?_, ?_⟩
  · intro n c
    simp [Chain.init]
  · intro p hp w hw
    simp only [Chain.init, List.mem_singleton] at hp
    subst hp
    simp only [Option.some.injEq] at hw
    subst hw
    exact .root
  · intro n; simp [Chain.init]

theorem reach_inv {s : Chain V T} (h : Reach s) : Inv s := by
  induction h with
  | init a b c => exact init_inv a b c
  | @step s s' op _ hok hs hi =>
    cases op with
    | addPart p =>
      simp only [Chain.step] at hs
      cases hr : s.addPart p.postInit with
      | error e => simp [hr] at hs; subst hs; exact hi
      | ok s1 => simp [hr] at hs; subst hs; exact addPart_inv hi _ hr
    | setJoint n v c =>
      simp only [Chain.step] at hs
      by_cases hex : ∃ p ∈ s.parts, p.name = n
      · obtain ⟨s1, he, hi1, _⟩ := setJoint_inv hi n v c hex
        simp [he] at hs
        subst hs
        exact hi1
      · have : s.setJointValue n v c = .error .notFound := by
          unfold Chain.setJointValue
          rw [if_neg]
          rw [find_isSome_iff]
          exact hex
        simp [this] at hs
        subst hs
        exact hi
    | getWorld n f =>
      simp only [Chain.step] at hs
      by_cases hex : ∃ p ∈ s.parts, p.name = n
      · obtain ⟨p, hp, rfl⟩ := hex
        have hl : s.sk.length = s.parts.length := by simp [Chain.sk]
        obtain ⟨w, s1, he, _, _, hi1⟩ := getWorld_spec hi (s.parts.length + 1) p hp
          (by have := rank_le s.sk p.name; omega) f
        simp [he] at hs
        subst hs
        exact hi1
      · have hfn : s.find n = none := by
          cases hf : s.find n with
          | none => rfl
          | some p => exact absurd ⟨p, (find_some hf).1, (find_some hf).2⟩ hex
        simp [Chain.getWorld, hfn] at hs
        subst hs
        exact hi
    | addFrame n f t =>
      simp only [Chain.step, Option.some.injEq] at hs
      subst hs
      have hf : ∀ p : Part V T, (p.addFrame f t).name = p.name ∧ (p.addFrame f t).parent = p.parent :=
        fun p => ⟨rfl, rfl⟩
      refine ⟨by rw [modify_sk s n _ hf]; exact hi.wf, modify_childOK s n _ hf hi.child, ?_, hi.nodup⟩
      intro p hp w hw
      simp only [Chain.modify, List.mem_map] at hp
      obtain ⟨p0, hp0, rfl⟩ := hp
      have hc : p0.cache = some w := by split_ifs at hw <;> exact hw
      have := addFrame_pose (t := t) (hok n f t rfl) (hi.cache p0 hp0 w hc)
      split_ifs
      · exact this
      · exact this

end Verif.Kin
