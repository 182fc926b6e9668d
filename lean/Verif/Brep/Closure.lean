import Verif.Brep.Model
import Mathlib.Algebra.BigOperators.Group.Finset.Basic
import Mathlib.Algebra.Order.BigOperators.Group.Finset
import Mathlib.Data.Finset.Card
import Mathlib.Tactic.Ring

/-! # Closed shells -/

namespace Verif.Brep

variable {K P C S : Type} [DecidableEq K]

/-! ## Specification -/

/-- how often a loop runs over an edge -/
def Spec.loopUses (g : Graph K P C S) (L : Loop K) (e : K) : ℕ := L.trims.countP fun t => (g.trims t).any fun T => T.edge = e

/-- how often the boundary of a face runs over an edge -/
def Spec.faceUses (g : Graph K P C S) (F : Face K S) (e : K) : ℕ := (F.loops.map fun l => match g.loops l with | none => 0 | some L => Spec.loopUses g L e).sum

/-- how often the boundaries of the (different) faces of a shell run over an edge -/
def Spec.uses (g : Graph K P C S) (s : Shell K) (e : K) : ℕ := ∑ f ∈ s.faces.toFinset, match g.faces f with | none => 0 | some F => Spec.faceUses g F e

/-! ## the dictionary of uses -/

/-- the entry of a key -/
def val : List (K × List K) → K → List K
  | [], _ => []
  | (a, fs) :: rest, e => if a = e then fs else val rest e

theorem val_cons (a : K) (fs : List K) (rest : List (K × List K)) (e : K) : val ((a, fs) :: rest) e = if a = e then fs else val rest e := rfl

theorem val_note (u : List (K × List K)) (a f e : K) : val (note u (a, f)) e = if a = e then val u e ++ [f] else val u e := by
  induction u with
  | nil => unfold note val; by_cases h : a = e <;> simp [h, val]
  | cons x rest ih =>
    obtain ⟨b, fs⟩ := x
    unfold note
    dsimp only
    by_cases hb : b = a
    · rw [if_pos hb]
      unfold val
      subst hb
      by_cases h : b = e <;> simp [h]
    · rw [if_neg hb]
      unfold val
      rw [ih]
      by_cases h : b = e
      · subst h; simp [Ne.symm hb]
      · simp [h]

theorem keys_note (u : List (K × List K)) (a f : K) : (note u (a, f)).map (·.1) = if a ∈ u.map (·.1) then u.map (·.1) else u.map (·.1) ++ [a] := by
  induction u with
  | nil => simp [note]
  | cons x rest ih =>
    obtain ⟨b, fs⟩ := x
    unfold note
    dsimp only
    by_cases hb : b = a
    · subst hb; simp
    · rw [if_neg hb, List.map_cons, ih]
      by_cases h : a ∈ rest.map (·.1)
      · rw [if_pos h, if_pos (by simp only [List.map_cons, List.mem_cons]; exact Or.inr h)]; rfl
      · rw [if_neg h, if_neg (by simp only [List.map_cons, List.mem_cons]; rintro (h' | h'); exact hb h'.symm; exact h h')]; rfl

theorem usage_facts (l : List (K × K)) : ((l.foldl note []).map (·.1)).Nodup ∧ (∀ e, e ∈ (l.foldl note []).map (·.1) ↔ e ∈ l.map (·.1)) ∧
    ∀ e, (val (l.foldl note []) e).length = (l.map (·.1)).count e := by
  induction l using List.reverseRecOn with
  | nil => simp [val]
  | append_singleton l x ih =>
    obtain ⟨a, f⟩ := x
    obtain ⟨h1, h2, h3⟩ := ih
    rw [List.foldl_concat, keys_note]
    refine ⟨?_, fun e => ?_, fun e => ?_⟩
    · by_cases h : a ∈ (l.foldl note []).map (·.1)
      · rw [if_pos h]; exact h1
      · rw [if_neg h]
        exact List.Nodup.append h1 (List.nodup_singleton a) (by intro y hy hz; rw [List.mem_singleton] at hz; exact h (hz ▸ hy))
    · by_cases h : a ∈ (l.foldl note []).map (·.1)
      · rw [if_pos h, h2, List.map_append, List.mem_append]
        constructor
        · exact Or.inl
        · rintro (h' | h')
          · exact h'
          · simp at h'; subst h'; exact (h2 _).mp h
      · rw [if_neg h, List.mem_append, h2, List.map_append, List.mem_append]; simp
    · rw [val_note, List.map_append, List.count_append, ← h3]
      by_cases h : a = e
      · subst h; simp
      · simp [h]

theorem mem_usage {u : List (K × List K)} (hu : (u.map (·.1)).Nodup) {e : K} {fs : List K} : (e, fs) ∈ u ↔ e ∈ u.map (·.1) ∧ val u e = fs := by
  induction u with
  | nil => simp
  | cons x rest ih =>
    obtain ⟨b, gs⟩ := x
    rw [List.map_cons, List.nodup_cons] at hu
    rw [List.mem_cons, ih hu.2, List.map_cons, List.mem_cons]
    rw [val_cons]
    dsimp only at hu ⊢
    by_cases h : b = e
    · subst h
      rw [if_pos rfl]
      constructor
      · rintro (h' | ⟨h', _⟩)
        · exact ⟨Or.inl rfl, (Prod.mk.inj h').2.symm⟩
        · exact absurd h' hu.1
      · rintro ⟨_, rfl⟩; exact Or.inl rfl
    · rw [if_neg h]
      constructor
      · rintro (h' | ⟨h', h''⟩)
        · exact absurd (Prod.mk.inj h').1.symm h
        · exact ⟨Or.inr h', h''⟩
      · rintro ⟨h' | h', h''⟩
        · exact absurd h'.symm h
        · exact Or.inr ⟨h', h''⟩

theorem count_faceUses (g : Graph K P C S) (F : Face K S) (e : K) : (faceUses g F).count e = Spec.faceUses g F e := by
  unfold faceUses Spec.faceUses
  rw [List.count_flatMap]
  congr 1
  refine List.map_congr_left fun l _ => ?_
  dsimp only [Function.comp]
  rcases g.loops l with _ | L
  · rfl
  · dsimp only
    unfold Spec.loopUses
    generalize L.trims = ts
    induction ts with
    | nil => rfl
    | cons t ts ih =>
      rw [List.countP_cons, ← ih, List.filterMap_cons]
      rcases h : g.trims t with _ | T
      · simp [h]
      · simp only [h, Option.map_some, Option.any_some, List.count_cons, beq_iff_eq, decide_eq_true_eq]

theorem count_shellUses (g : Graph K P C S) (s : Shell K) (e : K) : ((shellUses g s).map (·.1)).count e = Spec.uses g s e := by
  unfold shellUses Spec.uses
  rw [List.map_flatMap, List.count_flatMap, ← List.sum_toFinset _ (List.nodup_dedup _), show s.faces.dedup.toFinset = s.faces.toFinset by ext; simp]
  · refine Finset.sum_congr rfl fun f _ => ?_
    dsimp only [Function.comp]
    rcases g.faces f with _ | F
    · rfl
    · dsimp only
      rw [List.map_map, ← count_faceUses]
      congr 1
      exact List.map_id _

/-- what is known about the uses -/
theorem edgeUsage_facts (g : Graph K P C S) (s : Shell K) : ((edgeUsage g s).map (·.1)).Nodup ∧ (∀ e, e ∈ (edgeUsage g s).map (·.1) ↔ 0 < Spec.uses g s e) ∧
    ∀ e fs, (e, fs) ∈ edgeUsage g s → fs.length = Spec.uses g s e := by
  obtain ⟨h1, h2, h3⟩ := usage_facts (shellUses g s)
  refine ⟨h1, fun e => ?_, fun e fs h => ?_⟩
  · change e ∈ ((shellUses g s).foldl note []).map (·.1) ↔ _
    rw [h2, ← count_shellUses, List.count_pos_iff]
  · obtain ⟨_, rfl⟩ := (mem_usage h1).mp h
    rw [h3, count_shellUses]

theorem mem_pick (g : Graph K P C S) (s : Shell K) (q : ℕ → Bool) (hq : q 0 = false) (e : K) : e ∈ ((edgeUsage g s).filter fun ef => q ef.2.length).map (·.1) ↔ q (Spec.uses g s e) = true := by
  obtain ⟨h1, h2, h3⟩ := edgeUsage_facts g s
  simp only [List.mem_map, List.mem_filter, Prod.exists, exists_and_right, exists_eq_right]
  constructor
  · rintro ⟨fs, hm, hl⟩
    rw [← h3 e fs hm]; exact hl
  · intro h
    have hpos : 0 < Spec.uses g s e := by
      rcases Nat.eq_zero_or_pos (Spec.uses g s e) with h0 | h0
      · rw [h0, hq] at h; cases h
      · exact h0
    obtain ⟨⟨e', fs⟩, hm, rfl⟩ := List.mem_map.mp ((h2 e).mpr hpos)
    exact ⟨fs, hm, by rw [h3 _ _ hm]; exact h⟩

/-! ## the theorems -/

/-- **C245 (edges).** The boundary edges reported for a shell are exactly the edges its faces run over once, the non-manifold edges exactly those they run over more than twice; each is reported once. -/
theorem C245_edges (g : Graph K P C S) (s : Shell K) :
    (∀ e, e ∈ (closure g s).boundary ↔ Spec.uses g s e = 1) ∧ (∀ e, e ∈ (closure g s).nonManifold ↔ 2 < Spec.uses g s e) ∧ (closure g s).boundary.Nodup ∧ (closure g s).nonManifold.Nodup := by
  have hn := (edgeUsage_facts g s).1
  refine ⟨fun e => ?_, fun e => ?_, ?_, ?_⟩
  · have := mem_pick g s (fun n => decide (n = 1)) rfl e
    rw [decide_eq_true_iff] at this
    exact this
  · have := mem_pick g s (fun n => decide (2 < n)) rfl e
    rw [decide_eq_true_iff] at this
    exact this
  · exact hn.sublist (List.Sublist.map _ List.filter_sublist)
  · exact hn.sublist (List.Sublist.map _ List.filter_sublist)

/-- **C245 (closed).** A shell is reported closed exactly if its faces run over each edge twice or not at all. -/
theorem C245_closed (g : Graph K P C S) (s : Shell K) : (closure g s).closed = true ↔ ∀ e, Spec.uses g s e = 0 ∨ Spec.uses g s e = 2 := by
  obtain ⟨h1, h2, _, _⟩ := C245_edges g s
  have : (closure g s).closed = true ↔ (closure g s).boundary = [] ∧ (closure g s).nonManifold = [] := by
    change decide _ = true ↔ _
    rw [decide_eq_true_iff, List.length_eq_zero_iff, List.length_eq_zero_iff]
    exact Iff.rfl
  rw [this, List.eq_nil_iff_forall_not_mem, List.eq_nil_iff_forall_not_mem]
  constructor
  · rintro ⟨a, b⟩ e
    have ha := a e
    have hb := b e
    rw [h1] at ha
    rw [h2] at hb
    omega
  · intro h
    refine ⟨fun e => ?_, fun e => ?_⟩
    · rw [h1]; rcases h e with h | h <;> omega
    · rw [h2]; rcases h e with h | h <;> omega

/-- **C245 (Euler).** The reported Euler characteristic is V - E + F for the edges E the faces run over, the ends V of those of them that are in the graph, and the different faces F. -/
theorem C245_euler (g : Graph K P C S) (s : Shell K) : ∃ (V E : Finset K), (∀ e, e ∈ E ↔ 0 < Spec.uses g s e) ∧
    (∀ v, v ∈ V ↔ ∃ e ∈ E, ∃ x, g.edges e = some x ∧ (v = x.start ∨ v = x.stop)) ∧ (closure g s).euler = V.card - E.card + s.faces.toFinset.card := by
  obtain ⟨h1, h2, _⟩ := edgeUsage_facts g s
  refine ⟨(shellVertices g s).toFinset, ((edgeUsage g s).map (·.1)).toFinset, fun e => ?_, fun v => ?_, ?_⟩
  · rw [List.mem_toFinset, h2]
  · rw [List.mem_toFinset]
    unfold shellVertices
    rw [List.mem_dedup, List.mem_flatMap]
    constructor
    · rintro ⟨⟨e, fs⟩, hm, hv⟩
      refine ⟨e, List.mem_toFinset.mpr (List.mem_map.mpr ⟨_, hm, rfl⟩), ?_⟩
      dsimp only at hv
      rcases hx : g.edges e with _ | x
      · rw [hx] at hv; simp at hv
      · rw [hx] at hv; exact ⟨x, rfl, by simpa using hv⟩
    · rintro ⟨e, he, x, hx, hv⟩
      obtain ⟨⟨e', fs⟩, hm, rfl⟩ := List.mem_map.mp (List.mem_toFinset.mp he)
      refine ⟨_, hm, ?_⟩
      dsimp only at hx ⊢
      rw [hx]
      simpa using hv
  · rw [List.toFinset_card_of_nodup (l := shellVertices g s) (List.nodup_dedup _), List.toFinset_card_of_nodup h1, List.length_map]
    unfold closure
    dsimp only
    rw [List.card_toFinset]

/-- **C245 (empty shells).** A shell none of whose faces is in the graph is reported closed, though it encloses nothing. -/
theorem C245_empty (g : Graph K P C S) (s : Shell K) (h : ∀ f ∈ s.faces, g.faces f = none) : (closure g s).closed = true := by
  rw [C245_closed]
  intro e
  left
  unfold Spec.uses
  exact Finset.sum_eq_zero fun f hf => by rw [h f (List.mem_toFinset.mp hf)]

/-- **C245 (senses).** Whether a shell is reported closed does not depend on the senses of the trims: also where two faces run over every common edge in the same direction, so that the shell has no
consistent outside. -/
theorem C245_sense (g : Graph K P C S) (s : Shell K) (t : K → Bool) :
    (closure { g with trims := fun k => (g.trims k).map fun x => { x with sense := t k } } s).closed = (closure g s).closed := by
  have h : ∀ e, Spec.uses { g with trims := fun k => (g.trims k).map fun x => { x with sense := t k } } s e = Spec.uses g s e := by
    intro e
    unfold Spec.uses
    refine Finset.sum_congr rfl fun f _ => ?_
    dsimp only
    rcases g.faces f with _ | F
    · rfl
    dsimp only
    unfold Spec.faceUses
    congr 1
    refine List.map_congr_left fun l _ => ?_
    dsimp only
    rcases g.loops l with _ | L
    · rfl
    dsimp only
    unfold Spec.loopUses
    refine List.countP_congr fun k _ => ?_
    dsimp only
    rcases g.trims k with _ | T <;> simp
  rw [Bool.eq_iff_iff, C245_closed, C245_closed]
  simp only [h]

/-- the hypotheses can be met by a closed shell: two faces (10, 11) that share their three edges (1, 2, 3) -/
def lens : Graph ℕ Unit Unit Unit :=
  { vertices := fun k => if k < 3 then some ⟨(), 0, []⟩ else none
    edges := fun k => if k = 1 then some ⟨(), 0, 1, true, 0, []⟩ else if k = 2 then some ⟨(), 1, 2, true, 0, []⟩ else if k = 3 then some ⟨(), 2, 0, true, 0, []⟩ else none
    trims := fun k => if 1 ≤ k ∧ k ≤ 3 then some ⟨k, true⟩ else if 4 ≤ k ∧ k ≤ 6 then some ⟨k - 3, false⟩ else none
    loops := fun k => if k = 7 then some ⟨[1, 2, 3], true⟩ else if k = 8 then some ⟨[6, 5, 4], true⟩ else none
    faces := fun k => if k = 10 then some ⟨(), [7], true, none⟩ else if k = 11 then some ⟨(), [8], true, none⟩ else none
    shells := fun _ => none
    solids := fun _ => none }

example : (closure lens ⟨[10, 11], true, none, none⟩).closed = true ∧ (closure lens ⟨[10, 11], true, none, none⟩).euler = 2 ∧
    (closure lens ⟨[10], true, none, none⟩).boundary = [1, 2, 3] := by decide +kernel

end Verif.Brep
