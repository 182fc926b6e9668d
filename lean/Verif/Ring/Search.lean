import Verif.Ring.Cuts
import Mathlib.Tactic.Linarith
import Mathlib.Tactic.Push

/-!
# C207 for two pieces: a cut that keeps its distance is found whenever there is one
-/

namespace Verif.Ring
open Verif.Segment (Err)

set_option linter.unusedSectionVars false
variable {K : Type} [Field K] [LinearOrder K] [IsStrictOrderedRing K]

/-- outside all the intervals -/
def Out (l : List (K × K)) (p : K) : Prop := ∀ z ∈ l, p < z.1 ∨ z.2 < p

/-- the step of `merge` -/
def mergeStep (acc : List (K × K)) (z : K × K) : List (K × K) :=
  match acc with
  | [] => [z]
  | m :: r => if z.1 ≤ m.2 then (m.1, max m.2 z.2) :: r else z :: m :: r

theorem merge_eq (l : List (K × K)) : merge l = (l.foldl mergeStep []).reverse := rfl

/-- what holds of the merged intervals, the last one first -/
structure Inv (acc : List (K × K)) (seen : List (K × K)) : Prop where
  apart : acc.Pairwise fun a b => b.2 < a.1
  sane : ∀ a ∈ acc, a.1 ≤ a.2 ∧ 0 ≤ a.2 ∧ a.1 ≤ 1
  same : ∀ p, Out acc p ↔ Out seen p
  low : ∀ a ∈ acc, ∃ z ∈ seen, a.1 = z.1

theorem inv_step {acc seen : List (K × K)} {z : K × K} (h : Inv acc seen) (hz : z.1 ≤ z.2 ∧ 0 ≤ z.2 ∧ z.1 ≤ 1) (hle : ∀ y ∈ seen, y.1 ≤ z.1) :
    Inv (mergeStep acc z) (seen ++ [z]) := by
  obtain ⟨h1, h2, h3, h4⟩ := h
  have hsame : ∀ p, Out (seen ++ [z]) p ↔ Out acc p ∧ (p < z.1 ∨ z.2 < p) := by
    intro p; rw [h3 p]; simp [Out, or_imp, forall_and]
  cases acc with
  | nil =>
    refine ⟨by simp [mergeStep], by simpa [mergeStep] using hz, fun p => ?_, ?_⟩
    · rw [hsame]; simp [mergeStep, Out]
    · intro a ha; simp only [mergeStep, List.mem_singleton] at ha; exact ⟨z, by simp, by rw [ha]⟩
  | cons m r =>
    rw [List.pairwise_cons] at h1
    rw [List.forall_mem_cons] at h2
    have hm : m.1 ≤ z.1 := by
      obtain ⟨y, hy, e⟩ := h4 m (by simp)
      rw [e]; exact hle y hy
    unfold mergeStep
    simp only
    split_ifs with hc
    · refine ⟨?_, ?_, fun p => ?_, ?_⟩
      · rw [List.pairwise_cons]; exact ⟨h1.1, h1.2⟩
      · rw [List.forall_mem_cons]
        exact ⟨⟨le_trans h2.1.1 (le_max_left _ _), le_trans h2.1.2.1 (le_max_left _ _), h2.1.2.2⟩, h2.2⟩
      · rw [hsame]
        simp only [Out, List.forall_mem_cons, max_lt_iff]
        constructor
        · rintro ⟨ha | ha, hr⟩
          · exact ⟨⟨.inl ha, hr⟩, .inl (lt_of_lt_of_le ha hm)⟩
          · exact ⟨⟨.inr ha.1, hr⟩, .inr ha.2⟩
        · rintro ⟨⟨ha, hr⟩, hz'⟩
          refine ⟨?_, hr⟩
          rcases ha with ha | ha
          · exact .inl ha
          · rcases hz' with hz' | hz'
            · exact absurd (lt_of_lt_of_le hz' hc) (not_lt.2 ha.le)
            · exact .inr ⟨ha, hz'⟩
      · rw [List.forall_mem_cons]
        refine ⟨?_, ?_⟩
        · obtain ⟨y, hy, e⟩ := h4 m (by simp)
          exact ⟨y, by simp [hy], e⟩
        · intro a ha
          obtain ⟨y, hy, e⟩ := h4 a (by simp [ha])
          exact ⟨y, by simp [hy], e⟩
    · rw [not_le] at hc
      refine ⟨?_, ?_, fun p => ?_, ?_⟩
      · rw [List.pairwise_cons]
        refine ⟨?_, List.pairwise_cons.2 h1⟩
        rw [List.forall_mem_cons]
        exact ⟨hc, fun b hb => lt_of_lt_of_le (h1.1 b hb) hm⟩
      · rw [List.forall_mem_cons, List.forall_mem_cons]; exact ⟨hz, h2⟩
      · rw [hsame]; simp only [Out, List.forall_mem_cons]; tauto
      · rw [List.forall_mem_cons]
        refine ⟨⟨z, by simp, rfl⟩, fun a ha => ?_⟩
        obtain ⟨y, hy, e⟩ := h4 a ha
        exact ⟨y, by simp [hy], e⟩

theorem inv_fold (l : List (K × K)) (hl : ∀ z ∈ l, z.1 ≤ z.2 ∧ 0 ≤ z.2 ∧ z.1 ≤ 1) (hs : l.Pairwise fun a b => a.1 ≤ b.1) (acc seen : List (K × K)) (h : Inv acc seen)
    (hle : ∀ y ∈ seen, ∀ z ∈ l, y.1 ≤ z.1) : Inv (l.foldl mergeStep acc) (seen ++ l) := by
  induction l generalizing acc seen with
  | nil => simpa using h
  | cons z l ih =>
    rw [List.pairwise_cons] at hs
    rw [List.forall_mem_cons] at hl
    have := ih hl.2 hs.2 _ _ (inv_step h hl.1 fun y hy => hle y hy z (by simp)) (by
      intro y hy w hw
      rw [List.mem_append, List.mem_singleton] at hy
      rcases hy with hy | rfl
      · exact hle y hy w (by simp [hw])
      · exact hs.1 w hw)
    simpa using this

/-- the merged intervals are apart, in order, and cover the same -/
theorem merge_spec (l : List (K × K)) (hl : ∀ z ∈ l, z.1 ≤ z.2 ∧ 0 ≤ z.2 ∧ z.1 ≤ 1) (hs : l.Pairwise fun a b => a.1 ≤ b.1) :
    ((merge l).Pairwise fun a b => a.2 < b.1) ∧ (∀ a ∈ merge l, a.1 ≤ a.2 ∧ 0 ≤ a.2 ∧ a.1 ≤ 1) ∧ ∀ p, Out (merge l) p ↔ Out l p := by
  have h := inv_fold l hl hs [] [] ⟨by simp, by simp, by simp, by simp⟩ (by simp)
  rw [List.nil_append] at h
  rw [merge_eq]
  refine ⟨List.pairwise_reverse.2 h.apart, fun a ha => h.sane a (List.mem_reverse.1 ha), fun p => ?_⟩
  rw [← h.same p]
  simp [Out]

/-- the gaps after the first interval -/
theorem gaps_spec (m : K × K) (r : List (K × K)) (hp : (m :: r).Pairwise fun a b => a.2 < b.1) (hs : ∀ a ∈ m :: r, a.1 ≤ a.2 ∧ 0 ≤ a.2 ∧ a.1 ≤ 1) (p : K) (h1 : p < 1)
    (ho : Out r p) (hm : m.2 < p) :
    ∃ g ∈ ((m :: r).zip r).map (fun ab => (ab.1.2, ab.2.1)) ++ (match (m :: r).getLast? with
     | some z => if z.2 < 1 then [(z.2, 1)] else []
     | none => []), g.1 < p ∧ p < g.2 ∧ 0 ≤ g.1 ∧ g.2 ≤ 1 ∧ ∀ q, g.1 < q → q < g.2 → m.2 < q ∧ Out r q := by
  induction r generalizing m with
  | nil =>
    refine ⟨(m.2, 1), ?_, hm, h1, (hs m (by simp)).2.1, le_rfl, fun q h _ => ⟨h, by simp [Out]⟩⟩
    simp [lt_trans hm h1]
  | cons n r ih =>
    rw [List.pairwise_cons] at hp
    have hmn : m.2 < n.1 := hp.1 n (by simp)
    have hnn := hs n (by simp)
    have hn : p < n.1 ∨ n.2 < p := ho n (by simp)
    rcases hn with hn | hn
    · refine ⟨(m.2, n.1), by simp, hm, hn, (hs m (by simp)).2.1, hnn.2.2, fun q h h' => ⟨h, ?_⟩⟩
      intro z hz
      rcases List.mem_cons.1 hz with rfl | hz
      · exact .inl h'
      · exact .inl (lt_of_lt_of_le h' (le_trans hnn.1 ((List.pairwise_cons.1 hp.2).1 z hz).le))
    · obtain ⟨g, hg, g1, g2, g3, g4, g5⟩ := ih n hp.2 (fun a ha => hs a (List.mem_cons_of_mem _ ha)) (fun z hz => ho z (List.mem_cons_of_mem _ hz)) hn
      refine ⟨g, ?_, g1, g2, g3, g4, fun q h h' => ?_⟩
      · rw [List.getLast?_cons_cons]
        rw [List.zip_cons_cons, List.map_cons, List.cons_append]
        exact List.mem_cons_of_mem _ hg
      · obtain ⟨a, b⟩ := g5 q h h'
        refine ⟨lt_of_lt_of_le (lt_of_lt_of_le hmn hnn.1) a.le, ?_⟩
        intro z hz
        rcases List.mem_cons.1 hz with rfl | hz
        · exact .inr a
        · exact b z hz

/-- a position outside the merged intervals is in a region, and all of the region is outside -/
theorem regions_spec (l : List (K × K)) (hp : l.Pairwise fun a b => a.2 < b.1) (hs : ∀ a ∈ l, a.1 ≤ a.2 ∧ 0 ≤ a.2 ∧ a.1 ≤ 1) (p : K) (h0 : 0 < p) (h1 : p < 1) (ho : Out l p) :
    ∃ g ∈ regions l, g.1 < p ∧ p < g.2 ∧ 0 ≤ g.1 ∧ g.2 ≤ 1 ∧ ∀ q, g.1 < q → q < g.2 → Out l q := by
  cases l with
  | nil => exact ⟨(0, 1), by simp [regions], h0, h1, le_rfl, le_rfl, by simp [Out]⟩
  | cons m r =>
    unfold regions
    simp only
    rcases ho m (by simp) with hm | hm
    · refine ⟨(0, m.1), ?_, h0, hm, le_rfl, (hs m (by simp)).2.2, fun q _ h' => ?_⟩
      · rw [if_pos (lt_trans h0 hm)]; simp
      · intro z hz
        rcases List.mem_cons.1 hz with rfl | hz
        · exact .inl h'
        · exact .inl (lt_of_lt_of_le h' (le_trans (hs m (by simp)).1 ((List.pairwise_cons.1 hp).1 z hz).le))
    · obtain ⟨g, hg, g1, g2, g3, g4, g5⟩ := gaps_spec m r hp hs p h1 (fun z hz => ho z (List.mem_cons_of_mem _ hz)) hm
      refine ⟨g, ?_, g1, g2, g3, g4, fun q h h' => ?_⟩
      · rw [List.append_assoc]; exact List.mem_append_right _ hg
      · obtain ⟨a, b⟩ := g5 q h h'
        intro z hz
        rcases List.mem_cons.1 hz with rfl | hz
        · exact .inr a
        · exact b z hz

/-- zones of holes between 0 and 360 degrees -/
def Sane (z : K × K) : Prop := z.1 ≤ z.2 ∧ 0 ≤ z.2 ∧ z.1 ≤ 1

theorem excluded_sane (zones : List (K × K)) (h : ∀ z ∈ zones, Sane z) : ∀ z ∈ excluded zones, Sane z := by
  intro y hy
  unfold excluded at hy
  rw [List.mem_flatMap] at hy
  obtain ⟨z, hz, hy⟩ := hy
  obtain ⟨h1, h2, h3⟩ := h z hz
  split_ifs at hy with c1 c2
  · simp only [List.mem_cons, List.not_mem_nil, or_false] at hy
    rcases hy with rfl | rfl
    · exact ⟨by simp only; linarith, by simp, by simp only; linarith⟩
    · exact ⟨h2, h2, by simp⟩
  · simp only [List.mem_cons, List.not_mem_nil, or_false] at hy
    rcases hy with rfl | rfl
    · exact ⟨h3, by simp, h3⟩
    · exact ⟨by simp only; linarith, by simp only; linarith, by simp⟩
  · simp only [List.mem_singleton] at hy
    subst hy
    exact ⟨h1, h2, h3⟩

theorem out_valid (zones : List (K × K)) (p : K) (h0 : 0 < p) (h1 : p < 1) (h : Out (excluded zones) p) : valid zones p = true := by
  unfold valid
  rw [List.all_eq_true]
  intro z hz
  have hz' : ∀ y ∈ (if z.1 < 0 then [(z.1 + 1, 1), (0, z.2)] else if z.2 > 1 then [(z.1, 1), (0, z.2 - 1)] else [z]), p < y.1 ∨ y.2 < p := by
    intro y hy
    exact h y (by unfold excluded; rw [List.mem_flatMap]; exact ⟨z, hz, hy⟩)
  unfold clear
  split_ifs at hz' with c1 c2
  · rw [if_pos c1]
    have a := hz' (z.1 + 1, 1) (by simp)
    have b := hz' (0, z.2) (by simp)
    simp only [Bool.not_eq_true', Bool.or_eq_false_iff, decide_eq_false_iff_not, not_lt]
    constructor
    · rcases b with b | b <;> simp only at b <;> linarith
    · rcases a with b | b <;> simp only at b <;> linarith
  · rw [if_neg c1, if_pos c2]
    have a := hz' (z.1, 1) (by simp)
    have b := hz' (0, z.2 - 1) (by simp)
    simp only [Bool.not_eq_true', Bool.or_eq_false_iff, decide_eq_false_iff_not, not_lt]
    constructor
    · rcases a with b | b <;> simp only at b <;> linarith
    · rcases b with b | b <;> simp only at b <;> linarith
  · rw [if_neg c1, if_neg c2]
    have a := hz' z (by simp)
    simp only [Bool.not_eq_true', Bool.and_eq_false_iff, decide_eq_false_iff_not, not_le]
    exact a

theorem far_out {circumference distance : K} {holes : List K} (hc : 0 < circumference) (hh : ∀ a ∈ holes, 0 ≤ a ∧ a ≤ 360) {p : K}
    (h0 : 0 < p) (h1 : p < 1) (hfar : ∀ a ∈ holes, ∀ k : ℤ, distance < |p - a / 360 - k| * circumference) :
    Out (excluded (zonesOf circumference distance holes)) p := by
  intro y hy
  unfold excluded at hy
  rw [List.mem_flatMap] at hy
  obtain ⟨z, hz, hy⟩ := hy
  unfold zonesOf at hz
  obtain ⟨h, hm, rfl⟩ := List.mem_map.mp hz
  rw [(List.perm_insertionSort _ _).mem_iff] at hm
  obtain ⟨a, ha, rfl⟩ := List.mem_map.mp hm
  have b0 : (0 : K) ≤ a / 360 := div_nonneg (hh a ha).1 (by norm_num)
  have b1 : a / 360 ≤ 1 := (div_le_one (by norm_num)).mpr (hh a ha).2
  have far : ∀ k : ℤ, distance / circumference < |p - a / 360 - k| := fun k => by rw [div_lt_iff₀ hc]; exact hfar a ha k
  generalize a / 360 = h at *
  generalize distance / circumference = d at *
  have a0 := far 0
  have a1 := far 1
  have a2 := far (-1)
  push_cast at a0 a1 a2
  rw [lt_abs] at a0 a1 a2
  dsimp only at hy
  split_ifs at hy with c1 c2
  · simp only [List.mem_cons, List.not_mem_nil, or_false] at hy
    rcases hy with rfl | rfl
    · left; dsimp only; rcases a1 with x | x <;> linarith
    · right; dsimp only; rcases a0 with x | x <;> linarith
  · simp only [List.mem_cons, List.not_mem_nil, or_false] at hy
    rcases hy with rfl | rfl
    · left; dsimp only; rcases a0 with x | x <;> linarith
    · right; dsimp only; rcases a2 with x | x <;> linarith
  · simp only [List.mem_singleton] at hy
    subst hy
    dsimp only
    rcases a0 with x | x
    · right; linarith
    · left; linarith

theorem candidate_exists (zones : List (K × K)) (ideals : List K) (hs : ∀ z ∈ zones, Sane z) {p : K} (h0 : 0 < p) (h1 : p < 1) (ho : Out (excluded zones) p) :
    candidates zones ideals ≠ [] := by
  have hsort : ((excluded zones).insertionSort pairLe).Pairwise fun a b => a.1 ≤ b.1 := by
    have tot : Std.Total (pairLe (K := K)) := ⟨fun a b => by
      unfold pairLe
      rcases lt_trichotomy a.1 b.1 with h | h | h
      · exact .inl (.inl h)
      · rcases le_total a.2 b.2 with h' | h'
        · exact .inl (.inr ⟨h, h'⟩)
        · exact .inr (.inr ⟨h.symm, h'⟩)
      · exact .inr (.inl h)⟩
    have trans : IsTrans (K × K) pairLe := ⟨fun a b c => by
      unfold pairLe
      rintro (h | ⟨h, h'⟩) (g | ⟨g, g'⟩)
      · exact .inl (lt_trans h g)
      · exact .inl (g ▸ h)
      · exact .inl (h ▸ g)
      · exact .inr ⟨h.trans g, le_trans h' g'⟩⟩
    refine (List.pairwise_insertionSort pairLe (excluded zones)).imp ?_
    rintro a b (h | ⟨h, -⟩)
    · exact h.le
    · exact h.le
  have hmem : ∀ z, z ∈ (excluded zones).insertionSort pairLe ↔ z ∈ excluded zones := fun z => (List.perm_insertionSort _ _).mem_iff
  obtain ⟨m1, m2, m3⟩ := merge_spec ((excluded zones).insertionSort pairLe) (fun z hz => excluded_sane zones hs z ((hmem z).1 hz)) hsort
  have hout : ∀ q, Out (merge ((excluded zones).insertionSort pairLe)) q ↔ Out (excluded zones) q := by
    intro q; rw [m3 q]; simp only [Out, hmem]
  obtain ⟨g, hg, g1, g2, g3, g4, g5⟩ := regions_spec _ m1 m2 p h0 h1 ((hout p).2 ho)
  have hmid : g.1 < (g.1 + g.2) / 2 ∧ (g.1 + g.2) / 2 < g.2 := ⟨by linarith, by linarith⟩
  have hv : valid zones ((g.1 + g.2) / 2) = true := out_valid zones _ (by linarith) (by linarith) ((hout _).1 (g5 _ hmid.1 hmid.2))
  intro hnil
  have : (g.1 + g.2) / 2 ∈ candidates zones ideals := by
    unfold candidates
    rw [sortedSet_mem, List.mem_filter]
    refine ⟨List.mem_append_left _ (List.mem_flatMap.2 ⟨g, hg, by simp⟩), ?_⟩
    simp only [decide_eq_true_eq]
    exact ⟨by linarith, by linarith, hv⟩
  rw [hnil] at this
  simp at this

variable [FloorRing K]

theorem ring_two {circumference limit distance : K} {holes : List K} {target : Option ℤ} (hl : target = none → limit ≠ 0) (hc : circumference ≠ 0)
    (hn : count circumference limit target = 2) :
    ringCuts circumference limit holes distance target = .ok
      (if valid (zonesOf circumference distance holes) (1 / 2) = true then [1 / 2]
       else match nearest (zonesOf circumference distance holes) (1 / 2) with
        | some x => [x]
        | none => match (if (candidates (zonesOf circumference distance holes) [1 / 2]).length ≥ 1 then best (combinations 1 (candidates (zonesOf circumference distance holes) [1 / 2])) else none) with
          | some c => c
          | none => [1 / 2]) := by
  have htar : pieceCount circumference limit target = .ok (2 : ℤ) := by
    unfold count at hn
    unfold pieceCount
    cases target with
    | some t => rw [Option.getD_some] at hn; rw [hn]
    | none => rw [Option.getD_none] at hn; dsimp only; rw [if_neg (hl rfl), hn]
  unfold ringCuts
  rw [htar]
  dsimp only
  rw [if_neg (by omega), if_neg hc]
  rw [show ((holes.map (· / 360)).insertionSort (· ≤ ·)).map (fun h => (h - distance / circumference, h + distance / circumference)) = zonesOf circumference distance holes from rfl]
  have hid : (List.range ((2 : ℤ) - 1).toNat).map (fun i : ℕ => 1 / (((2 : ℤ) : K)) * ((i + 1 : ℕ) : K)) = [1 / 2] := by
    norm_num [List.range_succ]
  rw [hid]
  generalize zonesOf circumference distance holes = zones
  have h21 : ((2 : ℤ) - 1).toNat = 1 := rfl
  rw [h21]
  by_cases hv : valid zones (1 / 2) = true
  · rw [if_pos hv, if_pos (by simpa using hv)]
  · rw [if_neg hv, if_neg (by simpa using hv)]
    unfold adjusted
    cases hnr : nearest zones (1 / 2) with
    | none =>
      simp only [List.length_nil]
      rw [if_neg (by simp)]
      generalize (if (candidates zones [1 / 2]).length ≥ 1 then best (combinations 1 (candidates zones [1 / 2])) else none) = o
      cases o <;> rfl
    | some x =>
      simp only [adjusted, List.length_singleton]
      rw [if_pos ⟨trivial, by simp [sortedSet]⟩]
      simp [sortedSet]

/-- **C207 for two pieces.** If any position on the ring is farther than the distance asked from all holes (between 0 and 360 degrees), the cut that is returned keeps that distance. -/
theorem C207_two_pieces {circumference limit distance : K} {holes : List K} {target : Option ℤ} (hl : target = none → limit ≠ 0) (hc : 0 < circumference) (hd : 0 ≤ distance)
    (hh : ∀ a ∈ holes, 0 ≤ a ∧ a ≤ 360) (hn : count circumference limit target = 2) {p : K} (h0 : 0 < p) (h1 : p < 1)
    (hfar : ∀ a ∈ holes, ∀ k : ℤ, distance < |p - a / 360 - k| * circumference) :
    ∃ c, ringCuts circumference limit holes distance target = .ok [c] ∧ 0 < c ∧ c < 1 ∧ ∀ a ∈ holes, ∀ k : ℤ, distance ≤ |c - a / 360 - k| * circumference := by
  have hsane : ∀ z ∈ zonesOf circumference distance holes, Sane z := by
    intro z hz
    unfold zonesOf at hz
    obtain ⟨h, hm, rfl⟩ := List.mem_map.mp hz
    rw [(List.perm_insertionSort _ _).mem_iff] at hm
    obtain ⟨a, ha, rfl⟩ := List.mem_map.mp hm
    have b0 : (0 : K) ≤ a / 360 := div_nonneg (hh a ha).1 (by norm_num)
    have b1 : a / 360 ≤ 1 := (div_le_one (by norm_num)).mpr (hh a ha).2
    have b2 : 0 ≤ distance / circumference := div_nonneg hd hc.le
    exact ⟨by dsimp only; linarith, by dsimp only; linarith, by dsimp only; linarith⟩
  have key : ∀ c, 0 < c → c < 1 → valid (zonesOf circumference distance holes) c = true → ∀ a ∈ holes, ∀ k : ℤ, distance ≤ |c - a / 360 - k| * circumference := by
    intro c c0 c1 hv a ha k
    have := clear_away (div_nonneg hd hc.le) c0 c1 (zonesOf_mem hv ha) k
    rwa [div_le_iff₀ hc] at this
  rw [ring_two hl hc.ne' hn]
  by_cases hv : valid (zonesOf circumference distance holes) (1 / 2) = true
  · rw [if_pos hv]
    exact ⟨1 / 2, rfl, by norm_num, by norm_num, key _ (by norm_num) (by norm_num) hv⟩
  · rw [if_neg hv]
    cases hnr : nearest (zonesOf circumference distance holes) (1 / 2) with
    | some x =>
      obtain ⟨x0, x1, xv⟩ := nearest_ok (by norm_num) (by norm_num) hnr
      exact ⟨x, rfl, x0, x1, key x x0 x1 xv⟩
    | none =>
      simp only
      have hcand := candidate_exists (zonesOf circumference distance holes) [1 / 2] hsane h0 h1 (far_out hc hh h0 h1 hfar)
      obtain ⟨a, l, e⟩ := List.exists_cons_of_ne_nil hcand
      rw [if_pos (by rw [e]; simp)]
      cases hb : best (combinations 1 (candidates (zonesOf circumference distance holes) [1 / 2])) with
      | none =>
        rw [e] at hb
        simp [combinations, best] at hb
      | some c =>
        obtain ⟨h1', h2'⟩ := combinations_ok _ _ _ (best_mem hb)
        obtain ⟨x, rfl⟩ := List.length_eq_one_iff.1 h1'
        have hx := h2'.subset (List.mem_singleton_self x)
        obtain ⟨x0, x1, xv⟩ := candidates_ok x hx
        exact ⟨x, rfl, x0, x1, key x x0 x1 xv⟩

/-- **C207 for two pieces**, how far the cut is moved: not farther than any of the positions a multiple of a 2000th of the ring from the middle that are farther than the distance asked from all holes. -/
theorem C207_nearest {circumference limit distance : K} {holes : List K} {target : Option ℤ} (hl : target = none → limit ≠ 0) (hc : 0 < circumference)
    (hh : ∀ a ∈ holes, 0 ≤ a ∧ a ≤ 360) (hn : count circumference limit target = 2) {p : K} (h0 : 0 < p) (h1 : p < 1) {i : ℕ} (hi : |p - 1 / 2| = i / 2000)
    (hfar : ∀ a ∈ holes, ∀ k : ℤ, distance < |p - a / 360 - k| * circumference) :
    ∃ c, ringCuts circumference limit holes distance target = .ok [c] ∧ |c - 1 / 2| ≤ i / 2000 := by
  have hv : valid (zonesOf circumference distance holes) p = true := out_valid _ p h0 h1 (far_out hc hh h0 h1 hfar)
  have hi' : i < 1000 := by
    have : |p - 1 / 2| < 1 / 2 := by rw [abs_lt]; constructor <;> linarith
    rw [hi, div_lt_iff₀ (by norm_num)] at this
    have : (i : K) < (1000 : ℕ) := by push_cast; linarith
    exact_mod_cast this
  rw [ring_two hl hc.ne' hn]
  generalize zonesOf circumference distance holes = zones at *
  by_cases hv2 : valid zones (1 / 2) = true
  · rw [if_pos hv2]
    exact ⟨1 / 2, rfl, by rw [sub_self, abs_zero]; positivity⟩
  rw [if_neg hv2]
  have hsome : ∀ j : ℕ, j < 1000 → ∀ n, n ≤ 1000 → j < n → |p - 1 / 2| = j / 2000 → ∃ x, (List.range n).findSome? (fun i : ℕ =>
      let off : K := (i : K) / 1000 * (1 / 2)
      if 1 / 2 + off < 1 ∧ valid zones (1 / 2 + off) then some (1 / 2 + off)
      else if 1 / 2 - off > 0 ∧ valid zones (1 / 2 - off) then some (1 / 2 - off)
      else none) = some x ∧ |x - 1 / 2| ≤ j / 2000 := by
    intro j hj n
    induction n with
    | zero => intro _ h; omega
    | succ n ih =>
      intro hn1 hjn hpj
      rw [List.range_succ, List.findSome?_append]
      rcases Nat.lt_succ_iff_lt_or_eq.1 hjn with h | h
      · obtain ⟨x, hx, hx'⟩ := ih (by omega) h hpj
        exact ⟨x, by rw [hx]; rfl, hx'⟩
      · subst h
        cases hf : (List.range j).findSome? (fun i : ℕ =>
          let off : K := (i : K) / 1000 * (1 / 2)
          if 1 / 2 + off < 1 ∧ valid zones (1 / 2 + off) then some (1 / 2 + off)
          else if 1 / 2 - off > 0 ∧ valid zones (1 / 2 - off) then some (1 / 2 - off)
          else none) with
        | some x =>
          refine ⟨x, rfl, ?_⟩
          obtain ⟨i', hi1, hi2⟩ := List.exists_of_findSome?_eq_some hf
          rw [List.mem_range] at hi1
          have hle : (i' : K) ≤ j := by exact_mod_cast hi1.le
          have h0' : (0 : K) ≤ i' := by positivity
          dsimp only at hi2
          split_ifs at hi2
          · injection hi2 with hi2; subst hi2
            rw [abs_of_nonneg (by ring_nf; positivity)]
            rw [show (1 : K) / 2 + i' / 1000 * (1 / 2) - 1 / 2 = i' / 2000 by ring]
            gcongr
          · injection hi2 with hi2; subst hi2
            rw [show (1 : K) / 2 - i' / 1000 * (1 / 2) - 1 / 2 = -(i' / 2000) by ring, abs_neg, abs_of_nonneg (by positivity)]
            gcongr
        | none =>
          rw [Option.none_or]
          simp only [List.findSome?_cons, List.findSome?_nil]
          rw [show (j : K) / 1000 * (1 / 2) = j / 2000 by ring]
          have habs1 : |(1 : K) / 2 + j / 2000 - 1 / 2| ≤ j / 2000 := by
            rw [show (1 : K) / 2 + j / 2000 - 1 / 2 = j / 2000 by ring, abs_of_nonneg (by positivity)]
          have habs2 : |(1 : K) / 2 - j / 2000 - 1 / 2| ≤ j / 2000 := by
            rw [show (1 : K) / 2 - j / 2000 - 1 / 2 = -(j / 2000) by ring, abs_neg, abs_of_nonneg (by positivity)]
          by_cases c1 : (1 : K) / 2 + j / 2000 < 1 ∧ valid zones (1 / 2 + j / 2000) = true
          · rw [if_pos c1]; exact ⟨_, rfl, habs1⟩
          · rw [if_neg c1]
            by_cases c2 : (1 : K) / 2 - j / 2000 > 0 ∧ valid zones (1 / 2 - j / 2000) = true
            · rw [if_pos c2]; exact ⟨_, rfl, habs2⟩
            · exfalso
              rcases abs_choice (p - 1 / 2) with h | h
              · rw [h] at hpj
                have : p = 1 / 2 + j / 2000 := by linarith
                rw [this] at h1 hv
                exact c1 ⟨h1, hv⟩
              · rw [h] at hpj
                have : p = 1 / 2 - j / 2000 := by linarith
                rw [this] at h0 hv
                exact c2 ⟨h0, hv⟩
  obtain ⟨x, hx, hx'⟩ := hsome i hi' 1000 le_rfl hi' hi
  have : nearest zones (1 / 2) = some x := by
    unfold nearest
    rw [if_neg hv2]
    exact hx
  rw [this]
  exact ⟨x, rfl, hx'⟩

/-- a hole opposite the seam of a ring: the position 0.6 is far enough from it -/
example : ∃ c : ℚ, ringCuts (360 : ℚ) 180 [180] 30 none = .ok [c] ∧ |c - 1 / 2| ≤ (200 : ℕ) / 2000 :=
  C207_nearest (p := 3 / 5) (by norm_num) (by norm_num) (by norm_num) (by decide +kernel) (by norm_num) (by norm_num) (by norm_num [abs_of_pos]) (by
    intro a ha k
    simp only [List.mem_singleton] at ha
    subst ha
    have h : (1 : ℚ) / 10 ≤ |3 / 5 - 180 / 360 - (k : ℚ)| := by
      rcases le_or_gt k 0 with hk | hk
      · have : (k : ℚ) ≤ 0 := by exact_mod_cast hk
        exact le_trans (by linarith) (le_abs_self _)
      · have : (1 : ℚ) ≤ k := by exact_mod_cast hk
        exact le_trans (by linarith) (neg_le_abs _)
    linarith)

end Verif.Ring
