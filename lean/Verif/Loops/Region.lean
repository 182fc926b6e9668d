import Verif.Loops.Comps
import Mathlib.Data.List.Forall2
import Mathlib.Data.List.Induction

/-!
# Components of loops: every loop once, directions, and the even-odd rule (C275, C276)
-/

namespace Verif.Loops

section field
variable {K : Type} [Field K] [LinearOrder K] [IsStrictOrderedRing K]

/-! ## areas -/

def cr (p q : Pt K) : K := p.1 * q.2 - q.1 * p.2

omit [LinearOrder K] [IsStrictOrderedRing K] in
theorem crossSum_snoc : ∀ (l : List (Pt K)) (x y : Pt K), crossSum (l ++ [x, y]) = crossSum (l ++ [x]) + cr x y
  | [], x, y => by simp [crossSum, cr]
  | [a], x, y => by simp [crossSum, cr]
  | a :: b :: l, x, y => by
    have ih := crossSum_snoc (b :: l) x y
    simp only [List.cons_append] at ih ⊢
    rw [crossSum, crossSum, ih, add_assoc]

omit [LinearOrder K] [IsStrictOrderedRing K] in
theorem crossSum_reverse : ∀ l : List (Pt K), crossSum l.reverse = -crossSum l
  | [] => by simp [crossSum]
  | [a] => by simp [crossSum]
  | a :: b :: l => by
    have ih := crossSum_reverse (b :: l)
    rw [List.reverse_cons, List.reverse_cons, List.append_assoc]
    rw [show [b] ++ [a] = [b, a] from rfl, crossSum_snoc, ← List.reverse_cons, ih, crossSum]
    simp only [cr]
    ring

/-- a loop that ends where it begins -/
def ClosedLoop (l : List (Pt K)) : Prop := ∃ core, core ≠ [] ∧ l = core ++ core.take 1

omit [LinearOrder K] [IsStrictOrderedRing K] in
/-- turning a closed loop around changes the sign of its area -/
theorem crossSum_turned (core : List (Pt K)) : crossSum (core.reverse ++ core.reverse.take 1) = -crossSum (core ++ core.take 1) := by
  cases core with
  | nil => simp [crossSum]
  | cons a t =>
    cases t using List.reverseRecOn with
    | nil => simp [crossSum]
    | append_singleton u b =>
      have e1 : ((a :: (u ++ [b])).reverse ++ (a :: (u ++ [b])).reverse.take 1) = (b :: a :: (u ++ [b])).reverse := by simp
      have e2 : a :: (u ++ [b]) ++ (a :: (u ++ [b])).take 1 = (a :: u) ++ [b, a] := by simp
      rw [e1, crossSum_reverse, e2, crossSum_snoc, crossSum]
      simp only [cr, List.cons_append]
      ring

/-- the area of a loop that counts, in the direction asked for -/
theorem orientLoop_area {l : List (Pt K)} (hc : ClosedLoop l) (hg : good l = true) (b : Bool) :
    signedArea (orientLoop l b) = (if b then 1 else -1) * |signedArea l| ∧ ClosedLoop (orientLoop l b) ∧
      (orientLoop l b = l ∨ ∃ core, l = core ++ core.take 1 ∧ orientLoop l b = core.reverse ++ core.reverse.take 1) := by
  obtain ⟨core, hne, rfl⟩ := hc
  unfold good at hg
  simp only [Bool.and_eq_true, decide_eq_true_eq] at hg
  have ha : (0 : K) < |signedArea (core ++ core.take 1)| := lt_trans eps_pos hg.2
  have hl1 : (core.take 1).length = 1 := by
    rw [List.length_take]; have := List.length_pos_iff.2 hne; omega
  obtain ⟨x, hx⟩ := List.length_eq_one_iff.1 hl1
  have hdrop : (core ++ core.take 1).dropLast = core := by rw [hx, List.dropLast_concat]
  have h3 : 3 ≤ core.length := by
    by_contra hlt
    match core, hne with
    | [a], _ => simp at hg
    | [a, b], _ =>
      have : signedArea ([a, b] ++ [a, b].take 1) = 0 := by simp [signedArea, crossSum]
      rw [this, abs_zero] at ha
      exact lt_irrefl _ ha
    | a :: b :: c :: t, _ => simp at hlt
  unfold orientLoop
  rw [if_neg (by simp [hne])]
  dsimp only
  have hlen : 1 < (core ++ core.take 1).length := by rw [List.length_append, hl1]; omega
  rw [if_pos hlen, hdrop, if_neg (by omega)]
  have hturn : signedArea (core.reverse ++ core.reverse.take 1) = -signedArea (core ++ core.take 1) := by
    unfold signedArea; rw [crossSum_turned]; ring
  split
  · rename_i hc
    refine ⟨?_, ⟨core.reverse, by simpa using hne, rfl⟩, .inr ⟨core, rfl, rfl⟩⟩
    rw [hturn]
    rcases hc with ⟨rfl, h⟩ | ⟨rfl, h⟩
    · rw [abs_of_neg h]; simp
    · rw [abs_of_pos h]; simp
  · rename_i hc
    refine ⟨?_, ⟨core, hne, rfl⟩, .inl rfl⟩
    rw [not_or, not_and, not_and] at hc
    cases b with
    | true => rw [abs_of_nonneg (not_lt.1 (hc.1 rfl))]; simp
    | false => rw [abs_of_nonpos (not_lt.1 (hc.2 rfl))]; simp

/-! ## every loop once -/

omit [IsStrictOrderedRing K] in
theorem map_range_getD (l : List (List (Pt K))) : (List.range l.length).map (fun i => l.getD i []) = l := by
  apply List.ext_getElem
  · simp
  · intro i h1 h2
    simp only [List.getElem_map, List.getElem_range, List.getD_eq_getElem?_getD]
    rw [List.getElem?_eq_getElem h2]; rfl

/-- Every loop with three points and an area not below epsilon is in exactly one component, once, as it is or turned around, whatever the test for points in loops says. Outer loops
run counterclockwise, holes clockwise. -/
theorem C275_once (ins : List (Pt K) → Pt K → Bool) (loops : List (List (Pt K))) (hc : ∀ l ∈ loops, ClosedLoop l) :
    (∃ l, l.Perm (loops.filter good) ∧ List.Forall₂ (fun x y => x = y ∨ ∃ core, y = core ++ core.take 1 ∧ x = core.reverse ++ core.reverse.take 1)
      ((assemble ins loops).flatMap fun c => c.1 :: c.2) l) ∧
      ∀ c ∈ assemble ins loops, 0 < signedArea c.1 ∧ ∀ h ∈ c.2, signedArea h < 0 := by
  unfold assemble
  dsimp only
  set ns := loops.filter good with hns
  set par := parentOf ns.length (fun i => |signedArea (ns.getD i [])|) fun j i => ins (ns.getD j []) (centroid (ns.getD i [])) with hpar
  have hF : Forest ns.length (fun i => |signedArea (ns.getD i [])|) par := forest_parentOf
  have hp := comps_perm hF
  have hgood : ∀ i < ns.length, good (ns.getD i []) = true ∧ ClosedLoop (ns.getD i []) := by
    intro i hi
    have : ns.getD i [] ∈ ns := by rw [List.getD_eq_getElem?_getD, List.getElem?_eq_getElem hi]; exact List.getElem_mem hi
    rw [hns, List.mem_filter] at this
    exact ⟨this.2, hc _ this.1⟩
  have hmem : ∀ c ∈ comps ns.length par, ∀ k ∈ loopsOf c, k < ns.length := by
    intro c hcm k hk
    have : k ∈ (comps ns.length par).flatMap loopsOf := List.mem_flatMap.2 ⟨c, hcm, hk⟩
    rw [hp.mem_iff, List.mem_range] at this
    exact this
  constructor
  · refine ⟨((comps ns.length par).flatMap loopsOf).map fun i => ns.getD i [], ?_, ?_⟩
    · have := hp.map fun i => ns.getD i []
      rwa [map_range_getD] at this
    · generalize comps ns.length par = cs at hmem
      induction cs with
      | nil => exact .nil
      | cons c cs ih =>
        rw [List.map_cons, List.flatMap_cons, List.flatMap_cons, List.map_append]
        refine List.rel_append ?_ (ih fun c' hc' => hmem c' (.tail _ hc'))
        have h1 : ∀ k ∈ loopsOf c, k < ns.length := hmem c (.head _)
        show List.Forall₂ _ (orientLoop _ true :: _) (_ :: c.2.map fun i => ns.getD i [])
        refine .cons ?_ ?_
        · obtain ⟨g1, g2⟩ := hgood c.1 (h1 _ (.head _))
          exact (orientLoop_area g2 g1 true).2.2
        · rw [List.forall₂_map_left_iff, List.forall₂_map_right_iff, List.forall₂_same]
          intro k hk
          obtain ⟨g1, g2⟩ := hgood k (h1 _ (.tail _ hk))
          exact (orientLoop_area g2 g1 false).2.2
  · intro c hcm
    obtain ⟨x, hx, rfl⟩ := List.mem_map.1 hcm
    dsimp only
    constructor
    · obtain ⟨g1, g2⟩ := hgood x.1 (hmem x hx _ (.head _))
      rw [(orientLoop_area g2 g1 true).1, if_pos rfl, one_mul]
      unfold good at g1
      simp only [Bool.and_eq_true, decide_eq_true_eq] at g1
      exact lt_trans eps_pos g1.2
    · intro h hh
      obtain ⟨k, hk, rfl⟩ := List.mem_map.1 hh
      obtain ⟨g1, g2⟩ := hgood k (hmem x hx _ (.tail _ hk))
      rw [(orientLoop_area g2 g1 false).1, if_neg (by simp)]
      unfold good at g1
      simp only [Bool.and_eq_true, decide_eq_true_eq] at g1
      have := lt_trans eps_pos g1.2
      linarith

/-! ## the even-odd rule -/

open Classical in
/-- If the loops bound regions that are nested or disjoint, a region within another has the smaller area, and the test for the centroid tells which regions are within others, then a point is
within an outer loop and in none of its holes, for one of the components, if and only if it is in an odd number of regions; and no point is in two components. -/
theorem C276_even_odd_partial {X : Type} (ins : List (Pt K) → Pt K → Bool) (loops : List (List (Pt K))) (D : List (Pt K) → Set X)
    (hD : ∀ l b, D (orientLoop l b) = D l) (hne : ∀ l ∈ loops, (D l).Nonempty)
    (hlam : loops.Pairwise fun a b => D a ⊂ D b ∨ D b ⊂ D a ∨ Disjoint (D a) (D b))
    (harea : ∀ a ∈ loops, ∀ b ∈ loops, D a ⊂ D b → |signedArea a| + eps < |signedArea b|)
    (hins : ∀ a ∈ loops, ∀ b ∈ loops, |signedArea a| + eps < |signedArea b| → (ins b (centroid a) = true ↔ D a ⊂ D b)) (hg : ∀ l ∈ loops, good l = true) (p : X) :
    (Odd (loops.countP fun l => decide (p ∈ D l)) ↔ ∃ c ∈ assemble ins loops, p ∈ D c.1 ∧ ∀ h ∈ c.2, p ∉ D h) ∧
      (assemble ins loops).Pairwise fun c c' => ¬ ((p ∈ D c.1 ∧ ∀ h ∈ c.2, p ∉ D h) ∧ (p ∈ D c'.1 ∧ ∀ h ∈ c'.2, p ∉ D h)) := by
  have hns : loops.filter good = loops := List.filter_eq_self.2 hg
  unfold assemble
  dsimp only
  rw [hns]
  have hget : ∀ i, (hi : i < loops.length) → loops.getD i [] = loops[i] := fun i hi => by rw [List.getD_eq_getElem?_getD, List.getElem?_eq_getElem hi]; rfl
  have hmem : ∀ i < loops.length, loops.getD i [] ∈ loops := fun i hi => by rw [hget i hi]; exact List.getElem_mem hi
  have hN : Nested loops.length (fun i => |signedArea (loops.getD i [])|) (fun j i => ins (loops.getD j []) (centroid (loops.getD i []))) fun i => D (loops.getD i []) := by
    refine ⟨fun i hi j hj hij => ?_, fun i hi => hne _ (hmem i hi), fun i hi j hj h => harea _ (hmem i hi) _ (hmem j hj) h, fun i hi j hj _ h => hins _ (hmem i hi) _ (hmem j hj) h⟩
    have hp := List.pairwise_iff_getElem.1 hlam
    rw [hget i hi, hget j hj]
    rcases Nat.lt_or_gt_of_ne hij with h | h
    · exact hp i j hi hj h
    · rcases hp j i hj hi h with h | h | h
      · exact .inr (.inl h)
      · exact .inl h
      · exact .inr (.inr h.symm)
  obtain ⟨h1, h2⟩ := region_index hN p
  have hlen : (holding loops.length (fun i => D (loops.getD i [])) p).length = loops.countP fun l => decide (p ∈ D l) := by
    unfold holding
    rw [← List.countP_eq_length_filter]
    conv_rhs => rw [← map_range_getD loops, List.countP_map]
    rfl
  rw [hlen] at h1
  constructor
  · rw [h1]
    constructor
    · rintro ⟨c, hc, hp, hk⟩
      refine ⟨_, List.mem_map.2 ⟨c, hc, rfl⟩, by rw [hD]; exact hp, fun h hh => ?_⟩
      obtain ⟨k, hk', rfl⟩ := List.mem_map.1 hh
      rw [hD]; exact hk k hk'
    · rintro ⟨c, hc, hp, hk⟩
      obtain ⟨x, hx, rfl⟩ := List.mem_map.1 hc
      rw [hD] at hp
      refine ⟨x, hx, hp, fun k hk' hpk => ?_⟩
      exact hk _ (List.mem_map.2 ⟨k, hk', rfl⟩) (by rw [hD]; exact hpk)
  · rw [List.pairwise_map]
    refine h2.imp fun {a b} hab hc => hab ?_
    simp only [hD] at hc
    refine ⟨⟨hc.1.1, fun k hk hpk => ?_⟩, hc.2.1, fun k hk hpk => ?_⟩
    · have := hc.1.2 _ (List.mem_map.2 ⟨k, hk, rfl⟩)
      rw [hD] at this; exact this hpk
    · have := hc.2.2 _ (List.mem_map.2 ⟨k, hk, rfl⟩)
      rw [hD] at this; exact this hpk

end field

end Verif.Loops
