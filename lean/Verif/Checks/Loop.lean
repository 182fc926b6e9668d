import Verif.Checks.Model
import Mathlib.Data.List.Chain

/-!
# C190: preparing polygons for triangulation
-/

namespace Verif.Checks
open Verif.Geom Verif.Surf

/-! ## Specification -/

/-- the doubled oriented area between two position vectors -/
def wedge (p q : P2) : ℝ := p.1 * q.2 - q.1 * p.2

/-- the sum of the wedges of neighbours along an open polyline -/
def along : List P2 → ℝ
  | [] => 0
  | [_] => 0
  | p :: q :: l => wedge p q + along (q :: l)

/-- the oriented area of a closed polygon (the shoelace formula): positive for counterclockwise -/
noncomputable def shoelace (l : List P2) : ℝ :=
  match l.head?, l.getLast? with
  | some a, some b => (along l + wedge b a) / 2
  | _, _ => 0

/-! ## The area -/

theorem areaSum_eq (f : P2) (p : P2) (l : List P2) : areaSum f (p :: l) = along (p :: l) + wedge ((p :: l).getLast (by simp)) f := by
  induction l generalizing p with
  | nil => simp [areaSum, along, wedge]
  | cons q l ih =>
    show (p.1 * q.2 - q.1 * p.2) + areaSum f (q :: l) = _
    rw [ih, List.getLast_cons (a := p) (l := q :: l) (by simp)]
    show _ = wedge p q + along (q :: l) + _
    unfold wedge
    ring

theorem signedArea_eq (l : List P2) : signedArea l = shoelace l := by
  cases l with
  | nil => rfl
  | cons p l =>
    have h : (p :: l).getLast? = some ((p :: l).getLast (by simp)) := List.getLast?_eq_getLast_of_ne_nil (by simp)
    simp only [signedArea, shoelace, List.head?_cons, h]
    rw [areaSum_eq]

theorem along_append (l : List P2) (p q : P2) : along (l ++ [p, q]) = along (l ++ [p]) + wedge p q := by
  induction l with
  | nil => simp [along]
  | cons a l ih =>
    cases l with
    | nil => simp [along]
    | cons b l =>
      show wedge a b + along (b :: l ++ [p, q]) = wedge a b + along (b :: l ++ [p]) + wedge p q
      rw [ih]; ring

theorem along_reverse (l : List P2) : along l.reverse = - along l := by
  induction l with
  | nil => simp [along]
  | cons a l ih =>
    cases l with
    | nil => simp [along]
    | cons b l =>
      rw [List.reverse_cons, List.reverse_cons, List.append_assoc]
      show along (l.reverse ++ [b, a]) = _
      rw [along_append, ← List.reverse_cons, ih]
      show _ = -(wedge a b + along (b :: l))
      unfold wedge
      ring

theorem shoelace_reverse (l : List P2) : shoelace l.reverse = - shoelace l := by
  unfold shoelace
  rw [List.head?_reverse, List.getLast?_reverse]
  cases l.head? <;> cases l.getLast? <;> simp only [neg_zero]
  rw [along_reverse]
  unfold wedge
  ring

/-! ## Removing repeated points -/

theorem near_refl (p : P2) : near p p := by
  have : (0 : ℝ) ≤ eps := by unfold eps; norm_num
  simp [near, this]

theorem near_symm {p q : P2} (h : near p q) : near q p := by
  unfold near at *
  rwa [abs_sub_comm, abs_sub_comm q.2]

/-- what the loop has: the list so far, then some of the rest, without repetition -/
theorem dedup_spec (loop ps : List P2) (hc : loop.IsChain fun a b => ¬ near a b) :
    ∃ kept, kept.Sublist ps ∧ dedup loop ps = loop ++ kept ∧ (loop ++ kept).IsChain (fun a b => ¬ near a b) ∧
      (∀ p ∈ ps, ∃ q ∈ loop ++ kept, near q p) := by
  induction ps generalizing loop with
  | nil => exact ⟨[], List.Sublist.slnil, by simp [dedup], by simpa using hc, by simp⟩
  | cons p ps ih =>
    cases hl : loop.getLast? with
    | none =>
      have : loop = [] := List.getLast?_eq_none_iff.mp hl
      subst this
      obtain ⟨k, k1, k2, k3, k4⟩ := ih [p] (List.isChain_singleton _)
      refine ⟨p :: k, k1.cons_cons p, ?_, by simpa using k3, ?_⟩
      · simp only [dedup, List.getLast?_nil]; rw [k2]; rfl
      · intro x hx
        rcases List.mem_cons.mp hx with rfl | hx
        · exact ⟨x, by simp, near_refl x⟩
        · exact k4 x hx
    | some q =>
      by_cases hn : near q p
      · obtain ⟨k, k1, k2, k3, k4⟩ := ih loop hc
        refine ⟨k, k1.cons p, ?_, k3, ?_⟩
        · simp only [dedup, hl]; rw [if_pos hn, k2]
        · intro x hx
          rcases List.mem_cons.mp hx with rfl | hx
          · exact ⟨q, List.mem_append_left _ (List.mem_of_getLast? hl), hn⟩
          · exact k4 x hx
      · have hc' : (loop ++ [p]).IsChain fun a b => ¬ near a b := by
          rw [List.isChain_append]
          refine ⟨hc, List.isChain_singleton _, ?_⟩
          intro x hx y hy
          simp only [List.head?_cons, Option.mem_def, Option.some.injEq] at hy
          rw [hl] at hx
          simp only [Option.mem_def, Option.some.injEq] at hx
          subst hx; subst hy
          exact hn
        obtain ⟨k, k1, k2, k3, k4⟩ := ih (loop ++ [p]) hc'
        refine ⟨p :: k, k1.cons_cons p, ?_, by simpa using k3, ?_⟩
        · simp only [dedup, hl]; rw [if_neg hn, k2]; simp
        · intro x hx
          rcases List.mem_cons.mp hx with rfl | hx
          · exact ⟨x, by simp, near_refl x⟩
          · obtain ⟨y, y1, y2⟩ := k4 x hx
            exact ⟨y, by simpa using y1, y2⟩

theorem dedup_chain (loop ps : List P2) (h : (loop ++ ps).IsChain fun a b => ¬ near a b) : dedup loop ps = loop ++ ps := by
  induction ps generalizing loop with
  | nil => simp [dedup]
  | cons p ps ih =>
    have e : loop ++ p :: ps = (loop ++ [p]) ++ ps := by simp
    have i := ih (loop ++ [p]) (e ▸ h)
    simp only [dedup]
    cases hl : loop.getLast? with
    | none =>
      have : loop = [] := List.getLast?_eq_none_iff.mp hl
      subst this
      exact i
    | some q =>
      have hn : ¬ near q p := by
        rw [List.isChain_append] at h
        exact h.2.2 q hl p (by simp)
      simp only
      rw [if_neg hn, i, e]

theorem dropClosing_cases (l : List P2) : dropClosing l = l ∨
    (∃ a b, l.head? = some a ∧ l.getLast? = some b ∧ near a b ∧ dropClosing l = l.dropLast) := by
  unfold dropClosing
  cases h1 : l.head? with
  | none => exact Or.inl rfl
  | some a =>
    cases h2 : l.getLast? with
    | none => exact Or.inl rfl
    | some b =>
      simp only
      by_cases h : near a b
      · rw [if_pos h]; exact Or.inr ⟨a, b, rfl, rfl, h, rfl⟩
      · rw [if_neg h]; exact Or.inl rfl

theorem cleaned (points : List P2) : ∃ l, dropClosing (dedup [] points) = l ∧ l.Sublist points ∧ l.IsChain (fun a b => ¬ near a b) ∧
    (l ≠ [] → ∀ p ∈ points, ∃ q ∈ l, |q.1 - p.1| ≤ 2 * eps ∧ |q.2 - p.2| ≤ 2 * eps) := by
  have he : (0 : ℝ) ≤ eps := by unfold eps; norm_num
  obtain ⟨k, k1, k2, k3, k4⟩ := dedup_spec [] points (List.isChain_nil)
  rw [List.nil_append] at k2 k3 k4
  refine ⟨_, rfl, ?_⟩
  rw [k2]
  rcases dropClosing_cases k with h | ⟨a, b, h1, h2, hn, h⟩
  · rw [h]
    refine ⟨k1, k3, fun _ p hp => ?_⟩
    obtain ⟨q, q1, q2⟩ := k4 p hp
    exact ⟨q, q1, by linarith [q2.1], by linarith [q2.2]⟩
  · rw [h]
    refine ⟨(List.dropLast_sublist k).trans k1, ?_, fun hne p hp => ?_⟩
    · exact k3.prefix (List.dropLast_prefix k)
    · have kne : k ≠ [] := by rintro rfl; simp at h1
      have ek : k = k.dropLast ++ [b] := by
        have := List.dropLast_append_getLast kne
        rw [List.getLast?_eq_getLast_of_ne_nil kne, Option.some.injEq] at h2
        rw [h2] at this
        exact this.symm
      have ha : a ∈ k.dropLast := by
        cases hd : k.dropLast with
        | nil => exact absurd hd hne
        | cons x r =>
          rw [ek, hd, List.cons_append, List.head?_cons, Option.some.injEq] at h1
          simp [h1]
      obtain ⟨q, q1, q2⟩ := k4 p hp
      rw [ek, List.mem_append, List.mem_singleton] at q1
      rcases q1 with q1 | q1
      · exact ⟨q, q1, by linarith [q2.1], by linarith [q2.2]⟩
      · subst q1
        refine ⟨a, ha, ?_, ?_⟩
        · have := abs_sub_le a.1 q.1 p.1; linarith [q2.1, hn.1]
        · have := abs_sub_le a.2 q.2 p.2; linarith [q2.2, hn.2]

theorem prepare_cases (points : List P2) (w : Bool) :
    prepareLoop points w = dropClosing (dedup [] points) ∨ prepareLoop points w = (dropClosing (dedup [] points)).reverse := by
  unfold prepareLoop
  simp only
  split
  · exact Or.inl rfl
  · split
    · exact Or.inr rfl
    · split
      · exact Or.inr rfl
      · exact Or.inl rfl

/-! ## The properties -/

/-- A prepared loop consists of the given points, in the given order or the reverse of it. -/
theorem C190_points (points : List P2) (w : Bool) : (prepareLoop points w).Sublist points ∨ (prepareLoop points w).reverse.Sublist points := by
  obtain ⟨l, h, h1, -⟩ := cleaned points
  rcases prepare_cases points w with e | e
  · rw [e, h]; exact Or.inl h1
  · rw [e, h, List.reverse_reverse]; exact Or.inr h1

/-- A prepared outer loop is counterclockwise, a prepared hole clockwise, whatever the direction it was given in. -/
theorem C190_direction (points : List P2) : (3 ≤ (prepareLoop points true).length → 0 ≤ shoelace (prepareLoop points true)) ∧
    (3 ≤ (prepareLoop points false).length → shoelace (prepareLoop points false) ≤ 0) := by
  constructor
  · intro h
    unfold prepareLoop at h ⊢
    simp only at h ⊢
    by_cases c : (dropClosing (dedup [] points)).length < 3
    · rw [if_pos c] at h; omega
    · rw [if_neg c]
      by_cases d : signedArea (dropClosing (dedup [] points)) < 0
      · rw [if_pos ⟨trivial, d⟩, shoelace_reverse, ← signedArea_eq]; linarith
      · rw [if_neg (fun x => d x.2), if_neg (fun x => x.1 trivial), ← signedArea_eq]; linarith
  · intro h
    unfold prepareLoop at h ⊢
    simp only at h ⊢
    by_cases c : (dropClosing (dedup [] points)).length < 3
    · rw [if_pos c] at h; omega
    · rw [if_neg c, if_neg (fun x => by simpa using x.1)]
      by_cases d : signedArea (dropClosing (dedup [] points)) > 0
      · rw [if_pos ⟨by simp, d⟩, shoelace_reverse, ← signedArea_eq]; linarith
      · rw [if_neg (fun x => d x.2), ← signedArea_eq]; linarith

/-- Neighbours in a prepared loop are different points, by more than the tolerance in a coordinate. -/
theorem C190_neighbours_partial (points : List P2) (w : Bool) : (prepareLoop points w).IsChain fun a b => eps < |a.1 - b.1| ∨ eps < |a.2 - b.2| := by
  have key : ∀ a b : P2, (¬ near a b) → eps < |a.1 - b.1| ∨ eps < |a.2 - b.2| := by
    intro a b h
    unfold near at h
    rw [not_and_or, not_le, not_le] at h
    exact h
  obtain ⟨l, h, -, h1, -⟩ := cleaned points
  rcases prepare_cases points w with e | e
  · rw [e, h]; exact h1.imp key
  · rw [e, h, List.isChain_reverse]
    refine h1.imp ?_
    intro a b hab
    exact key b a (fun x => hab (near_symm x))

/-- No point is lost: every given point is within twice the tolerance of a point of the loop, unless the loop is empty. -/
theorem C190_nothing_lost (points : List P2) (w : Bool) (hne : prepareLoop points w ≠ []) :
    ∀ p ∈ points, ∃ q ∈ prepareLoop points w, |q.1 - p.1| ≤ 2 * eps ∧ |q.2 - p.2| ≤ 2 * eps := by
  obtain ⟨l, h, -, -, h1⟩ := cleaned points
  rcases prepare_cases points w with e | e
  · rw [e, h] at hne ⊢; exact h1 hne
  · rw [e, h] at hne ⊢
    intro p hp
    obtain ⟨q, q1, q2⟩ := h1 (fun c => hne (by rw [c]; rfl)) p hp
    exact ⟨q, by simpa using q1, q2⟩

/-- a loop closed by two points either side of the first one -/
def twiceClosed : List P2 := [(0, 0), (1, 0), (1, 1), (4e-6, 0), (-4e-6, 0)]

/-- Only one closing point is removed: the last and the first point of a prepared loop can be within the tolerance of each other. -/
theorem C190_closing : prepareLoop twiceClosed true = [(0, 0), (1, 0), (1, 1), (4e-6, 0)] ∧ near (0, 0) (4e-6, 0) := by
  have hd : dedup [] twiceClosed = twiceClosed := by
    refine dedup_chain [] twiceClosed ?_
    norm_num [twiceClosed, near, eps, abs_of_pos]
  have hc : dropClosing twiceClosed = [(0, 0), (1, 0), (1, 1), (4e-6, 0)] := by
    unfold dropClosing twiceClosed
    simp only [List.head?_cons, List.getLast?_cons_cons, List.getLast?_singleton]
    rw [if_pos (by norm_num [near, eps])]
    rfl
  refine ⟨?_, by norm_num [near, eps]⟩
  unfold prepareLoop
  simp only
  rw [hd, hc, if_neg (by simp), if_neg, if_neg (by simp)]
  rintro ⟨-, h⟩
  norm_num [signedArea, areaSum] at h

/-! ## triangulate_polygon -/

theorem gather_mem {pts : List P2} : ∀ {is : List Nat} {ts}, gather pts is = .ok ts → ∀ t ∈ ts, t.1 ∈ pts ∧ t.2.1 ∈ pts ∧ t.2.2 ∈ pts
  | [], ts, h => by simp only [gather, Except.ok.injEq] at h; subst h; simp
  | [_], ts, h => by simp [gather] at h
  | [_, _], ts, h => by simp [gather] at h
  | i :: j :: k :: is, ts, h => by
    simp only [gather] at h
    cases hi : pts[i]? with
    | none => simp [hi] at h
    | some a =>
      cases hj : pts[j]? with
      | none => simp [hi, hj] at h
      | some b =>
        cases hk : pts[k]? with
        | none => simp [hi, hj, hk] at h
        | some c =>
          rw [hi, hj, hk] at h
          dsimp only at h
          cases hg : gather pts is with
          | error e => rw [hg] at h; simp at h
          | ok us =>
            rw [hg] at h
            simp only [Except.ok.injEq] at h
            subst h
            intro t ht
            rcases List.mem_cons.mp ht with rfl | ht
            · exact ⟨List.mem_of_getElem? hi, List.mem_of_getElem? hj, List.mem_of_getElem? hk⟩
            · exact gather_mem hg t ht

/-- Whatever the ear clipping library answers, every corner of every triangle is one of the given points. -/
theorem C190_corners (earcut : List P2 → List Nat → List Nat) (outer : List P2) (holes : List (List P2)) (ts : List (P2 × P2 × P2))
    (h : triangulatePolygon earcut outer holes = .ok ts) :
    ∀ t ∈ ts, ∀ v, v = t.1 ∨ v = t.2.1 ∨ v = t.2.2 → v ∈ outer ∨ ∃ hl ∈ holes, v ∈ hl := by
  have sub : ∀ (pts : List P2) (w : Bool) v, v ∈ prepareLoop pts w → v ∈ pts := by
    intro pts w v hv
    rcases C190_points pts w with s | s
    · exact s.subset hv
    · exact s.subset (by simpa using hv)
  unfold triangulatePolygon at h
  simp only at h
  split at h
  · simp only [Except.ok.injEq] at h; subst h; simp
  · intro t ht v hv
    obtain ⟨a, b, c⟩ := gather_mem h t ht
    have hm : v ∈ (prepareLoop outer true :: holeLoops holes).flatten := by
      rcases hv with rfl | rfl | rfl <;> assumption
    rw [List.mem_flatten] at hm
    obtain ⟨l, hl, hvl⟩ := hm
    rcases List.mem_cons.mp hl with rfl | hl
    · exact Or.inl (sub _ _ _ hvl)
    · unfold holeLoops at hl
      rw [List.mem_filter, List.mem_map] at hl
      obtain ⟨⟨g, g1, rfl⟩, -⟩ := hl
      exact Or.inr ⟨g, g1, sub _ _ _ hvl⟩

/-- The library gets rings of at least three points, the first counterclockwise, the others clockwise, laid out one after the other. -/
theorem C190_rings (earcut : List P2 → List Nat → List Nat) (outer : List P2) (holes : List (List P2)) :
    triangulatePolygon earcut outer holes = .ok [] ∨
    ∃ (o : List P2) (hs : List (List P2)), triangulatePolygon earcut outer holes = gather (o ++ hs.flatten) (earcut (o ++ hs.flatten) (ringEnds 0 (o :: hs))) ∧
      3 ≤ o.length ∧ 0 ≤ shoelace o ∧ ∀ h ∈ hs, 3 ≤ h.length ∧ shoelace h ≤ 0 := by
  unfold triangulatePolygon
  simp only
  split
  · exact Or.inl rfl
  · rename_i c
    refine Or.inr ⟨_, holeLoops holes, rfl, by omega, (C190_direction outer).1 (by omega), ?_⟩
    intro h hh
    unfold holeLoops at hh
    rw [List.mem_filter, List.mem_map] at hh
    obtain ⟨⟨g, g1, rfl⟩, g2⟩ := hh
    rw [decide_eq_true_eq] at g2
    exact ⟨g2, (C190_direction g).2 g2⟩

/-- the ends of the rings: each is the number of points up to and including it -/
theorem C190_ring_ends (ls : List (List P2)) (k : Nat) (hk : k < ls.length) :
    (ringEnds 0 ls)[k]? = some ((ls.take (k + 1)).flatten.length) := by
  have g : ∀ (ls : List (List P2)) (n k : Nat), k < ls.length → (ringEnds n ls)[k]? = some (n + (ls.take (k + 1)).flatten.length) := by
    intro ls
    induction ls with
    | nil => intro n k h; simp at h
    | cons l ls ih =>
      intro n k h
      cases k with
      | zero => simp [ringEnds]
      | succ k =>
        simp only [ringEnds, List.getElem?_cons_succ]
        rw [ih _ _ (by simpa using h)]
        simp
        omega
  simpa using g ls 0 k hk

/-- Fewer than three points give no triangles, and a hole of fewer than three points changes nothing. -/
theorem C190_degenerate (earcut : List P2 → List Nat → List Nat) (outer hole : List P2) (holes : List (List P2)) :
    (outer.length < 3 → triangulatePolygon earcut outer holes = .ok []) ∧
    (hole.length < 3 → triangulatePolygon earcut outer (hole :: holes) = triangulatePolygon earcut outer holes) := by
  have le : ∀ (pts : List P2) (w : Bool), (prepareLoop pts w).length ≤ pts.length := by
    intro pts w
    rcases C190_points pts w with s | s
    · exact s.length_le
    · simpa using s.length_le
  constructor
  · intro h
    unfold triangulatePolygon
    simp only
    rw [if_pos (lt_of_le_of_lt (le _ _) h)]
  · intro h
    have : holeLoops (hole :: holes) = holeLoops holes := by
      unfold holeLoops
      rw [List.map_cons, List.filter_cons_of_neg]
      have := le hole false
      simp
      omega
    unfold triangulatePolygon
    rw [this]

/-- a clockwise square, closed by its first point -/
example : prepareLoop [(0, 0), (0, 1), (1, 1), (1, 0), (0, 0)] true = [(1, 0), (1, 1), (0, 1), (0, 0)] := by
  have hd : dedup [] [((0 : ℝ), (0 : ℝ)), (0, 1), (1, 1), (1, 0), (0, 0)] = [(0, 0), (0, 1), (1, 1), (1, 0), (0, 0)] := by
    refine dedup_chain [] _ ?_
    norm_num [near, eps]
  have hc : dropClosing [((0 : ℝ), (0 : ℝ)), (0, 1), (1, 1), (1, 0), (0, 0)] = [(0, 0), (0, 1), (1, 1), (1, 0)] := by
    unfold dropClosing
    simp only [List.head?_cons, List.getLast?_cons_cons, List.getLast?_singleton]
    rw [if_pos (by norm_num [near, eps])]
    rfl
  unfold prepareLoop
  simp only
  rw [hd, hc, if_neg (by simp), if_pos]
  · rfl
  · exact ⟨trivial, by norm_num [signedArea, areaSum]⟩

end Verif.Checks
