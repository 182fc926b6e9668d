import Verif.Bool3.Area
import Mathlib.Data.Rat.Lemmas
import Mathlib.Tactic.NormNum

/-!
# Cutting polygons by planes: the theorems (C262–C266)
-/

namespace Verif.Bool3
open Verif.Valid (V vsub vadd smul dot cross Box Tri hull)

section field
variable {K : Type} [Field K] [LinearOrder K] [IsStrictOrderedRing K]

theorem within_hull {pl : Plane K} {tol : K} {l : List (V K)} (h : ∀ v ∈ l, Within pl tol v) {x : V K} (hx : InHull l x) : Within pl tol x := by
  unfold Within at h ⊢
  split
  · rename_i hs
    exact hx _ _ fun v hv => by have := h v hv; rwa [if_pos hs] at this
  · rename_i hs
    have e : ∀ y : V K, dot (smul (-1) pl.n) y = -dot pl.n y := fun y => by simp only [dot, smul]; ring
    have := hx (smul (-1) pl.n) (-(pl.d - tol)) fun v hv => by have := h v hv; rw [if_neg hs] at this; rw [e]; linarith
    rw [e] at this; linarith

theorem beyond_hull {pl : Plane K} {tol : K} {l : List (V K)} (h : ∀ v ∈ l, Beyond pl tol v) {x : V K} (hx : InHull l x) : Beyond pl tol x := by
  unfold Beyond at h ⊢
  split
  · rename_i hs
    have e : ∀ y : V K, dot (smul (-1) pl.n) y = -dot pl.n y := fun y => by simp only [dot, smul]; ring
    have := hx (smul (-1) pl.n) (-(pl.d - tol)) fun v hv => by have := h v hv; rw [if_pos hs] at this; rw [e]; linarith
    rw [e] at this; linarith
  · rename_i hs
    exact hx _ _ fun v hv => by have := h v hv; rwa [if_neg hs] at this

/-- `_split_polygon_by_planes`: at most one piece is called inside; it is part of the polygon and on the inner side of every plane to within one and a half
tolerances. Every other piece is part of the polygon and beyond one of the planes. -/
theorem C262_pieces {tol : K} (ht : 0 ≤ tol) (planes : List (Plane K)) (poly : List (V K)) :
    (splitByPlanes tol planes poly).1.length ≤ 1 ∧
      (∀ c ∈ (splitByPlanes tol planes poly).1, ∀ x, InHull c x → InHull poly x ∧ ∀ pl ∈ planes, Within pl (3 / 2 * tol) x) ∧
      ∀ o ∈ (splitByPlanes tol planes poly).2, ∃ pl ∈ planes, ∀ x, InHull o x → InHull poly x ∧ Beyond pl (3 / 2 * tol) x := by
  unfold splitByPlanes
  obtain ⟨h1, h2⟩ := splitAll_parts ht planes [poly]
  refine ⟨splitAll_length planes [poly], fun c hc x hx => ?_, fun o ho => ?_⟩
  · obtain ⟨i, hi, hv⟩ := h1 c hc
    obtain rfl := List.mem_singleton.1 hi
    exact ⟨inHull_trans hx fun y hy => (hv y hy).1, fun pl hpl => within_hull (fun v hvc => (hv v hvc).2 pl hpl) hx⟩
  · obtain ⟨i, hi, pl, hpl, hv⟩ := h2 o ho
    obtain rfl := List.mem_singleton.1 hi
    exact ⟨pl, hpl, fun x hx => ⟨inHull_trans hx fun y hy => (hv y hy).1, beyond_hull (fun v hvc => (hv v hvc).2) hx⟩⟩

/-- `_clip_polygon_against_plane`: what is kept is on the sides of the polygon and on the inner side, and every corner on the inner side has a kept point within two tolerances. -/
theorem C262_clip {pl : Plane K} {tol : K} (ht : 0 ≤ tol) (poly : List (V K)) :
    (∀ v ∈ clip pl tol true poly, (∃ a b, Side poly a b ∧ Between a b v) ∧ Within pl (3 / 2 * tol) v) ∧
      ∀ p ∈ poly, Within pl tol p → ∃ v ∈ clip pl tol true poly, near (2 * tol) p v :=
  ⟨fun _ hv => clip_sound ht hv, fun _ hp h => clip_complete ht hp h⟩

/-! ## triangulation -/

/-- `_triangulate_polygon`: two triangles less than there are corners, made of corners of the polygon in their order, the first corner in each; seen along the reference
normal none runs clockwise, and those of a convex polygon are not turned. -/
theorem C264_fan (n : V K) (l : List (V K)) :
    (fan (some n) l).length = l.length - 2 ∧ (fan none l).length = l.length - 2 ∧
      (∀ t ∈ fan (some n) l, 0 ≤ seen n t) ∧
      (∀ t ∈ fan none l, [t.1, t.2.1, t.2.2].Sublist l ∧ l.head? = some t.1) ∧
      (∀ t ∈ fan (some n) l, t ∈ fan none l ∨ (t.1, t.2.2, t.2.1) ∈ fan none l) ∧
      (ConvexAround n l → fan (some n) l = fan none l) := by
  cases l with
  | nil => simp [fan]
  | cons a l =>
    have hz : ∀ {e : V K × V K} {m : List (V K)}, e ∈ m.zip m.tail → [e.1, e.2].Sublist m := by
      intro e m
      induction m with
      | nil => simp
      | cons b m ih =>
        cases m with
        | nil => simp
        | cons c m =>
          intro h
          rw [List.tail_cons, List.zip_cons_cons, List.mem_cons] at h
          rcases h with rfl | h
          · exact ((List.nil_sublist m).cons_cons _).cons_cons _
          · exact (ih h).cons _
    refine ⟨by simp [fan], by simp [fan], ?_, ?_, ?_, ?_⟩
    · intro t ht
      simp only [fan, List.mem_map] at ht
      obtain ⟨e, -, rfl⟩ := ht
      rw [seen_facing]; exact abs_nonneg _
    · intro t ht
      simp only [fan, List.mem_map, facing] at ht
      obtain ⟨e, he, rfl⟩ := ht
      exact ⟨(hz he).cons_cons _, rfl⟩
    · intro t ht
      simp only [fan, List.mem_map] at ht ⊢
      obtain ⟨e, he, rfl⟩ := ht
      have hf : ∀ s : Tri K, facing (none : Option (V K)) s = s := fun _ => rfl
      unfold facing
      dsimp only
      split
      · exact .inr ⟨e, he, rfl⟩
      · exact .inl ⟨e, he, rfl⟩
    · intro hc
      unfold fan
      refine List.map_congr_left fun e he => ?_
      have := pairwise_zip (List.triplewise_cons.1 hc).1 he
      unfold facing
      dsimp only
      rw [if_neg]
      rw [show dot (cross (vsub e.1 a) (vsub e.2 a)) n = seen n (a, e.1, e.2) by simp only [seen, dot]; ring]
      exact not_lt.2 this

/-! ## unique points -/

theorem unique_spec {tol : K} (ht : 0 ≤ tol) : ∀ (l acc : List (V K)), (acc.Pairwise fun p q => ¬ near tol q p) →
    ((unique tol acc l).Pairwise fun p q => ¬ near tol q p) ∧ (∀ p ∈ acc ++ l, ∃ q ∈ unique tol acc l, near tol p q) ∧ ∃ m, unique tol acc l = acc ++ m ∧ m.Sublist l
  | [], acc, h => by
    rw [unique]
    exact ⟨h, fun p hp => ⟨p, by simpa using hp, near_self ht p⟩, [], by simp, by simp⟩
  | p :: l, acc, h => by
    rw [unique]
    split
    · rename_i hex
      obtain ⟨h1, h2, m, h3, h4⟩ := unique_spec ht l acc h
      refine ⟨h1, fun r hr => ?_, m, h3, h4.cons _⟩
      simp only [List.mem_append, List.mem_cons] at hr
      rcases hr with hr | rfl | hr
      · exact h2 r (by simp [hr])
      · obtain ⟨q, hq, hn⟩ := hex
        exact ⟨q, by rw [h3]; simp [hq], hn⟩
      · exact h2 r (by simp [hr])
    · rename_i hex
      push Not at hex
      obtain ⟨h1, h2, m, h3, h4⟩ := unique_spec ht l (acc ++ [p]) (by
        rw [List.pairwise_append]
        refine ⟨h, by simp, fun a ha b hb => ?_⟩
        obtain rfl := List.mem_singleton.1 hb
        exact hex a ha)
      refine ⟨h1, fun r hr => h2 r (by simpa using hr), p :: m, by rw [h3]; simp, h4.cons_cons _⟩

/-- `_unique_points`: the kept points are some of the points in their order, no two within the tolerance, and every point has one within the tolerance. -/
theorem C265_unique {tol : K} (ht : 0 ≤ tol) (l : List (V K)) :
    (unique tol [] l).Sublist l ∧ ((unique tol [] l).Pairwise fun p q => ¬ near tol q p) ∧ ∀ p ∈ l, ∃ q ∈ unique tol [] l, near tol p q := by
  obtain ⟨h1, h2, m, h3, h4⟩ := unique_spec ht l [] List.Pairwise.nil
  refine ⟨by rw [h3]; exact h4, h1, fun p hp => h2 p (by simpa using hp)⟩

theorem thin_chain (tol : K) : ∀ (l : List (V K)) (q : V K), List.IsChain (fun a b => ¬ near tol b a) (q :: thin tol q l)
  | [], q => by simp [thin]
  | p :: l, q => by
    rw [thin]
    split
    · exact thin_chain tol l q
    · rename_i h
      rw [List.isChain_cons_cons]
      exact ⟨h, thin_chain tol l p⟩

/-- `_dedupe_polygon`: the kept points are some of the points in their order, no two that follow each other are within the tolerance, and every point has one within two tolerances. -/
theorem C265_dedupe {tol : K} (ht : 0 ≤ tol) (l : List (V K)) :
    (dedupe tol l).Sublist l ∧ List.IsChain (fun a b => ¬ near tol b a) (dedupe tol l) ∧ (∀ p ∈ l, ∃ q ∈ dedupe tol l, near (2 * tol) p q) ∧ (dedupe tol l).head? = l.head? := by
  refine ⟨dedupe_sub tol l, ?_, fun p hp => dedupe_covers ht hp, ?_⟩
  · cases l with
    | nil => simp [dedupe]
    | cons p l =>
      rw [dedupe]
      split
      · exact (thin_chain tol l p).prefix (List.dropLast_prefix _)
      · exact thin_chain tol l p
  · cases l with
    | nil => rfl
    | cons p l =>
      rw [dedupe]
      split
      · rename_i h
        cases hth : thin tol p l with
        | nil => have := h.1; rw [hth] at this; simp at this
        | cons b m => simp
      · rfl

/-! ## a solid that is not convex -/

theorem split_whole {pl : Plane K} {tol : K} {poly : List (V K)} (h0 : poly ≠ []) (h : ∀ p ∈ poly, Within pl tol p) : split pl tol poly = (poly, []) := by
  unfold split
  rw [if_neg h0]
  unfold Within at h
  by_cases hs : pl.sense ≤ 0
  · have h' : ∀ p ∈ poly, planeEval pl.n pl.d p ≤ tol := fun p hp => by have := h p hp; rw [if_pos hs] at this; unfold planeEval; linarith
    rw [if_pos ⟨hs, h'⟩]
  · have h' : ∀ p ∈ poly, planeEval pl.n pl.d p ≥ -tol := fun p hp => by have := h p hp; rw [if_neg hs] at this; unfold planeEval; linarith
    rw [if_neg fun h => hs h.1, if_neg fun h => hs h.1, if_pos ⟨hs, h'⟩]

/-- A triangle in a convex solid (the points on the inner side of the planes of all faces) comes back whole. -/
theorem C266_convex_partial {tol : K} (planes : List (Plane K)) (poly : List (V K)) (h0 : poly ≠ []) (h : ∀ p ∈ poly, ∀ pl ∈ planes, Within pl tol p) :
    splitByPlanes tol planes poly = ([poly], []) := by
  unfold splitByPlanes
  induction planes with
  | nil => rfl
  | cons pl planes ih =>
    rw [splitAll]
    have e : splitEach pl tol [poly] = ([poly], []) := by
      simp [splitEach, split_whole h0 fun p hp => h p hp pl (by simp), h0]
    rw [e]
    dsimp only
    rw [ih fun p hp q hq => h p hp q (.tail _ hq)]
    rfl

end field

/-- the outer planes of the L-shaped prism: the square `[0, 2]²` without `[1, 2]²`, from `z = 0` to `z = 1` -/
def ellPlanes : List (Plane ℚ) :=
  [⟨⟨-1, 0, 0⟩, 0, -1⟩, ⟨⟨0, -1, 0⟩, 0, -1⟩, ⟨⟨1, 0, 0⟩, 2, -1⟩, ⟨⟨0, 1, 0⟩, 1, -1⟩, ⟨⟨1, 0, 0⟩, 1, -1⟩, ⟨⟨0, 1, 0⟩, 2, -1⟩, ⟨⟨0, 0, -1⟩, 0, -1⟩, ⟨⟨0, 0, 1⟩, 1, -1⟩]

/-- the interior of the L-shaped prism -/
def InEll (p : V ℚ) : Prop := 0 < p.x ∧ 0 < p.y ∧ 0 < p.z ∧ p.z < 1 ∧ p.x < 2 ∧ p.y < 2 ∧ (p.x < 1 ∨ p.y < 1)

set_option maxRecDepth 100000 in
/-- A triangle inside an L-shaped prism is cut along the extension of one of its faces, and half of it is called outside. -/
theorem C266_ell_cut :
    (∀ p : V ℚ, InHull [⟨1 / 2, 1 / 4, 1 / 2⟩, ⟨3 / 2, 1 / 4, 1 / 2⟩, ⟨1, 3 / 4, 1 / 2⟩] p → InEll p) ∧
      splitByPlanes rayTol ellPlanes [⟨1 / 2, 1 / 4, 1 / 2⟩, ⟨3 / 2, 1 / 4, 1 / 2⟩, ⟨1, 3 / 4, 1 / 2⟩] =
        ([[⟨1 / 2, 1 / 4, 1 / 2⟩, ⟨1, 1 / 4, 1 / 2⟩, ⟨1, 3 / 4, 1 / 2⟩]], [[⟨3 / 2, 1 / 4, 1 / 2⟩, ⟨1, 1 / 4, 1 / 2⟩, ⟨1, 3 / 4, 1 / 2⟩]]) := by
  refine ⟨fun p h => ?_, by decide +kernel⟩
  have h1 := h ⟨-1, 0, 0⟩ (-1 / 2) (by norm_num [dot])
  have h2 := h ⟨1, 0, 0⟩ (3 / 2) (by norm_num [dot])
  have h3 := h ⟨0, -1, 0⟩ (-1 / 4) (by norm_num [dot])
  have h4 := h ⟨0, 1, 0⟩ (3 / 4) (by norm_num [dot])
  have h5 := h ⟨0, 0, -1⟩ (-1 / 2) (by norm_num [dot])
  have h6 := h ⟨0, 0, 1⟩ (1 / 2) (by norm_num [dot])
  simp only [dot] at h1 h2 h3 h4 h5 h6
  refine ⟨by linarith, by linarith, by linarith, by linarith, by linarith, by linarith, .inr (by linarith)⟩

/-! ## the hypotheses are met -/

/-- a square, cut by two planes into one inner and two outer pieces -/
example : splitByPlanes (0 : ℚ) [⟨⟨1, 0, 0⟩, 1, -1⟩, ⟨⟨0, 1, 0⟩, 1, 1⟩] [⟨0, 0, 0⟩, ⟨2, 0, 0⟩, ⟨2, 2, 0⟩, ⟨0, 2, 0⟩] =
    ([[⟨0, 1, 0⟩, ⟨1, 1, 0⟩, ⟨1, 2, 0⟩, ⟨0, 2, 0⟩]], [[⟨1, 2, 0⟩, ⟨2, 2, 0⟩, ⟨2, 0, 0⟩, ⟨1, 0, 0⟩], [⟨1, 1, 0⟩, ⟨1, 0, 0⟩, ⟨0, 0, 0⟩, ⟨0, 1, 0⟩]]) := by
  decide +kernel

example : ConvexAround (⟨0, 0, 1⟩ : V ℚ) [⟨0, 0, 0⟩, ⟨2, 0, 0⟩, ⟨2, 2, 0⟩, ⟨0, 2, 0⟩] ∧ Planar (⟨0, 0, 1⟩ : V ℚ) [⟨0, 0, 0⟩, ⟨2, 0, 0⟩, ⟨2, 2, 0⟩, ⟨0, 2, 0⟩] ∧
    fanArea (⟨0, 0, 1⟩ : V ℚ) [⟨0, 0, 0⟩, ⟨2, 0, 0⟩, ⟨2, 2, 0⟩, ⟨0, 2, 0⟩] = 8 := by
  refine ⟨?_, ⟨0, by simp [dot]⟩, by decide +kernel⟩
  simp only [ConvexAround, List.triplewise_cons, List.pairwise_cons]
  simp [seen, dot, cross, vsub]

/-- the area theorem needs a polygon without reflex corners only because pieces are measured one triangle at a time -/
example : (splitByPlanes (0 : ℚ) [⟨⟨1, 0, 0⟩, 1, -1⟩] [⟨0, 0, 0⟩, ⟨2, 0, 0⟩, ⟨0, 2, 0⟩]).1.map (fanArea ⟨0, 0, 1⟩) = [3] ∧
    (splitByPlanes (0 : ℚ) [⟨⟨1, 0, 0⟩, 1, -1⟩] [⟨0, 0, 0⟩, ⟨2, 0, 0⟩, ⟨0, 2, 0⟩]).2.map (fanArea ⟨0, 0, 1⟩) = [1] := by decide +kernel

example : unique (1 : ℚ) [] [⟨0, 0, 0⟩, ⟨1, 0, 0⟩, ⟨2, 0, 0⟩, ⟨2, 1, 0⟩] = [⟨0, 0, 0⟩, ⟨2, 0, 0⟩] := by decide +kernel
example : dedupe (1 : ℚ) [⟨0, 0, 0⟩, ⟨1, 0, 0⟩, ⟨2, 0, 0⟩, ⟨4, 0, 0⟩, ⟨0, 1, 0⟩] = [⟨0, 0, 0⟩, ⟨2, 0, 0⟩, ⟨4, 0, 0⟩] := by decide +kernel

end Verif.Bool3
