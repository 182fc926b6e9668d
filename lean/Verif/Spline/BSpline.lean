import Verif.Spline.Basis

/-! # B-spline curves (C124, C125) -/

namespace Verif.Spline

open Spec

/-! ## the clamped knot vector -/

theorem clampedKnots_getD (n p i : ℕ) (hn : p + 1 ≤ n) (hi : i < n + p + 1) :
    (clampedKnots n p).getD i 0 = clampedKnot n p i := by
  have hpos : (0 : ℝ) < (n : ℝ) - p := by
    have : ((p + 1 : ℕ) : ℝ) ≤ n := by exact_mod_cast hn
    push_cast at this; linarith
  simp only [clampedKnots, List.getD_eq_getElem?_getD, List.getElem?_map, List.getElem?_range hi, Option.map_some,
    Option.getD_some]
  unfold clampedKnot
  split
  · rename_i h
    have : (i : ℝ) ≤ p := by exact_mod_cast Nat.lt_succ_iff.1 h
    rw [max_eq_left (div_nonpos_of_nonpos_of_nonneg (by linarith) hpos.le)]; simp
  · rename_i h
    have h1 : (p : ℝ) ≤ i := by exact_mod_cast (by omega : p ≤ i)
    rw [max_eq_right (div_nonneg (by linarith) hpos.le)]
    split
    · rename_i h2
      have h3 : (n : ℝ) ≤ i := by exact_mod_cast (by omega : n ≤ i)
      rw [min_eq_left]; rw [le_div_iff₀ hpos]; linarith
    · rename_i h2
      have h3 : (i : ℝ) ≤ n := by exact_mod_cast (by omega : i ≤ n)
      rw [min_eq_right]; rw [div_le_one hpos]; linarith

theorem clampedKnot_mono (n p : ℕ) (hn : p + 1 ≤ n) : Monotone (clampedKnot n p) := by
  have hpos : (0 : ℝ) < (n : ℝ) - p := by
    have : ((p + 1 : ℕ) : ℝ) ≤ n := by exact_mod_cast hn
    push_cast at this; linarith
  intro i j hij
  have : (i : ℝ) ≤ j := by exact_mod_cast hij
  exact min_le_min_left _ (max_le_max_left _ (div_le_div_of_nonneg_right (by linarith) hpos.le))

theorem clampedKnot_lo {n p i : ℕ} (hn : p + 1 ≤ n) (hi : i ≤ p) : clampedKnot n p i = 0 := by
  have hpos : (0 : ℝ) < (n : ℝ) - p := by
    have : ((p + 1 : ℕ) : ℝ) ≤ n := by exact_mod_cast hn
    push_cast at this; linarith
  have : (i : ℝ) ≤ p := by exact_mod_cast hi
  unfold clampedKnot
  rw [max_eq_left (div_nonpos_of_nonpos_of_nonneg (by linarith) hpos.le)]; simp

theorem clampedKnot_hi {n p i : ℕ} (hn : p + 1 ≤ n) (hi : n ≤ i) : clampedKnot n p i = 1 := by
  have hpos : (0 : ℝ) < (n : ℝ) - p := by
    have : ((p + 1 : ℕ) : ℝ) ≤ n := by exact_mod_cast hn
    push_cast at this; linarith
  have : (n : ℝ) ≤ i := by exact_mod_cast hi
  unfold clampedKnot
  rw [min_eq_left]
  exact le_max_of_le_right (by rw [le_div_iff₀ hpos]; linarith)

theorem clampedKnot_mid {n p i : ℕ} (hn : p + 1 ≤ n) (h1 : p ≤ i) (h2 : i ≤ n) :
    clampedKnot n p i = ((i : ℝ) - p) / ((n : ℝ) - p) := by
  have hpos : (0 : ℝ) < (n : ℝ) - p := by
    have : ((p + 1 : ℕ) : ℝ) ≤ n := by exact_mod_cast hn
    push_cast at this; linarith
  have h1 : (p : ℝ) ≤ i := by exact_mod_cast h1
  have h2 : (i : ℝ) ≤ n := by exact_mod_cast h2
  unfold clampedKnot
  rw [max_eq_right (div_nonneg (by linarith) hpos.le), min_eq_right]
  rw [div_le_one hpos]; linarith

/-- different knots are at least one spacing apart -/
theorem clampedKnot_gap {n p : ℕ} (hn : p + 1 ≤ n) (hbig : ((n : ℝ) - p) * 1e-12 < 1) (i j : ℕ)
    (h : clampedKnot n p i < clampedKnot n p j) : clampedKnot n p j - clampedKnot n p i > 1e-12 := by
  have hpos : (0 : ℝ) < (n : ℝ) - p := by
    have : ((p + 1 : ℕ) : ℝ) ≤ n := by exact_mod_cast hn
    push_cast at this; linarith
  have hij : i < j := by
    by_contra hc
    exact absurd (clampedKnot_mono n p hn (not_lt.1 hc)) (not_le.2 h)
  have hi : i < n := by
    by_contra hc
    rw [clampedKnot_hi hn (not_lt.1 hc), clampedKnot_hi hn (by omega)] at h; exact lt_irrefl _ h
  have hj : p < j := by
    by_contra hc
    rw [clampedKnot_lo hn (not_lt.1 hc), clampedKnot_lo hn (by omega)] at h; exact lt_irrefl _ h
  have hi' : clampedKnot n p i = ((max i p : ℕ) - p : ℝ) / ((n : ℝ) - p) := by
    rcases le_total i p with hle | hle
    · rw [clampedKnot_lo hn hle, max_eq_right hle]; simp
    · rw [max_eq_left hle, clampedKnot_mid hn hle hi.le]
  have hj' : clampedKnot n p j = ((min j n : ℕ) - p : ℝ) / ((n : ℝ) - p) := by
    rcases le_total j n with hle | hle
    · rw [min_eq_left hle, clampedKnot_mid hn hj.le hle]
    · rw [clampedKnot_hi hn hle, min_eq_right hle, div_self hpos.ne']
  rw [hi', hj', ← sub_div, gt_iff_lt, lt_div_iff₀ hpos]
  have : max i p + 1 ≤ min j n := by omega
  have : ((max i p : ℕ) : ℝ) + 1 ≤ (min j n : ℕ) := by exact_mod_cast this
  linarith

/-- the weights of the control points of a clamped B-spline of degree `p` at parameter `t` -/
noncomputable def bweights (n p : ℕ) (t : ℝ) (i : ℕ) : ℝ :=
  NN 1e-12 (clampedKnot n p) (bb0 (clampedKnot n p) 1 t) t p i

theorem clampedKnots_length (n p : ℕ) : (clampedKnots n p).length = n + p + 1 := by simp [clampedKnots]

theorem basis_clamped {n p : ℕ} (hn : p + 1 ≤ n) (t : ℝ) {i : ℕ} (hi : i < n) :
    basis p i t (clampedKnots n p) = .ok (bweights n p t i) := by
  rw [basis_eq t (clampedKnots n p) p i (by rw [clampedKnots_length]; omega), bweights]
  have hlast : (clampedKnots n p).getD ((clampedKnots n p).length - 1) 0 = 1 := by
    rw [clampedKnots_length, clampedKnots_getD n p _ hn (by omega), clampedKnot_hi hn (by omega)]
  rw [hlast]
  refine congrArg Except.ok (NN_congr (fun j h1 h2 => clampedKnots_getD n p j hn (by omega)) fun j h1 h2 => ?_)
  unfold bb0
  simp only [clampedKnots_getD n p j hn (by omega), clampedKnots_getD n p (j + 1) hn (by omega)]

theorem bsplinePoint_eq (pts : List P3) (t : ℝ) (p : ℕ) (hn : p + 1 ≤ pts.length) :
    bsplinePoint pts t p false = .ok (combo (bweights pts.length p (clamp01 t)) pts) := by
  rw [bsplinePoint, if_neg (by omega)]
  simp only [Bool.false_eq_true, if_false]
  rw [basisSum_eq (w := bweights pts.length p (clamp01 t)) fun j _ hj => basis_clamped hn _ (by simpa using hj)]
  simp [combo]

theorem bb0_lt {κ : ℕ → ℝ} {z u : ℝ} (h : u < z) : bb0 κ z u = half κ u := by
  funext i
  unfold bb0 half
  split
  · rfl
  · rw [if_neg (by rintro ⟨h1, _⟩; linarith)]

theorem bweights_end {n p : ℕ} (hn : p + 1 ≤ n) (hbig : ((n : ℝ) - p) * 1e-12 < 1) :
    (∀ i, i < n - 1 → bweights n p 1 i = 0) ∧ bweights n p 1 (n - 1) = 1 := by
  have hpos : (0 : ℝ) < (n : ℝ) - p := by
    have : ((p + 1 : ℕ) : ℝ) ≤ n := by exact_mod_cast hn
    push_cast at this; linarith
  have hlt : clampedKnot n p (n - 1) < 1 := by
    rw [clampedKnot_mid hn (by omega) (by omega), div_lt_one hpos]
    have : ((n - 1 : ℕ) : ℝ) = (n : ℝ) - 1 := by rw [Nat.cast_sub (by omega)]; simp
    rw [this]; linarith
  have hg : (1 : ℝ) - clampedKnot n p (n - 1) > 1e-12 := by
    have := clampedKnot_gap hn hbig (n - 1) n (by rwa [clampedKnot_hi hn le_rfl])
    rwa [clampedKnot_hi hn le_rfl] at this
  refine NN_end (by omega) (fun i hi => clampedKnot_hi hn hi) hlt hg (by norm_num) (fun i hi => ?_) ?_ p
  · unfold bb0
    have h1 : clampedKnot n p (i + 1) < 1 := lt_of_le_of_lt (clampedKnot_mono n p hn (by omega)) hlt
    rw [if_neg (by rintro ⟨_, h⟩; linarith), if_neg (by rintro ⟨_, _, h⟩; linarith)]
  · unfold bb0
    rw [show n - 1 + 1 = n by omega, clampedKnot_hi hn le_rfl, if_neg (by simp), if_pos ⟨rfl, hlt.le, le_rfl⟩]

theorem bweights_convex {n p : ℕ} (hn : p + 1 ≤ n) (hbig : ((n : ℝ) - p) * 1e-12 < 1) {t : ℝ} (h0 : 0 ≤ t) (h1 : t ≤ 1) :
    ConvexWeights n (bweights n p t) := by
  rcases lt_or_eq_of_le h1 with hlt | rfl
  · have he : bweights n p t = NN 1e-12 (clampedKnot n p) (half (clampedKnot n p) t) t p := by
      funext i; unfold bweights; rw [bb0_lt hlt]
    rw [he]
    exact ⟨fun i _ => NN_nonneg (by norm_num) (clampedKnot_mono n p hn) p i,
      NN_sum (clampedKnot_mono n p hn) (clampedKnot_gap hn hbig) p (by rwa [clampedKnot_lo hn le_rfl])
        (by rwa [clampedKnot_hi hn le_rfl])⟩
  · obtain ⟨e1, e2⟩ := bweights_end hn hbig
    constructor
    · intro i hi
      rcases lt_or_eq_of_le (Nat.le_sub_one_of_lt hi) with h | h
      · rw [e1 i h]
      · rw [h, e2]; norm_num
    · rw [Finset.sum_eq_single (n - 1), e2]
      · intro i hi hne
        exact e1 i (by have := Finset.mem_range.1 hi; omega)
      · intro h; exact absurd (Finset.mem_range.2 (by omega)) h

/-- **C124.** An open B-spline of degree `p` on `n ≥ p + 1` control points is, at every parameter in the unit interval, a
convex combination of its control points. The weights depend on `n`, `p` and the parameter only, and control point `i` has
weight zero unless the parameter lies between its knots `i` and `i + p + 1` (local control). Fewer control points raise.
The hypothesis excludes curves with more than 10^12 spans, whose knot spacing is below the code's threshold. -/
theorem C124_weights (n p : ℕ) (hn : p + 1 ≤ n) (hbig : ((n : ℝ) - p) * 1e-12 < 1) (t : ℝ) (h0 : 0 ≤ t) (h1 : t ≤ 1) :
    ∃ w, ConvexWeights n w ∧
      (∀ i < n, w i ≠ 0 → clampedKnot n p i ≤ t ∧ t ≤ clampedKnot n p (i + p + 1)) ∧
      ∀ pts : List P3, pts.length = n → bsplinePoint pts t p false = .ok (combo w pts) := by
  refine ⟨bweights n p t, bweights_convex hn hbig h0 h1, fun i hi hw => ?_, fun pts hl => ?_⟩
  · rcases lt_or_eq_of_le h1 with hlt | rfl
    · unfold bweights at hw
      rw [bb0_lt hlt] at hw
      obtain ⟨a, b⟩ := NN_support (clampedKnot_mono n p hn) p i hw
      exact ⟨a, b.le⟩
    · have hi' : i = n - 1 := by
        by_contra hc
        exact hw ((bweights_end hn hbig).1 i (by omega))
      subst hi'
      refine ⟨min_le_left _ _, ?_⟩
      rw [clampedKnot_hi hn (by omega)]
  · rw [bsplinePoint_eq pts t p (by omega), hl, clamp01_id h0 h1]

/-- too few control points raise -/
theorem C124_too_few (pts : List P3) (t : ℝ) (p : ℕ) (closed : Bool) (h : pts.length < p + 1) :
    bsplinePoint pts t p closed = .error .valueError := by
  rw [bsplinePoint, if_pos h]

/-- **C124.** So the curve stays in the convex hull of the control points. -/
theorem C124_hull (pts : List P3) (p : ℕ) (hn : p + 1 ≤ pts.length) (hbig : ((pts.length : ℝ) - p) * 1e-12 < 1) (t : ℝ) :
    ∃ q, bsplinePoint pts t p false = .ok q ∧ q ∈ convexHull ℝ {x : P3 | x ∈ pts} := by
  refine ⟨_, bsplinePoint_eq pts t p hn, ?_⟩
  obtain ⟨h0, h1⟩ := bweights_convex hn hbig (clamp01_mem t).1 (clamp01_mem t).2
  exact combo_hull h0 h1

/-- **C124.** It begins at the first control point and ends at the last. -/
theorem C124_ends (pts : List P3) (p : ℕ) (hn : p + 1 ≤ pts.length) (hbig : ((pts.length : ℝ) - p) * 1e-12 < 1) (t : ℝ) :
    (t ≤ 0 → bsplinePoint pts t p false = .ok (pts.getD 0 0)) ∧
    (1 ≤ t → bsplinePoint pts t p false = .ok (pts.getD (pts.length - 1) 0)) := by
  have hpos : (0 : ℝ) < (pts.length : ℝ) - p := by
    have : ((p + 1 : ℕ) : ℝ) ≤ pts.length := by exact_mod_cast hn
    push_cast at this; linarith
  constructor
  · intro ht
    rw [bsplinePoint_eq pts t p hn, show clamp01 t = 0 by unfold clamp01; rw [min_eq_right (by linarith), max_eq_left ht]]
    have hsp : (0 : ℝ) < clampedKnot pts.length p (p + 1) := by
      rw [clampedKnot_mid hn (by omega) hn]
      refine div_pos ?_ hpos
      push_cast; linarith
    have hone := (bweights_convex hn hbig le_rfl (by norm_num : (0:ℝ) ≤ 1)).sum_one
    have he : bweights pts.length p 0 = NN 1e-12 (clampedKnot pts.length p) (half (clampedKnot pts.length p) 0) 0 p := by
      funext i; unfold bweights; rw [bb0_lt (by norm_num)]
    have hz : ∀ i, i ≠ 0 → i < pts.length → bweights pts.length p 0 i = 0 := fun i h1 h2 => by
      rw [he]; exact NN_start (clampedKnot_mono _ p hn) (fun j hj => clampedKnot_lo hn hj) hsp p le_rfl i (by omega)
    have hl : 0 < pts.length := by omega
    rw [Finset.sum_eq_single 0 (fun i hi h => hz i h (Finset.mem_range.1 hi))
      (fun h => absurd (Finset.mem_range.2 hl) h)] at hone
    congr 1
    unfold combo
    rw [Finset.sum_eq_single 0 (fun i hi h => by rw [hz i h (Finset.mem_range.1 hi), zero_smul])
      (fun h => absurd (Finset.mem_range.2 hl) h), hone, one_smul]
  · intro ht
    rw [bsplinePoint_eq pts t p hn, show clamp01 t = 1 by unfold clamp01; rw [min_eq_left ht]; simp]
    obtain ⟨e1, e2⟩ := bweights_end hn hbig
    congr 1
    unfold combo
    rw [Finset.sum_eq_single (pts.length - 1), e2, one_smul]
    · intro i hi hne
      rw [e1 i (by have := Finset.mem_range.1 hi; omega), zero_smul]
    · intro h; exact absurd (Finset.mem_range.2 (by omega)) h

/-- **C124.** Affine maps of the control points move the curve along. -/
theorem C124_affine (A : P3 →ₗ[ℝ] P3) (d : P3) (pts : List P3) (p : ℕ) (hn : p + 1 ≤ pts.length)
    (hbig : ((pts.length : ℝ) - p) * 1e-12 < 1) (t : ℝ) (q : P3) (h : bsplinePoint pts t p false = .ok q) :
    bsplinePoint (pts.map fun x => A x + d) t p false = .ok (A q + d) := by
  rw [bsplinePoint_eq pts t p hn] at h
  cases h
  rw [bsplinePoint_eq _ t p (by simpa using hn), List.length_map,
    combo_map (bweights_convex hn hbig (clamp01_mem t).1 (clamp01_mem t).2).sum_one]

/-- **C124.** Local control: changing control points whose knot interval does not contain the parameter does not move the
curve's point. -/
theorem C124_local (pts pts' : List P3) (p : ℕ) (hn : p + 1 ≤ pts.length) (hl : pts'.length = pts.length)
    (hbig : ((pts.length : ℝ) - p) * 1e-12 < 1) (t : ℝ) (h0 : 0 ≤ t) (h1 : t ≤ 1)
    (hsame : ∀ i < pts.length, clampedKnot pts.length p i ≤ t → t ≤ clampedKnot pts.length p (i + p + 1) →
      pts'.getD i 0 = pts.getD i 0) :
    bsplinePoint pts' t p false = bsplinePoint pts t p false := by
  obtain ⟨w, _, hs, hp⟩ := C124_weights pts.length p hn hbig t h0 h1
  rw [hp pts rfl, hp pts' hl]
  congr 1
  unfold combo
  rw [hl]
  refine Finset.sum_congr rfl fun i hi => ?_
  have hi := Finset.mem_range.1 hi
  by_cases hw : w i = 0
  · simp [hw]
  · rw [hsame i hi (hs i hi hw).1 (hs i hi hw).2]

/-- a cubic with five control points -/
example : ∃ q, bsplinePoint [(0, 0, 0), (1, 2, 0), (2, 0, 0), (3, 1, 0), (4, 0, 0)] 1 3 false = .ok q ∧ q = (4, 0, 0) := by
  refine ⟨_, (C124_ends _ 3 (by simp) (by norm_num) 1).2 le_rfl, rfl⟩

/-- **C124.** Sampling gives `segments + 1` points on the curve, from the first to the last control point. -/
theorem C124_sampling (pts : List P3) (p : ℕ) (hn : p + 1 ≤ pts.length) (hbig : ((pts.length : ℝ) - p) * 1e-12 < 1)
    (segments : ℕ) (hs : 0 < segments) :
    ∃ ps, bsplineCurve pts p false segments = .ok ps ∧ ps.length = segments + 1 ∧
      (∀ i ≤ segments, ∃ q, ps[i]? = some q ∧ bsplinePoint pts ((i : ℝ) / segments) p false = .ok q) ∧
      ps.head? = some (pts.getD 0 0) ∧ ps.getLast? = some (pts.getD (pts.length - 1) 0) := by
  have hpos : (0 : ℝ) < segments := by exact_mod_cast hs
  have hall := evalAll_eq (f := fun t => bsplinePoint pts t p false)
    (g := fun t => combo (bweights pts.length p (clamp01 t)) pts) (ts := params segments)
    fun t _ => bsplinePoint_eq pts t p hn
  refine ⟨_, by rw [bsplineCurve, if_neg (by omega), hall], by simp [params], ?_, ?_, ?_⟩
  · intro i hi
    exact ⟨_, by simp [params, hi], bsplinePoint_eq pts _ p hn⟩
  · have h0 := (C124_ends pts p hn hbig 0).1 le_rfl
    rw [bsplinePoint_eq pts 0 p hn] at h0
    injection h0 with h0
    simp only [Bool.false_eq_true, if_false, params, List.range_succ_eq_map, List.map_cons, List.head?_cons, Nat.cast_zero,
      zero_div, h0]
  · have h1 := (C124_ends pts p hn hbig 1).2 le_rfl
    rw [bsplinePoint_eq pts 1 p hn] at h1
    injection h1 with h1
    rw [← h1]
    simp [params, List.range_succ, hpos.ne']

/-! ## C125: closed B-splines -/

theorem periodicKnots_length (n p : ℕ) : (periodicKnots n p).length = n + p + 1 := by simp [periodicKnots]

theorem basis0_error {i : ℕ} {u : ℝ} {k : List ℝ} {e : Err} (h : basis0 i u k = .error e) : e = .indexError := by
  unfold basis0 at h
  split at h
  · cases h
  · split at h
    · split at h
      · cases h
      · split at h <;> cases h
    · cases h; rfl

theorem basis_error {k : List ℝ} {u : ℝ} {e : Err} : ∀ {p i : ℕ}, basis p i u k = .error e → e = .indexError
  | 0, i, h => basis0_error h
  | p + 1, i, h => by
    have ht : ∀ c d N, term c d N = .error e → (N = .error e) := by
      intro c d N hh
      unfold term at hh
      split at hh
      · split at hh
        · cases hh
        · rename_i e' ; exact hh
      · cases hh
    simp only [basis] at h
    split at h
    · split at h
      · rename_i e' he'
        cases h
        exact basis_error (ht _ _ _ he')
      · split at h
        · split at h
          · split at h
            · rename_i e' he'
              cases h
              exact basis_error (ht _ _ _ he')
            · cases h
          · cases h; rfl
        · cases h
    · cases h; rfl

theorem basisSum_error {d : ℕ} {u : ℝ} {k : List ℝ} : ∀ {pts : List P3} {i : ℕ} {acc : P3} {j : ℕ}, i ≤ j → j < i + pts.length →
    basis d j u k = .error .indexError → basisSum d u k i acc pts = .error .indexError
  | [], i, acc, j, h1, h2, _ => by simp at h2; omega
  | p :: ps, i, acc, j, h1, h2, h => by
    simp only [basisSum]
    cases hb : basis d i u k with
    | error e => rw [basis_error hb]
    | ok b =>
      have hne : i ≠ j := by rintro rfl; rw [hb] at h; cases h
      exact basisSum_error (by omega) (by simp at h2; omega) h

/-- **C125 (violated).** A closed B-spline of degree two or more cannot be evaluated at all: the knot vector is too short
for the extended list of control points, and every call of `bspline_point` or `bspline_curve` with enough control points
and `closed=True` raises `IndexError`. -/
theorem C125_closed_always_raises (pts : List P3) (t : ℝ) (p : ℕ) (hp : 2 ≤ p) (hn : p + 1 ≤ pts.length) :
    bsplinePoint pts t p true = .error .indexError ∧
    ∀ segments, 0 < segments → bsplineCurve pts p true segments = .error .indexError := by
  have h : ∀ t, bsplinePoint pts t p true = .error .indexError := by
    intro t
    rw [bsplinePoint, if_neg (by omega)]
    simp only [if_true]
    rw [knotAt_ok (by rw [periodicKnots_length]; omega), knotAt_ok (by rw [periodicKnots_length]; omega)]
    refine basisSum_error (j := pts.length + 1) (by omega) (by simp; omega) ?_
    obtain ⟨q, rfl⟩ : ∃ q, p = q + 1 := ⟨p - 1, by omega⟩
    have hk : knotAt (periodicKnots pts.length (q + 1)) (pts.length + 1 + (q + 1)) = .error .indexError := by
      unfold knotAt
      rw [List.getElem?_eq_none (by rw [periodicKnots_length]; omega)]
    simp only [basis, hk]
  refine ⟨h t, fun s hs => ?_⟩
  rw [bsplineCurve, if_neg (by omega)]
  obtain ⟨m, rfl⟩ : ∃ m, s = m + 1 := ⟨s - 1, by omega⟩
  simp [params, List.range_succ_eq_map, evalAll, h]

/-- an ordinary closed cubic: the example in the documentation of `bspline` (geom.py:671-672) -/
example : bsplinePoint [(0, 0, 0), (10, 20, 0), (20, 0, 0), (10, -20, 0)] 0.25 3 true = .error .indexError :=
  (C125_closed_always_raises _ _ 3 (by norm_num) (by simp)).1

/-- **C125 (violated).** A closed curve of degree one is not closed: it starts at the first control point and ends at
another one (here the last of three). -/
theorem C125_degree_one_open :
    bsplinePoint [(0, 0, 0), (1, 0, 0), (0, 1, 0)] 0 1 true = .ok (0, 0, 0) ∧
    bsplinePoint [(0, 0, 0), (1, 0, 0), (0, 1, 0)] 1 1 true = .ok (0, 1, 0) := by
  constructor <;>
  norm_num [bsplinePoint, periodicKnots, List.range_succ, knotAt, basisSum, basis, basis0, term, clamp01]

/-- **C125 (what holds).** Once a curve has been sampled, closing it makes the last sample equal to the first. -/
theorem C125_sampling_closes_partial (pts : List P3) (p segments : ℕ) (ps : List P3)
    (h : bsplineCurve pts p true segments = .ok ps) : ps.getLast? = ps.head? := by
  rw [bsplineCurve] at h
  split at h
  · cases h
  · split at h
    · cases h
    · rename_i qs _
      cases h
      cases qs with
      | nil => rfl
      | cons q r =>
        simp only [if_true, closeLoop]
        rw [List.getLast?_eq_getElem?]
        cases r with
        | nil => simp
        | cons a r => simp

/-- the last theorem is not void: a closed polyline of degree one is sampled -/
example : ∃ ps, bsplineCurve [(0, 0, 0), (1, 0, 0), (0, 1, 0)] 1 true 1 = .ok ps ∧ ps = [(0, 0, 0), (0, 0, 0)] := by
  refine ⟨_, ?_, rfl⟩
  have h0 := C125_degree_one_open.1
  have h1 := C125_degree_one_open.2
  have e : params 1 = [0, 1] := by norm_num [params, List.range_succ]
  rw [bsplineCurve, if_neg (by norm_num), e]
  simp [evalAll, h0, h1, closeLoop]

end Verif.Spline
