import Verif.Spline.Bezier
import Mathlib.Tactic.IntervalCases

/-! # Catmull-Rom splines (C127-C129) -/

namespace Verif.Spline

open Spec

theorem catmullBlend_eq (a b : P3) (t0 t1 t : ℝ) : catmullBlend a b t0 t1 t =
    if |t1 - t0| < 1e-12 then b else ((t1 - t) / (t1 - t0)) • a + ((t - t0) / (t1 - t0)) • b := by
  unfold catmullBlend
  split
  · rfl
  · ext <;> simp <;> ring

theorem blend_self (a : P3) (t0 t1 t : ℝ) : catmullBlend a a t0 t1 t = a := by
  rw [catmullBlend_eq]
  split
  · rfl
  · rename_i h
    have hne : t1 - t0 ≠ 0 := by intro h0; rw [h0] at h; norm_num at h
    rw [← add_smul, ← add_div, show t1 - t + (t - t0) = t1 - t0 by ring, div_self hne, one_smul]

theorem blend_left {t0 t1 : ℝ} (a b : P3) (h : 1e-12 ≤ t1 - t0) : catmullBlend a b t0 t1 t0 = a := by
  have hp : (0 : ℝ) < t1 - t0 := lt_of_lt_of_le (by norm_num) h
  rw [catmullBlend_eq, if_neg (by rw [abs_of_pos hp]; exact not_lt.2 h), div_self hp.ne']
  simp

theorem blend_right {t0 t1 : ℝ} (a b : P3) : catmullBlend a b t0 t1 t1 = b := by
  rw [catmullBlend_eq]
  split
  · rfl
  · rename_i h
    have hne : t1 - t0 ≠ 0 := by intro h0; rw [h0] at h; norm_num at h
    rw [div_self hne]; simp

theorem catmullAt_zero (v0 v1 v2 v3 : P3) {t1 t2 t3 : ℝ} (h1 : 0 ≤ t1) (h : v1 = v2 ∨ 1e-12 ≤ t2 - t1) :
    catmullAt v0 v1 v2 v3 t1 t2 t3 0 = v1 := by
  unfold catmullAt
  split
  · rename_i hlt
    rcases h with h | h
    · exact h.symm
    · linarith
  · rename_i hge
    have hge : 1e-12 ≤ t2 - t1 := not_lt.1 hge
    simp only [mul_zero, add_zero]
    rw [blend_right, blend_left v1 v2 hge, blend_self, blend_left _ _ hge]

theorem catmullAt_one (v0 v1 v2 v3 : P3) {t1 t2 t3 : ℝ} (h2 : v2 = v3 ∨ 1e-12 ≤ t3 - t2) :
    catmullAt v0 v1 v2 v3 t1 t2 t3 1 = v2 := by
  unfold catmullAt
  split
  · rfl
  · simp only [mul_one, add_sub_cancel]
    rw [blend_right, blend_right]
    have h3 : catmullBlend v2 v3 t2 t3 t2 = v2 := by
      rcases h2 with rfl | h2
      · exact blend_self _ _ _ _
      · exact blend_left _ _ h2
    rw [h3, blend_self]

theorem dist_self (a : P3) : dist a a = 0 := by simp [dist]

theorem dist_eq (a b : P3) : dist a b = distance a b := by
  unfold dist distance
  congr 1; ring

theorem dist_nonneg (a b : P3) : 0 ≤ dist a b := Real.sqrt_nonneg _

theorem power_ok {d alpha : ℝ} (ha : 0 ≤ alpha) : power d alpha = .ok (d ^ alpha) := by
  rw [power, if_neg (by intro h; linarith [h.2])]

/-- the point before span `i` -/
noncomputable def before (c : Catmull) (i : ℕ) : P3 :=
  if c.closed then ctrl c ((i + c.pts.length - 1) % c.pts.length) else ctrl c (i - 1)

/-- parameter step between two points -/
noncomputable def step (c : Catmull) (a b : P3) : ℝ := dist a b ^ c.alpha

theorem step_nonneg (c : Catmull) (a b : P3) : 0 ≤ step c a b := Real.rpow_nonneg (dist_nonneg _ _) _

/-- the value of span `i` -/
noncomputable def spanValue (c : Catmull) (i : ℕ) (tau : ℝ) : P3 :=
  let s := stop c.pts c.closed
  catmullAt (before c i) (s i) (s (i + 1)) (s (i + 2)) (step c (before c i) (s i))
    (step c (before c i) (s i) + step c (s i) (s (i + 1)))
    (step c (before c i) (s i) + step c (s i) (s (i + 1)) + step c (s (i + 1)) (s (i + 2))) tau

theorem spanPoint_eq (c : Catmull) (ha : 0 ≤ c.alpha) {i : ℕ} (hi : i < spans c) (tau : ℝ) :
    spanPoint c i tau = .ok (spanValue c i tau) := by
  unfold spanPoint spanValue catmullPoint before stop ctrl step
  unfold spans at hi
  cases hc : c.closed with
  | true =>
    simp only [hc, if_true] at hi ⊢
    simp only [power_ok ha]
    rfl
  | false =>
    simp only [hc, Bool.false_eq_true, if_false] at hi ⊢
    rw [Nat.mod_eq_of_lt (by omega : i < c.pts.length), min_eq_left (by omega : i ≤ c.pts.length - 1)]
    simp only [power_ok ha]
    rfl

theorem spanValue_zero (c : Catmull) (hs : Spread c.pts c.closed c.alpha) (i : ℕ) :
    spanValue c i 0 = stop c.pts c.closed i := by
  refine catmullAt_zero _ _ _ _ (step_nonneg _ _ _) ?_
  rcases hs i with h | h
  · exact Or.inl h
  · right
    rw [add_sub_cancel_left, step, dist_eq]; exact h

theorem spanValue_one (c : Catmull) (hs : Spread c.pts c.closed c.alpha) (i : ℕ) :
    spanValue c i 1 = stop c.pts c.closed (i + 1) := by
  refine catmullAt_one _ _ _ _ ?_
  rcases hs (i + 1) with h | h
  · exact Or.inl h
  · right
    rw [add_sub_cancel_left, step, dist_eq]; exact h

theorem spans_pos {c : Catmull} (hl : 2 ≤ c.pts.length) : 0 < spans c := by
  unfold spans; split <;> omega

open Classical in
/-- the value of the whole curve -/
noncomputable def value (c : Catmull) (u : ℝ) : P3 :=
  if spans c ≤ ⌊clamp01 u * (spans c : ℝ)⌋₊ then spanValue c (spans c - 1) 1
  else spanValue c ⌊clamp01 u * (spans c : ℝ)⌋₊ (clamp01 u * (spans c : ℝ) - (⌊clamp01 u * (spans c : ℝ)⌋₊ : ℝ))

theorem evaluate_eq (c : Catmull) (ha : 0 ≤ c.alpha) (hl : 2 ≤ c.pts.length) (u : ℝ) :
    evaluateCatmull c u = .ok (value c u) := by
  have hp := spans_pos hl
  unfold evaluateCatmull value
  split
  · rename_i h; rw [h] at hl; simp at hl
  · rename_i h; rw [h] at hl; simp at hl
  · simp only [ge_iff_le]
    split
    · exact spanPoint_eq c ha (by omega) _
    · exact spanPoint_eq c ha (by omega) _

/-- **C127.** Evaluating a Catmull-Rom spline through at least two points, with a non-negative `alpha`, always succeeds. -/
theorem C127_total (c : Catmull) (ha : 0 ≤ c.alpha) (hl : 2 ≤ c.pts.length) (u : ℝ) : ∃ q, evaluateCatmull c u = .ok q :=
  ⟨_, evaluate_eq c ha hl u⟩

/-- the value at the fraction `(i + τ) / spans` -/
theorem value_at (c : Catmull) (hs : Spread c.pts c.closed c.alpha) (hl : 2 ≤ c.pts.length) {i : ℕ} (hi : i < spans c) {τ : ℝ}
    (h0 : 0 ≤ τ) (h1 : τ ≤ 1) : value c (((i : ℝ) + τ) / spans c) = spanValue c i τ := by
  have hp := spans_pos hl
  have hpr : (0 : ℝ) < spans c := by exact_mod_cast hp
  have hir : (i : ℝ) + 1 ≤ spans c := by exact_mod_cast hi
  have hcl : clamp01 (((i : ℝ) + τ) / spans c) * (spans c : ℝ) = i + τ := by
    rw [clamp01_id (by positivity) (by rw [div_le_one hpr]; linarith)]
    field_simp
  unfold value
  rw [hcl]
  rcases eq_or_lt_of_le h1 with rfl | h1
  · have hf : ⌊(i : ℝ) + 1⌋₊ = i + 1 := by
      have : (i : ℝ) + 1 = ((i + 1 : ℕ) : ℝ) := by push_cast; ring
      rw [this, Nat.floor_natCast]
    rw [hf]
    split
    · rw [show spans c - 1 = i by omega]
    · push_cast
      rw [sub_self, spanValue_zero c hs, spanValue_one c hs]
  · have hf : ⌊(i : ℝ) + τ⌋₊ = i := by
      rw [Nat.floor_eq_iff (by positivity)]
      constructor <;> linarith
    rw [hf, if_neg (by omega), add_sub_cancel_left]

/-- **C127.** The spline passes through all its control points, in order and at equal parameter steps; a closed one comes
back to the first. -/
theorem C127_through_partial (c : Catmull) (ha : 0 ≤ c.alpha) (hl : 2 ≤ c.pts.length) (hs : Spread c.pts c.closed c.alpha) (k : ℕ)
    (hk : k ≤ (if c.closed then c.pts.length else c.pts.length - 1)) :
    evaluateCatmull c ((k : ℝ) / ((if c.closed then c.pts.length else c.pts.length - 1 : ℕ) : ℝ)) =
      .ok (stop c.pts c.closed k) := by
  change k ≤ spans c at hk
  change evaluateCatmull c ((k : ℝ) / (spans c : ℝ)) = _
  rw [evaluate_eq c ha hl]
  congr 1
  cases k with
  | zero =>
    have := value_at c hs hl (spans_pos hl) (τ := 0) le_rfl (by norm_num)
    rw [add_zero] at this
    rw [this, spanValue_zero c hs]
  | succ k =>
    have := value_at c hs hl (by omega : k < spans c) (τ := 1) (by norm_num) le_rfl
    rw [spanValue_one c hs] at this
    rw [← this]; push_cast; rfl

theorem allSamples_eq (c : Catmull) (ha : 0 ≤ c.alpha) (segs : ℕ) : ∀ is : List ℕ, (∀ i ∈ is, i < spans c) →
    allSamples c segs is = .ok (is.flatMap fun i => (List.range segs).map fun s : ℕ => spanValue c i (((s : ℝ) + 1) / segs))
  | [], _ => rfl
  | i :: is, h => by
    have h1 : spanSamples c segs i = .ok ((List.range segs).map fun s : ℕ => spanValue c i (((s : ℝ) + 1) / segs)) := by
      rw [spanSamples, evalAll_eq (g := spanValue c i) fun t _ => spanPoint_eq c ha (h i (by simp)) t, List.map_map]
      rfl
    simp only [allSamples, h1, allSamples_eq c ha segs is fun j hj => h j (List.mem_cons_of_mem _ hj), List.flatMap_cons]

theorem flatMap_range_length (f : ℕ → ℕ → P3) (segs : ℕ) : ∀ n, ((List.range n).flatMap fun i => (List.range segs).map (f i)).length = n * segs
  | 0 => by simp
  | n + 1 => by
    rw [List.range_succ, List.flatMap_append, List.length_append, flatMap_range_length f segs n]
    simp [Nat.succ_mul]

theorem flatMap_range_get (f : ℕ → ℕ → P3) (segs : ℕ) : ∀ n i s, i < n → s < segs →
    ((List.range n).flatMap fun i => (List.range segs).map (f i))[i * segs + s]? = some (f i s)
  | 0, i, s, h, _ => by omega
  | n + 1, i, s, h, hs => by
    rw [List.range_succ, List.flatMap_append]
    rcases Nat.lt_succ_iff_lt_or_eq.1 h with hlt | rfl
    · rw [List.getElem?_append_left, flatMap_range_get f segs n i s hlt hs]
      rw [flatMap_range_length]
      calc i * segs + s < i * segs + segs := by omega
        _ = (i + 1) * segs := by ring
        _ ≤ n * segs := Nat.mul_le_mul_right _ hlt
    · rw [List.getElem?_append_right (by rw [flatMap_range_length]; omega), flatMap_range_length]
      simp [hs]

/-- **C127.** `sample_catmullrom` gives `segments_per_span` points for each span and the first control point. Each of them is
the point of the curve at its parameter, and every control point is among them. -/
theorem C127_sampling_partial (c : Catmull) (ha : 0 ≤ c.alpha) (hl : 2 ≤ c.pts.length) (hs : Spread c.pts c.closed c.alpha)
    (segs : ℕ) (hg : 0 < segs) :
    let n := if c.closed then c.pts.length else c.pts.length - 1
    ∃ ps, sampleCatmull c segs = .ok ps ∧ ps.length = n * segs + 1 ∧
      (∀ i < n, ∀ s ≤ segs, ∃ q, ps[i * segs + s]? = some q ∧
        evaluateCatmull c (((i : ℝ) + (s : ℝ) / segs) / (n : ℝ)) = .ok q) ∧
      (∀ k ≤ n, ps[k * segs]? = some (stop c.pts c.closed k)) := by
  intro n
  have hn : n = spans c := rfl
  have hgr : (0 : ℝ) < segs := by exact_mod_cast hg
  have hp := spans_pos hl
  have hall := allSamples_eq c ha segs (List.range (spans c)) (by simp)
  have h0 : ctrl c 0 = stop c.pts c.closed 0 := by unfold ctrl stop; simp; rfl
  have hget : ∀ i < n, ∀ s ≤ segs, (ctrl c 0 :: (List.range (spans c)).flatMap fun i =>
      (List.range segs).map fun s : ℕ => spanValue c i (((s : ℝ) + 1) / segs))[i * segs + s]? =
        some (spanValue c i ((s : ℝ) / segs)) := by
    intro i hi s hs'
    cases s with
    | zero =>
      rw [Nat.cast_zero, zero_div, spanValue_zero c hs]
      cases i with
      | zero => simp [h0]
      | succ i =>
        rw [show (i + 1) * segs + 0 = (i * segs + (segs - 1)) + 1 by
          rw [Nat.succ_mul]; omega, List.getElem?_cons_succ,
          flatMap_range_get (fun i s => spanValue c i (((s : ℝ) + 1) / segs)) segs _ i (segs - 1) (by omega) (by omega)]
        have : ((segs - 1 : ℕ) : ℝ) + 1 = segs := by
          rw [Nat.cast_sub (by omega)]; push_cast; ring
        rw [this, div_self hgr.ne', spanValue_one c hs]
    | succ s =>
      rw [← Nat.add_assoc, List.getElem?_cons_succ,
        flatMap_range_get (fun i s => spanValue c i (((s : ℝ) + 1) / segs)) segs _ i s (by omega) (by omega)]
      push_cast; rfl
  have hle : ∀ s : ℕ, s ≤ segs → 0 ≤ (s : ℝ) / segs ∧ (s : ℝ) / segs ≤ 1 := fun s hs' =>
    ⟨by positivity, by rw [div_le_one hgr]; exact_mod_cast hs'⟩
  refine ⟨ctrl c 0 :: (List.range (spans c)).flatMap fun i =>
      (List.range segs).map fun s : ℕ => spanValue c i (((s : ℝ) + 1) / segs), ?_, ?_, ?_, ?_⟩
  · rw [sampleCatmull, if_neg (by omega), if_neg (by omega), hall]
  · rw [List.length_cons, flatMap_range_length (fun i s => spanValue c i (((s : ℝ) + 1) / segs)), hn]
  · intro i hi s hs'
    refine ⟨_, hget i hi s hs', ?_⟩
    rw [evaluate_eq c ha hl]
    exact congrArg _ (value_at c hs hl hi (hle s hs').1 (hle s hs').2)
  · intro k hk
    cases k with
    | zero =>
      have := hget 0 hp 0 (by omega)
      rw [Nat.cast_zero, zero_div, spanValue_zero c hs] at this
      simpa using this
    | succ k =>
      have := hget k (by omega) segs le_rfl
      rw [div_self hgr.ne', spanValue_one c hs] at this
      rw [Nat.succ_mul]; exact this

/-- three points on an open and a closed curve meet the hypotheses -/
example (closed : Bool) : Spread [(0, 0, 0), (1, 0, 0), (1, 4, 0)] closed 1 := by
  have key : ∀ k, k ≤ 2 → (closed = true ∨ k < 2) →
      1e-12 ≤ distance (stop [(0, 0, 0), (1, 0, 0), (1, 4, 0)] closed k) (stop [(0, 0, 0), (1, 0, 0), (1, 4, 0)] closed (k + 1)) ^ (1:ℝ) := by
    intro k hk hc
    rw [Real.rpow_one]
    refine Real.le_sqrt_of_sq_le ?_
    cases closed
    · have hc : k < 2 := by simpa using hc
      interval_cases k <;> norm_num [stop]
    · interval_cases k <;> norm_num [stop]
  intro k
  cases closed
  · by_cases h : k < 2
    · exact Or.inr (key k (by omega) (Or.inr h))
    · left
      simp only [stop, Bool.false_eq_true, if_false, List.length_cons, List.length_nil]
      rw [min_eq_right (by omega), min_eq_right (by omega)]
  · right
    have h3 : k % 3 < 3 := Nat.mod_lt _ (by norm_num)
    have := key (k % 3) (by omega) (Or.inl rfl)
    simpa [stop, Nat.mod_mod, Nat.add_mod] using this

/-- **C127 (violated).** When two successive points are distinct but closer than the tolerance allows, the curve misses a
control point. With `alpha = 12` a distance of 1/10 is too close: the open curve does not pass through its second point. -/
theorem C127_tolerance_misses :
    evaluateCatmull ⟨[(0, 0, 0), (1, 0, 0), (1, 1/20, 0)], false, 12⟩ (1 / 2) = .ok (1, 1/20, 0) := by
  have h1 : clamp01 (1 / 2) = 1 / 2 := clamp01_id (by norm_num) (by norm_num)
  have hspan : spans ⟨[(0, 0, 0), (1, 0, 0), (1, 1/20, 0)], false, 12⟩ = 2 := by simp [spans]
  have hd : dist (1, 0, 0) (1, 1/20, 0) = 1/20 := by
    rw [dist, Real.sqrt_eq_iff_mul_self_eq (by norm_num) (by norm_num)]; norm_num
  unfold evaluateCatmull
  simp only [h1, hspan]
  rw [show (1:ℝ) / 2 * ((2:ℕ):ℝ) = 1 by norm_num, Nat.floor_one, if_neg (by norm_num)]
  unfold spanPoint catmullPoint
  simp only [Bool.false_eq_true, if_false, List.length_cons, List.length_nil, ctrl, power_ok (by norm_num : (0:ℝ) ≤ 12)]
  norm_num
  unfold catmullAt
  rw [if_pos]
  rw [add_sub_cancel_left]
  rw [hd]; norm_num

/-- **C127 (violated).** A negative `alpha` is accepted by the constructor, but the first point of an open curve cannot be
evaluated. -/
theorem C127_negative_alpha_raises (c : Catmull) (ha : c.alpha < 0) (hl : 2 ≤ c.pts.length) (ho : c.closed = false) :
    evaluateCatmull c 0 = .error .valueError := by
  have hp := spans_pos hl
  unfold evaluateCatmull
  split
  · rename_i h; simp [h] at hl
  · rename_i h; simp [h] at hl
  · have : clamp01 0 = 0 := clamp01_id le_rfl (by norm_num)
    simp only [this, zero_mul, Nat.floor_zero, Nat.cast_zero, sub_zero]
    rw [if_neg (not_le.2 hp)]
    unfold spanPoint catmullPoint
    simp only [ho, Bool.false_eq_true, if_false, Nat.zero_mod, Nat.zero_sub, dist_self]
    rw [show power 0 c.alpha = .error .valueError by rw [power, if_pos ⟨rfl, ha⟩]]

/-! ## C128: rigid motions -/

theorem catmullBlend_map (A : P3 →ₗ[ℝ] P3) (d a b : P3) (t0 t1 t : ℝ) :
    catmullBlend (A a + d) (A b + d) t0 t1 t = A (catmullBlend a b t0 t1 t) + d := by
  rw [catmullBlend_eq, catmullBlend_eq]
  split
  · rfl
  · rename_i h
    have hne : t1 - t0 ≠ 0 := by intro h0; rw [h0] at h; norm_num at h
    have hw : (t1 - t) / (t1 - t0) + (t - t0) / (t1 - t0) = 1 := by
      rw [← add_div, show t1 - t + (t - t0) = t1 - t0 by ring, div_self hne]
    rw [map_add, map_smul, map_smul, smul_add, smul_add]
    have : d = ((t1 - t) / (t1 - t0)) • d + ((t - t0) / (t1 - t0)) • d := by rw [← add_smul, hw, one_smul]
    nth_rewrite 3 [this]
    abel

theorem catmullAt_map (A : P3 →ₗ[ℝ] P3) (d v0 v1 v2 v3 : P3) (t1 t2 t3 tau : ℝ) :
    catmullAt (A v0 + d) (A v1 + d) (A v2 + d) (A v3 + d) t1 t2 t3 tau = A (catmullAt v0 v1 v2 v3 t1 t2 t3 tau) + d := by
  unfold catmullAt
  split
  · rfl
  · simp only [catmullBlend_map]

/-- moving the control points of a spline -/
noncomputable def moved (c : Catmull) (g : P3 → P3) : Catmull := ⟨c.pts.map g, c.closed, c.alpha⟩

theorem ctrl_moved (c : Catmull) (g : P3 → P3) {i : ℕ} (hi : i < c.pts.length) : ctrl (moved c g) i = g (ctrl c i) := by
  simp [ctrl, moved, List.getD_eq_getElem?_getD, List.getElem?_eq_getElem hi]

theorem catmullPoint_map (A : P3 →ₗ[ℝ] P3) (d v0 v1 v2 v3 : P3) (alpha tau : ℝ)
    (hd : alpha = 0 ∨ ∀ a b, distance (A a + d) (A b + d) = distance a b) :
    catmullPoint (A v0 + d) (A v1 + d) (A v2 + d) (A v3 + d) alpha tau =
      match catmullPoint v0 v1 v2 v3 alpha tau with
      | .ok q => .ok (A q + d)
      | .error e => .error e := by
  have hp : ∀ a b, power (dist (A a + d) (A b + d)) alpha = power (dist a b) alpha := by
    intro a b
    rcases hd with rfl | hd
    · simp [power]
    · rw [dist_eq, dist_eq, hd]
  unfold catmullPoint
  rw [hp, hp, hp]
  cases power (dist v0 v1) alpha <;> cases power (dist v1 v2) alpha <;> cases power (dist v2 v3) alpha <;>
    simp only [catmullAt_map]

theorem spanPoint_map (c : Catmull) (A : P3 →ₗ[ℝ] P3) (d : P3) (hl : 2 ≤ c.pts.length)
    (hd : c.alpha = 0 ∨ ∀ a b, distance (A a + d) (A b + d) = distance a b) {i : ℕ} (hi : i < spans c) (tau : ℝ) :
    spanPoint (moved c fun p => A p + d) i tau =
      match spanPoint c i tau with
      | .ok q => .ok (A q + d)
      | .error e => .error e := by
  have hlen : (moved c fun p => A p + d).pts.length = c.pts.length := by simp [moved]
  have hi' : i < c.pts.length := by unfold spans at hi; split at hi <;> omega
  unfold spanPoint
  simp only [hlen]
  change (if c.closed = true then _ else _) = _
  split
  · rw [ctrl_moved _ _ (Nat.mod_lt _ (by omega)), ctrl_moved _ _ (Nat.mod_lt _ (by omega)), ctrl_moved _ _ (Nat.mod_lt _ (by omega)),
      ctrl_moved _ _ (Nat.mod_lt _ (by omega))]
    exact catmullPoint_map A d _ _ _ _ _ _ hd
  · rw [ctrl_moved _ _ (by omega), ctrl_moved _ _ (Nat.mod_lt _ (by omega)), ctrl_moved _ _ (by omega),
      ctrl_moved _ _ (by omega)]
    exact catmullPoint_map A d _ _ _ _ _ _ hd

/-- **C128.** Moving the control points of a Catmull-Rom spline by a distance-preserving affine map (translation, rotation,
reflection) moves the curve by the same map; for `alpha = 0` every affine map does. -/
theorem C128_rigid (pts : List P3) (closed : Bool) (alpha : ℝ) (A : P3 →ₗ[ℝ] P3) (d : P3)
    (hd : alpha = 0 ∨ ∀ a b, distance (A a + d) (A b + d) = distance a b) (u : ℝ) :
    evaluateCatmull ⟨pts.map fun p => A p + d, closed, alpha⟩ u =
      match evaluateCatmull ⟨pts, closed, alpha⟩ u with
      | .ok q => .ok (A q + d)
      | .error e => .error e := by
  unfold evaluateCatmull
  match pts with
  | [] => rfl
  | [p] => rfl
  | p :: q :: r =>
    have hsp : spans ⟨(p :: q :: r).map fun p => A p + d, closed, alpha⟩ = spans ⟨p :: q :: r, closed, alpha⟩ := by
      simp [spans]
    have h2 : 2 ≤ (p :: q :: r).length := by simp
    have hpos := spans_pos (c := ⟨p :: q :: r, closed, alpha⟩) h2
    have hmap : ∀ {i}, i < spans ⟨p :: q :: r, closed, alpha⟩ → ∀ tau, spanPoint ⟨(p :: q :: r).map fun p => A p + d, closed, alpha⟩ i tau = _ :=
      fun hi tau => spanPoint_map ⟨p :: q :: r, closed, alpha⟩ A d h2 hd hi tau
    simp only [List.map_cons] at hsp hmap ⊢
    simp only [hsp]
    split
    · exact hmap (by omega) _
    · exact hmap (by omega) _

/-- translations qualify -/
example (d : P3) : ∀ a b, distance ((LinearMap.id : P3 →ₗ[ℝ] P3) a + d) ((LinearMap.id : P3 →ₗ[ℝ] P3) b + d) = distance a b := by
  intro a b; simp [distance]

end Verif.Spline
