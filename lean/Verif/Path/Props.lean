import Verif.Path.Sub
import Mathlib.Topology.Order.OrderClosed

/-!
# C184 – C187: paths for beam segmentation
-/

namespace Verif.Path
open Real

/-! ## C184: evaluation -/

theorem C184_empty (t : ℝ) : evaluate [] t = .error .valueError := rfl

theorem evalSeg_unit {g : Seg} (h : g ≠ .other) (u : ℝ) : ∃ v τ, evalSeg g u = .ok (v, τ) ∧ len τ = 1 := by
  have un : ∀ v, len (normalize v) = 1 := fun v => len_of_sq zero_le_one (by rw [normalize_unit]; norm_num)
  cases g with
  | line s e => exact ⟨_, _, rfl, un _⟩
  | arc c s e n => exact ⟨_, _, rfl, un _⟩
  | other => exact absurd rfl h

/-- the segment and the local parameter -/
theorem evaluate_inner (p : List Seg) {k : ℕ} {g : Seg} (hg : p[k]? = some g) {u : ℝ} (h0 : 0 ≤ u) (h1 : u < 1) :
    evaluate p ((k + u) / p.length) = evalSeg g u := by
  have hk : k < p.length := (List.getElem?_eq_some_iff.mp hg).1
  have hn : 0 < p.length := by omega
  have hnR : (0 : ℝ) < p.length := by exact_mod_cast hn
  have hkR : (k : ℝ) + 1 ≤ p.length := by exact_mod_cast hk
  have lt : ((k : ℝ) + u) / p.length < 1 := (div_lt_one hnR).mpr (by linarith)
  have ge : 0 ≤ ((k : ℝ) + u) / p.length := by positivity
  have fl : ⌊(k : ℝ) + u⌋₊ = k := by
    rw [Nat.floor_eq_iff (by positivity)]
    exact ⟨by linarith, by linarith⟩
  unfold evaluate
  rw [if_neg (by omega)]
  simp only
  rw [clamp_of ge lt.le, if_neg (not_le.mpr lt), if_neg (not_le.mpr lt), div_mul_cancel₀ _ hnR.ne', fl, hg, add_sub_cancel_left]

theorem evaluate_high (p : List Seg) {t : ℝ} (h : 1 ≤ t) {g : Seg} (hg : p.getLast? = some g) : evaluate p t = evalSeg g 1 := by
  unfold evaluate
  have hn : p.length ≠ 0 := by intro e; rw [List.length_eq_zero_iff.mp e] at hg; simp at hg
  rw [if_neg hn]
  simp only
  rw [clamp_high h, if_pos le_rfl, if_pos le_rfl]
  rw [List.getLast?_eq_getElem?] at hg
  rw [hg]

theorem evaluate_one (g : Seg) {t : ℝ} (h0 : 0 ≤ t) (h1 : t ≤ 1) : evaluate [g] t = evalSeg g t := by
  rcases h1.lt_or_eq with h | h
  · have := evaluate_inner [g] (k := 0) rfl h0 h
    simpa using this
  · subst h
    exact evaluate_high [g] le_rfl rfl

/-- Every path of lines and arcs, whatever their numbers, has a point and a unit tangent at every parameter. -/
theorem C184_total {p : List Seg} (hp : p ≠ []) (h : Seg.other ∉ p) (t : ℝ) : ∃ v τ, evaluate p t = .ok (v, τ) ∧ len τ = 1 := by
  have hn : p.length ≠ 0 := fun e => hp (List.length_eq_zero_iff.mp e)
  have hnR : (0 : ℝ) < p.length := by exact_mod_cast Nat.pos_of_ne_zero hn
  have key : ∀ (i : ℕ) (u : ℝ), i < p.length → ∃ v τ, (match p[i]? with
      | none => Except.error Err.indexError
      | some s => evalSeg s u) = .ok (v, τ) ∧ len τ = 1 := by
    intro i u hi
    rw [List.getElem?_eq_getElem hi]
    refine evalSeg_unit ?_ u
    intro e
    exact h (e ▸ List.getElem_mem hi)
  unfold evaluate
  rw [if_neg hn]
  refine key _ _ ?_
  split
  · omega
  · rename_i c
    rw [not_le] at c
    have := mul_lt_mul_of_pos_right c hnR
    rw [one_mul] at this
    exact (Nat.floor_lt (mul_nonneg (clamp_nonneg _) hnR.le)).mpr this

/-- The parameter runs through the segments one after the other, each taking an equal share of it. -/
theorem C184_shares (p : List Seg) {k : ℕ} {g : Seg} (hg : p[k]? = some g) {u : ℝ} (h0 : 0 ≤ u) (h1 : u < 1) :
    evaluate p ((k + u) / p.length) = evaluate [g] u := by
  rw [evaluate_inner p hg h0 h1, evaluate_one g h0 h1.le]

theorem C184_last (p : List Seg) {g : Seg} (hg : p.getLast? = some g) : evaluate p 1 = evaluate [g] 1 := by
  rw [evaluate_high p le_rfl hg, evaluate_high [g] le_rfl (g := g) rfl]

/-- Parameters outside 0 to 1 mean the nearer end. -/
theorem C184_clamped (p : List Seg) (t : ℝ) : (t ≤ 0 → evaluate p t = evaluate p 0) ∧ (1 ≤ t → evaluate p t = evaluate p 1) := by
  constructor
  · intro h; unfold evaluate; rw [clamp_low h, clamp_low le_rfl]
  · intro h; unfold evaluate; rw [clamp_high h, clamp_high le_rfl]

/-- A line is followed with constant velocity from its start to its end; its tangent is its direction. -/
theorem C184_line (s e : Vec) {t : ℝ} (h0 : 0 ≤ t) (h1 : t ≤ 1) : ∃ τ, evaluate [.line s e] t = .ok (add s (scale (sub e s) t), τ) ∧
    (1e-10 ≤ len (sub e s) → scale τ (len (sub e s)) = sub e s) := by
  refine ⟨normalize (sub e s), ?_, normalize_scale⟩
  rw [evaluate_one _ h0 h1]
  show Except.ok (lerp s e t, _) = _
  congr 2
  unfold lerp add scale sub
  ext <;> simp only <;> ring

/-- An arc is followed, with constant angular speed `θ` about its normal, `0 ≤ θ < 2π`, at constant distance from its centre and in
its plane, from its start to its end; the unit tangent is the direction of motion, and the arc's length is its radius times `θ`. -/
theorem C184_arc {c s e : Vec} {n : Option Vec} (h : IsArc c s e (up n)) : ∃ (θ : ℝ) (f τ : ℝ → Vec) (k : Vec),
    0 ≤ θ ∧ θ < 2 * π ∧ dot k k = 1 ∧ scale k (len (up n)) = up n ∧
    (∀ t, 0 ≤ t → t ≤ 1 → evaluate [.arc c s e n] t = .ok (f t, τ t)) ∧
    f 0 = s ∧ f 1 = e ∧
    (∀ t, len (sub (f t) c) = len (sub s c) ∧ dot (up n) (sub (f t) c) = 0) ∧
    (∀ t, HasDerivAt (fun t => (f t).x) (θ * (cross k (sub (f t) c)).x) t ∧
      HasDerivAt (fun t => (f t).y) (θ * (cross k (sub (f t) c)).y) t ∧
      HasDerivAt (fun t => (f t).z) (θ * (cross k (sub (f t) c)).z) t) ∧
    (∀ t, scale (τ t) (len (sub s c)) = cross k (sub (f t) c)) ∧
    pathLength [.arc c s e n] = len (sub s c) * θ := by
  obtain ⟨t0, t1, -⟩ := arc_turn h
  refine ⟨arcAngle c s e (up n), fun t => (evalArc c s e (up n) t).1, fun t => (evalArc c s e (up n) t).2, normalize (up n), t0, t1,
    normalize_unit _, normalize_scale h.normal, fun t a b => evaluate_one _ a b, arc_start h.radius, arc_end h,
    fun t => ⟨arc_radius c s e _ t, arc_plane h t⟩, arc_deriv h, arc_tangent h, ?_⟩
  rw [pathLength_cons, pathLength_nil, add_zero]
  rfl

theorem cont_pt {g : Seg} (h : Proper g) : Continuous (fun x => (pt g x).x) ∧ Continuous (fun x => (pt g x).y) ∧ Continuous (fun x => (pt g x).z) := by
  cases g with
  | line s e =>
    refine ⟨?_, ?_, ?_⟩ <;> simp only [pt, evalLine, lerp] <;> fun_prop
  | arc c s e n =>
    exact ⟨continuous_iff_continuousAt.mpr fun t => (arc_deriv h t).1.continuousAt,
      continuous_iff_continuousAt.mpr fun t => (arc_deriv h t).2.1.continuousAt,
      continuous_iff_continuousAt.mpr fun t => (arc_deriv h t).2.2.continuousAt⟩
  | other => exact h.elim

theorem cont_pos {p : List Seg} (h : ∀ g ∈ p, Proper g) (hj : Joined p) :
    Continuous (fun x => (pos p x).x) ∧ Continuous (fun x => (pos p x).y) ∧ Continuous (fun x => (pos p x).z) := by
  induction p with
  | nil => exact ⟨continuous_const, continuous_const, continuous_const⟩
  | cons g l ih =>
    cases l with
    | nil => exact cont_pt (h g (by simp))
    | cons b l =>
      obtain ⟨a1, a2, a3⟩ := ih (fun x hx => h x (List.mem_cons_of_mem _ hx)) hj.2
      obtain ⟨b1, b2, b3⟩ := cont_pt (h g (by simp))
      have sh : Continuous (fun x : ℝ => x - 1) := by fun_prop
      have e : ∀ x, pos (g :: b :: l) x = if x ≤ 1 then pt g x else pos (b :: l) (x - 1) := by
        intro x
        by_cases c : x ≤ 1
        · rw [if_pos c, pos_low h hj c]
        · rw [if_neg c, pos_high _ _ _ (not_le.mp c).le]
      have m : ∀ x : ℝ, x = 1 → pt g x = pos (b :: l) (x - 1) := by
        rintro x rfl
        rw [← pos_low h hj le_rfl, pos_high _ _ _ le_rfl]
      have g1 : ∀ (c : Vec → ℝ), Continuous (fun x => c (pt g x)) → Continuous (fun x => c (pos (b :: l) x)) →
          Continuous (fun x => c (pos (g :: b :: l) x)) := by
        intro c c1 c2
        have : (fun x => c (pos (g :: b :: l) x)) = fun x => if x ≤ 1 then c (pt g x) else c (pos (b :: l) (x - 1)) := by
          funext x; rw [e]; split <;> rfl
        rw [this]
        exact Continuous.if_le c1 (c2.comp sh) continuous_id continuous_const (fun x hx => by rw [m x hx])
      exact ⟨g1 Vec.x b1 a1, g1 Vec.y b2 a2, g1 Vec.z b3 a3⟩

/-- The point on a joined path depends continuously on the parameter. -/
theorem C184_continuous {p : List Seg} (hp : p ≠ []) (h : ∀ g ∈ p, Proper g) (hj : Joined p) : ∃ f : ℝ → Vec,
    (∀ t, At p t (f t)) ∧ Continuous (fun t => (f t).x) ∧ Continuous (fun t => (f t).y) ∧ Continuous (fun t => (f t).z) := by
  obtain ⟨a, b, c⟩ := cont_pos h hj
  have cl : Continuous (fun t => clamp t * (p.length : ℝ)) := by unfold clamp; fun_prop
  exact ⟨fun t => pos p (clamp t * p.length), fun t => evaluate_pos hp h t, a.comp cl, b.comp cl, c.comp cl⟩

theorem C184_endpoints {p : List Seg} (h : ∀ g ∈ p, Proper g) {a b : Seg} (ha : p.head? = some a) (hb : p.getLast? = some b) :
    At p 0 (ini a) ∧ At p 1 (fin b) := by
  constructor
  · have : p[0]? = some a := by rw [← ha]; cases p <;> rfl
    have := evaluate_inner p this (u := 0) le_rfl one_pos
    rw [Nat.cast_zero, add_zero, zero_div] at this
    have pa := h a (List.mem_of_mem_head? ha)
    obtain ⟨τ, hτ⟩ := evalSeg_pt pa 0
    exact ⟨τ, by rw [this, hτ, pt_zero pa]⟩
  · have pb := h b (List.mem_of_getLast? hb)
    obtain ⟨τ, hτ⟩ := evalSeg_pt pb 1
    exact ⟨τ, by rw [evaluate_high p le_rfl hb, hτ, pt_one pb]⟩

/-- An arc whose ends coincide, meant as a full circle, is a single point: it has length 0 and never leaves its start. -/
theorem C184_full_circle (c s : Vec) (n : Option Vec) (h : IsArc c s s (up n)) : pathLength [.arc c s s n] = 0 ∧
    ∀ t, At [.arc c s s n] t s := by
  have z : arcAngle c s s (up n) = 0 := by
    unfold arcAngle
    simp only
    rw [normalize_unit]
    have : dot (cross (normalize (sub s c)) (normalize (sub s c))) (normalize (up n)) = 0 := by unfold dot cross; ring
    rw [this]
    simp
  constructor
  · rw [pathLength_cons, pathLength_nil, add_zero]
    show _ * arcAngle c s s (up n) = 0
    rw [z, mul_zero]
  · intro t
    obtain ⟨τ, hτ⟩ := evaluate_pos (p := [.arc c s s n]) (by simp) (by simpa [Proper] using h) t
    refine ⟨τ, ?_⟩
    rw [hτ]
    congr 2
    refine Eq.trans ?_ (arc_start (c := c) (s := s) (e := s) (n := up n) h.radius)
    show (evalArc c s s (up n) _).1 = _
    unfold evalArc
    simp only [z, mul_zero]

/-! ## C185: parts of a path -/

theorem clamp_unit {t : ℝ} (h0 : 0 ≤ t) (h1 : t ≤ 1) : clamp t = t := clamp_of h0 h1

/-- The part of a path between two parameters is a joined path of proper segments from the one point to the other, through exactly
the points between. -/
theorem C185_part {p : List Seg} (hp : p ≠ []) (h : ∀ g ∈ p, Proper g) (hj : Joined p) {t0 t1 : ℝ} (h0 : 0 ≤ t0) (h01 : t0 < t1) (h1 : t1 ≤ 1) :
    ∃ q, extract p t0 t1 = .ok q ∧ q ≠ [] ∧ (∀ g ∈ q, Proper g) ∧ Joined q ∧
      (∀ v, At q 0 v ↔ At p t0 v) ∧ (∀ v, At q 1 v ↔ At p t1 v) ∧
      (∀ v, (∃ t, 0 ≤ t ∧ t ≤ 1 ∧ At q t v) ↔ ∃ t, t0 ≤ t ∧ t ≤ t1 ∧ At p t v) := by
  have hn : p.length ≠ 0 := fun e => hp (List.length_eq_zero_iff.mp e)
  have hnR : (0 : ℝ) < p.length := by exact_mod_cast Nat.pos_of_ne_zero hn
  have lt : t0 * p.length < t1 * p.length := mul_lt_mul_of_pos_right h01 hnR
  have S0 : 0 ≤ t0 * p.length := mul_nonneg h0 hnR.le
  have E1 : t1 * p.length ≤ p.length := by have := mul_le_mul_of_nonneg_right h1 hnR.le; linarith
  have P := cut_part hp h hj lt (by linarith) E1
  have ex := extract_eq p h01
  rw [clamp_of h0 (by linarith), clamp_of (by linarith) h1] at ex
  generalize cut (t0 * p.length) (t1 * p.length) p = q at P ex
  obtain ⟨a, a0, a1⟩ := P.first
  obtain ⟨b, b0, b1⟩ := P.last
  rw [max_eq_right S0] at a1
  have hq : q ≠ [] := by rintro rfl; simp at a0
  obtain ⟨⟨τ, e0⟩, ⟨τ', e1⟩⟩ := C184_endpoints P.proper a0 b0
  have atp : ∀ t v, 0 ≤ t → t ≤ 1 → (At p t v ↔ pos p (t * p.length) = v) := by
    intro t v t0 t1
    obtain ⟨σ, hσ⟩ := evaluate_pos hp h t
    rw [clamp_of t0 t1] at hσ
    unfold At
    rw [hσ]
    constructor
    · rintro ⟨ρ, e⟩; simp only [Except.ok.injEq, Prod.mk.injEq] at e; exact e.1
    · rintro rfl; exact ⟨σ, rfl⟩
  have atq : ∀ t v, 0 ≤ t → t ≤ 1 → (At q t v ↔ pos q (t * q.length) = v) := by
    intro t v t0 t1
    obtain ⟨σ, hσ⟩ := evaluate_pos hq P.proper t
    rw [clamp_of t0 t1] at hσ
    unfold At
    rw [hσ]
    constructor
    · rintro ⟨ρ, e⟩; simp only [Except.ok.injEq, Prod.mk.injEq] at e; exact e.1
    · rintro rfl; exact ⟨σ, rfl⟩
  have hqR : (0 : ℝ) < q.length := by
    exact_mod_cast Nat.pos_of_ne_zero (fun e => hq (List.length_eq_zero_iff.mp e))
  refine ⟨q, ex, hq, P.proper, P.joined, fun v => ?_, fun v => ?_, fun v => ?_⟩
  · rw [atp t0 v h0 (by linarith), ← a1]
    unfold At
    rw [e0]
    constructor
    · rintro ⟨ρ, e⟩; simp only [Except.ok.injEq, Prod.mk.injEq] at e; exact e.1
    · rintro rfl; exact ⟨_, rfl⟩
  · rw [atp t1 v (by linarith) h1, ← b1]
    unfold At
    rw [e1]
    constructor
    · rintro ⟨ρ, e⟩; simp only [Except.ok.injEq, Prod.mk.injEq] at e; exact e.1
    · rintro rfl; exact ⟨_, rfl⟩
  · have A := P.points v
    rw [all_points hq P.proper P.joined v, max_eq_right S0] at A
    constructor
    · rintro ⟨t, x0, x1, hx⟩
      rw [atq t v x0 x1] at hx
      have y1 : t * q.length ≤ q.length := by have := mul_le_mul_of_nonneg_right x1 hqR.le; linarith
      obtain ⟨x, c0, c1, hx⟩ := A.mp ⟨t * q.length, mul_nonneg x0 hqR.le, y1, hx⟩
      have d0 : t0 ≤ x / p.length := (le_div_iff₀ hnR).mpr c0
      have d1 : x / p.length ≤ t1 := (div_le_iff₀ hnR).mpr c1
      refine ⟨x / p.length, d0, d1, ?_⟩
      rw [atp _ _ (by linarith) (by linarith), div_mul_cancel₀ _ hnR.ne']
      exact hx
    · rintro ⟨t, x0, x1, hx⟩
      rw [atp t v (by linarith) (by linarith)] at hx
      obtain ⟨x, c0, c1, hx⟩ := A.mpr ⟨t * p.length, mul_le_mul_of_nonneg_right x0 hnR.le, mul_le_mul_of_nonneg_right x1 hnR.le, hx⟩
      have d0 : 0 ≤ x / q.length := div_nonneg c0 hqR.le
      have d1 : x / q.length ≤ 1 := (div_le_one hqR).mpr c1
      refine ⟨x / q.length, d0, d1, ?_⟩
      rw [atq _ _ d0 d1, div_mul_cancel₀ _ hqR.ne']
      exact hx

/-- the segment with its normal written out -/
def explicit : Seg → Seg
  | .arc c s e n => .arc c s e (some (up n))
  | g => g

theorem cut_full {p : List Seg} (h : ∀ g ∈ p, Proper g) {S E : ℝ} (h0 : S ≤ 0) (h1 : p.length ≤ E) : cut S E p = p.map explicit := by
  induction p generalizing S E with
  | nil => rfl
  | cons g l ih =>
    rw [List.length_cons] at h1
    push_cast at h1
    have l0 : (0 : ℝ) ≤ l.length := Nat.cast_nonneg _
    show _ ++ cut (S - 1) (E - 1) l = _
    rw [ih (fun x hx => h x (List.mem_cons_of_mem _ hx)) (by linarith) (by linarith), clamp_low h0, clamp_high (by linarith), if_pos one_pos]
    have pg := h g (by simp)
    cases g with
    | line s e => simp [piece, explicit, lerp_zero, lerp_one]
    | arc c s e n => simp [piece, explicit, arc_start (IsArc.radius pg), arc_end pg]
    | other => exact pg.elim

/-- The whole range gives the path back, with the normals written out. -/
theorem C185_whole {p : List Seg} (h : ∀ g ∈ p, Proper g) : extract p 0 1 = .ok (p.map explicit) := by
  rw [extract_eq p one_pos, clamp_low le_rfl, clamp_high le_rfl, cut_full h (by simp) (by simp)]

/-- Lengths of adjacent parts add up; the whole range has the path's length. -/
theorem C185_length {p : List Seg} (h : ∀ g ∈ p, Proper g) {t0 t1 t2 : ℝ} (h01 : t0 < t1) (h12 : t1 < t2) :
    ∃ a b ab, extract p t0 t1 = .ok a ∧ extract p t1 t2 = .ok b ∧ extract p t0 t2 = .ok ab ∧
      pathLength ab = pathLength a + pathLength b := by
  refine ⟨_, _, _, extract_eq p h01, extract_eq p h12, extract_eq p (h01.trans h12), ?_⟩
  have m : ∀ {x y : ℝ}, x < y → clamp x * p.length ≤ clamp y * p.length := fun hxy =>
    mul_le_mul_of_nonneg_right (clamp_mono hxy.le) (Nat.cast_nonneg _)
  rw [cut_length h (m h01), cut_length h (m h12), cut_length h (m (h01.trans h12))]
  ring

theorem C185_whole_length {p : List Seg} (h : ∀ g ∈ p, Proper g) : ∃ q, extract p 0 1 = .ok q ∧ pathLength q = pathLength p := by
  refine ⟨_, extract_eq p one_pos, ?_⟩
  rw [clamp_low le_rfl, clamp_high le_rfl, one_mul, zero_mul, cut_length h (Nat.cast_nonneg _), upTo_zero p le_rfl, upTo_all p le_rfl, sub_zero]

/-! ## C186: arc length and parameter -/

theorem toLength {p : List Seg} (h : ∀ g ∈ p, Proper g) {t : ℝ} (h0 : 0 < t) (h1 : t ≤ 1) : parameterToLength p t = .ok (upTo (t * p.length) p) := by
  unfold parameterToLength
  rw [extract_eq p h0]
  simp only
  rw [clamp_low le_rfl, clamp_of h0.le h1, zero_mul, cut_length h (mul_nonneg h0.le (Nat.cast_nonneg _)), upTo_zero p le_rfl, sub_zero]

/-- The arc length of a parameter is between 0 and the length of the path, which is that of parameter 1, and grows with the parameter. -/
theorem C186_monotone {p : List Seg} (h : ∀ g ∈ p, Proper g) {t t' : ℝ} (h0 : 0 < t) (htt : t ≤ t') (h1 : t' ≤ 1) :
    ∃ a b, parameterToLength p t = .ok a ∧ parameterToLength p t' = .ok b ∧ 0 ≤ a ∧ a ≤ b ∧ b ≤ pathLength p := by
  refine ⟨_, _, toLength h h0 (htt.trans h1), toLength h (by linarith) h1, ?_, ?_, ?_⟩
  · rw [← upTo_zero p (le_refl (0 : ℝ))]
    exact upTo_mono p h (mul_nonneg h0.le (Nat.cast_nonneg _))
  · exact upTo_mono p h (mul_le_mul_of_nonneg_right htt (Nat.cast_nonneg _))
  · rw [← upTo_all p le_rfl]
    refine upTo_mono p h ?_
    have := mul_le_mul_of_nonneg_right h1 (Nat.cast_nonneg (α := ℝ) p.length)
    linarith

theorem C186_one {p : List Seg} (h : ∀ g ∈ p, Proper g) : parameterToLength p 1 = .ok (pathLength p) := by
  rw [toLength h one_pos le_rfl, one_mul, upTo_all p le_rfl]

theorem C186_range (p : List Seg) (l : ℝ) : 0 ≤ lengthToParameter p l ∧ lengthToParameter p l ≤ 1 := by
  unfold lengthToParameter
  split
  · exact ⟨le_rfl, zero_le_one⟩
  · exact ⟨le_min zero_le_one (le_max_left _ _), min_le_left _ _⟩

/-- When all segments have the same length, the two conversions undo each other. -/
theorem C186_inverse_partial {p : List Seg} (h : ∀ g ∈ p, Proper g) {L : ℝ} (hL : ∀ g ∈ p, segLength g = L) (hpos : 1e-10 ≤ pathLength p) :
    (∀ t, 0 < t → t ≤ 1 → ∃ l, parameterToLength p t = .ok l ∧ lengthToParameter p l = t) ∧
    (∀ l, 0 < l → l ≤ pathLength p → parameterToLength p (lengthToParameter p l) = .ok l) := by
  have pp : 0 < pathLength p := lt_of_lt_of_le (by norm_num) hpos
  have key : ∀ t, 0 < t → t ≤ 1 → parameterToLength p t = .ok (t * pathLength p) := by
    intro t t0 t1
    have n0 : (0 : ℝ) ≤ p.length := Nat.cast_nonneg _
    have n1 : t * p.length ≤ p.length := by have := mul_le_mul_of_nonneg_right t1 n0; linarith
    rw [toLength h t0 t1, upTo_equal p hL (mul_nonneg t0.le n0) n1, pathLength_equal p hL, mul_assoc]
  constructor
  · intro t t0 t1
    refine ⟨_, key t t0 t1, ?_⟩
    unfold lengthToParameter
    rw [if_neg (not_lt.mpr hpos), mul_div_cancel_right₀ _ pp.ne', max_eq_right t0.le, min_eq_right t1]
  · intro l l0 l1
    have e : lengthToParameter p l = l / pathLength p := by
      unfold lengthToParameter
      rw [if_neg (not_lt.mpr hpos), max_eq_right (div_nonneg l0.le pp.le), min_eq_right ((div_le_one pp).mpr l1)]
    rw [e, key _ (div_pos l0 pp) ((div_le_one pp).mpr l1), div_mul_cancel₀ _ pp.ne']

/-- a joined path of lines of lengths 1 and 3 along the x axis -/
def uneven : List Seg := [.line ⟨0, 0, 0⟩ ⟨1, 0, 0⟩, .line ⟨1, 0, 0⟩ ⟨4, 0, 0⟩]

theorem uneven_ok : (∀ g ∈ uneven, Proper g) ∧ Joined uneven := ⟨by simp [uneven, Proper], by simp [uneven, Joined, fin, ini]⟩

theorem uneven_len : segLength (.line ⟨0, 0, 0⟩ ⟨1, 0, 0⟩) = 1 ∧ segLength (.line ⟨1, 0, 0⟩ ⟨4, 0, 0⟩) = 3 ∧ pathLength uneven = 4 := by
  have a : segLength (.line ⟨0, 0, 0⟩ ⟨1, 0, 0⟩) = 1 := len_of_sq zero_le_one (by simp [dot, sub])
  have b : segLength (.line ⟨1, 0, 0⟩ ⟨4, 0, 0⟩) = 3 := len_of_sq (by norm_num) (by norm_num [dot, sub])
  refine ⟨a, b, ?_⟩
  unfold uneven
  rw [pathLength_cons, pathLength_cons, pathLength_nil, a, b]
  norm_num

/-- For unequal segments they do not: halfway along a path of lines of length 1 and 3 the parameter is said to be 1/2, where the
point at that parameter is (1, 0, 0) and the length up to it is 1. -/
theorem C186_not_inverse : lengthToParameter uneven 2 = 1 / 2 ∧ parameterToLength uneven (1 / 2) = .ok 1 ∧ At uneven (1 / 2) ⟨1, 0, 0⟩ := by
  obtain ⟨a, b, c⟩ := uneven_len
  refine ⟨?_, ?_, ?_⟩
  · unfold lengthToParameter
    rw [c]
    norm_num
  · rw [toLength uneven_ok.1 (by norm_num) (by norm_num)]
    congr 1
    show clamp _ * _ + (clamp _ * _ + 0) = _
    rw [a, b]
    unfold uneven clamp
    norm_num
  · have := evaluate_inner uneven (k := 1) (u := 0) rfl le_rfl one_pos
    refine ⟨normalize (sub ⟨4, 0, 0⟩ ⟨1, 0, 0⟩), ?_⟩
    have e : ((1 : ℕ) + (0 : ℝ)) / uneven.length = 1 / 2 := by norm_num [uneven]
    rw [e] at this
    rw [this]
    show Except.ok (lerp _ _ _, _) = _
    rw [lerp_zero]

/-- Parameter 0 has no length: the conversion raises `ValueError`. -/
theorem C186_zero (p : List Seg) : parameterToLength p 0 = .error .valueError := by
  unfold parameterToLength extract
  rw [if_pos le_rfl]

/-! ## C187: errors -/

theorem C187_order_partial (p : List Seg) {t0 t1 : ℝ} : extract p t0 t1 = .error .valueError ↔ t1 ≤ t0 := by
  constructor
  · intro h
    by_contra c
    rw [extract_eq p (not_le.mp c)] at h
    cases h
  · intro h
    unfold extract
    rw [if_pos h]

/-- Parameters out of range are not rejected but clamped. -/
theorem C187_out_of_range (p : List Seg) : extract p (-1) 2 = extract p 0 1 ∧ extract p 1 2 = .ok [] ∧ extract p (-1) 0 = .ok [] := by
  have n1 : ∀ (x : ℝ) (p : List Seg), cut x x p = [] := by
    intro x p
    induction p generalizing x with
    | nil => rfl
    | cons g l ih => show _ ++ cut _ _ l = _; rw [ih, if_neg (lt_irrefl _)]; rfl
  refine ⟨?_, ?_, ?_⟩
  · rw [extract_eq p (by norm_num), extract_eq p one_pos, clamp_low (by norm_num), clamp_low le_rfl, clamp_high (by norm_num), clamp_high le_rfl]
  · rw [extract_eq p (by norm_num), clamp_high (x := 2) (by norm_num), clamp_high le_rfl, n1]
  · rw [extract_eq p (by norm_num), clamp_low (x := -1) (by norm_num), clamp_low le_rfl, n1]

/-- A segment of an unknown type raises `ValueError` when evaluated, but is left out of a part and of the length without a word. -/
theorem C187_unknown (t : ℝ) : evaluate [.other] t = .error .valueError ∧ extract [.other] 0 1 = .ok [] ∧ pathLength [.other] = 0 := by
  refine ⟨?_, ?_, ?_⟩
  · rcases le_total 1 t with h | h
    · exact evaluate_high [.other] h (g := .other) rfl
    · rcases le_total 0 t with h' | h'
      · exact evaluate_one _ h' h
      · rw [(C184_clamped _ t).1 h']; exact evaluate_one _ le_rfl zero_le_one
  · rw [extract_eq _ one_pos]
    congr 1
    show (if _ then _ else _) ++ [] = _
    split <;> rfl
  · rw [pathLength_cons, pathLength_nil, add_zero]; rfl

/-! ## A concrete path: a line and a quarter circle -/

/-- from (0, -1, 0) to (1, -1, 0) ... then a quarter turn about (1, 0, 0) to (2, 0, 0) -/
def bend : List Seg := [.line ⟨0, -1, 0⟩ ⟨1, -1, 0⟩, .arc ⟨1, 0, 0⟩ ⟨1, -1, 0⟩ ⟨2, 0, 0⟩ none]

theorem bend_ok : bend ≠ [] ∧ (∀ g ∈ bend, Proper g) ∧ Joined bend := by
  have l1 : len ⟨0, 0, 1⟩ = 1 := len_of_sq zero_le_one (by norm_num [dot])
  have l2 : len (sub ⟨1, -1, 0⟩ ⟨1, 0, 0⟩) = 1 := len_of_sq zero_le_one (by norm_num [dot, sub])
  have l3 : len (sub ⟨2, 0, 0⟩ ⟨1, 0, 0⟩) = 1 := len_of_sq zero_le_one (by norm_num [dot, sub])
  refine ⟨by simp [bend], ?_, by simp [bend, Joined, fin, ini]⟩
  intro g hg
  simp only [bend, List.mem_cons, List.not_mem_nil, or_false] at hg
  rcases hg with rfl | rfl
  · trivial
  · refine ⟨?_, ?_, ?_, ?_, ?_⟩
    · show _ ≤ len ⟨0, 0, 1⟩; rw [l1]; norm_num
    · rw [l2]; norm_num
    · rw [l2, l3]
    · norm_num [up, dot, sub]
    · norm_num [up, dot, sub]

/-- its length is 1 + π / 2 -/
example : pathLength bend = 1 + π / 2 := by
  have l1 : len ⟨0, 0, 1⟩ = 1 := len_of_sq zero_le_one (by norm_num [dot])
  have l2 : len (sub ⟨1, -1, 0⟩ ⟨1, 0, 0⟩) = 1 := len_of_sq zero_le_one (by norm_num [dot, sub])
  have l3 : len (sub ⟨2, 0, 0⟩ ⟨1, 0, 0⟩) = 1 := len_of_sq zero_le_one (by norm_num [dot, sub])
  have l4 : len (sub ⟨1, -1, 0⟩ ⟨0, -1, 0⟩) = 1 := len_of_sq zero_le_one (by norm_num [dot, sub])
  unfold bend
  rw [pathLength_cons, pathLength_cons, pathLength_nil]
  show len (sub ⟨1, -1, 0⟩ ⟨0, -1, 0⟩) + (len (sub ⟨1, -1, 0⟩ ⟨1, 0, 0⟩) * arcAngle _ _ _ ⟨0, 0, 1⟩ + 0) = _
  rw [l4, l2]
  have : arcAngle ⟨1, 0, 0⟩ ⟨1, -1, 0⟩ ⟨2, 0, 0⟩ ⟨0, 0, 1⟩ = π / 2 := by
    unfold arcAngle
    simp only
    unfold normalize
    rw [l1, l2, l3]
    norm_num [sub, dot, cross]
  rw [this]
  ring

example : ∃ q, extract bend (1 / 4) (3 / 4) = .ok q ∧ q ≠ [] ∧ Joined q := by
  obtain ⟨q, h, a, -, b, -⟩ := C185_part bend_ok.1 bend_ok.2.1 bend_ok.2.2 (t0 := 1 / 4) (t1 := 3 / 4) (by norm_num) (by norm_num) (by norm_num)
  exact ⟨q, h, a, b⟩

end Verif.Path
