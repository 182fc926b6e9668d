import Verif.Segment.Roles
import Verif.Path.Props
import Mathlib.Tactic.Linarith
import Mathlib.Tactic.FieldSimp

/-!
# C199-C201, C203-C205: connectors, proposed cuts, rings
-/

namespace Verif.Segment
open Verif.Path (Seg Vec pathLength extract evaluate cutPlane parameterToLength lengthToParameter len Proper Joined At segLength upTo cut clamp uneven uneven_len uneven_ok)

variable {σ : Type}

/-! ## C199: profile dimensions -/

/-- **C199.** The connector's cross-section is the void inside the walls less the clearance on every side; it is positive, and where
that is impossible the call raises `ValueError`. -/
theorem C199_profile (W H T f : ℝ) :
    (0 < W - 2 * T ∧ 0 < H - 2 * T ∧ 0 < W - 2 * T - 2 * f ∧ 0 < H - 2 * T - 2 * f →
      connectorProfile W H T f = .ok (W - 2 * T - 2 * f, H - 2 * T - 2 * f)) ∧
    (¬ (0 < W - 2 * T ∧ 0 < H - 2 * T ∧ 0 < W - 2 * T - 2 * f ∧ 0 < H - 2 * T - 2 * f) → connectorProfile W H T f = .error .valueError) := by
  unfold connectorProfile innerProfile offsetProfile
  dsimp only
  constructor
  · rintro ⟨a, b, c, d⟩
    rw [if_neg (by rw [not_or, not_le, not_le]; exact ⟨a, b⟩)]
    dsimp only
    rw [if_neg (by rw [not_or, not_le, not_le]; exact ⟨c, d⟩)]
  · intro h
    by_cases h1 : W - 2 * T ≤ 0 ∨ H - 2 * T ≤ 0
    · rw [if_pos h1]
    · rw [if_neg h1]
      dsimp only
      rw [not_or, not_le, not_le] at h1
      rw [if_pos]
      by_contra h2
      rw [not_or, not_le, not_le] at h2
      exact h ⟨h1.1, h1.2, h2.1, h2.2⟩

/-- A connector is never as large as the void when the clearance is positive: it fits with the clearance on both sides. -/
theorem C199_fits {W H T f w h : ℝ} (hc : connectorProfile W H T f = .ok (w, h)) : 0 < w ∧ 0 < h ∧ w + 2 * f + 2 * T = W ∧ h + 2 * f + 2 * T = H := by
  by_cases hh : 0 < W - 2 * T ∧ 0 < H - 2 * T ∧ 0 < W - 2 * T - 2 * f ∧ 0 < H - 2 * T - 2 * f
  · rw [(C199_profile W H T f).1 hh] at hc
    simp only [Except.ok.injEq, Prod.mk.injEq] at hc
    obtain ⟨rfl, rfl⟩ := hc
    exact ⟨hh.2.2.1, hh.2.2.2, by ring, by ring⟩
  · rw [(C199_profile W H T f).2 hh] at hc; cases hc

example : connectorProfile 10 20 2 (1 / 5) = .ok (28 / 5, 78 / 5) := by
  rw [(C199_profile 10 20 2 (1 / 5)).1 (by norm_num)]; norm_num

/-! ## C200: where the connector lies -/

/-- all segments of the same length `L`, and a length that is not nearly 0 -/
structure Even (p : List Seg) (L : ℝ) : Prop where
  proper : ∀ g ∈ p, Proper g
  same : ∀ g ∈ p, segLength g = L
  long : 1e-10 ≤ pathLength p

theorem Even.pos {p : List Seg} {L : ℝ} (h : Even p L) : 0 < pathLength p := lt_of_lt_of_le (by norm_num) h.long

theorem Even.ne {p : List Seg} {L : ℝ} (h : Even p L) : p ≠ [] := by
  rintro rfl
  have := h.pos
  rw [Verif.Path.pathLength_nil] at this
  exact lt_irrefl _ this

theorem Even.toLength {p : List Seg} {L : ℝ} (h : Even p L) {t : ℝ} (t0 : 0 < t) (t1 : t ≤ 1) : parameterToLength p t = .ok (t * pathLength p) := by
  have n0 : (0 : ℝ) ≤ p.length := Nat.cast_nonneg _
  have n1 : t * p.length ≤ p.length := by have := mul_le_mul_of_nonneg_right t1 n0; linarith
  rw [Verif.Path.toLength h.proper t0 t1, Verif.Path.upTo_equal p h.same (mul_nonneg t0.le n0) n1, Verif.Path.pathLength_equal p h.same, mul_assoc]

theorem Even.part {p : List Seg} {L : ℝ} (h : Even p L) {a b : ℝ} (a0 : 0 ≤ a) (ab : a < b) (b1 : b ≤ 1) :
    ∃ q, extract p a b = .ok q ∧ pathLength q = (b - a) * pathLength p := by
  refine ⟨_, Verif.Path.extract_eq p ab, ?_⟩
  have n0 : (0 : ℝ) ≤ p.length := Nat.cast_nonneg _
  rw [Verif.Path.clamp_of a0 (by linarith), Verif.Path.clamp_of (by linarith) b1, Verif.Path.cut_length h.proper (mul_le_mul_of_nonneg_right ab.le n0),
    Verif.Path.upTo_equal p h.same (mul_nonneg (by linarith) n0) (by have := mul_le_mul_of_nonneg_right b1 n0; linarith),
    Verif.Path.upTo_equal p h.same (mul_nonneg a0 n0) (by have := mul_le_mul_of_nonneg_right (by linarith : a ≤ 1) n0; linarith),
    Verif.Path.pathLength_equal p h.same]
  ring

/-- **C200, the part that holds.** On a spine whose segments have equal lengths the connector is centred on the cut: it is the part of
the spine within half the connector's length, measured along the spine, and is that long unless it reaches an end. -/
theorem C200_centred_partial {p : List Seg} {L : ℝ} (h : Even p L) {t l : ℝ} (t0 : 0 < t) (t1 : t < 1) (l0 : 0 < l) :
    ∃ lo hi q, connectorSpan p t l = .ok (lo, hi) ∧ 0 ≤ lo ∧ lo < t ∧ t < hi ∧ hi ≤ 1 ∧
      lo * pathLength p = max 0 (t * pathLength p - l / 2) ∧ hi * pathLength p = min (pathLength p) (t * pathLength p + l / 2) ∧
      extract p lo hi = .ok q ∧
      (l / 2 ≤ t * pathLength p → t * pathLength p + l / 2 ≤ pathLength p → pathLength q = l) := by
  have pp := h.pos
  have tp : 0 < t * pathLength p := mul_pos t0 pp
  have tl : t * pathLength p < pathLength p := by have := mul_lt_mul_of_pos_right t1 pp; linarith
  have e1 : lengthToParameter p (max 0 (t * pathLength p - l / 2)) = max 0 (t * pathLength p - l / 2) / pathLength p := by
    unfold lengthToParameter
    rw [if_neg (not_lt.mpr h.long), max_eq_right (div_nonneg (le_max_left _ _) pp.le), min_eq_right ((div_le_one pp).mpr (max_le pp.le (by linarith)))]
  have e2 : lengthToParameter p (min (pathLength p) (t * pathLength p + l / 2)) = min (pathLength p) (t * pathLength p + l / 2) / pathLength p := by
    unfold lengthToParameter
    rw [if_neg (not_lt.mpr h.long), max_eq_right (div_nonneg (le_min pp.le (by linarith)) pp.le), min_eq_right ((div_le_one pp).mpr (min_le_left _ _))]
  have hlo : max 0 (t * pathLength p - l / 2) / pathLength p < t := by
    rw [div_lt_iff₀ pp]; exact max_lt tp (by linarith)
  have hhi : t < min (pathLength p) (t * pathLength p + l / 2) / pathLength p := by
    rw [lt_div_iff₀ pp]; exact lt_min tl (by linarith)
  have hlo0 : 0 ≤ max 0 (t * pathLength p - l / 2) / pathLength p := div_nonneg (le_max_left _ _) pp.le
  have hhi1 : min (pathLength p) (t * pathLength p + l / 2) / pathLength p ≤ 1 := (div_le_one pp).mpr (min_le_left _ _)
  obtain ⟨q, q1, q2⟩ := h.part hlo0 (hlo.trans hhi) hhi1
  refine ⟨_, _, q, ?_, hlo0, hlo, hhi, hhi1, div_mul_cancel₀ _ pp.ne', div_mul_cancel₀ _ pp.ne', q1, fun h1 h2 => ?_⟩
  · unfold connectorSpan
    rw [h.toLength t0 t1.le]
    show Except.ok (lengthToParameter p _, lengthToParameter p _) = _
    rw [e1, e2]
  · rw [q2, sub_mul, div_mul_cancel₀ _ pp.ne', div_mul_cancel₀ _ pp.ne', min_eq_right h2, max_eq_right (by linarith)]
    ring

/-- **C200, what does not.** On a spine of two lines of lengths 1 and 3, the connector of length 1 for a cut at parameter 1/2, which is
the point (1, 0, 0), is swept along the line from (1/4, 0, 0) to (3/4, 0, 0): it is half as long as asked and does not reach the cut. -/
theorem C200_misses_cut : At uneven (1 / 2) ⟨1, 0, 0⟩ ∧ connectorSpan uneven (1 / 2) 1 = .ok (1 / 8, 3 / 8) ∧
    extract uneven (1 / 8) (3 / 8) = .ok [.line ⟨1 / 4, 0, 0⟩ ⟨3 / 4, 0, 0⟩] := by
  obtain ⟨_, h2, h3⟩ := Verif.Path.C186_not_inverse
  obtain ⟨a, b, c⟩ := uneven_len
  refine ⟨h3, ?_, ?_⟩
  · unfold connectorSpan
    rw [h2]
    show Except.ok (lengthToParameter uneven _, lengthToParameter uneven _) = _
    unfold lengthToParameter
    rw [c]
    norm_num
  · rw [Verif.Path.extract_eq _ (by norm_num)]
    have n : (uneven.length : ℝ) = 2 := by norm_num [uneven]
    rw [n, Verif.Path.clamp_of (by norm_num) (by norm_num), Verif.Path.clamp_of (by norm_num) (by norm_num)]
    unfold uneven
    unfold cut
    rw [Verif.Path.cut_nil _ (by norm_num), Verif.Path.clamp_of (by norm_num) (by norm_num), Verif.Path.clamp_of (by norm_num) (by norm_num), if_pos (by norm_num)]
    simp only [Verif.Path.piece, Verif.Path.lerp, Option.toList_some, List.append_nil]
    norm_num

/-! ## C201: ids of connectors -/

theorem trunc_nonneg {x : ℝ} (h : 0 ≤ x) : trunc x = ⌊x⌋ := if_pos h

theorem int_repr_inj {a b : ℤ} (ha : 0 ≤ a) (hb : 0 ≤ b) (h : toString a = toString b) : a = b := by
  lift a to ℕ using ha
  lift b to ℕ using hb
  have : toString a = toString b := h
  rw [repr_inj this]

/-- **C201, the part that holds.** Two cuts of an element at least 1/100 of the parameter apart have connectors with different ids. -/
theorem C201_ids_partial (e : String) {s t : ℝ} (W H f g : ℝ) (s0 : 0 ≤ s) (h : s + 1 / 100 ≤ t) :
    (connectorSpec e s W H f).id ≠ (connectorSpec e t W H g).id := by
  intro he
  have h1 : toString (trunc (s * 100)) = toString (trunc (t * 100)) := append_inj he
  rw [trunc_nonneg (by linarith), trunc_nonneg (by linarith)] at h1
  have h2 := int_repr_inj (Int.floor_nonneg.mpr (by linarith)) (Int.floor_nonneg.mpr (by linarith)) h1
  have h3 : ⌊s * 100⌋ + 1 ≤ ⌊t * 100⌋ := by
    rw [Int.le_floor]
    push_cast
    have := Int.floor_le (s * 100)
    linarith
  omega

/-- **C201, what does not.** Cuts that are closer can have connectors with the same id. -/
theorem C201_same_id (e : String) (W H f g : ℝ) : (connectorSpec e (1 / 4) W H f).id = (connectorSpec e (1 / 4 + 1 / 200) W H g).id ∧
    (connectorSpec e (1 / 4) W H f).center ≠ (connectorSpec e (1 / 4 + 1 / 200) W H g).center := by
  constructor
  · show e ++ "_conn_" ++ toString (trunc (1 / 4 * 100)) = e ++ "_conn_" ++ toString (trunc ((1 / 4 + 1 / 200) * 100))
    rw [trunc_nonneg (by norm_num), trunc_nonneg (by norm_num)]
    have h1 : ⌊(1 / 4 : ℝ) * 100⌋ = 25 := by rw [Int.floor_eq_iff]; norm_num
    have h2 : ⌊(1 / 4 + 1 / 200 : ℝ) * 100⌋ = 25 := by rw [Int.floor_eq_iff]; norm_num
    rw [h1, h2]
  · show (1 / 4 : ℝ) ≠ 1 / 4 + 1 / 200
    norm_num

/-! ## C203: proposed cuts -/

theorem collect_ok {α β : Type} (l : List α) (f : α → Except Err β) (g : α → β) (h : ∀ a ∈ l, f a = .ok (g a)) : collect (l.map f) = .ok (l.map g) := by
  induction l with
  | nil => rfl
  | cons a l ih =>
    rw [List.map_cons, h a (by simp)]
    unfold collect
    rw [ih fun b hb => h b (List.mem_cons_of_mem _ hb)]
    rfl

/-- the number of pieces proposed -/
noncomputable def pieces (total limit : ℝ) : ℕ := ⌊total / limit⌋₊ + 1

/-- **C203.** A spine no longer than the limit needs no cut; otherwise, for a positive limit, the call succeeds with cuts of this element at the
parameters `1/n, 2/n, ..., (n-1)/n`, where `n` is one more than the whole number of times the limit fits into the length. -/
theorem C203_even (p : Prov σ) {limit : ℝ} (h0 : 0 < limit) (hl : limit < pathLength p.spine) :
    ∃ cs, optimalCuts p limit = .ok cs ∧ cs.length + 1 = pieces (pathLength p.spine) limit ∧ 2 ≤ pieces (pathLength p.spine) limit ∧
      pathLength p.spine / pieces (pathLength p.spine) limit < limit ∧
      ∀ (k : ℕ) (c : CutPoint), cs[k]? = some c → c.element = p.id ∧ c.parameter = (k + 1 : ℕ) / (pieces (pathLength p.spine) limit : ℝ) ∧
        0 < c.parameter ∧ c.parameter < 1 ∧ c.side = "a" := by
  have L0 : 0 < pathLength p.spine := h0.trans hl
  have hq : 1 < pathLength p.spine / limit := (one_lt_div h0).mpr hl
  have hf : 1 ≤ ⌊pathLength p.spine / limit⌋₊ := by rw [Nat.one_le_floor_iff]; exact hq.le
  have hn2 : 2 ≤ pieces (pathLength p.spine) limit := by unfold pieces; omega
  have hnR : (0 : ℝ) < pieces (pathLength p.spine) limit := by exact_mod_cast (by omega : 0 < pieces (pathLength p.spine) limit)
  have htr : trunc (pathLength p.spine / limit) + 1 = (pieces (pathLength p.spine) limit : ℤ) := by
    rw [trunc_nonneg (by linarith)]
    unfold pieces
    push_cast
    rw [Int.natCast_floor_eq_floor (by linarith)]
  have hlt : pathLength p.spine / pieces (pathLength p.spine) limit < limit := by
    rw [div_lt_iff₀ hnR, mul_comm, ← div_lt_iff₀ h0]
    unfold pieces
    push_cast
    exact Nat.lt_floor_add_one _
  have hpar : ∀ i : ℕ, ((i + 1 : ℕ) : ℝ) * (pathLength p.spine / pieces (pathLength p.spine) limit) / pathLength p.spine = (i + 1 : ℕ) / (pieces (pathLength p.spine) limit : ℝ) := by
    intro i
    rw [mul_div_assoc', div_div, mul_comm (pieces _ _ : ℝ), mul_comm ((i + 1 : ℕ) : ℝ), mul_div_mul_left _ _ L0.ne']
  have hin : ∀ i ∈ List.range (pieces (pathLength p.spine) limit - 1), (0 : ℝ) < (i + 1 : ℕ) / (pieces (pathLength p.spine) limit : ℝ) ∧
      (i + 1 : ℕ) / (pieces (pathLength p.spine) limit : ℝ) < 1 := by
    intro i hi
    rw [List.mem_range] at hi
    refine ⟨div_pos (by positivity) hnR, ?_⟩
    rw [div_lt_one hnR]
    exact_mod_cast (by omega : i + 1 < pieces (pathLength p.spine) limit)
  refine ⟨(List.range (pieces (pathLength p.spine) limit - 1)).map fun i : ℕ => ⟨p.id, (i + 1 : ℕ) / (pieces (pathLength p.spine) limit : ℝ), none, press, "a"⟩, ?_, ?_, hn2, hlt, ?_⟩
  · unfold optimalCuts
    dsimp only
    rw [if_neg (not_le.mpr hl), if_neg h0.ne', htr, if_neg (by omega), Int.toNat_natCast]
    refine collect_ok _ _ _ fun i hi => ?_
    rw [Int.cast_natCast, hpar i]
    exact (C197_cut_point p.id _ none press "a").1 ⟨(hin i hi).1, (hin i hi).2, .inl rfl⟩
  · rw [List.length_map, List.length_range]; omega
  · intro k c hk
    rw [List.getElem?_map, Option.map_eq_some_iff] at hk
    obtain ⟨i, hi, rfl⟩ := hk
    obtain ⟨hlen, hget⟩ := List.getElem?_eq_some_iff.mp hi
    rw [List.getElem_range] at hget
    subst hget
    exact ⟨rfl, rfl, (hin _ (List.mem_of_getElem? hi)).1, (hin _ (List.mem_of_getElem? hi)).2, rfl⟩

theorem C203_none (p : Prov σ) {limit : ℝ} (h : pathLength p.spine ≤ limit) : optimalCuts p limit = .ok [] := if_pos h

/-- A limit of 0 divides by zero. -/
theorem C203_zero (p : Prov σ) (h : 0 < pathLength p.spine) : optimalCuts p 0 = .error .zeroDivision := by
  unfold optimalCuts
  dsimp only
  rw [if_neg (not_le.mpr h), if_pos rfl]

/-- **C203, the part of the length limit that holds.** On a spine whose segments have equal lengths, every piece between two neighbouring
cuts (or a cut and an end) is shorter than the limit, measured along the spine. -/
theorem C203_limit_partial (p : Prov σ) {limit L : ℝ} (he : Even p.spine L) (h0 : 0 < limit) (hl : limit < pathLength p.spine) :
    ∃ cs, optimalCuts p limit = .ok cs ∧ ∀ r ∈ ranges (0 :: cs.map (·.parameter) ++ [1]),
      ∃ q, extract p.spine r.1 r.2 = .ok q ∧ pathLength q < limit := by
  obtain ⟨cs, h1, h2, h3, h4, h5⟩ := C203_even p h0 hl
  refine ⟨cs, h1, ?_⟩
  set n := pieces (pathLength p.spine) limit with hn
  have hnR : (0 : ℝ) < n := by exact_mod_cast (by omega : 0 < n)
  have hl : (0 :: cs.map (·.parameter) ++ [1] : List ℝ) = (List.range (n + 1)).map fun i : ℕ => (i : ℝ) / n := by
    refine List.ext_getElem? fun k => ?_
    rw [List.getElem?_map]
    rcases Nat.lt_or_ge k (n + 1) with hk | hk
    · rw [List.getElem?_range hk]
      rcases k with _ | k
      · simp
      · rw [List.cons_append, List.getElem?_cons_succ]
        rcases Nat.lt_or_ge k cs.length with hkc | hkc
        · rw [List.getElem?_append_left (by simpa using hkc), List.getElem?_map, List.getElem?_eq_getElem hkc]
          have := (h5 k cs[k] (List.getElem?_eq_getElem hkc)).2.1
          simp only [Option.map_some]
          rw [this]
        · have hk' : k = cs.length := by omega
          rw [List.getElem?_append_right (by simpa using hkc), List.length_map, hk', Nat.sub_self]
          simp only [List.getElem?_cons_zero, Option.map_some]
          rw [h2, div_self hnR.ne']
    · rw [List.getElem?_eq_none (by simp; omega), List.getElem?_eq_none (by simp; omega)]
      rfl
  rw [hl]
  intro r hr
  unfold ranges at hr
  obtain ⟨k, hk⟩ := List.mem_iff_getElem?.mp hr
  rw [List.getElem?_zip_eq_some, List.getElem?_map, Option.map_eq_some_iff, List.getElem?_tail, List.getElem?_map, Option.map_eq_some_iff] at hk
  obtain ⟨⟨i, hi, hi'⟩, j, hj, hj'⟩ := hk
  obtain ⟨li, ei⟩ := List.getElem?_eq_some_iff.mp hi
  obtain ⟨lj, ej⟩ := List.getElem?_eq_some_iff.mp hj
  rw [List.getElem_range] at ei ej
  rw [List.length_range] at li lj
  subst ei; subst ej
  obtain ⟨q, q1, q2⟩ := he.part (a := r.1) (b := r.2) (by rw [← hi']; positivity) (by
      rw [← hi', ← hj']; exact div_lt_div_of_pos_right (by push_cast; linarith) hnR) (by
      rw [← hj', div_le_one hnR]; exact_mod_cast (by omega : k + 1 ≤ n))
  refine ⟨q, q1, ?_⟩
  rw [q2, ← hi', ← hj', ← sub_div]
  have : ((k + 1 : ℕ) : ℝ) - (k : ℝ) = 1 := by push_cast; ring
  rw [this, one_div, inv_mul_eq_div]
  exact h4

/-- **C203, what does not.** For a spine of two lines of lengths 1 and 3 and the limit 5/2, the one cut proposed leaves a piece of length 3. -/
theorem C203_too_long (p : Prov σ) (hp : p.spine = uneven) : ∃ c q, optimalCuts p (5 / 2) = .ok [c] ∧ c.parameter = 1 / 2 ∧
    extract p.spine c.parameter 1 = .ok q ∧ pathLength q = 3 := by
  obtain ⟨a, b, c⟩ := uneven_len
  have hL : pathLength p.spine = 4 := by rw [hp, c]
  obtain ⟨cs, h1, h2, h3, h4, h5⟩ := C203_even p (limit := 5 / 2) (by norm_num) (by rw [hL]; norm_num)
  have hn : pieces (pathLength p.spine) (5 / 2) = 2 := by
    unfold pieces
    rw [hL]
    have : ⌊(4 / (5 / 2) : ℝ)⌋₊ = 1 := by rw [Nat.floor_eq_iff (by norm_num)]; norm_num
    rw [this]
  rw [hn] at h2 h5
  obtain ⟨x, rfl⟩ := List.length_eq_one_iff.mp (by omega : cs.length = 1)
  have hx : x.parameter = 1 / 2 := by have := (h5 0 x rfl).2.1; rw [this]; norm_num
  obtain ⟨q1, q2, q3, e1, e2, e3, e4⟩ := Verif.Path.C185_length (p := uneven) uneven_ok.1 (t0 := 0) (t1 := 1 / 2) (t2 := 1) (by norm_num) (by norm_num)
  refine ⟨x, q2, h1, hx, by rw [hp, hx]; exact e2, ?_⟩
  have l1 : pathLength q1 = 1 := by
    have := (Verif.Path.C186_not_inverse).2.1
    unfold parameterToLength at this
    rw [e1] at this
    injection this
  obtain ⟨q, f1, f2⟩ := Verif.Path.C185_whole_length (p := uneven) uneven_ok.1
  rw [e3] at f1
  injection f1 with f1
  rw [f1, f2, c, l1] at e4
  linarith

/-! ## C204: rings -/

/-- **C204.** No cut, or a cut not strictly between 0 and 1: `ValueError`. -/
theorem C204_errors (spine : List Seg) (cuts : List ℝ) (h : cuts = [] ∨ ∃ t ∈ cuts, t ≤ 0 ∨ 1 ≤ t) : ringPlanes spine cuts = .error .valueError := by
  have : ringRanges cuts = .error .valueError := by
    unfold ringRanges
    rcases h with h | ⟨t, ht, hh⟩
    · rw [if_pos h]
    · split
      · rfl
      rw [if_pos]
      exact List.any_eq_true.mpr ⟨t, (List.mergeSort_perm _ _).mem_iff.mpr ht, by simpa using hh⟩
  unfold ringPlanes
  rw [this]

theorem headLast (l : List ℝ) (h : l ≠ []) : ((0 : ℝ), l.headD 0) :: (l.zip l.tail) ++ [(l.getLastD 0, 1)] = ranges (0 :: l ++ [1]) := by
  rw [ranges_push]
  cases l with
  | nil => exact absurd rfl h
  | cons a l => rfl

/-- Otherwise the pieces go from 0 to 1 with the cuts, in order, as the boundaries. -/
theorem C204_ranges (cuts : List ℝ) (hne : cuts ≠ []) (h : ∀ t ∈ cuts, 0 < t ∧ t < 1) :
    ∃ c, c.Perm cuts ∧ c.Pairwise (· ≤ ·) ∧ ringRanges cuts = .ok (ranges (0 :: c ++ [1])) := by
  let c := cuts.mergeSort fun a b => @decide (a ≤ b) (Classical.propDecidable _)
  have hp : c.Perm cuts := List.mergeSort_perm _ _
  refine ⟨c, hp, ?_, ?_⟩
  · have := List.pairwise_mergeSort (le := fun a b : ℝ => @decide (a ≤ b) (Classical.propDecidable _))
      (by intro a b c h1 h2; simp only [decide_eq_true_eq] at *; exact le_trans h1 h2)
      (by intro a b; simp only [Bool.or_eq_true, decide_eq_true_eq]; exact le_total _ _) cuts
    exact this.imp fun h => by simpa using h
  · have hcn : c ≠ [] := fun e => hne (List.length_eq_zero_iff.mp (by rw [← hp.length_eq, e]; rfl))
    rw [← headLast c hcn]
    unfold ringRanges
    rw [if_neg hne, if_neg]
    intro hh
    obtain ⟨t, ht, hh⟩ := List.any_eq_true.mp hh
    have := h t (hp.mem_iff.mp ht)
    rcases (by simpa using hh : t ≤ 0 ∨ 1 ≤ t) with h' | h'
    · linarith [this.1]
    · linarith [this.2]

/-- Each piece is bounded by the planes through the spine's points at its two ends, the first facing against the direction of the spine
and the second along it. -/
theorem C204_planes (spine : List Seg) (cuts : List ℝ) {rs : List (ℝ × ℝ)} (hr : ringRanges cuts = .ok rs)
    {pl : List ((Vec × Vec) × (Vec × Vec))} (h : ringPlanes spine cuts = .ok pl) :
    pl.length = rs.length ∧ ∀ (k : ℕ) r x, rs[k]? = some r → pl[k]? = some x →
      evaluate spine r.1 = .ok (x.1.1, neg x.1.2) ∧ evaluate spine r.2 = .ok x.2 := by
  unfold ringPlanes at h
  rw [hr] at h
  dsimp only at h
  clear hr
  induction rs generalizing pl with
  | nil => injection h with h; subst h; exact ⟨rfl, by simp⟩
  | cons r rs ih =>
    rw [List.map_cons] at h
    rcases h1 : ofPath (cutPlane spine r.1) with er | ⟨p, n⟩
    · rw [h1] at h; cases h
    rw [h1] at h
    dsimp only at h
    rcases h2 : ofPath (cutPlane spine r.2) with er | ⟨q, m⟩
    · rw [h2] at h; cases h
    rw [h2] at h
    dsimp only at h
    unfold collect at h
    generalize hc : collect (rs.map _) = cc at h
    rcases cc with er | rest
    · cases h
    · injection h with h
      subst h
      obtain ⟨i1, i2⟩ := ih hc
      refine ⟨by simp [i1], fun k r' x hk hx => ?_⟩
      rcases k with _ | k
      · simp only [List.getElem?_cons_zero, Option.some.injEq] at hk hx
        subst hk; subst hx
        have e1 := ofPath_ok h1
        have e2 := ofPath_ok h2
        refine ⟨?_, e2⟩
        show evaluate spine r.1 = _
        rw [show evaluate spine r.1 = .ok (p, n) from e1]
        simp [neg]
      · exact i2 k r' x (by simpa using hk) (by simpa using hx)

/-! ## C205: terminal connectors -/

/-- **C205.** The tab at an end of the spine is swept along a line that starts at that end of the spine and runs out of it, along the spine's
direction there (against it at the start), for the length asked or, by default, half the interior connector's. -/
theorem C205_tab {W H T f : ℝ} {spine : List Seg} (hne : spine ≠ []) (hother : Seg.other ∉ spine) {side : String} (hs : side = "start" ∨ side = "end")
    {w h : ℝ} (hc : connectorProfile W H T f = .ok (w, h)) (l : Option ℝ) :
    ∃ p τ, evaluate spine (if side = "start" then 0 else 1) = .ok (p, τ) ∧ len τ = 1 ∧
      terminalLine W H spine side T l f = .ok ((w, h), p,
        Verif.Path.add p (Verif.Path.scale τ ((if side = "start" then -1 else 1) * l.getD (3 * max W H / 2)))) := by
  obtain ⟨p, τ, h1, h2⟩ := Verif.Path.C184_total hne hother (if side = "start" then 0 else 1)
  refine ⟨p, τ, h1, h2, ?_⟩
  unfold terminalLine
  rw [if_neg (not_not.mpr hs), hc]
  dsimp only
  rw [h1]
  show Except.ok _ = _
  rw [h2, if_pos one_pos]
  congr 3
  unfold Verif.Path.add Verif.Path.scale connectorLength
  split <;> simp only [Verif.Path.Vec.mk.injEq] <;> refine ⟨?_, ?_, ?_⟩ <;> ring

theorem C205_errors (W H T f : ℝ) (spine : List Seg) (side : String) (l : Option ℝ) :
    (¬ (side = "start" ∨ side = "end") → terminalLine W H spine side T l f = .error .valueError) ∧
    (connectorProfile W H T f = .error .valueError → terminalLine W H spine side T l f = .error .valueError) := by
  unfold terminalLine
  constructor
  · intro h; rw [if_pos h]
  · intro h
    rw [h]
    split <;> rfl

end Verif.Segment
