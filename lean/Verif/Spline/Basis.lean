import Verif.Spline.Bezier

/-! # The Cox-de Boor recursion: support, sign and partition of unity -/

namespace Verif.Spline

/-- a term of the recursion, skipped when the denominator is not above the threshold -/
noncomputable def tm (δ c d v : ℝ) : ℝ := open Classical in if d > δ then c / d * v else 0

/-- the recursion on functions -/
noncomputable def NN (δ : ℝ) (κ N0 : ℕ → ℝ) (u : ℝ) : ℕ → ℕ → ℝ
  | 0, i => N0 i
  | p + 1, i =>
    tm δ (u - κ i) (κ (i + (p + 1)) - κ i) (NN δ κ N0 u p i) +
    tm δ (κ (i + (p + 1) + 1) - u) (κ (i + (p + 1) + 1) - κ (i + 1)) (NN δ κ N0 u p (i + 1))

open Classical in
/-- half-open spans -/
noncomputable def half (κ : ℕ → ℝ) (u : ℝ) (i : ℕ) : ℝ := if κ i ≤ u ∧ u < κ (i + 1) then 1 else 0

variable {δ : ℝ} {κ : ℕ → ℝ} {u : ℝ}

theorem tm_zero (c d : ℝ) : tm δ c d 0 = 0 := by unfold tm; split <;> simp

theorem NN_support (hκ : Monotone κ) : ∀ p i, NN δ κ (half κ u) u p i ≠ 0 → κ i ≤ u ∧ u < κ (i + p + 1)
  | 0, i, h => by
    simp only [NN, half] at h
    split at h
    · assumption
    · exact absurd rfl h
  | p + 1, i, h => by
    simp only [NN] at h
    by_cases h1 : NN δ κ (half κ u) u p i = 0
    · rw [h1, tm_zero, zero_add] at h
      have h2 : NN δ κ (half κ u) u p (i + 1) ≠ 0 := by intro h2; rw [h2, tm_zero] at h; exact h rfl
      obtain ⟨h3, h4⟩ := NN_support hκ p (i + 1) h2
      exact ⟨le_trans (hκ (by omega)) h3, lt_of_lt_of_le h4 (hκ (by omega))⟩
    · obtain ⟨h3, h4⟩ := NN_support hκ p i h1
      exact ⟨h3, lt_of_lt_of_le h4 (hκ (by omega))⟩

theorem NN_nonneg (hδ : 0 ≤ δ) (hκ : Monotone κ) : ∀ p i, 0 ≤ NN δ κ (half κ u) u p i
  | 0, i => by simp only [NN, half]; split <;> norm_num
  | p + 1, i => by
    have key : ∀ c d v : ℝ, 0 ≤ v → (v ≠ 0 → 0 ≤ c) → 0 ≤ tm δ c d v := by
      intro c d v hv hc
      unfold tm
      split
      · rename_i hd
        by_cases h0 : v = 0
        · simp [h0]
        · have := hc h0
          have : 0 < d := lt_of_le_of_lt hδ hd
          positivity
      · exact le_rfl
    refine add_nonneg (key _ _ _ (NN_nonneg hδ hκ p i) fun h => ?_) (key _ _ _ (NN_nonneg hδ hκ p (i + 1)) fun h => ?_)
    · have := (NN_support hκ p i h).1; linarith
    · have h2 := (NN_support hκ p (i + 1) h).2
      rw [show i + 1 + p + 1 = i + (p + 1) + 1 by omega] at h2; linarith

/-- the two halves of a basis function of the degree below add up to it -/
theorem tm_add (hκ : Monotone κ) (hgap : ∀ i j, κ i < κ j → κ j - κ i > δ) (p i : ℕ) :
    tm δ (u - κ i) (κ (i + (p + 1)) - κ i) (NN δ κ (half κ u) u p i) +
    tm δ (κ (i + (p + 1)) - u) (κ (i + (p + 1)) - κ i) (NN δ κ (half κ u) u p i) = NN δ κ (half κ u) u p i := by
  by_cases h : NN δ κ (half κ u) u p i = 0
  · simp [h, tm_zero]
  · obtain ⟨h1, h2⟩ := NN_support hκ p i h
    have hlt : κ i < κ (i + (p + 1)) := lt_of_le_of_lt h1 h2
    have hg := hgap _ _ hlt
    unfold tm
    rw [if_pos hg, if_pos hg]
    have : κ (i + (p + 1)) - κ i ≠ 0 := by linarith [sub_pos.2 hlt]
    field_simp
    ring

theorem NN_sum (hκ : Monotone κ) (hgap : ∀ i j, κ i < κ j → κ j - κ i > δ) {n : ℕ} :
    ∀ p, κ p ≤ u → u < κ n → ∑ i ∈ Finset.range n, NN δ κ (half κ u) u p i = 1
  | 0, h0, hn => by
    -- exactly one half-open span contains `u`
    have hex : ∃ j, u < κ j := ⟨n, hn⟩
    classical
    have hj := Nat.find_spec hex
    have hmin : ∀ m < Nat.find hex, κ m ≤ u := fun m hm => not_lt.1 (Nat.find_min hex hm)
    have hle : Nat.find hex ≤ n := Nat.find_le hn
    have hpos : 0 < Nat.find hex := by
      rcases Nat.eq_zero_or_pos (Nat.find hex) with h | h
      · rw [h] at hj; linarith
      · exact h
    rw [Finset.sum_eq_single (Nat.find hex - 1)]
    · simp only [NN, half]
      rw [if_pos ⟨hmin _ (by omega), by rwa [show Nat.find hex - 1 + 1 = Nat.find hex by omega]⟩]
    · intro i _ hi
      simp only [NN, half]
      rw [if_neg]
      rintro ⟨h1, h2⟩
      have := Nat.find_le (h := hex) h2
      have : i + 1 ≤ Nat.find hex := by
        by_contra hc
        have : κ (Nat.find hex) ≤ κ i := hκ (by omega)
        linarith
      omega
    · intro h; exact absurd (Finset.mem_range.2 (by omega)) h
  | p + 1, h0, hn => by
    have hp : κ p ≤ u := le_trans (hκ (by omega)) h0
    have ih := NN_sum hκ hgap p hp hn
    set F := NN δ κ (half κ u) u p with hF
    have hF0 : F 0 = 0 := by
      by_contra h
      have := (NN_support hκ p 0 h).2
      rw [show 0 + p + 1 = p + 1 by omega] at this; linarith
    have hFn : F n = 0 := by
      by_contra h
      have := (NN_support hκ p n h).1; linarith
    let L := fun i => tm δ (u - κ i) (κ (i + (p + 1)) - κ i) (F i)
    let R := fun i => tm δ (κ (i + (p + 1)) - u) (κ (i + (p + 1)) - κ i) (F i)
    have hLR : ∀ i, L i + R i = F i := tm_add hκ hgap p
    have e1 : ∀ i, NN δ κ (half κ u) u (p + 1) i = L i + R (i + 1) := by
      intro i
      simp only [NN, L, R, hF, show i + (p + 1) + 1 = i + 1 + (p + 1) by omega]
    simp only [e1]
    rw [Finset.sum_add_distrib]
    have hR0 : R 0 = 0 := by simp only [R, hF0, tm_zero]
    have hRn : R n = 0 := by simp only [R, hFn, tm_zero]
    have e2 : ∑ i ∈ Finset.range n, R (i + 1) = ∑ i ∈ Finset.range n, R i := by
      have h1 := Finset.sum_range_succ R n
      have h2 := Finset.sum_range_succ' R n
      rw [hRn] at h1; rw [hR0] at h2
      linarith
    rw [e2, ← Finset.sum_add_distrib, Finset.sum_congr rfl fun i _ => hLR i]
    exact ih

/-- the clamped end: all weight on the last basis function -/
theorem NN_end {n : ℕ} (hn : 0 < n) {N0 : ℕ → ℝ} (hκ1 : ∀ i, n ≤ i → κ i = u) (hlt : κ (n - 1) < u)
    (hg : u - κ (n - 1) > δ) (hδ : 0 ≤ δ) (h0 : ∀ i, i < n - 1 → N0 i = 0) (h1 : N0 (n - 1) = 1) :
    ∀ p, (∀ i, i < n - 1 → NN δ κ N0 u p i = 0) ∧ NN δ κ N0 u p (n - 1) = 1
  | 0 => ⟨h0, h1⟩
  | p + 1 => by
    obtain ⟨i0, i1⟩ := NN_end hn hκ1 hlt hg hδ h0 h1 p
    constructor
    · intro i hi
      simp only [NN, i0 i hi, tm_zero, zero_add]
      by_cases hc : i + 1 < n - 1
      · rw [i0 _ hc, tm_zero]
      · unfold tm
        split
        · rw [hκ1 (i + (p + 1) + 1) (by omega)]; simp
        · rfl
    · simp only [NN, i1]
      rw [hκ1 (n - 1 + (p + 1)) (by omega), hκ1 (n - 1 + (p + 1) + 1) (by omega), hκ1 (n - 1 + 1) (by omega)]
      unfold tm
      rw [if_pos hg, if_neg (by simp [hδ])]
      have : u - κ (n - 1) ≠ 0 := by linarith
      field_simp
      ring

/-- the clamped start: all weight on the first basis function -/
theorem NN_start {p : ℕ} (hκ : Monotone κ) (h0 : ∀ i, i ≤ p → κ i = u) (hlt : u < κ (p + 1)) :
    ∀ q, q ≤ p → ∀ i, i + q ≠ p → NN δ κ (half κ u) u q i = 0
  | 0, _, i, hne => by
    simp only [NN, half]
    rw [if_neg]
    rintro ⟨h1, h2⟩
    rcases lt_or_gt_of_ne hne with h | h
    · rw [h0 (i + 1) (by omega)] at h2; exact lt_irrefl _ h2
    · have := hκ (by omega : p + 1 ≤ i); linarith
  | q + 1, hq, i, hne => by
    simp only [NN]
    rw [NN_start hκ h0 hlt q (by omega) (i + 1) (by omega), tm_zero, add_zero]
    by_cases h : i + q = p
    · unfold tm
      rw [h0 i (by omega)]
      split <;> simp
    · rw [NN_start hκ h0 hlt q (by omega) i h, tm_zero]

/-- changing the knots outside of `i … i+p+1` changes nothing -/
theorem NN_congr {κ' N0 N0' : ℕ → ℝ} : ∀ {p i : ℕ}, (∀ j, i ≤ j → j ≤ i + p + 1 → κ j = κ' j) →
    (∀ j, i ≤ j → j ≤ i + p → N0 j = N0' j) → NN δ κ N0 u p i = NN δ κ' N0' u p i
  | 0, i, _, h => h i le_rfl (by omega)
  | p + 1, i, hk, h => by
    simp only [NN]
    rw [NN_congr (p := p) (i := i) (fun j a b => hk j a (by omega)) (fun j a b => h j a (by omega)),
      NN_congr (p := p) (i := i + 1) (fun j a b => hk j (by omega) (by omega)) (fun j a b => h j (by omega) (by omega)),
      hk i le_rfl (by omega), hk (i + (p + 1)) (by omega) (by omega), hk (i + (p + 1) + 1) (by omega) (by omega),
      hk (i + 1) (by omega) (by omega)]

/-! ## the model's functions -/

theorem knotAt_ok {k : List ℝ} {i : ℕ} (h : i < k.length) : knotAt k i = .ok (k.getD i 0) := by
  simp [knotAt, List.getElem?_eq_getElem h]

open Classical in
/-- the base case of `_bspline_basis` on functions; `z` is the last knot -/
noncomputable def bb0 (κ : ℕ → ℝ) (z u : ℝ) (i : ℕ) : ℝ :=
  if κ i ≤ u ∧ u < κ (i + 1) then 1 else if u = z ∧ κ i ≤ u ∧ u ≤ κ (i + 1) then 1 else 0

theorem basis_eq (u : ℝ) (k : List ℝ) : ∀ p i, i + p + 1 < k.length → basis p i u k =
    .ok (NN 1e-12 (fun j => k.getD j 0) (bb0 (fun j => k.getD j 0) (k.getD (k.length - 1) 0) u) u p i)
  | 0, i, h => by
    simp only [basis, basis0]
    rw [if_neg (by omega), knotAt_ok (by omega), knotAt_ok (by omega), knotAt_ok (by omega)]
    simp only [NN, bb0]
    split
    · rfl
    · split <;> rfl
  | p + 1, i, h => by
    have t1 : ∀ c d v, term c d (.ok v) = .ok (tm 1e-12 c d v) := by
      intro c d v; unfold term tm; split <;> simp_all
    simp only [basis]
    rw [knotAt_ok (by omega), knotAt_ok (by omega), basis_eq u k p i (by omega), basis_eq u k p (i + 1) (by omega)]
    simp only [t1]
    rw [if_pos (by omega), knotAt_ok (by omega), knotAt_ok (by omega)]
    simp only [t1, NN]

theorem basisSum_eq {d : ℕ} {u : ℝ} {k : List ℝ} {w : ℕ → ℝ} : ∀ {pts : List P3} {i : ℕ} {acc : P3},
    (∀ j, i ≤ j → j < i + pts.length → basis d j u k = .ok (w j)) →
    basisSum d u k i acc pts = .ok (acc + ∑ j ∈ Finset.range pts.length, w (i + j) • pts.getD j 0)
  | [], i, acc, _ => by simp [basisSum]
  | p :: ps, i, acc, h => by
    simp only [basisSum, h i le_rfl (by simp)]
    rw [basisSum_eq (pts := ps) (i := i + 1) fun j h1 h2 => h j (by omega) (by simp; omega)]
    congr 1
    rw [List.length_cons, Finset.sum_range_succ']
    simp only [List.getD_cons_succ, List.getD_cons_zero, show ∀ j, i + 1 + j = i + (j + 1) by intro j; omega, add_zero]
    rw [add_comm (∑ j ∈ Finset.range ps.length, w (i + (j + 1)) • ps.getD j 0), ← add_assoc]
    rfl

end Verif.Spline
