import Verif.Ring.Model

/-!
# C206-C208: cuts of a ring that avoid holes
-/

namespace Verif.Ring
open Verif.Segment (Err)

section
variable {K : Type} [Field K] [LinearOrder K] [IsStrictOrderedRing K]

/-- the cut at parameter `c` is at least `d` away from `h` around a circle of length 1 -/
def Away (d h c : K) : Prop := ∀ k : ℤ, d ≤ |c - h - k|

theorem away_of {d h c : K} (h1 : d ≤ c - h) (h2 : c - h ≤ 1 - d) (hd : 0 ≤ d) : Away d h c := by
  intro k
  rcases le_or_gt k 0 with hk | hk
  · have : (k : K) ≤ 0 := by exact_mod_cast hk
    exact le_trans (by linarith) (le_abs_self _)
  · have : (1 : K) ≤ k := by exact_mod_cast hk
    exact le_trans (by linarith) (neg_le_abs _)

theorem away_neg {d h c : K} (h1 : d ≤ h - c) (h2 : h - c ≤ 1 - d) (hd : 0 ≤ d) : Away d h c := by
  intro k
  rcases lt_or_ge k 0 with hk | hk
  · have : (k : K) ≤ -1 := by exact_mod_cast (by omega : k ≤ -1)
    exact le_trans (by linarith) (le_abs_self _)
  · have : (0 : K) ≤ k := by exact_mod_cast hk
    exact le_trans (by linarith) (neg_le_abs _)

/-- A cut that passes the test keeps its distance, also across the ring's seam. -/
theorem clear_away {d h c : K} (hd : 0 ≤ d) (h0 : 0 < c) (h1 : c < 1) (hc : clear (h - d, h + d) c = true) : Away d h c := by
  unfold clear at hc
  dsimp only at hc
  split at hc
  · simp only [Bool.not_eq_true', Bool.or_eq_false_iff, decide_eq_false_iff_not, not_lt] at hc
    exact away_of (by linarith [hc.1]) (by linarith [hc.2]) hd
  split at hc
  · simp only [Bool.not_eq_true', Bool.or_eq_false_iff, decide_eq_false_iff_not, not_lt] at hc
    exact away_neg (by linarith [hc.1]) (by linarith [hc.2]) hd
  · rename_i a b
    simp only [Bool.not_eq_true', Bool.and_eq_false_iff, decide_eq_false_iff_not, not_le] at hc
    rcases hc with hc | hc
    · exact away_neg (by linarith) (by linarith) hd
    · exact away_of (by linarith) (by linarith) hd

/-- Conversely a cut farther than the distance from a hole between 0 and 360 degrees passes. -/
theorem away_clear {d h c : K} (hh0 : 0 ≤ h) (hh1 : h ≤ 1) (h0 : 0 < c) (h1 : c < 1) (ha : ∀ k : ℤ, d < |c - h - k|) : clear (h - d, h + d) c = true := by
  have a0 := ha 0
  have a1 := ha 1
  have a2 := ha (-1)
  push_cast at a0 a1 a2
  unfold clear
  dsimp only
  rw [lt_abs] at a0 a1 a2
  split
  · simp only [Bool.not_eq_true', Bool.or_eq_false_iff, decide_eq_false_iff_not, not_lt]
    constructor
    · rcases a0 with a | a <;> linarith
    · rcases a1 with a | a <;> linarith
  split
  · simp only [Bool.not_eq_true', Bool.or_eq_false_iff, decide_eq_false_iff_not, not_lt]
    constructor
    · rcases a0 with a | a <;> linarith
    · rcases a2 with a | a <;> linarith
  · simp only [Bool.not_eq_true', Bool.and_eq_false_iff, decide_eq_false_iff_not, not_le]
    rcases a0 with a | a
    · right; linarith
    · left; linarith

omit [IsStrictOrderedRing K] in
theorem sortedSet_sorted (l : List K) : (sortedSet l).Pairwise (· < ·) := by
  have h1 : (sortedSet l).Pairwise (· ≤ ·) := List.pairwise_insertionSort _ _
  have h2 : (sortedSet l).Nodup := (List.perm_insertionSort _ _).nodup_iff.mpr (List.nodup_dedup l)
  exact (h1.and h2).imp fun h => lt_of_le_of_ne h.1 h.2

omit [IsStrictOrderedRing K] in
theorem sortedSet_mem {l : List K} {x : K} : x ∈ sortedSet l ↔ x ∈ l := by
  unfold sortedSet
  rw [(List.perm_insertionSort _ _).mem_iff, List.mem_dedup]

theorem nearest_ok {zones : List (K × K)} {c x : K} (h0 : 0 < c) (h1 : c < 1) (h : nearest zones c = some x) : 0 < x ∧ x < 1 ∧ valid zones x = true := by
  unfold nearest at h
  split at h
  · injection h with h; subst h; exact ⟨h0, h1, by assumption⟩
  · obtain ⟨i, _, hi⟩ := List.exists_of_findSome?_eq_some h
    dsimp only at hi
    have hoff : (0 : K) ≤ (i : K) / 1000 * (1 / 2) := by positivity
    split at hi
    · rename_i hh; injection hi with hi; subst hi; exact ⟨by linarith, hh.1, hh.2⟩
    · split at hi
      · rename_i hh; injection hi with hi; subst hi; exact ⟨hh.1, by linarith, hh.2⟩
      · cases hi

theorem adjusted_ok {zones : List (K × K)} {l : List K} (hl : ∀ c ∈ l, 0 < c ∧ c < 1) : ∀ x ∈ adjusted zones l, 0 < x ∧ x < 1 ∧ valid zones x = true := by
  induction l with
  | nil => intro x hx; cases hx
  | cons c l ih =>
    intro x hx
    unfold adjusted at hx
    rcases hn : nearest zones c with _ | y
    · rw [hn] at hx; cases hx
    · rw [hn] at hx
      rcases List.mem_cons.mp hx with rfl | hx
      · exact nearest_ok (hl c (by simp)).1 (hl c (by simp)).2 hn
      · exact ih (fun d hd => hl d (List.mem_cons_of_mem _ hd)) x hx

omit [IsStrictOrderedRing K] in
theorem candidates_ok {zones : List (K × K)} {l : List K} : ∀ x ∈ candidates zones l, 0 < x ∧ x < 1 ∧ valid zones x = true := by
  intro x hx
  unfold candidates at hx
  rw [sortedSet_mem, List.mem_filter] at hx
  simpa using hx.2

theorem combinations_ok {α : Type} (n : ℕ) (l c : List α) (h : c ∈ combinations n l) : c.length = n ∧ c.Sublist l := by
  induction l generalizing n c with
  | nil => cases n with
    | zero => simp [combinations] at h; simp [h]
    | succ n => simp [combinations] at h
  | cons a l ih => cases n with
    | zero => simp [combinations] at h; simp [h]
    | succ n =>
      simp only [combinations, List.mem_append, List.mem_map] at h
      rcases h with ⟨c', hc', rfl⟩ | h
      · obtain ⟨h1, h2⟩ := ih n c' hc'
        exact ⟨by simp [h1], h2.cons_cons a⟩
      · obtain ⟨h1, h2⟩ := ih (n + 1) c h
        exact ⟨h1, h2.cons a⟩

omit [IsStrictOrderedRing K] in
theorem best_mem {l : List (List K)} {c : List K} (h : best l = some c) : c ∈ l := by
  cases l with
  | nil => cases h
  | cons a l =>
    unfold best at h
    injection h with h
    subst h
    clear * -
    induction l generalizing a with
    | nil => simp
    | cons b l ih =>
      rw [List.foldl_cons]
      have := ih (if variance b < variance a then b else a)
      rcases List.mem_cons.mp this with h | h
      · rw [h]
        split <;> simp
      · simp [h]

omit [IsStrictOrderedRing K] in
theorem best_least {l : List (List K)} {c : List K} (h : best l = some c) : ∀ x ∈ l, variance c ≤ variance x := by
  cases l with
  | nil => cases h
  | cons a l =>
    unfold best at h
    injection h with h
    subst h
    clear * -
    induction l generalizing a with
    | nil => simp
    | cons b l ih =>
      rw [List.foldl_cons]
      have key := ih (if variance b < variance a then b else a)
      have hmin : variance (if variance b < variance a then b else a) ≤ variance a ∧ variance (if variance b < variance a then b else a) ≤ variance b := by
        split
        · rename_i h; exact ⟨h.le, le_rfl⟩
        · rename_i h; exact ⟨le_rfl, not_lt.mp h⟩
      have h0 := key (if variance b < variance a then b else a) (List.mem_cons_self ..)
      intro x hx
      rcases List.mem_cons.mp hx with rfl | hx
      · exact h0.trans hmin.1
      rcases List.mem_cons.mp hx with rfl | hx
      · exact h0.trans hmin.2
      · exact key x (List.mem_cons_of_mem _ hx)

/-- the equally spaced cuts -/
def equal (n : ℕ) : List K := (List.range (n - 1)).map fun i : ℕ => ((i + 1 : ℕ) : K) / n

theorem equal_ok (n : ℕ) : (equal n : List K).length = n - 1 ∧ (equal n : List K).Pairwise (· < ·) ∧ ∀ c ∈ (equal n : List K), 0 < c ∧ c < 1 := by
  unfold equal
  refine ⟨by simp, ?_, ?_⟩
  · rw [List.pairwise_map]
    refine (List.pairwise_lt_range (n := n - 1)).imp_of_mem fun {a b} ha hb hab => ?_
    rw [List.mem_range] at ha
    have hn : (0 : K) < n := by exact_mod_cast (by omega : 0 < n)
    exact div_lt_div_of_pos_right (by exact_mod_cast (by omega : a + 1 < b + 1)) hn
  · intro c hc
    obtain ⟨i, hi, rfl⟩ := List.mem_map.mp hc
    rw [List.mem_range] at hi
    have hn : (0 : K) < n := by exact_mod_cast (by omega : 0 < n)
    exact ⟨div_pos (by positivity) hn, (div_lt_one hn).mpr (by exact_mod_cast (by omega : i + 1 < n))⟩

variable [FloorRing K]

/-- the number of pieces: as asked, or the least number of pieces of at most the limit -/
def count (circumference limit : K) (target : Option ℤ) : ℤ := target.getD ⌈circumference / limit⌉

/-- the zones around the holes -/
def zonesOf (circumference distance : K) (holes : List K) : List (K × K) :=
  ((holes.map (· / 360)).insertionSort (· ≤ ·)).map fun h => (h - distance / circumference, h + distance / circumference)

/-- the cases of the result -/
theorem ringCuts_cases {circumference limit distance : K} {holes : List K} {target : Option ℤ} (hl : target = none → limit ≠ 0)
    (hc : circumference ≠ 0) {n : ℕ} (hn : count circumference limit target = n) (hn2 : 2 ≤ n) :
    ∃ cs, ringCuts circumference limit holes distance target = .ok cs ∧
      (cs = equal n ∨ (cs.length = n - 1 ∧ cs.Pairwise (· < ·) ∧ ∀ c ∈ cs, 0 < c ∧ c < 1 ∧ valid (zonesOf circumference distance holes) c = true)) ∧
      ((∀ c ∈ (equal n : List K), valid (zonesOf circumference distance holes) c = true) → cs = equal n) := by
  have htar : pieceCount circumference limit target = .ok (n : ℤ) := by
    unfold count at hn
    unfold pieceCount
    cases target with
    | some t => rw [Option.getD_some] at hn; rw [hn]
    | none => rw [Option.getD_none] at hn; dsimp only; rw [if_neg (hl rfl), hn]
  have hk : ((n : ℤ) - 1).toNat = n - 1 := by omega
  have hid : (List.range (n - 1)).map (fun i : ℕ => 1 / (((n : ℤ) : K)) * ((i + 1 : ℕ) : K)) = equal n := by
    unfold equal
    refine List.map_congr_left fun i _ => ?_
    rw [Int.cast_natCast, one_div, inv_mul_eq_div]
  unfold ringCuts
  rw [htar]
  dsimp only
  rw [if_neg (by omega), if_neg hc, hk, hid]
  rw [show ((holes.map (· / 360)).insertionSort (· ≤ ·)).map (fun h => (h - distance / circumference, h + distance / circumference)) = zonesOf circumference distance holes from rfl]
  obtain ⟨e1, e2, e3⟩ := equal_ok (K := K) n
  generalize zonesOf circumference distance holes = zones
  by_cases hall : ((equal n : List K).all (valid zones)) = true
  · rw [if_pos hall]
    exact ⟨_, rfl, .inl rfl, fun _ => rfl⟩
  rw [if_neg hall]
  have hnot : ¬ ∀ c ∈ (equal n : List K), valid zones c = true := fun h => hall (List.all_eq_true.mpr h)
  by_cases hadj : (adjusted zones (equal n)).length = n - 1 ∧ (sortedSet (adjusted zones (equal n))).length = n - 1
  · rw [if_pos hadj]
    refine ⟨_, rfl, .inr ⟨hadj.2, sortedSet_sorted _, fun c hc' => ?_⟩, fun h => absurd h hnot⟩
    exact adjusted_ok e3 c (sortedSet_mem.mp hc')
  rw [if_neg hadj]
  split
  · rename_i c hcand
    split at hcand
    · obtain ⟨h1, h2⟩ := combinations_ok _ _ _ (best_mem hcand)
      refine ⟨_, rfl, .inr ⟨h1, ?_, fun x hx => candidates_ok x (h2.subset hx)⟩, fun h => absurd h hnot⟩
      exact (sortedSet_sorted _).sublist h2
    · cases hcand
  · exact ⟨_, rfl, .inl rfl, fun _ => rfl⟩

/-- **C206.** For two or more pieces there is one cut less than pieces; the cuts are strictly increasing and strictly between 0 and 1. -/
theorem C206_shape {circumference limit distance : K} {holes : List K} {target : Option ℤ} (hl : target = none → limit ≠ 0)
    (hc : circumference ≠ 0) {n : ℕ} (hn : count circumference limit target = n) (hn2 : 2 ≤ n) :
    ∃ cs, ringCuts circumference limit holes distance target = .ok cs ∧ cs.length + 1 = n ∧ cs.Pairwise (· < ·) ∧ ∀ c ∈ cs, 0 < c ∧ c < 1 := by
  obtain ⟨cs, h1, h2, _⟩ := ringCuts_cases (distance := distance) (holes := holes) hl hc hn hn2
  obtain ⟨e1, e2, e3⟩ := equal_ok (K := K) n
  refine ⟨cs, h1, ?_⟩
  rcases h2 with rfl | ⟨a, b, c⟩
  · exact ⟨by omega, e2, e3⟩
  · exact ⟨by omega, b, fun x hx => ⟨(c x hx).1, (c x hx).2.1⟩⟩

omit [IsStrictOrderedRing K] in
/-- One piece or none: no cuts. -/
theorem C206_none {circumference limit distance : K} {holes : List K} {target : Option ℤ} (hl : target = none → limit ≠ 0)
    (hn : count circumference limit target < 2) : ringCuts circumference limit holes distance target = .ok [] := by
  unfold ringCuts pieceCount
  unfold count at hn
  cases target with
  | some t => rw [Option.getD_some] at hn; dsimp only; rw [if_pos hn]
  | none => rw [Option.getD_none] at hn; dsimp only; rw [if_neg (hl rfl)]; dsimp only; rw [if_pos hn]

omit [IsStrictOrderedRing K] in
/-- A limit of 0 without a number of pieces, or a circumference of 0 with at least two pieces, divides by zero. -/
theorem C206_zero (circumference limit distance : K) (holes : List K) (n : ℤ) (hn : 2 ≤ n) :
    ringCuts circumference 0 holes distance none = .error .zeroDivision ∧ ringCuts 0 limit holes distance (some n) = .error .zeroDivision := by
  constructor
  · unfold ringCuts pieceCount
    dsimp only
    rw [if_pos rfl]
  · unfold ringCuts pieceCount
    dsimp only
    rw [if_neg (by omega), if_pos rfl]

theorem zonesOf_mem {circumference distance : K} {holes : List K} {c : K} (h : valid (zonesOf circumference distance holes) c = true) {a : K} (ha : a ∈ holes) :
    clear (a / 360 - distance / circumference, a / 360 + distance / circumference) c = true := by
  refine List.all_eq_true.mp h _ ?_
  unfold zonesOf
  refine List.mem_map.mpr ⟨a / 360, ?_, rfl⟩
  rw [(List.perm_insertionSort _ _).mem_iff]
  exact List.mem_map.mpr ⟨a, ha, rfl⟩

/-- **C207, the part that holds.** Every cut is at least the distance asked from every hole, measured around the ring (also across its
seam), or the cuts are the equally spaced ones. -/
theorem C207_avoids_partial {circumference limit distance : K} {holes : List K} {target : Option ℤ} (hl : target = none → limit ≠ 0)
    (hc : 0 < circumference) (hd : 0 ≤ distance) {n : ℕ} (hn : count circumference limit target = n) (hn2 : 2 ≤ n) :
    ∃ cs, ringCuts circumference limit holes distance target = .ok cs ∧
      ((∀ c ∈ cs, ∀ a ∈ holes, ∀ k : ℤ, distance ≤ |c - a / 360 - k| * circumference) ∨ cs = equal n) := by
  obtain ⟨cs, h1, h2, _⟩ := ringCuts_cases (distance := distance) (holes := holes) hl hc.ne' hn hn2
  refine ⟨cs, h1, ?_⟩
  rcases h2 with h2 | ⟨_, _, h2⟩
  · exact .inr h2
  · refine .inl fun c hcc a ha k => ?_
    obtain ⟨c0, c1, hv⟩ := h2 c hcc
    have := clear_away (div_nonneg hd hc.le) c0 c1 (zonesOf_mem hv ha) k
    rwa [div_le_iff₀ hc] at this

/-- **C208.** If equally spaced cuts are farther than the distance asked from all holes (between 0 and 360 degrees), they are returned, and
no piece is longer than the limit. -/
theorem C208_equal_partial {circumference limit distance : K} {holes : List K} (h0 : 0 < limit) (hc : 0 < circumference)
    (hh : ∀ a ∈ holes, 0 ≤ a ∧ a ≤ 360) {n : ℕ} (hn : count circumference limit none = n) (hn2 : 2 ≤ n)
    (hfree : ∀ c ∈ (equal n : List K), ∀ a ∈ holes, ∀ k : ℤ, distance < |c - a / 360 - k| * circumference) :
    ringCuts circumference limit holes distance none = .ok (equal n) ∧ circumference / n ≤ limit := by
  obtain ⟨cs, h1, _, h3⟩ := ringCuts_cases (distance := distance) (holes := holes) (fun _ => h0.ne') hc.ne' hn hn2
  have hv : ∀ c ∈ (equal n : List K), valid (zonesOf circumference distance holes) c = true := by
    intro c hcc
    refine List.all_eq_true.mpr fun z hz => ?_
    unfold zonesOf at hz
    obtain ⟨h, hm, rfl⟩ := List.mem_map.mp hz
    rw [(List.perm_insertionSort _ _).mem_iff] at hm
    obtain ⟨a, ha, rfl⟩ := List.mem_map.mp hm
    obtain ⟨_, _, e3⟩ := equal_ok (K := K) n
    refine away_clear (div_nonneg (hh a ha).1 (by norm_num)) ((div_le_one (by norm_num)).mpr (hh a ha).2) (e3 c hcc).1 (e3 c hcc).2 fun k => ?_
    rw [div_lt_iff₀ hc]
    exact hfree c hcc a ha k
  rw [h3 hv] at h1
  refine ⟨h1, ?_⟩
  have hnR : (0 : K) < n := by exact_mod_cast (by omega : 0 < n)
  unfold count at hn
  rw [Option.getD_none] at hn
  have := Int.le_ceil (circumference / limit)
  rw [hn, Int.cast_natCast, div_le_iff₀ h0] at this
  rw [div_le_iff₀ hnR]
  linarith

end

set_option maxRecDepth 100000

/-- **C207, what does not.** Three pieces; the zones around the holes leave the gap from 0.5 to 0.5001, where there is room for two cuts at the
distance asked, but the cuts returned are 1/3 and 2/3: closer to a hole than asked. -/
theorem C207_hits_hole :
    ringCuts (1 : ℚ) 1 [25005 * 360 / 100000, 75005 * 360 / 100000, 0] (24995 / 100000) (some 3) = .ok [1 / 3, 2 / 3] ∧
    |(1 / 3 : ℚ) - 25005 / 100000| < 24995 / 100000 ∧ |(2 / 3 : ℚ) - 75005 / 100000| < 24995 / 100000 ∧
    valid (zonesOf (1 : ℚ) (24995 / 100000) [25005 * 360 / 100000, 75005 * 360 / 100000, 0]) (50003 / 100000) = true ∧
    valid (zonesOf (1 : ℚ) (24995 / 100000) [25005 * 360 / 100000, 75005 * 360 / 100000, 0]) (50006 / 100000) = true := by
  refine ⟨by decide +kernel, by decide +kernel, by decide +kernel, by decide +kernel, by decide +kernel⟩

/-- **C208, what does not.** A ring of circumference 360 with pieces of at most 180 and a hole at 180 degrees: the cut is moved to 0.5835, so that
one piece is longer than 210. -/
theorem C208_too_long : ringCuts (360 : ℚ) 180 [180] 30 none = .ok [1167 / 2000] ∧ (210 : ℚ) < 360 * (1167 / 2000) := by
  refine ⟨by decide +kernel, by decide +kernel⟩

example : count (1000 : ℚ) 300 none = 4 ∧ ringCuts (1000 : ℚ) 300 [45, 135] 30 none = .ok [1 / 4, 1 / 2, 3 / 4] := by
  refine ⟨by decide +kernel, by decide +kernel⟩

end Verif.Ring
