import Verif.Thread.Radius

/-! # Between two samples the thread is straight -/

namespace Verif.Thread

set_option linter.unusedSectionVars false

variable {K : Type} [Field K] [LinearOrder K] [IsStrictOrderedRing K] [FloorRing K]

/-- a function is straight between two points -/
def Straight (f : K → K) (a b : K) : Prop := ∀ x, a ≤ x → x ≤ b → (b - a) * f x = (b - x) * f a + (x - a) * f b

theorem Straight.of_line {f : K → K} {c d m n : K} (h : ∀ x, c ≤ x → x ≤ d → f x = m * x + n) {a b : K} (ha : c ≤ a) (hb : b ≤ d) : Straight f a b := by
  intro x hx hx'
  rw [h x (by linarith) (by linarith), h a ha (by linarith), h b (by linarith) hb]
  ring

/-- between breakpoints the radius is a line -/
theorem line_between {p : Profile K} (hP : 0 < p.pitch) (hf : epsilon ≤ p.flank) (z : K) (k : ℤ) {c d : K}
    (hcd : (c, d) ∈ [((0 : K), p.crestHalf), (p.crestHalf, p.crestHalf + p.flank), (p.crestHalf + p.flank, p.crestHalf + p.flank + 2 * p.rootHalf),
      (p.crestHalf + p.flank + 2 * p.rootHalf, p.pitch - p.crestHalf), (p.pitch - p.crestHalf, p.pitch)]) :
    ∃ m n, ∀ x, k * p.pitch + c ≤ x → x ≤ k * p.pitch + d → p.radiusAt z x = m * x + n := by
  have hfe := flank_eq hf
  have hfp : 0 < p.flank := lt_of_lt_of_le eps_pos hf
  have hc0 : 0 ≤ p.crestHalf := le_max_left _ _
  have hr0 : 0 ≤ p.rootHalf := le_max_left _ _
  have lower : ∀ x, k * p.pitch ≤ x → x ≤ k * p.pitch + p.pitch / 2 → p.radiusAt z x = shape p.crestHalf p.rootHalf p.pitch (p.big z) (p.small z) (x - k * p.pitch) := by
    intro x h1 h2
    have habs : |x - k * p.pitch| = x - k * p.pitch := abs_of_nonneg (by linarith)
    rw [C308_shape hP hf z x k (by rw [habs]; linarith), habs]
  have upper : ∀ x, k * p.pitch + p.pitch / 2 ≤ x → x ≤ k * p.pitch + p.pitch → p.radiusAt z x = shape p.crestHalf p.rootHalf p.pitch (p.big z) (p.small z) (p.pitch - (x - k * p.pitch)) := by
    intro x h1 h2
    have habs : |x - ((k + 1 : ℤ) : K) * p.pitch| = p.pitch - (x - k * p.pitch) := by
      rw [abs_of_nonpos (by push_cast; linarith)]; push_cast; ring
    rw [C308_shape hP hf z x (k + 1) (by rw [habs]; linarith), habs]
  simp only [List.mem_cons, Prod.mk.injEq, List.not_mem_nil, or_false] at hcd
  rcases hcd with ⟨rfl, rfl⟩ | ⟨rfl, rfl⟩ | ⟨rfl, rfl⟩ | ⟨rfl, rfl⟩ | ⟨rfl, rfl⟩
  · refine ⟨0, p.big z, fun x h1 h2 => ?_⟩
    rw [lower x (by linarith) (by linarith)]
    unfold shape
    rw [if_pos (by linarith)]; ring
  · refine ⟨(p.small z - p.big z) / p.flank, p.big z - (k * p.pitch + p.crestHalf) * ((p.small z - p.big z) / p.flank), fun x h1 h2 => ?_⟩
    rw [lower x (by linarith) (by linarith)]
    unfold shape
    rw [← hfe]
    split
    · have : x = k * p.pitch + p.crestHalf := by linarith
      rw [this]; ring
    · split
      · have : x = k * p.pitch + p.crestHalf + p.flank := by linarith
        rw [this]; field_simp; ring
      · ring
  · refine ⟨0, p.small z, fun x h1 h2 => ?_⟩
    rcases le_total x (k * p.pitch + p.pitch / 2) with h3 | h3
    · rw [lower x (by linarith) h3]
      unfold shape
      rw [if_neg (by linarith), if_pos (by linarith)]; ring
    · rw [upper x h3 (by linarith)]
      unfold shape
      rw [if_neg (by linarith), if_pos (by linarith)]; ring
  · refine ⟨(p.big z - p.small z) / p.flank, p.small z - (k * p.pitch + (p.crestHalf + p.flank + 2 * p.rootHalf)) * ((p.big z - p.small z) / p.flank), fun x h1 h2 => ?_⟩
    rw [upper x (by linarith) (by linarith)]
    unfold shape
    rw [← hfe]
    have hpitch : p.pitch = 2 * p.crestHalf + 2 * p.flank + 2 * p.rootHalf := by linarith
    split
    · have : x = k * p.pitch + (p.crestHalf + p.flank + 2 * p.rootHalf) + p.flank := by linarith
      rw [this]; field_simp; ring
    · split
      · have : x = k * p.pitch + (p.crestHalf + p.flank + 2 * p.rootHalf) := by linarith
        rw [this]; ring
      · have : p.pitch - (x - k * p.pitch) - p.crestHalf = p.flank - (x - (k * p.pitch + (p.crestHalf + p.flank + 2 * p.rootHalf))) := by linarith
        rw [this]; field_simp; ring
  · refine ⟨0, p.big z, fun x h1 h2 => ?_⟩
    rw [upper x (by linarith) (by linarith)]
    unfold shape
    rw [if_pos (by linarith)]; ring

/-- the breakpoints in the range are among the points -/
theorem mem_points {p : Profile K} (hP : 0 < p.pitch) {lo hi : K} {samples : Int} {k : ℤ} {c x : K} (hc : c ∈ p.breakpoints) (hc0 : 0 ≤ c) (hc1 : c ≤ p.pitch) (hx : x = k * p.pitch + c)
    (h1 : lo ≤ x) (h2 : x ≤ hi) : x ∈ p.points lo hi samples := by
  have ht : (0 : K) ≤ tol := by unfold tol; norm_num
  unfold Profile.points
  rw [Finset.mem_union, Finset.mem_biUnion]
  right
  refine ⟨k, ?_, ?_⟩
  · rw [Finset.mem_Icc]
    constructor
    · have h3 : lo / p.pitch ≤ ((k + 1 : ℤ) : K) := by
        rw [div_le_iff₀ hP]; push_cast; linarith
      have : ⌊lo / p.pitch⌋ ≤ k + 1 := Int.floor_le_iff.2 (by push_cast at h3 ⊢; linarith)
      omega
    · have h3 : ((k : ℤ) : K) ≤ hi / p.pitch := by
        rw [le_div_iff₀ hP]; linarith
      have h4 : (k : K) ≤ ((⌈hi / p.pitch⌉ : ℤ) : K) := le_trans h3 (Int.le_ceil _)
      have : k ≤ ⌈hi / p.pitch⌉ := by exact_mod_cast h4
      omega
  · rw [Finset.mem_image]
    refine ⟨x, ?_, by rw [max_eq_left h1, min_eq_left h2]⟩
    rw [Finset.mem_filter, List.mem_toFinset]
    refine ⟨?_, by linarith, by linarith⟩
    unfold Profile.candidates
    rw [List.mem_append]
    left
    exact List.mem_map.2 ⟨c, hc, hx.symm⟩

/-- C309: no detail of the thread is lost between samples: with the sampling set of `sample_thread_profile`, the radius between two neighbours of the set is on the straight line between them, however few
    samples are asked for -/
theorem C309_straight {p : Profile K} (hP : 0 < p.pitch) (hf : epsilon ≤ p.flank) (z : K) {lo hi : K} {samples : Int} (hlo : lo ≤ hi) {k : Nat} {a b : K}
    (ha : ((p.points lo hi samples).sort (· ≤ ·))[k]? = some a) (hb : ((p.points lo hi samples).sort (· ≤ ·))[k + 1]? = some b) : a < b ∧ Straight (p.radiusAt z) a b := by
  have hfe := flank_eq hf
  have hfp : 0 < p.flank := lt_of_lt_of_le eps_pos hf
  have hc0 : 0 ≤ p.crestHalf := le_max_left _ _
  have hr0 : 0 ≤ p.rootHalf := le_max_left _ _
  have hpw := (p.points lo hi samples).sortedLT_sort.pairwise
  obtain ⟨hk1, ea⟩ := List.getElem?_eq_some_iff.1 ha
  obtain ⟨hk2, eb⟩ := List.getElem?_eq_some_iff.1 hb
  have hab : a < b := by
    rw [← ea, ← eb]
    exact (List.pairwise_iff_getElem.1 hpw) k (k + 1) hk1 hk2 (by omega)
  have hmem : ∀ x ∈ p.points lo hi samples, x ≤ a ∨ b ≤ x := by
    intro x hx
    obtain ⟨j, hj, rfl⟩ := List.getElem_of_mem ((Finset.mem_sort (r := (· ≤ ·))).2 hx)
    rcases Nat.lt_trichotomy j k with h | h | h
    · left; rw [← ea]; exact ((List.pairwise_iff_getElem.1 hpw) j k hj hk1 h).le
    · left; subst h; exact ea.le
    · right
      rw [← eb]
      rcases Nat.lt_or_eq_of_le (show k + 1 ≤ j from h) with h' | h'
      · exact ((List.pairwise_iff_getElem.1 hpw) (k + 1) j hk2 hj h').le
      · subst h'; exact le_refl _
  refine ⟨hab, ?_⟩
  have hla : lo ≤ a := ((points_range hlo).1 a ((Finset.mem_sort (r := (· ≤ ·))).1 (List.mem_of_getElem? ha))).1
  have hhb : b ≤ hi := ((points_range hlo).1 b ((Finset.mem_sort (r := (· ≤ ·))).1 (List.mem_of_getElem? hb))).2
  -- a breakpoint after `a` is not before `b`
  have hbp : ∀ (n : ℤ) c, c ∈ p.breakpoints → 0 ≤ c → c ≤ p.pitch → a < n * p.pitch + c → b ≤ n * p.pitch + c := by
    intro n c hc h0 h1 h2
    by_contra h3
    rw [not_le] at h3
    rcases hmem _ (mem_points hP (samples := samples) hc h0 h1 rfl (by linarith) (by linarith : (n : K) * p.pitch + c ≤ hi)) with h | h <;> linarith
  have n0 := Int.floor_le (a / p.pitch)
  have n1 := Int.lt_floor_add_one (a / p.pitch)
  generalize ⌊a / p.pitch⌋ = n at *
  rw [le_div_iff₀ hP] at n0
  rw [div_lt_iff₀ hP] at n1
  have go : ∀ c d : K, (c, d) ∈ [((0 : K), p.crestHalf), (p.crestHalf, p.crestHalf + p.flank), (p.crestHalf + p.flank, p.crestHalf + p.flank + 2 * p.rootHalf),
      (p.crestHalf + p.flank + 2 * p.rootHalf, p.pitch - p.crestHalf), (p.pitch - p.crestHalf, p.pitch)] → d ∈ p.breakpoints → 0 ≤ d → d ≤ p.pitch → n * p.pitch + c ≤ a → a < n * p.pitch + d →
      Straight (p.radiusAt z) a b := by
    intro c d hcd hd h0 h1 h2 h3
    obtain ⟨m, q, hl⟩ := line_between hP hf z n hcd
    exact Straight.of_line hl h2 (hbp n d hd h0 h1 h3)
  rcases lt_or_ge a (n * p.pitch + p.crestHalf) with h | h
  · exact go 0 _ (by simp) (by simp [Profile.breakpoints]) hc0 (by linarith) (by linarith) h
  · rcases lt_or_ge a (n * p.pitch + (p.crestHalf + p.flank)) with h' | h'
    · exact go p.crestHalf _ (by simp) (by simp [Profile.breakpoints]) (by linarith) (by linarith) h h'
    · rcases lt_or_ge a (n * p.pitch + (p.crestHalf + p.flank + 2 * p.rootHalf)) with h2 | h2
      · exact go _ _ (by simp) (by simp [Profile.breakpoints]) (by linarith) (by linarith) h' h2
      · rcases lt_or_ge a (n * p.pitch + (p.pitch - p.crestHalf)) with h3 | h3
        · exact go _ _ (by simp) (by simp [Profile.breakpoints]) (by linarith) (by linarith) h2 h3
        · exact go _ p.pitch (by simp) (by simp [Profile.breakpoints]) hP.le (le_refl _) h3 (by linarith)

/-- two neighbours: the first two points of any set -/
example (p : Profile ℚ) {lo hi : ℚ} (h : lo < hi) (samples : Int) : ∃ a b, ((p.points lo hi samples).sort (· ≤ ·))[0]? = some a ∧ ((p.points lo hi samples).sort (· ≤ ·))[1]? = some b := by
  have hcard : 2 ≤ ((p.points lo hi samples).sort (· ≤ ·)).length := by
    rw [Finset.length_sort]
    have : ({lo, hi} : Finset ℚ) ⊆ p.points lo hi samples := Finset.subset_union_left
    have := Finset.card_le_card this
    rwa [Finset.card_pair h.ne] at this
  exact ⟨_, _, List.getElem?_eq_getElem (by omega), List.getElem?_eq_getElem (by omega)⟩

/-- C309: the density that is asked for is reached: everywhere in the range there is a position at most one `1/samples` of a pitch before it (or it is the beginning of the range that is so near) -/
theorem C309_density {p : Profile K} (hP : 0 < p.pitch) {lo hi : K} {samples : Int} (hs : 1 ≤ samples) (hlo : lo ≤ hi) {x : K} (h1 : lo ≤ x) (h2 : x ≤ hi) :
    ∃ q ∈ p.points lo hi samples, q ≤ x ∧ x - q ≤ p.pitch / (samples : K) := by
  have hsK : (0 : K) < (samples : K) := by exact_mod_cast (lt_of_lt_of_le Int.one_pos hs)
  have hN : ((extra samples : Nat) : K) = (samples : K) := by
    unfold extra
    rw [max_eq_right hs]
    have : ((samples.toNat : Nat) : Int) = samples := Int.toNat_of_nonneg (by omega)
    exact_mod_cast congrArg (fun z : Int => (z : K)) this
  set n : ℤ := ⌊x / p.pitch⌋ with hn
  have hn1 : (n : K) * p.pitch ≤ x := by rw [← le_div_iff₀ hP]; exact Int.floor_le _
  have hn2 : x < ((n : K) + 1) * p.pitch := by rw [← div_lt_iff₀ hP]; exact Int.lt_floor_add_one _
  set j : ℤ := ⌊(x - n * p.pitch) * samples / p.pitch⌋ with hj
  have hj1 : (j : K) ≤ (x - n * p.pitch) * samples / p.pitch := Int.floor_le _
  have hj2 : (x - n * p.pitch) * samples / p.pitch < (j : K) + 1 := Int.lt_floor_add_one _
  rw [le_div_iff₀ hP] at hj1
  rw [div_lt_iff₀ hP] at hj2
  have hj0 : 0 ≤ j := by
    rw [hj, Int.floor_nonneg]
    exact div_nonneg (mul_nonneg (by linarith) hsK.le) hP.le
  have hjs : j < samples := by
    have : (j : K) < (samples : K) := by
      have h3 : (x - n * p.pitch) * samples < samples * p.pitch := by
        rw [mul_comm]
        exact mul_lt_mul_of_pos_left (by linarith) hsK
      by_contra h4
      rw [not_lt] at h4
      have := mul_le_mul_of_nonneg_right h4 hP.le
      linarith
    exact_mod_cast this
  -- the candidate
  have hdiv : (j : K) / samples * p.pitch * samples = j * p.pitch := by field_simp
  have hq1 : (n : K) * p.pitch + (j : K) / samples * p.pitch ≤ x := by
    by_contra h4
    rw [not_le] at h4
    have := mul_lt_mul_of_pos_right h4 hsK
    nlinarith
  have hq2 : x - ((n : K) * p.pitch + (j : K) / samples * p.pitch) ≤ p.pitch / samples := by
    rw [le_div_iff₀ hsK]
    nlinarith
  rcases lt_or_ge ((n : K) * p.pitch + (j : K) / samples * p.pitch) lo with hlt | hge
  · refine ⟨lo, ?_, h1, by linarith⟩
    unfold Profile.points
    exact Finset.mem_union_left _ (by simp)
  · refine ⟨(n : K) * p.pitch + (j : K) / samples * p.pitch, ?_, hq1, hq2⟩
    have hjk : (0 : K) ≤ (j : K) / samples * p.pitch := mul_nonneg (div_nonneg (by exact_mod_cast hj0) hsK.le) hP.le
    have hjk' : (j : K) / samples * p.pitch ≤ p.pitch := by
      have : (j : K) / samples ≤ 1 := by rw [div_le_one hsK]; exact_mod_cast hjs.le
      nlinarith
    have ht : (0 : K) ≤ tol := by unfold tol; norm_num
    unfold Profile.points
    rw [Finset.mem_union, Finset.mem_biUnion]
    right
    refine ⟨n, ?_, ?_⟩
    · rw [Finset.mem_Icc]
      constructor
      · have h3 : lo / p.pitch ≤ ((n + 1 : ℤ) : K) := by
          rw [div_le_iff₀ hP]; push_cast; linarith
        have : ⌊lo / p.pitch⌋ ≤ n + 1 := Int.floor_le_iff.2 (by push_cast at h3 ⊢; linarith)
        omega
      · have h3 : ((n : ℤ) : K) ≤ hi / p.pitch := by
          rw [le_div_iff₀ hP]; linarith
        have h4 : (n : K) ≤ ((⌈hi / p.pitch⌉ : ℤ) : K) := le_trans h3 (Int.le_ceil _)
        have : n ≤ ⌈hi / p.pitch⌉ := by exact_mod_cast h4
        omega
    · rw [Finset.mem_image]
      refine ⟨_, ?_, by rw [max_eq_left hge, min_eq_left (by linarith)]⟩
      rw [Finset.mem_filter, List.mem_toFinset]
      refine ⟨?_, by linarith, by linarith⟩
      unfold Profile.candidates
      rw [List.mem_append]
      rcases eq_or_lt_of_le hj0 with h0 | h0
      · left
        rw [List.mem_map]
        exact ⟨0, by simp [Profile.breakpoints], by rw [← h0]; simp⟩
      · right
        rw [List.mem_map]
        refine ⟨(j - 1).toNat, ?_, ?_⟩
        · rw [List.mem_range]
          unfold extra
          omega
        · have : (((j - 1).toNat + 1 : Nat) : K) = (j : K) := by
            have : (((j - 1).toNat + 1 : Nat) : Int) = j := by omega
            exact_mod_cast congrArg (fun z : Int => (z : K)) this
          rw [this, hN]

end Verif.Thread
