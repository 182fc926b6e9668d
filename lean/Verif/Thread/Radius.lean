import Verif.Thread.Sampling

/-! # The radius of a thread -/

namespace Verif.Thread

set_option linter.unusedSectionVars false

variable {K : Type} [Field K] [LinearOrder K] [IsStrictOrderedRing K] [FloorRing K]

/-! ## specification -/

/-- the shape of a thread by the distance from the middle of the nearest crest: `big` on the crest's flat, `small` on the root's flat, and on the flank the straight line between -/
def shape (crestHalf rootHalf pitch big small d : K) : K :=
  if d ≤ crestHalf then big
  else if pitch / 2 - rootHalf ≤ d then small
  else big + (d - crestHalf) / (pitch / 2 - rootHalf - crestHalf) * (small - big)

/-- the radius of the crest at a position -/
def Profile.big (p : Profile K) (z : K) : K := (p.diameter + p.taper * z) / 2

/-- the depth of the thread -/
def Profile.depth (p : Profile K) : K := p.depthRatio * p.pitch

/-- the radius of the root at a position; the root of an outer thread is not beyond the axis -/
def Profile.small (p : Profile K) (z : K) : K := if p.internal then p.big z - p.depth else max (p.big z - p.depth) 0

theorem eps_pos : (0 : K) < epsilon := by unfold epsilon; norm_num

theorem flank_eq {p : Profile K} (h : epsilon ≤ p.flank) : p.flank = p.pitch / 2 - p.rootHalf - p.crestHalf := by
  unfold Profile.flank at h ⊢
  rcases le_total ((p.pitch - 2 * p.crestHalf - 2 * p.rootHalf) / 2) 0 with h1 | h1
  · rw [max_eq_left h1] at h
    exact absurd (lt_of_lt_of_le eps_pos h) (lt_irrefl _)
  · rw [max_eq_right h1]; ring

theorem floor_at {P x : K} (hP : 0 < P) {k : ℤ} (h0 : k * P ≤ x) (h1 : x < (k + 1) * P) : ⌊x / P⌋ = k := by
  rw [Int.floor_eq_iff]
  exact ⟨by rw [le_div_iff₀ hP]; exact h0, by rw [div_lt_iff₀ hP]; exact h1⟩

/-- C308: whatever the position along the axis, the radius is that of the shape: it depends only on the distance from the nearest crest, so that the thread repeats with every pitch and is the same in
    both directions from a crest -/
theorem C308_shape {p : Profile K} (hP : 0 < p.pitch) (hf : epsilon ≤ p.flank) (z x : K) (k : ℤ) (hk : |x - k * p.pitch| ≤ p.pitch / 2) :
    p.radiusAt z x = shape p.crestHalf p.rootHalf p.pitch (p.big z) (p.small z) |x - k * p.pitch| := by
  have hfe := flank_eq hf
  have hfp : 0 < p.flank := lt_of_lt_of_le eps_pos hf
  have hm : max p.flank epsilon = p.flank := max_eq_left hf
  have hc0 : 0 ≤ p.crestHalf := le_max_left _ _
  have hr0 : 0 ≤ p.rootHalf := le_max_left _ _
  have key : ∀ loc d : K, (loc = d ∨ loc = p.pitch - d) → 0 ≤ d → d ≤ p.pitch / 2 →
      (if loc ≤ p.crestHalf then p.big z
        else if loc ≤ p.crestHalf + p.flank then p.big z + (loc - p.crestHalf) / p.flank * (p.small z - p.big z)
        else if loc ≤ p.crestHalf + p.flank + 2 * p.rootHalf then p.small z
        else if loc ≤ p.pitch - p.crestHalf then p.small z + (loc - (p.crestHalf + p.flank + 2 * p.rootHalf)) / p.flank * (p.big z - p.small z)
        else p.big z) = shape p.crestHalf p.rootHalf p.pitch (p.big z) (p.small z) d := by
    intro loc d hloc hd0 hd1
    unfold shape
    rw [← hfe]
    rcases hloc with rfl | rfl
    · by_cases h1 : loc ≤ p.crestHalf
      · rw [if_pos h1, if_pos h1]
      · rw [if_neg h1, if_neg h1]
        by_cases h2 : loc ≤ p.crestHalf + p.flank
        · rw [if_pos h2]
          by_cases h3 : p.pitch / 2 - p.rootHalf ≤ loc
          · rw [if_pos h3]
            have : loc - p.crestHalf = p.flank := by linarith
            rw [this, div_self hfp.ne']; ring
          · rw [if_neg h3]
        · rw [if_neg h2, if_pos (by linarith), if_pos (by linarith)]
    · by_cases h1 : d ≤ p.crestHalf
      · rw [if_pos h1]
        by_cases h2 : p.pitch - d ≤ p.pitch - p.crestHalf
        · have hd : d = p.crestHalf := by linarith
          rw [if_neg (by linarith), if_neg (by linarith), if_neg (by linarith), if_pos h2]
          have : p.pitch - d - (p.crestHalf + p.flank + 2 * p.rootHalf) = p.flank := by linarith
          rw [this, div_self hfp.ne']; ring
        · rw [if_neg (by linarith), if_neg (by linarith), if_neg (by linarith), if_neg h2]
      · rw [if_neg h1]
        by_cases h2 : p.pitch / 2 - p.rootHalf ≤ d
        · rw [if_pos h2, if_neg (by linarith)]
          by_cases h3 : p.pitch - d ≤ p.crestHalf + p.flank
          · rw [if_pos h3]
            have : p.pitch - d - p.crestHalf = p.flank := by linarith
            rw [this, div_self hfp.ne']; ring
          · rw [if_neg h3, if_pos (by linarith)]
        · rw [if_neg h2, if_neg (by linarith), if_neg (by linarith), if_neg (by linarith), if_pos (by linarith)]
          have : p.pitch - d - (p.crestHalf + p.flank + 2 * p.rootHalf) = p.flank - (d - p.crestHalf) := by linarith
          rw [this, sub_div, div_self hfp.ne']; ring
  have hrad : ∀ loc : K, loc = x - (⌊x / p.pitch⌋ : K) * p.pitch → p.radiusAt z x = (if loc ≤ p.crestHalf then p.big z
        else if loc ≤ p.crestHalf + p.flank then p.big z + (loc - p.crestHalf) / p.flank * (p.small z - p.big z)
        else if loc ≤ p.crestHalf + p.flank + 2 * p.rootHalf then p.small z
        else if loc ≤ p.pitch - p.crestHalf then p.small z + (loc - (p.crestHalf + p.flank + 2 * p.rootHalf)) / p.flank * (p.big z - p.small z)
        else p.big z) := by
    rintro loc rfl
    unfold Profile.radiusAt
    dsimp only
    rw [hm]
    rfl
  by_cases hx : k * p.pitch ≤ x
  · rw [abs_of_nonneg (by linarith)] at hk ⊢
    have hfl := floor_at hP hx (by linarith)
    rw [hrad _ rfl, hfl]
    exact key _ _ (.inl rfl) (by linarith) hk
  · rw [not_le] at hx
    rw [abs_of_neg (by linarith)] at hk ⊢
    have hfl : ⌊x / p.pitch⌋ = k - 1 := floor_at hP (by push_cast; linarith) (by push_cast; linarith)
    rw [hrad _ rfl, hfl]
    exact key _ _ (.inr (by push_cast; ring)) (by linarith) hk

/-- C308: the thread repeats with every pitch -/
theorem C308_periodic {p : Profile K} (hP : 0 < p.pitch) (z x : K) (k : ℤ) : p.radiusAt z (x + k * p.pitch) = p.radiusAt z x := by
  have hfl : ⌊(x + k * p.pitch) / p.pitch⌋ = ⌊x / p.pitch⌋ + k := by
    rw [add_div, mul_div_assoc, div_self hP.ne', mul_one, Int.floor_add_intCast]
  unfold Profile.radiusAt
  rw [hfl]
  have : x + k * p.pitch - ((⌊x / p.pitch⌋ + k : ℤ) : K) * p.pitch = x - (⌊x / p.pitch⌋ : K) * p.pitch := by push_cast; ring
  rw [this]

/-- C308: after a whole turn the thread is where it was: the radius at the effective position of a point is the same for an angle and that angle plus 360 -/
theorem C308_turn {p : Profile K} (hP : 0 < p.pitch) (z x theta : K) : p.radiusAt z (x - p.offset (theta + 360)) = p.radiusAt z (x - p.offset theta) := by
  have h1 : (theta + 360) / 360 * p.lead = theta / 360 * p.lead + p.lead := by field_simp
  unfold Profile.offset
  rw [h1]
  cases p.left
  · simp only [Bool.false_eq_true, if_false]
    have := C308_periodic hP z (x - theta / 360 * p.lead) (-(max 1 p.starts))
    rw [← this]
    congr 1
    unfold Profile.lead
    push_cast
    ring
  · simp only [if_true]
    have := C308_periodic hP z (x - -(theta / 360 * p.lead)) (max 1 p.starts)
    rw [← this]
    congr 1
    unfold Profile.lead
    push_cast
    ring

/-! ## bounds -/

theorem mix_bounds {a b t : K} (ht0 : 0 ≤ t) (ht1 : t ≤ 1) {lo hi : K} (ha : lo ≤ a ∧ a ≤ hi) (hb : lo ≤ b ∧ b ≤ hi) : lo ≤ a * t + (1 - t) * b ∧ a * t + (1 - t) * b ≤ hi := by
  constructor <;> nlinarith [mul_nonneg ht0 (sub_nonneg.2 ha.1), mul_nonneg (sub_nonneg.2 ht1) (sub_nonneg.2 hb.1), mul_nonneg ht0 (sub_nonneg.2 ha.2), mul_nonneg (sub_nonneg.2 ht1) (sub_nonneg.2 hb.2)]

theorem radius_bounds {p : Profile K} (hP : 0 < p.pitch) (z x : K) (hs : p.small z ≤ p.big z) : p.small z ≤ p.radiusAt z x ∧ p.radiusAt z x ≤ p.big z := by
  have hm : 0 < max p.flank epsilon := lt_of_lt_of_le eps_pos (le_max_right _ _)
  unfold Profile.radiusAt
  dsimp only
  generalize x - (⌊x / p.pitch⌋ : K) * p.pitch = loc
  change p.small z ≤ (if loc ≤ p.crestHalf then p.big z
        else if loc ≤ p.crestHalf + p.flank then p.big z + (loc - p.crestHalf) / max p.flank epsilon * (p.small z - p.big z)
        else if loc ≤ p.crestHalf + p.flank + 2 * p.rootHalf then p.small z
        else if loc ≤ p.pitch - p.crestHalf then p.small z + (loc - (p.crestHalf + p.flank + 2 * p.rootHalf)) / max p.flank epsilon * (p.big z - p.small z)
        else p.big z) ∧ (if loc ≤ p.crestHalf then p.big z
        else if loc ≤ p.crestHalf + p.flank then p.big z + (loc - p.crestHalf) / max p.flank epsilon * (p.small z - p.big z)
        else if loc ≤ p.crestHalf + p.flank + 2 * p.rootHalf then p.small z
        else if loc ≤ p.pitch - p.crestHalf then p.small z + (loc - (p.crestHalf + p.flank + 2 * p.rootHalf)) / max p.flank epsilon * (p.big z - p.small z)
        else p.big z) ≤ p.big z
  have hmf : p.flank ≤ max p.flank epsilon := le_max_left _ _
  split
  · exact ⟨hs, le_refl _⟩
  · split
    · rename_i h1 h2
      have t0 : 0 ≤ (loc - p.crestHalf) / max p.flank epsilon := div_nonneg (by linarith) hm.le
      have t1 : (loc - p.crestHalf) / max p.flank epsilon ≤ 1 := by rw [div_le_one hm]; linarith
      generalize (loc - p.crestHalf) / max p.flank epsilon = t at *
      constructor <;> nlinarith
    · split
      · exact ⟨le_refl _, hs⟩
      · split
        · rename_i h1 h2 h3 h4
          have t0 : 0 ≤ (loc - (p.crestHalf + p.flank + 2 * p.rootHalf)) / max p.flank epsilon := div_nonneg (by linarith) hm.le
          have t1 : (loc - (p.crestHalf + p.flank + 2 * p.rootHalf)) / max p.flank epsilon ≤ 1 := by
            rw [div_le_one hm]
            have : p.pitch - 2 * p.crestHalf - 2 * p.rootHalf ≤ 2 * p.flank := by
              have : (p.pitch - 2 * p.crestHalf - 2 * p.rootHalf) / 2 ≤ p.flank := le_max_right _ _
              linarith
            linarith
          generalize (loc - (p.crestHalf + p.flank + 2 * p.rootHalf)) / max p.flank epsilon = t at *
          constructor <;> nlinarith
        · exact ⟨hs, le_refl _⟩

/-- C307: without taper, an outer thread that is not deeper than the shaft's radius has all its samples between the root's radius and the nominal radius, ends included; an inner one between the nominal
    radius less the depth and the nominal radius plus the depth -/
theorem C307_bounds_partial {p : Profile K} {lo hi theta : K} {samples : Int} {r : List (K × K) × Int} (h : p.sample lo hi theta samples = .ok r) (ht : p.taper = 0) (hd : 0 ≤ p.depthRatio)
    (hd' : p.internal = false → p.depth ≤ p.diameter / 2) :
    ∀ s ∈ r.1, p.diameter / 2 - p.depth ≤ s.2 ∧ s.2 ≤ if p.internal then p.diameter / 2 + p.depth else p.diameter / 2 := by
  obtain ⟨h1, h2, rfl⟩ := sample_ok h
  intro s hs
  obtain ⟨b, -, rfl⟩ := List.mem_map.1 hs
  have hl := lead_pos h2
  have hdep : 0 ≤ p.depth := mul_nonneg hd h2.le
  have hrange := clamp_range (x := b + p.offset theta) h1.le
  rw [← sampleAt_fst p lo hi theta b] at hrange
  unfold Profile.sampleAt at hrange ⊢
  dsimp only at hrange ⊢
  generalize (if b + p.offset theta < lo then lo else if b + p.offset theta > hi then hi else b + p.offset theta) = z at *
  have hbig : p.big z = p.diameter / 2 := by unfold Profile.big; rw [ht]; ring
  have hmaj : (p.diameter + p.taper) / 2 = p.diameter / 2 := by rw [ht]; ring
  have hsm : p.small z = p.diameter / 2 - p.depth := by
    unfold Profile.small
    rw [hbig]
    cases hi' : p.internal
    · simp only [Bool.false_eq_true, if_false]
      exact max_eq_left (by linarith [hd' hi'])
    · rfl
  have hrb := radius_bounds h2 z b (by rw [hsm, hbig]; linarith)
  rw [hsm, hbig] at hrb
  change p.diameter / 2 - p.depth ≤ (if z < lo + p.lead * (2 / 10) then _ else _) ∧ (if z < lo + p.lead * (2 / 10) then _ else _) ≤ _
  rw [show p.depthRatio * p.pitch = p.depth from rfl, hmaj]
  have ht0 : 0 < p.lead * (2 / 10) := by positivity
  split
  · rename_i hz
    have t0 : 0 ≤ (z - lo) / (p.lead * (2 / 10)) := div_nonneg (by linarith) ht0.le
    have t1 : (z - lo) / (p.lead * (2 / 10)) ≤ 1 := by rw [div_le_one ht0]; linarith
    cases hi' : p.internal
    · simp only [Bool.false_eq_true, if_false]; exact mix_bounds t0 t1 hrb ⟨le_refl _, by linarith⟩
    · simp only [if_true]; exact mix_bounds t0 t1 ⟨hrb.1, by linarith⟩ ⟨by linarith, le_refl _⟩
  · split
    · rename_i hz
      have t0 : 0 ≤ (hi - z) / (p.lead * (2 / 10)) := div_nonneg (by linarith) ht0.le
      have t1 : (hi - z) / (p.lead * (2 / 10)) ≤ 1 := by rw [div_le_one ht0]; linarith
      cases hi' : p.internal
      · exact mix_bounds t0 t1 hrb ⟨by linarith, le_refl _⟩
      · simp only [if_true]; exact mix_bounds t0 t1 ⟨hrb.1, by linarith⟩ ⟨by linarith, le_refl _⟩
    · cases hi' : p.internal
      · exact hrb
      · exact ⟨hrb.1, le_trans hrb.2 (by simp only [if_true]; linarith)⟩

/-- C307: the first sample of an outer right-handed thread without taper is at the nominal radius less the depth, which is negative if the thread is deeper than the shaft -/
theorem C307_negative {p : Profile K} {lo hi theta : K} {samples : Int} {r : List (K × K) × Int} (h : p.sample lo hi theta samples = .ok r) (hi' : p.internal = false) (hl' : p.left = false)
    (ht : p.taper = 0) (h1 : theta ≤ 360) : r.1.head? = some (lo, p.diameter / 2 - p.depth) := by
  obtain ⟨hlt, hpit, rfl⟩ := sample_ok h
  have hl := lead_pos hpit
  obtain ⟨hr, ha, hb⟩ := points_range (p := p) (lo := lo - p.lead) (hi := hi) (samples := samples) (by linarith)
  dsimp only
  rw [List.head?_map, sort_head ha fun x hx => (hr x hx).1, Option.map_some, Option.some.injEq]
  have ho : p.offset theta = theta / 360 * p.lead := by unfold Profile.offset; rw [hl']; rfl
  have ho1 : p.offset theta ≤ p.lead := by
    rw [ho]
    have : theta / 360 ≤ 1 := by rw [div_le_one (by norm_num)]; exact h1
    nlinarith
  have hz : clamp lo hi (lo - p.lead + p.offset theta) = lo := by
    unfold clamp
    split
    · rfl
    · rw [if_neg (by linarith)]; linarith
  unfold clamp at hz
  unfold Profile.sampleAt
  dsimp only
  rw [hz]
  refine Prod.ext rfl ?_
  have ht0 : 0 < p.lead * (2 / 10) := by positivity
  dsimp only
  rw [if_pos (by linarith), hi', ht]
  simp only [Bool.false_eq_true, if_false, sub_self, zero_div, mul_zero, zero_add, sub_zero, one_mul, add_zero]
  rfl

/-- such a thread: a metric thread of diameter 1 and pitch 2 -/
example : ∃ r, (metric (1 : ℚ) 2 1 false).sample 0 10 0 1 = .ok r ∧ ((1 : ℚ) / 2 - (metric (1 : ℚ) 2 1 false).depth < 0) := by
  obtain ⟨r, hr⟩ := (C305_domain (metric (1 : ℚ) 2 1 false) 0 10 0 1).2 (by unfold metric; norm_num)
  exact ⟨r, hr, by unfold Profile.depth metric; norm_num⟩

/-! ## the profiles of the standards -/

/-- C310: metric threads have the depth 0.57 times the pitch -/
theorem C310_metric (d pitch : K) (starts : Int) (internal : Bool) : (metric d pitch starts internal).depth = 57 / 100 * pitch ∧ (metric d pitch starts internal).diameter = d := ⟨rfl, rfl⟩

/-- C310: the depth of unified threads is 0.64952 times the square of the pitch, which is the depth of the standard only if the pitch is 1 mm -/
theorem C310_unified (d tpi : K) (ht : 0 < tpi) (starts : Int) (internal : Bool) : (unified d tpi starts internal).pitch * tpi = 254 / 10 ∧
    (unified d tpi starts internal).depth = 64952 / 100000 * (unified d tpi starts internal).pitch ^ 2 ∧
    ((unified d tpi starts internal).depth = 64952 / 100000 * (unified d tpi starts internal).pitch ↔ tpi = 254 / 10) := by
  refine ⟨?_, ?_, ?_⟩
  · show 254 / 10 / tpi * tpi = 254 / 10
    rw [div_mul_cancel₀ _ ht.ne']
  · show 64952 / 100000 * (254 / 10 / tpi) * (254 / 10 / tpi) = 64952 / 100000 * (254 / 10 / tpi) ^ 2
    ring
  · show 64952 / 100000 * (254 / 10 / tpi) * (254 / 10 / tpi) = 64952 / 100000 * (254 / 10 / tpi) ↔ tpi = 254 / 10
    have hp : (0 : K) < 254 / 10 / tpi := by positivity
    constructor
    · intro h
      have h1 : (254 / 10 / tpi : K) = 1 := by
        have h2 : (64952 / 100000 * (254 / 10 / tpi) : K) ≠ 0 := by positivity
        exact mul_left_cancel₀ h2 (by rw [h]; ring)
      rw [div_eq_one_iff_eq ht.ne'] at h1
      exact h1.symm
    · rintro rfl
      rw [div_self (by norm_num)]; ring

/-- an M8 thread has flanks long enough -/
example : (epsilon : ℚ) ≤ (metric (8 : ℚ) (5 / 4) 1 false).flank ∧ (metric (8 : ℚ) (5 / 4) 1 false).depth ≤ 8 / 2 := by
  constructor
  · refine le_trans ?_ (le_max_right _ _)
    unfold epsilon Profile.crestHalf Profile.rootHalf metric
    norm_num
  · unfold Profile.depth metric; norm_num

/-- C310: both standards: the flat of the crest is an eighth of the pitch wide, that of the root a quarter for bolts and an eighth for nuts; the thread is right-handed and not tapered, and has the number of starts asked for -/
theorem C310_flats (d x : K) (hx : 0 < x) (starts : Int) (internal : Bool) : ∀ p ∈ [metric d x starts internal, unified d x starts internal],
    2 * p.crestHalf = p.pitch / 8 ∧ 2 * p.rootHalf = (if internal then p.pitch / 8 else p.pitch / 4) ∧ p.left = false ∧ p.taper = 0 ∧ p.starts = starts ∧ p.internal = internal := by
  have key : ∀ p : Profile K, 0 < p.pitch → p.crestRatio = 1 / 8 → p.rootRatio = (if internal then 1 / 8 else 1 / 4) →
      2 * p.crestHalf = p.pitch / 8 ∧ 2 * p.rootHalf = (if internal then p.pitch / 8 else p.pitch / 4) := by
    intro p hp h1 h2
    unfold Profile.crestHalf Profile.rootHalf
    rw [h1, h2]
    cases internal <;> simp only [if_true, if_false, Bool.false_eq_true]
    · rw [max_eq_right (by linarith), max_eq_right (by linarith)]; constructor <;> ring
    · rw [max_eq_right (by linarith)]; constructor <;> ring
  intro p hp
  simp only [List.mem_cons, List.not_mem_nil, or_false] at hp
  rcases hp with rfl | rfl
  · obtain ⟨h1, h2⟩ := key (metric d x starts internal) hx rfl rfl
    exact ⟨h1, h2, rfl, rfl, rfl, rfl⟩
  · obtain ⟨h1, h2⟩ := key (unified d x starts internal) (div_pos (by norm_num) hx) rfl rfl
    exact ⟨h1, h2, rfl, rfl, rfl, rfl⟩

/-- C310: pitches are in mm; the diameter of unified threads is given in inches, of 25.4 mm -/
theorem C310_units (d x : K) (starts : Int) (internal : Bool) : (metric d x starts internal).pitch = x ∧ (unified d x starts internal).diameter = d * (254 / 10) := ⟨rfl, rfl⟩

end Verif.Thread
