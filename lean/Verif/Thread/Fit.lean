import Verif.Thread.Builder
import Verif.Thread.Radius

/-!
# Bolts and nuts from a catalog

C364: a bolt fits a nut. C365: thread lengths. C366: which bolts are accepted.
-/

namespace Verif.Thread

set_option linter.unusedSectionVars false

variable {K : Type} [Field K] [LinearOrder K] [IsStrictOrderedRing K] [FloorRing K]

/-! ## C364 -/

theorem near_crest {P : K} (hP : 0 < P) (x : K) : ∃ k : ℤ, |x - k * P| ≤ P / 2 := by
  refine ⟨round (x / P), ?_⟩
  have h := abs_sub_round (x / P)
  have e : x - (round (x / P) : K) * P = (x / P - round (x / P)) * P := by
    rw [sub_mul, div_mul_cancel₀ _ hP.ne']
  rw [e, abs_mul, abs_of_pos hP]
  calc |x / P - round (x / P)| * P ≤ 1 / 2 * P := mul_le_mul_of_nonneg_right h hP.le
    _ = P / 2 := by ring

theorem shapes {P a b D t : K} (hP : 0 < P) (hD : 0 ≤ D) :
    shape (P / 16) (P / 8) P a (a - D) t + (b - a) ≤ shape (P / 16) (P / 16) P b (b - D) t := by
  unfold shape
  by_cases h1 : t ≤ P / 16
  · simp only [if_pos h1]; linarith
  simp only [if_neg h1]
  push Not at h1
  have e1 : P / 2 - P / 8 - P / 16 = 5 * P / 16 := by ring
  have e2 : P / 2 - P / 16 - P / 16 = 3 * P / 8 := by ring
  have p1 : (0 : K) < 5 * P / 16 := by linarith
  have p2 : (0 : K) < 3 * P / 8 := by linarith
  rw [e1, e2]
  by_cases h2 : P / 2 - P / 8 ≤ t
  · rw [if_pos h2]
    by_cases h3 : P / 2 - P / 16 ≤ t
    · rw [if_pos h3]; linarith
    · rw [if_neg h3]
      push Not at h3
      have : (t - P / 16) / (3 * P / 8) ≤ 1 := (div_le_one p2).2 (by linarith)
      have := mul_le_mul_of_nonneg_right this hD
      linarith
  · rw [if_neg h2]
    push Not at h2
    rw [if_neg (by linarith)]
    have : (t - P / 16) / (3 * P / 8) ≤ (t - P / 16) / (5 * P / 16) := div_le_div_of_nonneg_left (by linarith) p1 (by linarith)
    have := mul_le_mul_of_nonneg_right this hD
    linarith

theorem bolt_nums (t : ThreadData K) (hP : 0 < t.pitch) (left : Bool) (starts : Int) (z : K) (hd : 57 / 100 * t.pitch ≤ (t.diameter + t.es.getD 0) / 2) :
    (fromCatalog t false left starts).crestHalf = t.pitch / 16 ∧ (fromCatalog t false left starts).rootHalf = t.pitch / 8 ∧
    (fromCatalog t false left starts).flank = 5 * t.pitch / 16 ∧ (fromCatalog t false left starts).big z = (t.diameter + t.es.getD 0) / 2 ∧
    (fromCatalog t false left starts).small z = (t.diameter + t.es.getD 0) / 2 - 57 / 100 * t.pitch := by
  have e1 : (fromCatalog t false left starts).crestHalf = t.pitch / 16 := by
    show max 0 (1 / 8 * t.pitch / 2) = _
    rw [max_eq_right (by linarith)]; ring
  have e2 : (fromCatalog t false left starts).rootHalf = t.pitch / 8 := by
    show max 0 (1 / 4 * t.pitch / 2) = _
    rw [max_eq_right (by linarith)]; ring
  refine ⟨e1, e2, ?_, ?_, ?_⟩
  · unfold Profile.flank
    rw [e1, e2]
    show max 0 ((t.pitch - 2 * (t.pitch / 16) - 2 * (t.pitch / 8)) / 2) = _
    rw [max_eq_right (by linarith)]; ring
  · show (t.diameter + t.es.getD 0 + 0 * z) / 2 = _
    ring
  · show max ((t.diameter + t.es.getD 0 + 0 * z) / 2 - 57 / 100 * t.pitch) 0 = _
    rw [zero_mul, add_zero, max_eq_left (by linarith)]

theorem nut_nums (t : ThreadData K) (hP : 0 < t.pitch) (left : Bool) (starts : Int) (z : K) :
    (fromCatalog t true left starts).crestHalf = t.pitch / 16 ∧ (fromCatalog t true left starts).rootHalf = t.pitch / 16 ∧
    (fromCatalog t true left starts).flank = 3 * t.pitch / 8 ∧ (fromCatalog t true left starts).big z = (t.diameter + t.ei.getD 0) / 2 ∧
    (fromCatalog t true left starts).small z = (t.diameter + t.ei.getD 0) / 2 - 57 / 100 * t.pitch := by
  have e1 : (fromCatalog t true left starts).crestHalf = t.pitch / 16 := by
    show max 0 (1 / 8 * t.pitch / 2) = _
    rw [max_eq_right (by linarith)]; ring
  have e2 : (fromCatalog t true left starts).rootHalf = t.pitch / 16 := by
    show max 0 (1 / 8 * t.pitch / 2) = _
    rw [max_eq_right (by linarith)]; ring
  refine ⟨e1, e2, ?_, ?_, ?_⟩
  · unfold Profile.flank
    rw [e1, e2]
    show max 0 ((t.pitch - 2 * (t.pitch / 16) - 2 * (t.pitch / 16)) / 2) = _
    rw [max_eq_right (by linarith)]; ring
  · show (t.diameter + t.ei.getD 0 + 0 * z) / 2 = _
    ring
  · show (t.diameter + t.ei.getD 0 + 0 * z) / 2 - 57 / 100 * t.pitch = _
    rw [zero_mul, add_zero]

/-- C364: the thread of a bolt and that of a nut of the same size, in the same position, leave between them everywhere at least half the difference of the deviations EI of the nut's class and es of the bolt's, and no
more than that at the crests: with EI = 0 and es < 0, as in the catalogs, they do not touch. -/
theorem C364_fit (d P es ei : K) (left : Bool) (starts : Int) (hP : 16 / 5 * epsilon ≤ P) (hd : 57 / 100 * P ≤ (d + es) / 2) (b n : ThreadData K)
    (hb : b.diameter = d ∧ b.pitch = P ∧ b.es = some es) (hn : n.diameter = d ∧ n.pitch = P ∧ n.ei = some ei) (z x : K) :
    (fromCatalog b false left starts).radiusAt z x + (ei - es) / 2 ≤ (fromCatalog n true left starts).radiusAt z x ∧
    ∀ k : ℤ, (fromCatalog n true left starts).radiusAt z (k * P) = (fromCatalog b false left starts).radiusAt z (k * P) + (ei - es) / 2 := by
  obtain ⟨rfl, rfl, h3⟩ := hb
  obtain ⟨h4, h5, h6⟩ := hn
  have he : (0 : K) < epsilon := eps_pos
  have hP0 : 0 < b.pitch := by linarith
  obtain ⟨b1, b2, b3, b4, b5⟩ := bolt_nums b hP0 left starts z (by rw [h3]; exact hd)
  obtain ⟨n1, n2, n3, n4, n5⟩ := nut_nums n (h5.symm ▸ hP0) left starts z
  have pb : (fromCatalog b false left starts).pitch = b.pitch := rfl
  have pn : (fromCatalog n true left starts).pitch = b.pitch := h5
  have key : ∀ (x : K) (k : ℤ), |x - k * b.pitch| ≤ b.pitch / 2 →
      (fromCatalog b false left starts).radiusAt z x = shape (b.pitch / 16) (b.pitch / 8) b.pitch ((b.diameter + es) / 2) ((b.diameter + es) / 2 - 57 / 100 * b.pitch) |x - k * b.pitch| ∧
      (fromCatalog n true left starts).radiusAt z x = shape (b.pitch / 16) (b.pitch / 16) b.pitch ((b.diameter + ei) / 2) ((b.diameter + ei) / 2 - 57 / 100 * b.pitch) |x - k * b.pitch| := by
    intro x k hk
    have s1 := C308_shape (p := fromCatalog b false left starts) hP0 (by rw [b3]; linarith) z x k hk
    have s2 := C308_shape (p := fromCatalog n true left starts) (by rw [pn]; exact hP0) (by rw [n3, h5]; linarith) z x k (by rw [pn]; exact hk)
    rw [b1, b2, b4, b5, pb, h3] at s1
    rw [n1, n2, n4, n5, pn, h6, h4, h5] at s2
    exact ⟨s1, s2⟩
  constructor
  · obtain ⟨k, hk⟩ := near_crest hP0 x
    obtain ⟨s1, s2⟩ := key x k hk
    rw [s1, s2]
    have := shapes (a := (b.diameter + es) / 2) (b := (b.diameter + ei) / 2) (t := |x - k * b.pitch|) hP0 (show (0 : K) ≤ 57 / 100 * b.pitch by linarith)
    linarith
  · intro k
    obtain ⟨s1, s2⟩ := key (k * b.pitch) k (by rw [sub_self, abs_zero]; linarith)
    rw [s1, s2, sub_self, abs_zero]
    unfold shape
    rw [if_pos (by linarith), if_pos (by linarith)]
    ring

/-- C364: an M3 bolt of the class 6g and a nut of the class 6H -/
example : ∃ b n : ThreadData ℚ, (b.diameter = 3 ∧ b.pitch = 1 / 2 ∧ b.es = some (-20 / 1000)) ∧ (n.diameter = 3 ∧ n.pitch = 1 / 2 ∧ n.ei = some 0) ∧ (16 : ℚ) / 5 * epsilon ≤ 1 / 2 ∧ (57 : ℚ) / 100 * (1 / 2) ≤ (3 + -20 / 1000) / 2 :=
  ⟨⟨3, 1 / 2, some (-20 / 1000), none⟩, ⟨3, 1 / 2, none, some 0⟩, ⟨rfl, rfl, rfl⟩, ⟨rfl, rfl, rfl⟩, by norm_num [epsilon], by norm_num⟩

/-! ## C365 -/

/-- C365: a bolt of a length that is not below epsilon has a thread between epsilon and its length. A thread length that is given and lies between them is used; otherwise it is the one of ISO 4014: twice the diameter and 6, 12 or 25 mm more,
for bolts up to 125 mm, up to 200 mm, and longer ones, but not more than the length. -/
theorem C365_length (t : ThreadData K) (h : HeadData K) (length : K) (tl : Option K) (arc samples : Int) (hl : epsilon ≤ length) :
    (epsilon ≤ (boltSpec t h length tl arc samples).threadLength ∧ (boltSpec t h length tl arc samples).threadLength ≤ length) ∧
    (∀ v, tl = some v → epsilon ≤ v → v ≤ length → (boltSpec t h length tl arc samples).threadLength = v) ∧
    (tl = none → 0 < t.diameter → ∃ k : K, (length ≤ 125 ∧ k = 6 ∨ 125 < length ∧ length ≤ 200 ∧ k = 12 ∨ 200 < length ∧ k = 25) ∧
      (2 * t.diameter + k ≤ length → (boltSpec t h length tl arc samples).threadLength = 2 * t.diameter + k) ∧
      (length ≤ 2 * t.diameter + k → (boltSpec t h length tl arc samples).threadLength = length)) := by
  refine ⟨⟨le_min (le_max_right _ _) hl, min_le_right _ _⟩, ?_, ?_⟩
  · rintro v rfl h1 h2
    show min (max v epsilon) length = v
    rw [max_eq_left h1, min_eq_left h2]
  · rintro rfl hd
    have key : ∀ k : K, 6 ≤ k → (2 * t.diameter + k ≤ length → min (max (min (2 * t.diameter + k) length) epsilon) length = 2 * t.diameter + k) ∧
        (length ≤ 2 * t.diameter + k → min (max (min (2 * t.diameter + k) length) epsilon) length = length) := by
      intro k hk
      have he : (epsilon : K) ≤ 2 * t.diameter + k := by
        have : (epsilon : K) ≤ 6 := by unfold epsilon; norm_num
        linarith
      constructor
      · intro h1
        rw [min_eq_left h1, max_eq_left he, min_eq_left h1]
      · intro h1
        rw [min_eq_right h1, max_eq_left hl, min_self]
    by_cases h1 : length ≤ 125
    · refine ⟨6, .inl ⟨h1, rfl⟩, ?_⟩
      have := key 6 le_rfl
      simpa only [boltSpec, defaultLength, Option.getD_none, if_pos h1] using this
    · by_cases h2 : length ≤ 200
      · refine ⟨12, .inr (.inl ⟨not_le.1 h1, h2, rfl⟩), ?_⟩
        have := key 12 (by norm_num)
        simpa only [boltSpec, defaultLength, Option.getD_none, if_neg h1, if_pos h2] using this
      · refine ⟨25, .inr (.inr ⟨not_le.1 h2, rfl⟩), ?_⟩
        have := key 25 (by norm_num)
        simpa only [boltSpec, defaultLength, Option.getD_none, if_neg h1, if_neg h2] using this

example : (epsilon : ℚ) ≤ 20 ∧ (0 : ℚ) < 8 ∧ (20 : ℚ) ≤ 2 * 8 + 6 := ⟨by norm_num [epsilon], by norm_num, by norm_num⟩

/-! ## C366 -/

/-- C366: a bolt of a catalog is built only if its diameter and length and the head's height are above epsilon, the thread length given, if any, too, the head is wider than the bolt, and there are at least 12 samples around and one per pitch;
nothing else is refused here. -/
theorem C366_accepted (t : ThreadData K) (h : HeadData K) (length : K) (tl : Option K) (arc samples : Int) (hd : 0 < t.diameter) :
    validateSpec (boltSpec t h length tl arc samples) = .ok () ↔
      epsilon < t.diameter ∧ epsilon < length ∧ (∀ v, tl = some v → epsilon < v) ∧ epsilon < h.height ∧ t.diameter < h.flat ∧ 12 ≤ arc ∧ 1 ≤ samples := by
  have he : (0 : K) < epsilon := eps_pos
  have hdef : epsilon < length → epsilon < defaultLength length t.diameter := by
    intro hl
    unfold defaultLength
    have : (epsilon : K) < 6 := by unfold epsilon; norm_num
    refine lt_min ?_ hl
    split_ifs <;> linarith
  have ht : epsilon < (boltSpec t h length tl arc samples).threadLength ↔ epsilon < length ∧ ∀ v, tl = some v → epsilon < v := by
    show epsilon < min (max (tl.getD _) epsilon) length ↔ _
    rw [lt_min_iff, lt_max_iff]
    simp only [lt_irrefl, or_false]
    cases tl with
    | none => simpa using hdef
    | some v => simp [and_comm]
  have hle : ¬ (boltSpec t h length tl arc samples).threadLength - (boltSpec t h length tl arc samples).shankLength > epsilon := by
    have : (boltSpec t h length tl arc samples).threadLength ≤ (boltSpec t h length tl arc samples).shankLength := min_le_right _ _
    push Not; linarith
  unfold validateSpec
  rw [if_neg hle]
  have d1 : (boltSpec t h length tl arc samples).diameter = t.diameter := rfl
  have d2 : (boltSpec t h length tl arc samples).headHeight = h.height := rfl
  have d3 : (boltSpec t h length tl arc samples).headFlat = h.flat := rfl
  have d4 : (boltSpec t h length tl arc samples).arcSamples = arc := rfl
  have d5 : (boltSpec t h length tl arc samples).pitchSamples = samples := rfl
  rw [d1, d2, d3, d4, d5]
  constructor
  · intro hv
    split_ifs at hv with c1 c2 c3 c4 c5 c6
    push Not at c1 c2 c3 c4 c5 c6
    have := ht.1 c2
    exact ⟨c1, this.1, this.2, c3, c4, c5, c6⟩
  · rintro ⟨c1, c2, c2', c3, c4, c5, c6⟩
    rw [if_neg (not_le.2 c1), if_neg (not_le.2 (ht.2 ⟨c2, c2'⟩)), if_neg (not_le.2 c3), if_neg (not_le.2 c4), if_neg (not_lt.2 c5), if_neg (not_lt.2 c6)]

/-- C366: an accepted bolt is as long as asked for: thread and unthreaded part make up the length, to within epsilon, which is what is left out -/
theorem C366_total (t : ThreadData K) (h : HeadData K) (length : K) (tl : Option K) (arc samples : Int) :
    (boltSpec t h length tl arc samples).threadLength + ((boltSpec t h length tl arc samples).unthreaded.getD 0) ≤ length ∧
    length - epsilon ≤ (boltSpec t h length tl arc samples).threadLength + ((boltSpec t h length tl arc samples).unthreaded.getD 0) := by
  have hle : (boltSpec t h length tl arc samples).threadLength ≤ length := min_le_right _ _
  have he : (0 : K) < epsilon := eps_pos
  have hs : (boltSpec t h length tl arc samples).shankLength = length := rfl
  unfold Spec.unthreaded
  rw [hs, max_eq_left (by linarith)]
  dsimp only
  split_ifs with hu
  · simp only [Option.getD_some]
    constructor <;> linarith
  · push Not at hu
    simp only [Option.getD_none, add_zero]
    exact ⟨hle, by linarith⟩

end Verif.Thread
