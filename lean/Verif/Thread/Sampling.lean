import Verif.Thread.Model
import Mathlib.Tactic.Positivity
import Mathlib.Tactic.FieldSimp
import Mathlib.Data.Rat.Floor
import Mathlib.Algebra.Order.Ring.Rat
import Mathlib.Tactic.NormNum

/-! # The samples of a thread: where they are -/

namespace Verif.Thread

set_option linter.unusedSectionVars false

variable {K : Type} [Field K] [LinearOrder K] [IsStrictOrderedRing K] [FloorRing K]

theorem lead_pos {p : Profile K} (h : 0 < p.pitch) : 0 < p.lead := by
  unfold Profile.lead
  refine mul_pos h ?_
  have : (1 : Int) ≤ max 1 p.starts := le_max_left _ _
  have : ((1 : Int) : K) ≤ ((max 1 p.starts : Int) : K) := by exact_mod_cast this
  have h1 : (0 : K) < ((1 : Int) : K) := by norm_num
  linarith

/-- the set of points is between the ends, and the ends are in it -/
theorem points_range {p : Profile K} {lo hi : K} {samples : Int} (h : lo ≤ hi) : (∀ x ∈ p.points lo hi samples, lo ≤ x ∧ x ≤ hi) ∧ lo ∈ p.points lo hi samples ∧ hi ∈ p.points lo hi samples := by
  refine ⟨fun x hx => ?_, by simp [Profile.points], by simp [Profile.points]⟩
  unfold Profile.points at hx
  simp only [Finset.mem_union, Finset.mem_insert, Finset.mem_singleton, Finset.mem_biUnion, Finset.mem_image] at hx
  rcases hx with (rfl | rfl) | ⟨i, -, y, -, rfl⟩
  · exact ⟨le_refl _, h⟩
  · exact ⟨h, le_refl _⟩
  · exact ⟨le_min (le_max_right _ _) h, min_le_right _ _⟩

/-- the position of a sample -/
def clamp (lo hi x : K) : K := if x < lo then lo else if x > hi then hi else x

theorem sampleAt_fst (p : Profile K) (lo hi theta base : K) : (p.sampleAt lo hi theta base).1 = clamp lo hi (base + p.offset theta) := rfl

theorem clamp_range {lo hi x : K} (h : lo ≤ hi) : lo ≤ clamp lo hi x ∧ clamp lo hi x ≤ hi := by
  unfold clamp
  split
  · exact ⟨le_refl _, h⟩
  · split
    · exact ⟨h, le_refl _⟩
    · rename_i h1 h2; exact ⟨not_lt.1 h1, not_lt.1 h2⟩

theorem clamp_mono {lo hi x y : K} (h : lo ≤ hi) (hxy : x ≤ y) : clamp lo hi x ≤ clamp lo hi y := by
  unfold clamp
  split <;> split <;> try split
  all_goals first | linarith | (split <;> linarith)

/-- C305: samples are made exactly if the range is not empty and the pitch is positive -/
theorem C305_domain (p : Profile K) (lo hi theta : K) (samples : Int) : (∃ r, p.sample lo hi theta samples = .ok r) ↔ lo < hi ∧ 0 < p.pitch := by
  unfold Profile.sample
  constructor
  · rintro ⟨r, h⟩
    split at h
    · exact nomatch h
    · split at h
      · exact nomatch h
      · rename_i h1 h2; exact ⟨not_le.1 h1, not_le.1 h2⟩
  · rintro ⟨h1, h2⟩
    rw [if_neg (not_le.2 h1), if_neg (not_le.2 h2)]
    exact ⟨_, rfl⟩

theorem sample_ok {p : Profile K} {lo hi theta : K} {samples : Int} {r : List (K × K) × Int} (h : p.sample lo hi theta samples = .ok r) :
    lo < hi ∧ 0 < p.pitch ∧ r = (((p.points (lo - p.lead) hi samples).sort (· ≤ ·)).map (p.sampleAt lo hi theta), p.wrap samples) := by
  obtain ⟨h1, h2⟩ := (C305_domain p lo hi theta samples).1 ⟨r, h⟩
  unfold Profile.sample at h
  rw [if_neg (not_le.2 h1), if_neg (not_le.2 h2), Except.ok.injEq] at h
  exact ⟨h1, h2, h.symm⟩

/-- C305: the samples are in order along the axis, and in the range asked for -/
theorem C305_order {p : Profile K} {lo hi theta : K} {samples : Int} {r : List (K × K) × Int} (h : p.sample lo hi theta samples = .ok r) :
    (r.1.map (·.1)).Pairwise (· ≤ ·) ∧ ∀ s ∈ r.1, lo ≤ s.1 ∧ s.1 ≤ hi := by
  obtain ⟨h1, h2, rfl⟩ := sample_ok h
  dsimp only
  constructor
  · rw [List.map_map, List.pairwise_map]
    refine (Finset.pairwise_sort _ _).imp fun {a b} hab => ?_
    simp only [Function.comp, sampleAt_fst]
    exact clamp_mono h1.le (by linarith)
  · intro s hs
    obtain ⟨b, -, rfl⟩ := List.mem_map.1 hs
    rw [sampleAt_fst]
    exact clamp_range h1.le

theorem sort_head {s : Finset K} {a : K} (ha : a ∈ s) (h : ∀ x ∈ s, a ≤ x) : (s.sort (· ≤ ·)).head? = some a := by
  cases hs : s.sort (· ≤ ·) with
  | nil =>
    have : a ∈ s.sort (· ≤ ·) := (Finset.mem_sort _).2 ha
    rw [hs] at this; simp at this
  | cons b l =>
    have hb : b ∈ s := by rw [← Finset.mem_sort (r := (· ≤ ·)), hs]; simp
    have hp := Finset.pairwise_sort s (· ≤ ·)
    rw [hs, List.pairwise_cons] at hp
    have : a ∈ s.sort (· ≤ ·) := (Finset.mem_sort _).2 ha
    rw [hs, List.mem_cons] at this
    rcases this with rfl | h'
    · rfl
    · rw [le_antisymm (h b hb) (hp.1 a h')]; rfl

theorem sort_last {s : Finset K} {a : K} (ha : a ∈ s) (h : ∀ x ∈ s, x ≤ a) : (s.sort (· ≤ ·)).getLast? = some a := by
  have hne : s.sort (· ≤ ·) ≠ [] := fun h0 => by
    have : a ∈ s.sort (· ≤ ·) := (Finset.mem_sort _).2 ha
    rw [h0] at this; simp at this
  rw [List.getLast?_eq_some_getLast hne, Option.some.injEq]
  have h1 : (s.sort (· ≤ ·)).getLast hne ∈ s := (Finset.mem_sort (r := (· ≤ ·))).1 (List.getLast_mem hne)
  refine le_antisymm (h _ h1) ?_
  have hp := Finset.pairwise_sort s (· ≤ ·)
  rw [← List.dropLast_append_getLast hne, List.pairwise_append] at hp
  have : a ∈ s.sort (· ≤ ·) := (Finset.mem_sort _).2 ha
  rw [← List.dropLast_append_getLast hne, List.mem_append, List.mem_singleton] at this
  rcases this with h' | h'
  · exact hp.2.2 a h' _ (by simp)
  · exact h'.le

/-- the first and the last sample -/
theorem sample_ends {p : Profile K} {lo hi theta : K} {samples : Int} {r : List (K × K) × Int} (h : p.sample lo hi theta samples = .ok r) :
    (r.1.map (·.1)).head? = some (clamp lo hi (lo - p.lead + p.offset theta)) ∧ (r.1.map (·.1)).getLast? = some (clamp lo hi (hi + p.offset theta)) := by
  obtain ⟨h1, h2, rfl⟩ := sample_ok h
  have hl := lead_pos h2
  obtain ⟨hr, ha, hb⟩ := points_range (p := p) (lo := lo - p.lead) (hi := hi) (samples := samples) (by linarith)
  dsimp only
  rw [List.map_map]
  constructor
  · rw [List.head?_map, sort_head ha fun x hx => (hr x hx).1]; rfl
  · rw [List.getLast?_map, sort_last hb fun x hx => (hr x hx).2]; rfl

/-- C305: a right-handed thread reaches from end to end at every angle of the turn -/
theorem C305_ends_partial {p : Profile K} {lo hi theta : K} {samples : Int} {r : List (K × K) × Int} (h : p.sample lo hi theta samples = .ok r) (hp : p.left = false)
    (h0 : 0 ≤ theta) (h1 : theta ≤ 360) : (r.1.map (·.1)).head? = some lo ∧ (r.1.map (·.1)).getLast? = some hi := by
  obtain ⟨hlt, hpit, -⟩ := sample_ok h
  have hl := lead_pos hpit
  obtain ⟨e1, e2⟩ := sample_ends h
  have ho : p.offset theta = theta / 360 * p.lead := by unfold Profile.offset; rw [hp]; rfl
  have ho0 : 0 ≤ p.offset theta := by rw [ho]; positivity
  have ho1 : p.offset theta ≤ p.lead := by
    rw [ho]
    have : theta / 360 ≤ 1 := by rw [div_le_one (by norm_num)]; exact h1
    nlinarith
  rw [e1, e2]
  unfold clamp
  constructor
  · congr 1
    split
    · rfl
    · rename_i h3
      rw [if_neg (by linarith)]
      linarith
  · congr 1
    rw [if_neg (by linarith)]
    split
    · rfl
    · rename_i h3
      linarith

/-- C305: a left-handed thread does not: its last sample is short of the end by the part of the turn, at every angle but 0 -/
theorem C305_left_short {p : Profile K} {lo hi theta : K} {samples : Int} {r : List (K × K) × Int} (h : p.sample lo hi theta samples = .ok r) (hp : p.left = true)
    (h0 : 0 < theta) : ∃ z, (r.1.map (·.1)).getLast? = some z ∧ z < hi ∧ z = max lo (hi - theta / 360 * p.lead) := by
  obtain ⟨hlt, hpit, -⟩ := sample_ok h
  have hl := lead_pos hpit
  obtain ⟨-, e2⟩ := sample_ends h
  have ho : p.offset theta = -(theta / 360 * p.lead) := by unfold Profile.offset; rw [hp]; rfl
  have hpos : 0 < theta / 360 * p.lead := by positivity
  refine ⟨_, e2, ?_, ?_⟩
  · unfold clamp
    rw [ho]
    split
    · exact hlt
    · rw [if_neg (by linarith)]
      linarith
  · unfold clamp
    rw [ho]
    split
    · rw [max_eq_left (by linarith)]
    · rw [if_neg (by linarith), max_eq_right (by linarith)]
      ring

/-- C306: all the angles have the same number of samples and the same wrap, and the samples with the same index are the same point of the profile, moved along the axis: where two of them are away from
    the ends of a thread without taper they have the same radius, and the distance between them is the lead times the part of the turn -/
theorem C306_same {p : Profile K} {lo hi a b : K} {samples : Int} {r s : List (K × K) × Int} (hr : p.sample lo hi a samples = .ok r) (hs : p.sample lo hi b samples = .ok s) :
    r.1.length = s.1.length ∧ r.2 = s.2 ∧
      (p.taper = 0 → ∀ (k : Nat) x y, r.1[k]? = some x → s.1[k]? = some y → (∀ z ∈ [x, y], lo + p.lead / 5 ≤ z.1 ∧ z.1 ≤ hi - p.lead / 5) →
        x.2 = y.2 ∧ y.1 - x.1 = if p.left then (a - b) / 360 * p.lead else (b - a) / 360 * p.lead) := by
  obtain ⟨h1, h2, rfl⟩ := sample_ok hr
  obtain ⟨-, -, rfl⟩ := sample_ok hs
  refine ⟨by simp, rfl, fun ht k x y hx hy hz => ?_⟩
  have hl := lead_pos h2
  dsimp only at hx hy
  rw [List.getElem?_map, Option.map_eq_some_iff] at hx hy
  obtain ⟨c, hc, rfl⟩ := hx
  obtain ⟨c', hc', rfl⟩ := hy
  rw [hc, Option.some.injEq] at hc'
  subst hc'
  have hcore : ∀ theta, lo + p.lead / 5 ≤ (p.sampleAt lo hi theta c).1 ∧ (p.sampleAt lo hi theta c).1 ≤ hi - p.lead / 5 →
      (p.sampleAt lo hi theta c).1 = c + p.offset theta ∧ (p.sampleAt lo hi theta c).2 = p.radiusAt 0 c := by
    intro theta hth
    have hrad : ∀ z, p.radiusAt z c = p.radiusAt 0 c := by
      intro z; unfold Profile.radiusAt; rw [ht]; simp only [zero_mul]
    constructor
    · rw [sampleAt_fst] at hth ⊢
      unfold clamp at hth ⊢
      split at hth
      · linarith
      · split at hth
        · linarith
        · rename_i h3 h4
          rw [if_neg h3, if_neg h4]
    · unfold Profile.sampleAt at hth ⊢
      dsimp only at hth ⊢
      rw [if_neg (by linarith), if_neg (by linarith), hrad]
  obtain ⟨a1, a2⟩ := hcore a (hz _ (by simp))
  obtain ⟨b1, b2⟩ := hcore b (hz _ (by simp))
  refine ⟨by rw [a2, b2], ?_⟩
  rw [a1, b1]
  unfold Profile.offset
  cases p.left
  · simp only [Bool.false_eq_true, if_false]; ring
  · simp only [if_true]; ring

/-- an M8 thread -/
example : ∃ r, (metric (8 : ℚ) (5 / 4) 1 false).sample 0 20 90 1 = .ok r := (C305_domain _ _ _ _ _).2 (by unfold metric; norm_num)

end Verif.Thread
