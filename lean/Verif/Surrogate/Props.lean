import Verif.Surrogate.Model
import Mathlib.Analysis.SpecialFunctions.Trigonometric.Angle
import Mathlib.Tactic.Linarith
import Mathlib.Tactic.LinearCombination
import Mathlib.Tactic.NormNum
import Mathlib.Tactic.FieldSimp

/-!
# Reference frames of bought parts

C367: bolt circles. C368: servos and their gears. C369: features and the check of the parts.
-/

namespace Verif.Surrogate

open Verif.Dict

/-! ## C367 -/

theorem holes_eq {f : Feature} {r : ℝ} {n : Int} (hk : f.kind = .circle) (hr : f.radius = some r) (hn : f.count = some n) :
    f.holes = (List.range n.toNat).map fun i : ℕ =>
      (⟨f.point.x + r * Real.cos (radians (f.offset + (i : ℝ) * (360 / n))), f.point.y + r * Real.sin (radians (f.offset + (i : ℝ) * (360 / n))), f.point.z⟩ : P3) := by
  unfold Feature.holes
  rw [hk, hr, hn]

/-- C367: a bolt circle has as many holes as it says, all at its radius from its centre and at its height; the first is at the offset angle, and each is the one before turned by the n-th part of a turn, the
first coming after the last; no two are the same. If the circle faces up or down, they lie in its plane. The other case is missing: see `C367_out_of_plane`. -/
theorem C367_holes_partial (f : Feature) (r : ℝ) (n : ℕ) (hk : f.kind = .circle) (hr : f.radius = some r) (hn : f.count = some (n : Int)) (h0 : r ≠ 0) :
    f.holes.length = n ∧ f.holes.Nodup ∧
    (∀ h ∈ f.holes, (h.x - f.point.x) ^ 2 + (h.y - f.point.y) ^ 2 = r ^ 2 ∧ h.z = f.point.z) ∧
    (∀ h, f.holes[0]? = some h → h = ⟨f.point.x + r * Real.cos (f.offset * Real.pi / 180), f.point.y + r * Real.sin (f.offset * Real.pi / 180), f.point.z⟩) ∧
    (∀ (i : ℕ) (a b : P3), f.holes[i]? = some a → f.holes[(i + 1) % n]? = some b →
      b.x - f.point.x = (a.x - f.point.x) * Real.cos (2 * Real.pi / n) - (a.y - f.point.y) * Real.sin (2 * Real.pi / n) ∧
      b.y - f.point.y = (a.x - f.point.x) * Real.sin (2 * Real.pi / n) + (a.y - f.point.y) * Real.cos (2 * Real.pi / n)) ∧
    (f.direction.x = 0 → f.direction.y = 0 → ∀ h ∈ f.holes,
      (h.x - f.point.x) * f.direction.x + (h.y - f.point.y) * f.direction.y + (h.z - f.point.z) * f.direction.z = 0) := by
  have hh := holes_eq hk hr hn
  rw [Int.toNat_natCast] at hh
  have on : ∀ h ∈ f.holes, (h.x - f.point.x) ^ 2 + (h.y - f.point.y) ^ 2 = r ^ 2 ∧ h.z = f.point.z := by
    intro h hm
    rw [hh] at hm
    obtain ⟨i, _, rfl⟩ := List.mem_map.1 hm
    refine ⟨?_, rfl⟩
    have := Real.sin_sq_add_cos_sq (radians (f.offset + (i : ℝ) * (360 / ((n : Int) : ℝ))))
    simp only
    linear_combination r ^ 2 * this
  refine ⟨by rw [hh]; simp, ?_, on, ?_, ?_, ?_⟩
  · rw [hh]
    refine (List.nodup_map_iff_inj_on List.nodup_range).2 ?_
    intro i hi j hj he
    rw [List.mem_range] at hi hj
    injection he with h1 h2 h3
    have c := mul_left_cancel₀ h0 (add_left_cancel h1)
    have s := mul_left_cancel₀ h0 (add_left_cancel h2)
    have an := Real.Angle.cos_sin_inj c s
    obtain ⟨k, hk⟩ := Real.Angle.angle_eq_iff_two_pi_dvd_sub.1 an
    have n0 : (n : ℝ) ≠ 0 := by
      have : 0 < n := by omega
      exact_mod_cast this.ne'
    unfold radians at hk
    have pi0 := Real.pi_ne_zero
    push_cast at hk
    have e : (i : ℝ) - j = n * k := by
      field_simp at hk
      linarith
    have e' : (i : ℤ) - j = n * k := by exact_mod_cast e
    have hk0 : k = 0 := by
      by_contra hk0
      have : (n : ℤ) ≤ |(i : ℤ) - j| := by
        rw [e', abs_mul, Nat.abs_cast]
        have := Int.one_le_abs hk0
        nlinarith
      have : |(i : ℤ) - j| < n := by rw [abs_lt]; omega
      omega
    rw [hk0] at e'
    omega
  · intro h h1
    rw [hh, List.getElem?_map, Option.map_eq_some_iff] at h1
    obtain ⟨i, hi, rfl⟩ := h1
    obtain ⟨_, rfl⟩ := List.getElem?_eq_some_iff.1 hi
    simp [radians]
  · intro i a b ha hb
    rw [hh, List.getElem?_map, Option.map_eq_some_iff] at ha hb
    obtain ⟨i1, hi, rfl⟩ := ha
    obtain ⟨j1, hj, rfl⟩ := hb
    obtain ⟨hi1, rfl⟩ := List.getElem?_eq_some_iff.1 hi
    obtain ⟨hj1, rfl⟩ := List.getElem?_eq_some_iff.1 hj
    rw [List.length_range] at hi1 hj1
    simp only [List.getElem_range]
    have n0 : (n : ℝ) ≠ 0 := by
      have : 0 < n := by omega
      exact_mod_cast this.ne'
    have key : Real.cos (radians (f.offset + (((i + 1) % n : ℕ) : ℝ) * (360 / ((n : Int) : ℝ)))) = Real.cos (radians (f.offset + (i : ℝ) * (360 / ((n : Int) : ℝ))) + 2 * Real.pi / n) ∧
        Real.sin (radians (f.offset + (((i + 1) % n : ℕ) : ℝ) * (360 / ((n : Int) : ℝ)))) = Real.sin (radians (f.offset + (i : ℝ) * (360 / ((n : Int) : ℝ))) + 2 * Real.pi / n) := by
      push_cast
      by_cases hl : i + 1 < n
      · rw [Nat.mod_eq_of_lt hl]
        have : radians (f.offset + ((i + 1 : ℕ) : ℝ) * (360 / (n : ℝ))) = radians (f.offset + (i : ℝ) * (360 / (n : ℝ))) + 2 * Real.pi / n := by
          unfold radians
          push_cast
          field_simp
          ring
        rw [this]
        exact ⟨rfl, rfl⟩
      · have e : i + 1 = n := by omega
        rw [e, Nat.mod_self]
        have ei : (i : ℝ) = n - 1 := by rw [← e]; push_cast; ring
        have : radians (f.offset + (i : ℝ) * (360 / (n : ℝ))) + 2 * Real.pi / n = radians (f.offset + ((0 : ℕ) : ℝ) * (360 / (n : ℝ))) + 2 * Real.pi := by
          rw [ei]
          unfold radians
          push_cast
          field_simp
          ring
        rw [this, Real.cos_add_two_pi, Real.sin_add_two_pi]
        exact ⟨rfl, rfl⟩
    rw [key.1, key.2, Real.cos_add, Real.sin_add]
    constructor <;> ring
  · intro hx hy h hm
    rw [hx, hy, (on h hm).2]
    ring

/-- C367: what is not a circle, or lacks the radius or the number, has no holes -/
theorem C367_none (f : Feature) (h : f.kind ≠ .circle ∨ f.radius = none ∨ f.count = none) : f.holes = [] := by
  unfold Feature.holes
  split
  · next h1 h2 h3 => simp_all
  · rfl

/-- the feature of the motor's bolts -/
theorem ddsm_circle : ddsm115.get "bolt_circle".toList =
    some { name := "bolt_circle".toList, kind := .circle, point := ⟨0, 10, 0⟩, direction := ⟨0, 1, 0⟩, radius := some (152 / 10 / 2), count := some 3, offset := 0 } := by
  simp [ddsm115, Part.get, Part.add, dset, dget]

/-- C367: the holes of the hub motor DDSM115 are not in the plane of its own bolt circle, which is the face they are in: the circle faces along y, and the direction is not looked at -/
theorem C367_out_of_plane : ∃ f, ddsm115.get "bolt_circle".toList = some f ∧ f.direction = ⟨0, 1, 0⟩ ∧ ∃ h ∈ f.holes, 1 < h.y - f.point.y := by
  refine ⟨_, ddsm_circle, rfl, ?_⟩
  rw [holes_eq rfl rfl rfl]
  refine ⟨_, List.mem_map.2 ⟨1, by simp, rfl⟩, ?_⟩
  have e : radians (0 + ((1 : ℕ) : ℝ) * (360 / ((3 : Int) : ℝ))) = Real.pi - Real.pi / 3 := by
    unfold radians
    push_cast
    ring
  have h3 : (1 : ℝ) < Real.sqrt 3 := by
    rw [Real.lt_sqrt (by norm_num)]
    norm_num
  rw [e, Real.sin_pi_sub, Real.sin_pi_div_three]
  linarith

/-- C367: a circle of four holes facing up -/
example : ∃ f : Feature, f.kind = .circle ∧ f.radius = some 9 ∧ f.count = some ((4 : ℕ) : Int) ∧ (9 : ℝ) ≠ 0 ∧ f.direction.x = 0 ∧ f.direction.y = 0 :=
  ⟨{ name := [], kind := .circle, radius := some 9, count := some 4 }, rfl, rfl, rfl, by norm_num, rfl, rfl⟩

/-! ## C368 -/

/-- a servo of the library, the word for it, and the diameter of its horn's bolt circle -/
inductive IsServo : Part → Name → ℝ → Prop
  | xh540 : IsServo xh540 "XH540".toList 18
  | xh430 : IsServo xh430 "XH430".toList 16
  | xl330 : IsServo xl330 "XL330".toList 8

theorem servo_horn {p : Part} {w : Name} {d : ℝ} (h : IsServo p w d) : ∃ z r l : ℝ,
    p.get "horn_face".toList = some { name := "horn_face".toList, kind := .plane, point := ⟨0, 0, z⟩, direction := ⟨0, 0, 1⟩ } ∧
    p.get "horn_bolt_circle".toList = some { name := "horn_bolt_circle".toList, kind := .circle, point := ⟨0, 0, z⟩, direction := ⟨0, 0, 1⟩, radius := some (d / 2), count := some 4, offset := 45 } ∧
    p.get "horn_protrusion".toList = some { name := "horn_protrusion".toList, kind := .cylinder, point := ⟨0, 0, z⟩, direction := ⟨0, 0, 1⟩, radius := some r, height := some l } ∧
    r < (if w ≠ "XL330".toList then 8 else 6) / 2 ∧ l < (if w ≠ "XL330".toList then 3 else 25 / 10) := by
  cases h
  · exact ⟨24, 6 / 2, 25 / 10, by simp [xh540, servo, Part.get, Part.add, dset, dget], by simp [xh540, servo, Part.get, Part.add, dset, dget], by simp [xh540, servo, Part.get, Part.add, dset, dget], by rw [if_pos (by decide)]; norm_num, by rw [if_pos (by decide)]; norm_num⟩
  · exact ⟨19, 6 / 2, 25 / 10, by simp [xh430, servo, Part.get, Part.add, dset, dget], by simp [xh430, servo, Part.get, Part.add, dset, dget], by simp [xh430, servo, Part.get, Part.add, dset, dget], by rw [if_pos (by decide)]; norm_num, by rw [if_pos (by decide)]; norm_num⟩
  · exact ⟨145 / 10, 4 / 2, 2, by simp [xl330, servo, Part.get, Part.add, dset, dget], by simp [xl330, servo, Part.get, Part.add, dset, dget], by simp [xl330, servo, Part.get, Part.add, dset, dget], by rw [if_neg (by decide)]; norm_num, by rw [if_neg (by decide)]; norm_num⟩

/-- C368: every sun gear made for a servo with the diameter of its bolt circle fits it: put its hub's face on the horn's, which face each other; then its holes are the horn's holes, and its counterbore is wider and deeper than
the horn's protrusion. -/
theorem C368_fit (p : Part) (w : Name) (d : ℝ) (hs : IsServo p w d) (axis : Name) (face hub : ℝ) :
    ∃ hornFace hornCircle protrusion hubFace hubCircle counterbore : Feature,
      p.get "horn_face".toList = some hornFace ∧ p.get "horn_bolt_circle".toList = some hornCircle ∧ p.get "horn_protrusion".toList = some protrusion ∧
      (sunGear axis face hub d w).get "hub_face".toList = some hubFace ∧ (sunGear axis face hub d w).get "hub_bolt_circle".toList = some hubCircle ∧
      (sunGear axis face hub d w).get "center_counterbore".toList = some counterbore ∧
      (hubFace.direction.x = -hornFace.direction.x ∧ hubFace.direction.y = -hornFace.direction.y ∧ hubFace.direction.z = -hornFace.direction.z) ∧
      (hubFace.point.x = hornFace.point.x ∧ hubFace.point.y = hornFace.point.y) ∧
      (hornCircle.holes.length = 4 ∧
        hubCircle.holes.map (fun h => (⟨h.x, h.y, h.z + (hornFace.point.z - hubFace.point.z)⟩ : P3)) = hornCircle.holes) ∧
      counterbore.point = hubFace.point ∧ protrusion.point = hornFace.point ∧
      ∃ r1 r2 l1 l2, protrusion.radius = some r1 ∧ counterbore.radius = some r2 ∧ r1 < r2 ∧ protrusion.height = some l1 ∧ counterbore.height = some l2 ∧ l1 < l2 := by
  obtain ⟨z, r, l, h1, h2, h3, h4, h5⟩ := servo_horn hs
  refine ⟨_, _, _,
    { name := "hub_face".toList, kind := .plane, point := ⟨0, 0, -hub⟩, direction := ⟨0, 0, -1⟩ },
    { name := "hub_bolt_circle".toList, kind := .circle, point := ⟨0, 0, -hub⟩, direction := ⟨0, 0, -1⟩, radius := some (d / 2), count := some 4, offset := 45 },
    { name := "center_counterbore".toList, kind := .cylinder, point := ⟨0, 0, -hub⟩, direction := ⟨0, 0, 1⟩, radius := some ((if w ≠ "XL330".toList then 8 else 6) / 2), height := some (if w ≠ "XL330".toList then 3 else 25 / 10) },
    h1, h2, h3, ?_, ?_, ?_, ⟨by norm_num, by norm_num, rfl⟩, ⟨rfl, rfl⟩, ⟨?_, ?_⟩, rfl, rfl, ⟨r, _, l, _, rfl, rfl, h4, rfl, rfl, h5⟩⟩
  · simp [sunGear, Part.get, Part.add, dset, dget]
  · simp [sunGear, Part.get, Part.add, dset, dget]
  · simp [sunGear, Part.get, Part.add, dset, dget]
  · rw [holes_eq rfl rfl rfl]
    simp
  · rw [holes_eq rfl rfl rfl, holes_eq rfl rfl rfl, List.map_map]
    refine List.map_congr_left fun i _ => ?_
    simp

/-- C368: the four gears of the library are made for their servos -/
theorem C368_library : ∀ n g, (n, g) ∈ all → (∃ a, n = a ++ "_SUN_GEAR".toList) → ∃ p w d axis face hub, IsServo p w d ∧ (w, p) ∈ all ∧ g = sunGear axis face hub d w := by
  intro n g hm hn
  simp only [all, List.mem_cons, Prod.mk.injEq, List.not_mem_nil, or_false] at hm
  have no : ∀ s : Name, s.length < 9 → n = s → False := by
    intro s hs he
    obtain ⟨a, ha⟩ := hn
    rw [he] at ha
    have := congrArg List.length ha
    rw [List.length_append] at this
    simp at this
    omega
  rcases hm with ⟨h, _⟩ | ⟨h, _⟩ | ⟨h, _⟩ | ⟨h, _⟩ | ⟨_, rfl⟩ | ⟨_, rfl⟩ | ⟨_, rfl⟩ | ⟨_, rfl⟩
  · exact (no _ (by simp) h).elim
  · exact (no _ (by simp) h).elim
  · exact (no _ (by simp) h).elim
  · exact (no _ (by simp) h).elim
  · exact ⟨_, _, _, _, _, _, .xh540, by simp [all], rfl⟩
  · exact ⟨_, _, _, _, _, _, .xh430, by simp [all], rfl⟩
  · exact ⟨_, _, _, _, _, _, .xh430, by simp [all], rfl⟩
  · exact ⟨_, _, _, _, _, _, .xl330, by simp [all], rfl⟩

/-! ## C369 -/

/-- C369: a feature added is found under its name, in place of one of the same name; the others stay -/
theorem C369_features (p : Part) (f : Feature) (n : Name) :
    (p.add f).get n = if n = f.name then some f else p.get n := by
  unfold Part.add Part.get
  by_cases h : n = f.name
  · rw [if_pos h, h]
    exact dget_dset_same _ _ _
  · rw [if_neg h]
    exact dget_dset_other _ _ _ _ h

/-- C369: nothing is reported of a part just when its three axes are, to within a thousandth, of length 1 and at right angles, and its circles have a radius and a number. It is not checked that the axes are right-handed, see `C369_left_handed`. -/
theorem C369_checked_partial (p : Part) : issues p = [] ↔
    (∀ v, v = p.x ∨ v = p.y ∨ v = p.z → |Real.sqrt (v.x ^ 2 + v.y ^ 2 + v.z ^ 2) - 1| ≤ 1 / 1000) ∧
    (∀ v w, (v, w) = (p.x, p.y) ∨ (v, w) = (p.x, p.z) ∨ (v, w) = (p.y, p.z) → |v.x * w.x + v.y * w.y + v.z * w.z| ≤ 1 / 1000) ∧
    ∀ e ∈ p.features, e.2.kind = .circle → (∃ r, e.2.radius = some r) ∧ ∃ n, e.2.count = some n := by
  have hn : ∀ v : P3, norm v = Real.sqrt (v.x ^ 2 + v.y ^ 2 + v.z ^ 2) := by
    intro v; unfold norm dot; congr 1; ring
  have hl : ((([('x', p.x), ('y', p.y), ('z', p.z)].filter fun e => |norm e.2 - 1| > 1 / 1000).map fun e => Issue.length e.1) = []) ↔
      (∀ v, v = p.x ∨ v = p.y ∨ v = p.z → |Real.sqrt (v.x ^ 2 + v.y ^ 2 + v.z ^ 2) - 1| ≤ 1 / 1000) := by
    rw [List.map_eq_nil_iff, List.filter_eq_nil_iff]
    constructor
    · intro h v hv
      rw [← hn]
      have := fun c (hm : (c, v) ∈ [('x', p.x), ('y', p.y), ('z', p.z)]) => h (c, v) hm
      simp only [decide_eq_true_eq, not_lt, gt_iff_lt] at this
      rcases hv with rfl | rfl | rfl
      · exact this 'x' (by simp)
      · exact this 'y' (by simp)
      · exact this 'z' (by simp)
    · intro h e he
      have : |norm e.2 - 1| ≤ 1 / 1000 := by
        rw [hn]
        refine h e.2 ?_
        simp only [List.mem_cons, List.not_mem_nil, or_false] at he
        rcases he with rfl | rfl | rfl <;> simp
      simpa using this
  have ha : ∀ (v w : P3) (a b : Char), (if |dot v w| > 1 / 1000 then [Issue.angle a b] else []) = [] ↔ |v.x * w.x + v.y * w.y + v.z * w.z| ≤ 1 / 1000 := by
    intro v w a b
    change (if |v.x * w.x + v.y * w.y + v.z * w.z| > 1 / 1000 then [Issue.angle a b] else []) = [] ↔ _
    split_ifs with h
    · simp only [List.cons_ne_nil, false_iff, not_le]; exact h
    · simp only [true_iff]; exact not_lt.1 h
  unfold issues
  simp only [List.append_eq_nil_iff, hl, ha, List.flatMap_eq_nil_iff]
  constructor
  · rintro ⟨⟨⟨⟨h1, h2⟩, h3⟩, h4⟩, h5⟩
    refine ⟨h1, ?_, ?_⟩
    · rintro v w (h | h | h) <;> (obtain ⟨rfl, rfl⟩ := Prod.mk.injEq .. ▸ h; assumption)
    · intro e he hk
      have := h5 e he
      rw [if_pos hk, List.append_eq_nil_iff] at this
      constructor
      · rcases hr : e.2.radius with _ | r
        · rw [hr] at this; simp at this
        · exact ⟨r, rfl⟩
      · rcases hr : e.2.count with _ | r
        · rw [hr] at this; simp at this
        · exact ⟨r, rfl⟩
  · rintro ⟨h1, h2, h3⟩
    refine ⟨⟨⟨⟨h1, h2 _ _ (.inl rfl)⟩, h2 _ _ (.inr (.inl rfl))⟩, h2 _ _ (.inr (.inr rfl))⟩, ?_⟩
    intro e he
    by_cases hk : e.2.kind = .circle
    · obtain ⟨⟨r, hr⟩, n, hc⟩ := h3 e he hk
      rw [if_pos hk, hr, hc]; rfl
    · rw [if_neg hk]

/-- C369: the library's motor DDSM115 has left-handed axes, x × y = -z, of which nothing is reported -/
theorem C369_left_handed : issues ddsm115 = [] ∧
    ddsm115.x.y * ddsm115.y.z - ddsm115.x.z * ddsm115.y.y = -ddsm115.z.x ∧
    ddsm115.x.z * ddsm115.y.x - ddsm115.x.x * ddsm115.y.z = -ddsm115.z.y ∧
    ddsm115.x.x * ddsm115.y.y - ddsm115.x.y * ddsm115.y.x = -ddsm115.z.z ∧ ddsm115.z.y = 1 := by
  refine ⟨?_, by simp [ddsm115, Part.add], by simp [ddsm115, Part.add], by simp [ddsm115, Part.add], by simp [ddsm115, Part.add]⟩
  rw [C369_checked_partial]
  refine ⟨?_, ?_, ?_⟩
  · rintro v (rfl | rfl | rfl) <;> simp [ddsm115, Part.add]
  · rintro v w (h | h | h) <;> (obtain ⟨rfl, rfl⟩ := Prod.mk.injEq .. ▸ h; simp [ddsm115, Part.add])
  · intro e he hk
    simp [ddsm115, Part.add, dset] at he
    rcases he with rfl | rfl | rfl | rfl | rfl | rfl | rfl
    all_goals first
      | exact ⟨⟨_, rfl⟩, _, rfl⟩
      | simp at hk

/-- C369: a part of which something is reported: two axes that are the same -/
example : issues { name := [], y := ⟨1, 0, 0⟩ } ≠ [] := by
  rw [Ne, C369_checked_partial]
  rintro ⟨_, h, _⟩
  have := h _ _ (.inl rfl)
  norm_num at this

end Verif.Surrogate
