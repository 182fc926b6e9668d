import Verif.Intent.Model
import Mathlib.Tactic

/-!
# Properties of assembly intents

C356, C357: reference geometry. C358: connections. C359: constraints. C360: `solve`. C361: `validate`. C362: clearances. C363: what the requirements imply.
-/

namespace Verif.Intent

/-! ## specification -/

/-- on the sphere -/
def OnSphere (c : P3) (r : ℝ) (p : P3) : Prop := (p.x - c.x) ^ 2 + (p.y - c.y) ^ 2 + (p.z - c.z) ^ 2 = r ^ 2

/-- on the cylinder around the line through `c` in the direction `a`: the distance from the line is `r` -/
def OnCylinder (c a : P3) (r : ℝ) (p : P3) : Prop :=
  ((p.y - c.y) * a.z - (p.z - c.z) * a.y) ^ 2 + ((p.z - c.z) * a.x - (p.x - c.x) * a.z) ^ 2 + ((p.x - c.x) * a.y - (p.y - c.y) * a.x) ^ 2 =
    r ^ 2 * (a.x ^ 2 + a.y ^ 2 + a.z ^ 2)

/-- of length 1 -/
def Unit3 (n : P3) : Prop := n.x ^ 2 + n.y ^ 2 + n.z ^ 2 = 1

/-- scalar product -/
noncomputable def dot3 (a b : P3) : ℝ := a.x * b.x + a.y * b.y + a.z * b.z

/-- the difference of two points -/
noncomputable def minus (p q : P3) : P3 := ⟨p.x - q.x, p.y - q.y, p.z - q.z⟩

/-! ## C356 -/

theorem trig (a b : ℝ) : Real.sin a ^ 2 = 1 - Real.cos a ^ 2 ∧ Real.sin b ^ 2 = 1 - Real.cos b ^ 2 :=
  ⟨by linarith [Real.sin_sq_add_cos_sq a], by linarith [Real.sin_sq_add_cos_sq b]⟩

/-- C356: a sphere's surface points lie on the sphere; the normal there is of length 1 and is the direction away from the centre, or, if the surface is an inner one, towards it. -/
theorem C356_sphere (g : RefGeom) (c : P3) (r t z : ℝ) (hk : g.kind = .sphere) (hc : g.center = some c) (hr : g.radius = some r) (h : 1e-10 ≤ r) :
    ∃ p n, surfacePoint g t z = .ok p ∧ OnSphere c r p ∧ normalAt g p = .ok n ∧ Unit3 n ∧ dot3 n (minus p c) = if g.inner then -r else r := by
  have h0 : (0 : ℝ) < r := lt_of_lt_of_le (by norm_num) h
  obtain ⟨e1, e2⟩ := trig t z
  have on : (r * Real.cos t * Real.cos z) ^ 2 + (r * Real.sin t * Real.cos z) ^ 2 + (r * Real.sin z) ^ 2 = r ^ 2 := by
    rw [mul_pow, mul_pow, mul_pow, mul_pow, mul_pow, e1, e2]; ring
  have m : √(r * Real.cos t * Real.cos z * (r * Real.cos t * Real.cos z) + r * Real.sin t * Real.cos z * (r * Real.sin t * Real.cos z) + r * Real.sin z * (r * Real.sin z)) = r := by
    rw [← pow_two, ← pow_two, ← pow_two, on, Real.sqrt_sq h0.le]
  have hp : surfacePoint g t z = .ok ⟨c.x + r * Real.cos t * Real.cos z, c.y + r * Real.sin t * Real.cos z, c.z + r * Real.sin z⟩ := by simp only [surfacePoint, hk, hc, hr]
  have hm : normalAt g ⟨c.x + r * Real.cos t * Real.cos z, c.y + r * Real.sin t * Real.cos z, c.z + r * Real.sin z⟩ =
      .ok (if g.inner then ⟨-(r * Real.cos t * Real.cos z) / r, -(r * Real.sin t * Real.cos z) / r, -(r * Real.sin z) / r⟩ else ⟨r * Real.cos t * Real.cos z / r, r * Real.sin t * Real.cos z / r, r * Real.sin z / r⟩) := by
    simp only [normalAt, hk, hc, add_sub_cancel_left, m, if_neg (not_lt.2 h)]
    cases g.inner <;> rfl
  refine ⟨_, _, hp, by simpa [OnSphere] using on, hm, ?_, ?_⟩
  · cases g.inner <;> simp only [Unit3, Bool.false_eq_true, if_true, if_false, div_pow, neg_sq] <;> rw [← add_div, ← add_div, on, div_self (pow_ne_zero _ h0.ne')]
  · cases g.inner <;> simp only [dot3, minus, add_sub_cancel_left, Bool.false_eq_true, if_true, if_false] <;>
      rw [div_mul_eq_mul_div, div_mul_eq_mul_div, div_mul_eq_mul_div, ← add_div, ← add_div, div_eq_iff h0.ne'] <;> linarith [on]

/-- C356: the normal of a plane has length 1 and the direction given, wherever the point is; a normal of length 0 is refused. -/
theorem C356_plane (g : RefGeom) (v p : P3) (hk : g.kind = .plane) (hn : g.normal = some v) :
    (v ≠ ⟨0, 0, 0⟩ → ∃ n, normalAt g p = .ok n ∧ Unit3 n ∧ ∃ k, 0 < k ∧ v = ⟨k * n.x, k * n.y, k * n.z⟩) ∧ (v = ⟨0, 0, 0⟩ → normalAt g p = .error .zeroDivision) := by
  have e : v.x * v.x + v.y * v.y + v.z * v.z = 0 ↔ v = ⟨0, 0, 0⟩ := by
    constructor
    · intro h
      have a := mul_self_nonneg v.x
      have b := mul_self_nonneg v.y
      have c := mul_self_nonneg v.z
      have ha : v.x = 0 := mul_self_eq_zero.1 (by linarith)
      have hb : v.y = 0 := mul_self_eq_zero.1 (by linarith)
      have hc : v.z = 0 := mul_self_eq_zero.1 (by linarith)
      cases v; simp_all
    · rintro rfl; simp
  have nn : 0 ≤ v.x * v.x + v.y * v.y + v.z * v.z := by linarith [mul_self_nonneg v.x, mul_self_nonneg v.y, mul_self_nonneg v.z]
  constructor
  · intro hv
    have hp : 0 < v.x * v.x + v.y * v.y + v.z * v.z := lt_of_le_of_ne nn fun h => hv (e.1 h.symm)
    have hs : 0 < √(v.x * v.x + v.y * v.y + v.z * v.z) := Real.sqrt_pos.2 hp
    have hm : normalAt g p = .ok ⟨v.x / √(v.x * v.x + v.y * v.y + v.z * v.z), v.y / √(v.x * v.x + v.y * v.y + v.z * v.z), v.z / √(v.x * v.x + v.y * v.y + v.z * v.z)⟩ := by simp only [normalAt, hk, hn, if_neg hs.ne']
    refine ⟨_, hm, ?_, _, hs, ?_⟩
    · simp only [Unit3, div_pow, Real.sq_sqrt nn]
      rw [← add_div, ← add_div, div_eq_one_iff_eq hp.ne']; ring
    · simp only [mul_div_cancel₀ _ hs.ne']
  · intro hv
    simp only [normalAt, hk, hn, e.2 hv, Real.sqrt_zero, if_true]

/-- C356: a cylinder or a sphere without a centre or a radius has no surface points; one without a centre has no normals. -/
theorem C356_missing (g : RefGeom) (t z : ℝ) (p : P3) (hk : g.kind = .cylinder ∨ g.kind = .sphere) :
    (surfacePoint g t z = .error .valueError ↔ g.center = none ∨ g.radius = none) ∧ (normalAt g p = .error .valueError ↔ g.center = none) := by
  constructor
  · rcases hk with hk | hk <;> rcases hc : g.center with _ | c <;> rcases hr : g.radius with _ | r <;> simp [surfacePoint, hk, hc, hr]
  · rcases hk with hk | hk <;> rcases hc : g.center with _ | c <;> simp only [normalAt, hk, hc, reduceCtorEq, iff_false] <;> split_ifs <;> simp

example : ∃ g : RefGeom, g.kind = .sphere ∧ g.center = some ⟨1, 2, 3⟩ ∧ g.radius = some 2 ∧ (1e-10 : ℝ) ≤ 2 :=
  ⟨⟨[], .sphere, some ⟨1, 2, 3⟩, none, some 2, none, false⟩, rfl, rfl, rfl, by norm_num⟩

/-! ## C357 -/

/-- C357 (partial): the surface points of a cylinder lie on it, at the height asked for, and the normals there are of length 1, at right angles to the axis, and point away from the axis (inner: towards it), if the axis
is parallel to z. The full property is about all axes. -/
theorem C357_cylinder_partial (g : RefGeom) (c : P3) (r t z k : ℝ) (hk : g.kind = .cylinder) (hc : g.center = some c) (hr : g.radius = some r) (h : 1e-10 ≤ r) (ha : g.axis = some ⟨0, 0, k⟩) :
    ∃ p n, surfacePoint g t z = .ok p ∧ OnCylinder c ⟨0, 0, k⟩ r p ∧ p.z = c.z + z ∧ normalAt g p = .ok n ∧ Unit3 n ∧ dot3 n ⟨0, 0, k⟩ = 0 ∧ dot3 n (minus p c) = if g.inner then -r else r := by
  have h0 : (0 : ℝ) < r := lt_of_lt_of_le (by norm_num) h
  obtain ⟨e1, -⟩ := trig t z
  have on : (r * Real.cos t) ^ 2 + (r * Real.sin t) ^ 2 = r ^ 2 := by
    rw [mul_pow, mul_pow, e1]; ring
  have m : √(r * Real.cos t * (r * Real.cos t) + r * Real.sin t * (r * Real.sin t)) = r := by
    rw [← pow_two, ← pow_two, on, Real.sqrt_sq h0.le]
  have hp : surfacePoint g t z = .ok ⟨c.x + r * Real.cos t, c.y + r * Real.sin t, c.z + z⟩ := by simp only [surfacePoint, hk, hc, hr]
  have hm : normalAt g ⟨c.x + r * Real.cos t, c.y + r * Real.sin t, c.z + z⟩ =
      .ok (if g.inner then ⟨-(r * Real.cos t) / r, -(r * Real.sin t) / r, 0⟩ else ⟨r * Real.cos t / r, r * Real.sin t / r, 0⟩) := by
    simp only [normalAt, hk, hc, add_sub_cancel_left, m, if_neg (not_lt.2 h)]
    cases g.inner <;> rfl
  refine ⟨_, _, hp, ?_, rfl, hm, ?_, ?_, ?_⟩
  · simp only [OnCylinder, add_sub_cancel_left]
    linear_combination k ^ 2 * on
  · cases g.inner <;> simp only [Unit3, Bool.false_eq_true, if_true, if_false, div_pow, neg_sq] <;> rw [zero_pow two_ne_zero, add_zero, ← add_div, on, div_self (pow_ne_zero _ h0.ne')]
  · cases g.inner <;> simp [dot3]
  · cases g.inner <;> simp only [dot3, minus, add_sub_cancel_left, Bool.false_eq_true, if_true, if_false] <;>
      rw [div_mul_eq_mul_div, div_mul_eq_mul_div, zero_mul, add_zero, ← add_div, div_eq_iff h0.ne'] <;> linarith [on]

/-- C357 is violated: the axis is not used: the point of a cylinder along x is not on it, and its normal runs along the axis. -/
theorem C357_axis_ignored : ∃ (g : RefGeom) (c a p n : P3) (r : ℝ), g.kind = .cylinder ∧ g.center = some c ∧ g.axis = some a ∧ g.radius = some r ∧
    surfacePoint g 0 0 = .ok p ∧ ¬ OnCylinder c a r p ∧ normalAt g p = .ok n ∧ dot3 n a ≠ 0 := by
  refine ⟨⟨[], .cylinder, some ⟨0, 0, 0⟩, some ⟨1, 0, 0⟩, some 1, none, false⟩, ⟨0, 0, 0⟩, ⟨1, 0, 0⟩, ⟨1, 0, 0⟩, ⟨1, 0, 0⟩, 1, rfl, rfl, rfl, rfl, ?_, ?_, ?_, ?_⟩
  · simp [surfacePoint]
  · simp [OnCylinder]
  · norm_num [normalAt]
  · simp [dot3]

/-! ## C358 -/

theorem split_ne (s : Name) : split s ≠ [] := by
  cases s with
  | nil => simp [split]
  | cons c cs =>
    simp only [split]
    split
    · simp
    · split_ifs <;> simp

theorem split_plain (s : Name) (h : '.' ∉ s) : split s = [s] := by
  induction s with
  | nil => rfl
  | cons c cs ih =>
    simp only [List.mem_cons, not_or] at h
    simp only [split, ih h.2, if_neg (Ne.symm h.1)]

theorem split_dot (a s : Name) (h : '.' ∉ a) : split (a ++ '.' :: s) = a :: split s := by
  induction a with
  | nil =>
    simp only [List.nil_append, split]
    split
    · rename_i e; exact absurd e (split_ne s)
    · rename_i e; simp [e]
  | cons c cs ih =>
    simp only [List.mem_cons, not_or] at h
    simp only [List.cons_append, split, ih h.2, if_neg (Ne.symm h.1)]

theorem part_dot (a b : Name) (ha : '.' ∉ a) (hb : '.' ∉ b) : partOf (a ++ '.' :: b) = a ∧ datumOf (a ++ '.' :: b) = b := by
  simp [partOf, datumOf, split_dot a b ha, split_plain b hb]

theorem part_plain (a : Name) (ha : '.' ∉ a) : partOf a = a ∧ datumOf a = "origin".toList := by
  simp [partOf, datumOf, ha]

/-- C358: a connection of `a.p` with `b.q` is a mate of the datums `p` of the part `a` and `q` of the part `b`, called `a_to_b`; an end that names no datum is the part's `origin`. -/
theorem C358_ends (c : Connection) (a p b q : Name) (ha : '.' ∉ a) (hp : '.' ∉ p) (hb : '.' ∉ b) (hq : '.' ∉ q)
    (h1 : c.parent = a ++ '.' :: p ∨ c.parent = a ∧ p = "origin".toList) (h2 : c.child = b ++ '.' :: q ∨ c.child = b ∧ q = "origin".toList) :
    c.mate.partA = a ∧ c.mate.datumA = p ∧ c.mate.partB = b ∧ c.mate.datumB = q ∧ c.mate.name = a ++ "_to_".toList ++ b := by
  have e1 : partOf c.parent = a ∧ datumOf c.parent = p := by
    rcases h1 with h | ⟨h, rfl⟩
    · rw [h]; exact part_dot a p ha hp
    · rw [h]; exact part_plain a ha
  have e2 : partOf c.child = b ∧ datumOf c.child = q := by
    rcases h2 with h | ⟨h, rfl⟩
    · rw [h]; exact part_dot b q hb hq
    · rw [h]; exact part_plain b hb
  obtain ⟨e1, e1'⟩ := e1
  obtain ⟨e2, e2'⟩ := e2
  unfold Connection.mate
  cases c.joint <;> exact ⟨e1, e1', e2, e2', by simp [e1, e2]⟩

/-- C358: the mate is of the joint's type. The limits of a revolute joint are in degrees and become radians, those of a prismatic joint stay as they are; other joints have no limits. A joint of an unknown type has a mate without a
type. -/
theorem C358_type (c : Connection) :
    c.mate.mateType = (match c.joint with
      | .rigid => some .coincident | .revolute => some .revolute | .prismatic => some .prismatic
      | .cylindrical => some .cylindrical | .spherical => some .spherical | .other => none) ∧
    (∀ lo hi, c.mate.limits = some (lo, hi) ↔
      (c.joint = .revolute ∧ ∃ a b, c.limits = some (a, b) ∧ 180 * lo = a * Real.pi ∧ 180 * hi = b * Real.pi) ∨ (c.joint = .prismatic ∧ c.limits = some (lo, hi))) ∧
    (c.joint = .revolute ∨ c.joint = .prismatic → c.mate.axis = c.axis) := by
  unfold Connection.mate
  cases hj : c.joint <;> simp
  intro lo hi
  constructor
  · rintro ⟨a, b, h, rfl, rfl⟩
    exact ⟨a, b, h, by unfold radians; ring, by unfold radians; ring⟩
  · rintro ⟨a, b, h, e1, e2⟩
    exact ⟨a, b, h, by unfold radians; linarith, by unfold radians; linarith⟩

/-- a connection with a datum on one side and a part on the other -/
example : ∃ c : Connection, c.parent = "arm".toList ++ '.' :: "hub".toList ∧ c.child = "wheel".toList ∧ '.' ∉ "arm".toList ∧ '.' ∉ "hub".toList ∧ '.' ∉ "wheel".toList :=
  ⟨⟨"arm.hub".toList, "wheel".toList, .revolute, none, none⟩, by decide, rfl, by decide, by decide, by decide⟩

/-! ## C359 -/

/-- C359: the constraints of an intent are those of each requirement in turn, then a mate for each connection. -/
theorem C359_all (i : Intent) (cs : List Spec) (h : i.collect = .ok cs) :
    ∃ ls, List.Forall₂ (fun q l => implied i.refs q = .ok l) i.reqs ls ∧ cs = ls.flatten ++ i.conns.map fun c => Spec.mate c.mate := by
  have key : ∀ (qs : List Req) (l : List Spec), impliedAll i.refs qs = .ok l → ∃ ls, List.Forall₂ (fun q l => implied i.refs q = .ok l) qs ls ∧ l = ls.flatten := by
    intro qs
    induction qs with
    | nil => rintro l h; cases h; exact ⟨[], .nil, rfl⟩
    | cons q qs ih =>
      intro l h
      simp only [impliedAll] at h
      split at h
      · cases h
      · rename_i l1 e1
        split at h
        · cases h
        · rename_i l2 e2
          cases h
          obtain ⟨ls, h1, rfl⟩ := ih _ e2
          exact ⟨l1 :: ls, .cons e1 h1, rfl⟩
  unfold Intent.collect at h
  split at h
  · cases h
  · rename_i l e
    cases h
    obtain ⟨ls, h1, rfl⟩ := key _ _ e
    exact ⟨ls, h1, rfl⟩

theorem split_count (s : Name) : (split s).length = s.count '.' + 1 := by
  induction s with
  | nil => rfl
  | cons c cs ih =>
    simp only [split]
    split
    · rename_i e; exact absurd e (split_ne cs)
    · rename_i w ws e
      rw [e] at ih
      by_cases hc : c = '.'
      · subst hc; simp at ih ⊢; omega
      · simp [hc, List.count_cons] at ih ⊢; omega

theorem axisOf_ok (p s : Name) : (∃ x, axisOf p s = .ok x) ↔ s.count '.' ≤ 1 := by
  unfold axisOf
  have := split_count s
  split_ifs with h
  · split
    · rename_i e; simp [e] at this; simp; omega
    · rename_i e
      simp only [reduceCtorEq, exists_false, false_iff]
      intro hc
      have h1 : 0 < s.count '.' := List.count_pos_iff.2 h
      have h2 : (split s).length = 2 := by omega
      rw [List.length_eq_two] at h2
      obtain ⟨a, b, h2⟩ := h2
      exact e a b h2
  · simp [List.count_eq_zero_of_not_mem h]

/-- C359: an intent has constraints unless the axis of a parallel requirement has more than one dot. -/
theorem C359_refused (i : Intent) : (∃ cs, i.collect = .ok cs) ↔ ∀ p a b, Req.parallel p a b ∈ i.reqs → a.count '.' ≤ 1 ∧ b.count '.' ≤ 1 := by
  have one : ∀ q, (∃ l, implied i.refs q = .ok l) ↔ ∀ p a b, q = .parallel p a b → a.count '.' ≤ 1 ∧ b.count '.' ≤ 1 := by
    intro q
    cases q with
    | parallel p a b =>
      have ea := axisOf_ok p a
      have eb := axisOf_ok p b
      have : (∀ p' a' b', Req.parallel p a b = .parallel p' a' b' → a'.count '.' ≤ 1 ∧ b'.count '.' ≤ 1) ↔ a.count '.' ≤ 1 ∧ b.count '.' ≤ 1 :=
        ⟨fun h => h p a b rfl, fun h p' a' b' e => by cases e; exact h⟩
      rw [this, ← ea, ← eb]
      simp only [implied, parallelSpecs]
      rcases axisOf p a with e | ⟨x, y⟩ <;> rcases axisOf p b with e' | ⟨x', y'⟩ <;> simp
    | _ => simp [implied]
  have all : (∃ l, impliedAll i.refs i.reqs = .ok l) ↔ ∀ q ∈ i.reqs, ∃ l, implied i.refs q = .ok l := by
    generalize i.reqs = qs
    induction qs with
    | nil => simp [impliedAll]
    | cons q qs ih =>
      simp only [List.forall_mem_cons, ← ih, impliedAll]
      rcases implied i.refs q with e | l <;> rcases impliedAll i.refs qs with e' | l' <;> simp
  have : (∃ cs, i.collect = .ok cs) ↔ ∃ l, impliedAll i.refs i.reqs = .ok l := by
    unfold Intent.collect
    rcases impliedAll i.refs i.reqs with e | l <;> simp
  rw [this, all]
  constructor
  · intro h p a b hq
    exact (one _).1 (h _ hq) p a b rfl
  · intro h q hq
    exact (one q).2 fun p a b e => h p a b (e ▸ hq)

end Verif.Intent
