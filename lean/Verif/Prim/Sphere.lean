import Verif.Prim.Table
import Verif.Prim.Frustum

/-!
# The sphere built by subdividing an icosahedron
-/

namespace Verif.Prim
open Verif.Geom Verif.Surf Real

/-- a point at distance `r` from the origin -/
def OnBall (r : ℝ) (v : V4) : Prop := v.x ^ 2 + v.y ^ 2 + v.z ^ 2 = r ^ 2 ∧ v.w = 1

/-- the direction of a point at distance `r` -/
noncomputable def radial (r : ℝ) (v : V4) : V4 := ⟨v.x / r, v.y / r, v.z / r, 0⟩

/-- the point half way between -/
noncomputable def mid (r : ℝ) (u v : V4) : V4 := scale3 (add u v) (r / mag (add u v))

theorem mid_comm (r : ℝ) (u v : V4) : mid r u v = mid r v u := by
  unfold mid
  have : add u v = add v u := by unfold add; ext <;> simp <;> ring
  rw [this]

theorem mag_sq (p : V4) : mag p ^ 2 = p.x ^ 2 + p.y ^ 2 + p.z ^ 2 := by
  unfold mag
  rw [Real.sq_sqrt (add_nonneg (add_nonneg (mul_self_nonneg _) (mul_self_nonneg _)) (mul_self_nonneg _))]
  ring

theorem mag_nonneg (p : V4) : 0 ≤ mag p := Real.sqrt_nonneg _

theorem add_mag_sq {r : ℝ} {u v : V4} (hu : OnBall r u) (hv : OnBall r v) : mag (add u v) ^ 2 = 2 * r ^ 2 + 2 * dot u v := by
  rw [mag_sq]
  have h1 := hu.1
  have h2 := hv.1
  simp only [add, dot]
  linear_combination h1 + h2

theorem add_mag_bounds {r : ℝ} (hr : 0 < r) {u v : V4} (hu : OnBall r u) (hv : OnBall r v) (hd : 0 < dot u v) :
    r < mag (add u v) ∧ mag (add u v) ≤ 2 * r := by
  have h := add_mag_sq hu hv
  have h0 := mag_nonneg (add u v)
  constructor
  · nlinarith
  · have h1 := hu.1
    have h2 := hv.1
    have : dot u v ≤ r ^ 2 := by
      unfold dot
      nlinarith [sq_nonneg (u.x - v.x), sq_nonneg (u.y - v.y), sq_nonneg (u.z - v.z)]
    nlinarith

theorem mid_on {r : ℝ} (hr : 0 < r) {u v : V4} (hu : OnBall r u) (hv : OnBall r v) (hd : 0 < dot u v) : OnBall r (mid r u v) := by
  obtain ⟨h1, -⟩ := add_mag_bounds hr hu hv hd
  have hm : mag (add u v) ≠ 0 := by linarith
  have h := mag_sq (add u v)
  refine ⟨?_, rfl⟩
  unfold mid scale3
  simp only
  have : ((add u v).x * (r / mag (add u v))) ^ 2 + ((add u v).y * (r / mag (add u v))) ^ 2 + ((add u v).z * (r / mag (add u v))) ^ 2 =
      ((add u v).x ^ 2 + (add u v).y ^ 2 + (add u v).z ^ 2) * (r / mag (add u v)) ^ 2 := by ring
  rw [this, ← h]
  field_simp

theorem midVertex_ok {r : ℝ} (hr : 0 < r) {u v : V4} (hu : OnBall r u) (hv : OnBall r v) (hd : 0 < dot u v) :
    midVertex r u v = .ok (mid r u v) := by
  obtain ⟨h1, -⟩ := add_mag_bounds hr hu hv hd
  unfold midVertex
  simp only
  rw [if_neg (by linarith)]
  rfl

theorem midNormal_ok {r : ℝ} (hr : 0 < r) {u v : V4} (hu : OnBall r u) (hv : OnBall r v) (hd : 0 < dot u v) :
    midNormal (radial r u) (radial r v) = .ok (radial r (mid r u v)) := by
  obtain ⟨h1, -⟩ := add_mag_bounds hr hu hv hd
  have hm : mag (add u v) ≠ 0 := by linarith
  have e : mag (add4 (radial r u) (radial r v)) = mag (add u v) / r := by
    have h2 := mag_sq (add4 (radial r u) (radial r v))
    have h3 := mag_sq (add u v)
    have : mag (add4 (radial r u) (radial r v)) ^ 2 = (mag (add u v) / r) ^ 2 := by
      rw [h2, div_pow, h3]
      simp only [add4, radial, add]
      field_simp
    exact (pow_left_inj₀ (mag_nonneg _) (div_nonneg (mag_nonneg _) hr.le) two_ne_zero).mp this
  unfold midNormal
  simp only
  rw [e, if_neg (div_ne_zero hm hr.ne')]
  congr 1
  unfold scale4 radial mid scale3 add4 add
  ext <;> simp only
  · field_simp
  · field_simp
  · field_simp
  · ring

/-! ## how close substituted vertices may be -/

/-- on the sphere, replacing both ends by vertices within epsilon keeps the scalar product above `x - 2 r eps` -/
theorem dot_near {r : ℝ} (hr : 0 < r) {p q p' q' : V4} (hq : OnBall r q) (hp' : OnBall r p') (h1 : vclose p p') (h2 : vclose q q') :
    dot p q - 2 * r * eps ≤ dot p' q' := by
  have he : 0 < eps := by unfold eps; norm_num
  have d1 : mag (sub p p') < eps := by
    have := h1; unfold vclose close at this; rw [sub_zero, abs_of_nonneg (mag_nonneg _)] at this; exact this
  have d2 : mag (sub q q') < eps := by
    have := h2; unfold vclose close at this; rw [sub_zero, abs_of_nonneg (mag_nonneg _)] at this; exact this
  have cs : ∀ a b : V4, dot a b ≤ mag a * mag b := by
    intro a b
    have h := mag_sq a
    have h' := mag_sq b
    refine le_of_sq_le_sq ?_ (mul_nonneg (mag_nonneg a) (mag_nonneg b))
    rw [mul_pow, h, h']
    unfold dot
    nlinarith [sq_nonneg (a.x * b.y - a.y * b.x), sq_nonneg (a.x * b.z - a.z * b.x), sq_nonneg (a.y * b.z - a.z * b.y)]
  have mq : mag q = r := by
    have := mag_sq q
    rw [hq.1] at this
    exact (pow_left_inj₀ (mag_nonneg _) hr.le two_ne_zero).mp this
  have mp : mag p' = r := by
    have := mag_sq p'
    rw [hp'.1] at this
    exact (pow_left_inj₀ (mag_nonneg _) hr.le two_ne_zero).mp this
  have c1 := cs (sub p p') q
  have c2 := cs p' (sub q q')
  have e : dot p q - dot p' q' = dot (sub p p') q + dot p' (sub q q') := by unfold dot sub; ring
  rw [mq] at c1
  rw [mp] at c2
  nlinarith [mul_lt_mul_of_pos_right d1 hr, mul_lt_mul_of_pos_left d2 hr]

theorem vclose_self (p : V4) : vclose p p := by
  unfold vclose close mag sub
  simp [eps]
  norm_num

theorem dot_comm (p q : V4) : dot p q = dot q p := by unfold dot; ring

/-- an end of a side and its middle -/
theorem dot_end_mid {r : ℝ} (hr : 0 < r) {u v : V4} (hu : OnBall r u) (hv : OnBall r v) (hd : 0 < dot u v) : r ^ 2 / 2 ≤ dot u (mid r u v) := by
  obtain ⟨h1, h2⟩ := add_mag_bounds hr hu hv hd
  have hm : 0 < mag (add u v) := by linarith
  have e : dot u (mid r u v) = (r ^ 2 + dot u v) * r / mag (add u v) := by
    have := hu.1
    unfold mid scale3 dot add at *
    simp only
    field_simp
    linear_combination this
  rw [e, le_div_iff₀ hm]
  nlinarith [mul_pos hd hr]

/-- the middles of two sides -/
theorem dot_mid_mid {r : ℝ} (hr : 0 < r) {u v w : V4} (hu : OnBall r u) (hv : OnBall r v) (hw : OnBall r w) (h1 : 0 < dot u v)
    (h2 : 0 < dot v w) (h3 : 0 < dot w u) : r ^ 2 / 4 ≤ dot (mid r u v) (mid r v w) := by
  obtain ⟨a1, a2⟩ := add_mag_bounds hr hu hv h1
  obtain ⟨b1, b2⟩ := add_mag_bounds hr hv hw h2
  have ha : 0 < mag (add u v) := by linarith
  have hb : 0 < mag (add v w) := by linarith
  have e : dot (mid r u v) (mid r v w) = (r ^ 2 + dot u v + dot v w + dot w u) * r ^ 2 / (mag (add u v) * mag (add v w)) := by
    have := hv.1
    unfold mid scale3
    simp only [dot, add] at *
    field_simp
    linear_combination this
  rw [e, le_div_iff₀ (mul_pos ha hb)]
  have : mag (add u v) * mag (add v w) ≤ 2 * r * (2 * r) := mul_le_mul a2 b2 hb.le (by linarith)
  have r2 : 0 < r ^ 2 := by positivity
  nlinarith [mul_le_mul_of_nonneg_left this r2.le, mul_pos (add_pos (add_pos h1 h2) h3) r2]

/-! ## one face -/

/-- vertices on the sphere, normals their directions -/
structure Round (r : ℝ) (b : Build) : Prop where
  on : ∀ v ∈ b.vs, OnBall r v
  ns : b.ns = b.vs.map (radial r)

/-- the corners exist and any two of them are less than a right angle apart -/
def FaceOk (vs : List V4) (f : Face) : Prop :=
  ∃ u v w, vs[f.1]? = some u ∧ vs[f.2.1]? = some v ∧ vs[f.2.2]? = some w ∧ 0 < dot u v ∧ 0 < dot v w ∧ 0 < dot w u

/-- the number the table has for the middle of a side -/
noncomputable def middle (fmt : ℝ → String) (r : ℝ) (b : Build) (s : Nat × Nat) : Option Nat :=
  match b.vs[s.1]?, b.vs[s.2]? with
  | some u, some v => look fmt b (mid r u v)
  | _, _ => none

theorem middle_swap (fmt : ℝ → String) (r : ℝ) (b : Build) (s : Nat × Nat) : middle fmt r b s.swap = middle fmt r b s := by
  unfold middle
  simp only [Prod.fst_swap, Prod.snd_swap]
  cases b.vs[s.1]? <;> cases b.vs[s.2]? <;> simp [mid_comm]

theorem middle_later {fmt : ℝ → String} {r : ℝ} {b c : Build} (h : Later fmt b c) {s : Nat × Nat} {m : Nat}
    (hm : middle fmt r b s = some m) : middle fmt r c s = some m := by
  unfold middle at hm ⊢
  cases h1 : b.vs[s.1]? with
  | none => rw [h1] at hm; cases hm
  | some u =>
    cases h2 : b.vs[s.2]? with
    | none => rw [h1, h2] at hm; cases hm
    | some v =>
      rw [h1, h2] at hm
      rw [h.get h1, h.get h2]
      exact h.2.2 _ _ hm

theorem faceOk_later {fmt : ℝ → String} {b c : Build} (h : Later fmt b c) {f : Face} (hf : FaceOk b.vs f) : FaceOk c.vs f := by
  obtain ⟨u, v, w, h1, h2, h3, h4⟩ := hf
  exact ⟨u, v, w, h.get h1, h.get h2, h.get h3, h4⟩

theorem round_add {fmt : ℝ → String} {me : Nat} {r : ℝ} {b : Build} (hs : Sound me b) (hr : Round r b) {p : V4} (hp : OnBall r p) :
    Round r (addVertex fmt me p (radial r p) b).2 := by
  obtain ⟨-, -, -, -, h⟩ := addVertex_sound fmt p (radial r p) hs
  rcases h with ⟨h1, h2⟩ | ⟨-, h1, h2⟩
  · exact ⟨by rw [h1]; exact hr.on, by rw [h1, h2]; exact hr.ns⟩
  · refine ⟨?_, ?_⟩
    · rw [h1]
      intro v hv
      rcases List.mem_append.mp hv with hv | hv
      · exact hr.on v hv
      · simp at hv; rw [hv]; exact hp
    · rw [h1, h2, hr.ns]; simp

/-- the four new faces of a face whose sides have the middles `m` -/
def split (m : Nat × Nat → Nat) (f : Face) : List Face :=
  [(f.1, m (f.1, f.2.1), m (f.2.2, f.1)), (m (f.1, f.2.1), f.2.1, m (f.2.1, f.2.2)), (m (f.2.1, f.2.2), f.2.2, m (f.2.2, f.1)),
    (m (f.1, f.2.1), m (f.2.1, f.2.2), m (f.2.2, f.1))]

/-- the middles according to the table -/
noncomputable def mids (fmt : ℝ → String) (r : ℝ) (b : Build) (s : Nat × Nat) : Nat := (middle fmt r b s).getD 0

/-- the table knows exactly the vertices after the first twelve -/
structure Tabled (fmt : ℝ → String) (b : Build) : Prop where
  late : ∀ k is, b.tab.hash k = some is → ∀ i ∈ is, 12 ≤ i
  known : ∀ j v, 12 ≤ j → b.vs[j]? = some v → ∃ i, look fmt b v = some i

/-- everything that is preserved -/
structure Good (fmt : ℝ → String) (me : Nat) (r : ℝ) (b : Build) : Prop where
  sound : Sound me b
  round : Round r b
  tabled : Tabled fmt b
  big : 12 ≤ b.vs.length

theorem look_late {fmt : ℝ → String} {b : Build} (h : Tabled fmt b) {p : V4} {i : Nat} (hi : look fmt b p = some i) : 12 ≤ i := by
  unfold look at hi
  cases hk : b.tab.hash (vkey fmt p) with
  | none => rw [hk] at hi; cases hi
  | some is =>
    rw [hk] at hi
    exact h.late _ _ hk i (scan_some hi).1

theorem tabled_add {fmt : ℝ → String} {me : Nat} {b : Build} (hs : Sound me b) (ht : Tabled fmt b) (hb : 12 ≤ b.vs.length) (p n : V4) :
    Tabled fmt (addVertex fmt me p n b).2 ∧ 12 ≤ (addVertex fmt me p n b).2.vs.length := by
  obtain ⟨h1, h2, h3, -, h5⟩ := addVertex_sound fmt p n hs
  refine ⟨⟨?_, ?_⟩, ?_⟩
  · unfold addVertex
    rw [claim_sound hs]
    simp only
    split
    · rename_i is hk
      split
      · exact ht.late
      · intro k js hjs j hj
        simp only at hjs
        by_cases e : k = vkey fmt p
        · subst e
          rw [Function.update_self] at hjs
          injection hjs with hjs
          subst hjs
          rcases List.mem_append.mp hj with hj | hj
          · exact ht.late _ _ hk j (List.mem_filter.mp hj).1
          · simp at hj; omega
        · rw [Function.update_of_ne e] at hjs
          exact ht.late k js hjs j hj
    · intro k js hjs j hj
      simp only at hjs
      by_cases e : k = vkey fmt p
      · subst e
        rw [Function.update_self] at hjs
        injection hjs with hjs
        subst hjs
        simp at hj; omega
      · rw [Function.update_of_ne e] at hjs
        exact ht.late k js hjs j hj
  · intro j v hj hv
    rcases h5 with ⟨e, -⟩ | ⟨e0, e, -⟩
    · rw [e] at hv
      obtain ⟨i, hi⟩ := ht.known j v hj hv
      exact ⟨i, h2.2.2 _ _ hi⟩
    · by_cases hlt : j < b.vs.length
      · rw [e, List.getElem?_append_left hlt] at hv
        obtain ⟨i, hi⟩ := ht.known j v hj hv
        exact ⟨i, h2.2.2 _ _ hi⟩
      · rw [e, List.getElem?_append_right (by omega)] at hv
        have : v = p := by
          cases hjj : j - b.vs.length with
          | zero => rw [hjj] at hv; simpa using hv.symm
          | succ k => rw [hjj] at hv; simp at hv
        rw [this]
        exact ⟨_, h3⟩
  · rcases h5 with ⟨e, -⟩ | ⟨-, e, -⟩
    · rw [e]; exact hb
    · rw [e]; simp; omega

theorem ns_get {r : ℝ} {b : Build} (h : Round r b) {i : Nat} {v : V4} (hv : b.vs[i]? = some v) : b.ns[i]? = some (radial r v) := by
  rw [h.ns, List.getElem?_map, hv]; rfl

/-- every vertex of `c` that is not in `b` is the exact middle of one of the sides -/
def Fresh (fmt : ℝ → String) (r : ℝ) (b c : Build) (S : List (Nat × Nat)) : Prop :=
  ∀ i, b.vs.length ≤ i → i < c.vs.length → ∃ s ∈ S, ∃ u v, c.vs[s.1]? = some u ∧ c.vs[s.2]? = some v ∧ middle fmt r c s = some i ∧
    c.vs[i]? = some (mid r u v)

theorem subdivide_ok (fmt : ℝ → String) {me : Nat} {r : ℝ} (hr : 8 * eps < r) {b : Build} (h : Good fmt me r b) {f : Face} (hf : FaceOk b.vs f) :
    ∃ c, subdivide fmt me r b f = .ok (c, split (mids fmt r c) f) ∧ Good fmt me r c ∧ Later fmt b c ∧
      (∀ s ∈ lSides [f], ∃ m, middle fmt r c s = some m) ∧ (∀ g ∈ split (mids fmt r c) f, FaceOk c.vs g) ∧ Fresh fmt r b c (lSides [f]) := by
  have he : 0 < eps := by unfold eps; norm_num
  have hr0 : 0 < r := by linarith
  obtain ⟨u, v, w, hu, hv, hw, d1, d2, d3⟩ := hf
  have ou := h.round.on u (List.mem_of_getElem? hu)
  have ov := h.round.on v (List.mem_of_getElem? hv)
  have ow := h.round.on w (List.mem_of_getElem? hw)
  have oa := mid_on hr0 ou ov d1
  have ob := mid_on hr0 ov ow d2
  have oc := mid_on hr0 ow ou d3
  have s1 := addVertex_sound fmt (mid r u v) (radial r (mid r u v)) h.sound
  have r1 := round_add (fmt := fmt) h.sound h.round oa
  have t1 := tabled_add h.sound h.tabled h.big (mid r u v) (radial r (mid r u v))
  simp only at s1
  set ra := addVertex fmt me (mid r u v) (radial r (mid r u v)) b with hra
  obtain ⟨s1, l1, k1, ⟨a, ga, na⟩, x1⟩ := s1
  have s2 := addVertex_sound fmt (mid r v w) (radial r (mid r v w)) s1
  have r2 := round_add (fmt := fmt) s1 r1 ob
  have t2 := tabled_add s1 t1.1 t1.2 (mid r v w) (radial r (mid r v w))
  simp only at s2
  set rb := addVertex fmt me (mid r v w) (radial r (mid r v w)) ra.2 with hrb
  obtain ⟨s2, l2, k2, ⟨b', gb, nb⟩, x2⟩ := s2
  have s3 := addVertex_sound fmt (mid r w u) (radial r (mid r w u)) s2
  have r3 := round_add (fmt := fmt) s2 r2 oc
  have t3 := tabled_add s2 t2.1 t2.2 (mid r w u) (radial r (mid r w u))
  simp only at s3
  set rc := addVertex fmt me (mid r w u) (radial r (mid r w u)) rb.2 with hrc
  obtain ⟨s3, l3, k3, ⟨c', gc, nc⟩, x3⟩ := s3
  have L := (l1.trans l2).trans l3
  have hu' := L.get hu
  have hv' := L.get hv
  have hw' := L.get hw
  have ga' := (l2.trans l3).get ga
  have gb' := l3.get gb
  have ma : middle fmt r rc.2 (f.1, f.2.1) = some ra.1 := by
    unfold middle; simp only; rw [hu', hv']; exact (l2.trans l3).2.2 _ _ k1
  have mb : middle fmt r rc.2 (f.2.1, f.2.2) = some rb.1 := by
    unfold middle; simp only; rw [hv', hw']; exact l3.2.2 _ _ k2
  have mc : middle fmt r rc.2 (f.2.2, f.1) = some rc.1 := by
    unfold middle; simp only; rw [hw', hu']; exact k3
  have e : split (mids fmt r rc.2) f = [(f.1, ra.1, rc.1), (ra.1, f.2.1, rb.1), (rb.1, f.2.2, rc.1), (ra.1, rb.1, rc.1)] := by
    unfold split mids; rw [ma, mb, mc]; rfl
  have oa' := r3.on a (List.mem_of_getElem? ga')
  have ob' := r3.on b' (List.mem_of_getElem? gb')
  have oc' := r3.on c' (List.mem_of_getElem? gc)
  have big : 2 * r * eps < r ^ 2 / 4 := by nlinarith
  have r2' : 0 < r ^ 2 := by positivity
  -- scalar products of the corners with the vertices found
  have ua : 0 < dot u a := by
    have := dot_near hr0 oa ou (vclose_self u) na
    linarith [dot_end_mid hr0 ou ov d1]
  have va : 0 < dot a v := by
    have := dot_near hr0 oa ov (vclose_self v) na
    rw [dot_comm a v]
    have h2 := dot_end_mid hr0 ov ou (by rw [dot_comm]; exact d1)
    rw [mid_comm] at h2
    linarith
  have vb : 0 < dot v b' := by
    have := dot_near hr0 ob ov (vclose_self v) nb
    linarith [dot_end_mid hr0 ov ow d2]
  have wb : 0 < dot b' w := by
    have := dot_near hr0 ob ow (vclose_self w) nb
    rw [dot_comm b' w]
    have h2 := dot_end_mid hr0 ow ov (by rw [dot_comm]; exact d2)
    rw [mid_comm] at h2
    linarith
  have wc : 0 < dot w c' := by
    have := dot_near hr0 oc ow (vclose_self w) nc
    linarith [dot_end_mid hr0 ow ou d3]
  have uc : 0 < dot c' u := by
    have := dot_near hr0 oc ou (vclose_self u) nc
    rw [dot_comm c' u]
    have h2 := dot_end_mid hr0 ou ow (by rw [dot_comm]; exact d3)
    rw [mid_comm] at h2
    linarith
  have ab : 0 < dot a b' := by
    have := dot_near hr0 ob oa' na nb
    linarith [dot_mid_mid hr0 ou ov ow d1 d2 d3]
  have bc : 0 < dot b' c' := by
    have := dot_near hr0 oc ob' nb nc
    linarith [dot_mid_mid hr0 ov ow ou d2 d3 d1]
  have ca : 0 < dot c' a := by
    have := dot_near hr0 oa oc' nc na
    linarith [dot_mid_mid hr0 ow ou ov d3 d1 d2]
  refine ⟨rc.2, ?_, ⟨s3, r3, t3.1, t3.2⟩, L, ?_, ?_, ?_⟩
  · rw [e]
    unfold subdivide
    rw [hu, hv, hw, ns_get h.round hu, ns_get h.round hv, ns_get h.round hw]
    simp only
    rw [midVertex_ok hr0 ou ov d1, midVertex_ok hr0 ov ow d2, midVertex_ok hr0 ow ou d3]
    simp only
    rw [midNormal_ok hr0 ou ov d1, midNormal_ok hr0 ov ow d2, midNormal_ok hr0 ow ou d3]
  · intro s hs
    simp only [lSides, List.flatMap_cons, List.flatMap_nil, List.append_nil, List.mem_cons, List.not_mem_nil, or_false] at hs
    rcases hs with rfl | rfl | rfl
    · exact ⟨_, ma⟩
    · exact ⟨_, mb⟩
    · exact ⟨_, mc⟩
  · rw [e]
    intro g hg
    simp only [List.mem_cons, List.not_mem_nil, or_false] at hg
    rcases hg with rfl | rfl | rfl | rfl
    · exact ⟨u, a, c', hu', ga', gc, ua, by rw [dot_comm]; exact ca, uc⟩
    · exact ⟨a, v, b', ga', hv', gb', va, vb, by rw [dot_comm]; exact ab⟩
    · exact ⟨b', w, c', gb', hw', gc, wb, wc, by rw [dot_comm]; exact bc⟩
    · exact ⟨a, b', c', ga', gb', gc, ab, bc, ca⟩
  · have step : ∀ {x y : List V4} {k : Nat} {p q : V4}, (y = x ∨ (k = x.length ∧ y = x ++ [p])) → y[k]? = some q →
        ∀ i, x.length ≤ i → i < y.length → i = k ∧ q = p := by
      intro x y k p q h hq i h1 h2
      rcases h with h | ⟨h, h'⟩
      · rw [h] at h2; omega
      · rw [h'] at h2 hq
        simp only [List.length_append, List.length_cons, List.length_nil] at h2
        refine ⟨by omega, ?_⟩
        rw [h] at hq
        simpa using hq.symm
    intro i h1 h2
    by_cases i1 : i < ra.2.vs.length
    · obtain ⟨rfl, rfl⟩ := step (x1.imp And.left fun h => ⟨h.1, h.2.1⟩) ga i h1 i1
      exact ⟨(f.1, f.2.1), by simp [lSides], u, v, hu', hv', ma, ga'⟩
    · by_cases i2 : i < rb.2.vs.length
      · obtain ⟨rfl, rfl⟩ := step (x2.imp And.left fun h => ⟨h.1, h.2.1⟩) gb i (by omega) i2
        exact ⟨(f.2.1, f.2.2), by simp [lSides], v, w, hv', hw', mb, gb'⟩
      · obtain ⟨rfl, rfl⟩ := step (x3.imp And.left fun h => ⟨h.1, h.2.1⟩) gc i (by omega) h2
        exact ⟨(f.2.2, f.1), by simp [lSides], w, u, hw', hu', mc, gc⟩

/-! ## one round -/

theorem split_later {fmt : ℝ → String} {r : ℝ} {b c : Build} (h : Later fmt b c) {f : Face}
    (hm : ∀ s ∈ lSides [f], ∃ m, middle fmt r b s = some m) : split (mids fmt r b) f = split (mids fmt r c) f := by
  have key : ∀ s ∈ lSides [f], mids fmt r b s = mids fmt r c s := by
    intro s hs
    obtain ⟨m, hm⟩ := hm s hs
    unfold mids
    rw [hm, middle_later h hm]
  unfold split
  rw [key (f.1, f.2.1) (by simp [lSides]), key (f.2.1, f.2.2) (by simp [lSides]), key (f.2.2, f.1) (by simp [lSides])]

theorem subdivideAll_ok (fmt : ℝ → String) {me : Nat} {r : ℝ} (hr : 8 * eps < r) (fs : List Face) : ∀ {b : Build}, Good fmt me r b →
    (∀ f ∈ fs, FaceOk b.vs f) → ∃ c, subdivideAll fmt me r b fs = .ok (c, fs.flatMap (split (mids fmt r c))) ∧ Good fmt me r c ∧ Later fmt b c ∧
      (∀ s ∈ lSides fs, ∃ m, middle fmt r c s = some m) ∧ (∀ g ∈ fs.flatMap (split (mids fmt r c)), FaceOk c.vs g) ∧
      Fresh fmt r b c (lSides fs) := by
  induction fs with
  | nil => intro b h _; exact ⟨b, rfl, h, Later.refl _ _, by simp [lSides], by simp, fun i h1 h2 => by omega⟩
  | cons f fs ih =>
    intro b h hf
    obtain ⟨c, e1, g1, l1, m1, f1, n1⟩ := subdivide_ok fmt hr h (hf f (by simp))
    obtain ⟨d, e2, g2, l2, m2, f2, n2⟩ := ih g1 (fun f' hf' => faceOk_later l1 (hf f' (by simp [hf'])))
    have es := split_later l2 m1
    refine ⟨d, ?_, g2, l1.trans l2, ?_, ?_, ?_⟩
    · unfold subdivideAll
      rw [e1]
      simp only
      rw [e2]
      simp only
      rw [es, List.flatMap_cons]
    · intro s hs
      have : s ∈ lSides [f] ∨ s ∈ lSides fs := by
        simp only [lSides, List.flatMap_cons, List.flatMap_nil, List.append_nil, List.mem_append] at hs ⊢
        exact hs
      rcases this with hs | hs
      · obtain ⟨m, hm⟩ := m1 s hs
        exact ⟨m, middle_later l2 hm⟩
      · exact m2 s hs
    · rw [List.flatMap_cons]
      intro g hg
      rcases List.mem_append.mp hg with hg | hg
      · exact faceOk_later l2 (f1 g (by rw [es]; exact hg))
      · exact f2 g hg
    · intro i h1 h2
      have e2 : lSides (f :: fs) = lSides [f] ++ lSides fs := by simp [lSides]
      rw [e2]
      by_cases hi : i < c.vs.length
      · obtain ⟨s, hs, u, v, a1, a2, a3, a4⟩ := n1 i h1 hi
        exact ⟨s, by simp [hs], u, v, l2.get a1, l2.get a2, middle_later l2 a3, l2.get a4⟩
      · obtain ⟨s, hs, x⟩ := n2 i (by omega) h2
        exact ⟨s, by simp [hs], x⟩

/-! ## sides -/

/-- the two halves of a side -/
def halves (m : Nat × Nat → Nat) (s : Nat × Nat) : List (Nat × Nat) := [(s.1, m s), (m s, s.2)]

/-- the new sides inside a face -/
def inner (m : Nat × Nat → Nat) (f : Face) : List (Nat × Nat) :=
  [(m (f.1, f.2.1), m (f.2.1, f.2.2)), (m (f.2.1, f.2.2), m (f.1, f.2.1)), (m (f.2.1, f.2.2), m (f.2.2, f.1)),
    (m (f.2.2, f.1), m (f.2.1, f.2.2)), (m (f.2.2, f.1), m (f.1, f.2.1)), (m (f.1, f.2.1), m (f.2.2, f.1))]

theorem split_sides (m : Nat × Nat → Nat) (fs : List Face) :
    (lSides (fs.flatMap (split m))).Perm ((lSides fs).flatMap (halves m) ++ fs.flatMap (inner m)) := by
  induction fs with
  | nil => simp [lSides]
  | cons f fs ih =>
    have e1 : lSides ((f :: fs).flatMap (split m)) = lSides (split m f) ++ lSides (fs.flatMap (split m)) := by
      simp [lSides]
    have e2 : lSides (f :: fs) = lSides [f] ++ lSides fs := by simp [lSides]
    have e3 : (lSides (split m f)).Perm ((lSides [f]).flatMap (halves m) ++ inner m f) := by
      rw [← Multiset.coe_eq_coe]
      simp only [lSides, split, halves, inner, List.flatMap_cons, List.flatMap_nil, List.append_nil, List.cons_append, List.nil_append,
        ← Multiset.cons_coe]
      generalize m (f.1, f.2.1) = a
      generalize m (f.2.1, f.2.2) = b
      generalize m (f.2.2, f.1) = c
      rw [Multiset.coe_nil]
      simp only [← Multiset.singleton_add, add_zero]
      abel
    rw [e1, e2, List.flatMap_append, List.flatMap_cons]
    refine (e3.append ih).trans ?_
    rw [← Multiset.coe_eq_coe]
    simp only [← Multiset.coe_add]
    abel

theorem balanced_split (m : Nat × Nat → Nat) (hm : ∀ s, m s.swap = m s) (fs : List Face) (h : ((lSides fs).map Prod.swap).Perm (lSides fs)) :
    ((lSides (fs.flatMap (split m))).map Prod.swap).Perm (lSides (fs.flatMap (split m))) := by
  have hi : ∀ fs : List Face, ((fs.flatMap (inner m)).map Prod.swap).Perm (fs.flatMap (inner m)) := by
    intro fs
    induction fs with
    | nil => simp
    | cons f fs ih =>
      rw [List.flatMap_cons, List.map_append]
      refine List.Perm.append ?_ ih
      rw [← Multiset.coe_eq_coe]
      simp only [inner, List.map_cons, List.map_nil, Prod.swap_prod_mk, ← Multiset.cons_coe]
      rw [Multiset.coe_nil]
      simp only [← Multiset.singleton_add, add_zero]
      abel
  have hh : ∀ l : List (Nat × Nat), ((l.flatMap (halves m)).map Prod.swap).Perm ((l.map Prod.swap).flatMap (halves m)) := by
    intro l
    induction l with
    | nil => simp
    | cons s l ih =>
      rw [List.flatMap_cons, List.map_append, List.map_cons, List.flatMap_cons]
      refine List.Perm.append ?_ ih
      simp only [halves, hm, List.map_cons, List.map_nil, Prod.swap_prod_mk, Prod.fst_swap, Prod.snd_swap]
      exact List.Perm.swap _ _ _
  refine ((split_sides m fs).map _).trans (List.Perm.trans ?_ (split_sides m fs).symm)
  rw [List.map_append]
  exact ((hh _).trans (h.flatMap_right _)).append (hi fs)

theorem rounds_ok (fmt : ℝ → String) {me : Nat} {r : ℝ} (hr : 8 * eps < r) (d : Nat) : ∀ (fs : List Face) {b : Build}, Good fmt me r b →
    (∀ f ∈ fs, FaceOk b.vs f) → ((lSides fs).map Prod.swap).Perm (lSides fs) →
    ∃ c gs, rounds fmt me r d b fs = .ok (c, gs) ∧ Good fmt me r c ∧ Later fmt b c ∧ gs.length = 4 ^ d * fs.length ∧
      (∀ g ∈ gs, FaceOk c.vs g) ∧ ((lSides gs).map Prod.swap).Perm (lSides gs) := by
  induction d with
  | zero => intro fs b h hf hp; exact ⟨b, fs, rfl, h, Later.refl _ _, by simp, hf, hp⟩
  | succ d ih =>
    intro fs b h hf hp
    obtain ⟨c, e1, g1, l1, -, f1, -⟩ := subdivideAll_ok fmt hr fs h hf
    obtain ⟨c', gs, e2, g2, l2, n2, f2, p2⟩ := ih _ g1 f1
      (balanced_split _ (fun s => by unfold mids; rw [middle_swap]) fs hp)
    refine ⟨c', gs, ?_, g2, l1.trans l2, ?_, f2, p2⟩
    · unfold rounds
      rw [e1]
      exact e2
    · have : (fs.flatMap (split (mids fmt r c))).length = 4 * fs.length := by
        clear * -
        induction fs with
        | nil => rfl
        | cons f fs ih => rw [List.flatMap_cons, List.length_append, ih]; simp [split]; ring
      rw [n2, this, pow_succ]
      ring

end Verif.Prim
