import Verif.Prim.Frustum
import Verif.Surf.Witness

/-!
# C179: cylinders, conic frusta and cones
-/

namespace Verif.Prim
open Verif.Geom Verif.Surf Real

theorem add_comm4 (a b : V4) : add a b = add b a := by
  unfold add; simp only [V4.mk.injEq, and_true]; exact ⟨by ring, by ring, by ring⟩

theorem circle_pos (c : V4) (r : ℝ) {n k : Nat} (hk : k < n) :
    circlePoint c r n k = pt (cos (ang ((k : ℕ) : ZMod n)) * r + c.x) (sin (ang ((k : ℕ) : ZMod n)) * r + c.y) c.z := by
  rw [circlePoint_eq c r hk]
  simp [add, pt]

theorem prev_next {n i : Nat} (hn : 3 ≤ n) :
    (((i + (n - 1)) % n : ℕ) : ZMod n) ≠ (((i + 1) % n : ℕ) : ZMod n) := by
  have h := two_ne hn (((i + (n - 1)) % n : ℕ) : ZMod n)
  intro e
  refine h (Eq.trans ?_ e.symm)
  simp only [ZMod.natCast_mod]
  have : ((i + (n - 1) : ℕ) : ZMod n) + 1 = ((i : ℕ) : ZMod n) := by
    have : ((i + (n - 1) : ℕ) : ZMod n) + 1 = ((i + (n - 1) + 1 : ℕ) : ZMod n) := by push_cast; ring
    rw [this, show i + (n - 1) + 1 = i + n by omega]
    simp
  rw [this]
  push_cast
  rfl

theorem frustumNormals_ok {n : Nat} (hn : 3 ≤ n) (c : V4) (r r' h : ℝ) (hh : 0 < h) (hd : n * eps / 4 ≤ r * h) (is : List Nat)
    (his : ∀ i ∈ is, i < n) : ∃ ns, frustumNormals (sideV c (add c (pt 0 0 h)) r r' n) n is = .ok ns ∧ ns.length = is.length ∧
      ∀ v ∈ ns, v.w = 0 := by
  induction is with
  | nil => exact ⟨[], rfl, rfl, by simp⟩
  | cons i is ih =>
    obtain ⟨ns, h1, h2, h3⟩ := ih fun j hj => his j (by simp [hj])
    have hi := his i (by simp)
    have hp : (i + (n - 1)) % n < n := Nat.mod_lt _ (by omega)
    have hq : (i + 1) % n < n := Nat.mod_lt _ (by omega)
    have g0 := (pyGet_ok ..).mpr (entry_nat (sideV_low c (add c (pt 0 0 h)) r r' hp))
    have g1 := (pyGet_ok ..).mpr (entry_nat (sideV_low c (add c (pt 0 0 h)) r r' hq))
    have g2 := (pyGet_ok ..).mpr (entry_nat (sideV_high c (add c (pt 0 0 h)) r r' hi))
    have hm := side_mag hn r h hd (prev_next (i := i) hn) (circlePoint c r n ((i + (n - 1)) % n)) (circlePoint c r n ((i + 1) % n))
      (circlePoint (add c (pt 0 0 h)) r' n i)
      (by rw [circle_pos c r hp, circle_pos c r hq]; simp [pt])
      (by rw [circle_pos c r hq, circle_pos _ r' hi]; simp [pt, add, abs_of_pos hh])
    unfold frustumNormals
    rw [wrap_pred hi, wrap_succ, g0, g1, g2]
    simp only
    rw [tri2p0n_ok _ _ _ hm]
    simp only
    rw [h1]
    refine ⟨_, rfl, by simp [h2], ?_⟩
    intro v hv
    simp only [List.mem_cons] at hv
    rcases hv with rfl | hv
    · rfl
    · exact h3 v hv

/-- `p` is at height `z` and on the circle of radius `r` about the axis through `c`, or on the axis -/
def OnDisc (c p : V4) (r z : ℝ) : Prop := p.z = z ∧ p.w = 1 ∧ ((p.x = c.x ∧ p.y = c.y) ∨ (p.x - c.x) ^ 2 + (p.y - c.y) ^ 2 = r ^ 2)

theorem circle_on (c : V4) (r : ℝ) {n k : Nat} (hk : k < n) : OnDisc c (circlePoint c r n k) r c.z := by
  rw [circle_pos c r hk]
  refine ⟨rfl, rfl, Or.inr ?_⟩
  simp only [pt]
  linear_combination r ^ 2 * sin_sq_add_cos_sq (ang ((k : ℕ) : ZMod n))

theorem discV_on (c : V4) (r : ℝ) (n : Nat) (hc : c.w = 1) : ∀ p ∈ discV c r n, OnDisc c p r c.z := by
  intro p hp
  simp only [discV, List.mem_cons, List.mem_map, List.mem_range] at hp
  rcases hp with rfl | ⟨k, hk, rfl⟩
  · exact ⟨rfl, hc, Or.inl ⟨rfl, rfl⟩⟩
  · exact circle_on c r hk

/-- the heights and radii of a frustum -/
noncomputable def two (a b : ℝ) : Nat → ℝ := fun i => if i = 0 then a else b

/-- **C179** `conic(baser, topr, height, center, angr)` with two radii: a valid closed solid of three surfaces. With
`n = round(360 / angr)` its volume is that of the frustum over the regular `n`-gon inscribed in the circles; every
vertex lies on the base or top circle or is its centre. Degenerate sizes are excluded: radii of at least 0.9 µm, height at
least 0.01 µm, radius times height at least 0.00045. -/
theorem C179_frustum (r r' h a : ℝ) (c : V4) (hc : c.w = 1) (ha : 1 ≤ a) (ha' : a ≤ 45) (hr : 0.0009 ≤ r) (hr' : 0.0009 ≤ r')
    (hh : 0.00001 ≤ h) (hrh : 0.00045 ≤ r * h) :
    ∃ (x : Solid) (n : Nat), conic r r' h c (some a) = .ok x ∧ (n : ℤ) = pyround (360 / a) ∧ 8 ≤ n ∧ n ≤ 360 ∧
      issolid x = true ∧ issolidclosed x = .ok true ∧ x.surfs.length = 3 ∧
      volumeof x = .ok (n * sin (2 * π / n) / 6 * h * (r ^ 2 + r * r' + r' ^ 2)) ∧
      (∀ s ∈ x.surfs, ∀ p ∈ s.verts, OnDisc c p r c.z ∨ OnDisc c p r' (c.z + h)) ∧
      ∃ ts, Tris x.surfs ts ∧ Oriented ts ∧ Separated ts := by
  have hp := pyround_range ha ha'
  obtain ⟨n, hn⟩ : ∃ n : ℕ, pyround (360 / a) = n := ⟨(pyround (360 / a)).toNat, by omega⟩
  have hnt : (pyround (360 / a)).toNat = n := by omega
  have n8 : 8 ≤ n := by omega
  have n360 : n ≤ 360 := by omega
  have n360' : (n : ℝ) ≤ 360 := by exact_mod_cast n360
  have hn3 : 3 ≤ n := by omega
  have he : eps = 0.000005 := rfl
  have hh0 : 0 < h := by norm_num at hh ⊢; linarith
  set c' := add c (pt 0 0 h) with hc'
  have hc'w : c'.w = 1 := rfl
  obtain ⟨ns, hns, hnl, hnw⟩ := frustumNormals_ok hn3 c r r' h hh0 (by rw [he]; norm_num at hrh ⊢; nlinarith) (List.range n)
    (fun i hi => by simpa using hi)
  rw [← hc'] at hns
  have hms := mkSurface_ok (sideV c c' r r' n) (ns ++ ns) (frustumFaces n) (by simp [sideV]; omega)
    (by
      intro p hp
      simp only [sideV, List.mem_append, List.mem_map, List.mem_range] at hp
      rcases hp with ⟨k, hk, rfl⟩ | ⟨k, hk, rfl⟩ <;> simp [circlePoint, add])
    (by intro v hv; simp only [List.mem_append, or_self] at hv; exact hnw v hv)
    (by simp [sideV, hnl])
    (by
      intro f hf
      simp only [frustumFaces, List.mem_flatMap, List.mem_cons, List.not_mem_nil, or_false] at hf
      obtain ⟨i, -, rfl | rfl⟩ := hf <;> rfl)
  have hbase := disc_ok c r a false ha ha' hc
  have htop := disc_ok c' r' a true ha ha' hc'w
  rw [hnt] at hbase htop
  have hcon : conic r r' h c (some a) = .ok ⟨[disc c r n false, ⟨sideV c c' r r' n, ns ++ ns, frustumFaces n, [], []⟩, disc c' r' n true]⟩ := by
    unfold conic
    simp only
    rw [if_neg (by rw [he]; norm_num at hr ⊢; linarith), if_neg (by unfold ispoint; rw [hc]; norm_num),
      if_neg (by norm_num at hr' ⊢; linarith), if_neg (by rw [he]; norm_num at hh ⊢; linarith), hbase.1]
    simp only
    rw [if_pos (by rw [he]; norm_num at hr' ⊢; linarith), htop.1]
    have e1 : (disc c r n false).verts.drop 1 ++ (disc c' r' n true).verts.drop 1 = sideV c c' r r' n := rfl
    have e2 : (disc c r n false).verts.length - 1 = n := by simp [disc, discV]
    simp only [e1, e2, hns, hms.1]
  have hx : issolid ⟨[disc c r n false, ⟨sideV c c' r r' n, ns ++ ns, frustumFaces n, [], []⟩, disc c' r' n true]⟩ = true := by
    rw [issolid_iff]
    intro s hs
    simp only [List.mem_cons, List.not_mem_nil, or_false] at hs
    rcases hs with rfl | rfl | rfl
    · exact hbase.2
    · exact hms.2 _ _
    · exact htop.2
  set v : LL n → V4 := turnedAt (two r r') (two 0 h) 0 h c with hv
  have vb : v .bot = c := by
    rw [hv]; unfold turnedAt turned add pt
    ext <;> simp [hc]
  have vt : v .top = c' := by
    rw [hv, hc', add_comm4 c]; rfl
  have v0 : ∀ k < n, v (.ring 0 ((k : ℕ) : ZMod n)) = circlePoint c r n k := by
    intro k hk
    rw [circlePoint_eq c r hk]; rfl
  have v1 : ∀ k < n, v (.ring 1 ((k : ℕ) : ZMod n)) = circlePoint c' r' n k := by
    intro k hk
    rw [circle_pos c' r' hk]
    simp [hv, turnedAt, turned, two, add, pt, hc', add_comm]
  have t1 := disc_bottom (m := 1) hn3 c r v vb v0
  have t2 := frustum_side hn3 c c' r r' (ns ++ ns) v v0 v1
  have t3 := disc_top (m := 1) hn3 c' r' v vt v1
  have ht := tris_append t1 (tris_append t2 t3)
  have hperm : (lTris v (((residues n).map LF.fb).map (LF.corners 1)).reverse ++
      (lTris v (((List.range 1).flatMap fun i => (residues n).flatMap fun j => [LF.s1 i j, LF.s2 i j]).map (LF.corners 1)) ++
        lTris v (((residues n).map LF.ft).map (LF.corners 1)))).Perm (lTris v (lathe n 1)) := by
    unfold lathe latheFaces
    rw [List.map_append, List.map_append, List.append_assoc]
    unfold lTris
    rw [List.map_append, List.map_append]
    exact (((List.reverse_perm _).map _)).append_right _
  obtain ⟨q1, q2, q3, q4⟩ := lathe_solid hn3 1 (two r r') (two 0 h) 0 h c _ _ hx ht hperm
    (by
      intro i hi
      have key : ∀ t : ℝ, 0.0009 ≤ t → 2 * eps ≤ t ∧ n * eps / 2 ≤ t := by
        intro t ht
        rw [he]
        constructor
        · norm_num at ht ⊢; linarith
        · norm_num at ht ⊢; nlinarith
      unfold two
      split
      · exact key r hr
      · exact key r' hr')
    (by
      intro i j hij hj
      have h1 : i = 0 := by omega
      have h2 : j = 1 := by omega
      subst h1 h2
      simp only [two, if_true, if_neg (by norm_num : (1 : ℕ) ≠ 0)]
      rw [zero_sub, abs_neg, abs_of_pos hh0, he]
      norm_num at hh ⊢; linarith)
    (by
      rw [zero_sub, abs_neg, abs_of_pos hh0, he]
      norm_num at hh ⊢; linarith)
  refine ⟨_, n, hcon, hn.symm, n8, n360, hx, q1, rfl, ?_, ?_, _, ht, q2, q3⟩
  · rw [q4]
    congr 1
    simp only [two, if_true, List.range_one, List.map_cons, List.map_nil, List.sum_cons, List.sum_nil, zero_add,
      if_neg (by norm_num : (1 : ℕ) ≠ 0), sub_self, sub_zero, zero_mul, add_zero]
    have hs : 0 ≤ sin (2 * π / n) := by
      refine sin_nonneg_of_nonneg_of_le_pi (by positivity) ?_
      have : (8 : ℝ) ≤ n := by exact_mod_cast n8
      rw [div_le_iff₀ (by linarith)]
      nlinarith [pi_pos]
    have hrn : 0 ≤ r := by norm_num at hr; linarith
    have hrn' : 0 ≤ r' := by norm_num at hr'; linarith
    rw [abs_of_nonneg (by positivity)]
    ring
  · intro s hs p hp
    simp only [List.mem_cons, List.not_mem_nil, or_false] at hs
    have hz : c'.z = c.z + h := by simp [hc', add, pt]
    have hxy : ∀ q, OnDisc c' q r' c'.z → OnDisc c q r' (c.z + h) := by
      rintro q ⟨h1, h2, h3⟩
      have e1 : c'.x = c.x := by simp [hc', add, pt]
      have e2 : c'.y = c.y := by simp [hc', add, pt]
      rw [e1, e2] at h3
      exact ⟨by rw [h1, hz], h2, h3⟩
    rcases hs with rfl | rfl | rfl
    · exact Or.inl (discV_on c r n hc p hp)
    · simp only [sideV, List.mem_append, List.mem_map, List.mem_range] at hp
      rcases hp with ⟨k, hk, rfl⟩ | ⟨k, hk, rfl⟩
      · exact Or.inl (circle_on c r hk)
      · exact Or.inr (hxy _ (circle_on c' r' hk))
    · exact Or.inr (hxy _ (discV_on c' r' n hc'w p hp))

/-! ## cones -/

/-- the vertices of the side of a cone -/
noncomputable def coneV (c : V4) (r h : ℝ) (n : Nat) : List V4 :=
  add c (pt 0 0 h) :: (List.range n).map (circlePoint c r n)

theorem coneV_length (c : V4) (r h : ℝ) (n : Nat) : (coneV c r h n).length = n + 1 := by simp [coneV]

theorem coneV_entry (c : V4) (r h : ℝ) {n k : Nat} (hk : k < n) : (coneV c r h n)[k + 1]? = some (circlePoint c r n k) := by
  simp [coneV, hk]

theorem wrap_cone {n i : Nat} (hi : i < n) : wrap (((i + 1 : ℕ) : Int) - 2) n = (i + (n - 1)) % n := by
  rw [← wrap_pred hi]
  congr 1
  push_cast
  ring

/-- the triangle used for the normal at perimeter point `i` -/
theorem coneStep_eq {n : Nat} (c : V4) (r h : ℝ) (st : List (List Int) × List V4) {i : Nat} (hi : i < n) :
    coneStep (coneV c r h n) st (i + 1) =
      match tri2p0n (add c (pt 0 0 h)) (circlePoint c r n ((i + (n - 1)) % n)) (circlePoint c r n ((i + 1) % n)) with
      | .error .valueError => .ok st
      | .error e => .error e
      | .ok q => .ok (st.1 ++ [[0, ((i + 1 : ℕ) : Int), (((i + 1) % n + 1 : ℕ) : Int)]], st.2.set (i + 1) q.2) := by
  have hp : (i + (n - 1)) % n < n := Nat.mod_lt _ (by omega)
  have hq : (i + 1) % n < n := Nat.mod_lt _ (by omega)
  have g0 : pyGet (coneV c r h n) 0 = .ok (add c (pt 0 0 h)) := (pyGet_ok ..).mpr (Or.inl ⟨by omega, rfl⟩)
  have g1 := (pyGet_ok ..).mpr (entry_nat (coneV_entry c r h hp))
  have g2 := (pyGet_ok ..).mpr (entry_nat (coneV_entry c r h hq))
  unfold coneStep
  simp only [coneV_length, Nat.add_sub_cancel, wrap_cone hi]
  rw [g0, g1, g2]
  dsimp only
  rcases tri2p0n (add c (pt 0 0 h)) (circlePoint c r n ((i + (n - 1)) % n)) (circlePoint c r n ((i + 1) % n)) with e | q
  · cases e <;> rfl
  · rfl

theorem cone_mag {n : Nat} (hn : 3 ≤ n) (r h : ℝ) (hd : n * eps / 4 ≤ r * h) {j k : ZMod n} (hjk : j ≠ k) (p q s : V4)
    (hp : s.x - q.x = cos (ang j) * r - cos (ang k) * r ∧ s.y - q.y = sin (ang j) * r - sin (ang k) * r ∧ s.z = q.z)
    (hs : |p.z - q.z| = h) : eps ≤ mag (cross (sub q p) (sub s q)) := by
  have hn0 : (0 : ℝ) < n := by
    have : 0 < n := by omega
    positivity
  have he : 0 < eps := by unfold eps; norm_num
  have h1 := chord_far hn r hjk
  have h2 : eps ≤ 4 * r / n * h := by
    rw [div_mul_eq_mul_div, le_div_iff₀ hn0]
    linarith
  have hh2 : (p.z - q.z) ^ 2 = h ^ 2 := by rw [← sq_abs, hs]
  unfold mag
  refine le_sqrt_of_sq_le ?_
  have e : (cross (sub q p) (sub s q)).x = (s.y - q.y) * (p.z - q.z) := by
    simp only [cross, sub]; rw [hp.2.2]; ring
  have e' : (cross (sub q p) (sub s q)).y = - (s.x - q.x) * (p.z - q.z) := by
    simp only [cross, sub]; rw [hp.2.2]; ring
  rw [e, e', hp.1, hp.2.1]
  have h3 : eps ^ 2 ≤ (4 * r / n) ^ 2 * h ^ 2 := by
    rw [← mul_pow]
    have : 0 ≤ eps := he.le
    nlinarith
  have h4 : (4 * r / n) ^ 2 * h ^ 2 ≤ ((cos (ang j) * r - cos (ang k) * r) ^ 2 + (sin (ang j) * r - sin (ang k) * r) ^ 2) * h ^ 2 :=
    mul_le_mul_of_nonneg_right h1 (sq_nonneg h)
  rw [← hh2] at h4 h3
  nlinarith [mul_self_nonneg (cross (sub q p) (sub s q)).z]

/-- the faces of the side of a cone -/
def coneFaces (n : Nat) (is : List Nat) : List (List Int) := is.map fun i : Nat => [0, ((i + 1 : ℕ) : Int), (((i + 1) % n + 1 : ℕ) : Int)]

theorem coneLoop_ok {n : Nat} (hn : 3 ≤ n) (c : V4) (r h : ℝ) (hh : 0 < h) (hd : n * eps / 4 ≤ r * h) (is : List Nat)
    (his : ∀ i ∈ is, i < n) : ∀ st : List (List Int) × List V4, (∀ v ∈ st.2, v.w = 0) → ∃ ns,
      coneLoop (coneV c r h n) st (is.map (· + 1)) = .ok (st.1 ++ coneFaces n is, ns) ∧ ns.length = st.2.length ∧ ∀ v ∈ ns, v.w = 0 := by
  induction is with
  | nil => intro st hst; exact ⟨st.2, by simp [coneLoop, coneFaces], rfl, hst⟩
  | cons i is ih =>
    intro st hst
    have hi := his i (by simp)
    have hp : (i + (n - 1)) % n < n := Nat.mod_lt _ (by omega)
    have hq : (i + 1) % n < n := Nat.mod_lt _ (by omega)
    have hm := cone_mag hn r h hd (prev_next (i := i) hn).symm (add c (pt 0 0 h)) (circlePoint c r n ((i + (n - 1)) % n))
      (circlePoint c r n ((i + 1) % n))
      (by rw [circle_pos c r hp, circle_pos c r hq]; simp [pt])
      (by rw [circle_pos c r hp]; simp [pt, add, abs_of_pos hh])
    simp only [List.map_cons, coneLoop]
    rw [coneStep_eq c r h st hi, tri2p0n_ok _ _ _ hm]
    simp only
    obtain ⟨ns, h1, h2, h3⟩ := ih (fun j hj => his j (by simp [hj])) (st.1 ++ [[0, ((i + 1 : ℕ) : Int), (((i + 1) % n + 1 : ℕ) : Int)]],
      st.2.set (i + 1) ⟨(cross (sub (circlePoint c r n ((i + (n - 1)) % n)) (add c (pt 0 0 h)))
            (sub (circlePoint c r n ((i + 1) % n)) (circlePoint c r n ((i + (n - 1)) % n)))).x * (1 / mag (cross (sub (circlePoint c r n ((i + (n - 1)) % n)) (add c (pt 0 0 h)))
            (sub (circlePoint c r n ((i + 1) % n)) (circlePoint c r n ((i + (n - 1)) % n))))),
            (cross (sub (circlePoint c r n ((i + (n - 1)) % n)) (add c (pt 0 0 h)))
            (sub (circlePoint c r n ((i + 1) % n)) (circlePoint c r n ((i + (n - 1)) % n)))).y * (1 / mag (cross (sub (circlePoint c r n ((i + (n - 1)) % n)) (add c (pt 0 0 h)))
            (sub (circlePoint c r n ((i + 1) % n)) (circlePoint c r n ((i + (n - 1)) % n))))),
            (cross (sub (circlePoint c r n ((i + (n - 1)) % n)) (add c (pt 0 0 h)))
            (sub (circlePoint c r n ((i + 1) % n)) (circlePoint c r n ((i + (n - 1)) % n)))).z * (1 / mag (cross (sub (circlePoint c r n ((i + (n - 1)) % n)) (add c (pt 0 0 h)))
            (sub (circlePoint c r n ((i + 1) % n)) (circlePoint c r n ((i + (n - 1)) % n))))), 0⟩)
      (by
        intro v hv
        rcases List.mem_or_eq_of_mem_set hv with h | rfl
        · exact hst v h
        · rfl)
    refine ⟨ns, ?_, by rw [h2]; simp, h3⟩
    rw [h1]
    simp [coneFaces]

theorem cone_side {n : Nat} (hn : 3 ≤ n) (c : V4) (r h : ℝ) (ns : List V4) (v : LL n → V4) (ht : v .top = add c (pt 0 0 h))
    (hv : ∀ k < n, v (.ring 0 ((k : ℕ) : ZMod n)) = circlePoint c r n k) :
    Tris [⟨coneV c r h n, ns, coneFaces n (List.range n), [], []⟩] (lTris v (((residues n).map LF.ft).map (LF.corners 0))) := by
  apply tris_one
  simp only [coneFaces, residues, List.map_map]
  refine forall₂_maps _ _ _ fun k hk => ?_
  have hk : k < n := by simpa using hk
  have hm : (k + 1) % n < n := Nat.mod_lt _ (by omega)
  have e : (((k : ℕ) : ZMod n) + 1) = (((k + 1) % n : ℕ) : ZMod n) := by simp
  refine ⟨0, _, _, rfl, ?_, ?_, ?_⟩
  · simp only [Function.comp, LF.corners]
    rw [ht]
    exact Or.inl ⟨by omega, rfl⟩
  · simp only [Function.comp, LF.corners]
    rw [hv _ hk]
    exact entry_nat (coneV_entry c r h hk)
  · simp only [Function.comp, LF.corners]
    rw [e, hv _ hm]
    exact entry_nat (coneV_entry c r h hm)

theorem conic_cone (r r' h a : ℝ) (c : V4) (hc : c.w = 1) (ha : 1 ≤ a) (ha' : a ≤ 45) (hr : eps ≤ r) (h0 : 0 ≤ r') (hr' : r' < eps)
    (hh : eps ≤ h) (conF : List (List Int)) (conN : List V4) (hl : coneLoop (coneV c r h (pyround (360 / a)).toNat)
      ([], List.replicate ((pyround (360 / a)).toNat + 1) (dir 0 0 1)) ((List.range (pyround (360 / a)).toNat).map (· + 1)) = .ok (conF, conN))
    (hN : conN.length = (pyround (360 / a)).toNat + 1) (hw : ∀ v ∈ conN, v.w = 0) (h3 : ∀ f ∈ conF, f.length = 3) :
    conic r r' h c (some a) = .ok ⟨[disc c r (pyround (360 / a)).toNat false,
      ⟨coneV c r h (pyround (360 / a)).toNat, conN, conF, [], []⟩]⟩ ∧
    issolid ⟨[disc c r (pyround (360 / a)).toNat false, ⟨coneV c r h (pyround (360 / a)).toNat, conN, conF, [], []⟩]⟩ = true := by
  have hp := pyround_range ha ha'
  have hbase := disc_ok c r a false ha ha' hc
  have hms := mkSurface_ok (coneV c r h (pyround (360 / a)).toNat) conN conF (by rw [coneV_length]; omega)
    (by
      intro p hp
      simp only [coneV, List.mem_cons, List.mem_map] at hp
      rcases hp with rfl | ⟨k, -, rfl⟩ <;> simp [circlePoint, add])
    hw (by rw [coneV_length, hN]) h3
  constructor
  · unfold conic
    simp only
    rw [if_neg (not_lt.mpr hr), if_neg (by unfold ispoint; rw [hc]; norm_num), if_neg (not_lt.mpr h0), if_neg (not_lt.mpr hh), hbase.1]
    simp only
    rw [if_neg (not_not.mpr hr')]
    have e1 : add c (pt 0 0 h) :: (disc c r (pyround (360 / a)).toNat false).verts.drop 1 = coneV c r h (pyround (360 / a)).toNat := rfl
    simp only [e1, coneV_length, Nat.add_sub_cancel, hl, hms.1]
  · rw [issolid_iff]
    intro s hs
    simp only [List.mem_cons, List.not_mem_nil, or_false] at hs
    rcases hs with rfl | rfl
    · exact hbase.2
    · exact hms.2 _ _

/-- **C179** a cone (top radius below epsilon): a valid closed solid with the volume of the pyramid over the regular
`n`-gon. The hypothesis on radius times height cannot be dropped, see `C179_small_cone_open`. -/
theorem C179_cone_partial (r r' h a : ℝ) (c : V4) (hc : c.w = 1) (ha : 1 ≤ a) (ha' : a ≤ 45) (hr : 0.0009 ≤ r) (h0 : 0 ≤ r')
    (hr' : r' < eps) (hh : 0.00001 ≤ h) (hrh : 0.00045 ≤ r * h) :
    ∃ (x : Solid) (n : Nat), conic r r' h c (some a) = .ok x ∧ (n : ℤ) = pyround (360 / a) ∧ 8 ≤ n ∧ n ≤ 360 ∧
      issolid x = true ∧ issolidclosed x = .ok true ∧ x.surfs.length = 2 ∧
      volumeof x = .ok (n * sin (2 * π / n) / 6 * h * r ^ 2) ∧
      (∀ s ∈ x.surfs, ∀ p ∈ s.verts, OnDisc c p r c.z ∨ (p.x = c.x ∧ p.y = c.y ∧ p.z = c.z + h)) ∧
      ∃ ts, Tris x.surfs ts ∧ Oriented ts ∧ Separated ts := by
  have hp := pyround_range ha ha'
  obtain ⟨n, hn⟩ : ∃ n : ℕ, pyround (360 / a) = n := ⟨(pyround (360 / a)).toNat, by omega⟩
  have hnt : (pyround (360 / a)).toNat = n := by omega
  have n8 : 8 ≤ n := by omega
  have n360 : n ≤ 360 := by omega
  have n360' : (n : ℝ) ≤ 360 := by exact_mod_cast n360
  have hn3 : 3 ≤ n := by omega
  have he : eps = 0.000005 := rfl
  have hh0 : 0 < h := by norm_num at hh ⊢; linarith
  obtain ⟨ns, hns, hnl, hnw⟩ := coneLoop_ok hn3 c r h hh0 (by rw [he]; norm_num at hrh ⊢; nlinarith) (List.range n)
    (fun i hi => by simpa using hi) ([], List.replicate (n + 1) (dir 0 0 1))
    (fun v hv => by rw [List.eq_of_mem_replicate hv]; rfl)
  obtain ⟨hcon, hx⟩ := conic_cone r r' h a c hc ha ha' (by rw [he]; norm_num at hr ⊢; linarith) h0 hr'
    (by rw [he]; norm_num at hh ⊢; linarith) (coneFaces n (List.range n)) ns (by rw [hnt]; exact hns) (by rw [hnt, hnl]; simp) hnw
    (by
      intro f hf
      obtain ⟨i, -, rfl⟩ := List.mem_map.mp hf
      rfl)
  rw [hnt] at hcon hx
  set v : LL n → V4 := turnedAt (two r r) (two 0 0) 0 h c with hv
  have vb : v .bot = c := by
    rw [hv]; unfold turnedAt turned add pt
    ext <;> simp [hc]
  have vt : v .top = add c (pt 0 0 h) := by
    rw [hv, add_comm4 c]; rfl
  have v0 : ∀ k < n, v (.ring 0 ((k : ℕ) : ZMod n)) = circlePoint c r n k := by
    intro k hk
    rw [circlePoint_eq c r hk]; rfl
  have t1 := disc_bottom (m := 0) hn3 c r v vb v0
  have t2 := cone_side hn3 c r h ns v vt v0
  have ht := tris_append t1 t2
  have hperm : (lTris v (((residues n).map LF.fb).map (LF.corners 0)).reverse ++
        lTris v (((residues n).map LF.ft).map (LF.corners 0))).Perm (lTris v (lathe n 0)) := by
    unfold lathe latheFaces
    rw [List.range_zero, List.flatMap_nil, List.append_nil, List.map_append]
    unfold lTris
    rw [List.map_append]
    exact (((List.reverse_perm _).map _)).append_right _
  obtain ⟨q1, q2, q3, q4⟩ := lathe_solid hn3 0 (two r r) (two 0 0) 0 h c _ _ hx ht hperm
    (by
      intro i hi
      have : two r r i = r := by unfold two; split <;> rfl
      rw [this, he]
      constructor
      · norm_num at hr ⊢; linarith
      · norm_num at hr ⊢; nlinarith)
    (by intro i j hij hj; omega)
    (by
      rw [zero_sub, abs_neg, abs_of_pos hh0, he]
      norm_num at hh ⊢; linarith)
  refine ⟨_, n, hcon, hn.symm, n8, n360, hx, q1, rfl, ?_, ?_, _, ht, q2, q3⟩
  · rw [q4]
    congr 1
    simp only [two, if_true, List.range_zero, List.map_nil, List.sum_nil, sub_self, sub_zero, zero_mul, add_zero, zero_add]
    have hs : 0 ≤ sin (2 * π / n) := by
      refine sin_nonneg_of_nonneg_of_le_pi (by positivity) ?_
      have : (8 : ℝ) ≤ n := by exact_mod_cast n8
      rw [div_le_iff₀ (by linarith)]
      nlinarith [pi_pos]
    rw [abs_of_nonneg (by positivity)]
    ring
  · intro s hs p hp
    simp only [List.mem_cons, List.not_mem_nil, or_false] at hs
    rcases hs with rfl | rfl
    · exact Or.inl (discV_on c r n hc p hp)
    · simp only [coneV, List.mem_cons, List.mem_map, List.mem_range] at hp
      rcases hp with rfl | ⟨k, hk, rfl⟩
      · exact Or.inr ⟨by simp [add, pt], by simp [add, pt], by simp [add, pt]⟩
      · exact Or.inl (circle_on c r hk)

/-! ## how close to the true frustum -/

/-- **C179** the inscribed volume is at most the volume of the round body and falls short by a fraction of at most
`(2 π / n)² / 6` -/
theorem C179_near_round (n : Nat) (hn : 0 < n) (h q : ℝ) (hh : 0 ≤ h) (hq : 0 ≤ q) :
    n * sin (2 * π / n) / 6 * h * q ≤ π / 3 * h * q ∧
    (1 - (2 * π / n) ^ 2 / 6) * (π / 3 * h * q) ≤ n * sin (2 * π / n) / 6 * h * q := by
  have hn0 : (0 : ℝ) < n := by exact_mod_cast hn
  have x0 : 0 < 2 * π / n := by positivity
  have hhq : 0 ≤ h * q := mul_nonneg hh hq
  have s1 := sin_lt x0
  have s2 := sin_gt_sub_cube x0
  have e : π / 3 = n * (2 * π / n) / 6 := by field_simp; ring
  constructor
  · rw [e, mul_assoc _ h q, mul_assoc _ h q]
    refine mul_le_mul_of_nonneg_right ?_ hhq
    nlinarith
  · rw [e]
    have : (1 - (2 * π / n) ^ 2 / 6) * (n * (2 * π / n) / 6 * h * q) = (n * (2 * π / n - (2 * π / n) ^ 3 / 6) / 6) * (h * q) := by ring
    rw [this, mul_assoc _ h q]
    refine mul_le_mul_of_nonneg_right ?_ hhq
    nlinarith

/-- **C179** without an explicit resolution the number `n` of segments is between 36 and 360, and, unless it is 360, the
chords of the larger circle are no longer than the limit -/
theorem C179_default (r r' h : ℝ) (c : V4) (mc : Option ℝ) (hc : c.w = 1) (hm : ∀ m, mc = some m → 0 < m) (hr : 0.0009 ≤ r) (hr' : 0.0009 ≤ r')
    (hh : 0.00001 ≤ h) (hrh : 0.00045 ≤ r * h) :
    ∃ (x : Solid) (n : Nat), conic r r' h c none none mc = .ok x ∧ 36 ≤ n ∧ n ≤ 360 ∧
      (n < 360 → chord (max r r') n ≤ mc.getD (defaultChord (max r r'))) ∧ issolidclosed x = .ok true ∧
      volumeof x = .ok (n * sin (2 * π / n) / 6 * h * (r ^ 2 + r * r' + r' ^ 2)) := by
  have hpos : 0 < max r r' := lt_of_lt_of_le (by norm_num at hr ⊢; linarith) (le_max_left r r')
  obtain ⟨N, h1, h2, h3, h4⟩ := C180_chord (max r r') mc hpos hm
  obtain ⟨a, a1, a2, a3, a4⟩ := adaptiveAngr_ok (max r r') none mc N h1 h2 h3
  obtain ⟨x, n, b1, b2, b3, b4, -, b5, -, b6, -⟩ := C179_frustum r r' h a c hc a2 (by linarith) hr hr' hh hrh
  rw [a4, pyround_int] at b2
  refine ⟨x, n, ?_, by omega, b4, ?_, b5, b6⟩
  · rw [← b1]
    unfold conic
    simp only
    rw [if_pos (by unfold eps; norm_num at hr' ⊢; linarith), a1]
  · intro hlt
    by_cases hN : 36 ≤ N
    · have : (n : ℤ) = N := by omega
      rw [this]
      exact h4 (by omega)
    · have hn36 : (n : ℤ) = 36 := by omega
      refine le_trans ?_ (h4 (by omega))
      unfold chord
      rw [hn36]
      have hNp : (0 : ℝ) < N := by exact_mod_cast (show (0 : ℤ) < N by omega)
      have hNle : (N : ℝ) ≤ 36 := by exact_mod_cast (show N ≤ 36 by omega)
      have hN2 : (2 : ℝ) ≤ N := by exact_mod_cast (show (2 : ℤ) ≤ N by omega)
      have : sin (π / (36 : ℤ)) ≤ sin (π / N) := by
        refine sin_le_sin_of_le_of_le_pi_div_two ?_ ?_ ?_
        · have : 0 < π / ((36 : ℤ) : ℝ) := by positivity
          linarith [pi_pos]
        · exact div_le_div_of_nonneg_left pi_pos.le (by norm_num) hN2
        · exact div_le_div_of_nonneg_left pi_pos.le hNp (by push_cast; exact hNle)
      nlinarith

/-- a cylinder of radius 1 and height 2 at a resolution of 10 degrees -/
example : ∃ x, conic 1 1 2 (pt 0 0 0) (some 10) = .ok x ∧ volumeof x = .ok (36 * sin (2 * π / 36)) := by
  obtain ⟨x, n, h1, h2, -, -, -, -, -, h3, -⟩ := C179_frustum 1 1 2 10 (pt 0 0 0) rfl (by norm_num) (by norm_num) (by norm_num) (by norm_num)
    (by norm_num) (by norm_num)
  have : pyround (360 / 10) = 36 := by
    rw [show (360 / 10 : ℝ) = ((36 : ℤ) : ℝ) by norm_num, pyround_int]
  rw [this] at h2
  have hn : n = 36 := by omega
  subst hn
  refine ⟨x, h1, ?_⟩
  rw [h3]
  congr 1
  push_cast
  ring

/-! ## cones that come out open -/

theorem uses_label {L : Type} [DecidableEq L] (v : L → V4) (fs : List (L × L × L))
    (hv : ∀ i j, (∃ f ∈ fs, i = f.1 ∨ i = f.2.1 ∨ i = f.2.2) → (∃ f ∈ fs, j = f.1 ∨ j = f.2.1 ∨ j = f.2.2) →
      grid (v i) = grid (v j) → i = j) (s : L × L) (hs : s ∈ lSides fs) (h1 : (lSides fs).count s = 1) (h0 : s.swap ∉ lSides fs) :
    uses (lTris v fs) (v s.1, v s.2) = 1 := by
  have hc : ∀ s ∈ lSides fs, (∃ f ∈ fs, s.1 = f.1 ∨ s.1 = f.2.1 ∨ s.1 = f.2.2) ∧
      (∃ f ∈ fs, s.2 = f.1 ∨ s.2 = f.2.1 ∨ s.2 = f.2.2) := by
    intro s hs
    obtain ⟨f, hf, h⟩ := List.mem_flatMap.mp hs
    simp only [List.mem_cons, List.not_mem_nil, or_false] at h
    rcases h with rfl | rfl | rfl <;> exact ⟨⟨f, hf, by simp⟩, ⟨f, hf, by simp⟩⟩
  unfold uses
  rw [sides_lTris, List.countP_map, ← h1, List.count]
  apply List.countP_congr
  rintro ⟨k, l⟩ hkl
  simp only [Function.comp, decide_eq_true_eq, beq_iff_eq]
  have ci := hc _ hs
  have ck := hc _ hkl
  unfold SameEdge
  obtain ⟨i, j⟩ := s
  simp only [Prod.mk.injEq]
  constructor
  · rintro (⟨a, b⟩ | ⟨a, b⟩)
    · exact ⟨(hv _ _ ci.1 ck.1 a).symm, (hv _ _ ci.2 ck.2 b).symm⟩
    · exfalso
      have e1 := hv _ _ ci.1 ck.2 a
      have e2 := hv _ _ ci.2 ck.1 b
      simp only at e1 e2
      subst e1 e2
      exact h0 hkl
  · rintro ⟨rfl, rfl⟩
    exact Or.inl ⟨rfl, rfl⟩

theorem coneLoop_skip {n : Nat} (c : V4) (r h : ℝ)
    (hs : ∀ i < n, mag (cross (sub (circlePoint c r n ((i + (n - 1)) % n)) (add c (pt 0 0 h)))
      (sub (circlePoint c r n ((i + 1) % n)) (circlePoint c r n ((i + (n - 1)) % n)))) < eps) (is : List Nat) (his : ∀ i ∈ is, i < n) :
    ∀ st, coneLoop (coneV c r h n) st (is.map (· + 1)) = .ok st := by
  induction is with
  | nil => intro st; rfl
  | cons i is ih =>
    intro st
    have hi := his i (by simp)
    simp only [List.map_cons, coneLoop]
    rw [coneStep_eq c r h st hi]
    have : tri2p0n (add c (pt 0 0 h)) (circlePoint c r n ((i + (n - 1)) % n)) (circlePoint c r n ((i + 1) % n)) = .error .valueError := by
      unfold tri2p0n
      simp only
      rw [if_pos (hs i hi)]
    rw [this]
    exact ih (fun j hj => his j (by simp [hj])) st

theorem mag_bound {a b : V4} {A B : ℝ} (hA : 0 ≤ A) (ha : a.x ^ 2 + a.y ^ 2 + a.z ^ 2 ≤ A ^ 2) (hb : b.x ^ 2 + b.y ^ 2 + b.z ^ 2 ≤ B ^ 2)
    (hB : 0 ≤ B) : mag (cross a b) ≤ A * B := by
  unfold mag
  refine sqrt_le_iff.mpr ⟨mul_nonneg hA hB, ?_⟩
  have e : (cross a b).x * (cross a b).x + (cross a b).y * (cross a b).y + (cross a b).z * (cross a b).z =
      (a.x ^ 2 + a.y ^ 2 + a.z ^ 2) * (b.x ^ 2 + b.y ^ 2 + b.z ^ 2) - (a.x * b.x + a.y * b.y + a.z * b.z) ^ 2 := by
    simp only [cross]; ring
  rw [e, mul_pow]
  have : (a.x ^ 2 + a.y ^ 2 + a.z ^ 2) * (b.x ^ 2 + b.y ^ 2 + b.z ^ 2) ≤ A ^ 2 * B ^ 2 :=
    mul_le_mul ha hb (by positivity) (by positivity)
  nlinarith [sq_nonneg (a.x * b.x + a.y * b.y + a.z * b.z)]

/-- **C179** fails for small cones: when radius and height are a micrometre or less but above every documented limit, all
side faces are silently left out, and the returned solid is just the base disc, not closed and without a volume -/
theorem C179_small_cone_open (r r' h a : ℝ) (c : V4) (hc : c.w = 1) (ha : 1 ≤ a) (ha' : a ≤ 45) (hr : 0.0009 ≤ r) (hr2 : r ≤ 0.001)
    (h0 : 0 ≤ r') (hr' : r' < eps) (hh : eps ≤ h) (hh2 : h ≤ 0.001) :
    ∃ x, conic r r' h c (some a) = .ok x ∧ issolid x = true ∧ issolidclosed x = .ok false ∧
      volumeof x = .error .valueError ∧ ∃ s ∈ x.surfs, s.faces = [] := by
  have hp := pyround_range ha ha'
  obtain ⟨n, hn⟩ : ∃ n : ℕ, pyround (360 / a) = n := ⟨(pyround (360 / a)).toNat, by omega⟩
  have hnt : (pyround (360 / a)).toNat = n := by omega
  have n8 : 8 ≤ n := by omega
  have n360 : n ≤ 360 := by omega
  have n360' : (n : ℝ) ≤ 360 := by exact_mod_cast n360
  have hn3 : 3 ≤ n := by omega
  have he : eps = 0.000005 := rfl
  have hr0 : 0 < r := by norm_num at hr ⊢; linarith
  have hh0 : 0 < h := by rw [he] at hh; norm_num at hh ⊢; linarith
  have hskip := coneLoop_skip (n := n) c r h (by
    intro i hi
    have hp : (i + (n - 1)) % n < n := Nat.mod_lt _ (by omega)
    have hq : (i + 1) % n < n := Nat.mod_lt _ (by omega)
    rw [circle_pos c r hp, circle_pos c r hq]
    refine lt_of_le_of_lt (mag_bound (A := 0.0015) (B := 0.002) (by norm_num) ?_ ?_ (by norm_num)) (by rw [he]; norm_num)
    · simp only [sub, add, pt, zero_add, add_zero]
      have cs := sin_sq_add_cos_sq (ang ((((i + (n - 1)) % n : ℕ)) : ZMod n))
      have : (cos (ang ((((i + (n - 1)) % n : ℕ)) : ZMod n)) * r + c.x - c.x) ^ 2 + (sin (ang ((((i + (n - 1)) % n : ℕ)) : ZMod n)) * r + c.y - c.y) ^ 2 +
        (c.z - (c.z + h)) ^ 2 = r ^ 2 + h ^ 2 := by linear_combination r ^ 2 * cs
      rw [this]
      norm_num at hr2 hh2 ⊢
      nlinarith
    · simp only [sub, pt]
      have c1 := sin_sq_add_cos_sq (ang ((((i + (n - 1)) % n : ℕ)) : ZMod n))
      have c2 := sin_sq_add_cos_sq (ang ((((i + 1) % n : ℕ)) : ZMod n))
      set A := cos (ang ((((i + (n - 1)) % n : ℕ)) : ZMod n))
      set B := sin (ang ((((i + (n - 1)) % n : ℕ)) : ZMod n))
      set C := cos (ang ((((i + 1) % n : ℕ)) : ZMod n))
      set D := sin (ang ((((i + 1) % n : ℕ)) : ZMod n))
      have : (C * r + c.x - (A * r + c.x)) ^ 2 + (D * r + c.y - (B * r + c.y)) ^ 2 + (c.z - c.z) ^ 2 ≤ 4 * r ^ 2 := by
        have : (C * r + c.x - (A * r + c.x)) ^ 2 + (D * r + c.y - (B * r + c.y)) ^ 2 + (c.z - c.z) ^ 2 = 4 * r ^ 2 - r ^ 2 * ((A + C) ^ 2 + (B + D) ^ 2) := by
          linear_combination (2 * r ^ 2) * c1 + (2 * r ^ 2) * c2
        rw [this]
        nlinarith [mul_nonneg (sq_nonneg r) (add_nonneg (sq_nonneg (A + C)) (sq_nonneg (B + D)))]
      refine le_trans this ?_
      norm_num at hr2 ⊢
      nlinarith)
    (List.range n) (fun i hi => by simpa using hi) ([], List.replicate (n + 1) (dir 0 0 1))
  obtain ⟨hcon, hx⟩ := conic_cone r r' h a c hc ha ha' (by rw [he]; norm_num at hr ⊢; linarith) h0 hr' hh [] (List.replicate (n + 1) (dir 0 0 1))
    (by rw [hnt]; exact hskip) (by rw [hnt]; simp) (fun v hv => by rw [List.eq_of_mem_replicate hv]; rfl) (by simp)
  rw [hnt] at hcon hx
  set v : LL n → V4 := turnedAt (two r r) (two 0 0) 0 1 c with hv
  have vb : v .bot = c := by
    rw [hv]; unfold turnedAt turned add pt
    ext <;> simp [hc]
  have v0 : ∀ k < n, v (.ring 0 ((k : ℕ) : ZMod n)) = circlePoint c r n k := by
    intro k hk
    rw [circlePoint_eq c r hk]; rfl
  have t1 := disc_bottom (m := 0) hn3 c r v vb v0
  have t2 : Tris [⟨coneV c r h n, List.replicate (n + 1) (dir 0 0 1), [], [], []⟩] [] := by unfold Tris; simp
  have ht := tris_append t1 t2
  rw [List.append_nil] at ht
  have far := turned_far hn3 0 (two r r) (two 0 0) 0 1 c
    (by
      intro i hi
      have : two r r i = r := by unfold two; split <;> rfl
      rw [this, he]
      constructor
      · norm_num at hr ⊢; linarith
      · norm_num at hr ⊢; nlinarith)
    (by intro i j hij hj; omega)
    (by rw [he]; norm_num)
  set fs : List (LL n × LL n × LL n) := (((residues n).map LF.fb).map (LF.corners 0)).reverse with hfs
  have hsub : fs.Perm (((residues n).map LF.fb).map (LF.corners 0)) := List.reverse_perm _
  have hok : ∀ l : LL n, (∃ f ∈ fs, l = f.1 ∨ l = f.2.1 ∨ l = f.2.2) → l.ok 0 := by
    rintro l ⟨f, hf, h⟩
    refine lathe_labels l ⟨f, ?_, h⟩ (by omega)
    have := hsub.mem_iff.mp hf
    unfold lathe latheFaces
    simp only [List.map_append, List.mem_append]
    exact Or.inl (Or.inl this)
  have hinj : ∀ i j, (∃ f ∈ fs, i = f.1 ∨ i = f.2.1 ∨ i = f.2.2) → (∃ f ∈ fs, j = f.1 ∨ j = f.2.1 ∨ j = f.2.2) →
      grid (v i) = grid (v j) → i = j := by
    intro i j hi hj h
    by_contra hij
    exact far_grid (far i j (hok i hi) (hok j hj) hij) h
  have hmem : ((LL.ring 0 1 : LL n), LL.ring 0 0) ∈ lSides fs := by
    unfold lSides
    rw [List.mem_flatMap]
    refine ⟨LF.corners 0 (.fb 0), hsub.mem_iff.mpr (List.mem_map_of_mem (List.mem_map_of_mem (mem_residues (by omega) 0))), ?_⟩
    simp [LF.corners]
  have hnod : (lSides fs).Nodup := by
    have h1 : (lSides fs).Perm (lSides (((residues n).map LF.fb).map (LF.corners 0))) := hsub.flatMap_right _
    rw [h1.nodup_iff]
    refine List.Nodup.sublist ?_ (lathe_nodup (m := 0) hn3)
    unfold lathe latheFaces
    simp only [List.map_append, lSides, List.flatMap_append]
    rw [List.append_assoc]
    exact List.sublist_append_left _ _
  have hno : ((LL.ring 0 1 : LL n), (LL.ring 0 0 : LL n)).swap ∉ lSides fs := by
    intro hm
    unfold lSides at hm
    rw [List.mem_flatMap] at hm
    obtain ⟨f, hf, hm⟩ := hm
    have hf := hsub.mem_iff.mp hf
    simp only [List.map_map, List.mem_map, Function.comp] at hf
    obtain ⟨j, -, rfl⟩ := hf
    simp only [LF.corners, Prod.swap, List.mem_cons, Prod.mk.injEq, LL.ring.injEq, reduceCtorEq, false_and, and_false, List.not_mem_nil,
      or_false, false_or, true_and] at hm
    obtain ⟨e1, e2⟩ := hm
    exact two_ne hn3 j (by rw [← e1]; simpa using e2)
  have hu := uses_label v fs hinj _ hmem (List.count_eq_one_of_mem hnod hmem) hno
  obtain ⟨b, hb1, hb2⟩ := C169_closed_iff _ _ hx ht
  have hbf : b = false := by
    cases b with
    | false => rfl
    | true =>
      have := hb2.mp rfl (v (.ring 0 1), v (.ring 0 0)) (by rw [sides_lTris]; exact List.mem_map.mpr ⟨_, hmem, rfl⟩)
      simp only at hu
      omega
  subst hbf
  refine ⟨_, hcon, hx, hb1, ?_, _, List.mem_cons_of_mem _ (List.mem_cons_self ..), rfl⟩
  unfold volumeof
  rw [hx, hb1]
  rfl

end Verif.Prim
