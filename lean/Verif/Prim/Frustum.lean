import Verif.Prim.Mesh
import Verif.Prim.Adaptive
import Verif.Surf.Props
import Mathlib.Analysis.SpecialFunctions.Trigonometric.Bounds

/-!
# C179: cylinders and conic frusta; cones
-/

namespace Verif.Prim
open Verif.Geom Verif.Surf Real

/-! ## triangles of surfaces with labelled vertices -/

theorem tris_one {L : Type} (s : Surface) (v : L → V4) (fs : List (L × L × L))
    (h : List.Forall₂ (fun f (t : L × L × L) => Corners s.verts f ⟨v t.1, v t.2.1, v t.2.2⟩) s.faces fs) : Tris [s] (lTris v fs) := by
  unfold Tris lTris
  simp only [List.flatMap_cons, List.flatMap_nil, List.append_nil]
  rw [List.forall₂_map_left_iff, List.forall₂_map_right_iff]
  exact h

theorem tris_append {ss ss' : List Surface} {ts ts' : List Tri} (h : Tris ss ts) (h' : Tris ss' ts') :
    Tris (ss ++ ss') (ts ++ ts') := by
  unfold Tris at *
  rw [List.flatMap_append]
  exact List.rel_append h h'

theorem forall₂_maps {α β γ : Type} {R : β → γ → Prop} (l : List α) (f : α → β) (g : α → γ) (h : ∀ x ∈ l, R (f x) (g x)) :
    List.Forall₂ R (l.map f) (l.map g) := by
  induction l with
  | nil => exact .nil
  | cons x l ih => exact .cons (h x (by simp)) (ih fun y hy => h y (by simp [hy]))

theorem entry_nat {vs : List V4} {k : Nat} {p : V4} (h : vs[k]? = some p) : EntryAt vs (k : Int) p :=
  Or.inl ⟨by omega, by simpa using h⟩

theorem lTris_perm {L : Type} (v : L → V4) {fs gs : List (L × L × L)} (h : fs.Perm gs) : (lTris v fs).Perm (lTris v gs) :=
  h.map _

theorem sides_perm {ts us : List Tri} (h : ts.Perm us) : (sides ts).Perm (sides us) := h.flatMap_right _

theorem closed_perm {ts us : List Tri} (h : ts.Perm us) (hc : ∀ s ∈ sides us, uses us s = 2) :
    ∀ s ∈ sides ts, uses ts s = 2 := fun s hs => by
  rw [uses_perm h]
  exact hc s ((sides_perm h).mem_iff.mp hs)

theorem oriented_perm {ts us : List Tri} (h : ts.Perm us) (ho : Oriented us) : Oriented ts := by
  intro a b
  have := (sides_perm h).map fun s : Side => (pos s.1, pos s.2)
  unfold posSides
  rw [this.count_eq, this.count_eq]
  exact ho a b

theorem separated_perm {ts us : List Tri} (h : ts.Perm us) (hs : Separated us) : Separated ts := by
  have key : ∀ p, IsCorner ts p → IsCorner us p := by
    rintro p ⟨t, ht, hp⟩
    exact ⟨t, h.mem_iff.mp ht, hp⟩
  intro p q hp hq
  exact hs p q (key p hp) (key q hq)

/-! ## points of a circle -/

theorem ang_nat {n k : Nat} (hk : k < n) : ang ((k : ℕ) : ZMod n) = k * (2 * π / n) := by
  haveI : NeZero n := ⟨by omega⟩
  unfold ang
  rw [ZMod.val_natCast, Nat.mod_eq_of_lt hk]

theorem circlePoint_eq (c : V4) (r : ℝ) {n k : Nat} (hk : k < n) :
    circlePoint c r n k = add (pt (cos (ang ((k : ℕ) : ZMod n)) * r) (sin (ang ((k : ℕ) : ZMod n)) * r) 0) c := by
  have hn : (n : ℝ) ≠ 0 := by
    have : 0 < n := by omega
    positivity
  rw [ang_nat hk]
  unfold circlePoint
  have : (k : ℝ) * (360 / n) * (2 * π) / 360 = k * (2 * π / n) := by field_simp
  simp only [this]

theorem sin_ge {n k : Nat} (h1 : 1 ≤ k) (h2 : k < n) : 2 / (n : ℝ) ≤ sin (k * π / n) := by
  have hn : (0 : ℝ) < n := by
    have : 0 < n := by omega
    positivity
  have hk : (1 : ℝ) ≤ k := by exact_mod_cast h1
  have hkn : (k : ℝ) + 1 ≤ n := by exact_mod_cast h2
  have hp := pi_pos
  by_cases h : (k : ℝ) * π / n ≤ π / 2
  · have := mul_le_sin (x := k * π / n) (by positivity) h
    have e : 2 / π * (k * π / n) = 2 * k / n := by field_simp
    rw [e] at this
    refine le_trans ?_ this
    rw [div_le_div_iff_of_pos_right hn]
    linarith
  · have h' : π - k * π / n ≤ π / 2 := by linarith
    have hnn : 0 ≤ π - k * π / n := by
      rw [sub_nonneg, div_le_iff₀ hn]
      nlinarith
    have := mul_le_sin hnn h'
    rw [sin_pi_sub] at this
    have e : 2 / π * (π - k * π / n) = 2 * (n - k) / n := by field_simp
    rw [e] at this
    refine le_trans ?_ this
    rw [div_le_div_iff_of_pos_right hn]
    linarith

/-- two different points of a circle cut into `n` segments are at least `4 r / n` apart -/
theorem chord_far {n : Nat} (hn : 3 ≤ n) (r : ℝ) {i j : ZMod n} (hij : i ≠ j) :
    (4 * r / n) ^ 2 ≤ (cos (ang i) * r - cos (ang j) * r) ^ 2 + (sin (ang i) * r - sin (ang j) * r) ^ 2 := by
  haveI : NeZero n := ⟨by omega⟩
  have hn0 : (0 : ℝ) < n := by
    have : 0 < n := by omega
    positivity
  have key : ∀ a b : Nat, a < b → b < n → (4 * r / n) ^ 2 ≤ (cos (b * (2 * π / n)) * r - cos (a * (2 * π / n)) * r) ^ 2 +
      (sin (b * (2 * π / n)) * r - sin (a * (2 * π / n)) * r) ^ 2 := by
    intro a b hab hb
    have hs := sin_ge (n := n) (k := b - a) (by omega) (by omega)
    have e : (cos (b * (2 * π / n)) * r - cos (a * (2 * π / n)) * r) ^ 2 +
      (sin (b * (2 * π / n)) * r - sin (a * (2 * π / n)) * r) ^ 2 = 4 * r ^ 2 * sin (((b - a : ℕ) : ℝ) * π / n) ^ 2 := by
      have h2 : cos (b * (2 * π / n) - a * (2 * π / n)) = 1 - 2 * sin (((b - a : ℕ) : ℝ) * π / n) ^ 2 := by
        have : (b : ℝ) * (2 * π / n) - a * (2 * π / n) = 2 * (((b - a : ℕ) : ℝ) * π / n) := by
          rw [Nat.cast_sub hab.le]; ring
        rw [this, cos_two_mul, cos_sq']; ring
      rw [cos_sub] at h2
      have c1 := sin_sq_add_cos_sq (b * (2 * π / n))
      have c2 := sin_sq_add_cos_sq (a * (2 * π / n))
      linear_combination r ^ 2 * c1 + r ^ 2 * c2 - 2 * r ^ 2 * h2
    rw [e]
    have h2n : 0 ≤ 2 / (n : ℝ) := by positivity
    have hsq : (2 / (n : ℝ)) ^ 2 ≤ sin (((b - a : ℕ) : ℝ) * π / n) ^ 2 := by nlinarith
    have : (4 * r / n) ^ 2 = 4 * r ^ 2 * (2 / (n : ℝ)) ^ 2 := by ring
    rw [this]
    nlinarith [sq_nonneg r]
  have hne : i.val ≠ j.val := fun h => hij (ZMod.val_injective n h)
  unfold ang
  rcases Nat.lt_or_gt_of_ne hne with h | h
  · have := key _ _ h (ZMod.val_lt j)
    linarith
  · exact key _ _ h (ZMod.val_lt i)

/-! ## the disc -/

theorem pyround_range {a : ℝ} (h1 : 1 ≤ a) (h2 : a ≤ 45) : 8 ≤ pyround (360 / a) ∧ pyround (360 / a) ≤ 360 := by
  have hp : 0 < a := by linarith
  have l1 : (8 : ℝ) ≤ 360 / a := by rw [le_div_iff₀ hp]; linarith
  have l2 : 360 / a ≤ 360 := by rw [div_le_iff₀ hp]; linarith
  have := abs_le.mp (pyround_near (360 / a))
  constructor
  · have : (7 : ℝ) < pyround (360 / a) := by linarith
    have : (7 : ℤ) < pyround (360 / a) := by exact_mod_cast this
    omega
  · have : (pyround (360 / a) : ℝ) < 361 := by linarith
    have : pyround (360 / a) < (361 : ℤ) := by exact_mod_cast this
    omega

/-- the vertices of the disc -/
noncomputable def discV (c : V4) (r : ℝ) (n : Nat) : List V4 := c :: (List.range n).map (circlePoint c r n)

theorem discV_length (c : V4) (r : ℝ) (n : Nat) : (discV c r n).length = n + 1 := by simp [discV]

/-- the disc -/
noncomputable def disc (c : V4) (r : ℝ) (n : Nat) (zup : Bool) : Surface :=
  ⟨discV c r n, List.replicate (n + 1) (dir 0 0 (if zup then 1 else -1)), circleFaces n zup,
    (List.range n).map (fun i : Nat => (i : Int) + 1), []⟩

theorem circleFaces_three (n : Nat) (zup : Bool) : ∀ f ∈ circleFaces n zup, f.length = 3 := by
  intro f hf
  unfold circleFaces at hf
  cases zup <;> simp only [if_true, Bool.false_eq_true, if_false, List.mem_map] at hf <;>
    obtain ⟨i, -, rfl⟩ := hf <;> rfl

theorem mkSurface_ok (vs ns : List V4) (fs : List (List Int)) (h1 : 3 ≤ vs.length) (h2 : ∀ p ∈ vs, 0 < p.w)
    (h3 : ∀ n ∈ ns, n.w = 0) (h4 : vs.length = ns.length) (h5 : ∀ f ∈ fs, f.length = 3) :
    mkSurface vs ns fs [] = .ok ⟨vs, ns, fs, [], []⟩ ∧ ∀ b h, issurface ⟨vs, ns, fs, b, h⟩ = true := by
  have he : (0 : ℝ) < eps := by unfold eps; norm_num
  have h3' : ∀ n ∈ ns, |n.w| < eps := fun n hn => by rw [h3 n hn, abs_zero]; exact he
  exact ⟨(C171_stores_partial vs ns fs 0 [] [] [] ⟨h1, h2, h3', h4, h5⟩).2.2.2.2.1,
    fun b h => (C170_accepts_iff _).mpr ⟨h1, h2, h3', h4, h5⟩⟩

theorem discV_w (c : V4) (r : ℝ) (n : Nat) (hc : c.w = 1) : ∀ p ∈ discV c r n, 0 < p.w := by
  intro p hp
  simp only [discV, List.mem_cons, List.mem_map] at hp
  rcases hp with rfl | ⟨k, -, rfl⟩
  · rw [hc]; norm_num
  · simp [circlePoint, add]

theorem disc_ok (c : V4) (r a : ℝ) (zup : Bool) (h1 : 1 ≤ a) (h2 : a ≤ 45) (hc : c.w = 1) :
    circleSurface c r (some a) zup = .ok (disc c r (pyround (360 / a)).toNat zup) ∧
    issurface (disc c r (pyround (360 / a)).toNat zup) = true := by
  have hr := pyround_range h1 h2
  have hk := mkSurface_ok (discV c r (pyround (360 / a)).toNat) (List.replicate ((pyround (360 / a)).toNat + 1) (dir 0 0 (if zup then 1 else -1)))
    (circleFaces (pyround (360 / a)).toNat zup) (by rw [discV_length]; omega) (discV_w c r _ hc)
    (fun n hn => by rw [List.eq_of_mem_replicate hn]; rfl) (by rw [discV_length]; simp) (circleFaces_three _ _)
  refine ⟨?_, hk.2 _ _⟩
  unfold circleSurface circleAngr
  simp only
  rw [if_neg (by push Not; exact ⟨h1, h2⟩)]
  simp only
  rw [if_neg (by omega)]
  have e : (c :: (List.range (pyround (360 / a)).toNat).map (circlePoint c r (pyround (360 / a)).toNat)) = discV c r (pyround (360 / a)).toNat := rfl
  rw [e, discV_length, Nat.add_sub_cancel, hk.1]
  rfl

theorem disc_entry0 (c : V4) (r : ℝ) (n : Nat) : EntryAt (discV c r n) 0 c := Or.inl ⟨by omega, rfl⟩

theorem disc_entry (c : V4) (r : ℝ) {n k : Nat} (hk : k < n) : EntryAt (discV c r n) ((k + 1 : Nat) : Int) (circlePoint c r n k) := by
  apply entry_nat
  simp [discV, hk]

/-- the triangles of the bottom disc: `v .bot` is the centre and `v (.ring 0 j)` the circle -/
theorem disc_bottom {n m : Nat} (hn : 3 ≤ n) (c : V4) (r : ℝ) (v : LL n → V4) (hb : v .bot = c)
    (hv : ∀ k < n, v (.ring 0 ((k : ℕ) : ZMod n)) = circlePoint c r n k) :
    Tris [disc c r n false] (lTris v (((residues n).map LF.fb).map (LF.corners m)).reverse) := by
  apply tris_one
  simp only [disc, circleFaces, Bool.false_eq_true, if_false, residues, List.map_map, ← List.map_reverse]
  refine forall₂_maps _ _ _ fun k hk => ?_
  have hk : k < n := by simpa using hk
  refine ⟨0, _, _, rfl, ?_, ?_, ?_⟩
  · simpa [LF.corners, hb] using disc_entry0 c r n
  · have hm : (k + 1) % n < n := Nat.mod_lt _ (by omega)
    have e : (((k : ℕ) : ZMod n) + 1) = (((k + 1) % n : ℕ) : ZMod n) := by simp
    simp only [Function.comp, LF.corners]
    rw [e, hv _ hm, add_comm 1]
    exact disc_entry c r hm
  · simp only [Function.comp, LF.corners]
    rw [hv _ hk]
    exact disc_entry c r hk

theorem disc_top {n m : Nat} (hn : 3 ≤ n) (c : V4) (r : ℝ) (v : LL n → V4) (hb : v .top = c)
    (hv : ∀ k < n, v (.ring m ((k : ℕ) : ZMod n)) = circlePoint c r n k) :
    Tris [disc c r n true] (lTris v (((residues n).map LF.ft).map (LF.corners m))) := by
  apply tris_one
  simp only [disc, circleFaces, if_true, residues, List.map_map]
  refine forall₂_maps _ _ _ fun k hk => ?_
  have hk : k < n := by simpa using hk
  refine ⟨0, _, _, rfl, ?_, ?_, ?_⟩
  · simpa [LF.corners, hb] using disc_entry0 c r n
  · simp only [Function.comp, LF.corners]
    rw [hv _ hk]
    exact disc_entry c r hk
  · have hm : (k + 1) % n < n := Nat.mod_lt _ (by omega)
    have e : (((k : ℕ) : ZMod n) + 1) = (((k + 1) % n : ℕ) : ZMod n) := by simp
    simp only [Function.comp, LF.corners]
    rw [e, hv _ hm, add_comm 1]
    exact disc_entry c r hm

/-! ## solids made of a lathe mesh -/

/-- the corners of a turned profile about a vertical axis through `c` -/
noncomputable def turnedAt {n : Nat} (r z : Nat → ℝ) (zb zt : ℝ) (c : V4) (l : LL n) : V4 := add (turned r z zb zt l) c

theorem turned_far {n : Nat} (hn : 3 ≤ n) (m : Nat) (r z : Nat → ℝ) (zb zt : ℝ) (c : V4)
    (hr : ∀ i ≤ m, 2 * eps ≤ r i ∧ n * eps / 2 ≤ r i) (hz : ∀ i j, i < j → j ≤ m → 2 * eps ≤ |z i - z j|)
    (hbt : 2 * eps ≤ |zb - zt|) (a b : LL n) (ha : a.ok m) (hb : b.ok m) (hab : a ≠ b) :
    (2 * eps) ^ 2 ≤ sqDist (turnedAt r z zb zt c a) (turnedAt r z zb zt c b) := by
  have he : 0 < eps := by unfold eps; norm_num
  have hn0 : (0 : ℝ) < n := by
    have : 0 < n := by omega
    positivity
  have sq : ∀ t : ℝ, 2 * eps ≤ |t| → (2 * eps) ^ 2 ≤ t ^ 2 := fun t ht => by rw [← sq_abs t]; nlinarith
  have hpos : ∀ i ≤ m, (2 * eps) ^ 2 ≤ r i ^ 2 := fun i hi => by nlinarith [(hr i hi).1]
  have e : sqDist (turnedAt r z zb zt c a) (turnedAt r z zb zt c b) = sqDist (turned r z zb zt a) (turned r z zb zt b) := by
    unfold turnedAt sqDist add; ring
  rw [e]
  have pole : ∀ (j : ZMod n) i t, i ≤ m → (2 * eps) ^ 2 ≤ (cos (ang j) * r i) ^ 2 + (sin (ang j) * r i) ^ 2 + t ^ 2 := by
    intro j i t hi
    have := hpos i hi
    have cs := sin_sq_add_cos_sq (ang j)
    have : (cos (ang j) * r i) ^ 2 + (sin (ang j) * r i) ^ 2 = r i ^ 2 := by linear_combination r i ^ 2 * cs
    nlinarith [sq_nonneg t]
  cases a with
  | bot =>
    cases b with
    | bot => exact absurd rfl hab
    | top => have := sq _ hbt; simpa [turned, sqDist, pt] using this
    | ring i j => have := pole j i (zb - z i) hb; simpa [turned, sqDist, pt] using this
  | top =>
    cases b with
    | top => exact absurd rfl hab
    | bot => have := sq _ hbt; rw [← neg_sub, neg_sq] at this; simpa [turned, sqDist, pt] using this
    | ring i j => have := pole j i (zt - z i) hb; simpa [turned, sqDist, pt] using this
  | ring i j =>
    cases b with
    | bot => have := pole j i (z i - zb) ha; simpa [turned, sqDist, pt] using this
    | top => have := pole j i (z i - zt) ha; simpa [turned, sqDist, pt] using this
    | ring i' j' =>
      simp only [turned, sqDist, pt]
      by_cases hi : i = i'
      · subst hi
        have hj : j ≠ j' := fun h => hab (by rw [h])
        have h1 := chord_far hn (r i) hj
        have h2 : 2 * eps ≤ 4 * r i / n := by
          rw [le_div_iff₀ hn0]
          have := (hr i ha).2
          linarith
        have h3 : (2 * eps) ^ 2 ≤ (4 * r i / n) ^ 2 := by nlinarith
        nlinarith [sq_nonneg (z i - z i)]
      · have h1 : (2 * eps) ^ 2 ≤ (z i - z i') ^ 2 := by
          rcases Nat.lt_or_gt_of_ne hi with h | h
          · exact sq _ (hz i i' h hb)
          · have := sq _ (hz i' i h ha)
            rwa [← neg_sub, neg_sq] at this
        nlinarith [sq_nonneg (cos (ang j) * r i - cos (ang j') * r i'), sq_nonneg (sin (ang j) * r i - sin (ang j') * r i')]

/-- a solid whose triangles are those of a lathe mesh -/
theorem lathe_solid {n : Nat} (hn : 3 ≤ n) (m : Nat) (r z : Nat → ℝ) (zb zt : ℝ) (c : V4) (x : Solid) (ts : List Tri)
    (hx : issolid x = true) (ht : Tris x.surfs ts) (hp : ts.Perm (lTris (turnedAt r z zb zt c) (lathe n m)))
    (hr : ∀ i ≤ m, 2 * eps ≤ r i ∧ n * eps / 2 ≤ r i) (hz : ∀ i j, i < j → j ≤ m → 2 * eps ≤ |z i - z j|)
    (hbt : 2 * eps ≤ |zb - zt|) :
    issolidclosed x = .ok true ∧ Oriented ts ∧ Separated ts ∧
    volumeof x = .ok |n * sin (2 * π / n) / 6 * ((z 0 - zb) * r 0 ^ 2 +
      ((List.range m).map fun i => (z (i + 1) - z i) * (r i ^ 2 + r i * r (i + 1) + r (i + 1) ^ 2)).sum + (zt - z m) * r m ^ 2)| := by
  obtain ⟨g1, g2, g3⟩ := lathe_good hn (turnedAt r z zb zt c) (turned_far hn m r z zb zt c hr hz hbt)
  have hc := closed_perm hp g1
  refine ⟨?_, oriented_perm hp g2, separated_perm hp g3, ?_⟩
  · obtain ⟨b, h1, h3⟩ := C169_closed_iff _ _ hx ht
    rw [h1, h3.mpr hc]
  · rw [volume_eq _ _ hx ht hc, (hp.map triVolume).sum_eq]
    have e : lTris (turnedAt r z zb zt c) (lathe n m) = (lTris (turned r z zb zt) (lathe n m)).map (Tri.map fun p => add p c) := by
      unfold lTris
      rw [List.map_map]
      rfl
    have ho : Oriented (lTris (turned r z zb zt) (lathe n m)) :=
      oriented_lTris _ _ (swap_perm _ (lathe_nodup hn) (fun s h => lathe_swap hn s h))
    rw [e, volume_affine ⟨(1, 0, 0), (0, 1, 0), (0, 0, 1)⟩ (c.x, c.y, c.z) _ _ ho, lathe_volume hn]
    · have : Lin.det ⟨(1, 0, 0), (0, 1, 0), (0, 0, 1)⟩ = 1 := by simp [Lin.det]
      rw [this, one_mul]
    · intro p _
      simp [IsAffine, dotP, add, pos]

/-! ## the side of a frustum -/

theorem forall₂_flatMaps {α β γ : Type} {R : β → γ → Prop} (l : List α) (f : α → List β) (g : α → List γ)
    (h : ∀ x ∈ l, List.Forall₂ R (f x) (g x)) : List.Forall₂ R (l.flatMap f) (l.flatMap g) := by
  induction l with
  | nil => exact .nil
  | cons x l ih =>
    rw [List.flatMap_cons, List.flatMap_cons]
    exact List.rel_append (h x (by simp)) (ih fun y hy => h y (by simp [hy]))

/-- the vertices of the side -/
noncomputable def sideV (c c' : V4) (r r' : ℝ) (n : Nat) : List V4 :=
  (List.range n).map (circlePoint c r n) ++ (List.range n).map (circlePoint c' r' n)

theorem sideV_low (c c' : V4) (r r' : ℝ) {n k : Nat} (hk : k < n) : (sideV c c' r r' n)[k]? = some (circlePoint c r n k) := by
  unfold sideV
  rw [List.getElem?_append_left (by simpa using hk)]
  simp [hk]

theorem sideV_high (c c' : V4) (r r' : ℝ) {n k : Nat} (hk : k < n) : (sideV c c' r r' n)[n + k]? = some (circlePoint c' r' n k) := by
  unfold sideV
  rw [List.getElem?_append_right (by simp)]
  simp [hk]

theorem frustum_side {n : Nat} (hn : 3 ≤ n) (c c' : V4) (r r' : ℝ) (ns : List V4) (v : LL n → V4)
    (h0 : ∀ k < n, v (.ring 0 ((k : ℕ) : ZMod n)) = circlePoint c r n k)
    (h1 : ∀ k < n, v (.ring 1 ((k : ℕ) : ZMod n)) = circlePoint c' r' n k) :
    Tris [⟨sideV c c' r r' n, ns, frustumFaces n, [], []⟩]
      (lTris v (((List.range 1).flatMap fun i => (residues n).flatMap fun j => [LF.s1 i j, LF.s2 i j]).map (LF.corners 1))) := by
  apply tris_one
  simp only [frustumFaces, residues, List.map_flatMap, List.flatMap_map, List.range_one, List.flatMap_cons, List.flatMap_nil,
    List.append_nil]
  refine forall₂_flatMaps _ _ _ fun k hk => ?_
  have hk : k < n := by simpa using hk
  have hm : (k + 1) % n < n := Nat.mod_lt _ (by omega)
  have e : (((k : ℕ) : ZMod n) + 1) = (((k + 1) % n : ℕ) : ZMod n) := by simp
  simp only [List.map_cons, List.map_nil, LF.corners]
  rw [e]
  refine .cons ⟨_, _, _, rfl, ?_, ?_, ?_⟩ (.cons ⟨_, _, _, rfl, ?_, ?_, ?_⟩ .nil)
  · rw [h0 _ hk]; exact entry_nat (sideV_low c c' r r' hk)
  · rw [h0 _ hm]; exact entry_nat (sideV_low c c' r r' hm)
  · rw [h1 _ hm]; exact entry_nat (sideV_high c c' r r' hm)
  · rw [h0 _ hk]; exact entry_nat (sideV_low c c' r r' hk)
  · rw [h1 _ hm]; exact entry_nat (sideV_high c c' r r' hm)
  · rw [h1 _ hk]; exact entry_nat (sideV_high c c' r r' hk)

theorem tri2p0n_ok (p q s : V4) (h : eps ≤ mag (cross (sub q p) (sub s q))) :
    tri2p0n p q s = .ok (scale3 (add p (add q s)) (1 / 3),
      ⟨(cross (sub q p) (sub s q)).x * (1 / mag (cross (sub q p) (sub s q))),
       (cross (sub q p) (sub s q)).y * (1 / mag (cross (sub q p) (sub s q))),
       (cross (sub q p) (sub s q)).z * (1 / mag (cross (sub q p) (sub s q))), 0⟩) := by
  unfold tri2p0n
  simp only
  rw [if_neg (not_lt.mpr h)]
  rfl

theorem wrap_pred {n i : Nat} (hi : i < n) : wrap ((i : Int) - 1) n = (i + (n - 1)) % n := by
  unfold wrap
  have : ((i : Int) - 1) % n = ((i + (n - 1) : Nat) : Int) % n := by
    push_cast [Nat.cast_sub (by omega : 1 ≤ n)]
    rw [show (i : Int) + (n - 1) = (i - 1) + n by ring, Int.add_emod_right]
  rw [this]
  omega

theorem wrap_succ {n i : Nat} : wrap ((i : Int) + 1) n = (i + 1) % n := by
  unfold wrap
  have : ((i : Int) + 1) % n = ((i + 1 : Nat) : Int) % n := by push_cast; rfl
  rw [this]
  omega

/-- the direction of the cross product in the horizontal plane: enough for the triangle (previous, next, raised) not to
be degenerate -/
theorem side_mag {n : Nat} (hn : 3 ≤ n) (r h : ℝ) (hd : n * eps / 4 ≤ r * h) {j k : ZMod n} (hjk : j ≠ k) (p q s : V4)
    (hp : p.x - q.x = cos (ang j) * r - cos (ang k) * r ∧ p.y - q.y = sin (ang j) * r - sin (ang k) * r ∧ p.z = q.z)
    (hs : |s.z - q.z| = h) : eps ≤ mag (cross (sub q p) (sub s q)) := by
  have hn0 : (0 : ℝ) < n := by
    have : 0 < n := by omega
    positivity
  have he : 0 < eps := by unfold eps; norm_num
  have h1 := chord_far hn r hjk
  have h2 : eps ≤ 4 * r / n * h := by
    rw [div_mul_eq_mul_div, le_div_iff₀ hn0]
    linarith
  have hh2 : (s.z - q.z) ^ 2 = h ^ 2 := by rw [← sq_abs, hs]
  unfold mag
  refine le_sqrt_of_sq_le ?_
  have e : (cross (sub q p) (sub s q)).x = - (p.y - q.y) * (s.z - q.z) := by
    simp only [cross, sub]; rw [hp.2.2]; ring
  have e' : (cross (sub q p) (sub s q)).y = (p.x - q.x) * (s.z - q.z) := by
    simp only [cross, sub]; rw [hp.2.2]; ring
  rw [e, e', hp.1, hp.2.1]
  have h3 : eps ^ 2 ≤ (4 * r / n) ^ 2 * h ^ 2 := by
    rw [← mul_pow]
    have : 0 ≤ eps := he.le
    nlinarith
  have h4 : (4 * r / n) ^ 2 * h ^ 2 ≤ ((cos (ang j) * r - cos (ang k) * r) ^ 2 + (sin (ang j) * r - sin (ang k) * r) ^ 2) * h ^ 2 :=
    mul_le_mul_of_nonneg_right h1 (sq_nonneg h)
  rw [← hh2] at h4 h3
  nlinarith [mul_self_nonneg (cross (sub q p) (sub s q)).z]

end Verif.Prim
