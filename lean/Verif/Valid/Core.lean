import Verif.Valid.Model
import Mathlib.Tactic.Linarith
import Mathlib.Tactic.Ring
import Mathlib.Tactic.LinearCombination
import Mathlib.Tactic.Positivity
import Mathlib.Tactic.FieldSimp
import Mathlib.Tactic.NormNum

/-!
# Vectors, transforms and boxes
-/

namespace Verif.Valid

section field
variable {K : Type} [Field K] [LinearOrder K]

/-- a rotation (or reflection) and a translation -/
def Rigid (t : Tf K) : Prop := ∀ v w, dot (turn t v) (turn t w) = dot v w

/-- the motion `g` after `t`: the product of the matrices -/
def after (g t : Tf K) : Tf K :=
  ⟨vadd (vadd (smul g.r1.x t.r1) (smul g.r1.y t.r2)) (smul g.r1.z t.r3),
   vadd (vadd (smul g.r2.x t.r1) (smul g.r2.y t.r2)) (smul g.r2.z t.r3),
   vadd (vadd (smul g.r3.x t.r1) (smul g.r3.y t.r2)) (smul g.r3.z t.r3), place g t.o⟩

omit [LinearOrder K] in
theorem turn_after (g t : Tf K) (v : V K) : turn (after g t) v = turn g (turn t v) := by
  unfold after turn vadd smul dot
  ext <;> dsimp only <;> ring

omit [LinearOrder K] in
theorem place_after (g t : Tf K) (v : V K) : place (after g t) v = place g (place t v) := by
  unfold place
  rw [turn_after]
  unfold after place turn vadd dot
  ext <;> dsimp only <;> ring

omit [LinearOrder K] in
theorem place_sub (g : Tf K) (v w : V K) : vsub (place g v) (place g w) = turn g (vsub v w) := by
  unfold place turn vadd vsub dot
  ext <;> dsimp only <;> ring

omit [LinearOrder K] in
theorem turn_sub (g : Tf K) (v w : V K) : turn g (vsub v w) = vsub (turn g v) (turn g w) := by
  unfold turn vsub dot
  ext <;> dsimp only <;> ring

omit [LinearOrder K] in
theorem turn_smul (g : Tf K) (c : K) (v : V K) : turn g (smul c v) = smul c (turn g v) := by
  unfold turn smul dot
  ext <;> dsimp only <;> ring

/-- the transform that does nothing -/
def still : Tf K := ⟨⟨1, 0, 0⟩, ⟨0, 1, 0⟩, ⟨0, 0, 1⟩, ⟨0, 0, 0⟩⟩

/-- a quarter turn about the z axis, and a translation -/
def quarter (o : V K) : Tf K := ⟨⟨0, -1, 0⟩, ⟨1, 0, 0⟩, ⟨0, 0, 1⟩, o⟩

/-- half a turn about the x axis, and a translation -/
def flip (o : V K) : Tf K := ⟨⟨1, 0, 0⟩, ⟨0, -1, 0⟩, ⟨0, 0, -1⟩, o⟩

omit [LinearOrder K] in
theorem still_rigid : Rigid (still : Tf K) := by
  intro v w
  simp [still, turn, dot]

omit [LinearOrder K] in
theorem quarter_rigid (o : V K) : Rigid (quarter o) := by
  intro v w
  simp only [quarter, turn, dot]
  ring

omit [LinearOrder K] in
theorem flip_rigid (o : V K) : Rigid (flip o) := by
  intro v w
  simp only [flip, turn, dot]
  ring

omit [LinearOrder K] in
theorem after_rigid {g t : Tf K} (hg : Rigid g) (ht : Rigid t) : Rigid (after g t) := by
  intro v w
  rw [turn_after, turn_after, hg, ht]

/-- a point in a box, sides included -/
def Within (b : Box K) (p : V K) : Prop := (b.1.x ≤ p.x ∧ p.x ≤ b.2.x) ∧ (b.1.y ≤ p.y ∧ p.y ≤ b.2.y) ∧ (b.1.z ≤ p.z ∧ p.z ≤ b.2.z)

omit [Field K] in
theorem hull_aux (l : List (V K)) (b : Box K) :
    let h := l.foldl (fun b q => ((⟨min b.1.x q.x, min b.1.y q.y, min b.1.z q.z⟩ : V K), (⟨max b.2.x q.x, max b.2.y q.y, max b.2.z q.z⟩ : V K))) b
    (h.1.x ≤ b.1.x ∧ h.1.y ≤ b.1.y ∧ h.1.z ≤ b.1.z ∧ b.2.x ≤ h.2.x ∧ b.2.y ≤ h.2.y ∧ b.2.z ≤ h.2.z) ∧ (∀ q ∈ l, Within h q) ∧
    (h.1.x = b.1.x ∨ ∃ q ∈ l, h.1.x = q.x) ∧ (h.1.y = b.1.y ∨ ∃ q ∈ l, h.1.y = q.y) ∧ (h.1.z = b.1.z ∨ ∃ q ∈ l, h.1.z = q.z) ∧
    (h.2.x = b.2.x ∨ ∃ q ∈ l, h.2.x = q.x) ∧ (h.2.y = b.2.y ∨ ∃ q ∈ l, h.2.y = q.y) ∧ (h.2.z = b.2.z ∨ ∃ q ∈ l, h.2.z = q.z) := by
  induction l generalizing b with
  | nil => simp
  | cons p l ih =>
    obtain ⟨⟨a1, a2, a3, a4, a5, a6⟩, hw, c1, c2, c3, c4, c5, c6⟩ := ih (⟨min b.1.x p.x, min b.1.y p.y, min b.1.z p.z⟩, ⟨max b.2.x p.x, max b.2.y p.y, max b.2.z p.z⟩)
    rw [List.foldl_cons]
    dsimp only at a1 a2 a3 a4 a5 a6 c1 c2 c3 c4 c5 c6 ⊢
    generalize l.foldl _ _ = h at *
    refine ⟨⟨a1.trans (min_le_left _ _), a2.trans (min_le_left _ _), a3.trans (min_le_left _ _), (le_max_left _ _).trans a4, (le_max_left _ _).trans a5, (le_max_left _ _).trans a6⟩, ?_, ?_, ?_, ?_, ?_, ?_, ?_⟩
    · intro q hq
      rcases List.mem_cons.mp hq with rfl | hq
      · exact ⟨⟨a1.trans (min_le_right _ _), (le_max_right _ _).trans a4⟩, ⟨a2.trans (min_le_right _ _), (le_max_right _ _).trans a5⟩, ⟨a3.trans (min_le_right _ _), (le_max_right _ _).trans a6⟩⟩
      · exact hw q hq
    all_goals
      first
      | (rcases c1 with c | ⟨q, hq, c⟩
         · rcases min_choice b.1.x p.x with e | e
           · exact .inl (c.trans e)
           · exact .inr ⟨p, List.mem_cons_self .., c.trans e⟩
         · exact .inr ⟨q, List.mem_cons_of_mem _ hq, c⟩)
      | (rcases c2 with c | ⟨q, hq, c⟩
         · rcases min_choice b.1.y p.y with e | e
           · exact .inl (c.trans e)
           · exact .inr ⟨p, List.mem_cons_self .., c.trans e⟩
         · exact .inr ⟨q, List.mem_cons_of_mem _ hq, c⟩)
      | (rcases c3 with c | ⟨q, hq, c⟩
         · rcases min_choice b.1.z p.z with e | e
           · exact .inl (c.trans e)
           · exact .inr ⟨p, List.mem_cons_self .., c.trans e⟩
         · exact .inr ⟨q, List.mem_cons_of_mem _ hq, c⟩)
      | (rcases c4 with c | ⟨q, hq, c⟩
         · rcases max_choice b.2.x p.x with e | e
           · exact .inl (c.trans e)
           · exact .inr ⟨p, List.mem_cons_self .., c.trans e⟩
         · exact .inr ⟨q, List.mem_cons_of_mem _ hq, c⟩)
      | (rcases c5 with c | ⟨q, hq, c⟩
         · rcases max_choice b.2.y p.y with e | e
           · exact .inl (c.trans e)
           · exact .inr ⟨p, List.mem_cons_self .., c.trans e⟩
         · exact .inr ⟨q, List.mem_cons_of_mem _ hq, c⟩)
      | (rcases c6 with c | ⟨q, hq, c⟩
         · rcases max_choice b.2.z p.z with e | e
           · exact .inl (c.trans e)
           · exact .inr ⟨p, List.mem_cons_self .., c.trans e⟩
         · exact .inr ⟨q, List.mem_cons_of_mem _ hq, c⟩)

/-- a box is the least box around a set of points -/
structure Tight (b : Box K) (S : V K → Prop) : Prop where
  all : ∀ p, S p → Within b p
  loX : ∃ p, S p ∧ p.x = b.1.x
  loY : ∃ p, S p ∧ p.y = b.1.y
  loZ : ∃ p, S p ∧ p.z = b.1.z
  hiX : ∃ p, S p ∧ p.x = b.2.x
  hiY : ∃ p, S p ∧ p.y = b.2.y
  hiZ : ∃ p, S p ∧ p.z = b.2.z

omit [Field K] in
theorem hull_tight (p : V K) (l : List (V K)) : Tight (hull p l) (fun q => q ∈ p :: l) := by
  obtain ⟨⟨a1, a2, a3, a4, a5, a6⟩, hw, c1, c2, c3, c4, c5, c6⟩ := hull_aux l (p, p)
  unfold hull
  generalize l.foldl _ _ = h at *
  dsimp only at *
  refine ⟨?_, ?_, ?_, ?_, ?_, ?_, ?_⟩
  · intro q hq
    rcases List.mem_cons.mp hq with rfl | hq
    · exact ⟨⟨a1, a4⟩, ⟨a2, a5⟩, a3, a6⟩
    · exact hw q hq
  · rcases c1 with c | ⟨q, hq, c⟩; exacts [⟨p, List.mem_cons_self .., c.symm⟩, ⟨q, List.mem_cons_of_mem _ hq, c.symm⟩]
  · rcases c2 with c | ⟨q, hq, c⟩; exacts [⟨p, List.mem_cons_self .., c.symm⟩, ⟨q, List.mem_cons_of_mem _ hq, c.symm⟩]
  · rcases c3 with c | ⟨q, hq, c⟩; exacts [⟨p, List.mem_cons_self .., c.symm⟩, ⟨q, List.mem_cons_of_mem _ hq, c.symm⟩]
  · rcases c4 with c | ⟨q, hq, c⟩; exacts [⟨p, List.mem_cons_self .., c.symm⟩, ⟨q, List.mem_cons_of_mem _ hq, c.symm⟩]
  · rcases c5 with c | ⟨q, hq, c⟩; exacts [⟨p, List.mem_cons_self .., c.symm⟩, ⟨q, List.mem_cons_of_mem _ hq, c.symm⟩]
  · rcases c6 with c | ⟨q, hq, c⟩; exacts [⟨p, List.mem_cons_self .., c.symm⟩, ⟨q, List.mem_cons_of_mem _ hq, c.symm⟩]

/-- not upside down: the least corner is not above the greatest -/
def Proper (b : Box K) : Prop := b.1.x ≤ b.2.x ∧ b.1.y ≤ b.2.y ∧ b.1.z ≤ b.2.z

variable [IsStrictOrderedRing K]

/-- the least value of a linear function of one number on an interval is at an end -/
theorem lin_ends {lo hi x a : K} (h1 : lo ≤ x) (h2 : x ≤ hi) : (a * lo ≤ a * x ∨ a * hi ≤ a * x) ∧ (a * x ≤ a * lo ∨ a * x ≤ a * hi) := by
  rcases le_total 0 a with h | h
  · exact ⟨.inl (mul_le_mul_of_nonneg_left h1 h), .inr (mul_le_mul_of_nonneg_left h2 h)⟩
  · exact ⟨.inr (mul_le_mul_of_nonpos_left h2 h), .inl (mul_le_mul_of_nonpos_left h1 h)⟩

/-- so a linear function has a corner with at most, and one with at least, its value at a point of the box -/
theorem corner_low {b : Box K} {p : V K} (h : Within b p) (r : V K) :
    (∃ q ∈ corners b, dot r q ≤ dot r p) ∧ ∃ q ∈ corners b, dot r p ≤ dot r q := by
  obtain ⟨⟨x1, x2⟩, ⟨y1, y2⟩, z1, z2⟩ := h
  obtain ⟨ax, bx⟩ := lin_ends (a := r.x) x1 x2
  obtain ⟨ay, b'y⟩ := lin_ends (a := r.y) y1 y2
  obtain ⟨az, bz⟩ := lin_ends (a := r.z) z1 z2
  constructor
  · rcases ax with ax | ax <;> rcases ay with ay | ay <;> rcases az with az | az
    · exact ⟨⟨b.1.x, b.1.y, b.1.z⟩, by simp [corners], by unfold dot; linarith⟩
    · exact ⟨⟨b.1.x, b.1.y, b.2.z⟩, by simp [corners], by unfold dot; linarith⟩
    · exact ⟨⟨b.1.x, b.2.y, b.1.z⟩, by simp [corners], by unfold dot; linarith⟩
    · exact ⟨⟨b.1.x, b.2.y, b.2.z⟩, by simp [corners], by unfold dot; linarith⟩
    · exact ⟨⟨b.2.x, b.1.y, b.1.z⟩, by simp [corners], by unfold dot; linarith⟩
    · exact ⟨⟨b.2.x, b.1.y, b.2.z⟩, by simp [corners], by unfold dot; linarith⟩
    · exact ⟨⟨b.2.x, b.2.y, b.1.z⟩, by simp [corners], by unfold dot; linarith⟩
    · exact ⟨⟨b.2.x, b.2.y, b.2.z⟩, by simp [corners], by unfold dot; linarith⟩
  · rcases bx with ax | ax <;> rcases b'y with ay | ay <;> rcases bz with az | az
    · exact ⟨⟨b.1.x, b.1.y, b.1.z⟩, by simp [corners], by unfold dot; linarith⟩
    · exact ⟨⟨b.1.x, b.1.y, b.2.z⟩, by simp [corners], by unfold dot; linarith⟩
    · exact ⟨⟨b.1.x, b.2.y, b.1.z⟩, by simp [corners], by unfold dot; linarith⟩
    · exact ⟨⟨b.1.x, b.2.y, b.2.z⟩, by simp [corners], by unfold dot; linarith⟩
    · exact ⟨⟨b.2.x, b.1.y, b.1.z⟩, by simp [corners], by unfold dot; linarith⟩
    · exact ⟨⟨b.2.x, b.1.y, b.2.z⟩, by simp [corners], by unfold dot; linarith⟩
    · exact ⟨⟨b.2.x, b.2.y, b.1.z⟩, by simp [corners], by unfold dot; linarith⟩
    · exact ⟨⟨b.2.x, b.2.y, b.2.z⟩, by simp [corners], by unfold dot; linarith⟩

omit [IsStrictOrderedRing K] in
theorem corners_within {b : Box K} (h : Proper b) : ∀ q ∈ corners b, Within b q := by
  obtain ⟨h1, h2, h3⟩ := h
  intro q hq
  simp only [corners, List.mem_cons, List.not_mem_nil, or_false] at hq
  rcases hq with rfl | rfl | rfl | rfl | rfl | rfl | rfl | rfl <;> simp [Within, h1, h2, h3]

/-- **C227.** The transformed box is the least box, with sides along the axes of the world, around all transformed points of the box: it contains
them, and each of its six sides touches one of them. -/
theorem C227_transform_box (t : Tf K) {b : Box K} (hb : Proper b) : Tight (transformBox t b) (fun p => ∃ q, Within b q ∧ place t q = p) := by
  have ht := hull_tight (place t ⟨b.1.x, b.1.y, b.1.z⟩) ((corners b).map (place t))
  have hmem : ∀ p, p ∈ place t ⟨b.1.x, b.1.y, b.1.z⟩ :: (corners b).map (place t) → ∃ q, Within b q ∧ place t q = p := by
    intro p hp
    have : p ∈ (corners b).map (place t) := by
      rcases List.mem_cons.mp hp with rfl | hp
      · exact List.mem_map.mpr ⟨_, by simp [corners], rfl⟩
      · exact hp
    obtain ⟨q, hq, rfl⟩ := List.mem_map.mp this
    exact ⟨q, corners_within hb q hq, rfl⟩
  have hcor : ∀ q ∈ corners b, Within (transformBox t b) (place t q) := fun q hq => ht.all _ (List.mem_cons_of_mem _ (List.mem_map_of_mem hq))
  refine ⟨?_, ?_, ?_, ?_, ?_, ?_, ?_⟩
  · rintro p ⟨q, hq, rfl⟩
    obtain ⟨⟨c1, m1, e1⟩, c2, m2, e2⟩ := corner_low hq t.r1
    obtain ⟨⟨c3, m3, e3⟩, c4, m4, e4⟩ := corner_low hq t.r2
    obtain ⟨⟨c5, m5, e5⟩, c6, m6, e6⟩ := corner_low hq t.r3
    have x1 := (hcor c1 m1).1.1
    have x2 := (hcor c2 m2).1.2
    have y1 := (hcor c3 m3).2.1.1
    have y2 := (hcor c4 m4).2.1.2
    have z1 := (hcor c5 m5).2.2.1
    have z2 := (hcor c6 m6).2.2.2
    simp only [place, turn, vadd] at x1 x2 y1 y2 z1 z2
    refine ⟨⟨?_, ?_⟩, ⟨?_, ?_⟩, ?_, ?_⟩ <;> simp only [place, turn, vadd] <;> linarith
  · obtain ⟨p, hp, e⟩ := ht.loX; exact ⟨p, hmem p hp, e⟩
  · obtain ⟨p, hp, e⟩ := ht.loY; exact ⟨p, hmem p hp, e⟩
  · obtain ⟨p, hp, e⟩ := ht.loZ; exact ⟨p, hmem p hp, e⟩
  · obtain ⟨p, hp, e⟩ := ht.hiX; exact ⟨p, hmem p hp, e⟩
  · obtain ⟨p, hp, e⟩ := ht.hiY; exact ⟨p, hmem p hp, e⟩
  · obtain ⟨p, hp, e⟩ := ht.hiZ; exact ⟨p, hmem p hp, e⟩

end field

set_option maxRecDepth 100000

example : transformBox (quarter ⟨10, 0, 0⟩) ((⟨0, 0, 0⟩, ⟨1, 2, 3⟩) : Box ℚ) = (⟨8, 0, 0⟩, ⟨10, 1, 3⟩) := by decide +kernel

end Verif.Valid
