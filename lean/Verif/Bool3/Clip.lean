import Verif.Bool3.Model
import Mathlib.Tactic.Ring
import Mathlib.Tactic.LinearCombination
import Mathlib.Tactic.Linarith
import Mathlib.Tactic.FieldSimp
import Mathlib.Tactic.Positivity
import Mathlib.Algebra.Order.Field.Basic

/-!
# Cutting polygons by planes: what is kept lies on the polygon and on the right side, and nothing near is lost
-/

namespace Verif.Bool3
open Verif.Valid (V vsub vadd smul dot cross Box Tri hull)

section field
variable {K : Type} [Field K] [LinearOrder K]

/-! ## specification -/

/-- `a` and `b` follow each other around the polygon -/
def Side (l : List (V K)) (a b : V K) : Prop := ∃ i, l[i]? = some a ∧ l[(i + 1) % l.length]? = some b

/-- `x` is on the segment from `a` to `b` -/
def Between (a b x : V K) : Prop := ∃ t, 0 ≤ t ∧ t ≤ 1 ∧ x = vadd a (smul t (vsub b a))

/-- the point is at most `tol` (in units of the length of the normal) on the wrong side of the plane -/
def Within (pl : Plane K) (tol : K) (p : V K) : Prop := if pl.sense ≤ 0 then dot pl.n p ≤ pl.d + tol else pl.d - tol ≤ dot pl.n p

/-- the point is at most `tol` on the inner side of the plane -/
def Beyond (pl : Plane K) (tol : K) (p : V K) : Prop := if pl.sense ≤ 0 then pl.d - tol ≤ dot pl.n p else dot pl.n p ≤ pl.d + tol

variable [IsStrictOrderedRing K]

theorem kept_true {pl : Plane K} {tol : K} {p : V K} : kept pl tol true p = true ↔ Within pl tol p := by
  unfold kept Within planeEval
  by_cases h : pl.sense ≤ 0
  · simp only [if_pos h, if_true, decide_eq_true_eq]
    constructor <;> intro h <;> linarith
  · simp only [if_neg h, if_true, decide_eq_true_eq]
    constructor <;> intro h <;> linarith

theorem kept_false {pl : Plane K} {tol : K} {p : V K} : kept pl tol false p = true ↔ Beyond pl tol p := by
  unfold kept Beyond planeEval
  by_cases h : pl.sense ≤ 0
  · simp only [if_pos h, Bool.false_eq_true, if_false, decide_eq_true_eq]
    constructor <;> intro h <;> linarith
  · simp only [if_neg h, Bool.false_eq_true, if_false, decide_eq_true_eq]
    constructor <;> intro h <;> linarith

theorem dot_between (n a b : V K) (t : K) : dot n (vadd a (smul t (vsub b a))) = dot n a + t * (dot n b - dot n a) := by
  simp only [dot, vadd, smul, vsub]; ring

theorem dot_vsub (n a b : V K) : dot n (vsub b a) = dot n b - dot n a := by
  simp only [dot, vsub]; ring

/-- the crossing, as a point of the segment -/
theorem segPlane_eq (p1 p2 n : V K) (d tol : K) :
    segPlane p1 p2 n d tol = vadd p1 (smul (if |dot n p2 - dot n p1| < tol then 1 / 2 else max 0 (min 1 ((d - dot n p1) / (dot n p2 - dot n p1)))) (vsub p2 p1)) := by
  unfold segPlane
  simp only [dot_vsub]
  by_cases h : |dot n p2 - dot n p1| < tol
  · rw [if_pos h, if_pos h]
    simp only [vadd, smul, vsub, Verif.Valid.V.mk.injEq]
    refine ⟨?_, ?_, ?_⟩ <;> ring
  · rw [if_neg h, if_neg h]
    simp only [vadd, smul, vsub, Verif.Valid.V.mk.injEq]
    refine ⟨?_, ?_, ?_⟩ <;> ring

theorem segPlane_between (p1 p2 n : V K) (d tol : K) : Between p1 p2 (segPlane p1 p2 n d tol) := by
  refine ⟨_, ?_, ?_, segPlane_eq p1 p2 n d tol⟩
  · split
    · positivity
    · exact le_max_left _ _
  · split
    · linarith [show (1 : K) / 2 ≤ 1 by norm_num]
    · exact max_le (by norm_num) (min_le_left _ _)

/-- the crossing of a segment with one end within the plane and the other not -/
theorem segPlane_low {p1 p2 n : V K} {d tol : K} (ht : 0 ≤ tol) (h : (dot n p1 ≤ d + tol ∧ d + tol < dot n p2) ∨ (d + tol < dot n p1 ∧ dot n p2 ≤ d + tol)) :
    dot n (segPlane p1 p2 n d tol) ≤ d + 3 / 2 * tol ∧ (tol = 0 → dot n (segPlane p1 p2 n d tol) = d) := by
  rw [segPlane_eq, dot_between]
  by_cases hd : |dot n p2 - dot n p1| < tol
  · rw [if_pos hd]
    rw [abs_lt] at hd
    refine ⟨?_, fun h0 => by linarith [hd.1, hd.2]⟩
    rcases h with h | h <;> linarith [hd.1, hd.2, h.1, h.2]
  · rw [if_neg hd]
    rcases h with ⟨h1, h2⟩ | ⟨h1, h2⟩
    · have hp : 0 < dot n p2 - dot n p1 := by linarith
      have hu : (d - dot n p1) / (dot n p2 - dot n p1) ≤ 1 := by rw [div_le_one hp]; linarith
      rw [min_eq_right hu]
      by_cases h0 : 0 ≤ (d - dot n p1) / (dot n p2 - dot n p1)
      · rw [max_eq_right h0, div_mul_cancel₀ _ hp.ne']
        exact ⟨by linarith, fun _ => by ring⟩
      · push Not at h0
        rw [max_eq_left h0.le]
        have : d - dot n p1 < 0 := by
          by_contra hc; push Not at hc
          exact absurd (div_nonneg hc hp.le) (not_le.2 h0)
        exact ⟨by linarith, fun hz => by subst hz; linarith⟩
    · have hp : dot n p2 - dot n p1 < 0 := by linarith
      have h0 : 0 ≤ (d - dot n p1) / (dot n p2 - dot n p1) := div_nonneg_of_nonpos (by linarith) hp.le
      by_cases hu : (d - dot n p1) / (dot n p2 - dot n p1) ≤ 1
      · rw [min_eq_right hu, max_eq_right h0, div_mul_cancel₀ _ hp.ne]
        exact ⟨by linarith, fun _ => by ring⟩
      · push Not at hu
        rw [min_eq_left hu.le, max_eq_right zero_le_one]
        rw [one_lt_div_of_neg hp] at hu
        exact ⟨by linarith, fun hz => by subst hz; linarith⟩

theorem segPlane_high {p1 p2 n : V K} {d tol : K} (ht : 0 ≤ tol) (h : (d - tol ≤ dot n p1 ∧ dot n p2 < d - tol) ∨ (dot n p1 < d - tol ∧ d - tol ≤ dot n p2)) :
    d - 3 / 2 * tol ≤ dot n (segPlane p1 p2 n d tol) ∧ (tol = 0 → dot n (segPlane p1 p2 n d tol) = d) := by
  have hm : ∀ v : V K, dot (smul (-1) n) v = -dot n v := fun v => by simp only [dot, smul]; ring
  have he : segPlane p1 p2 n d tol = segPlane p1 p2 (smul (-1) n) (-d) tol := by
    rw [segPlane_eq, segPlane_eq, hm, hm, show -dot n p2 - -dot n p1 = -(dot n p2 - dot n p1) by ring, abs_neg,
      show -d - -dot n p1 = -(d - dot n p1) by ring, neg_div_neg_eq]
  have := segPlane_low (p1 := p1) (p2 := p2) (n := smul (-1) n) (d := -d) ht (by
    rw [hm, hm]
    rcases h with h | h
    · exact .inl ⟨by linarith [h.1], by linarith [h.2]⟩
    · exact .inr ⟨by linarith [h.1], by linarith [h.2]⟩)
  rw [← he, hm] at this
  exact ⟨by linarith [this.1], fun h0 => by linarith [this.2 h0]⟩

/-- the crossing is within one and a half tolerances -/
theorem segPlane_within {pl : Plane K} {tol : K} (ht : 0 ≤ tol) {a b : V K} (h : kept pl tol true a ≠ kept pl tol true b) :
    Within pl (3 / 2 * tol) (segPlane a b pl.n pl.d tol) ∧ (tol = 0 → dot pl.n (segPlane a b pl.n pl.d tol) = pl.d) := by
  have h' : (Within pl tol a ∧ ¬ Within pl tol b) ∨ (¬ Within pl tol a ∧ Within pl tol b) := by
    rw [← kept_true, ← kept_true]
    cases h1 : kept pl tol true a <;> cases h2 : kept pl tol true b <;> simp_all
  unfold Within at h' ⊢
  by_cases hs : pl.sense ≤ 0
  · simp only [if_pos hs, not_le] at h' ⊢
    exact segPlane_low ht h'
  · simp only [if_neg hs, not_le] at h' ⊢
    exact segPlane_high ht h'

theorem segPlane_beyond {pl : Plane K} {tol : K} (ht : 0 ≤ tol) {a b : V K} (h : kept pl tol false a ≠ kept pl tol false b) :
    Beyond pl (3 / 2 * tol) (segPlane a b pl.n pl.d tol) ∧ (tol = 0 → dot pl.n (segPlane a b pl.n pl.d tol) = pl.d) := by
  have h' : (Beyond pl tol a ∧ ¬ Beyond pl tol b) ∨ (¬ Beyond pl tol a ∧ Beyond pl tol b) := by
    rw [← kept_false, ← kept_false]
    cases h1 : kept pl tol false a <;> cases h2 : kept pl tol false b <;> simp_all
  unfold Beyond at h' ⊢
  by_cases hs : pl.sense ≤ 0
  · simp only [if_pos hs, not_le] at h' ⊢
    exact segPlane_high ht h'
  · simp only [if_neg hs, not_le] at h' ⊢
    exact segPlane_low ht h'

theorem between_self (a b : V K) : Between a b b := ⟨1, zero_le_one, le_refl _, by simp [vadd, smul, vsub]⟩

omit [IsStrictOrderedRing K] in
theorem mem_clipLoop {pl : Plane K} {tol : K} {keep : Bool} {v : V K} : ∀ {l : List (V K)} {prev : V K}, v ∈ clipLoop pl tol keep prev l →
    ∃ a b, (a, b) ∈ (prev :: l).zip l ∧ ((v = b ∧ kept pl tol keep b = true) ∨ (v = segPlane a b pl.n pl.d tol ∧ kept pl tol keep a ≠ kept pl tol keep b))
  | [], _, h => nomatch h
  | c :: l, prev, h => by
    rw [clipLoop, List.mem_append] at h
    rcases h with h | h
    · refine ⟨prev, c, by simp, ?_⟩
      split at h
      · rename_i hc
        split at h
        · simp only [List.mem_singleton] at h; exact .inl ⟨h, hc⟩
        · rename_i hp
          simp only [List.mem_cons, List.not_mem_nil, or_false] at h
          rcases h with h | h
          · exact .inr ⟨h, by rw [hc]; exact hp⟩
          · exact .inl ⟨h, hc⟩
      · rename_i hc
        split at h
        · rename_i hp
          simp only [List.mem_singleton] at h
          exact .inr ⟨h, by rw [hp]; exact fun e => hc e.symm⟩
        · nomatch h
    · obtain ⟨a, b, hab, hv⟩ := mem_clipLoop h
      exact ⟨a, b, by simp only [List.zip_cons_cons]; exact .tail _ hab, hv⟩

omit [LinearOrder K] [IsStrictOrderedRing K] in
theorem side_of_zip {l : List (V K)} {q a b : V K} (hq : l.getLast? = some q) (h : (a, b) ∈ (q :: l).zip l) : Side l a b := by
  obtain ⟨i, hi, e⟩ := List.getElem_of_mem h
  rw [List.getElem_zip, Prod.mk.injEq] at e
  simp only [List.length_zip, List.length_cons] at hi
  have hi' : i < l.length := by omega
  rcases i with _ | i
  · refine ⟨l.length - 1, ?_, ?_⟩
    · rw [← List.getLast?_eq_getElem?, hq]; exact congrArg some (by simpa using e.1)
    · rw [show l.length - 1 + 1 = l.length by omega, Nat.mod_self, List.getElem?_eq_getElem hi']
      exact congrArg some e.2
  · refine ⟨i, ?_, ?_⟩
    · rw [List.getElem?_eq_getElem (by omega)]; exact congrArg some (by simpa using e.1)
    · rw [Nat.mod_eq_of_lt hi', List.getElem?_eq_getElem hi']
      exact congrArg some e.2

omit [IsStrictOrderedRing K] in
theorem thin_sub (tol : K) : ∀ (l : List (V K)) (q : V K), (thin tol q l).Sublist l
  | [], _ => by simp [thin]
  | p :: l, q => by
    rw [thin]
    split
    · exact (thin_sub tol l q).trans (List.sublist_cons_self _ _)
    · exact (thin_sub tol l p).cons_cons _

omit [IsStrictOrderedRing K] in
theorem dedupe_sub (tol : K) : ∀ l : List (V K), (dedupe tol l).Sublist l
  | [] => by simp [dedupe]
  | p :: l => by
    rw [dedupe]
    split
    · exact (List.dropLast_sublist _).trans ((thin_sub tol l p).cons_cons _)
    · exact (thin_sub tol l p).cons_cons _

omit [IsStrictOrderedRing K] in
theorem mem_clip {pl : Plane K} {tol : K} {keep : Bool} {poly : List (V K)} {v : V K} (h : v ∈ clip pl tol keep poly) :
    ∃ q, poly.getLast? = some q ∧ v ∈ clipLoop pl tol keep q poly := by
  unfold clip at h
  split at h
  · nomatch h
  · rename_i q hq
    refine ⟨q, hq, (dedupe_sub tol _).subset ?_⟩
    dsimp only at h
    split at h
    · exact List.mem_reverse.1 h
    · exact h

/-- What `_clip_polygon_against_plane` keeps is on the sides of the polygon and within one and a half tolerances on the right side of the plane. -/
theorem clip_sound {pl : Plane K} {tol : K} (ht : 0 ≤ tol) {poly : List (V K)} {v : V K} (h : v ∈ clip pl tol true poly) :
    (∃ a b, Side poly a b ∧ Between a b v) ∧ Within pl (3 / 2 * tol) v := by
  obtain ⟨q, hq, hv⟩ := mem_clip h
  obtain ⟨a, b, hab, ⟨rfl, hk⟩ | ⟨rfl, hk⟩⟩ := mem_clipLoop hv
  · refine ⟨⟨a, v, side_of_zip hq hab, between_self _ _⟩, ?_⟩
    rw [kept_true] at hk
    unfold Within at hk ⊢
    split <;> simp_all <;> linarith
  · exact ⟨⟨a, b, side_of_zip hq hab, segPlane_between _ _ _ _ _⟩, (segPlane_within ht hk).1⟩

theorem clip_sound_out {pl : Plane K} {tol : K} (ht : 0 ≤ tol) {poly : List (V K)} {v : V K} (h : v ∈ clip pl tol false poly) :
    (∃ a b, Side poly a b ∧ Between a b v) ∧ Beyond pl (3 / 2 * tol) v := by
  obtain ⟨q, hq, hv⟩ := mem_clip h
  obtain ⟨a, b, hab, ⟨rfl, hk⟩ | ⟨rfl, hk⟩⟩ := mem_clipLoop hv
  · refine ⟨⟨a, v, side_of_zip hq hab, between_self _ _⟩, ?_⟩
    rw [kept_false] at hk
    unfold Beyond at hk ⊢
    split <;> simp_all <;> linarith
  · exact ⟨⟨a, b, side_of_zip hq hab, segPlane_between _ _ _ _ _⟩, (segPlane_beyond ht hk).1⟩

/-! ## nothing near is lost -/

theorem near_self {tol : K} (ht : 0 ≤ tol) (p : V K) : near tol p p :=
  ⟨ht, by simp only [dot, vsub, sub_self, mul_zero, add_zero]; positivity⟩

theorem near_mono {tol t2 : K} (h : tol ≤ t2) {p q : V K} (hn : near tol p q) : near t2 p q :=
  ⟨hn.1.trans h, hn.2.trans (pow_le_pow_left₀ hn.1 h 2)⟩

theorem near_trans {tol : K} {p q r : V K} (h1 : near tol p q) (h2 : near tol q r) : near (2 * tol) p r := by
  refine ⟨by linarith [h1.1], ?_⟩
  have e1 := h1.2
  have e2 := h2.2
  simp only [dot, vsub] at e1 e2 ⊢
  nlinarith [sq_nonneg (p.x - 2 * q.x + r.x), sq_nonneg (p.y - 2 * q.y + r.y), sq_nonneg (p.z - 2 * q.z + r.z)]

omit [IsStrictOrderedRing K] in
theorem near_symm {tol : K} {p q : V K} (h : near tol p q) : near tol q p := by
  refine ⟨h.1, ?_⟩
  have := h.2
  simp only [dot, vsub] at this ⊢
  rw [show (q.x - p.x) * (q.x - p.x) + (q.y - p.y) * (q.y - p.y) + (q.z - p.z) * (q.z - p.z) =
    (p.x - q.x) * (p.x - q.x) + (p.y - q.y) * (p.y - q.y) + (p.z - q.z) * (p.z - q.z) by ring]
  exact this

theorem thin_covers {tol : K} (ht : 0 ≤ tol) : ∀ (l : List (V K)) (q p : V K), p ∈ q :: l → ∃ r ∈ q :: thin tol q l, near tol p r
  | [], q, p, h => ⟨q, by simp, by simp only [List.mem_singleton] at h; subst h; exact near_self ht _⟩
  | c :: l, q, p, h => by
    rw [thin]
    split
    · rename_i hc
      rcases List.mem_cons.1 h with rfl | h
      · exact ⟨p, by simp, near_self ht _⟩
      rcases List.mem_cons.1 h with rfl | h
      · exact ⟨q, by simp, hc⟩
      · exact thin_covers ht l q p (.tail _ h)
    · rcases List.mem_cons.1 h with rfl | h
      · exact ⟨p, by simp, near_self ht _⟩
      · obtain ⟨r, hr, hn⟩ := thin_covers ht l c p h
        exact ⟨r, .tail _ hr, hn⟩

theorem dedupe_covers {tol : K} (ht : 0 ≤ tol) {l : List (V K)} {p : V K} (h : p ∈ l) : ∃ r ∈ dedupe tol l, near (2 * tol) p r := by
  cases l with
  | nil => nomatch h
  | cons a l =>
    rw [dedupe]
    obtain ⟨r, hr, hn⟩ := thin_covers ht l a p h
    split
    · rename_i hc
      by_cases hlast : r = (a :: thin tol a l).getLast (by simp)
      · refine ⟨a, ?_, near_trans hn (hlast ▸ near_symm hc.2)⟩
        cases hth : thin tol a l with
        | nil => have hc1 := hc.1; rw [hth] at hc1; simp at hc1
        | cons b m => simp
      · refine ⟨r, ?_, near_mono (by linarith) hn⟩
        rw [← List.dropLast_append_getLast (l := a :: thin tol a l) (by simp), List.mem_append] at hr
        rcases hr with hr | hr
        · exact hr
        · exact absurd (List.mem_singleton.1 hr) hlast
    · exact ⟨r, hr, near_mono (by linarith) hn⟩

omit [IsStrictOrderedRing K] in
theorem clipLoop_keeps {pl : Plane K} {tol : K} {keep : Bool} {v : V K} : ∀ {l : List (V K)} {prev : V K}, v ∈ l → kept pl tol keep v = true → v ∈ clipLoop pl tol keep prev l
  | c :: l, prev, h, hk => by
    rw [clipLoop, List.mem_append]
    rcases List.mem_cons.1 h with rfl | h
    · left; rw [if_pos hk]; split <;> simp
    · exact .inr (clipLoop_keeps h hk)

/-- Every corner of the polygon on the right side has a kept vertex within two tolerances. -/
theorem clip_complete {pl : Plane K} {tol : K} (ht : 0 ≤ tol) {poly : List (V K)} {p : V K} (hp : p ∈ poly) (h : Within pl tol p) :
    ∃ v ∈ clip pl tol true poly, near (2 * tol) p v := by
  unfold clip
  split
  · rename_i hq
    rw [List.getLast?_eq_none_iff] at hq
    subst hq; nomatch hp
  · dsimp only
    rw [if_neg (by simp)]
    exact dedupe_covers ht (clipLoop_keeps hp (kept_true.2 h))

/-! ## several planes -/

/-- `x` is a convex combination of points of the list: in every half space that contains the list. (The half spaces of an ordered field separate
points from the convex hulls of finite sets.) -/
def InHull (l : List (V K)) (x : V K) : Prop := ∀ (n : V K) (d : K), (∀ p ∈ l, dot n p ≤ d) → dot n x ≤ d

theorem inHull_between {l : List (V K)} {a b x : V K} (ha : a ∈ l) (hb : b ∈ l) (h : Between a b x) : InHull l x := by
  obtain ⟨t, h0, h1, rfl⟩ := h
  intro n d hl
  rw [dot_between]
  nlinarith [hl a ha, hl b hb]

omit [IsStrictOrderedRing K] in
theorem inHull_mem {l : List (V K)} {x : V K} (h : x ∈ l) : InHull l x := fun _ _ hl => hl x h

omit [IsStrictOrderedRing K] in
theorem inHull_trans {l m : List (V K)} {x : V K} (h : InHull m x) (hm : ∀ y ∈ m, InHull l y) : InHull l x :=
  fun n d hl => h n d fun y hy => hm y hy n d hl

omit [Field K] [LinearOrder K] [IsStrictOrderedRing K] in
theorem side_mem {l : List (V K)} {a b : V K} (h : Side l a b) : a ∈ l ∧ b ∈ l := by
  obtain ⟨i, h1, h2⟩ := h
  exact ⟨List.mem_of_getElem? h1, List.mem_of_getElem? h2⟩

theorem clip_hull {pl : Plane K} {tol : K} {keep : Bool} {poly : List (V K)} {v : V K} (h : v ∈ clip pl tol keep poly) : InHull poly v := by
  obtain ⟨q, hq, hv⟩ := mem_clip h
  obtain ⟨a, b, hab, ⟨rfl, hk⟩ | ⟨rfl, hk⟩⟩ := mem_clipLoop hv
  · exact inHull_mem (side_mem (side_of_zip hq hab)).2
  · have hm := side_mem (side_of_zip hq hab)
    exact inHull_between hm.1 hm.2 (segPlane_between _ _ _ _ _)

theorem within_mono {pl : Plane K} {s t : K} (h : s ≤ t) {p : V K} (hp : Within pl s p) : Within pl t p := by
  unfold Within at hp ⊢; split <;> simp_all <;> linarith

theorem beyond_mono {pl : Plane K} {s t : K} (h : s ≤ t) {p : V K} (hp : Beyond pl s p) : Beyond pl t p := by
  unfold Beyond at hp ⊢; split <;> simp_all <;> linarith

/-- the parts of one cut -/
theorem split_parts {pl : Plane K} {tol : K} (ht : 0 ≤ tol) (poly : List (V K)) :
    (∀ v ∈ (split pl tol poly).1, InHull poly v ∧ Within pl (3 / 2 * tol) v) ∧
      ∀ o ∈ (split pl tol poly).2, o ≠ [] ∧ ∀ v ∈ o, InHull poly v ∧ Beyond pl (3 / 2 * tol) v := by
  have hh : tol ≤ 3 / 2 * tol := by linarith
  unfold split
  by_cases h0 : poly = []
  · rw [if_pos h0]; simp
  rw [if_neg h0]
  unfold planeEval
  split
  · rename_i h
    refine ⟨fun v hv => ⟨inHull_mem hv, within_mono hh ?_⟩, by simp⟩
    unfold Within; rw [if_pos h.1]; linarith [h.2 v hv]
  split
  · rename_i h
    refine ⟨by simp, fun o ho => ?_⟩
    obtain rfl := List.mem_singleton.1 ho
    refine ⟨h0, fun v hv => ⟨inHull_mem hv, beyond_mono hh ?_⟩⟩
    unfold Beyond; rw [if_pos h.1]; linarith [h.2 v hv]
  split
  · rename_i h
    refine ⟨fun v hv => ⟨inHull_mem hv, within_mono hh ?_⟩, by simp⟩
    unfold Within; rw [if_neg h.1]; linarith [h.2 v hv]
  split
  · rename_i h
    refine ⟨by simp, fun o ho => ?_⟩
    obtain rfl := List.mem_singleton.1 ho
    refine ⟨h0, fun v hv => ⟨inHull_mem hv, beyond_mono hh ?_⟩⟩
    unfold Beyond; rw [if_neg h.1]; linarith [h.2 v hv]
  · dsimp only
    refine ⟨fun v hv => ⟨clip_hull hv, (clip_sound ht hv).2⟩, fun o ho => ?_⟩
    split at ho
    · nomatch ho
    · rename_i hne
      obtain rfl := List.mem_singleton.1 ho
      exact ⟨hne, fun v hv => ⟨clip_hull hv, (clip_sound_out ht hv).2⟩⟩

omit [IsStrictOrderedRing K] in
theorem mem_splitEach {pl : Plane K} {tol : K} : ∀ {ins : List (List (V K))} {c : List (V K)},
    (c ∈ (splitEach pl tol ins).1 ↔ ∃ i ∈ ins, c = (split pl tol i).1 ∧ c ≠ []) ∧ (c ∈ (splitEach pl tol ins).2 ↔ ∃ i ∈ ins, c ∈ (split pl tol i).2)
  | [], c => by simp [splitEach]
  | i :: ins, c => by
    have ih := mem_splitEach (pl := pl) (tol := tol) (ins := ins) (c := c)
    rw [splitEach]
    dsimp only
    simp only [List.mem_append, ih.1, ih.2, List.mem_cons, exists_eq_or_imp]
    constructor
    · refine or_congr ?_ Iff.rfl
      split
      · rename_i h; rw [h]; simp
      · rename_i h
        rw [List.mem_singleton]
        exact ⟨fun e => ⟨e, e ▸ h⟩, fun e => e.1⟩
    · trivial

/-- One convex piece of the polygon at most is left; its corners are in the hull of the polygon and on the right side of every plane. -/
theorem splitAll_parts {tol : K} (ht : 0 ≤ tol) : ∀ (planes : List (Plane K)) (ins : List (List (V K))),
    (∀ c ∈ (splitAll tol planes ins).1, ∃ i ∈ ins, ∀ v ∈ c, InHull i v ∧ ∀ pl ∈ planes, Within pl (3 / 2 * tol) v) ∧
      ∀ o ∈ (splitAll tol planes ins).2, ∃ i ∈ ins, ∃ pl ∈ planes, ∀ v ∈ o, InHull i v ∧ Beyond pl (3 / 2 * tol) v
  | [], ins => by
    rw [splitAll]
    exact ⟨fun c hc => ⟨c, hc, fun v hv => ⟨inHull_mem hv, by simp⟩⟩, by simp⟩
  | pl :: planes, ins => by
    obtain ⟨ih1, ih2⟩ := splitAll_parts ht planes (splitEach pl tol ins).1
    rw [splitAll]
    dsimp only
    refine ⟨fun c hc => ?_, fun o ho => ?_⟩
    · obtain ⟨i, hi, hv⟩ := ih1 c hc
      obtain ⟨j, hj, rfl, -⟩ := mem_splitEach.1.1 hi
      have hs := (split_parts (pl := pl) ht j).1
      refine ⟨j, hj, fun v hvc => ⟨inHull_trans (hv v hvc).1 fun y hy => (hs y hy).1, fun p hp => ?_⟩⟩
      rcases List.mem_cons.1 hp with rfl | hp
      · have h := (hv v hvc).1
        unfold Within
        split
        · rename_i hsn
          refine h _ _ fun y hy => ?_
          have := (hs y hy).2
          unfold Within at this; rwa [if_pos hsn] at this
        · rename_i hsn
          have := h (smul (-1) p.n) (-(p.d - 3 / 2 * tol)) fun y hy => ?_
          · have e : dot (smul (-1) p.n) v = -dot p.n v := by simp only [dot, smul]; ring
            linarith
          · have := (hs y hy).2
            unfold Within at this; rw [if_neg hsn] at this
            have e : dot (smul (-1) p.n) y = -dot p.n y := by simp only [dot, smul]; ring
            linarith
      · exact (hv v hvc).2 p hp
    · rw [List.mem_append] at ho
      rcases ho with ho | ho
      · obtain ⟨j, hj, ho⟩ := mem_splitEach.2.1 ho
        exact ⟨j, hj, pl, by simp, ((split_parts ht j).2 o ho).2⟩
      · obtain ⟨i, hi, p, hp, hv⟩ := ih2 o ho
        obtain ⟨j, hj, rfl, -⟩ := mem_splitEach.1.1 hi
        exact ⟨j, hj, p, .tail _ hp, fun v hvo => ⟨inHull_trans (hv v hvo).1 fun y hy => ((split_parts ht j).1 y hy).1, (hv v hvo).2⟩⟩

omit [IsStrictOrderedRing K] in
theorem splitEach_length {pl : Plane K} {tol : K} : ∀ ins : List (List (V K)), (splitEach pl tol ins).1.length ≤ ins.length
  | [] => by simp [splitEach]
  | i :: ins => by
    have := splitEach_length (pl := pl) (tol := tol) ins
    rw [splitEach]; dsimp only
    split <;> simp <;> omega

omit [IsStrictOrderedRing K] in
theorem splitAll_length {tol : K} : ∀ (planes : List (Plane K)) (ins : List (List (V K))), (splitAll tol planes ins).1.length ≤ ins.length
  | [], ins => by simp [splitAll]
  | pl :: planes, ins => by
    rw [splitAll]; dsimp only
    exact (splitAll_length planes _).trans (splitEach_length ins)

end field
end Verif.Bool3
