import Verif.Bool3.Clip
import Mathlib.Data.List.Triplewise
import Mathlib.Algebra.BigOperators.Group.List.Basic

/-!
# Cutting polygons by planes without a tolerance: no area is lost and none is counted twice
-/

namespace Verif.Bool3
open Verif.Valid (V vsub vadd smul dot cross Box Tri hull)

section field
variable {K : Type} [Field K] [LinearOrder K]

/-! ## specification -/

/-- twice the area of a triangle seen along `n`, times the length of `n`; positive when the corners run counter-clockwise -/
def seen (n : V K) (t : Tri K) : K := dot n (cross (vsub t.2.1 t.1) (vsub t.2.2 t.1))

/-- the corners of the polygon run counter-clockwise around `n`, without a reflex corner -/
def ConvexAround (n : V K) (l : List (V K)) : Prop := l.Triplewise fun a b c => 0 ≤ seen n (a, b, c)

/-- the polygon is in a plane across `n` -/
def Planar (n : V K) (l : List (V K)) : Prop := ∃ d, ∀ p ∈ l, dot n p = d

/-- the area seen along `n` of the triangles a polygon is cut into -/
def fanArea (n : V K) (l : List (V K)) : K := ((fan (some n) l).map (seen n)).sum

/-! ## sums around polygons -/

/-- twice the area of the triangle from `O`, seen along `n` -/
def ar (n O a b : V K) : K := dot n (cross (vsub a O) (vsub b O))

def walk (f : V K → V K → K) : V K → List (V K) → K
  | _, [] => 0
  | s, c :: l => f s c + walk f c l

def closed (f : V K → V K → K) (l : List (V K)) : K :=
  match l.getLast? with
  | none => 0
  | some q => walk f q l

omit [LinearOrder K] in
theorem walk_append (f : V K → V K → K) (c : V K) : ∀ (l : List (V K)) (s : V K), walk f s (l ++ [c]) = walk f s l + f ((s :: l).getLast (by simp)) c
  | [], s => by simp [walk]
  | a :: l, s => by
    rw [List.cons_append, walk, walk, walk_append f c l a, List.getLast_cons (by simp : a :: l ≠ [])]
    ring

omit [LinearOrder K] in
theorem walk_shift (f : V K → V K → K) (g : V K → K) : ∀ (l : List (V K)) (s : V K),
    walk (fun a b => f a b + (g b - g a)) s l = walk f s l + (g ((s :: l).getLast (by simp)) - g s)
  | [], s => by simp [walk]
  | a :: l, s => by
    rw [walk, walk, walk_shift f g l a, List.getLast_cons (by simp : a :: l ≠ [])]
    ring

omit [LinearOrder K] in
theorem closed_some {f : V K → V K → K} {l : List (V K)} {q : V K} (h : l.getLast? = some q) : closed f l = walk f q l := by
  unfold closed; rw [h]

omit [LinearOrder K] in
theorem last_cons {l : List (V K)} {q s : V K} (h : l.getLast? = some q) : (s :: l).getLast (by simp) = q := by
  cases l with
  | nil => simp at h
  | cons a l =>
    rw [List.getLast_cons (by simp)]
    rw [List.getLast?_eq_some_getLast (by simp)] at h
    exact Option.some.inj h

omit [LinearOrder K] in
theorem closed_base (n O O' : V K) (l : List (V K)) : closed (ar n O) l = closed (ar n O') l := by
  unfold closed
  cases h : l.getLast? with
  | none => rfl
  | some q =>
    dsimp only
    have e : ar n O = fun a b => ar n O' a b + ((fun x => dot n (cross (vsub O' O) x)) b - (fun x => dot n (cross (vsub O' O) x)) a) := by
      funext a b
      simp only [ar, dot, cross, vsub]; ring
    rw [e, walk_shift, last_cons h]
    ring

omit [LinearOrder K] in
theorem ar_self (n O a : V K) : ar n O a a = 0 := by simp only [ar, dot, cross, vsub]; ring

omit [LinearOrder K] in
theorem ar_symm (n O a b : V K) : ar n O b a = -ar n O a b := by simp only [ar, dot, cross, vsub]; ring

omit [LinearOrder K] in
theorem fan_none (n a : V K) : ∀ (l : List (V K)) (b : V K), (((b :: l).zip l).map fun e => seen n (a, e.1, e.2)).sum = walk (ar n a) b l
  | [], b => by simp [walk]
  | c :: l, b => by
    rw [List.zip_cons_cons, List.map_cons, List.sum_cons, fan_none n a l c, walk]
    rfl

omit [LinearOrder K] in
theorem closed_fan (n a : V K) (l : List (V K)) : closed (ar n a) (a :: l) = ((l.zip l.tail).map fun e => seen n (a, e.1, e.2)).sum := by
  cases l with
  | nil => rw [closed_some (q := a) rfl]; simp [walk, ar_self]
  | cons b l =>
    rw [List.tail_cons, fan_none]
    have h : (a :: b :: l).getLast? = some ((a :: b :: l).getLast (by simp)) := List.getLast?_eq_some_getLast _
    rw [closed_some h, walk, walk]
    have e1 : ∀ q, ar n a q a = 0 := fun q => by simp only [ar, dot, cross, vsub]; ring
    have e2 : ∀ q, ar n a a q = 0 := fun q => by simp only [ar, dot, cross, vsub]; ring
    rw [e1, e2]; ring

variable [IsStrictOrderedRing K]

theorem seen_facing (n : V K) (t : Tri K) : seen n (facing (some n) t) = |seen n t| := by
  unfold facing
  dsimp only
  have e : dot (cross (vsub t.2.1 t.1) (vsub t.2.2 t.1)) n = seen n t := by simp only [seen, dot]; ring
  rw [e]
  split
  · rename_i h
    rw [abs_of_neg h]
    simp only [seen, dot, cross, vsub]; ring
  · rename_i h
    rw [abs_of_nonneg (not_lt.1 h)]

theorem fanArea_cons (n a : V K) (l : List (V K)) : fanArea n (a :: l) = ((l.zip l.tail).map fun e => |seen n (a, e.1, e.2)|).sum := by
  unfold fanArea fan
  rw [List.map_map]
  refine congrArg List.sum (List.map_congr_left fun e _ => ?_)
  exact seen_facing n _

omit [Field K] [LinearOrder K] [IsStrictOrderedRing K] in
theorem pairwise_zip {R : V K → V K → Prop} : ∀ {l : List (V K)} {e : V K × V K}, l.Pairwise R → e ∈ l.zip l.tail → R e.1 e.2
  | [], _, _, h => by simp at h
  | [a], _, _, h => by simp at h
  | a :: b :: l, e, hp, h => by
    rw [List.tail_cons, List.zip_cons_cons, List.mem_cons] at h
    rcases h with rfl | h
    · exact (List.pairwise_cons.1 hp).1 b (by simp)
    · exact pairwise_zip (l := b :: l) (List.pairwise_cons.1 hp).2 h

/-- a convex polygon -/
theorem fanArea_convex {n : V K} {l : List (V K)} (O : V K) (h : ConvexAround n l) : fanArea n l = closed (ar n O) l := by
  cases l with
  | nil => rfl
  | cons a l =>
    rw [fanArea_cons, closed_base n O a, closed_fan]
    refine congrArg List.sum (List.map_congr_left fun e he => ?_)
    rw [abs_of_nonneg]
    exact pairwise_zip (List.triplewise_cons.1 h).1 he

omit [LinearOrder K] [IsStrictOrderedRing K] in
theorem seen_perm (n a b c : V K) : seen n (b, c, a) = seen n (a, b, c) ∧ seen n (c, b, a) = -seen n (a, b, c) := by
  constructor <;> (simp only [seen, dot, cross, vsub]; ring)

omit [LinearOrder K] [IsStrictOrderedRing K] in
theorem sum_neg {α : Type} (f : α → K) : ∀ l : List α, (l.map fun e => -f e).sum = -(l.map f).sum
  | [] => by simp
  | a :: l => by rw [List.map_cons, List.sum_cons, sum_neg f l, List.map_cons, List.sum_cons]; ring

/-- a convex polygon the other way around -/
theorem fanArea_reverse {n : V K} {l : List (V K)} (O : V K) (h : ConvexAround n l.reverse) : fanArea n l = -closed (ar n O) l := by
  cases l with
  | nil => simp [fanArea, fan, closed]
  | cons a l =>
    rw [fanArea_cons, closed_base n O a, closed_fan]
    have ht : (a :: l).Triplewise fun a b c => 0 ≤ seen n (c, b, a) := List.triplewise_reverse.1 h
    have hp := (List.triplewise_cons.1 ht).1
    rw [← sum_neg]
    refine congrArg List.sum (List.map_congr_left fun e he => ?_)
    have := pairwise_zip hp he
    rw [(seen_perm n a e.1 e.2).2] at this
    rw [abs_of_nonpos (by linarith)]

/-! ## clipping keeps polygons convex -/

omit [LinearOrder K] [IsStrictOrderedRing K] in
theorem seen_between (n a b y z : V K) (t : K) :
    seen n (vadd a (smul t (vsub b a)), y, z) = (1 - t) * seen n (a, y, z) + t * seen n (b, y, z) ∧
    seen n (y, vadd a (smul t (vsub b a)), z) = (1 - t) * seen n (y, a, z) + t * seen n (y, b, z) ∧
    seen n (y, z, vadd a (smul t (vsub b a))) = (1 - t) * seen n (y, z, a) + t * seen n (y, z, b) := by
  refine ⟨?_, ?_, ?_⟩ <;> (simp only [seen, dot, cross, vsub, vadd, smul]; ring)

omit [LinearOrder K] [IsStrictOrderedRing K] in
theorem seen_same (n a b : V K) : seen n (a, a, b) = 0 ∧ seen n (a, b, b) = 0 ∧ seen n (a, b, a) = 0 := by
  refine ⟨?_, ?_, ?_⟩ <;> (simp only [seen, dot, cross, vsub]; ring)

theorem mix_nonneg {t x y : K} (h0 : 0 ≤ t) (h1 : t ≤ 1) (hx : 0 ≤ x) (hy : 0 ≤ y) : 0 ≤ (1 - t) * x + t * y :=
  add_nonneg (mul_nonneg (by linarith) hx) (mul_nonneg h0 hy)

/-- a pairwise condition is kept when a point of a side is put between its ends -/
theorem pairwise_insert {n c a b X : V K} (hX : Between a b X) : ∀ {l1 l2 : List (V K)}, (l1 ++ a :: b :: l2).Pairwise (fun y z => 0 ≤ seen n (c, y, z)) →
    (l1 ++ a :: X :: b :: l2).Pairwise (fun y z => 0 ≤ seen n (c, y, z)) := by
  obtain ⟨t, h0, h1, rfl⟩ := hX
  intro l1 l2 h
  rw [List.pairwise_append] at h ⊢
  obtain ⟨hl1, h2, h3⟩ := h
  rw [List.pairwise_cons, List.pairwise_cons] at h2
  obtain ⟨ha, hb, hl2⟩ := h2
  refine ⟨hl1, ?_, ?_⟩
  · rw [List.pairwise_cons, List.pairwise_cons, List.pairwise_cons]
    refine ⟨?_, ?_, hb, hl2⟩
    · intro y hy
      rcases List.mem_cons.1 hy with rfl | hy
      · rw [(seen_between n a b c a t).2.2, (seen_same n c a).2.1]
        exact mix_nonneg h0 h1 (le_refl _) (ha b (by simp))
      · exact ha y hy
    · intro y hy
      rw [(seen_between n a b c y t).2.1]
      refine mix_nonneg h0 h1 (ha y hy) ?_
      rcases List.mem_cons.1 hy with rfl | hy
      · rw [(seen_same n c y).2.1]
      · exact hb y hy
  · intro x hx y hy
    rcases List.mem_cons.1 hy with rfl | hy
    · exact h3 x hx y (by simp)
    rcases List.mem_cons.1 hy with rfl | hy
    · rw [(seen_between n a b c x t).2.2]
      exact mix_nonneg h0 h1 (h3 x hx a (by simp)) (h3 x hx b (by simp))
    · exact h3 x hx y (.tail _ hy)

theorem convex_insert {n a b X : V K} (hX : Between a b X) : ∀ {l1 l2 : List (V K)}, ConvexAround n (l1 ++ a :: b :: l2) → ConvexAround n (l1 ++ a :: X :: b :: l2)
  | [], l2, h => by
    obtain ⟨t, h0, h1, rfl⟩ := hX
    unfold ConvexAround at h ⊢
    rw [List.nil_append] at h ⊢
    rw [List.triplewise_cons] at h
    obtain ⟨ha, hbl⟩ := h
    have hb := (List.triplewise_cons.1 hbl).1
    rw [List.triplewise_cons, List.triplewise_cons]
    refine ⟨?_, ?_, hbl⟩
    · rw [List.pairwise_cons]
      refine ⟨fun y hy => ?_, ha⟩
      rw [(seen_between n a b a y t).2.1, (seen_same n a y).1]
      refine mix_nonneg h0 h1 (le_refl _) ?_
      rcases List.mem_cons.1 hy with rfl | hy
      · rw [(seen_same n a y).2.1]
      · exact (List.pairwise_cons.1 ha).1 y hy
    · rw [List.pairwise_cons] at ha ⊢
      refine ⟨fun y hy => ?_, ?_⟩
      · rw [(seen_between n a b b y t).1, (seen_same n b y).1]
        exact mix_nonneg h0 h1 (ha.1 y hy) (le_refl _)
      · refine (ha.2.and hb).imp fun {y z} hyz => ?_
        rw [(seen_between n a b y z t).1]
        exact mix_nonneg h0 h1 hyz.1 hyz.2
  | c :: l1, l2, h => by
    unfold ConvexAround at h ⊢
    rw [List.cons_append, List.triplewise_cons] at h ⊢
    exact ⟨pairwise_insert hX h.1, convex_insert hX h.2⟩

theorem convex_front {n b q X : V K} {l : List (V K)} (hq : (b :: l).getLast? = some q) (hX : Between q b X) (h : ConvexAround n (b :: l)) : ConvexAround n (X :: b :: l) := by
  obtain ⟨t, h0, h1, rfl⟩ := hX
  unfold ConvexAround at h ⊢
  rw [List.triplewise_cons]
  refine ⟨?_, h⟩
  have hb : (b :: l).Pairwise fun y z => 0 ≤ seen n (b, y, z) := by
    rw [List.pairwise_cons]
    exact ⟨fun y _ => by rw [(seen_same n b y).1], (List.triplewise_cons.1 h).1⟩
  have hqq : (b :: l).Pairwise fun y z => 0 ≤ seen n (q, y, z) := by
    obtain ⟨m, hm⟩ := List.getLast?_eq_some_iff.1 hq
    rw [hm] at h ⊢
    rw [List.triplewise_append] at h
    rw [List.pairwise_append]
    refine ⟨(h.2.2.2 q (by simp)).imp fun {y z} hyz => ?_, by simp, fun y _ z hz => ?_⟩
    · rw [← (seen_perm n q y z).1]; exact hyz
    · obtain rfl := List.mem_singleton.1 hz
      rw [(seen_same n z y).2.2]
  refine (hqq.and hb).imp fun {y z} hyz => ?_
  rw [(seen_between n q b y z t).1]
  exact mix_nonneg h0 h1 hyz.1 hyz.2

/-- the polygon with a point on each of its sides -/
def refined (X : V K → V K → V K) : V K → List (V K) → List (V K)
  | _, [] => []
  | prev, c :: l => X prev c :: c :: refined X c l

theorem convex_refined {n : V K} {X : V K → V K → V K} (hX : ∀ a b, Between a b (X a b)) : ∀ (l : List (V K)) (prev : V K) (pre : List (V K)),
    ConvexAround n (pre ++ prev :: l) → ConvexAround n (pre ++ prev :: refined X prev l)
  | [], _, _, h => h
  | c :: l, prev, pre, h => by
    have h1 := convex_insert (hX prev c) h
    have h2 := convex_refined hX l c (pre ++ [prev, X prev c]) (by simpa using h1)
    simpa [refined] using h2

omit [IsStrictOrderedRing K] in
theorem clipLoop_sub (pl : Plane K) (tol : K) (keep : Bool) : ∀ (l : List (V K)) (prev : V K),
    (clipLoop pl tol keep prev l).Sublist (refined (fun a b => segPlane a b pl.n pl.d tol) prev l)
  | [], _ => by simp [clipLoop]
  | c :: l, prev => by
    rw [clipLoop, refined]
    have ih := clipLoop_sub pl tol keep l c
    refine List.Sublist.append (l₂ := [segPlane prev c pl.n pl.d tol, c]) ?_ ih
    split
    · split
      · exact List.sublist_cons_self _ _
      · exact List.Sublist.refl _
    · split
      · simp
      · simp

omit [Field K] [LinearOrder K] [IsStrictOrderedRing K] in
theorem triplewise_sub {p : V K → V K → V K → Prop} {l m : List (V K)} (h : l.Sublist m) (hm : m.Triplewise p) : l.Triplewise p := by
  induction h with
  | slnil => exact hm
  | cons a _ ih => exact ih (List.triplewise_cons.1 hm).2
  | cons_cons a hs ih => exact List.triplewise_cons.2 ⟨(List.triplewise_cons.1 hm).1.sublist hs, ih (List.triplewise_cons.1 hm).2⟩

theorem convex_loop {n : V K} {pl : Plane K} {tol : K} {keep : Bool} {poly : List (V K)} {q : V K} (hq : poly.getLast? = some q) (h : ConvexAround n poly) :
    ConvexAround n (clipLoop pl tol keep q poly) := by
  refine triplewise_sub (clipLoop_sub pl tol keep poly q) ?_
  cases poly with
  | nil => exact .nil
  | cons c l =>
    rw [refined]
    have h1 := convex_front (X := segPlane q c pl.n pl.d tol) hq (segPlane_between _ _ _ _ _) h
    exact convex_refined (fun a b => segPlane_between _ _ _ _ _) l c [segPlane q c pl.n pl.d tol] h1

/-! ## the area of the two parts -/

omit [LinearOrder K] [IsStrictOrderedRing K] in
theorem ar_split {n O a b X : V K} (t : K) (hX : X = vadd a (smul t (vsub b a))) : ar n O a X + ar n O X b = ar n O a b := by
  subst hX
  simp only [ar, dot, cross, vsub, vadd, smul]; ring

/-- two points of the line where the plane of the polygon meets the cutting plane -/
theorem ar_line {n m O u v p1 p2 : V K} {d D : K} (hn : dot n n ≠ 0) (hO : dot n O = d ∧ dot m O = D) (hu : dot n u = d ∧ dot m u = D) (hv : dot n v = d ∧ dot m v = D)
    (hp : dot n p1 = dot n p2) (hm : dot m p1 ≠ dot m p2) : ar n O u v = 0 := by
  have e1 : dot n (vsub u O) = 0 := by rw [dot_vsub, hu.1, hO.1, sub_self]
  have e2 : dot n (vsub v O) = 0 := by rw [dot_vsub, hv.1, hO.1, sub_self]
  have e3 : dot m (vsub u O) = 0 := by rw [dot_vsub, hu.2, hO.2, sub_self]
  have e4 : dot m (vsub v O) = 0 := by rw [dot_vsub, hv.2, hO.2, sub_self]
  have e5 : dot n (vsub p1 p2) = 0 := by rw [dot_vsub, hp, sub_self]
  have e6 : dot m (vsub p1 p2) ≠ 0 := by rw [dot_vsub]; exact sub_ne_zero.2 hm
  unfold ar
  generalize vsub u O = u at *
  generalize vsub v O = v at *
  generalize vsub p1 p2 = g at *
  have key : ∀ w : V K, dot w u = 0 → dot w v = 0 → dot w g * dot n (cross u v) = dot (cross u v) g * dot w n := by
    intro w h1 h2
    simp only [dot, cross] at h1 h2 ⊢
    linear_combination (g.x * (n.z * v.y - n.y * v.z) + g.y * (n.x * v.z - n.z * v.x) + g.z * (n.y * v.x - n.x * v.y)) * h1 +
      (g.x * (n.y * u.z - n.z * u.y) + g.y * (n.z * u.x - n.x * u.z) + g.z * (n.x * u.y - n.y * u.x)) * h2
  have k1 := key n e1 e2
  rw [e5, zero_mul] at k1
  have k2 : dot (cross u v) g = 0 := (mul_eq_zero.1 k1.symm).resolve_right hn
  have k3 := key m e3 e4
  rw [k2, zero_mul] at k3
  exact (mul_eq_zero.1 k3).resolve_left e6

/-- what is needed of the cut: a polygon in a plane across `n`, a point `O` where the two planes meet, and the planes not parallel -/
structure Cut (n O : V K) (d : K) (pl : Plane K) : Prop where
  hn : dot n n ≠ 0
  hO : dot n O = d ∧ dot pl.n O = pl.d
  ex : ∃ p1 p2, dot n p1 = dot n p2 ∧ dot pl.n p1 ≠ dot pl.n p2

def OnLine (n : V K) (d : K) (pl : Plane K) (p : V K) : Prop := dot n p = d ∧ dot pl.n p = pl.d

theorem Cut.line {n O : V K} {d : K} {pl : Plane K} (c : Cut n O d pl) {u v : V K} (hu : OnLine n d pl u) (hv : OnLine n d pl v) : ar n O u v = 0 := by
  obtain ⟨p1, p2, h1, h2⟩ := c.ex
  exact ar_line c.hn c.hO hu hv h1 h2

/-- the part of a side that is kept -/
def part (n O : V K) (pl : Plane K) (keep : Bool) (a b : V K) : K :=
  if kept pl 0 keep b then (if kept pl 0 keep a then ar n O a b else ar n O (segPlane a b pl.n pl.d 0) b)
  else if kept pl 0 keep a then ar n O a (segPlane a b pl.n pl.d 0) else 0

theorem cross_line {n : V K} {d : K} {pl : Plane K} {keep : Bool} {a b : V K} (ha : dot n a = d) (hb : dot n b = d) (h : kept pl 0 keep a ≠ kept pl 0 keep b) :
    OnLine n d pl (segPlane a b pl.n pl.d 0) := by
  constructor
  · rw [segPlane_eq, dot_between, ha, hb]; ring
  · cases keep with
    | true => exact (segPlane_within (le_refl 0) h).2 rfl
    | false => exact (segPlane_beyond (le_refl 0) h).2 rfl

/-- where the walk along the kept points stands -/
def At (n : V K) (d : K) (pl : Plane K) (keep : Bool) (prev s : V K) : Prop := if kept pl 0 keep prev then s = prev else OnLine n d pl s

theorem walk_clip {n O : V K} {d : K} {pl : Plane K} (c : Cut n O d pl) (keep : Bool) : ∀ (l : List (V K)) (prev s : V K), dot n prev = d → (∀ p ∈ l, dot n p = d) →
    At n d pl keep prev s → walk (ar n O) s (clipLoop pl 0 keep prev l) = walk (part n O pl keep) prev l ∧
      At n d pl keep ((prev :: l).getLast (by simp)) ((s :: clipLoop pl 0 keep prev l).getLast (by simp))
  | [], prev, s, _, _, h => by simp [clipLoop, walk, h]
  | b :: l, prev, s, hp, hl, h => by
    have hb : dot n b = d := hl b (by simp)
    have hl' : ∀ p ∈ l, dot n p = d := fun p hp => hl p (.tail _ hp)
    rw [List.getLast_cons (by simp : b :: l ≠ [])]
    rw [walk, part]
    unfold At at h
    by_cases hkb : kept pl 0 keep b = true <;> by_cases hkp : kept pl 0 keep prev = true
    · rw [if_pos hkp] at h; subst h
      have ih := walk_clip c keep l b b hb hl' (by unfold At; rw [if_pos hkb])
      simp only [clipLoop, if_pos hkb, if_pos hkp, List.cons_append, List.nil_append]
      rw [walk]
      refine ⟨by rw [ih.1], ?_⟩
      rw [List.getLast_cons (a := s) (by simp : b :: clipLoop pl 0 keep b l ≠ [])]
      exact ih.2
    · rw [if_neg hkp] at h
      have ih := walk_clip c keep l b b hb hl' (by unfold At; rw [if_pos hkb])
      simp only [clipLoop, if_pos hkb, if_neg hkp, List.cons_append, List.nil_append]
      rw [walk, walk, c.line h (cross_line hp hb (keep := keep) (by rw [hkb]; exact hkp)), zero_add]
      refine ⟨by rw [ih.1], ?_⟩
      rw [List.getLast_cons (a := s) (by simp : segPlane prev b pl.n pl.d 0 :: b :: clipLoop pl 0 keep b l ≠ []), List.getLast_cons (by simp : b :: clipLoop pl 0 keep b l ≠ [])]
      exact ih.2
    · rw [if_pos hkp] at h; subst h
      have hX := cross_line (pl := pl) hp hb (keep := keep) (by rw [hkp]; exact fun e => hkb e.symm)
      have ih := walk_clip c keep l b (segPlane s b pl.n pl.d 0) hb hl' (by unfold At; rw [if_neg hkb]; exact hX)
      simp only [clipLoop, if_neg hkb, if_pos hkp, List.cons_append, List.nil_append]
      rw [walk]
      refine ⟨by rw [ih.1], ?_⟩
      rw [List.getLast_cons (a := s) (by simp : segPlane s b pl.n pl.d 0 :: clipLoop pl 0 keep b l ≠ [])]
      exact ih.2
    · rw [if_neg hkp] at h
      have ih := walk_clip c keep l b s hb hl' (by unfold At; rw [if_neg hkb]; exact h)
      simp only [clipLoop, if_neg hkb, if_neg hkp, List.nil_append]
      exact ⟨by rw [ih.1, zero_add], ih.2⟩

/-- the two parts of a side make up the side -/
theorem part_add {n O : V K} {d : K} {pl : Plane K} (c : Cut n O d pl) {a b : V K} (ha : dot n a = d) (hb : dot n b = d) :
    part n O pl true a b + part n O pl false a b = ar n O a b := by
  have hX := segPlane_between a b pl.n pl.d 0
  obtain ⟨t, h0, h1, hX⟩ := hX
  have hsum := ar_split (n := n) (O := O) t hX
  have hline : ∀ {p : V K}, dot n p = d → kept pl 0 true p = true → kept pl 0 false p = true → OnLine n d pl p := by
    intro p hp h1 h2
    refine ⟨hp, ?_⟩
    rw [kept_true] at h1
    rw [kept_false] at h2
    unfold Within at h1; unfold Beyond at h2
    by_cases hs : pl.sense ≤ 0
    · rw [if_pos hs] at h1 h2; linarith
    · rw [if_neg hs] at h1 h2; linarith
  have hone : ∀ p : V K, kept pl 0 true p = true ∨ kept pl 0 false p = true := by
    intro p
    rw [kept_true, kept_false]
    unfold Within Beyond
    by_cases hs : pl.sense ≤ 0
    · rw [if_pos hs, if_pos hs]; rcases le_total (dot pl.n p) pl.d with h | h
      · left; linarith
      · right; linarith
    · rw [if_neg hs, if_neg hs]; rcases le_total (dot pl.n p) pl.d with h | h
      · right; linarith
      · left; linarith
  unfold part
  have x1 : kept pl 0 true a ≠ kept pl 0 true b → OnLine n d pl (segPlane a b pl.n pl.d 0) := cross_line ha hb
  have x2 : kept pl 0 false a ≠ kept pl 0 false b → OnLine n d pl (segPlane a b pl.n pl.d 0) := cross_line ha hb
  have la := hline ha
  have lb := hline hb
  have oa := hone a
  have ob := hone b
  cases h1 : kept pl 0 true a <;> cases h2 : kept pl 0 true b <;> cases h3 : kept pl 0 false a <;> cases h4 : kept pl 0 false b <;>
    simp only [h1, h2, h3, h4, ne_eq, reduceCtorEq, not_true_eq_false, not_false_eq_true, forall_const, false_implies, or_self, or_true, true_or, Bool.false_eq_true, IsEmpty.forall_iff,
      if_true, if_false, zero_add, add_zero] at x1 x2 la lb oa ob ⊢
  all_goals first
    | linarith
    | (have e := c.line x2 lb; linarith)
    | (have e := c.line la x2; linarith)
    | (have e := c.line x1 lb; linarith)
    | (have e := c.line la x1; linarith)
    | (have e := c.line la lb; linarith)

theorem walk_part {n O : V K} {d : K} {pl : Plane K} (c : Cut n O d pl) : ∀ (l : List (V K)) (a : V K), dot n a = d → (∀ p ∈ l, dot n p = d) →
    walk (part n O pl true) a l + walk (part n O pl false) a l = walk (ar n O) a l
  | [], _, _, _ => by simp [walk]
  | b :: l, a, ha, hl => by
    have hb : dot n b = d := hl b (by simp)
    rw [walk, walk, walk, ← part_add c ha hb, ← walk_part c l b hb fun p hp => hl p (.tail _ hp)]
    ring

/-- the loop keeps the part of the area on its side -/
theorem closed_loop {n O : V K} {d : K} {pl : Plane K} (c : Cut n O d pl) (keep : Bool) {poly : List (V K)} {q : V K} (hq : poly.getLast? = some q) (hl : ∀ p ∈ poly, dot n p = d) :
    closed (ar n O) (clipLoop pl 0 keep q poly) = walk (part n O pl keep) q poly := by
  have hqm : dot n q = d := hl q (List.mem_of_getLast? hq)
  obtain ⟨s, hs⟩ : ∃ s, At n d pl keep q s := by
    unfold At
    split
    · exact ⟨q, rfl⟩
    · exact ⟨O, c.hO⟩
  have hw := walk_clip c keep poly q s hqm hl hs
  rw [last_cons hq] at hw
  cases hL : (clipLoop pl 0 keep q poly).getLast? with
  | none =>
    rw [List.getLast?_eq_none_iff] at hL
    rw [hL] at hw ⊢
    rw [← hw.1]; rfl
  | some q' =>
    rw [closed_some hL]
    have h2 := hw.2
    rw [last_cons hL] at h2
    exact (walk_clip c keep poly q q' hqm hl h2).1

/-! ## removing repeated points, and turning around -/

theorem near_zero {p q : V K} : near 0 p q ↔ p = q := by
  constructor
  · intro h
    have := h.2
    simp only [dot, vsub] at this
    have h1 := mul_self_nonneg (p.x - q.x)
    have h2 := mul_self_nonneg (p.y - q.y)
    have h3 := mul_self_nonneg (p.z - q.z)
    have e1 : (p.x - q.x) * (p.x - q.x) = 0 := by nlinarith
    have e2 : (p.y - q.y) * (p.y - q.y) = 0 := by nlinarith
    have e3 : (p.z - q.z) * (p.z - q.z) = 0 := by nlinarith
    ext
    · exact sub_eq_zero.1 (mul_self_eq_zero.1 e1)
    · exact sub_eq_zero.1 (mul_self_eq_zero.1 e2)
    · exact sub_eq_zero.1 (mul_self_eq_zero.1 e3)
  · rintro rfl; exact near_self (le_refl _) _

theorem walk_thin {f : V K → V K → K} (hf : ∀ a, f a a = 0) : ∀ (l : List (V K)) (q : V K), walk f q (thin 0 q l) = walk f q l ∧
    (q :: thin 0 q l).getLast (by simp) = (q :: l).getLast (by simp)
  | [], _ => by simp [thin]
  | p :: l, q => by
    rw [thin]
    by_cases h : near 0 p q
    · rw [if_pos h]
      obtain rfl := near_zero.1 h
      have ih := walk_thin hf l p
      refine ⟨by rw [walk, hf, zero_add, ih.1], ?_⟩
      rw [List.getLast_cons (a := p) (by simp : p :: l ≠ [])]
      exact ih.2
    · rw [if_neg h]
      have ih := walk_thin hf l p
      refine ⟨by rw [walk, walk, ih.1], ?_⟩
      rw [List.getLast_cons (a := q) (by simp : p :: thin 0 p l ≠ []), List.getLast_cons (a := q) (by simp : p :: l ≠ [])]
      exact ih.2

theorem closed_dedupe {f : V K → V K → K} (hf : ∀ a, f a a = 0) (l : List (V K)) : closed f (dedupe 0 l) = closed f l := by
  cases l with
  | nil => rfl
  | cons p l =>
    have ht := walk_thin hf l p
    have e0 : closed f (p :: thin 0 p l) = closed f (p :: l) := by
      rw [closed_some (List.getLast?_eq_some_getLast (by simp)), closed_some (List.getLast?_eq_some_getLast (by simp)), walk, walk, ht.1, ht.2]
    rw [dedupe, ← e0]
    split
    · rename_i h
      have hl := near_zero.1 h.2
      cases hth : thin 0 p l with
      | nil => have := h.1; rw [hth] at this; simp at this
      | cons b m =>
        have hbm : (b :: m).getLast (by simp) = p := by
          rw [List.getLast_cons (by rw [hth]; simp)] at hl
          simpa [hth] using hl.symm
        have hdl : b :: m = (b :: m).dropLast ++ [p] := by
          conv_lhs => rw [← List.dropLast_append_getLast (l := b :: m) (by simp), hbm]
        rw [List.dropLast_cons_of_ne_nil (by simp)]
        have e1 : closed f (p :: b :: m) = walk f p (b :: m) := by
          rw [closed_some (q := p) (by rw [List.getLast?_eq_some_getLast (by simp), List.getLast_cons (by simp), hbm]), walk, hf, zero_add]
        rw [e1, hdl]
        rw [List.dropLast_concat, walk_append, closed_some (List.getLast?_eq_some_getLast (by simp)), walk]
        ring
    · rfl

omit [LinearOrder K] [IsStrictOrderedRing K] in
theorem walk_reverse {f : V K → V K → K} (hf : ∀ a b, f b a = -f a b) : ∀ (l : List (V K)) (a : V K),
    walk f ((a :: l).getLast (by simp)) ((a :: l).dropLast.reverse) = -walk f a l
  | [], a => by simp [walk]
  | b :: l, a => by
    have ih := walk_reverse hf l b
    rw [List.getLast_cons (by simp), List.dropLast_cons_of_ne_nil (by simp), List.reverse_cons, walk_append, ih, walk]
    have : (((b :: l).getLast (by simp)) :: (b :: l).dropLast.reverse).getLast (by simp) = b := by
      cases l with
      | nil => simp
      | cons c l => simp [List.dropLast_cons_of_ne_nil]
    rw [this, hf a b]; ring

omit [LinearOrder K] [IsStrictOrderedRing K] in
theorem closed_reverse {f : V K → V K → K} (hf : ∀ a b, f b a = -f a b) (l : List (V K)) : closed f l.reverse = -closed f l := by
  cases l with
  | nil => simp [closed]
  | cons a l =>
    have h1 : (a :: l).reverse.getLast? = some a := by simp
    have h2 : (a :: l).getLast? = some ((a :: l).getLast (by simp)) := List.getLast?_eq_some_getLast _
    rw [closed_some h1, closed_some h2]
    have hsplit : (a :: l).reverse = (a :: l).getLast (by simp) :: (a :: l).dropLast.reverse := by
      conv_lhs => rw [← List.dropLast_append_getLast (l := a :: l) (by simp)]
      rw [List.reverse_append]; rfl
    rw [hsplit, walk, walk_reverse hf, walk, hf]; ring

/-! ## one cut -/

theorem exists_cut {n : V K} {d : K} {pl : Plane K} (hn : dot n n ≠ 0) {a b : V K} (ha : dot n a = d) (hb : dot n b = d) (h1 : dot pl.n a < pl.d) (h2 : pl.d < dot pl.n b) :
    ∃ O, Cut n O d pl := by
  have hp : dot pl.n b - dot pl.n a ≠ 0 := by intro h; linarith
  refine ⟨vadd a (smul ((pl.d - dot pl.n a) / (dot pl.n b - dot pl.n a)) (vsub b a)), hn, ⟨?_, ?_⟩, a, b, by rw [ha, hb], by intro h; linarith⟩
  · rw [dot_between, ha, hb]; ring
  · rw [dot_between, div_mul_cancel₀ _ hp]; ring

/-- the area of a polygon cut along a plane is that of its two parts -/
theorem clip_area {n O : V K} {d : K} {pl : Plane K} (c : Cut n O d pl) {poly : List (V K)} (hl : ∀ p ∈ poly, dot n p = d) (hc : ConvexAround n poly) :
    fanArea n (clip pl 0 true poly) + fanArea n (clip pl 0 false poly) = fanArea n poly ∧ ConvexAround n (clip pl 0 true poly) := by
  cases hq : poly.getLast? with
  | none =>
    rw [List.getLast?_eq_none_iff] at hq; subst hq
    simp [clip, fanArea, fan, ConvexAround]
  | some q =>
    have hf := ar_self n O
    have hcl : ∀ keep, ConvexAround n (dedupe 0 (clipLoop pl 0 keep q poly)) := fun keep => triplewise_sub (dedupe_sub 0 _) (convex_loop hq hc)
    have hi : clip pl 0 true poly = dedupe 0 (clipLoop pl 0 true q poly) := by
      unfold clip; rw [hq]; simp
    have ho : fanArea n (clip pl 0 false poly) = closed (ar n O) (dedupe 0 (clipLoop pl 0 false q poly)) := by
      unfold clip; rw [hq]; dsimp only
      split
      · rw [fanArea_reverse O (by rw [List.reverse_reverse]; exact hcl false), closed_reverse (ar_symm n O), neg_neg]
      · exact fanArea_convex O (hcl false)
    rw [hi, ho, fanArea_convex O (hcl true), closed_dedupe hf, closed_dedupe hf, closed_loop c true hq hl, closed_loop c false hq hl,
      walk_part c poly q (hl q (List.mem_of_getLast? hq)) hl, fanArea_convex O hc, closed_some hq]
    exact ⟨rfl, hcl true⟩

theorem inHull_planar {n : V K} {d : K} {l : List (V K)} (hl : ∀ p ∈ l, dot n p = d) {v : V K} (h : InHull l v) : dot n v = d := by
  refine le_antisymm (h n d fun p hp => (hl p hp).le) ?_
  have e : ∀ p : V K, dot (smul (-1) n) p = -dot n p := fun p => by simp only [dot, smul]; ring
  have := h (smul (-1) n) (-d) fun p hp => by rw [e, hl p hp]
  rw [e] at this; linarith

/-- one cut, whichever way it comes out -/
theorem split_area {n : V K} (hn : dot n n ≠ 0) (pl : Plane K) {d : K} {poly : List (V K)} (hl : ∀ p ∈ poly, dot n p = d) (hc : ConvexAround n poly) :
    fanArea n (split pl 0 poly).1 + ((split pl 0 poly).2.map (fanArea n)).sum = fanArea n poly ∧ ConvexAround n (split pl 0 poly).1 ∧ ∀ p ∈ (split pl 0 poly).1, dot n p = d := by
  refine ⟨?_, ?_, fun p hp => inHull_planar hl (((split_parts (pl := pl) (le_refl (0 : K)) poly).1 p hp).1)⟩ <;>
  · unfold split
    by_cases h0 : poly = []
    · subst h0; simp [fanArea, fan, ConvexAround]
    rw [if_neg h0]
    split
    · simp [hc]
    split
    · simp [fanArea, fan, ConvexAround]
    split
    · simp [hc]
    split
    · simp [fanArea, fan, ConvexAround]
    rename_i g1 g2 g3 g4
    dsimp only
    have hab : ∃ a ∈ poly, ∃ b ∈ poly, dot pl.n a < pl.d ∧ pl.d < dot pl.n b := by
      simp only [planeEval, neg_zero, ge_iff_le, not_and] at g1 g2 g3 g4
      by_cases hs : pl.sense ≤ 0
      · have g1 := g1 hs
        have g2 := g2 hs
        push Not at g1 g2
        obtain ⟨b, hb, h2⟩ := g1
        obtain ⟨a, ha, h1⟩ := g2
        exact ⟨a, ha, b, hb, by linarith, by linarith⟩
      · have g3 := g3 hs
        have g4 := g4 hs
        push Not at g3 g4
        obtain ⟨a, ha, h1⟩ := g3
        obtain ⟨b, hb, h2⟩ := g4
        exact ⟨a, ha, b, hb, by linarith, by linarith⟩
    obtain ⟨a, ha, b, hb, h1, h2⟩ := hab
    obtain ⟨O, c⟩ := exists_cut hn (hl a ha) (hl b hb) h1 h2
    have := clip_area c hl hc
    first
      | exact this.2
      | (rw [← this.1]
         congr 1
         split
         · rename_i he; rw [he]; simp [fanArea, fan]
         · simp)

theorem splitEach_area {n : V K} (hn : dot n n ≠ 0) (pl : Plane K) {d : K} : ∀ {ins : List (List (V K))}, (∀ c ∈ ins, ConvexAround n c ∧ ∀ p ∈ c, dot n p = d) →
    ((splitEach pl 0 ins).1.map (fanArea n)).sum + ((splitEach pl 0 ins).2.map (fanArea n)).sum = (ins.map (fanArea n)).sum
  | [], _ => by simp [splitEach]
  | c :: ins, h => by
    have ih := splitEach_area hn pl (ins := ins) fun c hc => h c (.tail _ hc)
    have hs := (split_area hn pl (h c (by simp)).2 (h c (by simp)).1).1
    rw [splitEach]; dsimp only
    rw [List.map_append, List.map_append, List.sum_append, List.sum_append, List.map_cons, List.sum_cons, ← ih, ← hs]
    have : ((if (split pl 0 c).1 = [] then [] else [(split pl 0 c).1]).map (fanArea n)).sum = fanArea n (split pl 0 c).1 := by
      split
      · rename_i he; rw [he]; simp [fanArea, fan]
      · simp
    rw [this]; ring

theorem splitAll_area {n : V K} (hn : dot n n ≠ 0) {d : K} : ∀ (planes : List (Plane K)) {ins : List (List (V K))}, (∀ c ∈ ins, ConvexAround n c ∧ ∀ p ∈ c, dot n p = d) →
    ((splitAll 0 planes ins).1.map (fanArea n)).sum + ((splitAll 0 planes ins).2.map (fanArea n)).sum = (ins.map (fanArea n)).sum ∧
      ∀ c ∈ (splitAll 0 planes ins).1, ConvexAround n c
  | [], ins, h => by simp only [splitAll, List.map_nil, List.sum_nil, add_zero, true_and]; exact fun c hc => (h c hc).1
  | pl :: planes, ins, h => by
    have h1 := splitEach_area hn pl h
    have hin : ∀ c ∈ (splitEach pl 0 ins).1, ConvexAround n c ∧ ∀ p ∈ c, dot n p = d := by
      intro c hc
      obtain ⟨i, hi, rfl, -⟩ := mem_splitEach.1.1 hc
      exact (split_area hn pl (h i hi).2 (h i hi).1).2
    have ih := splitAll_area hn planes hin
    rw [splitAll]; dsimp only
    rw [List.map_append, List.sum_append, ← h1, ← ih.1]
    exact ⟨by ring, ih.2⟩

/-- At tolerance 0 the areas of the parts of a convex polygon add up to its area, and the inside parts are convex. -/
theorem C263_area_partial {n : V K} (hn : n ≠ ⟨0, 0, 0⟩) {poly : List (V K)} (hp : Planar n poly) (hc : ConvexAround n poly) (planes : List (Plane K)) :
    ((splitByPlanes 0 planes poly).1.map (fanArea n)).sum + ((splitByPlanes 0 planes poly).2.map (fanArea n)).sum = fanArea n poly ∧
      ∀ c ∈ (splitByPlanes 0 planes poly).1, ConvexAround n c := by
  obtain ⟨d, hd⟩ := hp
  have hnn : dot n n ≠ 0 := by
    intro h
    refine hn ?_
    have h1 := mul_self_nonneg n.x
    have h2 := mul_self_nonneg n.y
    have h3 := mul_self_nonneg n.z
    unfold dot at h
    ext
    · exact mul_self_eq_zero.1 (by linarith)
    · exact mul_self_eq_zero.1 (by linarith)
    · exact mul_self_eq_zero.1 (by linarith)
  have := splitAll_area hnn planes (ins := [poly]) (d := d) (by simpa using ⟨hc, hd⟩)
  unfold splitByPlanes
  simpa using this

end field
end Verif.Bool3
