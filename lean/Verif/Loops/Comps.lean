import Mathlib.Logic.Relation
import Mathlib.Data.List.Nodup
import Mathlib.Data.Set.Basic
import Mathlib.Algebra.Group.Nat.Even
import Mathlib.Algebra.Order.Field.Basic
import Mathlib.Algebra.Order.Ring.Rat
import Mathlib.Algebra.Order.BigOperators.Group.List
import Mathlib.Tactic.Ring
import Mathlib.Tactic.NormNum
import Mathlib.Tactic.Linarith

/-!
# Model of `_assemble_components`: outer loops and holes (C275, C276)

Over any ordered field. A loop is the list of its points, the first point repeated at the end. Whether a point is in a loop is an arbitrary function `ins`; `Inside.lean` has the
model of `_point_in_polygon_xy`.
-/

namespace Verif.Loops

section field
variable {K : Type} [Field K] [LinearOrder K]

/-- a point of the plane; the other coordinates are only copied -/
abbrev Pt (K : Type) := K × K

/-- `epsilon`, geom.py:160 -/
def eps : K := 5 / 10 ^ 6

/-- the sum of `_poly_signed_area`, geom_util.py:49-52 -/
def crossSum : List (Pt K) → K
  | p :: q :: l => (p.1 * q.2 - q.1 * p.2) + crossSum (q :: l)
  | _ => 0

/-- `_poly_signed_area`, geom_util.py:43-53 -/
def signedArea (l : List (Pt K)) : K := 1 / 2 * crossSum l

/-- `_orient_loop`, geom_util.py:304-316 -/
def orientLoop (l : List (Pt K)) (positive : Bool) : List (Pt K) :=
  if l = [] then []
  else
    let core := if 1 < l.length then l.dropLast else l
    if core.length < 3 then l
    else
      let pts := if (positive = true ∧ signedArea l < 0) ∨ (positive = false ∧ 0 < signedArea l) then core.reverse else core
      pts ++ pts.take 1

/-- `_polygon_centroid_xy`, geom_util.py:396-407: the mean of the points -/
def centroid (l : List (Pt K)) : Pt K :=
  if l = [] then (0, 0) else ((l.map Prod.fst).sum / l.length, (l.map Prod.snd).sum / l.length)

/-- the loops that count, geom_util.py:325-329 -/
def good (l : List (Pt K)) : Bool := decide (3 ≤ l.length) && decide (eps < |signedArea l|)

/-- the search for the parent of a loop, geom_util.py:344-352, by the numbers of the loops: one step -/
def parentStep (area : Nat → K) (ins : Nat → Nat → Bool) (i : Nat) (best : Option Nat) (j : Nat) : Option Nat :=
  if i = j then best
  else if area j ≤ area i + eps then best
  else if ins j i then
    match best with
    | none => some j
    | some b => if area j < area b then some j else best
  else best

/-- the parent of a loop, geom_util.py:343-353 -/
def parentOf (n : Nat) (area : Nat → K) (ins : Nat → Nat → Bool) (i : Nat) : Option Nat := (List.range n).foldl (parentStep area ins i) none

/-- the children of a loop, geom_util.py:354-355 -/
def childrenOf (n : Nat) (parent : Nat → Option Nat) (i : Nat) : List Nat := (List.range n).filter fun j => parent j == some i

/-- `visit`, geom_util.py:359-370, by the numbers of the loops; the depth of the recursion is bounded by the number of loops -/
def visit (ch : Nat → List Nat) : Nat → Nat → List (Nat × List Nat)
  | 0, _ => []
  | f + 1, i => (i, ch i) :: (ch i).flatMap fun c => (ch c).flatMap (visit ch f)

/-- the components, geom_util.py:372-376, by the numbers of the loops -/
def comps (n : Nat) (parent : Nat → Option Nat) : List (Nat × List Nat) :=
  ((List.range n).filter fun i => parent i == none).flatMap (visit (childrenOf n parent) n)

/-- `_assemble_components`, geom_util.py:319-375 -/
def assemble (ins : List (Pt K) → Pt K → Bool) (loops : List (List (Pt K))) : List (List (Pt K) × List (List (Pt K))) :=
  let ns := loops.filter good
  let at' := fun i => ns.getD i []
  (comps ns.length (parentOf ns.length (fun i => |signedArea (at' i)|) fun j i => ins (at' j) (centroid (at' i)))).map fun c =>
    (orientLoop (at' c.1) true, c.2.map fun h => orientLoop (at' h) false)

/-! ## the search for the parent -/

/-- loop `j` is larger than loop `i` and contains its centroid -/
def Cand (area : Nat → K) (ins : Nat → Nat → Bool) (i j : Nat) : Prop := i ≠ j ∧ area i + eps < area j ∧ ins j i = true

theorem parentStep_spec {area : Nat → K} {ins : Nat → Nat → Bool} {i : Nat} : ∀ (l : List Nat) (b : Option Nat),
    (∀ j, b = some j → Cand area ins i j) →
    (l.foldl (parentStep area ins i) b = none → b = none ∧ ∀ j ∈ l, ¬ Cand area ins i j) ∧
      ∀ j, l.foldl (parentStep area ins i) b = some j → (b = some j ∨ j ∈ l) ∧ Cand area ins i j ∧ (∀ k ∈ l, Cand area ins i k → area j ≤ area k) ∧ ∀ k, b = some k → area j ≤ area k
  | [], b, hb => by
    refine ⟨fun h => ⟨h, by simp⟩, fun j h => ?_⟩
    rw [List.foldl_nil] at h
    refine ⟨.inl h, hb j h, by simp, fun k hk => ?_⟩
    rw [h, Option.some.injEq] at hk
    rw [hk]
  | x :: l, b, hb => by
    rw [List.foldl_cons]
    have hcand : Cand area ins i x ↔ ¬ i = x ∧ ¬ area x ≤ area i + eps ∧ ins x i = true := by unfold Cand; rw [not_le]
    have hstep : (parentStep area ins i b x = b ∧ ¬ Cand area ins i x) ∨ (Cand area ins i x ∧ ((parentStep area ins i b x = some x ∧ ∀ k, b = some k → area x ≤ area k) ∨
        (parentStep area ins i b x = b ∧ ∃ k, b = some k ∧ area k ≤ area x))) := by
      unfold parentStep
      rw [hcand]
      by_cases h1 : i = x
      · left; simp [h1]
      rw [if_neg h1]
      by_cases h2 : area x ≤ area i + eps
      · left; simp [h2]
      rw [if_neg h2]
      by_cases h3 : ins x i = true
      · rw [if_pos h3]
        right
        refine ⟨⟨h1, h2, h3⟩, ?_⟩
        cases b with
        | none => left; simp
        | some k =>
          dsimp only
          by_cases h4 : area x < area k
          · rw [if_pos h4]; left; refine ⟨rfl, fun k' hk => ?_⟩
            rw [Option.some.injEq] at hk; subst hk; exact h4.le
          · rw [if_neg h4]; right; exact ⟨rfl, k, rfl, not_lt.1 h4⟩
      · rw [if_neg h3]; left; exact ⟨rfl, fun h => h3 h.2.2⟩
    have hb' : ∀ j, parentStep area ins i b x = some j → Cand area ins i j := by
      intro j hj
      rcases hstep with ⟨h, -⟩ | ⟨hc, ⟨h, -⟩ | ⟨h, -⟩⟩
      · exact hb j (h ▸ hj)
      · rw [h, Option.some.injEq] at hj; rw [← hj]; exact hc
      · exact hb j (h ▸ hj)
    obtain ⟨r1, r2⟩ := parentStep_spec l _ hb'
    constructor
    · intro h
      obtain ⟨a, c⟩ := r1 h
      rcases hstep with ⟨h', hn⟩ | ⟨hc, ⟨h', -⟩ | ⟨h', k, hk, -⟩⟩
      · refine ⟨h' ▸ a, fun j hj => ?_⟩
        rcases List.mem_cons.1 hj with rfl | hj
        · exact hn
        · exact c j hj
      · rw [h'] at a; cases a
      · rw [h', hk] at a; cases a
    · intro j h
      obtain ⟨a, b', c, d⟩ := r2 j h
      rcases hstep with ⟨h', hn⟩ | ⟨hc, ⟨h', hle⟩ | ⟨h', k, hk, hle⟩⟩
      · rw [h'] at a d
        refine ⟨a.imp_right (List.mem_cons_of_mem _), b', fun k hk hck => ?_, d⟩
        rcases List.mem_cons.1 hk with rfl | hk
        · exact absurd hck hn
        · exact c k hk hck
      · rw [h'] at a d
        have hx := d x rfl
        refine ⟨.inr ?_, b', fun k hk hck => ?_, fun k hk => hx.trans (hle k hk)⟩
        · rcases a with a | a
          · rw [Option.some.injEq] at a; rw [a]; exact .head _
          · exact .tail _ a
        · rcases List.mem_cons.1 hk with rfl | hk
          · exact hx
          · exact c k hk hck
      · rw [h'] at a d
        refine ⟨a.imp_right (List.mem_cons_of_mem _), b', fun k' hk' hck => ?_, d⟩
        rcases List.mem_cons.1 hk' with rfl | hk'
        · exact (d k hk).trans hle
        · exact c k' hk' hck

/-- the parent is a smallest loop that is larger and contains the centroid -/
theorem parentOf_spec {n : Nat} {area : Nat → K} {ins : Nat → Nat → Bool} {i : Nat} :
    (parentOf n area ins i = none → ∀ j < n, ¬ Cand area ins i j) ∧
      ∀ j, parentOf n area ins i = some j → j < n ∧ Cand area ins i j ∧ ∀ k < n, Cand area ins i k → area j ≤ area k := by
  obtain ⟨a, b⟩ := parentStep_spec (area := area) (ins := ins) (i := i) (List.range n) none (by simp)
  refine ⟨fun h j hj => (a h).2 j (List.mem_range.2 hj), fun j h => ?_⟩
  obtain ⟨c, d, e, -⟩ := b j h
  refine ⟨List.mem_range.1 (c.resolve_left (by simp)), d, fun k hk => e k (List.mem_range.2 hk)⟩

/-! ## forests -/

/-- one loop is another or one of its ancestors -/
def Up (parent : Nat → Option Nat) : Nat → Nat → Prop := Relation.ReflTransGen fun b a => parent b = some a

/-- the depth of a loop -/
inductive Level (parent : Nat → Option Nat) : Nat → Nat → Prop
  | root {i : Nat} : parent i = none → Level parent 0 i
  | child {d i j : Nat} : parent i = some j → Level parent d j → Level parent (d + 1) i

/-- a forest: parents exist and are larger -/
structure Forest (n : Nat) (area : Nat → K) (parent : Nat → Option Nat) : Prop where
  lt : ∀ i j, parent i = some j → j < n
  larger : ∀ i j, parent i = some j → area i < area j

/-- how many loops are smaller -/
def smaller (n : Nat) (area : Nat → K) (i : Nat) : Nat := ((List.range n).filter fun j => decide (area j < area i)).length

variable {n : Nat} {area : Nat → K} {parent : Nat → Option Nat}

theorem smaller_lt {i j : Nat} (hi : i < n) (h : area i < area j) : smaller n area i < smaller n area j := by
  unfold smaller
  have hs : ((List.range n).filter fun k => decide (area k < area i)).Sublist ((List.range n).filter fun k => decide (area k < area j)) := by
    refine List.monotone_filter_right _ fun k hk => ?_
    simp only [decide_eq_true_eq] at hk ⊢
    exact hk.trans h
  refine lt_of_le_of_ne hs.length_le fun he => ?_
  have heq := hs.eq_of_length he
  have : i ∈ (List.range n).filter fun k => decide (area k < area j) := by simp [hi, h]
  rw [← heq] at this
  simp at this

theorem smaller_le {i : Nat} (hi : i < n) : smaller n area i < n := by
  unfold smaller
  have hs : ((List.range n).filter fun j => decide (area j < area i)).Sublist (List.range n) := List.filter_sublist
  have := hs.length_le
  rw [List.length_range] at this
  refine lt_of_le_of_ne this fun he => ?_
  have heq := hs.eq_of_length (by rw [he, List.length_range])
  have : i ∈ List.range n := by simp [hi]
  rw [← heq] at this
  simp at this

theorem mem_children {i j : Nat} : j ∈ childrenOf n parent i ↔ j < n ∧ parent j = some i := by
  unfold childrenOf
  simp

theorem Up.area_le (hF : Forest n area parent) {i j : Nat} (h : Up parent i j) : i = j ∨ area i < area j := by
  induction h with
  | refl => exact .inl rfl
  | tail _ h2 ih =>
    rcases ih with rfl | ih
    · exact .inr (hF.larger _ _ h2)
    · exact .inr (ih.trans (hF.larger _ _ h2))

theorem up_right_unique : Relator.RightUnique fun b a => parent b = some a := fun _ _ _ h1 h2 => Option.some.inj (h1.symm.trans h2)

theorem up_cases {k i : Nat} : Up parent k i ↔ k = i ∨ ∃ c, parent c = some i ∧ Up parent k c := by
  constructor
  · intro h
    rcases Relation.ReflTransGen.cases_tail h with h | ⟨c, h1, h2⟩
    · exact .inl h.symm
    · exact .inr ⟨c, h2, h1⟩
  · rintro (rfl | ⟨c, h1, h2⟩)
    · exact Relation.ReflTransGen.refl
    · exact Relation.ReflTransGen.tail h2 h1

/-- two different children of a loop have no common descendants -/
theorem disjoint_children (hF : Forest n area parent) {i a b k : Nat} (ha : parent a = some i) (hb : parent b = some i) (hka : Up parent k a) (hkb : Up parent k b) : a = b := by
  have key : ∀ {a b : Nat}, parent a = some i → parent b = some i → Up parent a b → a = b := by
    intro a b ha hb h
    rcases Relation.ReflTransGen.cases_head h with h | ⟨c, h1, h2⟩
    · exact h
    · rw [ha, Option.some.injEq] at h1
      subst h1
      have h3 : area b < area i := hF.larger _ _ hb
      rcases Up.area_le hF h2 with h | h
      · subst h; exact absurd h3 (lt_irrefl _)
      · exact absurd (h3.trans h) (lt_irrefl _)
  rcases Relation.ReflTransGen.total_of_right_unique up_right_unique hka hkb with h | h
  · exact key ha hb h
  · exact (key hb ha h).symm

/-- the loops of a component -/
def loopsOf (c : Nat × List Nat) : List Nat := c.1 :: c.2

theorem up_lt {k i : Nat} (hF : Forest n area parent) (h : Up parent k i) (hk : k < n) : i < n := by
  induction h with
  | refl => exact hk
  | tail _ h2 _ => exact hF.lt _ _ h2

theorem visit_mem (hF : Forest n area parent) : ∀ (f i : Nat), i < n → smaller n area i < f →
    ∀ k, k ∈ (visit (childrenOf n parent) f i).flatMap loopsOf ↔ k < n ∧ Up parent k i
  | 0, _, _, h => by omega
  | f + 1, i, hi, h => by
    intro k
    rw [visit, List.flatMap_cons, List.mem_append]
    constructor
    · rintro (hk | hk)
      · rcases List.mem_cons.1 hk with rfl | hk
        · exact ⟨hi, .refl⟩
        · obtain ⟨a, b⟩ := mem_children.1 hk
          exact ⟨a, up_cases.2 (.inr ⟨k, b, .refl⟩)⟩
      · rw [List.mem_flatMap] at hk
        obtain ⟨c, hc, hk⟩ := hk
        rw [List.mem_flatMap] at hc
        obtain ⟨x, hx, hc⟩ := hc
        rw [List.mem_flatMap] at hc
        obtain ⟨y, hy, hc⟩ := hc
        obtain ⟨x1, x2⟩ := mem_children.1 hx
        obtain ⟨y1, y2⟩ := mem_children.1 hy
        have s1 := smaller_lt x1 (hF.larger _ _ x2)
        have s2 := smaller_lt y1 (hF.larger _ _ y2)
        obtain ⟨a, b⟩ := (visit_mem hF f y y1 (by omega) k).1 (List.mem_flatMap.2 ⟨c, hc, hk⟩)
        exact ⟨a, up_cases.2 (.inr ⟨x, x2, up_cases.2 (.inr ⟨y, y2, b⟩)⟩)⟩
    · rintro ⟨hk, hu⟩
      rcases up_cases.1 hu with rfl | ⟨x, x2, hu⟩
      · left; exact .head _
      · have x1 := up_lt hF hu hk
        rcases up_cases.1 hu with rfl | ⟨y, y2, hu⟩
        · left; exact .tail _ (mem_children.2 ⟨x1, x2⟩)
        · right
          have y1 := up_lt hF hu hk
          have s1 := smaller_lt x1 (hF.larger _ _ x2)
          have s2 := smaller_lt y1 (hF.larger _ _ y2)
          obtain ⟨c, hc, hk'⟩ := List.mem_flatMap.1 ((visit_mem hF f y y1 (by omega) k).2 ⟨hk, hu⟩)
          exact List.mem_flatMap.2 ⟨c, List.mem_flatMap.2 ⟨x, mem_children.2 ⟨x1, x2⟩, List.mem_flatMap.2 ⟨y, mem_children.2 ⟨y1, y2⟩, hc⟩⟩, hk'⟩

theorem children_nodup (i : Nat) : (childrenOf n parent i).Nodup := List.nodup_range.filter _

theorem up_parent_ne (hF : Forest n area parent) {i x : Nat} (hx : parent x = some i) : ¬ Up parent i x := by
  intro h
  have h3 := hF.larger _ _ hx
  rcases Up.area_le hF h with h | h
  · subst h; exact lt_irrefl _ h3
  · exact lt_irrefl _ (h3.trans h)

theorem visit_nodup (hF : Forest n area parent) : ∀ (f i : Nat), i < n → smaller n area i < f → ((visit (childrenOf n parent) f i).flatMap loopsOf).Nodup
  | 0, _, _, h => by omega
  | f + 1, i, hi, h => by
    rw [visit, List.flatMap_cons]
    have hassoc : ((childrenOf n parent i).flatMap fun c => (childrenOf n parent c).flatMap (visit (childrenOf n parent) f)).flatMap loopsOf =
        (childrenOf n parent i).flatMap fun c => (childrenOf n parent c).flatMap fun y => (visit (childrenOf n parent) f y).flatMap loopsOf := by
      simp only [List.flatMap_assoc]
    rw [hassoc]
    have hlow : ∀ k x y, x ∈ childrenOf n parent i → y ∈ childrenOf n parent x → k ∈ (visit (childrenOf n parent) f y).flatMap loopsOf → Up parent k y := by
      intro k x y hx hy hk
      obtain ⟨x1, x2⟩ := mem_children.1 hx
      obtain ⟨y1, y2⟩ := mem_children.1 hy
      have s1 := smaller_lt x1 (hF.larger _ _ x2)
      have s2 := smaller_lt y1 (hF.larger _ _ y2)
      exact ((visit_mem hF f y y1 (by omega) k).1 hk).2
    rw [List.nodup_append]
    refine ⟨?_, ?_, ?_⟩
    · show (i :: childrenOf n parent i).Nodup
      rw [List.nodup_cons]
      refine ⟨fun hm => ?_, children_nodup i⟩
      exact lt_irrefl _ (hF.larger _ _ (mem_children.1 hm).2)
    · rw [List.nodup_flatMap]
      constructor
      · intro x hx
        obtain ⟨x1, x2⟩ := mem_children.1 hx
        rw [List.nodup_flatMap]
        constructor
        · intro y hy
          obtain ⟨y1, y2⟩ := mem_children.1 hy
          have s1 := smaller_lt x1 (hF.larger _ _ x2)
          have s2 := smaller_lt y1 (hF.larger _ _ y2)
          exact visit_nodup hF f y y1 (by omega)
        · refine (children_nodup x).imp_of_mem ?_
          intro a b ha hb hab
          refine List.disjoint_left.2 fun k hka hkb => hab ?_
          exact disjoint_children hF (mem_children.1 ha).2 (mem_children.1 hb).2 (hlow k x a hx ha hka) (hlow k x b hx hb hkb)
      · refine (children_nodup i).imp_of_mem ?_
        intro a b ha hb hab
        refine List.disjoint_left.2 fun k hka hkb => hab ?_
        obtain ⟨y, hy, hka⟩ := List.mem_flatMap.1 hka
        obtain ⟨z, hz, hkb⟩ := List.mem_flatMap.1 hkb
        exact disjoint_children hF (mem_children.1 ha).2 (mem_children.1 hb).2 (up_cases.2 (.inr ⟨y, (mem_children.1 hy).2, hlow k a y ha hy hka⟩))
          (up_cases.2 (.inr ⟨z, (mem_children.1 hz).2, hlow k b z hb hz hkb⟩))
    · intro k hk k' hk' he
      subst he
      obtain ⟨x, hx, hk'⟩ := List.mem_flatMap.1 hk'
      obtain ⟨y, hy, hk'⟩ := List.mem_flatMap.1 hk'
      have hu := hlow k x y hx hy hk'
      obtain ⟨x1, x2⟩ := mem_children.1 hx
      obtain ⟨y1, y2⟩ := mem_children.1 hy
      rcases List.mem_cons.1 hk with rfl | hk
      · exact up_parent_ne hF x2 (up_cases.2 (.inr ⟨y, y2, hu⟩))
      · have hkx : k = x := disjoint_children hF (mem_children.1 hk).2 x2 .refl (up_cases.2 (.inr ⟨y, y2, hu⟩))
        subst hkx
        exact up_parent_ne hF y2 hu

theorem exists_root (hF : Forest n area parent) : ∀ (m k : Nat), k < n → n - smaller n area k ≤ m → ∃ i, i < n ∧ parent i = none ∧ Up parent k i
  | 0, k, hk, h => by have := smaller_le (area := area) hk; omega
  | m + 1, k, hk, h => by
    cases hp : parent k with
    | none => exact ⟨k, hk, hp, .refl⟩
    | some j =>
      have hj := hF.lt _ _ hp
      have s1 := smaller_lt hk (hF.larger _ _ hp)
      have s2 := smaller_le (area := area) hj
      obtain ⟨i, h1, h2, h3⟩ := exists_root hF m j hj (by omega)
      exact ⟨i, h1, h2, .head hp h3⟩

theorem root_eq {k i : Nat} (hk : parent k = none) (h : Up parent k i) : k = i := by
  rcases Relation.ReflTransGen.cases_head h with h | ⟨c, h1, -⟩
  · exact h
  · rw [hk] at h1; cases h1

/-- every loop is in exactly one component, once -/
theorem comps_perm (hF : Forest n area parent) : ((comps n parent).flatMap loopsOf).Perm (List.range n) := by
  have hmem : ∀ k, k ∈ (comps n parent).flatMap loopsOf ↔ k ∈ List.range n := by
    intro k
    unfold comps
    rw [List.flatMap_assoc, List.mem_flatMap, List.mem_range]
    constructor
    · rintro ⟨i, hi, hk⟩
      simp only [List.mem_filter, List.mem_range] at hi
      exact ((visit_mem hF n i hi.1 (smaller_le hi.1) k).1 hk).1
    · intro hk
      obtain ⟨i, h1, h2, h3⟩ := exists_root hF n k hk (by omega)
      refine ⟨i, by simp [h1, h2], (visit_mem hF n i h1 (smaller_le h1) k).2 ⟨hk, h3⟩⟩
  refine (List.perm_ext_iff_of_nodup ?_ List.nodup_range).2 hmem
  unfold comps
  rw [List.flatMap_assoc, List.nodup_flatMap]
  constructor
  · intro i hi
    simp only [List.mem_filter, List.mem_range] at hi
    exact visit_nodup hF n i hi.1 (smaller_le hi.1)
  · refine (List.nodup_range.filter _).imp_of_mem ?_
    intro a b ha hb hab
    simp only [List.mem_filter, List.mem_range, beq_iff_eq] at ha hb
    refine List.disjoint_left.2 fun k hka hkb => hab ?_
    have u1 := ((visit_mem hF n a ha.1 (smaller_le ha.1) k).1 hka).2
    have u2 := ((visit_mem hF n b hb.1 (smaller_le hb.1) k).1 hkb).2
    rcases Relation.ReflTransGen.total_of_right_unique up_right_unique u1 u2 with h | h
    · exact root_eq ha.2 h
    · exact (root_eq hb.2 h).symm

/-! ## levels -/

theorem level_unique {d e i : Nat} (h : Level parent d i) : Level parent e i → d = e := by
  induction h generalizing e with
  | root h =>
    intro h'
    cases h' with
    | root _ => rfl
    | child h2 _ => rw [h] at h2; cases h2
  | child h _ ih =>
    intro h'
    cases h' with
    | root h2 => rw [h] at h2; cases h2
    | child h2 h3 =>
      rw [h, Option.some.injEq] at h2
      subst h2
      rw [ih h3]

theorem level_up {k i : Nat} (h : Up parent k i) : ∀ {d}, Level parent d i → ∃ e, Level parent e k := by
  induction h using Relation.ReflTransGen.head_induction_on with
  | refl => exact fun h => ⟨_, h⟩
  | head h1 _ ih =>
    intro d hd
    obtain ⟨e, he⟩ := ih hd
    exact ⟨e + 1, .child h1 he⟩

theorem exists_level (hF : Forest n area parent) {k : Nat} (hk : k < n) : ∃ d, Level parent d k := by
  obtain ⟨i, -, h2, h3⟩ := exists_root hF n k hk (by omega)
  exact level_up h3 (.root h2)

theorem visit_level : ∀ (f i d : Nat), Level parent d i → ∀ c ∈ visit (childrenOf n parent) f i, c.2 = childrenOf n parent c.1 ∧ ∃ e, Level parent (d + 2 * e) c.1
  | 0, _, _, _ => by simp [visit]
  | f + 1, i, d, hd => by
    intro c hc
    rw [visit] at hc
    rcases List.mem_cons.1 hc with rfl | hc
    · exact ⟨rfl, 0, hd⟩
    · obtain ⟨x, hx, hc⟩ := List.mem_flatMap.1 hc
      obtain ⟨y, hy, hc⟩ := List.mem_flatMap.1 hc
      obtain ⟨h1, e, h2⟩ := visit_level f y (d + 2) (.child (mem_children.1 hy).2 (.child (mem_children.1 hx).2 hd)) c hc
      exact ⟨h1, e + 1, by rw [show d + 2 * (e + 1) = d + 2 + 2 * e by ring]; exact h2⟩

/-- the outer loops are those at even depth, with their children as holes -/
theorem comps_iff (hF : Forest n area parent) (c : Nat × List Nat) : c ∈ comps n parent ↔ c.1 < n ∧ c.2 = childrenOf n parent c.1 ∧ ∃ e, Level parent (2 * e) c.1 := by
  have hfor : ∀ c ∈ comps n parent, c.2 = childrenOf n parent c.1 ∧ ∃ e, Level parent (2 * e) c.1 := by
    intro c hc
    unfold comps at hc
    obtain ⟨i, hi, hc⟩ := List.mem_flatMap.1 hc
    simp only [List.mem_filter, List.mem_range, beq_iff_eq] at hi
    obtain ⟨h1, e, h2⟩ := visit_level n i 0 (.root hi.2) c hc
    exact ⟨h1, e, by simpa using h2⟩
  have hmem : ∀ k, k ∈ (comps n parent).flatMap loopsOf ↔ k < n := fun k => by rw [(comps_perm hF).mem_iff, List.mem_range]
  constructor
  · intro hc
    exact ⟨(hmem c.1).1 (List.mem_flatMap.2 ⟨c, hc, .head _⟩), hfor c hc⟩
  · rintro ⟨h1, h2, e, h3⟩
    obtain ⟨c', hc', hk⟩ := List.mem_flatMap.1 ((hmem c.1).2 h1)
    obtain ⟨g1, e', g2⟩ := hfor c' hc'
    rcases List.mem_cons.1 hk with hk | hk
    · have : c = c' := by
        ext1
        · exact hk
        · rw [h2, g1, hk]
      rw [this]; exact hc'
    · rw [g1] at hk
      have := level_unique h3 (.child (mem_children.1 hk).2 g2)
      omega

theorem comps_nodup (hF : Forest n area parent) : (comps n parent).Pairwise fun c c' => c.1 ≠ c'.1 := by
  have h := (comps_perm hF).nodup_iff.2 List.nodup_range
  rw [List.nodup_flatMap] at h
  refine h.2.imp fun {a b} hd he => ?_
  exact List.disjoint_left.1 hd (.head _) (by rw [he]; exact .head _)

/-! ## nested regions -/

variable [IsStrictOrderedRing K] {X : Type}

theorem eps_pos : (0 : K) < eps := by unfold eps; positivity

/-- the loops bound regions that are nested or disjoint, a region within another has a smaller area, and the search for the parent recognises regions within others -/
structure Nested (n : Nat) (area : Nat → K) (ins : Nat → Nat → Bool) (D : Nat → Set X) : Prop where
  lam : ∀ i < n, ∀ j < n, i ≠ j → D i ⊂ D j ∨ D j ⊂ D i ∨ Disjoint (D i) (D j)
  ne : ∀ i < n, (D i).Nonempty
  size : ∀ i < n, ∀ j < n, D i ⊂ D j → area i + eps < area j
  seen : ∀ i < n, ∀ j < n, i ≠ j → area i + eps < area j → (ins j i = true ↔ D i ⊂ D j)

variable {ins : Nat → Nat → Bool} {D : Nat → Set X}

theorem Nested.cand (h : Nested n area ins D) {i j : Nat} (hi : i < n) (hj : j < n) : Cand area ins i j ↔ D i ⊂ D j := by
  unfold Cand
  constructor
  · rintro ⟨h1, h2, h3⟩; exact (h.seen i hi j hj h1 h2).1 h3
  · intro hs
    have hne : i ≠ j := by rintro rfl; exact hs.2 hs.1
    have ha := h.size i hi j hj hs
    exact ⟨hne, ha, (h.seen i hi j hj hne ha).2 hs⟩

theorem forest_parentOf : Forest n area (parentOf n area ins) := by
  refine ⟨fun i j h => (parentOf_spec.2 j h).1, fun i j h => ?_⟩
  have := (parentOf_spec.2 j h).2.1.2.1
  have := eps_pos (K := K)
  linarith

theorem Nested.lt (h : Nested n area ins D) {i j : Nat} (hi : i < n) (hj : j < n) (hs : D i ⊂ D j) : area i < area j := by
  have := h.size i hi j hj hs
  have := eps_pos (K := K)
  linarith

theorem Nested.par (h : Nested n area ins D) {i j : Nat} (hi : i < n) (hp : parentOf n area ins i = some j) :
    j < n ∧ D i ⊂ D j ∧ ∀ k < n, D i ⊂ D k → k = j ∨ D j ⊂ D k := by
  obtain ⟨h1, h2, h3⟩ := parentOf_spec.2 j hp
  refine ⟨h1, (h.cand hi h1).1 h2, fun k hk hs => ?_⟩
  have hle := h3 k hk ((h.cand hi hk).2 hs)
  by_cases hkj : k = j
  · exact .inl hkj
  · right
    rcases h.lam k hk j h1 hkj with h4 | h4 | h4
    · exact absurd (h.lt hk h1 h4) (not_lt.2 hle)
    · exact h4
    · obtain ⟨x, hx⟩ := h.ne i hi
      exact absurd (((h.cand hi h1).1 h2).1 hx) (Set.disjoint_left.1 h4 (hs.1 hx))

open Classical in
/-- the loops around a loop -/
noncomputable def around (n : Nat) (D : Nat → Set X) (i : Nat) : List Nat := (List.range n).filter fun j => decide (D i ⊂ D j)

theorem mem_around {i j : Nat} : j ∈ around n D i ↔ j < n ∧ D i ⊂ D j := by unfold around; simp

theorem level_around (h : Nested n area ins D) {d i : Nat} (hl : Level (parentOf n area ins) d i) : i < n → d = (around n D i).length := by
  induction hl with
  | @root i hp =>
    intro hi
    have := parentOf_spec.1 hp
    have he : around n D i = [] := by
      rw [List.eq_nil_iff_forall_not_mem]
      intro j hj
      obtain ⟨h1, h2⟩ := mem_around.1 hj
      exact this j h1 ((h.cand hi h1).2 h2)
    rw [he]; rfl
  | @child d i j hp _ ih =>
    intro hi
    obtain ⟨h1, h2, h3⟩ := h.par hi hp
    have hperm : (around n D i).Perm (j :: around n D j) := by
      refine (List.perm_ext_iff_of_nodup (l₁ := around n D i) (List.nodup_range.filter _) ?_).2 fun k => ?_
      · rw [List.nodup_cons]
        exact ⟨fun hm => (mem_around.1 hm).2.2 (mem_around.1 hm).2.1, List.nodup_range.filter _⟩
      · rw [List.mem_cons, mem_around, mem_around]
        constructor
        · rintro ⟨a, b⟩
          exact (h3 k a b).imp_right fun c => ⟨a, c⟩
        · rintro (rfl | ⟨a, b⟩)
          · exact ⟨h1, h2⟩
          · exact ⟨a, h2.trans b⟩
    rw [hperm.length_eq, List.length_cons, ih h1]

/-- above a loop inside another there is a child of the other -/
theorem child_below (h : Nested n area ins D) {o : Nat} (ho : o < n) : ∀ (m k : Nat), k < n → n - smaller n area k ≤ m → D k ⊂ D o →
    ∃ c, c < n ∧ parentOf n area ins c = some o ∧ D k ⊆ D c
  | 0, k, hk, hm, _ => by have := smaller_le (area := area) hk; omega
  | m + 1, k, hk, hm, hs => by
    cases hp : parentOf n area ins k with
    | none => exact absurd ((h.cand hk ho).2 hs) (parentOf_spec.1 hp o ho)
    | some j =>
      obtain ⟨h1, h2, h3⟩ := h.par hk hp
      rcases h3 o ho hs with rfl | h4
      · exact ⟨k, hk, hp, subset_rfl⟩
      · have s1 := smaller_lt hk (h.lt hk h1 h2)
        have s2 := smaller_le (area := area) h1
        obtain ⟨c, c1, c2, c3⟩ := child_below h ho m j h1 (by omega) h4
        exact ⟨c, c1, c2, h2.1.trans c3⟩

open Classical in
/-- the loops around a point -/
noncomputable def holding (n : Nat) (D : Nat → Set X) (p : X) : List Nat := (List.range n).filter fun j => decide (p ∈ D j)

theorem mem_holding {p : X} {j : Nat} : j ∈ holding n D p ↔ j < n ∧ p ∈ D j := by unfold holding; simp

theorem exists_least (area : Nat → K) : ∀ (l : List Nat), l ≠ [] → ∃ m ∈ l, ∀ k ∈ l, area m ≤ area k
  | [], h => absurd rfl h
  | [a], _ => ⟨a, .head _, by simp⟩
  | a :: b :: l, _ => by
    obtain ⟨m, hm, hk⟩ := exists_least area (b :: l) (by simp)
    rcases le_total (area a) (area m) with h | h
    · refine ⟨a, .head _, fun k hk' => ?_⟩
      rcases List.mem_cons.1 hk' with rfl | hk'
      · rfl
      · exact h.trans (hk k hk')
    · refine ⟨m, .tail _ hm, fun k hk' => ?_⟩
      rcases List.mem_cons.1 hk' with rfl | hk'
      · exact h
      · exact hk k hk'

/-- the component at a point is that of the smallest loop around it -/
theorem region_index (h : Nested n area ins D) (p : X) :
    (Odd (holding n D p).length ↔ ∃ c ∈ comps n (parentOf n area ins), p ∈ D c.1 ∧ ∀ k ∈ c.2, p ∉ D k) ∧
      (comps n (parentOf n area ins)).Pairwise fun c c' => ¬ ((p ∈ D c.1 ∧ ∀ k ∈ c.2, p ∉ D k) ∧ (p ∈ D c'.1 ∧ ∀ k ∈ c'.2, p ∉ D k)) := by
  have hF : Forest n area (parentOf n area ins) := forest_parentOf
  by_cases hS : holding n D p = []
  · have hno : ∀ c ∈ comps n (parentOf n area ins), ¬ (p ∈ D c.1) := by
      intro c hc hp
      have := mem_holding.2 ⟨((comps_iff hF c).1 hc).1, hp⟩
      rw [hS] at this; nomatch this
    refine ⟨?_, ?_⟩
    · rw [hS]
      exact iff_of_false (by simp) fun ⟨c, hc, hp, _⟩ => hno c hc hp
    · exact (comps_nodup hF).imp_of_mem fun {a b} ha _ _ hb => hno a ha hb.1.1
  · obtain ⟨m, hm, hmin⟩ := exists_least area _ hS
    obtain ⟨m1, m2⟩ := mem_holding.1 hm
    have hsub : ∀ k, k < n → p ∈ D k → k = m ∨ D m ⊂ D k := by
      intro k hk hp
      by_cases hkm : k = m
      · exact .inl hkm
      · right
        rcases h.lam k hk m m1 hkm with h4 | h4 | h4
        · exact absurd (h.lt hk m1 h4) (not_lt.2 (hmin k (mem_holding.2 ⟨hk, hp⟩)))
        · exact h4
        · exact absurd m2 (Set.disjoint_left.1 h4 hp)
    have hlen : (holding n D p).length = (around n D m).length + 1 := by
      have hperm : (holding n D p).Perm (m :: around n D m) := by
        refine (List.perm_ext_iff_of_nodup (l₁ := holding n D p) (List.nodup_range.filter _) ?_).2 fun k => ?_
        · rw [List.nodup_cons]
          exact ⟨fun hm => (mem_around.1 hm).2.2 (mem_around.1 hm).2.1, List.nodup_range.filter _⟩
        · rw [List.mem_cons, mem_around, mem_holding]
          constructor
          · rintro ⟨a, b⟩
            exact (hsub k a b).imp_right fun c => ⟨a, c⟩
          · rintro (rfl | ⟨a, b⟩)
            · exact ⟨m1, m2⟩
            · exact ⟨a, b.1 m2⟩
      rw [hperm.length_eq, List.length_cons]
    have honly : ∀ c ∈ comps n (parentOf n area ins), (p ∈ D c.1 ∧ ∀ k ∈ c.2, p ∉ D k) → c.1 = m := by
      rintro c hc ⟨hp, hk⟩
      obtain ⟨h1, h2, -⟩ := (comps_iff hF c).1 hc
      rcases hsub c.1 h1 hp with h3 | h3
      · exact h3
      · obtain ⟨x, x1, x2, x3⟩ := child_below h h1 n m m1 (by omega) h3
        exact absurd (x3 m2) (hk x (by rw [h2]; exact mem_children.2 ⟨x1, x2⟩))
    obtain ⟨d, hd⟩ := exists_level hF m1
    have hda := level_around h hd m1
    refine ⟨?_, ?_⟩
    · rw [hlen, ← hda]
      constructor
      · intro hodd
        have he : Even d := by
          rcases Nat.even_or_odd d with he | ho
          · exact he
          · exact absurd hodd (by rw [Nat.not_odd_iff_even]; exact ho.add_one)
        obtain ⟨e, he⟩ := he
        refine ⟨(m, childrenOf n (parentOf n area ins) m), (comps_iff hF _).2 ⟨m1, rfl, e, ?_⟩, m2, fun k hk hpk => ?_⟩
        · rw [show 2 * e = d by omega]; exact hd
        · obtain ⟨k1, k2⟩ := mem_children.1 hk
          have hle := hmin k (mem_holding.2 ⟨k1, hpk⟩)
          exact absurd (hF.larger _ _ k2) (not_lt.2 hle)
      · rintro ⟨c, hc, hp⟩
        have hcm := honly c hc hp
        obtain ⟨-, -, e, he⟩ := (comps_iff hF c).1 hc
        rw [hcm] at he
        rw [level_unique hd he]
        exact (even_two_mul e).add_one
    · exact (comps_nodup hF).imp_of_mem fun {a b} ha hb hne hab => hne ((honly a ha hab.1).trans (honly b hb hab.2).symm)

end field

end Verif.Loops
