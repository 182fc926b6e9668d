import Verif.Surf.VolumeProps
import Mathlib.Data.ZMod.Basic
import Mathlib.Analysis.SpecialFunctions.Trigonometric.Basic

/-!
# Meshes given by labelled corners

Proof tools: a mesh whose directed sides are pairwise different and closed under reversal is closed and consistently
oriented. The "lathe" mesh: a bottom point, rings of `n` points, a top point.
-/

namespace Verif.Prim
open Verif.Geom Verif.Surf

/-- the directed sides of labelled triangles -/
def lSides {L : Type} (fs : List (L × L × L)) : List (L × L) :=
  fs.flatMap fun f => [(f.1, f.2.1), (f.2.1, f.2.2), (f.2.2, f.1)]

/-- the triangles -/
def lTris {L : Type} (v : L → V4) (fs : List (L × L × L)) : List Tri :=
  fs.map fun f => ⟨v f.1, v f.2.1, v f.2.2⟩

theorem sides_lTris {L : Type} (v : L → V4) (fs : List (L × L × L)) :
    sides (lTris v fs) = (lSides fs).map fun s => (v s.1, v s.2) := by
  unfold sides lTris lSides
  rw [List.flatMap_map, List.map_flatMap]
  rfl

theorem two_uses {L : Type} [DecidableEq L] (l : List (L × L)) (hn : l.Nodup) (hs : ∀ s ∈ l, s.swap ∈ l)
    (hd : ∀ s ∈ l, s.1 ≠ s.2) (s : L × L) (h : s ∈ l) : l.countP (fun t => decide (s = t ∨ s = t.swap)) = 2 := by
  have hne : s ≠ s.swap := by
    intro e
    have := congrArg Prod.fst e
    exact hd s h this
  have h1 : l.count s = 1 := List.count_eq_one_of_mem hn h
  have h2 : l.count s.swap = 1 := List.count_eq_one_of_mem hn (hs s h)
  have key : ∀ l : List (L × L), l.countP (fun t => decide (s = t ∨ s = t.swap)) = l.count s + l.count s.swap := by
    intro l
    induction l with
    | nil => rfl
    | cons t l ih =>
      rw [List.countP_cons, List.count_cons, List.count_cons, ih]
      by_cases e1 : t = s
      · subst e1
        simp [hne, Ne.symm]
        omega
      · by_cases e2 : t = s.swap
        · subst e2
          simp [Ne.symm hne]
          omega
        · have : ¬ (s = t ∨ s = t.swap) := by
            rintro (h | h)
            · exact e1 h.symm
            · exact e2 (by rw [h, Prod.swap_swap])
          simp [this, e1, e2]
  rw [key, h1, h2]

theorem closed_lTris {L : Type} (v : L → V4) (fs : List (L × L × L))
    (hv : ∀ i j, (∃ f ∈ fs, i = f.1 ∨ i = f.2.1 ∨ i = f.2.2) → (∃ f ∈ fs, j = f.1 ∨ j = f.2.1 ∨ j = f.2.2) →
      grid (v i) = grid (v j) → i = j)
    (hn : (lSides fs).Nodup) (hs : ∀ s ∈ lSides fs, s.swap ∈ lSides fs) (hd : ∀ s ∈ lSides fs, s.1 ≠ s.2) :
    ∀ s ∈ sides (lTris v fs), uses (lTris v fs) s = 2 := by
  classical
  have hc : ∀ s ∈ lSides fs, (∃ f ∈ fs, s.1 = f.1 ∨ s.1 = f.2.1 ∨ s.1 = f.2.2) ∧
      (∃ f ∈ fs, s.2 = f.1 ∨ s.2 = f.2.1 ∨ s.2 = f.2.2) := by
    intro s hs
    obtain ⟨f, hf, h⟩ := List.mem_flatMap.mp hs
    simp only [List.mem_cons, List.not_mem_nil, or_false] at h
    rcases h with rfl | rfl | rfl <;> exact ⟨⟨f, hf, by simp⟩, ⟨f, hf, by simp⟩⟩
  intro s hs'
  rw [sides_lTris] at hs'
  obtain ⟨⟨i, j⟩, hm, rfl⟩ := List.mem_map.mp hs'
  rw [← two_uses _ hn hs hd _ hm]
  unfold uses
  rw [sides_lTris, List.countP_map]
  apply List.countP_congr
  rintro ⟨k, l⟩ hkl
  simp only [Function.comp, decide_eq_true_eq]
  unfold SameEdge
  simp only [Prod.mk.injEq, Prod.swap]
  have ci := hc _ hm
  have ck := hc _ hkl
  constructor
  · rintro (⟨a, b⟩ | ⟨a, b⟩)
    · exact Or.inl ⟨hv _ _ ci.1 ck.1 a, hv _ _ ci.2 ck.2 b⟩
    · exact Or.inr ⟨hv _ _ ci.1 ck.2 a, hv _ _ ci.2 ck.1 b⟩
  · rintro (⟨rfl, rfl⟩ | ⟨rfl, rfl⟩)
    · exact Or.inl ⟨rfl, rfl⟩
    · exact Or.inr ⟨rfl, rfl⟩

theorem swap_perm {L : Type} (l : List (L × L)) (hn : l.Nodup) (hs : ∀ s ∈ l, s.swap ∈ l) : (l.map Prod.swap).Perm l := by
  classical
  refine (List.perm_ext_iff_of_nodup (hn.map Prod.swap_injective) hn).mpr fun s => ?_
  constructor
  · intro h
    obtain ⟨t, ht, rfl⟩ := List.mem_map.mp h
    exact hs t ht
  · intro h
    exact List.mem_map.mpr ⟨s.swap, hs s h, by simp⟩

theorem oriented_lTris {L : Type} (v : L → V4) (fs : List (L × L × L)) (h : ((lSides fs).map Prod.swap).Perm (lSides fs)) :
    Oriented (lTris v fs) := by
  classical
  intro a b
  unfold posSides
  rw [sides_lTris, List.map_map]
  have := ((h.map ((fun s : Side => (pos s.1, pos s.2)) ∘ fun s : L × L => (v s.1, v s.2))).count_eq (a, b)).symm
  rw [this, List.map_map]
  have e : ((fun s : Side => (pos s.1, pos s.2)) ∘ fun s : L × L => (v s.1, v s.2)) ∘ Prod.swap =
      Prod.swap ∘ ((fun s : Side => (pos s.1, pos s.2)) ∘ fun s : L × L => (v s.1, v s.2)) := by
    funext s; rfl
  rw [e, ← List.map_map]
  exact List.count_map_of_injective _ Prod.swap Prod.swap_injective (b, a)

theorem far_grid {p q : V4} (h : (2 * eps) ^ 2 ≤ sqDist p q) : grid p ≠ grid q := by
  intro e
  have := grid_near e
  have he : 0 < eps := by unfold eps; norm_num
  nlinarith [mul_pos he he]

theorem separated_lTris {L : Type} (v : L → V4) (fs : List (L × L × L))
    (h : ∀ i j, (∃ f ∈ fs, i = f.1 ∨ i = f.2.1 ∨ i = f.2.2) → (∃ f ∈ fs, j = f.1 ∨ j = f.2.1 ∨ j = f.2.2) →
      i ≠ j → (2 * eps) ^ 2 ≤ sqDist (v i) (v j)) : Separated (lTris v fs) := by
  have key : ∀ p, IsCorner (lTris v fs) p → ∃ i, (∃ f ∈ fs, i = f.1 ∨ i = f.2.1 ∨ i = f.2.2) ∧ p = v i := by
    rintro p ⟨t, ht, hp⟩
    obtain ⟨f, hf, rfl⟩ := List.mem_map.mp ht
    rcases hp with rfl | rfl | rfl
    · exact ⟨f.1, ⟨f, hf, by simp⟩, rfl⟩
    · exact ⟨f.2.1, ⟨f, hf, by simp⟩, rfl⟩
    · exact ⟨f.2.2, ⟨f, hf, by simp⟩, rfl⟩
  intro p q hp hq
  obtain ⟨i, hi, rfl⟩ := key p hp
  obtain ⟨j, hj, rfl⟩ := key q hq
  by_cases hij : i = j
  · subst hij; exact Or.inl rfl
  · exact Or.inr (h i j hi hj hij)

/-! ## the lathe mesh -/

/-- a corner of the lathe mesh -/
inductive LL (n : Nat)
  | bot
  | top
  | ring (i : Nat) (j : ZMod n)
deriving DecidableEq

/-- all residues, in order -/
def residues (n : Nat) : List (ZMod n) := (List.range n).map fun k : ℕ => ((k : ℕ) : ZMod n)

theorem mem_residues {n : Nat} (hn : 0 < n) (j : ZMod n) : j ∈ residues n := by
  haveI : NeZero n := ⟨by omega⟩
  exact List.mem_map.mpr ⟨j.val, by simpa using ZMod.val_lt j, by simp⟩

theorem nodup_residues {n : Nat} : (residues n).Nodup := by
  rcases Nat.eq_zero_or_pos n with rfl | hn
  · simp [residues]
  haveI : NeZero n := ⟨by omega⟩
  unfold residues
  refine List.Nodup.map_on ?_ List.nodup_range
  intro x hx y hy h
  have := congrArg ZMod.val h
  simpa [ZMod.val_natCast, Nat.mod_eq_of_lt (List.mem_range.mp hx), Nat.mod_eq_of_lt (List.mem_range.mp hy)] using this

/-- a face of the lathe mesh -/
inductive LF (n : Nat)
  | fb (j : ZMod n)
  | s1 (i : Nat) (j : ZMod n)
  | s2 (i : Nat) (j : ZMod n)
  | ft (j : ZMod n)
deriving DecidableEq

/-- its corners; the last ring is ring `m` -/
def LF.corners {n : Nat} (m : Nat) : LF n → LL n × LL n × LL n
  | .fb j => (.bot, .ring 0 (j + 1), .ring 0 j)
  | .s1 i j => (.ring i j, .ring i (j + 1), .ring (i + 1) (j + 1))
  | .s2 i j => (.ring i j, .ring (i + 1) (j + 1), .ring (i + 1) j)
  | .ft j => (.top, .ring m j, .ring m (j + 1))

/-- all faces -/
def latheFaces (n m : Nat) : List (LF n) :=
  (residues n).map .fb ++ (List.range m).flatMap (fun i => (residues n).flatMap fun j => [.s1 i j, .s2 i j]) ++
    (residues n).map .ft

/-- `f` is a face of the mesh with rings 0 to `m` -/
def LF.ok {n : Nat} (m : Nat) : LF n → Prop
  | .fb _ => True
  | .s1 i _ => i < m
  | .s2 i _ => i < m
  | .ft _ => True

theorem mem_lathe {n m : Nat} (hn : 0 < n) (f : LF n) : f ∈ latheFaces n m ↔ f.ok m := by
  unfold latheFaces
  cases f <;> simp [LF.ok, mem_residues hn]

theorem nodup_lathe {n m : Nat} : (latheFaces n m).Nodup := by
  unfold latheFaces
  refine List.Nodup.append (List.Nodup.append ?_ ?_ ?_) ?_ ?_
  · exact nodup_residues.map fun a b h => by cases h; rfl
  · rw [List.nodup_flatMap]
    refine ⟨fun i _ => ?_, ?_⟩
    · rw [List.nodup_flatMap]
      refine ⟨fun j _ => by simp, ?_⟩
      refine nodup_residues.imp fun {a b} h => ?_
      intro x hx hy
      simp only [List.mem_cons, List.not_mem_nil, or_false] at hx hy
      rcases hx with rfl | rfl <;> rcases hy with hy | hy <;> cases hy <;> exact h rfl
    · refine List.nodup_range.imp fun {a b} h => ?_
      intro x hx hy
      simp only [List.mem_flatMap, List.mem_cons, List.not_mem_nil, or_false] at hx hy
      obtain ⟨_, -, rfl | rfl⟩ := hx <;> obtain ⟨_, -, hy | hy⟩ := hy <;> cases hy <;> exact h rfl
  · intro x hx hy
    simp only [List.mem_map, List.mem_flatMap, List.mem_cons, List.not_mem_nil, or_false] at hx hy
    obtain ⟨_, -, rfl⟩ := hx
    obtain ⟨_, -, _, -, hy | hy⟩ := hy <;> cases hy
  · exact nodup_residues.map fun a b h => by cases h; rfl
  · intro x hx hy
    simp only [List.mem_append, List.mem_map, List.mem_flatMap, List.mem_cons, List.not_mem_nil, or_false] at hx hy
    obtain ⟨_, -, rfl⟩ := hy
    rcases hx with ⟨_, -, hx⟩ | ⟨_, -, _, -, hx | hx⟩ <;> cases hx

/-- the corner triples -/
def lathe (n m : Nat) : List (LL n × LL n × LL n) := (latheFaces n m).map (LF.corners m)

/-- the sides of one face -/
def LF.sides {n : Nat} (m : Nat) (f : LF n) : List (LL n × LL n) :=
  [((f.corners m).1, (f.corners m).2.1), ((f.corners m).2.1, (f.corners m).2.2), ((f.corners m).2.2, (f.corners m).1)]

theorem lathe_sides (n m : Nat) : lSides (lathe n m) = (latheFaces n m).flatMap (LF.sides m) := by
  unfold lSides lathe
  rw [List.flatMap_map]
  rfl

section
variable {n : Nat}

theorem one_ne (hn : 3 ≤ n) (j : ZMod n) : j + 1 ≠ j := by
  intro h
  have h1 : ((1 : ℕ) : ZMod n) = 0 := by push_cast; simpa using h
  rw [ZMod.natCast_eq_zero_iff] at h1
  have := Nat.le_of_dvd (by omega) h1
  omega

theorem two_ne (hn : 3 ≤ n) (j : ZMod n) : j + 1 + 1 ≠ j := by
  intro h
  have h1 : ((2 : ℕ) : ZMod n) = 0 := by
    rw [add_assoc] at h
    have : (1 + 1 : ZMod n) = 0 := by simpa using h
    push_cast
    rw [← this]; norm_num
  rw [ZMod.natCast_eq_zero_iff] at h1
  have := Nat.le_of_dvd (by omega) h1
  omega

theorem lathe_distinct (hn : 3 ≤ n) {m : Nat} (s : LL n × LL n) (h : s ∈ lSides (lathe n m)) : s.1 ≠ s.2 := by
  rw [lathe_sides] at h
  obtain ⟨f, -, hs⟩ := List.mem_flatMap.mp h
  have h1 := one_ne hn
  have h2 : ∀ j : ZMod n, ¬ j = j + 1 := fun j e => h1 j e.symm
  cases f <;> simp only [LF.sides, LF.corners, List.mem_cons, List.not_mem_nil, or_false] at hs <;>
    rcases hs with rfl | rfl | rfl <;> simp [h1, h2]

theorem side_unique (hn : 3 ≤ n) {m : Nat} (f g : LF n) (hf : f.ok m) (hg : g.ok m) (s : LL n × LL n) (h1 : s ∈ f.sides m)
    (h2 : s ∈ g.sides m) : f = g := by
  have a1 := one_ne hn
  have a2 := two_ne hn
  have a3 : ∀ j k : ZMod n, j + 1 = k → k + 1 ≠ j := by rintro j k rfl; exact a2 j
  cases f <;> cases g <;> simp only [LF.sides, LF.corners, List.mem_cons, List.not_mem_nil, or_false] at h1 h2 <;>
    rcases h1 with rfl | rfl | rfl <;> rcases h2 with h2 | h2 | h2 <;>
    simp only [Prod.mk.injEq, LL.ring.injEq, reduceCtorEq, and_false, false_and, add_left_inj] at h2 <;>
    simp only [LF.ok] at hf hg <;>
    first
      | (obtain ⟨⟨q1, q2⟩, q3, q4⟩ := h2; subst_vars; first | rfl | (exfalso; omega) | (exfalso; simp_all; done) | (exfalso; exact a3 _ _ q2 q4.symm) | (exfalso; exact a3 _ _ q2.symm q4))
      | (simp_all; done)

theorem lathe_nodup (hn : 3 ≤ n) {m : Nat} : (lSides (lathe n m)).Nodup := by
  rw [lathe_sides, List.nodup_flatMap]
  constructor
  · intro f _
    have h1 := one_ne hn
    have h2 : ∀ j : ZMod n, ¬ j = j + 1 := fun j e => h1 j e.symm
    cases f <;> simp [LF.sides, LF.corners, h1, h2]
  · rw [List.pairwise_iff_forall_sublist]
    intro a b h
    have hab : a ≠ b := by
      have := (nodup_lathe (n := n) (m := m)).sublist h
      simpa using this
    have ha := (mem_lathe (m := m) (by omega : 0 < n) a).mp (h.subset (by simp))
    have hb := (mem_lathe (m := m) (by omega : 0 < n) b).mp (h.subset (by simp))
    intro s h1 h2
    exact hab (side_unique hn a b ha hb s h1 h2)

theorem lathe_swap (hn : 3 ≤ n) {m : Nat} (s : LL n × LL n) (h : s ∈ lSides (lathe n m)) : s.swap ∈ lSides (lathe n m) := by
  rw [lathe_sides] at h ⊢
  obtain ⟨f, hf, hs⟩ := List.mem_flatMap.mp h
  have key : ∀ g : LF n, g.ok m → s.swap ∈ g.sides m → s.swap ∈ (latheFaces n m).flatMap (LF.sides m) := fun g h1 h2 =>
    List.mem_flatMap.mpr ⟨g, (mem_lathe (by omega) g).mpr h1, h2⟩
  have hf := (mem_lathe (m := m) (by omega : 0 < n) f).mp hf
  have e : ∀ j : ZMod n, j - 1 + 1 = j := fun j => by ring
  cases f with
  | fb j =>
    simp only [LF.sides, LF.corners, List.mem_cons, List.not_mem_nil, or_false] at hs
    rcases hs with rfl | rfl | rfl
    · exact key (.fb (j + 1)) trivial (by simp [LF.sides, LF.corners])
    · by_cases hm : m = 0
      · subst hm; exact key (.ft j) trivial (by simp [LF.sides, LF.corners])
      · exact key (.s1 0 j) (by simp [LF.ok]; omega) (by simp [LF.sides, LF.corners])
    · exact key (.fb (j - 1)) trivial (by simp [LF.sides, LF.corners])
  | s1 i j =>
    simp only [LF.sides, LF.corners, List.mem_cons, List.not_mem_nil, or_false] at hs
    simp only [LF.ok] at hf
    rcases hs with rfl | rfl | rfl
    · rcases i with _ | i
      · exact key (.fb j) trivial (by simp [LF.sides, LF.corners])
      · exact key (.s2 i j) (by simp only [LF.ok]; omega) (by simp [LF.sides, LF.corners])
    · exact key (.s2 i (j + 1)) hf (by simp [LF.sides, LF.corners])
    · exact key (.s2 i j) hf (by simp [LF.sides, LF.corners])
  | s2 i j =>
    simp only [LF.sides, LF.corners, List.mem_cons, List.not_mem_nil, or_false] at hs
    simp only [LF.ok] at hf
    rcases hs with rfl | rfl | rfl
    · exact key (.s1 i j) hf (by simp [LF.sides, LF.corners])
    · by_cases hm : i + 1 = m
      · subst hm; exact key (.ft j) trivial (by simp [LF.sides, LF.corners])
      · exact key (.s1 (i + 1) j) (by simp only [LF.ok]; omega) (by simp [LF.sides, LF.corners])
    · exact key (.s1 i (j - 1)) hf (by simp [LF.sides, LF.corners])
  | ft j =>
    simp only [LF.sides, LF.corners, List.mem_cons, List.not_mem_nil, or_false] at hs
    rcases hs with rfl | rfl | rfl
    · exact key (.ft (j - 1)) trivial (by simp [LF.sides, LF.corners])
    · rcases m with _ | m
      · exact key (.fb j) trivial (by simp [LF.sides, LF.corners])
      · exact key (.s2 m j) (by simp [LF.ok]) (by simp [LF.sides, LF.corners])
    · exact key (.ft (j + 1)) trivial (by simp [LF.sides, LF.corners])

/-- the labels in use -/
def LL.ok (m : Nat) : LL n → Prop
  | .ring i _ => i ≤ m
  | _ => True

theorem lathe_labels {m : Nat} (l : LL n) (h : ∃ f ∈ lathe n m, l = f.1 ∨ l = f.2.1 ∨ l = f.2.2) (hn : 0 < n) : l.ok m := by
  obtain ⟨f, hf, h⟩ := h
  obtain ⟨g, hg, rfl⟩ := List.mem_map.mp hf
  have hg := (mem_lathe (m := m) hn g).mp hg
  cases g <;> simp only [LF.corners, LF.ok] at h hg <;> rcases h with rfl | rfl | rfl <;> simp only [LL.ok] <;> omega

/-- a lathe mesh whose corners are 2 epsilon apart is closed, oriented and separated -/
theorem lathe_good (hn : 3 ≤ n) {m : Nat} (v : LL n → V4)
    (hv : ∀ a b : LL n, a.ok m → b.ok m → a ≠ b → (2 * eps) ^ 2 ≤ sqDist (v a) (v b)) :
    (∀ s ∈ sides (lTris v (lathe n m)), uses (lTris v (lathe n m)) s = 2) ∧ Oriented (lTris v (lathe n m)) ∧
    Separated (lTris v (lathe n m)) := by
  refine ⟨?_, ?_, ?_⟩
  · refine closed_lTris v _ ?_ (lathe_nodup hn) (fun s h => lathe_swap hn s h) (fun s h => lathe_distinct hn s h)
    intro a b ha hb h
    by_contra hab
    exact far_grid (hv a b (lathe_labels a ha (by omega)) (lathe_labels b hb (by omega)) hab) h
  · exact oriented_lTris v _ (swap_perm _ (lathe_nodup hn) (fun s h => lathe_swap hn s h))
  · exact separated_lTris v _ fun a b ha hb hab =>
      hv a b (lathe_labels a ha (by omega)) (lathe_labels b hb (by omega)) hab

/-! ## its volume -/

open Real

/-- the angle of a residue -/
noncomputable def ang (j : ZMod n) : ℝ := (j.val : ℝ) * (2 * π / n)

theorem sin_sub' (a d : ℝ) : sin d = cos a * sin (a + d) - sin a * cos (a + d) := by
  have : d = a + d - a := by ring
  conv_lhs => rw [this]
  rw [sin_sub]; ring

theorem ang_succ (hn : 3 ≤ n) (j : ZMod n) : cos (ang (j + 1)) = cos (ang j + 2 * π / n) ∧ sin (ang (j + 1)) = sin (ang j + 2 * π / n) := by
  haveI : NeZero n := ⟨by omega⟩
  haveI : Fact (1 < n) := ⟨by omega⟩
  have hn0 : (n : ℝ) ≠ 0 := by positivity
  unfold ang
  rw [ZMod.val_add, ZMod.val_one]
  have hj := ZMod.val_lt j
  by_cases h : j.val + 1 < n
  · rw [Nat.mod_eq_of_lt h]
    push_cast
    constructor <;> congr 1 <;> ring
  · have e : j.val + 1 = n := by omega
    rw [e, Nat.mod_self]
    have : (j.val : ℝ) * (2 * π / n) + 2 * π / n = 2 * π := by
      have : (j.val : ℝ) = n - 1 := by
        have e' : (j.val : ℝ) + 1 = n := by exact_mod_cast e
        linarith
      rw [this]; field_simp; ring
    rw [this]
    simp

/-- the corners of a turned profile: heights `z i`, radii `r i`, bottom and top points on the axis -/
noncomputable def turned (r z : Nat → ℝ) (zb zt : ℝ) : LL n → V4
  | .bot => pt 0 0 zb
  | .top => pt 0 0 zt
  | .ring i j => pt (cos (ang j) * r i) (sin (ang j) * r i) (z i)

theorem sum_const {α : Type} (l : List α) (f : α → ℝ) (c : ℝ) (h : ∀ x ∈ l, f x = c) : (l.map f).sum = l.length * c := by
  rw [List.map_congr_left h]
  simp

theorem residues_length : (residues n).length = n := by simp [residues]

theorem lathe_volume (hn : 3 ≤ n) (m : Nat) (r z : Nat → ℝ) (zb zt : ℝ) :
    ((lTris (turned r z zb zt) (lathe n m)).map triVolume).sum = n * sin (2 * π / n) / 6 *
      ((z 0 - zb) * r 0 ^ 2 + ((List.range m).map fun i => (z (i + 1) - z i) * (r i ^ 2 + r i * r (i + 1) + r (i + 1) ^ 2)).sum +
        (zt - z m) * r m ^ 2) := by
  set S := sin (2 * π / n) with hS
  have key : ∀ j : ZMod n, cos (ang j) * sin (ang (j + 1)) - sin (ang j) * cos (ang (j + 1)) = S := by
    intro j
    rw [(ang_succ hn j).1, (ang_succ hn j).2, ← sin_sub' (ang j)]
  have e : (lTris (turned r z zb zt) (lathe n m)).map triVolume =
      (latheFaces n m).map fun f => triVolume ⟨turned r z zb zt (f.corners m).1, turned r z zb zt (f.corners m).2.1,
        turned r z zb zt (f.corners m).2.2⟩ := by
    unfold lTris lathe
    rw [List.map_map, List.map_map]
    rfl
  rw [e]
  unfold latheFaces
  rw [List.map_append, List.map_append, List.sum_append, List.sum_append, List.map_map, List.map_map]
  have e1 : ((residues n).map ((fun f : LF n => triVolume ⟨turned r z zb zt (f.corners m).1, turned r z zb zt (f.corners m).2.1,
        turned r z zb zt (f.corners m).2.2⟩) ∘ LF.fb)).sum = n * (- zb * r 0 ^ 2 * S / 6) := by
    rw [sum_const _ _ (- zb * r 0 ^ 2 * S / 6), residues_length]
    intro j _
    simp only [Function.comp, LF.corners, turned, triVolume_det, det3, pt]
    linear_combination (- zb * r 0 ^ 2 / 6) * key j
  have e2 : ((residues n).map ((fun f : LF n => triVolume ⟨turned r z zb zt (f.corners m).1, turned r z zb zt (f.corners m).2.1,
        turned r z zb zt (f.corners m).2.2⟩) ∘ LF.ft)).sum = n * (zt * r m ^ 2 * S / 6) := by
    rw [sum_const _ _ (zt * r m ^ 2 * S / 6), residues_length]
    intro j _
    simp only [Function.comp, LF.corners, turned, triVolume_det, det3, pt]
    linear_combination (zt * r m ^ 2 / 6) * key j
  have e3 : ∀ k, (((List.range k).flatMap fun i => (residues n).flatMap fun j => [LF.s1 i j, LF.s2 i j]).map
      (fun f : LF n => triVolume ⟨turned r z zb zt (f.corners m).1, turned r z zb zt (f.corners m).2.1,
        turned r z zb zt (f.corners m).2.2⟩)).sum = n * S / 6 *
        (((List.range k).map fun i => (z (i + 1) - z i) * (r i ^ 2 + r i * r (i + 1) + r (i + 1) ^ 2)).sum + z 0 * r 0 ^ 2 - z k * r k ^ 2) := by
    intro k
    induction k with
    | zero => simp
    | succ k ih =>
      rw [List.range_succ, List.flatMap_append, List.map_append, List.sum_append, ih, List.map_append, List.sum_append]
      simp only [List.flatMap_cons, List.flatMap_nil, List.append_nil, List.map_cons, List.map_nil, List.sum_cons, List.sum_nil]
      have : ∀ l : List (ZMod n), ((l.flatMap fun j => [LF.s1 k j, LF.s2 k j]).map
          (fun f : LF n => triVolume ⟨turned r z zb zt (f.corners m).1, turned r z zb zt (f.corners m).2.1,
            turned r z zb zt (f.corners m).2.2⟩)).sum =
          l.length * (S / 6 * (z (k + 1) * r k ^ 2 - z k * r (k + 1) ^ 2 + (z (k + 1) - z k) * (r k * r (k + 1)))) := by
        intro l
        induction l with
        | nil => simp
        | cons j l ih2 =>
          rw [List.flatMap_cons, List.map_append, List.sum_append, ih2]
          simp only [List.map_cons, List.map_nil, List.sum_cons, List.sum_nil, LF.corners, turned, triVolume_det, det3, pt,
            List.length_cons]
          push_cast
          linear_combination (1 / 6 * (z (k + 1) * r k ^ 2 - z k * r (k + 1) ^ 2 + (z (k + 1) - z k) * (r k * r (k + 1)))) * key j
      rw [this, residues_length]
      ring
  rw [e1, e2, e3]
  ring

end
end Verif.Prim
