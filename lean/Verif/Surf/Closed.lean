import Verif.Surf.Model
import Mathlib.Data.List.Perm.Basic
import Mathlib.Algebra.BigOperators.Group.List.Basic

/-!
# Closed solids (C169)

The specification counts face sides directly; it does not mention dictionaries or canonical keys.
-/

namespace Verif.Surf
open Verif.Geom

/-! ## specification -/

/-- a directed face side -/
abbrev Side := V4 × V4

/-- the three sides of a triangle, in walking direction -/
def sidesOf (t : Tri) : List Side := [(t.a, t.b), (t.b, t.c), (t.c, t.a)]

/-- all face sides -/
def sides (ts : List Tri) : List Side := ts.flatMap sidesOf

/-- the position of a point on the grid of spacing `eps` -/
noncomputable def grid (p : V4) : ℤ × ℤ × ℤ := (pyround (p.x / eps), pyround (p.y / eps), pyround (p.z / eps))

/-- two face sides join the same two grid positions, in either direction -/
def SameEdge (s t : Side) : Prop :=
  (grid s.1 = grid t.1 ∧ grid s.2 = grid t.2) ∨ (grid s.1 = grid t.2 ∧ grid s.2 = grid t.1)

open Classical in
/-- how many face sides join the same two positions as `s` -/
noncomputable def uses (ts : List Tri) (s : Side) : Nat := (sides ts).countP fun t => decide (SameEdge s t)

/-- `p` is entry number `i` of the list, negative numbers counting from the end -/
def EntryAt (vs : List V4) (i : Int) (p : V4) : Prop :=
  (0 ≤ i ∧ vs[i.toNat]? = some p) ∨ (i < 0 ∧ 0 ≤ i + vs.length ∧ vs[(i + vs.length).toNat]? = some p)

/-- `t` is the triangle with the three corners named by the face -/
def Corners (vs : List V4) (f : List Int) (t : Tri) : Prop :=
  ∃ i j k, f = [i, j, k] ∧ EntryAt vs i t.a ∧ EntryAt vs j t.b ∧ EntryAt vs k t.c

/-- `ts` are the triangles of the faces of all surfaces, in order -/
def Tris (ss : List Surface) (ts : List Tri) : Prop :=
  List.Forall₂ (fun (vf : List V4 × List Int) t => Corners vf.1 vf.2 t)
    (ss.flatMap fun s => s.faces.map fun f => (s.verts, f)) ts

theorem pyGet_ok (vs : List V4) (i : Int) (p : V4) : pyGet vs i = .ok p ↔ EntryAt vs i p := by
  unfold pyGet EntryAt
  simp only
  by_cases h : i < 0
  · rw [if_pos h]
    have h' : ¬ 0 ≤ i := by omega
    by_cases g : i + (vs.length : Int) < 0
    · rw [if_pos g]
      have : ¬ 0 ≤ i + (vs.length : Int) := by omega
      simp [h', this]
    · rw [if_neg g]
      have : 0 ≤ i + (vs.length : Int) := by omega
      simp only [h', h, this, false_and, true_and, false_or]
      cases vs[(i + (vs.length : Int)).toNat]? <;> simp
  · rw [if_neg h, if_neg h]
    have h' : 0 ≤ i := by omega
    simp only [h', h, false_and, true_and, or_false]
    cases vs[i.toNat]? <;> simp

theorem faceTri_ok (vs : List V4) (f : List Int) (t : Tri) : faceTri vs f = .ok t ↔ Corners vs f t := by
  unfold Corners
  rcases f with _ | ⟨i, _ | ⟨j, _ | ⟨k, _ | ⟨l, r⟩⟩⟩⟩
  · simp [faceTri]
  · simp [faceTri]
  · simp [faceTri]
  · simp only [faceTri, List.cons.injEq, and_true]
    constructor
    · intro h
      cases ha : pyGet vs i with
      | error e => rw [ha] at h; cases h
      | ok a =>
        cases hb : pyGet vs j with
        | error e => rw [ha, hb] at h; cases h
        | ok b =>
          cases hc : pyGet vs k with
          | error e => rw [ha, hb, hc] at h; cases h
          | ok c =>
            rw [ha, hb, hc] at h
            injection h with h
            subst h
            exact ⟨i, j, k, ⟨rfl, rfl, rfl⟩, (pyGet_ok ..).mp ha, (pyGet_ok ..).mp hb, (pyGet_ok ..).mp hc⟩
    · rintro ⟨i', j', k', ⟨rfl, rfl, rfl⟩, ha, hb, hc⟩
      rw [(pyGet_ok ..).mpr ha, (pyGet_ok ..).mpr hb, (pyGet_ok ..).mpr hc]
  · simp [faceTri]

theorem faceTris_ok (vs : List V4) (fs : List (List Int)) : ∀ ts, faceTris vs fs = .ok ts ↔
    List.Forall₂ (fun (vf : List V4 × List Int) t => Corners vf.1 vf.2 t) (fs.map fun f => (vs, f)) ts := by
  induction fs with
  | nil => intro ts; cases ts <;> simp [faceTris]
  | cons f fs ih =>
    intro ts
    simp only [faceTris, List.map_cons, List.forall₂_cons_left_iff]
    constructor
    · intro h
      cases ht : faceTri vs f with
      | error e => rw [ht] at h; cases h
      | ok t =>
        rw [ht] at h
        simp only at h
        cases hu : faceTris vs fs with
        | error e => rw [hu] at h; cases h
        | ok us =>
          rw [hu] at h
          injection h with h
          exact ⟨t, us, (faceTri_ok ..).mp ht, (ih us).mp hu, h.symm⟩
    · rintro ⟨t, us, ht, hu, rfl⟩
      rw [(faceTri_ok ..).mpr ht, (ih us).mpr hu]

theorem solidTris_ok (ss : List Surface) : ∀ ts, solidTris ss = .ok ts ↔ Tris ss ts := by
  unfold Tris
  induction ss with
  | nil => intro ts; cases ts <;> simp [solidTris]
  | cons s ss ih =>
    intro ts
    simp only [solidTris, List.flatMap_cons]
    constructor
    · intro h
      cases ht : faceTris s.verts s.faces with
      | error e => rw [ht] at h; cases h
      | ok us =>
        rw [ht] at h
        simp only at h
        cases hu : solidTris ss with
        | error e => rw [hu] at h; cases h
        | ok ws =>
          rw [hu] at h
          injection h with h
          subst h
          exact List.rel_append ((faceTris_ok ..).mp ht) ((ih ws).mp hu)
    · intro h
      obtain ⟨us, ws, h1, h2, rfl⟩ : ∃ us ws, List.Forall₂ (fun (vf : List V4 × List Int) t => Corners vf.1 vf.2 t) (s.faces.map fun f => (s.verts, f)) us ∧
          List.Forall₂ (fun (vf : List V4 × List Int) t => Corners vf.1 vf.2 t) (ss.flatMap fun s => s.faces.map fun f => (s.verts, f)) ws ∧ ts = us ++ ws := by
        refine ⟨ts.take (s.faces.map fun f => (s.verts, f)).length, ts.drop (s.faces.map fun f => (s.verts, f)).length, ?_, ?_, (List.take_append_drop ..).symm⟩
        · have := List.forall₂_take (s.faces.map fun f => (s.verts, f)).length h
          rwa [List.take_left] at this
        · have := List.forall₂_drop (s.faces.map fun f => (s.verts, f)).length h
          rwa [List.drop_left] at this
      rw [(faceTris_ok ..).mpr h1, (ih ws).mpr h2]

/-! ## the dictionary of counts -/

open Classical in
/-- the value stored for a key -/
noncomputable def look {K : Type} (d : List (K × Nat)) (e : K) : Nat :=
  match d with
  | [] => 0
  | (k, n) :: d => if k = e then n else look d e

theorem look_bump {K : Type} (d : List (K × Nat)) (e f : K) :
    look (bump d e) f = look d f + (haveI := Classical.dec (e = f); if e = f then 1 else 0) := by
  classical
  induction d with
  | nil => simp only [bump, look]; split <;> simp_all
  | cons x d ih =>
    obtain ⟨k, n⟩ := x
    simp only [bump]
    by_cases h : k = e
    · subst h
      rw [if_pos rfl]
      simp only [look]
      split <;> simp_all
    · rw [if_neg h]
      simp only [look]
      split
      · rename_i hk; subst hk; simp [Ne.symm h]
      · exact ih

/-- distinct keys -/
def KeysNodup {K : Type} (d : List (K × Nat)) : Prop := (d.map Prod.fst).Nodup

theorem bump_keys {K : Type} (d : List (K × Nat)) (e : K) :
    ∀ k, k ∈ (bump d e).map Prod.fst ↔ k = e ∨ k ∈ d.map Prod.fst := by
  classical
  induction d with
  | nil => intro k; simp [bump]
  | cons x d ih =>
    obtain ⟨k', n⟩ := x
    intro k
    simp only [bump]
    by_cases h : k' = e
    · subst h; rw [if_pos rfl]; simp
    · rw [if_neg h]
      simp only [List.map_cons, List.mem_cons, ih k]
      tauto

theorem bump_nodup {K : Type} (d : List (K × Nat)) (e : K) (h : KeysNodup d) : KeysNodup (bump d e) := by
  classical
  unfold KeysNodup at *
  induction d with
  | nil => simp [bump]
  | cons x d ih =>
    obtain ⟨k', n⟩ := x
    simp only [bump]
    simp only [List.map_cons, List.nodup_cons] at h
    by_cases he : k' = e
    · subst he; rw [if_pos rfl]; simp only [List.map_cons, List.nodup_cons]; exact h
    · rw [if_neg he]
      simp only [List.map_cons, List.nodup_cons, bump_keys]
      exact ⟨fun hh => hh.elim he h.1, ih h.2⟩

theorem mem_look {K : Type} (d : List (K × Nat)) (h : KeysNodup d) (e : K) (n : Nat) :
    (e, n) ∈ d → look d e = n := by
  classical
  unfold KeysNodup at h
  induction d with
  | nil => simp
  | cons x d ih =>
    obtain ⟨k', m⟩ := x
    simp only [List.map_cons, List.nodup_cons] at h
    intro hm
    simp only [look]
    rcases List.mem_cons.mp hm with hm | hm
    · injection hm with h1 h2; rw [if_pos h1.symm, h2]
    · rw [if_neg, ih h.2 hm]
      rintro rfl
      exact h.1 (List.mem_map.mpr ⟨_, hm, rfl⟩)

theorem look_mem {K : Type} (d : List (K × Nat)) (e : K) (h : e ∈ d.map Prod.fst) : (e, look d e) ∈ d := by
  classical
  induction d with
  | nil => simp at h
  | cons x d ih =>
    obtain ⟨k', m⟩ := x
    simp only [look]
    by_cases hk : k' = e
    · subst hk; rw [if_pos rfl]; simp
    · rw [if_neg hk]
      simp only [List.map_cons, List.mem_cons] at h
      exact List.mem_cons_of_mem _ (ih (h.resolve_left (Ne.symm hk)))

theorem count_fold {K : Type} [DecidableEq K] (l : List K) : ∀ d : List (K × Nat), KeysNodup d →
    KeysNodup (l.foldl bump d) ∧ (∀ e, look (l.foldl bump d) e = look d e + l.count e) ∧
    (∀ e, e ∈ (l.foldl bump d).map Prod.fst ↔ e ∈ l ∨ e ∈ d.map Prod.fst) := by
  induction l with
  | nil => intro d h; exact ⟨h, by simp, by simp⟩
  | cons x l ih =>
    intro d h
    obtain ⟨h1, h2, h3⟩ := ih (bump d x) (bump_nodup d x h)
    refine ⟨h1, fun e => ?_, fun e => ?_⟩
    · rw [List.foldl_cons, h2, look_bump, List.count_cons]
      by_cases hxe : x = e
      · subst hxe; simp; omega
      · simp [hxe]
    · rw [List.foldl_cons, h3, bump_keys, List.mem_cons]
      tauto

theorem all_two {K : Type} [DecidableEq K] (l : List K) :
    (l.foldl bump []).all (fun e => e.2 == 2) = true ↔ ∀ e ∈ l, l.count e = 2 := by
  obtain ⟨h1, h2, h3⟩ := count_fold l [] (by simp [KeysNodup])
  rw [List.all_eq_true]
  constructor
  · intro h e he
    have := h _ (look_mem _ e ((h3 e).mpr (Or.inl he)))
    simp only [beq_iff_eq, h2, look] at this
    omega
  · rintro h ⟨e, n⟩ he
    have hl : e ∈ l := by
      rcases (h3 e).mp (List.mem_map.mpr ⟨_, he, rfl⟩) with h | h
      · exact h
      · simp at h
    have := mem_look _ h1 e n he
    rw [h2] at this
    simp only [look, h e hl] at this
    simp [← this]

/-! ## canonical keys -/

theorem keyLt_irrefl (a : Key) : ¬ keyLt a a := by
  unfold keyLt; simp

theorem keyLt_asymm {a b : Key} (h : keyLt a b) : ¬ keyLt b a := by
  obtain ⟨a1, a2, a3⟩ := a
  obtain ⟨b1, b2, b3⟩ := b
  unfold keyLt at *
  simp only at *
  rcases h with h | ⟨h, h | ⟨h', h⟩⟩ <;> rintro (g | ⟨g, g | ⟨g', g⟩⟩) <;> linarith

theorem keyLt_total (a b : Key) : keyLt a b ∨ a = b ∨ keyLt b a := by
  obtain ⟨a1, a2, a3⟩ := a
  obtain ⟨b1, b2, b3⟩ := b
  unfold keyLt
  simp only [Prod.mk.injEq]
  rcases lt_trichotomy a1 b1 with h | h | h <;> rcases lt_trichotomy a2 b2 with g | g | g <;>
    rcases lt_trichotomy a3 b3 with k | k | k <;> simp [h, g, k]

/-- the canonical key of an unordered pair of keys -/
theorem edgeKey_eq (p q r s : V4) : edgeKey p q = edgeKey r s ↔
    (pointKey p = pointKey r ∧ pointKey q = pointKey s) ∨ (pointKey p = pointKey s ∧ pointKey q = pointKey r) := by
  unfold edgeKey
  generalize pointKey p = a
  generalize pointKey q = b
  generalize pointKey r = c
  generalize pointKey s = d
  simp only [Prod.mk.injEq]
  rcases keyLt_total a b with h | h | h <;> rcases keyLt_total c d with g | g | g
  · rw [if_neg (keyLt_asymm h), if_pos h, if_neg (keyLt_asymm g), if_pos g]
    constructor
    · rintro ⟨rfl, rfl⟩; exact Or.inl ⟨rfl, rfl⟩
    · rintro (h' | ⟨rfl, rfl⟩)
      · exact h'
      · exact absurd h (keyLt_asymm g)
  · subst g
    rw [if_neg (keyLt_asymm h), if_pos h, if_neg (keyLt_irrefl _)]
    constructor
    · rintro ⟨rfl, rfl⟩; exact Or.inl ⟨rfl, rfl⟩
    · rintro (h' | ⟨rfl, rfl⟩)
      · exact h'
      · exact ⟨rfl, rfl⟩
  · rw [if_neg (keyLt_asymm h), if_pos h, if_pos g, if_neg (keyLt_asymm g)]
    constructor
    · rintro ⟨rfl, rfl⟩; exact Or.inr ⟨rfl, rfl⟩
    · rintro (⟨rfl, rfl⟩ | h')
      · exact absurd h (keyLt_asymm g)
      · exact h'
  · subst h
    rw [if_neg (keyLt_irrefl _), if_neg (keyLt_asymm g), if_pos g]
    constructor
    · rintro ⟨rfl, rfl⟩; exact Or.inl ⟨rfl, rfl⟩
    · rintro (h' | ⟨rfl, rfl⟩)
      · exact h'
      · exact ⟨rfl, rfl⟩
  · subst h g
    rw [if_neg (keyLt_irrefl _), if_neg (keyLt_irrefl _)]
    tauto
  · subst h
    rw [if_neg (keyLt_irrefl _), if_pos g, if_neg (keyLt_asymm g)]
    constructor
    · rintro ⟨rfl, rfl⟩; exact Or.inr ⟨rfl, rfl⟩
    · rintro (⟨rfl, rfl⟩ | h')
      · exact ⟨rfl, rfl⟩
      · exact h'
  · rw [if_pos h, if_neg (keyLt_asymm h), if_neg (keyLt_asymm g), if_pos g]
    constructor
    · rintro ⟨rfl, rfl⟩; exact Or.inr ⟨rfl, rfl⟩
    · rintro (⟨rfl, rfl⟩ | ⟨rfl, rfl⟩)
      · exact absurd h (keyLt_asymm g)
      · exact ⟨rfl, rfl⟩
  · subst g
    rw [if_pos h, if_neg (keyLt_asymm h), if_neg (keyLt_irrefl _)]
    constructor
    · rintro ⟨rfl, rfl⟩; exact Or.inl ⟨rfl, rfl⟩
    · rintro (⟨rfl, rfl⟩ | ⟨rfl, rfl⟩) <;> exact ⟨rfl, rfl⟩
  · rw [if_pos h, if_neg (keyLt_asymm h), if_pos g, if_neg (keyLt_asymm g)]
    constructor
    · rintro ⟨rfl, rfl⟩; exact Or.inl ⟨rfl, rfl⟩
    · rintro (⟨rfl, rfl⟩ | ⟨rfl, rfl⟩)
      · exact ⟨rfl, rfl⟩
      · exact absurd h (keyLt_asymm g)

theorem eps_ne : eps ≠ 0 := by unfold eps; norm_num

theorem pointKey_eq (p q : V4) : pointKey p = pointKey q ↔ grid p = grid q := by
  unfold pointKey grid
  simp only [Prod.mk.injEq, mul_left_inj' eps_ne, Int.cast_inj]

theorem edgeKey_same (s t : Side) : edgeKey s.1 s.2 = edgeKey t.1 t.2 ↔ SameEdge s t := by
  rw [edgeKey_eq]; simp only [pointKey_eq]; rfl

theorem keys_eq (ts : List Tri) : ts.flatMap triKeys = (sides ts).map fun s => edgeKey s.1 s.2 := by
  unfold sides
  rw [List.map_flatMap]
  rfl

theorem count_uses (ts : List Tri) (s : Side) : (haveI : DecidableEq (Key × Key) := Classical.decEq _
    (ts.flatMap triKeys).count (edgeKey s.1 s.2)) = uses ts s := by
  classical
  rw [keys_eq, List.count, List.countP_map]
  unfold uses
  congr 1
  funext t
  simp only [Function.comp, beq_eq_decide, decide_eq_decide]
  rw [eq_comm, edgeKey_same]

/-- **C169** `issolidclosed` answers true exactly when every face side joins its two positions (on the grid of
spacing `eps`) together with exactly one further face side, in whatever direction -/
theorem C169_closed_iff (x : Solid) (ts : List Tri) (hx : issolid x = true) (ht : Tris x.surfs ts) :
    ∃ b, issolidclosed x = .ok b ∧ (b = true ↔ ∀ s ∈ sides ts, uses ts s = 2) := by
  classical
  rw [← solidTris_ok] at ht
  unfold issolidclosed
  rw [hx]
  simp only [Bool.not_true, Bool.false_eq_true, if_false]
  by_cases hs : x.surfs.isEmpty
  · rw [if_pos hs]
    rw [List.isEmpty_iff] at hs
    rw [hs] at ht
    injection ht with ht
    subst ht
    exact ⟨true, rfl, by simp [sides]⟩
  · rw [if_neg hs, ht]
    refine ⟨_, rfl, ?_⟩
    have : DecidableEq (Key × Key) := Classical.decEq _
    rw [all_two, keys_eq]
    constructor
    · intro h s hs
      have := h _ (List.mem_map.mpr ⟨s, hs, rfl⟩)
      rw [← keys_eq] at this
      rw [← count_uses, ← this]
      congr!
    · intro h e he
      obtain ⟨s, hs, rfl⟩ := List.mem_map.mp he
      have := h s hs
      rw [← count_uses] at this
      rw [← keys_eq, ← this]
      congr!

/-- the same triangle walked in the other direction -/
def Tri.rev (t : Tri) : Tri := ⟨t.a, t.c, t.b⟩

/-- `ts'` are the same triangles in another order, some of them walked in the other direction -/
inductive Reoriented : List Tri → List Tri → Prop
  | perm {ts ts' : List Tri} (h : ts.Perm ts') : Reoriented ts ts'
  | flip {t : Tri} {ts ts' : List Tri} (h : ts.Perm (t :: ts')) : Reoriented ts (t.rev :: ts')
  | trans {ts ts' ts'' : List Tri} (h : Reoriented ts ts') (h' : Reoriented ts' ts'') : Reoriented ts ts''

theorem sameEdge_swap (s t : Side) : SameEdge s t.swap ↔ SameEdge s t := by
  unfold SameEdge; simp only [Prod.fst_swap, Prod.snd_swap]; tauto

theorem sameEdge_swap' (s t : Side) : SameEdge s.swap t ↔ SameEdge s t := by
  unfold SameEdge; simp only [Prod.fst_swap, Prod.snd_swap]; tauto

theorem uses_swap (ts : List Tri) (s : Side) : uses ts s.swap = uses ts s := by
  unfold uses; congr 1; funext t; exact decide_eq_decide.mpr (sameEdge_swap' s t)

theorem uses_perm {ts ts' : List Tri} (h : ts.Perm ts') (s : Side) : uses ts s = uses ts' s := by
  unfold uses sides
  exact (h.flatMap_right _).countP_eq _

theorem uses_cons (t : Tri) (ts : List Tri) (s : Side) :
    uses (t :: ts) s = uses [t] s + uses ts s := by
  unfold uses sides
  simp [List.countP_append]

theorem uses_rev (t : Tri) (s : Side) : uses [t.rev] s = uses [t] s := by
  classical
  have e1 := sameEdge_swap s (t.a, t.b)
  have e2 := sameEdge_swap s (t.b, t.c)
  have e3 := sameEdge_swap s (t.c, t.a)
  simp only [Prod.swap] at e1 e2 e3
  unfold uses sides
  simp only [List.flatMap_cons, List.flatMap_nil, List.append_nil, sidesOf, Tri.rev, List.countP_cons, List.countP_nil,
    decide_eq_true_eq, e1, e2, e3]
  omega

theorem reoriented_uses {ts ts' : List Tri} (h : Reoriented ts ts') :
    (∀ s, uses ts s = uses ts' s) ∧ (∀ s, s ∈ sides ts → s ∈ sides ts' ∨ s.swap ∈ sides ts') ∧
    (∀ s, s ∈ sides ts' → s ∈ sides ts ∨ s.swap ∈ sides ts) := by
  induction h with
  | perm h =>
    refine ⟨uses_perm h, fun s hs => Or.inl ?_, fun s hs => Or.inl ?_⟩
    · exact ((h.flatMap_right sidesOf).mem_iff).mp hs
    · exact ((h.flatMap_right sidesOf).mem_iff).mpr hs
  | @flip t ts ts' h =>
    refine ⟨fun s => ?_, fun s hs => ?_, fun s hs => ?_⟩
    · rw [uses_perm h, uses_cons, uses_cons t.rev, uses_rev]
    · have := ((h.flatMap_right sidesOf).mem_iff).mp hs
      simp only [sides, List.flatMap_cons, List.mem_append, sidesOf, List.mem_cons, List.not_mem_nil, or_false, Tri.rev] at this ⊢
      rcases this with (rfl | rfl | rfl) | h <;> simp [*]
    · have key : ∀ x, x ∈ sides ts ↔ x ∈ sides (t :: ts') := fun x => (h.flatMap_right sidesOf).mem_iff
      simp only [key]
      simp only [sides, List.flatMap_cons, List.mem_append, sidesOf, List.mem_cons, List.not_mem_nil, or_false, Tri.rev] at hs ⊢
      rcases hs with (rfl | rfl | rfl) | h <;> simp [*]
  | trans _ _ ih1 ih2 =>
    refine ⟨fun s => (ih1.1 s).trans (ih2.1 s), fun s hs => ?_, fun s hs => ?_⟩
    · rcases ih1.2.1 s hs with h | h
      · exact ih2.2.1 s h
      · rcases ih2.2.1 _ h with h | h
        · exact Or.inr h
        · rw [Prod.swap_swap] at h; exact Or.inl h
    · rcases ih2.2.2 s hs with h | h
      · exact ih1.2.2 s h
      · rcases ih1.2.2 _ h with h | h
        · exact Or.inr h
        · rw [Prod.swap_swap] at h; exact Or.inl h

/-- **C169** the answer does not depend on the order of surfaces and faces, nor on the direction in which a face is
walked: orientation is not checked -/
theorem C169_order_and_direction (x y : Solid) (ts us : List Tri) (hx : issolid x = true) (hy : issolid y = true)
    (ht : Tris x.surfs ts) (hu : Tris y.surfs us) (h : Reoriented ts us) : issolidclosed x = issolidclosed y := by
  obtain ⟨b, h1, h2⟩ := C169_closed_iff x ts hx ht
  obtain ⟨c, h3, h4⟩ := C169_closed_iff y us hy hu
  rw [h1, h3]
  obtain ⟨u1, u2, u3⟩ := reoriented_uses h
  have : b = true ↔ c = true := by
    rw [h2, h4]
    constructor
    · intro g s hs
      rcases u3 s hs with h | h
      · rw [← u1]; exact g s h
      · rw [← u1, ← uses_swap]; exact g _ h
    · intro g s hs
      rcases u2 s hs with h | h
      · rw [u1]; exact g s h
      · rw [u1, ← uses_swap]; exact g _ h
  congr 1
  exact Bool.eq_iff_iff.mpr this

/-- a rejected solid, or a face index that is out of range, is an exception -/
theorem C169_errors (x : Solid) :
    (issolid x = false → issolidclosed x = .error .valueError) ∧
    (issolid x = true → x.surfs ≠ [] → ∀ e, solidTris x.surfs = .error e → issolidclosed x = .error e) := by
  constructor
  · intro h; unfold issolidclosed; rw [h]; rfl
  · intro h hs e he
    unfold issolidclosed
    rw [h, he]
    have : x.surfs.isEmpty = false := by
      rw [Bool.eq_false_iff]; intro h; exact hs (List.isEmpty_iff.mp h)
    simp [this]

end Verif.Surf
