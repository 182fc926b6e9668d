import Mathlib.Data.List.Basic
import Mathlib.Data.List.Nodup
import Mathlib.Tactic.SplitIfs

/-!
# Python dictionaries as insertion-ordered association lists

Shared by several models. `dget` is `d.get(k)`, `dset` is `d[k] = v` (in place if the key is
present, else appended at the end), `ddel` is `del d[k]` / `d.pop(k)`.
-/

namespace Verif.Dict
variable {K V : Type} [DecidableEq K]
set_option linter.unusedSectionVars false

/-- `d.get(k)` -/
def dget (d : List (K × V)) (k : K) : Option V :=
  match d with
  | [] => none
  | (k', v) :: d => if k' = k then some v else dget d k

/-- `d[k] = v` -/
def dset (d : List (K × V)) (k : K) (v : V) : List (K × V) :=
  match d with
  | [] => [(k, v)]
  | (k', v') :: d => if k' = k then (k', v) :: d else (k', v') :: dset d k v

/-- `d.pop(k, None)` -/
def ddel (d : List (K × V)) (k : K) : List (K × V) := d.filter fun e => e.1 ≠ k

/-- `list(d.keys())` -/
def keys (d : List (K × V)) : List K := d.map (·.1)

theorem dget_dset_same (d : List (K × V)) (k : K) (v : V) : dget (dset d k v) k = some v := by
  induction d with
  | nil => simp [dset, dget]
  | cons e d ih =>
    obtain ⟨k', v'⟩ := e
    simp only [dset]
    split_ifs with h
    · simp [dget, h]
    · simp [dget, h, ih]

theorem dget_dset_other (d : List (K × V)) (k k2 : K) (v : V) (hk : k2 ≠ k) :
    dget (dset d k v) k2 = dget d k2 := by
  induction d with
  | nil => simp [dset, dget, Ne.symm hk]
  | cons e d ih =>
    obtain ⟨k', v'⟩ := e
    simp only [dset]
    split_ifs with h
    · subst h; simp [dget, Ne.symm hk]
    · simp only [dget, ih]

theorem dget_dset (d : List (K × V)) (k k2 : K) (v : V) :
    dget (dset d k v) k2 = if k2 = k then some v else dget d k2 := by
  split_ifs with h
  · rw [h]; exact dget_dset_same d k v
  · exact dget_dset_other d k k2 v h

theorem dget_ddel (d : List (K × V)) (k k2 : K) :
    dget (ddel d k) k2 = if k2 = k then none else dget d k2 := by
  induction d with
  | nil => simp [ddel, dget]
  | cons e d ih =>
    obtain ⟨k', v'⟩ := e
    unfold ddel at ih ⊢
    simp only [List.filter_cons]
    by_cases h : k' = k
    · subst h
      simp only [ne_eq, not_true, decide_false, Bool.false_eq_true, if_false, ih, dget]
      split_ifs with h1 h2
      · rfl
      · exact absurd h2.symm h1
      · rfl
    · simp only [ne_eq, h, not_false_iff, decide_true, if_true, dget, ih]
      split_ifs with h1 h2
      · subst h1; exact absurd h2 h
      · rfl
      · rfl
      · rfl

theorem mem_keys {d : List (K × V)} {k : K} : k ∈ keys d ↔ (dget d k).isSome = true := by
  induction d with
  | nil => simp [keys, dget]
  | cons e d ih =>
    obtain ⟨k', v'⟩ := e
    unfold keys at ih ⊢
    simp only [List.map_cons, List.mem_cons, dget, ih]
    split_ifs with h
    · simp [h]
    · simp [Ne.symm h]

theorem dget_none {d : List (K × V)} {k : K} : dget d k = none ↔ k ∉ keys d := by
  rw [mem_keys]; cases dget d k <;> simp

theorem keys_dset (d : List (K × V)) (k : K) (v : V) :
    keys (dset d k v) = if k ∈ keys d then keys d else keys d ++ [k] := by
  induction d with
  | nil => simp [dset, keys]
  | cons e d ih =>
    obtain ⟨k', v'⟩ := e
    unfold keys at ih ⊢
    simp only [dset]
    by_cases h : k' = k
    · subst h; simp
    · have h' : k ≠ k' := fun e => h e.symm
      rw [if_neg h]
      simp only [List.map_cons, ih, List.mem_cons, h', false_or]
      split_ifs <;> rfl

theorem nodup_dset {d : List (K × V)} (h : (keys d).Nodup) (k : K) (v : V) :
    (keys (dset d k v)).Nodup := by
  rw [keys_dset]
  split_ifs with hk
  · exact h
  · exact List.Nodup.append h (by simp) (by
      intro x hx hx'
      simp only [List.mem_singleton] at hx'
      exact hk (hx' ▸ hx))

theorem nodup_ddel {d : List (K × V)} (h : (keys d).Nodup) (k : K) : (keys (ddel d k)).Nodup :=
  h.sublist (List.Sublist.map _ List.filter_sublist)

theorem keys_ddel (d : List (K × V)) (k : K) : keys (ddel d k) = (keys d).filter (· ≠ k) := by
  unfold keys ddel
  rw [List.filter_map]
  rfl

theorem mem_of_dget {d : List (K × V)} {k : K} {v : V} (h : dget d k = some v) : (k, v) ∈ d := by
  induction d with
  | nil => simp [dget] at h
  | cons e d ih =>
    obtain ⟨k', v'⟩ := e
    simp only [dget] at h
    split_ifs at h with hk
    · simp only [Option.some.injEq] at h
      subst hk h
      simp
    · exact List.mem_cons_of_mem _ (ih h)

theorem dget_of_mem {d : List (K × V)} (hn : (keys d).Nodup) {k : K} {v : V} (h : (k, v) ∈ d) :
    dget d k = some v := by
  induction d with
  | nil => simp at h
  | cons e d ih =>
    obtain ⟨k', v'⟩ := e
    unfold keys at hn ih
    simp only [List.map_cons, List.nodup_cons] at hn
    simp only [dget]
    rcases List.mem_cons.mp h with h | h
    · simp only [Prod.mk.injEq] at h
      rw [if_pos h.1.symm, h.2]
    · have : k' ≠ k := by
        rintro rfl
        exact hn.1 (List.mem_map.mpr ⟨_, h, rfl⟩)
      rw [if_neg this]
      exact ih hn.2 h

theorem dset_absent (d : List (K × V)) (k : K) (v : V) (h : k ∉ keys d) : dset d k v = d ++ [(k, v)] := by
  induction d with
  | nil => rfl
  | cons e d ih =>
    obtain ⟨k', v'⟩ := e
    unfold keys at h ih
    simp only [List.map_cons, List.mem_cons, not_or] at h
    simp only [dset, if_neg (Ne.symm h.1), List.cons_append, ih h.2]

end Verif.Dict
