import Verif.Pkg.Json

/-!
# Equality of documents up to the order of dictionary keys (specification)
-/

namespace Verif.Pkg

open Verif.Dict
variable {K : Type}

mutual
/-- the same document up to the order of the keys of its dictionaries, at any depth -/
inductive Same : Val K → Val K → Prop
  | none : Same .none .none
  | bool (b) : Same (.bool b) (.bool b)
  | num (x) : Same (.num x) (.num x)
  | str (s) : Same (.str s) (.str s)
  | list {l l'} : SameL l l' → Same (.list l) (.list l')
  | dict {d e d'} : SameD d e → e.Perm d' → Same (.dict d) (.dict d')
/-- element by element -/
inductive SameL : List (Val K) → List (Val K) → Prop
  | nil : SameL [] []
  | cons {v w l l'} : Same v w → SameL l l' → SameL (v :: l) (w :: l')
/-- item by item, with the same keys -/
inductive SameD : List (String × Val K) → List (String × Val K) → Prop
  | nil : SameD [] []
  | cons {k v w d d'} : Same v w → SameD d d' → SameD ((k, v) :: d) ((k, w) :: d')
end

mutual
/-- no dictionary of the document has a key twice (Python dictionaries never do) -/
def DistinctKeys : Val K → Prop
  | .none => True
  | .bool _ => True
  | .num _ => True
  | .str _ => True
  | .list l => DistinctKeysL l
  | .dict d => (keys d).Nodup ∧ DistinctKeysD d
def DistinctKeysL : List (Val K) → Prop
  | [] => True
  | v :: l => DistinctKeys v ∧ DistinctKeysL l
def DistinctKeysD : List (String × Val K) → Prop
  | [] => True
  | p :: d => DistinctKeys p.2 ∧ DistinctKeysD d
end

theorem keys_normD (d : List (String × Val K)) : keys (normD d) = keys d := by
  induction d with
  | nil => simp [normD, keys]
  | cons p d ih => unfold keys at ih ⊢; simp [normD, ih]

theorem normD_eq_map (d : List (String × Val K)) : normD d = d.map (fun p => (p.1, norm p.2)) := by
  induction d with
  | nil => rfl
  | cons p d ih => simp [normD, ih]

theorem sameD_keys : ∀ (d e : List (String × Val K)), SameD d e → keys d = keys e
  | _, _, .nil => rfl
  | _, _, .cons _ h => by
    have := sameD_keys _ _ h
    unfold keys at this ⊢
    simp [this]

instance {V : Type} : Std.Total (leKey V) := ⟨fun a b => le_total a.1.toList b.1.toList⟩
instance {V : Type} : IsTrans (String × V) (leKey V) := ⟨fun a b c => le_trans (a := a.1.toList)⟩

/-- sorting forgets the order when the keys are distinct -/
theorem sortKeys_perm {V : Type} {d e : List (String × V)} (h : d.Perm e) (hn : (keys d).Nodup) : sortKeys d = sortKeys e := by
  unfold sortKeys
  have h1 := List.perm_insertionSort (leKey V) d
  have h2 := List.perm_insertionSort (leKey V) e
  have hp := h1.trans (h.trans h2.symm)
  refine hp.eq_of_pairwise ?_ (List.pairwise_insertionSort _ _) (List.pairwise_insertionSort _ _)
  intro a b ha hb hab hba
  have hk : a.1 = b.1 := String.toList_inj.mp (le_antisymm hab hba)
  have ha' : a ∈ d := h1.subset ha
  have hb' : b ∈ d := h1.subset (hp.symm.subset hb)
  exact List.inj_on_of_nodup_map hn ha' hb' hk

mutual
theorem norm_of_same : ∀ (v w : Val K), DistinctKeys v → Same v w → norm v = norm w
  | _, _, _, .none => rfl
  | _, _, _, .bool _ => rfl
  | _, _, _, .num _ => rfl
  | _, _, _, .str _ => rfl
  | _, _, hd, .list h => by
    simp only [DistinctKeys] at hd
    simp only [norm, normL_of_same _ _ hd h]
  | .dict d, .dict d', hd, .dict (e := e) h hp => by
    simp only [DistinctKeys] at hd
    have h1 := normD_of_same _ _ hd.2 h
    simp only [norm, h1]
    congr 1
    refine sortKeys_perm ?_ ?_
    · rw [normD_eq_map, normD_eq_map]
      exact hp.map _
    · rw [keys_normD, ← sameD_keys _ _ h]
      exact hd.1
theorem normL_of_same : ∀ (v w : List (Val K)), DistinctKeysL v → SameL v w → normL v = normL w
  | _, _, _, .nil => rfl
  | _, _, hd, .cons h1 h2 => by
    simp only [DistinctKeysL] at hd
    simp only [normL, norm_of_same _ _ hd.1 h1, normL_of_same _ _ hd.2 h2]
theorem normD_of_same : ∀ (v w : List (String × Val K)), DistinctKeysD v → SameD v w → normD v = normD w
  | _, _, _, .nil => rfl
  | _, _, hd, .cons h1 h2 => by
    simp only [DistinctKeysD] at hd
    simp only [normD, norm_of_same _ _ hd.1 h1, normD_of_same _ _ hd.2 h2]
end

mutual
theorem same_norm (v : Val K) : Same v (norm v) := by
  match v with
  | .none => exact .none
  | .bool b => exact .bool b
  | .num x => exact .num x
  | .str s => exact .str s
  | .list l => exact .list (same_normL l)
  | .dict d => exact .dict (same_normD d) (List.perm_insertionSort _ _).symm
theorem same_normL (v : List (Val K)) : SameL v (normL v) := by
  match v with
  | [] => exact .nil
  | v :: l => exact .cons (same_norm v) (same_normL l)
theorem same_normD (v : List (String × Val K)) : SameD v (normD v) := by
  match v with
  | [] => exact .nil
  | (k, v) :: l => exact .cons (same_norm v) (same_normD l)
end

/-- a permutation of the right side can be moved to the left side -/
theorem sameD_perm {e d' : List (String × Val K)} (hp : e.Perm d') : ∀ d, SameD d e → ∃ f, d.Perm f ∧ SameD f d' := by
  induction hp with
  | nil => intro d h; exact ⟨d, .refl _, h⟩
  | cons x _ ih =>
    intro d h
    cases h with
    | cons h1 h2 =>
      obtain ⟨f, hf, hs⟩ := ih _ h2
      exact ⟨_, hf.cons _, .cons h1 hs⟩
  | swap x y l =>
    intro d h
    cases h with
    | cons h1 h2 =>
      cases h2 with
      | cons h3 h4 => exact ⟨_, .swap _ _ _, .cons h3 (.cons h1 h4)⟩
  | trans _ _ ih1 ih2 =>
    intro d h
    obtain ⟨f, hf, hs⟩ := ih1 d h
    obtain ⟨g, hg, hs'⟩ := ih2 f hs
    exact ⟨g, hf.trans hg, hs'⟩

theorem sameD_perm_left {e d' : List (String × Val K)} (hp : e.Perm d') : ∀ d, SameD e d → ∃ f, d.Perm f ∧ SameD d' f := by
  induction hp with
  | nil => intro d h; exact ⟨d, .refl _, h⟩
  | cons x _ ih =>
    intro d h
    cases h with
    | cons h1 h2 =>
      obtain ⟨f, hf, hs⟩ := ih _ h2
      exact ⟨_, hf.cons _, .cons h1 hs⟩
  | swap x y l =>
    intro d h
    cases h with
    | cons h1 h2 =>
      cases h2 with
      | cons h3 h4 => exact ⟨_, .swap _ _ _, .cons h3 (.cons h1 h4)⟩
  | trans _ _ ih1 ih2 =>
    intro d h
    obtain ⟨f, hf, hs⟩ := ih1 d h
    obtain ⟨g, hg, hs'⟩ := ih2 f hs
    exact ⟨g, hf.trans hg, hs'⟩

mutual
theorem same_symm : ∀ (v w : Val K), Same v w → Same w v
  | _, _, .none => .none
  | _, _, .bool b => .bool b
  | _, _, .num x => .num x
  | _, _, .str s => .str s
  | _, _, .list h => .list (sameL_symm _ _ h)
  | _, _, .dict h hp => by
    obtain ⟨f, hf, hs⟩ := sameD_perm_left hp _ (sameD_symm _ _ h)
    exact .dict hs hf.symm
theorem sameL_symm : ∀ (v w : List (Val K)), SameL v w → SameL w v
  | _, _, .nil => .nil
  | _, _, .cons h1 h2 => .cons (same_symm _ _ h1) (sameL_symm _ _ h2)
theorem sameD_symm : ∀ (v w : List (String × Val K)), SameD v w → SameD w v
  | _, _, .nil => .nil
  | _, _, .cons h1 h2 => .cons (same_symm _ _ h1) (sameD_symm _ _ h2)
end

mutual
theorem same_trans : ∀ (v w u : Val K), Same v w → Same w u → Same v u
  | _, _, _, .none, h => h
  | _, _, _, .bool _, h => h
  | _, _, _, .num _, h => h
  | _, _, _, .str _, h => h
  | _, _, _, .list h, h' => by
    cases h' with
    | list h' => exact .list (sameL_trans _ _ _ h h')
  | _, _, _, .dict h hp, h' => by
    cases h' with
    | dict h' hp' =>
      obtain ⟨f, hf, hs⟩ := sameD_perm_left hp.symm _ h'
      exact .dict (sameD_trans _ _ _ h hs) (hf.symm.trans hp')
theorem sameL_trans : ∀ (v w u : List (Val K)), SameL v w → SameL w u → SameL v u
  | _, _, _, .nil, h => h
  | _, _, _, .cons h1 h2, h => by
    cases h with
    | cons h3 h4 => exact .cons (same_trans _ _ _ h1 h3) (sameL_trans _ _ _ h2 h4)
theorem sameD_trans : ∀ (v w u : List (String × Val K)), SameD v w → SameD w u → SameD v u
  | _, _, _, .nil, h => h
  | _, _, _, .cons h1 h2, h => by
    cases h with
    | cons h3 h4 => exact .cons (same_trans _ _ _ h1 h3) (sameD_trans _ _ _ h2 h4)
end

theorem norm_eq_iff (v w : Val K) (hv : DistinctKeys v) : norm v = norm w ↔ Same v w := by
  constructor
  · intro h
    have h1 := same_norm v
    rw [h] at h1
    exact same_trans _ _ _ h1 (same_symm _ _ (same_norm w))
  · exact norm_of_same v w hv

end Verif.Pkg
