import Verif.Select.Model

/-!
# Union, intersection and difference of selections (C317)
-/

namespace Verif.Select

/-- different edges among these have different hash codes -/
def Distinct (edges : List Edge) : Prop := ∀ e ∈ edges, ∀ e' ∈ edges, e.hash = e'.hash → e = e'

theorem union_inv : ∀ (edges : List Edge) (seen : List Int) (out : List Edge), (∀ h, h ∈ seen ↔ ∃ e ∈ out, e.hash = h) → (out.map (·.hash)).Nodup →
    (∀ h, h ∈ (edges.foldl unionStep (seen, out)).1 ↔ ∃ e ∈ (edges.foldl unionStep (seen, out)).2, e.hash = h) ∧
    ((edges.foldl unionStep (seen, out)).2.map (·.hash)).Nodup ∧
    (∀ e ∈ (edges.foldl unionStep (seen, out)).2, e ∈ out ∨ e ∈ edges) ∧
    (∀ e ∈ out, e ∈ (edges.foldl unionStep (seen, out)).2) ∧
    (∀ e ∈ edges, ∃ e' ∈ (edges.foldl unionStep (seen, out)).2, e'.hash = e.hash) := by
  intro edges
  induction edges with
  | nil => intro seen out h1 h2; exact ⟨h1, h2, fun e he => .inl he, fun e he => he, fun e he => nomatch he⟩
  | cons a l ih =>
    intro seen out h1 h2
    rw [List.foldl_cons]
    unfold unionStep
    dsimp only
    split
    · rename_i hs
      obtain ⟨i1, i2, i3, i4, i5⟩ := ih seen out h1 h2
      refine ⟨i1, i2, fun e he => (i3 e he).imp id (List.mem_cons_of_mem _), i4, fun e he => ?_⟩
      rcases List.mem_cons.1 he with rfl | he
      · obtain ⟨e', he', hh⟩ := (h1 _).1 hs
        exact ⟨e', i4 e' he', hh⟩
      · exact i5 e he
    · rename_i hs
      obtain ⟨i1, i2, i3, i4, i5⟩ := ih (seen ++ [a.hash]) (out ++ [a])
        (by
          intro h
          rw [List.mem_append, h1, List.mem_singleton]
          constructor
          · rintro (⟨e, he, hh⟩ | rfl)
            · exact ⟨e, List.mem_append_left _ he, hh⟩
            · exact ⟨a, List.mem_append_right _ (List.mem_singleton.2 rfl), rfl⟩
          · rintro ⟨e, he, hh⟩
            rcases List.mem_append.1 he with he | he
            · exact .inl ⟨e, he, hh⟩
            · rw [List.mem_singleton] at he
              subst he
              exact .inr hh.symm)
        (by
          rw [List.map_append, List.nodup_append]
          refine ⟨h2, by simp, ?_⟩
          intro x hx y hy hxy
          rw [List.map_cons, List.map_nil, List.mem_singleton] at hy
          subst hxy hy
          exact hs ((h1 _).2 (List.mem_map.1 hx)))
      refine ⟨i1, i2, fun e he => ?_, fun e he => i4 e (List.mem_append_left _ he), fun e he => ?_⟩
      · rcases i3 e he with h | h
        · rcases List.mem_append.1 h with h | h
          · exact .inl h
          · rw [List.mem_singleton] at h
            subst h
            exact .inr List.mem_cons_self
        · exact .inr (List.mem_cons_of_mem _ h)
      · rcases List.mem_cons.1 he with rfl | he
        · exact ⟨e, i4 e (List.mem_append_right _ (List.mem_singleton.2 rfl)), rfl⟩
        · exact i5 e he

/-- C317: if different edges have different hash codes, the union has exactly the edges of the lists, each once -/
theorem C317_union_partial {lists : List (List Edge)} (h : Distinct lists.flatten) : (∀ e, e ∈ union lists ↔ ∃ l ∈ lists, e ∈ l) ∧ (union lists).Nodup := by
  obtain ⟨-, i2, i3, -, i5⟩ := union_inv lists.flatten [] [] (by simp) (by simp)
  refine ⟨fun e => ?_, List.Nodup.of_map _ i2⟩
  rw [← List.mem_flatten]
  constructor
  · intro he
    exact (i3 e he).resolve_left (fun h => nomatch h)
  · intro he
    obtain ⟨e', he', hh⟩ := i5 e he
    have : e' = e := h e' ((i3 e' he').resolve_left (fun h => nomatch h)) e he hh
    exact this ▸ he'

theorem byHash_eq {all : List Edge} (h : Distinct all) {x : Int} {e : Edge} : byHash all x = some e ↔ e ∈ all ∧ e.hash = x := by
  unfold byHash
  constructor
  · intro hf
    exact ⟨List.mem_reverse.1 (List.mem_of_find?_eq_some hf), by simpa using List.find?_some hf⟩
  · rintro ⟨he, rfl⟩
    cases hf : List.find? (fun e' : Edge => decide (e'.hash = e.hash)) all.reverse with
    | none =>
      have := List.find?_eq_none.1 hf e (List.mem_reverse.2 he)
      simp at this
    | some e' =>
      have h1 := List.mem_reverse.1 (List.mem_of_find?_eq_some hf)
      have h2 : e'.hash = e.hash := by simpa using List.find?_some hf
      rw [h e' h1 e he h2]

theorem nodup_filterMap {f : Int → Option Edge} : ∀ (l : List Int), l.Nodup → (∀ x e, f x = some e → e.hash = x) → (l.filterMap f).Nodup := by
  intro l
  induction l with
  | nil => intro _ _; exact List.nodup_nil
  | cons a l ih =>
    intro hl hf
    rw [List.nodup_cons] at hl
    rw [List.filterMap_cons]
    split
    · exact ih hl.2 hf
    · rename_i e he
      rw [List.nodup_cons]
      refine ⟨fun hm => ?_, ih hl.2 hf⟩
      obtain ⟨x, hx, hxe⟩ := List.mem_filterMap.1 hm
      rw [← hf _ _ he, hf _ _ hxe] at hl
      exact hl.1 hx

/-- C317: if different edges have different hash codes, the intersection has exactly the edges that are in every list, each once -/
theorem C317_intersect_partial {lists : List (List Edge)} (h : Distinct lists.flatten) (hn : lists ≠ []) : (∀ e, e ∈ intersect lists ↔ ∀ l ∈ lists, e ∈ l) ∧ (intersect lists).Nodup := by
  cases lists with
  | nil => exact absurd rfl hn
  | cons l ls =>
    unfold intersect
    dsimp only
    refine ⟨fun e => ?_, nodup_filterMap _ ((List.nodup_dedup _).filter _) fun x e hx => ((byHash_eq h).1 hx).2⟩
    rw [List.mem_filterMap]
    constructor
    · rintro ⟨x, hx, hxe⟩ l' hl'
      obtain ⟨hall, rfl⟩ := (byHash_eq h).1 hxe
      rw [List.mem_filter, List.mem_dedup, List.all_eq_true] at hx
      have : e.hash ∈ l'.map (·.hash) := by
        rcases List.mem_cons.1 hl' with rfl | hl'
        · exact hx.1
        · exact of_decide_eq_true (hx.2 l' hl')
      obtain ⟨e', he', hh⟩ := List.mem_map.1 this
      exact h e' (List.mem_flatten.2 ⟨l', hl', he'⟩) e hall hh ▸ he'
    · intro he
      refine ⟨e.hash, ?_, (byHash_eq h).2 ⟨List.mem_flatten.2 ⟨l, List.mem_cons_self, he l List.mem_cons_self⟩, rfl⟩⟩
      rw [List.mem_filter, List.mem_dedup, List.all_eq_true]
      refine ⟨List.mem_map.2 ⟨e, he l List.mem_cons_self, rfl⟩, fun l' hl' => decide_eq_true ?_⟩
      exact List.mem_map.2 ⟨e, he l' (List.mem_cons_of_mem _ hl'), rfl⟩

/-- C317: the intersection of no lists is empty -/
theorem C317_none : intersect [] = [] := rfl

/-- C317: if different edges have different hash codes, the difference has exactly the edges of the first list that are not in the second, in the same order and as often -/
theorem C317_subtract_partial {base remove : List Edge} (h : Distinct (base ++ remove)) :
    subtract base remove = (haveI := Classical.decEq Edge; base.filter (fun e => decide (e ∉ remove))) := by
  unfold subtract
  apply List.filter_congr
  intro e he
  congr 1
  apply propext
  apply not_congr
  constructor
  · intro hm
    obtain ⟨e', he', hh⟩ := List.mem_map.1 hm
    exact h e' (List.mem_append_right _ he') e (List.mem_append_left _ he) hh ▸ he'
  · intro hm
    exact List.mem_map.2 ⟨e, hm, rfl⟩

/-- C317: a selection is the union of what is removed from it and what is left -/
theorem C317_parts_partial {a b : List Edge} (h : Distinct (a ++ b)) (e : Edge) : (e ∈ a ↔ e ∈ union [subtract a b, intersect [a, b]]) ∧ ¬ (e ∈ subtract a b ∧ e ∈ intersect [a, b]) := by
  have hi := (C317_intersect_partial (lists := [a, b]) (by simpa using h) (by simp)).1 e
  have hs : e ∈ subtract a b ↔ e ∈ a ∧ e ∉ b := by
    classical
    rw [C317_subtract_partial h, List.mem_filter, decide_eq_true_eq]
  have hsub : ∀ x ∈ [subtract a b, intersect [a, b]].flatten, x ∈ a ++ b := by
    intro x hx
    rw [List.mem_flatten] at hx
    obtain ⟨l, hl, hx⟩ := hx
    rw [List.mem_cons, List.mem_singleton] at hl
    apply List.mem_append_left
    rcases hl with rfl | rfl
    · exact List.mem_of_mem_filter hx
    · exact ((C317_intersect_partial (lists := [a, b]) (by simpa using h) (by simp)).1 x).1 hx a (by simp)
  have hu := (C317_union_partial (lists := [subtract a b, intersect [a, b]]) (fun x hx y hy => h x (hsub x hx) y (hsub y hy))).1 e
  rw [hu]
  simp only [List.mem_cons, List.not_mem_nil, or_false, forall_eq_or_imp, forall_eq, exists_eq_or_imp, exists_eq_left] at hi ⊢
  rw [hs, hi]
  tauto

/-- C317: two edges with the same hash code are one for the union and the difference: one is lost -/
theorem C317_collision {e e' : Edge} (hn : e ≠ e') (hh : e.hash = e'.hash) : union [[e], [e']] = [e] ∧ e' ∉ union [[e], [e']] ∧ subtract [e] [e'] = [] ∧ intersect [[e], [e']] = [e'] := by
  have h1 : union [[e], [e']] = [e] := by simp [union, unionStep, hh]
  refine ⟨h1, ?_, ?_, ?_⟩
  · rw [h1, List.mem_singleton]
    exact fun h => hn h.symm
  · simp [subtract, hh]
  · simp [intersect, byHash, hh]

/-- the hypotheses of C317 hold of three edges, two of them in each list -/
example : let e (i : Nat) : Edge := ⟨i, none, none, i⟩
    Distinct [[e 1, e 2], [e 2, e 3]].flatten ∧ intersect [[e 1, e 2], [e 2, e 3]] = [e 2] ∧ union [[e 1, e 2], [e 2, e 3]] = [e 1, e 2, e 3] ∧ subtract [e 1, e 2] [e 2, e 3] = [e 1] := by
  refine ⟨?_, ?_, ?_, ?_⟩
  · intro a ha b hb h
    simp only [List.flatten_cons, List.flatten_nil, List.append_nil, List.cons_append, List.nil_append, List.mem_cons, List.not_mem_nil, or_false] at ha hb
    rcases ha with rfl | rfl | rfl | rfl <;> rcases hb with rfl | rfl | rfl | rfl <;> first | rfl | (exfalso; revert h; decide)
  · have : List.dedup [(1 : Int), 2] = [1, 2] := by decide
    simp [intersect, byHash, this]
  · simp [union, unionStep]
  · simp [subtract]

/-- different edges with the same hash code -/
example : (⟨1, none, none, 7⟩ : Edge) ≠ ⟨2, none, none, 7⟩ := by simp

end Verif.Select
