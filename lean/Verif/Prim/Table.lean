import Verif.Prim.SphereModel
import Verif.Prim.Mesh

/-!
# The vertex table

`addVertex` in any state of the table gives the number of a vertex within epsilon of the one asked for; starting from an
emptied table a point once looked up keeps its number for ever.
-/

namespace Verif.Prim
open Verif.Geom Verif.Surf Real

/-- the numbers in the table refer to existing vertices, and the table belongs to this list -/
structure Sound (me : Nat) (b : Build) : Prop where
  owner : b.tab.owner = some me
  nonempty : b.vs.length ≠ 0
  valid : ∀ k is, b.tab.hash k = some is → ∀ i ∈ is, i < b.vs.length
  same : b.vs.length = b.ns.length

/-- the vertex number the table has for a point -/
noncomputable def look (fmt : ℝ → String) (b : Build) (p : V4) : Option Nat :=
  (b.tab.hash (vkey fmt p)).bind (scan p b.vs)

/-- `c` came from `b` by adding vertices; what was in the table stays -/
def Later (fmt : ℝ → String) (b c : Build) : Prop :=
  (∃ av, c.vs = b.vs ++ av) ∧ (∃ an, c.ns = b.ns ++ an) ∧ ∀ p i, look fmt b p = some i → look fmt c p = some i

theorem Later.refl (fmt : ℝ → String) (b : Build) : Later fmt b b := ⟨⟨[], by simp⟩, ⟨[], by simp⟩, fun _ _ h => h⟩

theorem Later.trans {fmt : ℝ → String} {a b c : Build} (h : Later fmt a b) (g : Later fmt b c) : Later fmt a c := by
  obtain ⟨⟨x, hx⟩, ⟨y, hy⟩, h3⟩ := h
  obtain ⟨⟨x', hx'⟩, ⟨y', hy'⟩, g3⟩ := g
  exact ⟨⟨x ++ x', by rw [hx', hx, List.append_assoc]⟩, ⟨y ++ y', by rw [hy', hy, List.append_assoc]⟩, fun p i e => g3 p i (h3 p i e)⟩

theorem Later.get {fmt : ℝ → String} {b c : Build} (h : Later fmt b c) {i : Nat} {v : V4} (hv : b.vs[i]? = some v) : c.vs[i]? = some v := by
  obtain ⟨⟨x, hx⟩, -⟩ := h
  rw [hx, List.getElem?_append_left (List.getElem?_eq_some_iff.mp hv).1]
  exact hv

theorem scan_some {p : V4} {vs : List V4} {is : List Nat} {i : Nat} (h : scan p vs is = some i) :
    i ∈ is ∧ ∃ v, vs[i]? = some v ∧ vclose p v := by
  induction is with
  | nil => simp [scan] at h
  | cons j is ih =>
    unfold scan at h
    cases hj : vs[j]? with
    | none => rw [hj] at h; simp only at h; obtain ⟨a, b⟩ := ih h; exact ⟨by simp [a], b⟩
    | some v =>
      rw [hj] at h
      simp only at h
      split at h
      · rename_i hc
        injection h with h
        subst h
        exact ⟨by simp, v, hj, hc⟩
      · obtain ⟨a, b⟩ := ih h; exact ⟨by simp [a], b⟩

theorem scan_later {p : V4} {vs av : List V4} {is : List Nat} {i : Nat} (tail : List Nat) (hv : ∀ j ∈ is, j < vs.length)
    (h : scan p vs is = some i) : scan p (vs ++ av) (is ++ tail) = some i := by
  induction is with
  | nil => simp [scan] at h
  | cons j is ih =>
    have hj := hv j (by simp)
    unfold scan at h
    rw [List.cons_append]
    unfold scan
    rw [List.getElem?_append_left hj]
    rw [List.getElem?_eq_getElem hj] at h ⊢
    simp only at h ⊢
    split
    · rename_i hc
      rw [if_pos hc] at h; exact h
    · rename_i hc
      rw [if_neg hc] at h
      exact ih (fun j hj => hv j (by simp [hj])) h

theorem scan_last {p : V4} {vs : List V4} {is : List Nat} (hv : ∀ j ∈ is, j < vs.length) (h : scan p vs is = none) :
    scan p (vs ++ [p]) (is ++ [vs.length]) = some vs.length := by
  have hself : vclose p p := by
    unfold vclose close mag sub
    simp [eps]
    norm_num
  induction is with
  | nil => simp [scan, hself]
  | cons j is ih =>
    have hj := hv j (by simp)
    unfold scan at h
    rw [List.cons_append]
    unfold scan
    rw [List.getElem?_append_left hj]
    rw [List.getElem?_eq_getElem hj] at h ⊢
    simp only at h ⊢
    split
    · rename_i hc
      rw [if_pos hc] at h; cases h
    · rename_i hc
      rw [if_neg hc] at h
      exact ih (fun j hj => hv j (by simp [hj])) h

theorem filter_valid {n : Nat} {is : List Nat} (h : ∀ i ∈ is, i < n) : is.filter (· < n) = is := by
  rw [List.filter_eq_self]
  intro i hi
  simpa using h i hi

theorem claim_sound {me : Nat} {b : Build} (h : Sound me b) : claim me b = b.tab := by
  unfold claim
  rw [if_neg]
  rintro (h' | h')
  · exact h' h.owner
  · exact h.nonempty h'

/-- what `addVertex` does when the table is sound -/
theorem addVertex_sound (fmt : ℝ → String) {me : Nat} (p n : V4) {b : Build} (h : Sound me b) :
    let r := addVertex fmt me p n b
    Sound me r.2 ∧ Later fmt b r.2 ∧ look fmt r.2 p = some r.1 ∧ (∃ v, r.2.vs[r.1]? = some v ∧ vclose p v) ∧
    ((r.2.vs = b.vs ∧ r.2.ns = b.ns) ∨ (r.1 = b.vs.length ∧ r.2.vs = b.vs ++ [p] ∧ r.2.ns = b.ns ++ [n])) := by
  unfold addVertex
  rw [claim_sound h]
  simp only
  have hself : vclose p p := by
    unfold vclose close mag sub
    simp [eps]
    norm_num
  cases hk : b.tab.hash (vkey fmt p) with
  | some is =>
    simp only
    have hv := h.valid _ _ hk
    cases hs : scan p b.vs is with
    | some i =>
      simp only
      refine ⟨h, Later.refl _ _, ?_, (scan_some hs).2, Or.inl (by simp)⟩
      unfold look
      simp only [hk, Option.bind_some, hs]
    | none =>
      simp only
      rw [filter_valid hv]
      refine ⟨⟨h.owner, by simp, ?_, by simp [h.same]⟩, ⟨⟨[p], rfl⟩, ⟨[n], rfl⟩, ?_⟩, ?_, ⟨p, by simp, hself⟩, Or.inr (by simp)⟩
      · intro k js hjs j hj
        simp only at hjs
        by_cases e : k = vkey fmt p
        · subst e
          rw [Function.update_self] at hjs
          injection hjs with hjs
          subst hjs
          rcases List.mem_append.mp hj with hj | hj
          · have := hv j hj; simp; omega
          · simp at hj; simp [hj]
        · rw [Function.update_of_ne e] at hjs
          have := h.valid k js hjs j hj
          simp; omega
      · intro q i hq
        unfold look at hq ⊢
        simp only
        by_cases e : vkey fmt q = vkey fmt p
        · rw [e] at hq ⊢
          rw [Function.update_self]
          rw [hk] at hq
          exact scan_later _ hv hq
        · rw [Function.update_of_ne e]
          cases hq' : b.tab.hash (vkey fmt q) with
          | none => rw [hq'] at hq; cases hq
          | some js =>
            rw [hq'] at hq
            have := scan_later (av := [p]) [] (h.valid _ _ hq') hq
            simpa using this
      · unfold look
        simp only [Function.update_self, Option.bind_some]
        exact scan_last hv hs
  | none =>
    simp only
    refine ⟨⟨h.owner, by simp, ?_, by simp [h.same]⟩, ⟨⟨[p], rfl⟩, ⟨[n], rfl⟩, ?_⟩, ?_, ⟨p, by simp, hself⟩, Or.inr (by simp)⟩
    · intro k js hjs j hj
      simp only at hjs
      by_cases e : k = vkey fmt p
      · subst e
        rw [Function.update_self] at hjs
        injection hjs with hjs
        subst hjs
        simp at hj; simp [hj]
      · rw [Function.update_of_ne e] at hjs
        have := h.valid k js hjs j hj
        simp; omega
    · intro q i hq
      unfold look at hq ⊢
      simp only
      by_cases e : vkey fmt q = vkey fmt p
      · rw [e, hk] at hq; cases hq
      · rw [Function.update_of_ne e]
        cases hq' : b.tab.hash (vkey fmt q) with
        | none => rw [hq'] at hq; cases hq
        | some js =>
          rw [hq'] at hq
          have := scan_later (av := [p]) [] (h.valid _ _ hq') hq
          simpa using this
    · unfold look
      simp only [Function.update_self, Option.bind_some]
      simp [scan, hself]

/-- **C182** `addVertex` in any state of the global table (also one left by earlier work on a discarded list): the answer is
the number of a vertex within epsilon of the one asked for; existing vertices and normals keep their places; at most the
given vertex and normal are appended -/
theorem C182_any_state (fmt : ℝ → String) (me : Nat) (p n : V4) (b : Build) :
    ∃ v, (addVertex fmt me p n b).2.vs[(addVertex fmt me p n b).1]? = some v ∧ sqDist p v < eps ^ 2 ∧
      (((addVertex fmt me p n b).2.vs = b.vs ∧ (addVertex fmt me p n b).2.ns = b.ns) ∨
        ((addVertex fmt me p n b).1 = b.vs.length ∧ (addVertex fmt me p n b).2.vs = b.vs ++ [p] ∧
          (addVertex fmt me p n b).2.ns = b.ns ++ [n])) := by
  have hself : sqDist p p < eps ^ 2 := by unfold sqDist eps; norm_num
  unfold addVertex
  simp only
  split
  · split
    · rename_i i hs
      obtain ⟨-, v, hv, hc⟩ := scan_some hs
      refine ⟨v, hv, ?_, Or.inl ⟨rfl, rfl⟩⟩
      unfold vclose close mag sub at hc
      rw [sub_zero, abs_of_nonneg (Real.sqrt_nonneg _), Real.sqrt_lt' (by unfold eps; norm_num)] at hc
      unfold sqDist
      nlinarith
    · exact ⟨p, by simp, hself, Or.inr ⟨rfl, rfl, rfl⟩⟩
  · exact ⟨p, by simp, hself, Or.inr ⟨rfl, rfl, rfl⟩⟩

/-- adding the points one after the other: their numbers and the final state -/
noncomputable def addAll (fmt : ℝ → String) (me : Nat) : List (V4 × V4) → Build → List Nat × Build
  | [], b => ([], b)
  | q :: qs, b =>
    let r := addVertex fmt me q.1 q.2 b
    let s := addAll fmt me qs r.2
    (r.1 :: s.1, s.2)

/-- the state after the table was emptied -/
noncomputable def emptied (me : Nat) (b : Build) : Build := ⟨b.vs, b.ns, ⟨some me, fun _ => none⟩⟩

theorem addVertex_emptied (fmt : ℝ → String) (me : Nat) (p n : V4) (b : Build) (h : b.tab.owner ≠ some me) :
    addVertex fmt me p n b = addVertex fmt me p n (emptied me b) := by
  have h1 : claim me b = ⟨some me, fun _ => none⟩ := by unfold claim; rw [if_pos (Or.inl h)]
  have h2 : claim me (emptied me b) = ⟨some me, fun _ => none⟩ := by
    unfold claim emptied; split <;> rfl
  unfold addVertex
  rw [h1, h2]
  rfl

theorem emptied_sound {me : Nat} {b : Build} (h : b.vs.length ≠ 0) (hs : b.vs.length = b.ns.length) : Sound me (emptied me b) :=
  ⟨rfl, h, fun k is hk => by simp [emptied] at hk, hs⟩

theorem addAll_look (fmt : ℝ → String) {me : Nat} (qs : List (V4 × V4)) : ∀ {b : Build}, Sound me b →
    Sound me (addAll fmt me qs b).2 ∧ Later fmt b (addAll fmt me qs b).2 ∧
    List.Forall₂ (fun q i => look fmt (addAll fmt me qs b).2 q.1 = some i) qs (addAll fmt me qs b).1 := by
  induction qs with
  | nil => intro b h; exact ⟨h, Later.refl _ _, .nil⟩
  | cons q qs ih =>
    intro b h
    obtain ⟨h1, h2, h3, -⟩ := addVertex_sound fmt q.1 q.2 h
    obtain ⟨g1, g2, g3⟩ := ih h1
    exact ⟨g1, h2.trans g2, .cons (g2.2.2 _ _ h3) g3⟩

/-- **C182** working on a list of its own (whose identity is not the one in the table), or on an empty one: a point asked for
again gets the same number, however many vertices were added in between -/
theorem C182_stable (fmt : ℝ → String) (me : Nat) (b : Build) (qs : List (V4 × V4)) (hown : b.tab.owner ≠ some me ∨ b.vs = [])
    (hl : b.vs.length = b.ns.length) (i j : Nat) (p m n : V4) (hi : qs[i]? = some (p, m)) (hj : qs[j]? = some (p, n)) :
    (addAll fmt me qs b).1[i]? = (addAll fmt me qs b).1[j]? ∧ ∃ k, (addAll fmt me qs b).1[i]? = some k := by
  cases qs with
  | nil => simp at hi
  | cons q qs =>
    have e : addVertex fmt me q.1 q.2 b = addVertex fmt me q.1 q.2 (emptied me b) := by
      rcases hown with h | h
      · exact addVertex_emptied fmt me q.1 q.2 b h
      · have h1 : claim me b = ⟨some me, fun _ => none⟩ := by unfold claim; rw [if_pos (Or.inr (by simp [h]))]
        have h2 : claim me (emptied me b) = ⟨some me, fun _ => none⟩ := by unfold claim emptied; split <;> rfl
        unfold addVertex
        rw [h1, h2]
        rfl
    have key : ∃ c : Build, Sound me c ∧ look fmt c q.1 = some (addVertex fmt me q.1 q.2 b).1 ∧ c = (addVertex fmt me q.1 q.2 b).2 := by
      by_cases hb : b.vs.length = 0
      · have h2 : claim me (emptied me b) = ⟨some me, fun _ => none⟩ := by unfold claim emptied; split <;> rfl
        have hb' : b.vs = [] := List.length_eq_zero_iff.mp hb
        have hself : vclose q.1 q.1 := by
          unfold vclose close mag sub
          simp [eps]
          norm_num
        refine ⟨_, ⟨?_, ?_, ?_, ?_⟩, ?_, rfl⟩ <;> rw [e] <;> unfold addVertex <;> rw [h2] <;> simp only
        · simp
        · intro k is hk x hx
          by_cases ek : k = vkey fmt q.1
          · subst ek
            rw [Function.update_self] at hk
            injection hk with hk
            subst hk
            simp at hx; simp [hx]
          · rw [Function.update_of_ne ek] at hk; cases hk
        · simp [emptied, hl]
        · unfold look
          simp only [Function.update_self, Option.bind_some]
          simp [scan, hself]
      · obtain ⟨h1, -, h3, -⟩ := addVertex_sound fmt q.1 q.2 (emptied_sound (me := me) hb hl)
        rw [← e] at h1 h3
        exact ⟨_, h1, h3, rfl⟩
    obtain ⟨c, c1, c2, c3⟩ := key
    obtain ⟨g1, g2, g3⟩ := addAll_look fmt qs c1
    have hf : List.Forall₂ (fun q i => look fmt (addAll fmt me qs c).2 q.1 = some i) (q :: qs) (addAll fmt me (q :: qs) b).1 := by
      have e2 : (addAll fmt me (q :: qs) b).1 = (addVertex fmt me q.1 q.2 b).1 :: (addAll fmt me qs c).1 := by rw [c3]; rfl
      rw [e2]
      exact .cons (g2.2.2 _ _ c2) g3
    have get : ∀ (i : Nat) (m : V4), (q :: qs)[i]? = some (p, m) →
        (addAll fmt me (q :: qs) b).1[i]? = look fmt (addAll fmt me qs c).2 p ∧ ∃ k, look fmt (addAll fmt me qs c).2 p = some k := by
      intro i m hi
      have hlen := hf.length_eq
      have hi' := (List.getElem?_eq_some_iff.mp hi).1
      have := List.forall₂_iff_get.mp hf
      have hv := this.2 i hi' (by omega)
      rw [List.get_eq_getElem, List.get_eq_getElem] at hv
      have e1 : (q :: qs)[i] = (p, m) := (List.getElem?_eq_some_iff.mp hi).2
      rw [e1] at hv
      simp only at hv
      refine ⟨?_, _, hv⟩
      rw [hv, List.getElem?_eq_getElem (by omega)]
    obtain ⟨a1, k, a2⟩ := get i m hi
    obtain ⟨b1, -⟩ := get j n hj
    exact ⟨by rw [a1, b1], k, by rw [a1, a2]⟩

/-- three requests on an empty list, the first and the last for the same point -/
example (fmt : ℝ → String) (t : Table) :
    (addAll fmt 7 [(pt 0 0, dir 0 0 1), (pt 1 0, dir 0 0 1), (pt 0 0, dir 1 0 0)] ⟨[], [], t⟩).1[0]? =
    (addAll fmt 7 [(pt 0 0, dir 0 0 1), (pt 1 0, dir 0 0 1), (pt 0 0, dir 1 0 0)] ⟨[], [], t⟩).1[2]? :=
  (C182_stable fmt 7 _ _ (Or.inr rfl) rfl 0 2 (pt 0 0) (dir 0 0 1) (dir 1 0 0) rfl rfl).1

end Verif.Prim
