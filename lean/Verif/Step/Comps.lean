import Verif.Step.Model
import Mathlib.Logic.Relation
import Mathlib.Data.List.Perm.Subperm

/-! # The components of a graph, as found by the loops of `write_step` -/

namespace Verif.Step
open Relation

/-- reachable through neighbours -/
def Reach (nb : Nat → List Nat) : Nat → Nat → Prop := ReflTransGen fun i j => j ∈ nb i

/-- the unmarked numbers below `n` -/
def unmarked (n : Nat) (m : Nat → Option Nat) : Nat := ((List.range n).filter fun j => (m j).isNone).length

theorem unmarked_mark {n : Nat} {m : Nat → Option Nat} {c : Nat} {new : List Nat} (hn : new.Nodup) (h : ∀ j ∈ new, j < n ∧ (m j).isNone) :
    unmarked n (fun j => if j ∈ new then some c else m j) + new.length ≤ unmarked n m := by
  unfold unmarked
  rw [← List.length_append]
  refine (List.subperm_of_subset ?_ ?_).length_le
  · refine List.Nodup.append ((List.nodup_range).filter _) hn fun x h1 h2 => ?_
    rw [List.mem_filter] at h1
    simp [h2] at h1
  · intro x hx
    rw [List.mem_append] at hx
    rw [List.mem_filter]
    rcases hx with hx | hx
    · rw [List.mem_filter] at hx
      refine ⟨hx.1, ?_⟩
      by_cases hm : x ∈ new
      · simp [hm] at hx
      · simpa [hm] using hx.2
    · exact ⟨by simpa using (h x hx).1, (h x hx).2⟩

section
variable {nb : Nat → List Nat} {n : Nat}

theorem flood_spec (hnd : ∀ i, (nb i).Nodup) (hlt : ∀ i, ∀ j ∈ nb i, j < n) (hsym : ∀ i j, j ∈ nb i → i ∈ nb j) {c r : Nat} {m0 : Nat → Option Nat}
    (h4 : ∀ j x, m0 j = some x → ∀ k ∈ nb j, m0 k = some x) (hc : ∀ j, m0 j ≠ some c) :
    ∀ (f : Nat) (st : List Nat) (m : Nat → Option Nat), m r = some c → (∀ j, m j = some c → Reach nb r j) →
      (∀ j, m j = some c → j ∈ st ∨ ∀ k ∈ nb j, m k = some c) → (∀ j x, m0 j = some x → m j = some x) → (∀ j, m j ≠ some c → m j = m0 j) →
      (∀ j ∈ st, m j = some c) → st.length + unmarked n m ≤ f →
      ∀ j, (flood nb c f st m j = some c ↔ Reach nb r j) ∧ (flood nb c f st m j ≠ some c → flood nb c f st m j = m0 j) ∧ ∀ x, m0 j = some x → flood nb c f st m j = some x
  | f, [], m, hr, h1, h2, h3, h3', h5, hf, j => by
    have e : flood nb c f [] m = m := by cases f <;> rfl
    rw [e]
    refine ⟨⟨h1 j, fun h => ?_⟩, h3' j, h3 j⟩
    induction h with
    | refl => exact hr
    | tail _ hk ih =>
      rcases h2 _ ih with h | h
      · exact absurd h (by simp)
      · exact h _ hk
  | 0, i :: st, m, hr, h1, h2, h3, h3', h5, hf, j => by simp at hf
  | f + 1, i :: st, m, hr, h1, h2, h3, h3', h5, hf, j => by
    rw [flood]
    have hi : m i = some c := h5 i (by simp)
    have hnew : ∀ k, k ∈ (nb i).filter (fun j => (m j).isNone) ↔ k ∈ nb i ∧ m k = none := by simp [List.mem_filter]
    generalize hN : (nb i).filter (fun j => (m j).isNone) = new at hnew ⊢
    have hnn : new.Nodup := hN ▸ (hnd i).filter _
    have hmark : ∀ k, m k = some c → (if k ∈ new then some c else m k) = some c := fun k h => by split <;> simp [h]
    have hval : ∀ k, (if k ∈ new then some c else m k) = some c → k ∈ new ∨ m k = some c := fun k h => by
      by_cases hk : k ∈ new
      · exact .inl hk
      · rw [if_neg hk] at h; exact .inr h
    refine flood_spec hnd hlt hsym h4 hc f (new.reverse ++ st) _ (hmark r hr) ?_ ?_ ?_ ?_ ?_ ?_ j
    · intro k hk
      rcases hval k hk with h | h
      · exact (h1 i hi).tail ((hnew k).1 h).1
      · exact h1 k h
    · intro k hk
      rcases hval k hk with h | h
      · left; simp [h]
      · rcases h2 k h with h' | h'
        · rcases List.mem_cons.1 h' with rfl | h'
          · right
            intro l hl
            cases hm : m l with
            | none => rw [if_pos ((hnew l).2 ⟨hl, hm⟩)]
            | some x =>
              by_cases hx : x = c
              · split <;> simp [hx]
              · exfalso
                have h6 : m0 l = some x := by rw [← h3' l (by rw [hm]; simpa using hx), hm]
                have := h3 _ _ (h4 l x h6 k (hsym k l hl))
                rw [hi] at this
                exact hx (by simpa using this.symm)
          · left; simp [h']
        · right; exact fun l hl => hmark l (h' l hl)
    · intro k x hk
      have := h3 k x hk
      rw [if_neg, this]
      intro hn'
      rw [((hnew k).1 hn').2] at this
      exact nomatch this
    · intro k hk
      by_cases hn' : k ∈ new
      · rw [if_pos hn'] at hk; exact absurd rfl hk
      · rw [if_neg hn'] at hk ⊢; exact h3' k hk
    · intro k hk
      rw [List.mem_append, List.mem_reverse] at hk
      rcases hk with hk | hk
      · rw [if_pos hk]
      · exact hmark k (h5 k (by simp [hk]))
    · have := unmarked_mark (c := c) hnn (m := m) (n := n) fun j hj => ⟨hlt i j ((hnew j).1 hj).1, by simp [((hnew j).1 hj).2]⟩
      simp only [List.length_append, List.length_reverse, List.length_cons] at hf ⊢
      omega

/-- what holds of the marks and the number of components after some of the triangles -/
structure Marks (nb : Nat → List Nat) (n : Nat) (m : Nat → Option Nat) (k : Nat) : Prop where
  closed : ∀ j x, m j = some x → ∀ l ∈ nb j, m l = some x
  bound : ∀ j x, m j = some x → x < k
  reach : ∀ i j x, m i = some x → m j = some x → Reach nb i j
  used : ∀ x < k, ∃ j < n, m j = some x
  range : ∀ j, n ≤ j → m j = none

theorem reach_symm (hsym : ∀ i j, j ∈ nb i → i ∈ nb j) {i j : Nat} (h : Reach nb i j) : Reach nb j i := by
  induction h with
  | refl => exact .refl
  | tail _ h ih => exact .head (hsym _ _ h) ih

theorem label_spec (hnd : ∀ i, (nb i).Nodup) (hlt : ∀ i, ∀ j ∈ nb i, j < n) (hsym : ∀ i j, j ∈ nb i → i ∈ nb j) :
    ∀ (is : List Nat) (st : (Nat → Option Nat) × Nat), (∀ i ∈ is, i < n) → Marks nb n st.1 st.2 →
      Marks nb n (label nb n is st).1 (label nb n is st).2 ∧ (∀ i ∈ is, (label nb n is st).1 i ≠ none) ∧ ∀ j x, st.1 j = some x → (label nb n is st).1 j = some x
  | [], st, _, h => ⟨h, by simp, fun _ _ h => h⟩
  | i :: is, (m, k), hi, h => by
    rw [label]
    dsimp only
    by_cases hm : (m i).isSome
    · rw [if_pos hm]
      obtain ⟨a, b, c⟩ := label_spec hnd hlt hsym is (m, k) (fun j hj => hi j (by simp [hj])) h
      refine ⟨a, fun j hj => ?_, c⟩
      rcases List.mem_cons.1 hj with rfl | hj
      · obtain ⟨x, hx⟩ := Option.isSome_iff_exists.1 hm
        rw [c _ _ hx]; simp
      · exact b j hj
    · rw [if_neg hm]
      have hmi : m i = none := by simpa using hm
      have hin : i < n := hi i (by simp)
      have hcnt : 1 + unmarked n (fun j => if j = i then some k else m j) ≤ n := by
        have h1 := unmarked_mark (n := n) (m := m) (c := k) (new := [i]) (by simp) (by simpa using ⟨hin, hmi⟩)
        simp only [List.mem_singleton, List.length_singleton] at h1
        have h2 : unmarked n m ≤ n := Nat.le_trans (List.length_filter_le _ _) (by simp)
        omega
      have hF := flood_spec hnd hlt hsym (c := k) (r := i) (m0 := m) (fun j x => h.closed j x) (fun j hj => Nat.lt_irrefl _ (h.bound j k hj)) n [i]
        (fun j => if j = i then some k else m j) (by simp)
        (fun j hj => by
          by_cases hj' : j = i
          · rw [hj']; exact .refl
          · rw [if_neg hj'] at hj; exact absurd (h.bound j k hj) (Nat.lt_irrefl _))
        (fun j hj => by
          by_cases hj' : j = i
          · left; simp [hj']
          · rw [if_neg hj'] at hj; exact absurd (h.bound j k hj) (Nat.lt_irrefl _))
        (fun j x hj => by rw [if_neg (fun h => by rw [h, hmi] at hj; exact nomatch hj), hj])
        (fun j hj => by
          by_cases hj' : j = i
          · rw [if_pos hj'] at hj; exact absurd rfl hj
          · rw [if_neg hj'])
        (by simp) (by simpa using hcnt)
      generalize hg : flood nb k n [i] (fun j => if j = i then some k else m j) = g at hF ⊢
      have hM : Marks nb n g (k + 1) := by
        refine ⟨fun j x hj l hl => ?_, fun j x hj => ?_, fun a b x ha hb => ?_, fun x hx => ?_, fun j hj => ?_⟩
        · by_cases hx : x = k
          · subst hx
            exact (hF l).1.2 (((hF j).1.1 hj).tail hl)
          · have h1 : m j = some x := by rw [← (hF j).2.1 (by rw [hj]; simpa using hx), hj]
            exact (hF l).2.2 x (h.closed j x h1 l hl)
        · by_cases hx : x = k
          · omega
          · have h1 : m j = some x := by rw [← (hF j).2.1 (by rw [hj]; simpa using hx), hj]
            have := h.bound j x h1; omega
        · by_cases hx : x = k
          · subst hx
            exact (reach_symm hsym ((hF a).1.1 ha)).trans ((hF b).1.1 hb)
          · have h1 : m a = some x := by rw [← (hF a).2.1 (by rw [ha]; simpa using hx), ha]
            have h2 : m b = some x := by rw [← (hF b).2.1 (by rw [hb]; simpa using hx), hb]
            exact h.reach a b x h1 h2
        · by_cases hx' : x = k
          · exact ⟨i, hin, hx' ▸ (hF i).1.2 .refl⟩
          · obtain ⟨j, hj, hj'⟩ := h.used x (by omega)
            exact ⟨j, hj, (hF j).2.2 x hj'⟩
        · by_cases hk : g j = some k
          · exfalso
            have hr := (hF j).1.1 hk
            rcases ReflTransGen.cases_tail hr with e | ⟨l, -, hl⟩
            · omega
            · have := hlt l j hl; omega
          · rw [(hF j).2.1 hk]; exact h.range j hj
      obtain ⟨a, b, c⟩ := label_spec hnd hlt hsym is (g, k + 1) (fun j hj => hi j (by simp [hj])) hM
      refine ⟨a, fun j hj => ?_, fun j x hj => c j x ((hF j).2.2 x hj)⟩
      rcases List.mem_cons.1 hj with rfl | hj
      · rw [c _ _ ((hF _).1.2 .refl)]; simp
      · exact b j hj

end

theorem pairs_mem {X : Type} : ∀ {l : List X} {x y : X}, (x, y) ∈ pairs l → x ∈ l ∧ y ∈ l
  | [], _, _, h => by simp [pairs] at h
  | z :: l, x, y, h => by
    rw [pairs, List.mem_append, List.mem_map] at h
    rcases h with ⟨a, ha, e⟩ | h
    · simp only [Prod.mk.injEq] at e
      obtain ⟨rfl, rfl⟩ := e
      exact ⟨by simp, by simp [ha]⟩
    · exact ⟨List.mem_cons_of_mem _ (pairs_mem h).1, List.mem_cons_of_mem _ (pairs_mem h).2⟩

theorem mem_pairs {X : Type} : ∀ {l : List X} {x y : X}, x ∈ l → y ∈ l → x ≠ y → (x, y) ∈ pairs l ∨ (y, x) ∈ pairs l
  | [], _, _, h, _, _ => by simp at h
  | z :: l, x, y, hx, hy, hn => by
    rw [pairs]
    rcases List.mem_cons.1 hx with rfl | hx <;> rcases List.mem_cons.1 hy with rfl | hy
    · exact absurd rfl hn
    · left; simp [hy]
    · right; exact List.mem_append_left _ (List.mem_map.2 ⟨x, ‹x ∈ l›, rfl⟩)
    · rcases mem_pairs hx hy hn with h | h
      · left; simp [h]
      · right; simp [h]

theorem mem_facesOf {us : List ((Nat × Nat) × Nat)} {k : Nat × Nat} {f : Nat} : f ∈ facesOf us k ↔ (k, f) ∈ us := by
  unfold facesOf
  rw [List.mem_map]
  constructor
  · rintro ⟨⟨a, b⟩, h, rfl⟩
    simp only [List.mem_filter, decide_eq_true_eq] at h
    obtain ⟨h, rfl⟩ := h
    exact h
  · intro h
    exact ⟨(k, f), by simp [h], rfl⟩

theorem mem_neighbors {us : List ((Nat × Nat) × Nat)} {i j : Nat} : j ∈ neighbors us i ↔ (i, j) ∈ adjacent us ∨ (j, i) ∈ adjacent us := by
  unfold neighbors
  rw [List.mem_dedup, List.mem_flatMap]
  constructor
  · rintro ⟨⟨a, b⟩, h, h'⟩
    rw [List.mem_append] at h'
    rcases h' with h' | h' <;> dsimp only at h' <;> split at h' <;> simp at h' <;> subst_vars
    · exact .inl h
    · exact .inr h
  · rintro (h | h)
    · exact ⟨(i, j), h, by simp⟩
    · exact ⟨(j, i), h, by simp⟩

/-- neighbours use the same edge; triangles that use the same edge are the same or neighbours -/
theorem neighbors_spec {us : List ((Nat × Nat) × Nat)} {i j : Nat} : (j ∈ neighbors us i → ∃ k, (k, i) ∈ us ∧ (k, j) ∈ us) ∧
    ((∃ k, (k, i) ∈ us ∧ (k, j) ∈ us) → i ≠ j → j ∈ neighbors us i) := by
  rw [mem_neighbors]
  unfold adjacent
  simp only [List.mem_flatMap, List.mem_dedup, List.mem_map]
  constructor
  · rintro (⟨k, -, h⟩ | ⟨k, -, h⟩)
    · exact ⟨k, mem_facesOf.1 (pairs_mem h).1, mem_facesOf.1 (pairs_mem h).2⟩
    · exact ⟨k, mem_facesOf.1 (pairs_mem h).2, mem_facesOf.1 (pairs_mem h).1⟩
  · rintro ⟨k, h1, h2⟩ hn
    rcases mem_pairs (mem_facesOf.2 h1) (mem_facesOf.2 h2) hn with h | h
    · exact .inl ⟨k, ⟨_, h1, rfl⟩, h⟩
    · exact .inr ⟨k, ⟨_, h1, rfl⟩, h⟩

/-- two triangles use the same edge -/
def Share (us : List ((Nat × Nat) × Nat)) (i j : Nat) : Prop := ∃ k, (k, i) ∈ us ∧ (k, j) ∈ us

/-- the components found are those of the triangles connected through edges -/
theorem components_spec {us : List ((Nat × Nat) × Nat)} {n : Nat} (hlt : ∀ u ∈ us, u.2 < n) :
    (∀ i < n, ∃ x < (components us n).2, (components us n).1 i = some x) ∧ (∀ x < (components us n).2, ∃ i < n, (components us n).1 i = some x) ∧
      ∀ i < n, ∀ j < n, (components us n).1 i = (components us n).1 j ↔ ReflTransGen (Share us) i j := by
  have hsym : ∀ i j, j ∈ neighbors us i → i ∈ neighbors us j := fun i j h => by rw [mem_neighbors] at h ⊢; exact h.symm
  have hlt' : ∀ i, ∀ j ∈ neighbors us i, j < n := fun i j h => by
    obtain ⟨k, -, h⟩ := neighbors_spec.1 h
    exact hlt _ h
  have h0 : Marks (neighbors us) n (fun _ => none) 0 :=
    ⟨(fun _ _ h => by cases h), (fun _ _ h => by cases h), (fun _ _ _ h => by cases h), (fun _ h => absurd h (by omega)), fun _ _ => rfl⟩
  obtain ⟨hM, hall, -⟩ := label_spec (n := n) (fun i => List.nodup_dedup _) hlt' hsym (List.range n) (fun _ => none, 0) (by simp) h0
  change Marks (neighbors us) n (components us n).1 (components us n).2 at hM
  have hall' : ∀ i < n, ∃ x < (components us n).2, (components us n).1 i = some x := fun i hi => by
    have := hall i (by simpa using hi)
    obtain ⟨x, hx⟩ := Option.ne_none_iff_exists'.1 this
    exact ⟨x, hM.bound i x hx, hx⟩
  refine ⟨hall', hM.used, fun i hi j hj => ⟨fun h => ?_, fun h => ?_⟩⟩
  · obtain ⟨x, -, hx⟩ := hall' i hi
    exact ReflTransGen.mono (fun a b hab => neighbors_spec.1 hab) _ _ (hM.reach i j x hx (h ▸ hx))
  · obtain ⟨x, -, hx⟩ := hall' i hi
    have key : ∀ b, ReflTransGen (Share us) i b → (components us n).1 b = some x := by
      intro b hb
      induction hb with
      | refl => exact hx
      | @tail b c _ hbc ih =>
        by_cases hn : b = c
        · rw [← hn, ih]
        · exact hM.closed b x ih c (neighbors_spec.2 hbc hn)
    rw [hx, key j h]

end Verif.Step
