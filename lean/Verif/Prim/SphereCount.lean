import Verif.Prim.Sphere
import Mathlib.Algebra.BigOperators.Group.Finset.Basic
import Mathlib.Algebra.Order.BigOperators.Group.Finset

/-!
# Counting vertices: when no two vertices of the sphere were merged, its mesh is a closed surface facing outward
-/

namespace Verif.Prim
open Verif.Geom Verif.Surf Real

theorem count_bound (S : List (Nat × Nat)) (hs : ∀ s ∈ S, s.swap ∈ S) (m : Nat × Nat → Nat)
    (hm : ∀ s, m s.swap = m s) (A B : Nat) (hf : ∀ i, A ≤ i → i < B → ∃ s ∈ S, s.1 ≠ s.2 ∧ m s = i) :
    2 * (B - A) ≤ S.length ∧
    (2 * (B - A) = S.length → (∀ s ∈ S, s.1 ≠ s.2) → ∀ s ∈ S, A ≤ m s ∧ m s < B ∧ ∀ t ∈ S, m t = m s → t = s ∨ t = s.swap) := by
  classical
  set F := S.toFinset with hF
  have cF : F.card ≤ S.length := List.toFinset_card_le S
  set I := Finset.Ico A B with hI
  have cI : I.card = B - A := by rw [hI, Nat.card_Ico]
  set F' := F.filter fun s => m s ∈ I with hF'
  have cF' : F'.card ≤ F.card := Finset.card_filter_le _ _
  have hne : ∀ s : Nat × Nat, s.1 ≠ s.2 → s ≠ s.swap := fun s h e => h (congrArg Prod.fst e)
  have fib : ∀ i ∈ I, ∀ s ∈ S, m s = i → ({s, s.swap} : Finset (Nat × Nat)) ⊆ F'.filter fun t => m t = i := by
    intro i hi s h e t ht
    simp only [Finset.mem_insert, Finset.mem_singleton] at ht
    have e' : m t = i := by rcases ht with rfl | rfl <;> simp [hm, e]
    have ht' : t ∈ S := by rcases ht with rfl | rfl; exacts [h, hs _ h]
    simp only [hF', hF, Finset.mem_filter, List.mem_toFinset]
    exact ⟨⟨ht', by rw [e']; exact hi⟩, e'⟩
  have two : ∀ i ∈ I, 2 ≤ (F'.filter fun t => m t = i).card := by
    intro i hi
    obtain ⟨s, h, hd, e⟩ := hf i (Finset.mem_Ico.mp hi).1 (Finset.mem_Ico.mp hi).2
    have := Finset.card_le_card (fib i hi s h e)
    rwa [Finset.card_pair (hne s hd)] at this
  have sum : F'.card = ∑ i ∈ I, (F'.filter fun t => m t = i).card :=
    Finset.card_eq_sum_card_fiberwise (fun s h => by
      have := (Finset.mem_filter.mp h).2; exact this)
  have low : 2 * (B - A) ≤ F'.card := by
    rw [sum, ← cI, mul_comm]
    have := Finset.card_nsmul_le_sum I (fun i => (F'.filter fun t => m t = i).card) 2 two
    simpa using this
  refine ⟨by omega, fun heq hd s h => ?_⟩
  have eF : F' = F := Finset.eq_of_subset_of_card_le (Finset.filter_subset _ _) (by omega)
  have hsI : m s ∈ I := by
    have : s ∈ F' := by rw [eF, hF]; simpa using h
    exact (Finset.mem_filter.mp this).2
  refine ⟨(Finset.mem_Ico.mp hsI).1, (Finset.mem_Ico.mp hsI).2, fun t ht e => ?_⟩
  have hall : ∀ i ∈ I, 2 = (F'.filter fun t => m t = i).card := by
    have h2 : ∑ _i ∈ I, 2 = ∑ i ∈ I, (F'.filter fun t => m t = i).card := by
      rw [← sum, Finset.sum_const, cI, smul_eq_mul]; omega
    exact (Finset.sum_eq_sum_iff_of_le two).mp h2
  have hp : ({s, s.swap} : Finset (Nat × Nat)) = F'.filter fun t => m t = m s := by
    refine Finset.eq_of_subset_of_card_le (fib _ hsI s h rfl) ?_
    rw [← hall _ hsI, Finset.card_pair (hne s (hd s h))]
  have : t ∈ F'.filter fun t => m t = m s := by
    simp only [Finset.mem_filter]
    exact ⟨by rw [eF, hF]; simpa using ht, e⟩
  rw [← hp] at this
  simpa using this

/-! ## faces facing outward -/

/-- the corners exist and run counter-clockwise seen from outside (from the side away from the origin) -/
def Outward (vs : List V4) (f : Face) : Prop :=
  ∃ u v w, vs[f.1]? = some u ∧ vs[f.2.1]? = some v ∧ vs[f.2.2]? = some w ∧ 0 < det3 u v w

theorem outward_later {fmt : ℝ → String} {b c : Build} (h : Later fmt b c) {f : Face} (hf : Outward b.vs f) : Outward c.vs f := by
  obtain ⟨u, v, w, h1, h2, h3, h4⟩ := hf
  exact ⟨u, v, w, h.get h1, h.get h2, h.get h3, h4⟩

theorem det_mid (r : ℝ) (u v w : V4) :
    det3 u (mid r u v) (mid r w u) = (r / mag (add u v)) * (r / mag (add w u)) * det3 u v w ∧
    det3 (mid r u v) (mid r v w) (mid r w u) = (r / mag (add u v)) * (r / mag (add v w)) * (r / mag (add w u)) * (2 * det3 u v w) := by
  constructor <;> (unfold mid scale3 det3 add; simp only; ring)

theorem det_rot (u v w : V4) : det3 v w u = det3 u v w := by unfold det3; ring
theorem det_rev (u v w : V4) : det3 u w v = - det3 u v w := by unfold det3; ring

/-- a face with a given side, rotated so that the side comes first -/
theorem side_face {fs : List Face} {vs : List V4} (ho : ∀ f ∈ fs, Outward vs f) {s : Nat × Nat} {f : Face} (hf : f ∈ fs) (h : s ∈ lSides [f]) :
    ∃ k, Outward vs (s.1, s.2, k) ∧ (f = (s.1, s.2, k) ∨ f = (k, s.1, s.2) ∨ f = (s.2, k, s.1)) := by
  obtain ⟨u, v, w, h1, h2, h3, h4⟩ := ho f hf
  obtain ⟨i, j, k⟩ := f
  simp only [lSides, List.flatMap_cons, List.flatMap_nil, List.append_nil, List.mem_cons, List.not_mem_nil, or_false] at h
  rcases h with rfl | rfl | rfl
  · exact ⟨k, ⟨u, v, w, h1, h2, h3, h4⟩, Or.inl rfl⟩
  · exact ⟨i, ⟨v, w, u, h2, h3, h1, by rw [det_rot]; exact h4⟩, Or.inr (Or.inl rfl)⟩
  · exact ⟨j, ⟨w, u, v, h3, h1, h2, by rw [det_rot, det_rot]; exact h4⟩, Or.inr (Or.inr rfl)⟩

/-- a mesh: every side used once in each direction, faces facing outward -/
structure Shell (vs : List V4) (fs : List Face) : Prop where
  nodup : (lSides fs).Nodup
  swap : ((lSides fs).map Prod.swap).Perm (lSides fs)
  out : ∀ f ∈ fs, Outward vs f

theorem Shell.back {vs : List V4} {fs : List Face} (h : Shell vs fs) {s : Nat × Nat} (hs : s ∈ lSides fs) : s.swap ∈ lSides fs :=
  h.swap.mem_iff.mp (List.mem_map.mpr ⟨s, hs, rfl⟩)

theorem outward_ne {vs : List V4} {f : Face} (h : Outward vs f) : ∀ s ∈ lSides [f], s.1 ≠ s.2 := by
  obtain ⟨u, v, w, h1, h2, h3, h4⟩ := h
  intro s hs e
  simp only [lSides, List.flatMap_cons, List.flatMap_nil, List.append_nil, List.mem_cons, List.not_mem_nil, or_false] at hs
  rcases hs with rfl | rfl | rfl
  · simp only at e; rw [e, h2] at h1; injection h1 with h1; subst h1; unfold det3 at h4; apply absurd h4; rw [not_lt]; apply le_of_eq; ring
  · simp only at e; rw [e, h3] at h2; injection h2 with h2; subst h2; unfold det3 at h4; apply absurd h4; rw [not_lt]; apply le_of_eq; ring
  · simp only at e; rw [e, h1] at h3; injection h3 with h3; subst h3; unfold det3 at h4; apply absurd h4; rw [not_lt]; apply le_of_eq; ring

theorem Shell.ne {vs : List V4} {fs : List Face} (h : Shell vs fs) {s : Nat × Nat} (hs : s ∈ lSides fs) : s.1 ≠ s.2 := by
  obtain ⟨f, hf, h'⟩ := List.mem_flatMap.mp hs
  exact outward_ne (h.out f hf) s (by simpa [lSides] using h')

theorem lSides_length (fs : List Face) : (lSides fs).length = 3 * fs.length := by
  induction fs with
  | nil => rfl
  | cons f fs ih => simp [lSides] at ih ⊢; omega

/-- the sides of a face other than a given one determine the face: two faces that have two sides in common, in opposite
directions, would face opposite ways -/
theorem no_pillow {vs : List V4} {fs : List Face} (h : Shell vs fs) {f g : Face} (hf : f ∈ fs) (hg : g ∈ fs) {i j k : Nat}
    (h1 : (i, j) ∈ lSides [f]) (h2 : (j, k) ∈ lSides [f]) (h3 : (j, i) ∈ lSides [g]) (h4 : (k, j) ∈ lSides [g]) : False := by
  have nf := outward_ne (h.out f hf)
  have ng := outward_ne (h.out g hg)
  obtain ⟨u, v, w, a1, a2, a3, a4⟩ := h.out f hf
  obtain ⟨u', v', w', b1, b2, b3, b4⟩ := h.out g hg
  obtain ⟨f1, f2, f3⟩ := f
  obtain ⟨g1, g2, g3⟩ := g
  have n1 := nf (f1, f2) (by simp [lSides])
  have n2 := nf (f2, f3) (by simp [lSides])
  have n3 := nf (f3, f1) (by simp [lSides])
  have m1 := ng (g1, g2) (by simp [lSides])
  have m2 := ng (g2, g3) (by simp [lSides])
  have m3 := ng (g3, g1) (by simp [lSides])
  simp only [lSides, List.flatMap_cons, List.flatMap_nil, List.append_nil, List.mem_cons, List.not_mem_nil, or_false, Prod.mk.injEq] at *
  have hkey : (g1 = f1 ∧ g2 = f3 ∧ g3 = f2) ∨ (g1 = f2 ∧ g2 = f1 ∧ g3 = f3) ∨ (g1 = f3 ∧ g2 = f2 ∧ g3 = f1) := by omega
  have inj : ∀ {x y : V4} {q : Nat}, vs[q]? = some x → vs[q]? = some y → x = y := fun h h' => by rw [h] at h'; injection h'
  rcases hkey with ⟨e1, e2, e3⟩ | ⟨e1, e2, e3⟩ | ⟨e1, e2, e3⟩ <;> rw [e1] at b1 <;> rw [e2] at b2 <;> rw [e3] at b3
  · rw [inj b1 a1, inj b2 a3, inj b3 a2, det_rev] at b4; linarith
  · rw [inj b1 a2, inj b2 a1, inj b3 a3, det_rev, det_rot] at b4
    linarith
  · rw [inj b1 a3, inj b2 a2, inj b3 a1, det_rev, ← det_rot] at b4
    have := det_rot u v w
    have := det_rot w u v
    linarith

/-- the face a side belongs to is unique -/
theorem Shell.face {vs : List V4} {fs : List Face} (h : Shell vs fs) {f g : Face} (hf : f ∈ fs) (hg : g ∈ fs) {s : Nat × Nat}
    (h1 : s ∈ lSides [f]) (h2 : s ∈ lSides [g]) : f = g := by
  by_contra hne
  have hp := List.nodup_flatMap.mp h.nodup
  haveI : Std.Symm (Function.onFun List.Disjoint fun f : Face => [(f.1, f.2.1), (f.2.1, f.2.2), (f.2.2, f.1)]) := ⟨fun f g h => List.Disjoint.symm h⟩
  exact hp.2.forall hf hg hne (by simpa [lSides] using h1) (by simpa [lSides] using h2)

theorem mem_inner {m : Nat × Nat → Nat} {f : Face} {x : Nat × Nat} (h : x ∈ inner m f) :
    ∃ s ∈ lSides [f], ∃ t ∈ lSides [f], (s.2 = t.1 ∨ t.2 = s.1) ∧ x = (m s, m t) := by
  obtain ⟨i, j, k⟩ := f
  simp only [inner, List.mem_cons, List.not_mem_nil, or_false] at h
  rcases h with rfl | rfl | rfl | rfl | rfl | rfl
  · exact ⟨(i, j), by simp [lSides], (j, k), by simp [lSides], Or.inl rfl, rfl⟩
  · exact ⟨(j, k), by simp [lSides], (i, j), by simp [lSides], Or.inr rfl, rfl⟩
  · exact ⟨(j, k), by simp [lSides], (k, i), by simp [lSides], Or.inl rfl, rfl⟩
  · exact ⟨(k, i), by simp [lSides], (j, k), by simp [lSides], Or.inr rfl, rfl⟩
  · exact ⟨(k, i), by simp [lSides], (i, j), by simp [lSides], Or.inl rfl, rfl⟩
  · exact ⟨(i, j), by simp [lSides], (k, i), by simp [lSides], Or.inr rfl, rfl⟩

theorem side_of_face {fs : List Face} {f : Face} (hf : f ∈ fs) {s : Nat × Nat} (h : s ∈ lSides [f]) : s ∈ lSides fs :=
  List.mem_flatMap.mpr ⟨f, hf, by simpa [lSides] using h⟩

/-- if every side has a middle of its own, the next round gives a shell again -/
theorem shell_split {vs ws : List V4} {fs : List Face} {r : ℝ} (h : Shell vs fs) (hr : 0 < r) (m : Nat × Nat → Nat) (hm : ∀ s, m s.swap = m s) (A : Nat)
    (hlt : ∀ s ∈ lSides fs, s.1 < A ∧ s.2 < A)
    (hown : ∀ s ∈ lSides fs, A ≤ m s ∧ ∀ t ∈ lSides fs, m t = m s → t = s ∨ t = s.swap)
    (hold : ∀ (i : Nat) v, vs[i]? = some v → ws[i]? = some v) (hok : ∀ f ∈ fs, FaceOk vs f) (hon : ∀ v ∈ vs, OnBall r v)
    (hmid : ∀ s ∈ lSides fs, ∀ u v, vs[s.1]? = some u → vs[s.2]? = some v → ws[m s]? = some (mid r u v)) :
    Shell ws (fs.flatMap (split m)) := by
  refine ⟨?_, balanced_split m hm fs h.swap, ?_⟩
  · rw [(split_sides m fs).nodup_iff, List.nodup_append']
    refine ⟨?_, ?_, ?_⟩
    · rw [List.nodup_flatMap]
      refine ⟨fun s hs => ?_, ?_⟩
      · have h1 := hlt s hs
        have h2 := (hown s hs).1
        simp only [halves, List.nodup_cons, List.mem_singleton, Prod.mk.injEq, List.not_mem_nil, not_false_eq_true, List.nodup_nil, and_true]
        omega
      · refine List.Pairwise.imp_of_mem ?_ h.nodup
        intro s t hs ht hne x hx hy
        have h1 := hlt s hs
        have h2 := hown s hs
        have h3 := hlt t ht
        have h4 := hown t ht
        have hms : m t ≠ m s := by
          intro e
          rcases h2.2 t ht e with rfl | rfl
          · exact hne rfl
          · have hne := h.ne hs
            simp only [halves, List.mem_cons, List.not_mem_nil, or_false, Prod.fst_swap, Prod.snd_swap] at hx hy
            rcases hx with rfl | rfl <;> simp only [Prod.mk.injEq] at hy <;> omega
        simp only [halves, List.mem_cons, List.not_mem_nil, or_false] at hx hy
        rcases hx with rfl | rfl <;> simp only [Prod.mk.injEq] at hy <;> omega
    · rw [List.nodup_flatMap]
      refine ⟨fun f hf => ?_, ?_⟩
      · have hne := outward_ne (h.out f hf)
        obtain ⟨i, j, k⟩ := f
        have n1 := hne (i, j) (by simp [lSides])
        have n2 := hne (j, k) (by simp [lSides])
        have n3 := hne (k, i) (by simp [lSides])
        have s1 : (i, j) ∈ lSides fs := side_of_face hf (by simp [lSides])
        have s2 : (j, k) ∈ lSides fs := side_of_face hf (by simp [lSides])
        have s3 : (k, i) ∈ lSides fs := side_of_face hf (by simp [lSides])
        have d1 : m (i, j) ≠ m (j, k) := by
          intro e
          have := (hown _ s2).2 _ s1 e
          simp only [Prod.swap_prod_mk, Prod.mk.injEq] at this
          simp only at n1 n2 n3
          omega
        have d2 : m (j, k) ≠ m (k, i) := by
          intro e
          have := (hown _ s3).2 _ s2 e
          simp only [Prod.swap_prod_mk, Prod.mk.injEq] at this
          simp only at n1 n2 n3
          omega
        have d3 : m (k, i) ≠ m (i, j) := by
          intro e
          have := (hown _ s1).2 _ s3 e
          simp only [Prod.swap_prod_mk, Prod.mk.injEq] at this
          simp only at n1 n2 n3
          omega
        simp only [inner]
        generalize m (i, j) = a at *
        generalize m (j, k) = b at *
        generalize m (k, i) = c at *
        simp [Prod.mk.injEq, d1, d2, d3, d1.symm, d2.symm, d3.symm]
      · refine List.Pairwise.imp_of_mem ?_ (List.nodup_flatMap.mp h.nodup).2
        intro f g hf hg hdis x hx hy
        obtain ⟨s, hs, t, ht, hst, e1⟩ := mem_inner hx
        obtain ⟨s', hs', t', ht', -, e2⟩ := mem_inner hy
        rw [e1, Prod.mk.injEq] at e2
        have hdis' : ∀ y, y ∈ lSides [f] → y ∈ lSides [g] → False := fun y h1 h2 =>
          hdis (by simpa [lSides] using h1) (by simpa [lSides] using h2)
        have es : s' = s.swap := by
          rcases (hown s (side_of_face hf hs)).2 s' (side_of_face hg hs') e2.1.symm with rfl | e
          · exact (hdis' _ hs hs').elim
          · exact e
        have et : t' = t.swap := by
          rcases (hown t (side_of_face hf ht)).2 t' (side_of_face hg ht') e2.2.symm with rfl | e
          · exact (hdis' _ ht ht').elim
          · exact e
        subst es et
        obtain ⟨i, j⟩ := s
        obtain ⟨k, l⟩ := t
        simp only at hst
        rcases hst with rfl | rfl
        · exact no_pillow h hf hg hs ht hs' ht'
        · exact no_pillow h hf hg ht hs ht' hs'
    · intro x hx hy
      obtain ⟨s, hs, hx⟩ := List.mem_flatMap.mp hx
      obtain ⟨f, hf, hy⟩ := List.mem_flatMap.mp hy
      obtain ⟨s', hs', t', ht', -, rfl⟩ := mem_inner hy
      have h1 := (hown s' (side_of_face hf hs')).1
      have h2 := (hown t' (side_of_face hf ht')).1
      have h3 := hlt s hs
      simp only [halves, List.mem_cons, List.not_mem_nil, or_false, Prod.mk.injEq] at hx
      omega
  · intro g hg
    obtain ⟨f, hf, hg⟩ := List.mem_flatMap.mp hg
    obtain ⟨u, v, w, a1, a2, a3, a4⟩ := h.out f hf
    obtain ⟨u', v', w', b1, b2, b3, d1, d2, d3⟩ := hok f hf
    rw [a1] at b1; injection b1 with b1; subst b1
    rw [a2] at b2; injection b2 with b2; subst b2
    rw [a3] at b3; injection b3 with b3; subst b3
    have ou := hon u (List.mem_of_getElem? a1)
    have ov := hon v (List.mem_of_getElem? a2)
    have ow := hon w (List.mem_of_getElem? a3)
    have k1 := hmid _ (side_of_face hf (by simp [lSides] : (f.1, f.2.1) ∈ lSides [f])) u v a1 a2
    have k2 := hmid _ (side_of_face hf (by simp [lSides] : (f.2.1, f.2.2) ∈ lSides [f])) v w a2 a3
    have k3 := hmid _ (side_of_face hf (by simp [lSides] : (f.2.2, f.1) ∈ lSides [f])) w u a3 a1
    have p1 : 0 < r / mag (add u v) := div_pos hr (by linarith [(add_mag_bounds hr ou ov d1).1])
    have p2 : 0 < r / mag (add v w) := div_pos hr (by linarith [(add_mag_bounds hr ov ow d2).1])
    have p3 : 0 < r / mag (add w u) := div_pos hr (by linarith [(add_mag_bounds hr ow ou d3).1])
    simp only [split, List.mem_cons, List.not_mem_nil, or_false] at hg
    rcases hg with rfl | rfl | rfl | rfl
    · exact ⟨_, _, _, hold _ _ a1, k1, k3, by rw [(det_mid r u v w).1]; positivity⟩
    · refine ⟨_, _, _, k1, hold _ _ a2, k2, ?_⟩
      rw [← det_rot, (det_mid r v w u).1, det_rot]; positivity
    · refine ⟨_, _, _, k2, hold _ _ a3, k3, ?_⟩
      rw [← det_rot, (det_mid r w u v).1, det_rot, det_rot]; positivity
    · exact ⟨_, _, _, k1, k2, k3, by rw [(det_mid r u v w).2]; positivity⟩

/-! ## all rounds -/

theorem split_length (m : Nat × Nat → Nat) (fs : List Face) : (fs.flatMap (split m)).length = 4 * fs.length := by
  induction fs with
  | nil => rfl
  | cons f fs ih => rw [List.flatMap_cons, List.length_append, ih]; simp [split]; ring

theorem faceOk_lt {vs : List V4} {fs : List Face} (h : ∀ f ∈ fs, FaceOk vs f) : ∀ s ∈ lSides fs, s.1 < vs.length ∧ s.2 < vs.length := by
  intro s hs
  obtain ⟨f, hf, hs⟩ := List.mem_flatMap.mp hs
  obtain ⟨u, v, w, h1, h2, h3, -⟩ := h f hf
  have l1 := (List.getElem?_eq_some_iff.mp h1).1
  have l2 := (List.getElem?_eq_some_iff.mp h2).1
  have l3 := (List.getElem?_eq_some_iff.mp h3).1
  simp only [List.mem_cons, List.not_mem_nil, or_false] at hs
  rcases hs with rfl | rfl | rfl
  exacts [⟨l1, l2⟩, ⟨l2, l3⟩, ⟨l3, l1⟩]

/-- a side from a vertex to itself only occurs at vertices in the table -/
def LateLoops (fs : List Face) : Prop := ∀ s ∈ lSides fs, s.1 = s.2 → 12 ≤ s.1

theorem mid_self {r : ℝ} (hr : 0 < r) {u : V4} (hu : OnBall r u) : mid r u u = u := by
  have hm : mag (add u u) = 2 * r := by
    have h : mag (add u u) ^ 2 = (2 * r) ^ 2 := by
      rw [mag_sq]
      simp only [add]
      linear_combination 4 * hu.1
    exact (pow_left_inj₀ (mag_nonneg _) (by linarith) two_ne_zero).mp h
  unfold mid
  rw [hm]
  unfold scale3 add
  ext <;> simp only
  · field_simp; ring
  · field_simp; ring
  · field_simp; ring
  · exact hu.2.symm

/-- one round: at most one new vertex per side; if there are as many as that, the result is a shell -/
theorem round_count (fmt : ℝ → String) {me : Nat} {r : ℝ} (hr : 8 * eps < r) (fs : List Face) {b c : Build} (h : Good fmt me r b)
    (hok : ∀ f ∈ fs, FaceOk b.vs f) (hsw : ((lSides fs).map Prod.swap).Perm (lSides fs)) (hlp : LateLoops fs) (hl : Later fmt b c)
    (hf : Fresh fmt r b c (lSides fs)) :
    2 * c.vs.length ≤ 2 * b.vs.length + 3 * fs.length ∧
    (2 * c.vs.length = 2 * b.vs.length + 3 * fs.length → Shell b.vs fs → Shell c.vs (fs.flatMap (split (mids fmt r c)))) := by
  have he : 0 < eps := by unfold eps; norm_num
  have hr0 : 0 < r := by linarith
  have hms : ∀ s, mids fmt r c s.swap = mids fmt r c s := fun s => by unfold mids; rw [middle_swap]
  have hle : b.vs.length ≤ c.vs.length := by obtain ⟨⟨x, hx⟩, -⟩ := hl; rw [hx]; simp
  have hback : ∀ s ∈ lSides fs, s.swap ∈ lSides fs := fun s hs => hsw.mem_iff.mp (List.mem_map.mpr ⟨s, hs, rfl⟩)
  obtain ⟨c1, c2⟩ := count_bound (lSides fs) hback (mids fmt r c) hms
    b.vs.length c.vs.length (fun i h1 h2 => by
      obtain ⟨s, hs, u, v, g1, g2, h3, -⟩ := hf i h1 h2
      refine ⟨s, hs, ?_, by unfold mids; rw [h3]; rfl⟩
      intro e
      have hs12 := hlp s hs e
      have hlt := (faceOk_lt hok s hs).1
      have hu := List.getElem?_eq_getElem hlt
      obtain ⟨k, hk⟩ := h.tabled.known s.1 _ hs12 hu
      have ek : middle fmt r b s = some k := by
        unfold middle
        rw [← e, hu]
        simp only
        rw [mid_self hr0 (h.round.on _ (List.getElem_mem hlt))]
        exact hk
      have := middle_later hl ek
      rw [h3] at this
      injection this with this
      have hv : k < b.vs.length := by
        have := hk
        unfold look at this
        cases hh : b.tab.hash (vkey fmt b.vs[s.1]) with
        | none => rw [hh] at this; cases this
        | some is =>
          rw [hh] at this
          exact h.sound.valid _ _ hh k (scan_some this).1
      omega)
  rw [lSides_length] at c1 c2
  refine ⟨by omega, fun e hsh => ?_⟩
  have c3 := c2 (by omega) (fun s hs => hsh.ne hs)
  refine shell_split hsh hr0 _ hms b.vs.length (faceOk_lt hok) (fun s hs => ⟨(c3 s hs).1, (c3 s hs).2.2⟩) (fun i v hv => hl.get hv) hok h.round.on ?_
  intro s hs u v hu hv
  obtain ⟨k1, k2, k3⟩ := c3 s hs
  obtain ⟨t, ht, u', v', g1, g2, g3, g4⟩ := hf _ k1 k2
  have et : mids fmt r c t = mids fmt r c s := by
    conv_lhs => unfold mids
    rw [g3]
    rfl
  rw [g4]
  have hu' := hl.get hu
  have hv' := hl.get hv
  rcases k3 t ht et with rfl | rfl
  · rw [hu'] at g1; rw [hv'] at g2
    injection g1 with g1; injection g2 with g2
    rw [g1, g2]
  · simp only [Prod.fst_swap, Prod.snd_swap] at g1 g2
    rw [hv'] at g1; rw [hu'] at g2
    injection g1 with g1; injection g2 with g2
    rw [← g1, ← g2, mid_comm]

theorem loops_split {fmt : ℝ → String} {r : ℝ} {c : Build} (ht : Tabled fmt c) {fs : List Face}
    (hc : ∀ s ∈ lSides fs, ∃ m, middle fmt r c s = some m) : LateLoops (fs.flatMap (split (mids fmt r c))) := by
  have late : ∀ s ∈ lSides fs, 12 ≤ mids fmt r c s := by
    intro s hs
    obtain ⟨m, hm⟩ := hc s hs
    unfold mids
    rw [hm]
    unfold middle at hm
    split at hm
    · exact look_late ht hm
    · cases hm
  intro s hs e
  rw [(split_sides _ fs).mem_iff] at hs
  rcases List.mem_append.mp hs with hs | hs
  · obtain ⟨t, ht, hs⟩ := List.mem_flatMap.mp hs
    have := late t ht
    simp only [halves, List.mem_cons, List.not_mem_nil, or_false] at hs
    rcases hs with rfl | rfl
    · simp only at e ⊢; omega
    · exact this
  · obtain ⟨f, hf, hs⟩ := List.mem_flatMap.mp hs
    obtain ⟨a, ha, -, -, -, rfl⟩ := mem_inner hs
    exact late a (side_of_face hf ha)

/-- all rounds: at most one new vertex per side in each round, and if there are as many as that, the result is a shell -/
theorem rounds_count (fmt : ℝ → String) {me : Nat} {r : ℝ} (hr : 8 * eps < r) (d : Nat) : ∀ (fs : List Face) {b c : Build} {gs : List Face},
    Good fmt me r b → (∀ f ∈ fs, FaceOk b.vs f) → ((lSides fs).map Prod.swap).Perm (lSides fs) → LateLoops fs →
    rounds fmt me r d b fs = .ok (c, gs) →
    2 * c.vs.length ≤ 2 * b.vs.length + (4 ^ d - 1) * fs.length ∧
    (2 * c.vs.length = 2 * b.vs.length + (4 ^ d - 1) * fs.length → Shell b.vs fs → Shell c.vs gs) := by
  induction d with
  | zero =>
    intro fs b c gs _ _ _ _ e
    unfold rounds at e
    injection e with e
    injection e with e1 e2
    subst e1 e2
    exact ⟨by simp, fun _ h => h⟩
  | succ d ih =>
    intro fs b c gs h hok hsw hlp e
    obtain ⟨b1, e1, g1, l1, m1, f1, n1⟩ := subdivideAll_ok fmt hr fs h hok
    obtain ⟨c1, c2⟩ := round_count fmt hr fs h hok hsw hlp l1 n1
    unfold rounds at e
    rw [e1] at e
    obtain ⟨i1, i2⟩ := ih _ g1 f1 (balanced_split _ (fun s => by unfold mids; rw [middle_swap]) fs hsw) (loops_split g1.tabled m1) e
    rw [split_length] at i1 i2
    have hp : 1 ≤ 4 ^ d := Nat.one_le_pow _ _ (by norm_num)
    have e4 : (4 ^ (d + 1) - 1) * fs.length = (4 ^ d - 1) * (4 * fs.length) + 3 * fs.length := by
      obtain ⟨k, hk⟩ : ∃ k, 4 ^ d = k + 1 := ⟨4 ^ d - 1, by omega⟩
      rw [pow_succ, hk]
      have : (k + 1) * 4 - 1 = 4 * k + 3 := by omega
      rw [this]
      simp only [Nat.add_sub_cancel]
      ring
    rw [e4]
    exact ⟨by omega, fun eq hsh => i2 (by omega) (c2 (by omega) hsh)⟩

end Verif.Prim
