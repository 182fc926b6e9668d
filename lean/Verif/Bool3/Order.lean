import Verif.Bool3.Contains
import Mathlib.Data.Rat.Lemmas
import Mathlib.Data.List.Perm.Basic

/-!
# Points in solids: the order of the triangles, and the cases where the answer is wrong (C267, C269, C270)
-/

namespace Verif.Bool3
open Verif.Valid (V vsub vadd smul dot cross Box Tri hull)

section field
variable {K : Type} [Field K] [LinearOrder K] [IsStrictOrderedRing K]

/-! ## the order of the triangles does not matter -/

/-- the hit of a triangle that counts -/
def hitOf (tol len : K) (o d : V K) (t : Tri K) : Option K := (rayTri o d t tol).bind fun r => if r < -tol ∨ r > len + tol then none else some r

omit [IsStrictOrderedRing K] in
theorem scan_eq {tol len : K} {o d : V K} : ∀ (ts : List (Tri K)), (∀ t ∈ ts, ¬ degenerate t) → ∀ hits,
    scan tol len o d hits ts = .ok (if ∃ t ∈ ts, ∃ r, hitOf tol len o d t = some r ∧ r ≤ tol then none
      else some (hits ++ ts.filterMap fun t => (hitOf tol len o d t).map fun r => (r, sign d t)))
  | [], _, hits => by simp [scan]
  | t :: ts, hd, hits => by
    have ih := fun h => scan_eq (tol := tol) (len := len) (o := o) (d := d) ts (fun t ht => hd t (.tail _ ht)) h
    have hnone : hitOf tol len o d t = none → ∀ h, scan tol len o d h (t :: ts) = scan tol len o d h ts → scan tol len o d h (t :: ts) =
        .ok (if ∃ t' ∈ t :: ts, ∃ r, hitOf tol len o d t' = some r ∧ r ≤ tol then none
          else some (h ++ (t :: ts).filterMap fun t => (hitOf tol len o d t).map fun r => (r, sign d t))) := by
      intro hh h he
      have hiff : (∃ t' ∈ t :: ts, ∃ r, hitOf tol len o d t' = some r ∧ r ≤ tol) ↔ ∃ t' ∈ ts, ∃ r, hitOf tol len o d t' = some r ∧ r ≤ tol := by
        simp only [List.mem_cons, exists_eq_or_imp, hh]
        simp
      rw [he, ih h, List.filterMap_cons, hh]
      by_cases hx : ∃ t' ∈ ts, ∃ r, hitOf tol len o d t' = some r ∧ r ≤ tol
      · rw [if_pos hx, if_pos (hiff.2 hx)]
      · rw [if_neg hx, if_neg fun h => hx (hiff.1 h)]
        rfl
    rw [scan]
    cases hr : rayTri o d t tol with
    | none =>
      have hh : hitOf tol len o d t = none := by unfold hitOf; rw [hr]; rfl
      have := hnone hh hits (by rw [scan, hr])
      rw [scan, hr] at this
      exact this
    | some r =>
      dsimp only
      by_cases h1 : r < -tol ∨ r > len + tol
      · have hh : hitOf tol len o d t = none := by unfold hitOf; rw [hr]; simp only [Option.bind_some, if_pos h1]
        have := hnone hh hits (by rw [scan, hr]; dsimp only; rw [if_pos h1])
        rw [scan, hr] at this
        exact this
      · have hh : hitOf tol len o d t = some r := by unfold hitOf; rw [hr]; simp only [Option.bind_some, if_neg h1]
        rw [if_neg h1]
        by_cases h2 : r ≤ tol
        · rw [if_pos h2, if_pos ⟨t, by simp, r, hh, h2⟩]
        · rw [if_neg h2, if_neg (hd t (by simp)), ih (hits ++ [(r, sign d t)])]
          have : (∃ t' ∈ t :: ts, ∃ r, hitOf tol len o d t' = some r ∧ r ≤ tol) ↔ ∃ t' ∈ ts, ∃ r, hitOf tol len o d t' = some r ∧ r ≤ tol := by
            simp only [List.mem_cons, exists_eq_or_imp]
            constructor
            · rintro (⟨r', h, h'⟩ | h)
              · rw [hh] at h; cases h; exact absurd h' h2
              · exact h
            · exact .inr
          simp only [this]
          simp [hh]

/-- two neighbours at the same place can be swapped -/
theorem groupSums_swap {tol : K} (ht : 0 ≤ tol) {a b : K × ℤ} (hab : a.1 = b.1) (l : List (K × ℤ)) (r : K) (s : ℤ) :
    groupSums tol r s (a :: b :: l) = groupSums tol r s (b :: a :: l) := by
  simp only [groupSums, hab, sub_self, abs_zero, if_pos ht]
  split
  · rw [show s + a.2 + b.2 = s + b.2 + a.2 by ring]
  · rw [add_comm]

/-- sorted lists with the same hits give the same groups -/
theorem groupSums_perm {tol : K} (ht : 0 ≤ tol) : ∀ {l m : List (K × ℤ)}, l.Perm m → (l.Pairwise fun a b => a.1 ≤ b.1) → (m.Pairwise fun a b => a.1 ≤ b.1) →
    ∀ r s, groupSums tol r s l = groupSums tol r s m := by
  intro l
  induction l with
  | nil => intro m hp _ _ r s; rw [List.nil_perm.1 hp]
  | cons a l ih =>
    intro m hp hl hm r s
    -- move `a` to the front of `m`
    have key : ∀ (m : List (K × ℤ)), a ∈ m → (m.Pairwise fun x y => x.1 ≤ y.1) → (∀ x ∈ m, a.1 ≤ x.1) → ∀ r s, groupSums tol r s m = groupSums tol r s (a :: m.erase a) := by
      intro m
      induction m with
      | nil => intro h; nomatch h
      | cons x m ihm =>
        intro hmem hpw hle r s
        by_cases hx : x = a
        · subst hx; simp
        · have ham : a ∈ m := (List.mem_cons.1 hmem).resolve_left fun h => hx h.symm
          have hxa : x.1 = a.1 := le_antisymm ((List.pairwise_cons.1 hpw).1 a ham) (hle x (by simp))
          rw [List.erase_cons_tail (by simpa using hx)]
          rw [← groupSums_swap ht hxa]
          have := ihm ham (List.pairwise_cons.1 hpw).2 fun y hy => hle y (.tail _ hy)
          rw [groupSums]
          conv_rhs => rw [groupSums]
          rw [this, this]
    have ham : a ∈ m := hp.subset (by simp)
    have hle : ∀ x ∈ m, a.1 ≤ x.1 := by
      intro x hx
      rcases List.mem_cons.1 (hp.symm.subset hx) with rfl | h
      · exact le_refl _
      · exact (List.pairwise_cons.1 hl).1 x h
    rw [key m ham hm hle]
    have hp' : l.Perm (m.erase a) := by simpa using hp.erase a
    have hm' : (m.erase a).Pairwise fun a b => a.1 ≤ b.1 := hm.sublist List.erase_sublist
    have := ih hp' (List.pairwise_cons.1 hl).2 hm'
    rw [groupSums, groupSums, this, this]

theorem sorted_hits (l : List (K × ℤ)) : (sortHits l).Pairwise fun a b => a.1 ≤ b.1 := by
  have : IsTrans (K × ℤ) fun a b => a.1 ≤ b.1 := ⟨fun _ _ _ h1 h2 => le_trans h1 h2⟩
  have : Std.Total (fun a b : K × ℤ => a.1 ≤ b.1) := ⟨fun a b => le_total a.1 b.1⟩
  exact List.pairwise_insertionSort _ l

theorem parity_perm {tol : K} (ht : 0 ≤ tol) {l m : List (K × ℤ)} (h : l.Perm m) : parity tol (sortHits l) = parity tol (sortHits m) := by
  have hp : (sortHits l).Perm (sortHits m) := (List.perm_insertionSort _ l).trans (h.trans (List.perm_insertionSort _ m).symm)
  have hl := sorted_hits l
  have hm := sorted_hits m
  generalize sortHits l = l at hp hl
  generalize sortHits m = m at hp hm
  cases l with
  | nil => rw [List.nil_perm.1 hp]
  | cons a l =>
    cases m with
    | nil => exact absurd hp.length_eq (by simp)
    | cons b m =>
      have hab : a.1 = b.1 := by
        refine le_antisymm ?_ ?_
        · rcases List.mem_cons.1 (hp.symm.subset (by simp : b ∈ b :: m)) with rfl | h
          · exact le_refl _
          · exact (List.pairwise_cons.1 hl).1 b h
        · rcases List.mem_cons.1 (hp.subset (by simp : a ∈ a :: l)) with rfl | h
          · exact le_refl _
          · exact (List.pairwise_cons.1 hm).1 a h
      have := groupSums_perm ht hp hl hm a.1 0
      rw [groupSums, groupSums, hab] at this
      simp only [sub_self, abs_zero, if_pos ht, zero_add] at this
      rw [parity, parity, hab, this]

/-- the same hits in another order -/
theorem castAll_perm {find find' : Surf K → Box K → List (Tri K)} {tol len : K} (ht : 0 ≤ tol) {p : V K} {ss ss' : List (Surf K)}
    (hp : ∀ q, (ss.flatMap (candidates find q)).Perm (ss'.flatMap (candidates find' q))) (hd : ∀ q, ∀ t ∈ ss.flatMap (candidates find q), ¬ degenerate t) :
    ∀ ds, castAll find tol len p ss ds = castAll find' tol len p ss' ds
  | [] => rfl
  | d :: ds => by
    have ih := castAll_perm ht hp hd ds (tol := tol) (len := len) (p := p)
    rw [castAll, castAll]
    have hp' := hp (query tol len p d)
    have hd' := hd (query tol len p d)
    rw [scan_eq _ hd', scan_eq _ fun t h => hd' t (hp'.symm.subset h)]
    have hex : (∃ t ∈ ss.flatMap (candidates find (query tol len p d)), ∃ r, hitOf tol len p d t = some r ∧ r ≤ tol) ↔
        ∃ t ∈ ss'.flatMap (candidates find' (query tol len p d)), ∃ r, hitOf tol len p d t = some r ∧ r ≤ tol :=
      ⟨fun ⟨t, h, h'⟩ => ⟨t, hp'.subset h, h'⟩, fun ⟨t, h, h'⟩ => ⟨t, hp'.symm.subset h, h'⟩⟩
    by_cases hx : ∃ t ∈ ss.flatMap (candidates find (query tol len p d)), ∃ r, hitOf tol len p d t = some r ∧ r ≤ tol
    · rw [if_pos hx, if_pos (hex.1 hx)]
    · rw [if_neg hx, if_neg fun h => hx (hex.2 h)]
      dsimp only
      rw [List.nil_append, List.nil_append, parity_perm ht (hp'.filterMap _), ih]

omit [Field K] [IsStrictOrderedRing K] in
theorem hull_perm {p q : V K} {l m : List (V K)} (h : (p :: l).Perm (q :: m)) : hull p l = hull q m := by
  have T1 := Verif.Valid.hull_tight p l
  have T2 := Verif.Valid.hull_tight q m
  have e : ∀ x, x ∈ p :: l ↔ x ∈ q :: m := fun x => h.mem_iff
  simp only [e] at T1
  generalize hull p l = a at T1 ⊢
  generalize hull q m = b at T2 ⊢
  obtain ⟨A, ⟨a1, m1, e1⟩, ⟨a2, m2, e2⟩, ⟨a3, m3, e3⟩, ⟨a4, m4, e4⟩, ⟨a5, m5, e5⟩, ⟨a6, m6, e6⟩⟩ := T1
  obtain ⟨B, ⟨b1, n1, f1⟩, ⟨b2, n2, f2⟩, ⟨b3, n3, f3⟩, ⟨b4, n4, f4⟩, ⟨b5, n5, f5⟩, ⟨b6, n6, f6⟩⟩ := T2
  have g := fun x hx => A x hx
  unfold Verif.Valid.Within at A B
  refine Prod.ext (Verif.Valid.V.ext ?_ ?_ ?_) (Verif.Valid.V.ext ?_ ?_ ?_) <;> refine le_antisymm ?_ ?_
  · rw [← f1]; exact (A _ n1).1.1
  · rw [← e1]; exact (B _ m1).1.1
  · rw [← f2]; exact (A _ n2).2.1.1
  · rw [← e2]; exact (B _ m2).2.1.1
  · rw [← f3]; exact (A _ n3).2.2.1
  · rw [← e3]; exact (B _ m3).2.2.1
  · rw [← e4]; exact (B _ m4).1.2
  · rw [← f4]; exact (A _ n4).1.2
  · rw [← e5]; exact (B _ m5).2.1.2
  · rw [← f5]; exact (A _ n5).2.1.2
  · rw [← e6]; exact (B _ m6).2.2.2
  · rw [← f6]; exact (A _ n6).2.2.2

/-- The order of the surfaces of a solid, and the order in which the octrees return triangles, do not change the answer, as long as no triangle is degenerate. -/
theorem C269_order {find find' : Surf K → Box K → List (Tri K)} {tol : K} (ht : 0 ≤ tol) {ss ss' : List (Surf K)} (hs : ss.Perm ss')
    (hf : ∀ s q, (find s q).Perm (find' s q)) (hsub : ∀ s q, ∀ t ∈ find s q, t ∈ s.tris) (hd : ∀ s ∈ ss, ∀ t ∈ s.tris, ¬ degenerate t) (p : V K) :
    contains find tol ss p = contains find' tol ss' p := by
  have hc : ∀ q, (ss.flatMap (candidates find q)).Perm (ss'.flatMap (candidates find' q)) := by
    intro q
    refine (hs.flatMap_right _).trans ?_
    refine List.Perm.flatMap_left _ fun s _ => ?_
    unfold candidates
    by_cases h : find s q = []
    · have h' : find' s q = [] := by have := hf s q; rw [h] at this; exact List.nil_perm.1 this
      rw [if_pos h, if_pos h']
    · have h' : find' s q ≠ [] := by intro h'; have := hf s q; rw [h'] at this; exact h (List.perm_nil.1 this)
      rw [if_neg h, if_neg h']; exact hf s q
  have hdd : ∀ q, ∀ t ∈ ss.flatMap (candidates find q), ¬ degenerate t := by
    intro q t h
    obtain ⟨s, hs, h⟩ := List.mem_flatMap.1 h
    refine hd s hs t ?_
    unfold candidates at h
    split at h
    · exact h
    · exact hsub s q t h
  unfold contains
  by_cases hne : ss = []
  · have hne' : ss' = [] := by rw [hne] at hs; exact List.nil_perm.1 hs
    rw [if_pos hne, if_pos hne']
  have hne' : ss' ≠ [] := by intro h; rw [h] at hs; exact hne (List.perm_nil.1 hs)
  rw [if_neg hne, if_neg hne']
  have hbox : solidBox ss = solidBox ss' := by
    have hv : (ss.flatMap (·.verts)).Perm (ss'.flatMap (·.verts)) := hs.flatMap_right _
    unfold solidBox
    cases h1 : ss.flatMap (·.verts) with
    | nil =>
      rw [h1] at hv
      rw [List.nil_perm.1 hv]
    | cons a l =>
      rw [h1] at hv
      cases h2 : ss'.flatMap (·.verts) with
      | nil => rw [h2] at hv; exact absurd hv.length_eq (by simp)
      | cons b m => rw [h2] at hv; dsimp only; rw [hull_perm hv]
  rw [hbox]
  cases solidBox ss' with
  | none => exact castAll_perm ht hc hdd _
  | some b =>
    dsimp only
    split
    · exact castAll_perm ht hc hdd _
    · rfl

end field

end Verif.Bool3
