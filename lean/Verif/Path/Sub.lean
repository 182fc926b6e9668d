import Verif.Path.Seg

/-!
# Paths: positions, parts and lengths, by recursion over the segments
-/

namespace Verif.Path
open Real

/-- the position on a segment -/
noncomputable def pt : Seg → ℝ → Vec
  | .line s e, u => (evalLine s e u).1
  | .arc c s e n, u => (evalArc c s e (up n) u).1
  | .other, _ => ⟨0, 0, 0⟩

theorem pt_zero {g : Seg} (h : Proper g) : pt g 0 = ini g := by
  cases g with
  | line s e => exact lerp_zero s e
  | arc c s e n => exact arc_start (IsArc.radius h)
  | other => rfl

theorem pt_one {g : Seg} (h : Proper g) : pt g 1 = fin g := by
  cases g with
  | line s e => exact lerp_one s e
  | arc c s e n => exact arc_end h
  | other => rfl

/-- the part of a proper segment between two parameters -/
theorem piece_spec {g : Seg} (h : Proper g) {a b : ℝ} (h0 : 0 ≤ a) (hab : a ≤ b) (h1 : b ≤ 1) :
    ∃ q, piece a b g = some q ∧ Proper q ∧ (∀ t, pt q t = pt g (a + t * (b - a))) ∧ ini q = pt g a ∧ fin q = pt g b ∧
      segLength q = (b - a) * segLength g := by
  cases g with
  | line s e =>
    refine ⟨_, rfl, trivial, fun t => ?_, rfl, rfl, ?_⟩
    · exact lerp_sub s e a b t
    · exact lerp_len s e hab
  | arc c s e n =>
    obtain ⟨h2, h3, h4⟩ := arc_sub h h0 hab h1
    refine ⟨_, rfl, h2, fun t => ?_, rfl, rfl, ?_⟩
    · show (evalArc _ _ _ _ t).1 = _
      rw [show up (some (up n)) = up n from rfl, h4]
      rfl
    · show len (sub _ c) * arcAngle c _ _ (up n) = _ * (len (sub s c) * arcAngle c s e (up n))
      rw [h3, arc_radius]
      ring
  | other => exact h.elim

theorem clamp_of {x : ℝ} (h0 : 0 ≤ x) (h1 : x ≤ 1) : clamp x = x := by
  unfold clamp; rw [min_eq_right h1, max_eq_right h0]
theorem clamp_low {x : ℝ} (h : x ≤ 0) : clamp x = 0 := by
  unfold clamp; rw [min_eq_right (by linarith), max_eq_left h]
theorem clamp_high {x : ℝ} (h : 1 ≤ x) : clamp x = 1 := by
  unfold clamp; rw [min_eq_left h, max_eq_right (by norm_num)]
theorem clamp_nonneg (x : ℝ) : 0 ≤ clamp x := le_max_left _ _
theorem clamp_le (x : ℝ) : clamp x ≤ 1 := max_le (by norm_num) (min_le_left _ _)
theorem clamp_mono {x y : ℝ} (h : x ≤ y) : clamp x ≤ clamp y := max_le_max_left _ (min_le_min_left _ h)

/-- the parts of the segments between the scaled parameters `S` and `E` -/
noncomputable def cut : ℝ → ℝ → List Seg → List Seg
  | _, _, [] => []
  | S, E, g :: l => (if clamp S < clamp E then (piece (clamp S) (clamp E) g).toList else []) ++ cut (S - 1) (E - 1) l

theorem cut_range (S E : ℝ) (p : List Seg) (k : ℕ) : cut (S - k) (E - k) p =
    (List.range' k p.length).filterMap fun i : ℕ =>
      if clamp (S - i) < clamp (E - i) then (p[i - k]?).bind (piece (clamp (S - i)) (clamp (E - i))) else none := by
  induction p generalizing k with
  | nil => rfl
  | cons g l ih =>
    have h1 : cut (S - k - 1) (E - k - 1) l = cut (S - (k + 1 : ℕ)) (E - (k + 1 : ℕ)) l := by
      push_cast
      rw [sub_add_eq_sub_sub, sub_add_eq_sub_sub]
    show _ ++ cut (S - k - 1) (E - k - 1) l = _
    rw [h1, ih (k + 1)]
    rw [List.length_cons, List.range'_succ, List.filterMap_cons]
    have e2 : (List.range' (k + 1) l.length).filterMap (fun i : ℕ =>
        if clamp (S - i) < clamp (E - i) then (l[i - (k + 1)]?).bind (piece (clamp (S - i)) (clamp (E - i))) else none) =
        (List.range' (k + 1) l.length).filterMap (fun i : ℕ =>
        if clamp (S - i) < clamp (E - i) then ((g :: l)[i - k]?).bind (piece (clamp (S - i)) (clamp (E - i))) else none) := by
      refine List.filterMap_congr ?_
      intro i hi
      rw [List.mem_range'_1] at hi
      have : i - k = (i - (k + 1)) + 1 := by omega
      rw [this, List.getElem?_cons_succ]
    rw [e2, Nat.sub_self, List.getElem?_cons_zero, Option.bind_some]
    by_cases c : clamp (S - k) < clamp (E - k)
    · rw [if_pos c, if_pos c]
      cases piece (clamp (S - k)) (clamp (E - k)) g <;> rfl
    · rw [if_neg c, if_neg c]
      rfl

theorem filterMap_window {α : Type} (f g : ℕ → Option α) (n a b : ℕ) (hb : b < n)
    (h : ∀ i, a ≤ i → i ≤ b → f i = g i) (h0 : ∀ i, i < a → g i = none) (h1 : ∀ i, b < i → g i = none) :
    (List.range' a (b + 1 - a)).filterMap f = (List.range' 0 n).filterMap g := by
  by_cases hab : a ≤ b + 1
  · have e : List.range' 0 n = List.range' 0 a ++ (List.range' a (b + 1 - a) ++ List.range' (b + 1) (n - (b + 1))) := by
      have x1 : List.range' a (b + 1 - a) ++ List.range' (b + 1) (n - (b + 1)) = List.range' a (n - a) := by
        have := @List.range'_append_1 a (b + 1 - a) (n - (b + 1))
        rw [show a + (b + 1 - a) = b + 1 by omega, show b + 1 - a + (n - (b + 1)) = n - a by omega] at this
        exact this
      rw [x1]
      have := @List.range'_append_1 0 a (n - a)
      rw [Nat.zero_add, show a + (n - a) = n by omega] at this
      exact this.symm
    rw [e, List.filterMap_append, List.filterMap_append]
    have z0 : (List.range' 0 a).filterMap g = [] := by
      rw [List.filterMap_eq_nil_iff]
      intro i hi
      rw [List.mem_range'_1] at hi
      exact h0 i (by omega)
    have z1 : (List.range' (b + 1) (n - (b + 1))).filterMap g = [] := by
      rw [List.filterMap_eq_nil_iff]
      intro i hi
      rw [List.mem_range'_1] at hi
      exact h1 i (by omega)
    rw [z0, z1, List.nil_append, List.append_nil]
    refine List.filterMap_congr ?_
    intro i hi
    rw [List.mem_range'_1] at hi
    exact h i (by omega) (by omega)
  · have z : (List.range' 0 n).filterMap g = [] := by
      rw [List.filterMap_eq_nil_iff]
      intro i _
      by_cases hi : i < a
      · exact h0 i hi
      · exact h1 i (by omega)
    rw [z, show b + 1 - a = 0 by omega]
    rfl

/-- the program computes `cut` -/
theorem extract_eq (p : List Seg) {t0 t1 : ℝ} (h : t0 < t1) :
    extract p t0 t1 = .ok (cut (clamp t0 * p.length) (clamp t1 * p.length) p) := by
  unfold extract
  rw [if_neg (not_le.mpr h)]
  simp only
  by_cases hn : p.length = 0
  · rw [if_pos hn, List.length_eq_zero_iff.mp hn]; rfl
  rw [if_neg hn]
  have hn' : 0 < p.length := Nat.pos_of_ne_zero hn
  have hnR : (0 : ℝ) < p.length := by exact_mod_cast hn'
  set S := clamp t0 * p.length with hS
  set E := clamp t1 * p.length with hE
  have hS0 : 0 ≤ S := mul_nonneg (clamp_nonneg _) hnR.le
  have hE0 : 0 ≤ E := mul_nonneg (clamp_nonneg _) hnR.le
  have hEn : E ≤ p.length := by
    have := mul_le_mul_of_nonneg_right (clamp_le t1) hnR.le
    linarith
  have hr := cut_range S E p 0
  simp only [Nat.cast_zero, sub_zero, Nat.sub_zero] at hr
  rw [hr]
  congr 1
  have sl : (⌊S⌋₊ : ℝ) ≤ S := Nat.floor_le hS0
  have sh : S < ⌊S⌋₊ + 1 := Nat.lt_floor_add_one S
  have el : (⌊E⌋₊ : ℝ) ≤ E := Nat.floor_le hE0
  have eh : E < ⌊E⌋₊ + 1 := Nat.lt_floor_add_one E
  have ei : min ⌊E⌋₊ (p.length - 1) < p.length := by omega
  have eiR : ((min ⌊E⌋₊ (p.length - 1) : ℕ) : ℝ) ≤ E := by
    refine le_trans ?_ el
    exact_mod_cast Nat.min_le_left _ _
  have eiH : E ≤ ((min ⌊E⌋₊ (p.length - 1) : ℕ) : ℝ) + 1 := by
    rcases le_total ⌊E⌋₊ (p.length - 1) with c | c
    · rw [min_eq_left c]; exact eh.le
    · rw [min_eq_right c]
      have : ((p.length - 1 : ℕ) : ℝ) + 1 = p.length := by
        rw [← Nat.cast_succ]
        congr 1
        omega
      rw [this]; exact hEn
  generalize min ⌊E⌋₊ (p.length - 1) = m at *
  refine filterMap_window _ _ _ _ _ ei ?_ ?_ ?_
  · intro i i0 i1
    have i0R : (⌊S⌋₊ : ℝ) ≤ i := by exact_mod_cast i0
    have i1R : (i : ℝ) ≤ m := by exact_mod_cast i1
    have a1 : (if i = ⌊S⌋₊ then S - ⌊S⌋₊ else 0) = clamp (S - i) := by
      by_cases c : i = ⌊S⌋₊
      · rw [if_pos c, c, clamp_of (by linarith) (by linarith)]
      · rw [if_neg c, clamp_low]
        have : (⌊S⌋₊ : ℝ) + 1 ≤ i := by exact_mod_cast (by omega : ⌊S⌋₊ + 1 ≤ i)
        linarith
    have a2 : (if i = m then (if m < p.length then E - m else 1) else 1) = clamp (E - i) := by
      rw [if_pos ei]
      by_cases c : i = m
      · rw [if_pos c, c, clamp_of (by linarith) (by linarith)]
      · rw [if_neg c, clamp_high]
        have : (i : ℝ) + 1 ≤ m := by exact_mod_cast (by omega : i + 1 ≤ m)
        linarith
    rw [a1, a2]
    by_cases c : clamp (S - i) < clamp (E - i)
    · rw [if_pos c, if_neg (not_le.mpr c)]
    · rw [if_neg c, if_pos (not_lt.mp c)]
  · intro i hi
    have : (i : ℝ) + 1 ≤ ⌊S⌋₊ := by exact_mod_cast (by omega : i + 1 ≤ ⌊S⌋₊)
    rw [clamp_high (x := S - i) (by linarith), if_neg (not_lt.mpr (clamp_le _))]
  · intro i hi
    have : (m : ℝ) + 1 ≤ i := by exact_mod_cast (by omega : m + 1 ≤ i)
    rw [clamp_low (x := E - i) (by linarith), if_neg (not_lt.mpr (clamp_nonneg _))]

/-! ## Lengths -/

theorem pathLength_foldl (p : List Seg) (a : ℝ) : p.foldl (fun t s => t + segLength s) a = a + pathLength p := by
  unfold pathLength
  induction p generalizing a with
  | nil => simp
  | cons g l ih =>
    rw [List.foldl_cons, List.foldl_cons, ih, ih (0 + segLength g)]
    ring

theorem pathLength_nil : pathLength [] = 0 := rfl
theorem pathLength_cons (g : Seg) (l : List Seg) : pathLength (g :: l) = segLength g + pathLength l := by
  show List.foldl _ _ _ = _
  rw [List.foldl_cons, pathLength_foldl]
  ring
theorem pathLength_append (a b : List Seg) : pathLength (a ++ b) = pathLength a + pathLength b := by
  induction a with
  | nil => rw [List.nil_append, pathLength_nil, zero_add]
  | cons g l ih => rw [List.cons_append, pathLength_cons, pathLength_cons, ih, add_assoc]

/-- the length up to the scaled parameter `x` -/
noncomputable def upTo : ℝ → List Seg → ℝ
  | _, [] => 0
  | x, g :: l => clamp x * segLength g + upTo (x - 1) l

theorem cut_length {p : List Seg} (h : ∀ g ∈ p, Proper g) {S E : ℝ} (hSE : S ≤ E) :
    pathLength (cut S E p) = upTo E p - upTo S p := by
  induction p generalizing S E with
  | nil => unfold cut upTo; rw [pathLength_nil]; ring
  | cons g l ih =>
    have i := ih (fun x hx => h x (List.mem_cons_of_mem _ hx)) (S := S - 1) (E := E - 1) (by linarith)
    show pathLength (_ ++ cut (S - 1) (E - 1) l) = _
    rw [pathLength_append, i]
    show _ = clamp E * segLength g + upTo (E - 1) l - (clamp S * segLength g + upTo (S - 1) l)
    by_cases c : clamp S < clamp E
    · rw [if_pos c]
      obtain ⟨q, q0, -, -, -, -, q1⟩ := piece_spec (h g (List.mem_cons_self ..)) (clamp_nonneg S) c.le (clamp_le E)
      rw [q0]
      show pathLength [q] + _ = _
      rw [pathLength_cons, pathLength_nil, q1]
      ring
    · rw [if_neg c]
      have : clamp S = clamp E := le_antisymm (clamp_mono hSE) (not_lt.mp c)
      rw [this, pathLength_nil]
      ring

theorem upTo_zero (p : List Seg) {x : ℝ} (h : x ≤ 0) : upTo x p = 0 := by
  induction p generalizing x with
  | nil => rfl
  | cons g l ih =>
    show clamp x * segLength g + upTo (x - 1) l = 0
    rw [clamp_low h, ih (by linarith)]
    ring

theorem upTo_all (p : List Seg) {x : ℝ} (h : p.length ≤ x) : upTo x p = pathLength p := by
  induction p generalizing x with
  | nil => rfl
  | cons g l ih =>
    rw [List.length_cons] at h
    push_cast at h
    have h0 : (0 : ℝ) ≤ l.length := Nat.cast_nonneg _
    show clamp x * segLength g + upTo (x - 1) l = _
    rw [clamp_high (by linarith), ih (by linarith), pathLength_cons]
    ring

theorem upTo_equal (p : List Seg) {L : ℝ} (h : ∀ g ∈ p, segLength g = L) {x : ℝ} (h0 : 0 ≤ x) (h1 : x ≤ p.length) :
    upTo x p = x * L := by
  induction p generalizing x with
  | nil =>
    have : x = 0 := le_antisymm (by simpa using h1) h0
    rw [this]; show (0 : ℝ) = _; ring
  | cons g l ih =>
    rw [List.length_cons] at h1
    push_cast at h1
    show clamp x * segLength g + upTo (x - 1) l = _
    rw [h g (List.mem_cons_self ..)]
    rcases le_total x 1 with c | c
    · rw [clamp_of h0 c, upTo_zero l (by linarith)]; ring
    · rw [clamp_high c, ih (fun y hy => h y (List.mem_cons_of_mem _ hy)) (by linarith) (by linarith)]; ring

theorem pathLength_equal (p : List Seg) {L : ℝ} (h : ∀ g ∈ p, segLength g = L) : pathLength p = p.length * L := by
  have := upTo_equal p h (x := p.length) (Nat.cast_nonneg _) le_rfl
  rw [upTo_all p le_rfl] at this
  exact this

theorem segLength_nonneg {g : Seg} (h : Proper g) : 0 ≤ segLength g := by
  cases g with
  | line s e => exact len_nonneg _
  | arc c s e n => exact mul_nonneg (len_nonneg _) (arc_turn h).1
  | other => exact h.elim

theorem upTo_mono (p : List Seg) (h : ∀ g ∈ p, Proper g) {x y : ℝ} (hxy : x ≤ y) : upTo x p ≤ upTo y p := by
  induction p generalizing x y with
  | nil => exact le_rfl
  | cons g l ih =>
    have := ih (fun z hz => h z (List.mem_cons_of_mem _ hz)) (x := x - 1) (y := y - 1) (by linarith)
    have g0 := segLength_nonneg (h g (List.mem_cons_self ..))
    have := mul_le_mul_of_nonneg_right (clamp_mono hxy) g0
    show clamp x * segLength g + upTo (x - 1) l ≤ clamp y * segLength g + upTo (y - 1) l
    linarith

/-! ## Positions -/

/-- the position at the scaled parameter `x` -/
noncomputable def pos : List Seg → ℝ → Vec
  | [], _ => ⟨0, 0, 0⟩
  | [g], x => pt g x
  | g :: g' :: l, x => if x < 1 then pt g x else pos (g' :: l) (x - 1)

theorem pos_get (p : List Seg) {x : ℝ} (h0 : 0 ≤ x) (h1 : x < p.length) :
    ∃ g, p[⌊x⌋₊]? = some g ∧ pos p x = pt g (x - ⌊x⌋₊) := by
  induction p generalizing x with
  | nil => simp at h1; linarith
  | cons g l ih =>
    rw [List.length_cons] at h1
    push_cast at h1
    by_cases c : x < 1
    · have : ⌊x⌋₊ = 0 := Nat.floor_eq_zero.mpr c
      rw [this]
      refine ⟨g, rfl, ?_⟩
      cases l with
      | nil => show pt g x = _; simp
      | cons b l => show (if x < 1 then _ else _) = _; rw [if_pos c]; simp
    · rw [not_lt] at c
      have f : ⌊x⌋₊ = ⌊x - 1⌋₊ + 1 := by
        have := Nat.floor_sub_one x
        have : 1 ≤ ⌊x⌋₊ := Nat.le_floor (by simpa using c)
        omega
      obtain ⟨k, k0, k1⟩ := ih (x := x - 1) (by linarith) (by linarith)
      refine ⟨k, by rw [f]; exact k0, ?_⟩
      cases l with
      | nil => simp at k0
      | cons b l =>
        show (if x < 1 then _ else _) = _
        rw [if_neg (not_lt.mpr c), k1, f]
        push_cast
        congr 1
        ring

theorem pos_last (p : List Seg) (hp : p ≠ []) : ∃ g, p[p.length - 1]? = some g ∧ pos p p.length = pt g 1 := by
  induction p with
  | nil => exact absurd rfl hp
  | cons g l ih =>
    cases l with
    | nil => exact ⟨g, rfl, by show pt g _ = _; simp⟩
    | cons b l =>
      obtain ⟨k, k0, k1⟩ := ih (by simp)
      refine ⟨k, ?_, ?_⟩
      · have : (g :: b :: l).length - 1 = ((b :: l).length - 1) + 1 := by simp
        rw [this, List.getElem?_cons_succ]; exact k0
      · have e : ((g :: b :: l).length : ℝ) = ((b :: l).length : ℝ) + 1 := by
          rw [List.length_cons (a := g)]; push_cast; rfl
        have p0 : (0 : ℝ) < ((b :: l).length : ℝ) := by rw [List.length_cons]; push_cast; positivity
        rw [e]
        show (if _ then _ else _) = _
        rw [if_neg (by linarith), add_sub_cancel_right, k1]

theorem evalSeg_pt {g : Seg} (h : Proper g) (u : ℝ) : ∃ τ, evalSeg g u = .ok (pt g u, τ) := by
  cases g with
  | line s e => exact ⟨_, rfl⟩
  | arc c s e n => exact ⟨_, rfl⟩
  | other => exact h.elim

/-- `evaluate` gives the position -/
theorem evaluate_pos {p : List Seg} (hp : p ≠ []) (h : ∀ g ∈ p, Proper g) (t : ℝ) :
    ∃ τ, evaluate p t = .ok (pos p (clamp t * p.length), τ) := by
  have hn : p.length ≠ 0 := fun e => hp (List.length_eq_zero_iff.mp e)
  have hnR : (0 : ℝ) < p.length := by exact_mod_cast Nat.pos_of_ne_zero hn
  unfold evaluate
  rw [if_neg hn]
  simp only
  by_cases c : clamp t ≥ 1
  · have : clamp t = 1 := le_antisymm (clamp_le t) c
    rw [this, if_pos le_rfl, if_pos le_rfl, one_mul]
    obtain ⟨g, g0, g1⟩ := pos_last p hp
    rw [g0, g1]
    exact evalSeg_pt (h g (List.mem_of_getElem? g0)) 1
  · rw [if_neg c, if_neg c]
    rw [not_le] at c
    have := mul_lt_mul_of_pos_right c hnR
    obtain ⟨g, g0, g1⟩ := pos_get p (x := clamp t * p.length) (mul_nonneg (clamp_nonneg _) hnR.le) (by linarith)
    rw [g0, g1]
    exact evalSeg_pt (h g (List.mem_of_getElem? g0)) _

theorem pos_low {g : Seg} {l : List Seg} (h : ∀ x ∈ g :: l, Proper x) (hj : Joined (g :: l)) {x : ℝ} (hx : x ≤ 1) :
    pos (g :: l) x = pt g x := by
  cases l with
  | nil => rfl
  | cons b l =>
    show (if x < 1 then _ else _) = _
    by_cases c : x < 1
    · rw [if_pos c]
    · rw [if_neg c]
      have : x = 1 := le_antisymm hx (not_lt.mp c)
      subst this
      rw [pt_one (h g (by simp)), hj.1, ← pt_zero (h b (by simp))]
      cases l with
      | nil => show pt b _ = _; norm_num
      | cons c l => show (if _ then _ else _) = _; norm_num

theorem pos_high (g b : Seg) (l : List Seg) {x : ℝ} (hx : 1 ≤ x) : pos (g :: b :: l) x = pos (b :: l) (x - 1) := by
  show (if x < 1 then _ else _) = _
  rw [if_neg (not_lt.mpr hx)]

/-! ## Parts -/

theorem cut_nil (p : List Seg) {S E : ℝ} (h : E ≤ 0) : cut S E p = [] := by
  induction p generalizing S E with
  | nil => rfl
  | cons g l ih =>
    show _ ++ cut (S - 1) (E - 1) l = []
    rw [ih (by linarith), clamp_low h, if_neg (not_lt.mpr (clamp_nonneg _))]
    rfl

/-- a part of a path: what it is made of, where it begins and ends, which points it passes through -/
structure Part (p q : List Seg) (S E : ℝ) : Prop where
  proper : ∀ g ∈ q, Proper g
  joined : Joined q
  first : ∃ g, q.head? = some g ∧ ini g = pos p (max 0 S)
  last : ∃ g, q.getLast? = some g ∧ fin g = pos p E
  points : ∀ v, (∃ g ∈ q, ∃ u, 0 ≤ u ∧ u ≤ 1 ∧ pt g u = v) ↔ ∃ x, max 0 S ≤ x ∧ x ≤ E ∧ pos p x = v

theorem one_points {g q : Seg} {a b : ℝ} (hab : a < b) (h : ∀ t, pt q t = pt g (a + t * (b - a))) (v : Vec) :
    (∃ u, 0 ≤ u ∧ u ≤ 1 ∧ pt q u = v) ↔ ∃ x, a ≤ x ∧ x ≤ b ∧ pt g x = v := by
  have hd : 0 < b - a := by linarith
  constructor
  · rintro ⟨u, u0, u1, hu⟩
    refine ⟨a + u * (b - a), ?_, ?_, by rw [← h]; exact hu⟩
    · have := mul_nonneg u0 hd.le; linarith
    · have := mul_le_mul_of_nonneg_right u1 hd.le; linarith
  · rintro ⟨x, x0, x1, hx⟩
    refine ⟨(x - a) / (b - a), div_nonneg (by linarith) hd.le, (div_le_one hd).mpr (by linarith), ?_⟩
    rw [h, div_mul_cancel₀ _ hd.ne']
    rw [← hx]
    congr 1
    ring

theorem part_low {g : Seg} {l : List Seg} (h : ∀ x ∈ g :: l, Proper x) (hj : Joined (g :: l)) {S E : ℝ} (hSE : S < E) (h0 : 0 < E)
    (h1 : E ≤ 1) : Part (g :: l) (cut S E (g :: l)) S E := by
  have hm : max 0 S < E := max_lt h0 hSE
  have cS : clamp S = max 0 S := by unfold clamp; rw [min_eq_right (by linarith)]
  have cE : clamp E = E := clamp_of h0.le h1
  obtain ⟨q, q0, q1, q2, q3, q4, -⟩ := piece_spec (h g (by simp)) (clamp_nonneg S) (by rw [cS, cE]; exact hm.le) (clamp_le E)
  have e : cut S E (g :: l) = [q] := by
    show _ ++ cut (S - 1) (E - 1) l = _
    rw [cut_nil l (by linarith), if_pos (by rw [cS, cE]; exact hm), q0]
    rfl
  rw [cS, cE] at q2
  rw [e]
  refine ⟨by simpa using q1, trivial, ⟨q, rfl, ?_⟩, ⟨q, rfl, ?_⟩, fun v => ?_⟩
  · rw [q3, cS, pos_low h hj (by linarith)]
  · rw [q4, cE, pos_low h hj h1]
  · simp only [List.mem_singleton, exists_eq_left]
    rw [one_points hm q2]
    constructor
    · rintro ⟨x, x0, x1, hx⟩; exact ⟨x, x0, x1, by rw [pos_low h hj (by linarith)]; exact hx⟩
    · rintro ⟨x, x0, x1, hx⟩; exact ⟨x, x0, x1, by rw [pos_low h hj (by linarith)] at hx; exact hx⟩

theorem cut_part {p : List Seg} (hp : p ≠ []) (h : ∀ x ∈ p, Proper x) (hj : Joined p) {S E : ℝ} (hSE : S < E) (h0 : 0 < E)
    (h1 : E ≤ p.length) : Part p (cut S E p) S E := by
  induction p generalizing S E with
  | nil => exact absurd rfl hp
  | cons g l ih =>
    rcases le_or_gt E 1 with c | c
    · exact part_low h hj hSE h0 c
    cases l with
    | nil => simp at h1; linarith
    | cons b l =>
      have h' : ∀ x ∈ b :: l, Proper x := fun x hx => h x (List.mem_cons_of_mem _ hx)
      have hl : E - 1 ≤ ((b :: l).length : ℝ) := by
        rw [List.length_cons] at h1; push_cast at h1 ⊢; linarith
      have I := ih (by simp) h' hj.2 (S := S - 1) (E := E - 1) (by linarith) (by linarith) hl
      rcases le_or_gt 1 S with d | d
      · have e : cut S E (g :: b :: l) = cut (S - 1) (E - 1) (b :: l) := by
          show _ ++ cut (S - 1) (E - 1) (b :: l) = _
          rw [clamp_high d, if_neg (not_lt.mpr (clamp_le _))]
          rfl
        have m1 : max 0 S = S := max_eq_right (by linarith)
        have m2 : max 0 (S - 1) = S - 1 := max_eq_right (by linarith)
        rw [e]
        refine ⟨I.proper, I.joined, ?_, ?_, fun v => ?_⟩
        · obtain ⟨k, k0, k1⟩ := I.first
          exact ⟨k, k0, by rw [k1, m1, m2, pos_high _ _ _ d]⟩
        · obtain ⟨k, k0, k1⟩ := I.last
          exact ⟨k, k0, by rw [k1, pos_high _ _ _ c.le]⟩
        · rw [I.points, m1, m2]
          constructor
          · rintro ⟨x, x0, x1, hx⟩
            exact ⟨x + 1, by linarith, by linarith, by rw [pos_high _ _ _ (by linarith), add_sub_cancel_right]; exact hx⟩
          · rintro ⟨x, x0, x1, hx⟩
            exact ⟨x - 1, by linarith, by linarith, by rw [pos_high _ _ _ (by linarith)] at hx; exact hx⟩
      · have m1 : clamp S = max 0 S := by unfold clamp; rw [min_eq_right d.le]
        have m2 : max 0 (S - 1) = 0 := max_eq_left (by linarith)
        have m3 : clamp E = 1 := clamp_high c.le
        have m4 : max 0 S < 1 := max_lt one_pos d
        obtain ⟨q, q0, q1, q2, q3, q4, -⟩ := piece_spec (h g (by simp)) (clamp_nonneg S) (by rw [m1, m3]; exact m4.le) (clamp_le E)
        rw [m1, m3] at q2
        have e : cut S E (g :: b :: l) = q :: cut (S - 1) (E - 1) (b :: l) := by
          show _ ++ cut (S - 1) (E - 1) (b :: l) = _
          rw [if_pos (by rw [m1, m3]; exact m4), q0]
          rfl
        rw [e]
        obtain ⟨k, k0, k1⟩ := I.first
        rw [m2] at k1
        have P := I.points
        rw [m2] at P
        refine ⟨?_, ?_, ⟨q, rfl, ?_⟩, ?_, fun v => ?_⟩
        · intro x hx
          rcases List.mem_cons.mp hx with rfl | hx
          · exact q1
          · exact I.proper x hx
        · have J := I.joined
          revert k0 J
          cases cut (S - 1) (E - 1) (b :: l) with
          | nil => intro k0; simp at k0
          | cons a r =>
            intro k0 J
            simp only [List.head?_cons, Option.some.injEq] at k0
            refine ⟨?_, J⟩
            rw [k0, k1, q4, m3, pos_low h' hj.2 (by norm_num), pt_zero (h b (by simp)), pt_one (h g (by simp))]
            exact hj.1
        · rw [q3, m1, pos_low h hj m4.le]
        · obtain ⟨z, z0, z1⟩ := I.last
          refine ⟨z, ?_, by rw [z1, pos_high _ _ _ c.le]⟩
          rw [List.getLast?_cons, z0]
          rfl
        · constructor
          · rintro ⟨x, hx, u, u0, u1, hu⟩
            rcases List.mem_cons.mp hx with rfl | hx
            · obtain ⟨y, y0, y1, hy⟩ := (one_points m4 q2 v).mp ⟨u, u0, u1, hu⟩
              exact ⟨y, y0, by linarith, by rw [pos_low h hj y1]; exact hy⟩
            · obtain ⟨y, y0, y1, hy⟩ := (P v).mp ⟨x, hx, u, u0, u1, hu⟩
              exact ⟨y + 1, by linarith, by linarith, by rw [pos_high _ _ _ (by linarith), add_sub_cancel_right]; exact hy⟩
          · rintro ⟨x, x0, x1, hx⟩
            rcases le_or_gt x 1 with y | y
            · rw [pos_low h hj y] at hx
              obtain ⟨u, u0, u1, hu⟩ := (one_points m4 q2 v).mpr ⟨x, x0, y, hx⟩
              exact ⟨q, by simp, u, u0, u1, hu⟩
            · rw [pos_high _ _ _ y.le] at hx
              obtain ⟨z, hz, w⟩ := (P v).mpr ⟨x - 1, by linarith, by linarith, hx⟩
              exact ⟨z, List.mem_cons_of_mem _ hz, w⟩

/-- the points of a joined path are the points of its segments -/
theorem all_points {p : List Seg} (hp : p ≠ []) (h : ∀ x ∈ p, Proper x) (hj : Joined p) (v : Vec) :
    (∃ g ∈ p, ∃ u, 0 ≤ u ∧ u ≤ 1 ∧ pt g u = v) ↔ ∃ x : ℝ, 0 ≤ x ∧ x ≤ p.length ∧ pos p x = v := by
  induction p with
  | nil => exact absurd rfl hp
  | cons g l ih =>
    cases l with
    | nil => simp [pos]
    | cons b l =>
      have I := ih (by simp) (fun x hx => h x (List.mem_cons_of_mem _ hx)) hj.2
      have e : ((g :: b :: l).length : ℝ) = ((b :: l).length : ℝ) + 1 := by
        rw [List.length_cons (a := g)]; push_cast; rfl
      have p0 : (0 : ℝ) ≤ ((b :: l).length : ℝ) := Nat.cast_nonneg _
      rw [e]
      constructor
      · rintro ⟨x, hx, u, u0, u1, hu⟩
        rcases List.mem_cons.mp hx with rfl | hx
        · exact ⟨u, u0, by linarith, by rw [pos_low h hj u1]; exact hu⟩
        · obtain ⟨y, y0, y1, hy⟩ := I.mp ⟨x, hx, u, u0, u1, hu⟩
          exact ⟨y + 1, by linarith, by linarith, by rw [pos_high _ _ _ (by linarith), add_sub_cancel_right]; exact hy⟩
      · rintro ⟨x, x0, x1, hx⟩
        rcases le_or_gt x 1 with y | y
        · rw [pos_low h hj y] at hx
          exact ⟨g, by simp, x, x0, y, hx⟩
        · rw [pos_high _ _ _ y.le] at hx
          obtain ⟨z, hz, w⟩ := I.mpr ⟨x - 1, by linarith, by linarith, hx⟩
          exact ⟨z, List.mem_cons_of_mem _ hz, w⟩

end Verif.Path
