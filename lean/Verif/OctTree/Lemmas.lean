import Verif.OctTree.Spec

namespace Verif.OctTree
set_option linter.unusedSectionVars false
variable {K : Type} [Field K] [LinearOrder K] [IsStrictOrderedRing K]

/-- Closed intervals meet. -/
def IvMeet (a b c d : K) : Prop := a ≤ d ∧ c ≤ b

theorem intHV_iff (h1x h1y h2x v1x v1y v2y : K) (h2y v2x : K) (hh : h1x ≤ h2x) (hv : v1y ≤ v2y) :
    intHV ((h1x, h1y), (h2x, h2y)) ((v1x, v1y), (v2x, v2y)) = true ↔
      (h1x ≤ v1x ∧ v1x ≤ h2x) ∧ (v1y ≤ h1y ∧ h1y ≤ v2y) := by
  unfold intHV
  simp only [gt_iff_lt, not_lt.mpr hh, not_lt.mpr hv, if_false]
  split_ifs with h1 h2
  · simp; intro a b; rcases h1 with h | h <;> exfalso <;> linarith
  · simp; intro _ _ a; rcases h2 with h | h <;> first | exact h | (exfalso; linarith)
  · simp only [not_or, not_lt] at h1 h2; simp; exact ⟨⟨h1.1, h1.2⟩, h2.1, h2.2⟩

theorem intHV_swap_h (p q : K × K) (v : (K × K) × (K × K)) (h : p.2 = q.2) :
    intHV (p, q) v = intHV (q, p) v := by
  unfold intHV
  simp only [gt_iff_lt, h]
  rcases lt_trichotomy p.1 q.1 with h | h | h
  · simp [h, not_lt.mpr h.le]
  · simp [h]
  · simp [h, not_lt.mpr h.le]

theorem intHV_swap_v (p q : K × K) (u : (K × K) × (K × K)) (h : p.1 = q.1) :
    intHV u (p, q) = intHV u (q, p) := by
  unfold intHV
  simp only [gt_iff_lt, h]
  rcases lt_trichotomy p.2 q.2 with h | h | h
  · simp [h, not_lt.mpr h.le]
  · simp [h]
  · simp [h, not_lt.mpr h.le]

/-- The planar test is exact for boxes that are well-formed on both axes. -/
theorem int2D_iff (b1 b2 : Box K) (i j : Fin 3)
    (h1i : b1.lo.get i ≤ b1.hi.get i) (h1j : b1.lo.get j ≤ b1.hi.get j)
    (h2i : b2.lo.get i ≤ b2.hi.get i) (h2j : b2.lo.get j ≤ b2.hi.get j) :
    int2D b1 b2 i j = true ↔
      IvMeet (b1.lo.get i) (b1.hi.get i) (b2.lo.get i) (b2.hi.get i) ∧
      IvMeet (b1.lo.get j) (b1.hi.get j) (b2.lo.get j) (b2.hi.get j) := by
  unfold int2D IvMeet
  generalize b1.lo.get i = a at *
  generalize b1.hi.get i = b at *
  generalize b2.lo.get i = c at *
  generalize b2.hi.get i = d at *
  generalize b1.lo.get j = a' at *
  generalize b1.hi.get j = b' at *
  generalize b2.lo.get j = c' at *
  generalize b2.hi.get j = d' at *
  split_ifs with hin
  · simp only [true_iff]
    rcases hin with ⟨_, _, _, _⟩ | ⟨_, _, _, _⟩ <;> refine ⟨⟨?_, ?_⟩, ?_, ?_⟩ <;> linarith
  · simp only [add_zero, add_sub_cancel, Bool.or_eq_true]
    rw [intHV_swap_v (c, d') (c, c') _ rfl, intHV_swap_h (b, b') (a, b') _ rfl,
      intHV_swap_h (b, b') (a, b') _ rfl, intHV_swap_v (c, d') (c, c') _ rfl,
      intHV_swap_h (d, d') (c, d') _ rfl, intHV_swap_h (d, d') (c, d') _ rfl,
      intHV_swap_v (a, b') (a, a') _ rfl, intHV_swap_v (a, b') (a, a') _ rfl]
    simp only [intHV_iff, h1i, h1j, h2i, h2j]
    grind

theorem ivMeet_iff {a b c d : K} (h1 : a ≤ b) (h2 : c ≤ d) :
    IvMeet a b c d ↔ ∃ p, (a ≤ p ∧ p ≤ b) ∧ (c ≤ p ∧ p ≤ d) := by
  unfold IvMeet
  constructor
  · rintro ⟨h3, h4⟩
    refine ⟨max a c, ⟨le_max_left _ _, max_le h1 h4⟩, le_max_right _ _, max_le h3 h2⟩
  · rintro ⟨p, ⟨h3, h4⟩, h5, h6⟩
    exact ⟨h3.trans h6, h5.trans h4⟩

theorem touch_iff (k : Kind) {b1 b2 : Box K} (h1 : b1.Valid) (h2 : b2.Valid) :
    Touch k b1 b2 ↔
      IvMeet b1.lo.x b1.hi.x b2.lo.x b2.hi.x ∧ IvMeet b1.lo.y b1.hi.y b2.lo.y b2.hi.y ∧
      (k = .oct → IvMeet b1.lo.z b1.hi.z b2.lo.z b2.hi.z) := by
  rw [ivMeet_iff h1.1 h2.1, ivMeet_iff h1.2.1 h2.2.1, ivMeet_iff h1.2.2 h2.2.2]
  unfold Touch
  cases k with
  | quad =>
    simp only [Box.MemK, Box.Mem2, reduceCtorEq, false_implies, and_true]
    constructor
    · rintro ⟨p, ⟨h3, h4⟩, h5, h6⟩; exact ⟨⟨p.x, h3, h5⟩, p.y, h4, h6⟩
    · rintro ⟨⟨x, h3, h5⟩, y, h4, h6⟩; exact ⟨⟨x, y, 0⟩, ⟨h3, h4⟩, h5, h6⟩
  | oct =>
    simp only [Box.MemK, Box.Mem, forall_const]
    constructor
    · rintro ⟨p, ⟨h3, h4, h4'⟩, h5, h6, h6'⟩; exact ⟨⟨p.x, h3, h5⟩, ⟨p.y, h4, h6⟩, p.z, h4', h6'⟩
    · rintro ⟨⟨x, h3, h5⟩, ⟨y, h4, h6⟩, z, h7, h8⟩
      exact ⟨⟨x, y, z⟩, ⟨h3, h4, h7⟩, h5, h6, h8⟩

theorem overlap_iff (k : Kind) {b1 b2 : Box K} (h1 : b1.Valid) (h2 : b2.Valid) :
    boxoverlap2 b1 b2 k.dim3 = true ↔ Touch k b1 b2 := by
  rw [touch_iff k h1 h2]
  have h1' := h1; have h2' := h2
  obtain ⟨h1x, h1y, h1z⟩ := h1
  obtain ⟨h2x, h2y, h2z⟩ := h2
  unfold boxoverlap2
  split_ifs with hmm hin
  · simp only [false_iff]
    unfold IvMeet
    rintro ⟨⟨_, _⟩, _⟩
    rcases hmm with ⟨_, _⟩ | ⟨_, _⟩ <;> linarith
  · simp only [true_iff]
    unfold IvMeet
    cases k <;> simp only [Kind.dim3, Bool.true_eq_false, false_or, true_or, and_true,
      reduceCtorEq, false_implies, forall_const] at hin ⊢
    · rcases hin with ⟨_, _, _, _⟩ | ⟨_, _, _, _⟩ <;> refine ⟨⟨?_, ?_⟩, ?_, ?_⟩ <;> linarith
    · rcases hin with ⟨_, _, _, _, _, _⟩ | ⟨_, _, _, _, _, _⟩ <;>
        refine ⟨⟨?_, ?_⟩, ⟨?_, ?_⟩, ?_, ?_⟩ <;> linarith
  · have e1 := int2D_iff b1 b2 0 1 h1x h1y h2x h2y
    have e2 := int2D_iff b1 b2 1 2 h1y h1z h2y h2z
    have e3 := int2D_iff b1 b2 0 2 h1x h1z h2x h2z
    cases k
    · simp only [Kind.dim3, Bool.not_false, Bool.true_or, Bool.and_true, e1, reduceCtorEq,
        false_implies, and_true]
      rfl
    · simp only [Kind.dim3, Bool.not_true, Bool.false_or, Bool.and_eq_true, e1, e2, e3,
        forall_const]
      constructor
      · rintro ⟨⟨⟨a, b⟩, _, c⟩, _⟩; exact ⟨a, b, c⟩
      · rintro ⟨a, b, c⟩; exact ⟨⟨⟨a, b⟩, b, c⟩, a, c⟩

/-! ### `mapM` in `Option` -/

theorem mapM_some_mem {α β : Type} (f : α → Option β) :
    ∀ (l : List α) (ts : List β), l.mapM f = some ts →
      (∀ x ∈ l, ∃ t ∈ ts, f x = some t) ∧ (∀ t ∈ ts, ∃ x ∈ l, f x = some t)
  | [], ts, h => by
    simp at h; subst h; simp
  | a :: l, ts, h => by
    rw [List.mapM_cons] at h
    cases ha : f a with
    | none => simp [ha] at h
    | some b =>
      cases hl : l.mapM f with
      | none => simp [ha, hl] at h
      | some bs =>
        simp [ha, hl] at h
        subst h
        obtain ⟨i1, i2⟩ := mapM_some_mem f l bs hl
        constructor
        · intro x hx
          rcases List.mem_cons.mp hx with rfl | hx
          · exact ⟨b, by simp, ha⟩
          · obtain ⟨t, ht, e⟩ := i1 x hx; exact ⟨t, by simp [ht], e⟩
        · intro t ht
          rcases List.mem_cons.mp ht with rfl | ht
          · exact ⟨a, by simp, ha⟩
          · obtain ⟨x, hx, e⟩ := i2 t ht; exact ⟨x, by simp [hx], e⟩

theorem mapM_isSome {α β : Type} (f : α → Option β) :
    ∀ (l : List α), (∀ x ∈ l, ∃ t, f x = some t) → ∃ ts, l.mapM f = some ts
  | [], _ => ⟨[], by simp⟩
  | a :: l, h => by
    obtain ⟨b, hb⟩ := h a (by simp)
    obtain ⟨bs, hbs⟩ := mapM_isSome f l (fun x hx => h x (by simp [hx]))
    exact ⟨b :: bs, by simp [List.mapM_cons, hb, hbs]⟩

/-! ### Subdivision -/

theorem isinside_iff (b : Box K) (p : P3 K) : isinsidebbox b p = true ↔ b.Mem p := by
  simp only [isinsidebbox, Box.Mem, ge_iff_le, decide_eq_true_eq]; tauto

theorem boxmid_mem (b : Box K) (h : b.Valid) : b.Mem (boxmid b) := by
  obtain ⟨h1, h2, h3⟩ := h
  unfold Box.Mem boxmid
  refine ⟨⟨?_, ?_⟩, ⟨?_, ?_⟩, ?_, ?_⟩ <;> simp only <;> linarith

/-- All children of a split have their own midpoint as center and are well-formed. -/
theorem box2boxes_children {eps : K} {b : Box K} {c : P3 K} {k : Kind} {l : List (Box K × P3 K)}
    (h : box2boxes eps b c k = some l) (x : Box K × P3 K) (hx : x ∈ l) :
    x.1.Valid ∧ x.2 = boxmid x.1 := by
  unfold box2boxes at h
  split_ifs at h with h1 h2
  simp only [Bool.not_eq_false] at h1
  rw [isinside_iff] at h1
  obtain ⟨⟨_, _⟩, ⟨_, _⟩, _, _⟩ := h1
  cases k <;> simp only [Option.some.injEq] at h <;> subst h <;>
    simp only [List.map_cons, List.map_nil, List.cons_append, List.nil_append, List.mem_cons,
      List.not_mem_nil, or_false] at hx
  · rcases hx with rfl | rfl | rfl | rfl <;> refine ⟨⟨?_, ?_, ?_⟩, rfl⟩ <;> simp [*]
  · rcases hx with rfl | rfl | rfl | rfl | rfl | rfl | rfl | rfl <;>
      refine ⟨⟨?_, ?_, ?_⟩, rfl⟩ <;> simp [*]

/-- A point of the box that lies in an element's box lies in some child to which that element is
assigned. -/
theorem split_covers {eps : K} {b : Box K} {c : P3 K} {k : Kind} {l : List (Box K × P3 K)}
    (h : box2boxes eps b c k = some l) (e : Box K) (he : e.Valid) (p : P3 K)
    (hb : b.MemK k p) (hep : e.MemK k p) :
    ∃ x ∈ l.zipIdx, x.1.1.MemK k p ∧ (octants k e c).contains x.2 = true := by
  have ho : Touch k e e := ⟨p, hep, hep⟩
  rw [← overlap_iff k he he] at ho
  unfold box2boxes at h
  split_ifs at h with h1 h2
  cases k with
  | quad =>
    simp only [Kind.dim3] at ho
    simp only [Option.some.injEq] at h
    subst h
    simp only [octants, bbox2quad, ho, Bool.true_eq_false, if_false]
    obtain ⟨⟨b1, b2⟩, b3, b4⟩ := hb
    obtain ⟨⟨e1, e2⟩, e3, e4⟩ := hep
    rcases lt_or_ge p.x c.x with hx | hx <;> rcases lt_or_ge p.y c.y with hy | hy
    · refine ⟨((⟨⟨b.lo.x, b.lo.y, 0⟩, ⟨c.x, c.y, 0⟩⟩, _), 2), by simp [List.zipIdx]; rfl,
        ⟨⟨b1, hx.le⟩, b3, hy.le⟩, ?_⟩
      simp [e1.trans_lt hx, e3.trans_lt hy]
    · refine ⟨((⟨⟨b.lo.x, c.y, 0⟩, ⟨c.x, b.hi.y, 0⟩⟩, _), 1), by simp [List.zipIdx]; rfl,
        ⟨⟨b1, hx.le⟩, hy, b4⟩, ?_⟩
      simp [e1.trans_lt hx, hy.trans e4]
    · refine ⟨((⟨⟨c.x, b.lo.y, 0⟩, ⟨b.hi.x, c.y, 0⟩⟩, _), 3), by simp [List.zipIdx]; rfl,
        ⟨⟨hx, b2⟩, b3, hy.le⟩, ?_⟩
      simp [hx.trans e2, e3.trans_lt hy]
    · refine ⟨((⟨⟨c.x, c.y, 0⟩, ⟨b.hi.x, b.hi.y, 0⟩⟩, _), 0), by simp [List.zipIdx]; rfl,
        ⟨⟨hx, b2⟩, hy, b4⟩, ?_⟩
      simp [hx.trans e2, hy.trans e4]
  | oct =>
    have ho2 : boxoverlap2 e e false = true := by
      have : Touch .quad e e := ⟨p, ⟨hep.1, hep.2.1⟩, ⟨hep.1, hep.2.1⟩⟩
      rwa [← overlap_iff .quad he he] at this
    simp only [Kind.dim3] at ho
    simp only [Option.some.injEq] at h
    subst h
    simp only [octants, bbox2oct, bbox2quad, ho, ho2, Bool.true_eq_false, if_false]
    obtain ⟨⟨b1, b2⟩, ⟨b3, b4⟩, b5, b6⟩ := hb
    obtain ⟨⟨e1, e2⟩, ⟨e3, e4⟩, e5, e6⟩ := hep
    rcases lt_or_ge p.x c.x with hx | hx <;> rcases lt_or_ge p.y c.y with hy | hy <;>
      rcases lt_or_ge p.z c.z with hz | hz
    · refine ⟨((⟨⟨b.lo.x, b.lo.y, b.lo.z⟩, ⟨c.x, c.y, c.z⟩⟩, _), 2), by simp [List.zipIdx]; rfl,
        ⟨⟨b1, hx.le⟩, ⟨b3, hy.le⟩, b5, hz.le⟩, ?_⟩
      simp [e1.trans_lt hx, e3.trans_lt hy, e5.trans_lt hz]
    · refine ⟨((⟨⟨b.lo.x, b.lo.y, c.z⟩, ⟨c.x, c.y, b.hi.z⟩⟩, _), 6), by simp [List.zipIdx]; rfl,
        ⟨⟨b1, hx.le⟩, ⟨b3, hy.le⟩, hz, b6⟩, ?_⟩
      simp [e1.trans_lt hx, e3.trans_lt hy, hz.trans e6]
    · refine ⟨((⟨⟨b.lo.x, c.y, b.lo.z⟩, ⟨c.x, b.hi.y, c.z⟩⟩, _), 1), by simp [List.zipIdx]; rfl,
        ⟨⟨b1, hx.le⟩, ⟨hy, b4⟩, b5, hz.le⟩, ?_⟩
      simp [e1.trans_lt hx, hy.trans e4, e5.trans_lt hz]
    · refine ⟨((⟨⟨b.lo.x, c.y, c.z⟩, ⟨c.x, b.hi.y, b.hi.z⟩⟩, _), 5), by simp [List.zipIdx]; rfl,
        ⟨⟨b1, hx.le⟩, ⟨hy, b4⟩, hz, b6⟩, ?_⟩
      simp [e1.trans_lt hx, hy.trans e4, hz.trans e6]
    · refine ⟨((⟨⟨c.x, b.lo.y, b.lo.z⟩, ⟨b.hi.x, c.y, c.z⟩⟩, _), 3), by simp [List.zipIdx]; rfl,
        ⟨⟨hx, b2⟩, ⟨b3, hy.le⟩, b5, hz.le⟩, ?_⟩
      simp [hx.trans e2, e3.trans_lt hy, e5.trans_lt hz]
    · refine ⟨((⟨⟨c.x, b.lo.y, c.z⟩, ⟨b.hi.x, c.y, b.hi.z⟩⟩, _), 7), by simp [List.zipIdx]; rfl,
        ⟨⟨hx, b2⟩, ⟨b3, hy.le⟩, hz, b6⟩, ?_⟩
      simp [hx.trans e2, e3.trans_lt hy, hz.trans e6]
    · refine ⟨((⟨⟨c.x, c.y, b.lo.z⟩, ⟨b.hi.x, b.hi.y, c.z⟩⟩, _), 0), by simp [List.zipIdx]; rfl,
        ⟨⟨hx, b2⟩, ⟨hy, b4⟩, b5, hz.le⟩, ?_⟩
      simp [hx.trans e2, hy.trans e4, e5.trans_lt hz]
    · refine ⟨((⟨⟨c.x, c.y, c.z⟩, ⟨b.hi.x, b.hi.y, b.hi.z⟩⟩, _), 4), by simp [List.zipIdx]; rfl,
        ⟨⟨hx, b2⟩, ⟨hy, b4⟩, hz, b6⟩, ?_⟩
      simp [hx.trans e2, hy.trans e4, hz.trans e6]

/-- Splitting a big enough box at an inner point never raises. -/
theorem box2boxes_ok {eps : K} {b : Box K} {c : P3 K} {k : Kind} (hc : b.Mem c)
    (hx : eps ≤ b.hi.x - b.lo.x) (hy : eps ≤ b.hi.y - b.lo.y)
    (hz : k = .oct → eps ≤ b.hi.z - b.lo.z) : ∃ l, box2boxes eps b c k = some l := by
  unfold box2boxes
  rw [if_neg, if_neg]
  · cases k <;> exact ⟨_, rfl⟩
  · rintro (h | h | ⟨h, h'⟩)
    · exact absurd h (not_lt.mpr hx)
    · exact absurd h (not_lt.mpr hy)
    · exact absurd h' (not_lt.mpr (hz h))
  · rw [(isinside_iff b c).mpr hc]; simp

theorem queryList_mem (k : Kind) (boxes : List (Box K)) (q : Box K) (i : Nat) :
    ∀ ts : List (Tree K), i ∈ queryList k boxes q ts ↔ ∃ t ∈ ts, i ∈ query k boxes q t
  | [] => by simp [queryList]
  | t :: ts => by simp [queryList, queryList_mem k boxes q i ts]

/-- Building never fails when the center is inside the (well-formed) box. -/
theorem build_ok (pr : Params K) (hm : pr.eps ≤ pr.mindim) (box : Box K) (c : P3 K)
    (elems : List (Elem K)) (d : Nat) (hc : box.Mem c) :
    ∃ t, build pr box c elems d = some t := by
  induction hn : pr.maxdepth + 1 - d generalizing box c elems d with
  | zero =>
    unfold build
    split_ifs with h1 h2
    · exact ⟨_, rfl⟩
    · exact ⟨_, rfl⟩
    · simp only [not_or] at h2; omega
  | succ n ih =>
    unfold build
    split_ifs with h1 h2
    · exact ⟨_, rfl⟩
    · exact ⟨_, rfl⟩
    · simp only [not_or, not_and, not_lt] at h2
      obtain ⟨_, h3, h4, h5, h6⟩ := h2
      obtain ⟨l, hl⟩ := box2boxes_ok (k := pr.kind) hc (hm.trans h4) (hm.trans h5)
        (fun h => hm.trans (h6 h))
      simp only [hl]
      obtain ⟨ts, hts⟩ := mapM_isSome (fun (bj : (Box K × P3 K) × Nat) =>
        build pr bj.1.1 bj.1.2 (elems.filter fun e => (octants pr.kind e.2 c).contains bj.2)
          (d + 1)) l.zipIdx (by
        intro x hx
        have hx' : x.1 ∈ l := by
          obtain ⟨_, _, he⟩ := List.mem_zipIdx hx
          rw [he]; exact List.getElem_mem _
        obtain ⟨hv, hcm⟩ := box2boxes_children hl x.1 hx'
        apply ih
        · rw [hcm]; exact boxmid_mem _ hv
        · omega)
      exact ⟨_, by rw [hts]; rfl⟩

/-- Completeness of descent: an element box and a query sharing a point of the node box. -/
theorem build_complete (pr : Params K) (boxes : List (Box K)) (q : Box K) (hq : q.Valid)
    (box : Box K) (c : P3 K) (elems : List (Elem K)) (d : Nat) (t : Tree K)
    (ht : build pr box c elems d = some t) (hv : box.Valid)
    (i : Nat) (b : Box K) (hb : b.Valid) (hi : (i, b) ∈ elems) (hbi : boxes[i]? = some b)
    (p : P3 K) (hp : box.MemK pr.kind p) (hpb : b.MemK pr.kind p) (hpq : q.MemK pr.kind p) :
    i ∈ query pr.kind boxes q t := by
  induction hn : pr.maxdepth + 1 - d generalizing box c elems d t with
  | zero =>
    unfold build at ht
    split_ifs at ht with h1 h2
    · simp only [List.isEmpty_iff] at h1; simp [h1] at hi
    · simp only [Option.some.injEq] at ht
      subst ht
      simp only [query, (overlap_iff pr.kind hv hq).mpr ⟨p, hp, hpq⟩, if_true, List.mem_filter,
        List.mem_map, hbi, (overlap_iff pr.kind hq hb).mpr ⟨p, hpq, hpb⟩, and_true]
      exact ⟨_, hi, rfl⟩
    · simp only [not_or] at h2; omega
  | succ n ih =>
    unfold build at ht
    split_ifs at ht with h1 h2
    · simp only [List.isEmpty_iff] at h1; simp [h1] at hi
    · simp only [Option.some.injEq] at ht
      subst ht
      simp only [query, (overlap_iff pr.kind hv hq).mpr ⟨p, hp, hpq⟩, if_true, List.mem_filter,
        List.mem_map, hbi, (overlap_iff pr.kind hq hb).mpr ⟨p, hpq, hpb⟩, and_true]
      exact ⟨_, hi, rfl⟩
    · cases hl : box2boxes pr.eps box c pr.kind with
      | none => simp [hl] at ht
      | some l =>
        simp only [hl, Option.map_eq_some_iff] at ht
        obtain ⟨ts, hts, rfl⟩ := ht
        obtain ⟨x, hx, hxp, hxo⟩ := split_covers hl b hb p hp hpb
        obtain ⟨t', ht', hbt⟩ := (mapM_some_mem _ _ _ hts).1 x hx
        simp only [query, queryList_mem]
        refine ⟨t', ht', ?_⟩
        have hx' : x.1 ∈ l := by
          obtain ⟨_, _, he⟩ := List.mem_zipIdx hx
          rw [he]; exact List.getElem_mem _
        refine ih _ _ _ _ _ hbt (box2boxes_children hl _ hx').1 ?_ hxp (by omega)
        exact List.mem_filter.mpr ⟨hi, hxo⟩

mutual
/-- Whatever the tree, a reported index has a box that passed the final overlap test. -/
theorem query_sound (k : Kind) (boxes : List (Box K)) (q : Box K) (i : Nat) :
    ∀ t : Tree K, i ∈ query k boxes q t →
      ∃ b, boxes[i]? = some b ∧ boxoverlap2 q b k.dim3 = true
  | .empty => by simp [query]
  | .leaf box c idxs => by
    simp only [query]
    split_ifs
    · intro h
      have := (List.mem_filter.mp h).2
      split at this
      · exact ⟨_, by assumption, this⟩
      · cases this
    · simp
  | .node cs => by
    simp only [query]
    exact queryList_sound k boxes q i cs
theorem queryList_sound (k : Kind) (boxes : List (Box K)) (q : Box K) (i : Nat) :
    ∀ ts : List (Tree K), i ∈ queryList k boxes q ts →
      ∃ b, boxes[i]? = some b ∧ boxoverlap2 q b k.dim3 = true
  | [] => by simp [queryList]
  | t :: ts => by
    simp only [queryList, List.mem_append]
    rintro (h | h)
    · exact query_sound k boxes q i t h
    · exact queryList_sound k boxes q i ts h
end

/-! ### Hull -/

/-- `a` contains `b`. -/
def Box.Covers (a b : Box K) : Prop :=
  (a.lo.x ≤ b.lo.x ∧ b.hi.x ≤ a.hi.x) ∧ (a.lo.y ≤ b.lo.y ∧ b.hi.y ≤ a.hi.y) ∧
  (a.lo.z ≤ b.lo.z ∧ b.hi.z ≤ a.hi.z)

theorem Box.Covers.trans {a b c : Box K} (h : a.Covers b) (h' : b.Covers c) : a.Covers c := by
  obtain ⟨⟨_, _⟩, ⟨_, _⟩, _, _⟩ := h
  obtain ⟨⟨_, _⟩, ⟨_, _⟩, _, _⟩ := h'
  refine ⟨⟨?_, ?_⟩, ⟨?_, ?_⟩, ?_, ?_⟩ <;> linarith

theorem Box.Covers.mem {a b : Box K} (h : a.Covers b) {p : P3 K} (hp : b.Mem p) : a.Mem p := by
  obtain ⟨⟨_, _⟩, ⟨_, _⟩, _, _⟩ := h
  obtain ⟨⟨_, _⟩, ⟨_, _⟩, _, _⟩ := hp
  refine ⟨⟨?_, ?_⟩, ⟨?_, ?_⟩, ?_, ?_⟩ <;> linarith

theorem Box.Covers.memK {a b : Box K} (h : a.Covers b) {k : Kind} {p : P3 K}
    (hp : b.MemK k p) : a.MemK k p := by
  obtain ⟨⟨_, _⟩, ⟨_, _⟩, _, _⟩ := h
  cases k
  · obtain ⟨⟨_, _⟩, _, _⟩ := hp
    refine ⟨⟨?_, ?_⟩, ?_, ?_⟩ <;> linarith
  · obtain ⟨⟨_, _⟩, ⟨_, _⟩, _, _⟩ := hp
    refine ⟨⟨?_, ?_⟩, ⟨?_, ?_⟩, ?_, ?_⟩ <;> linarith

theorem Box.Covers.refl (a : Box K) : a.Covers a := by
  refine ⟨⟨?_, ?_⟩, ⟨?_, ?_⟩, ?_, ?_⟩ <;> exact le_refl _

/-- One step of the hull. -/
theorem hull_foldl_covers : ∀ (bs : List (Box K)) (a : Box K),
    (bs.foldl (fun a b =>
      ⟨⟨min a.lo.x b.lo.x, min a.lo.y b.lo.y, min a.lo.z b.lo.z⟩,
       ⟨max a.hi.x b.hi.x, max a.hi.y b.hi.y, max a.hi.z b.hi.z⟩⟩) a).Covers a ∧
    ∀ b ∈ bs, (bs.foldl (fun a b =>
      ⟨⟨min a.lo.x b.lo.x, min a.lo.y b.lo.y, min a.lo.z b.lo.z⟩,
       ⟨max a.hi.x b.hi.x, max a.hi.y b.hi.y, max a.hi.z b.hi.z⟩⟩) a).Covers b
  | [], a => by simp [Box.Covers.refl]
  | b :: bs, a => by
    simp only [List.foldl_cons, List.mem_cons, forall_eq_or_imp]
    obtain ⟨h1, h2⟩ := hull_foldl_covers bs ⟨⟨min a.lo.x b.lo.x, min a.lo.y b.lo.y, min a.lo.z b.lo.z⟩,
       ⟨max a.hi.x b.hi.x, max a.hi.y b.hi.y, max a.hi.z b.hi.z⟩⟩
    refine ⟨h1.trans ?_, h1.trans ?_, h2⟩ <;> refine ⟨⟨?_, ?_⟩, ⟨?_, ?_⟩, ?_, ?_⟩ <;> simp

theorem hull_covers {l : List (Box K)} {h : Box K} (hh : hull l = some h) (b : Box K)
    (hb : b ∈ l) : h.Covers b := by
  cases l with
  | nil => cases hb
  | cons a l =>
    simp only [hull, Option.some.injEq] at hh
    subst hh
    obtain ⟨h1, h2⟩ := hull_foldl_covers l a
    rcases List.mem_cons.mp hb with rfl | hb
    · exact h1
    · exact h2 b hb

theorem covers_valid {a b : Box K} (h : a.Covers b) (hb : b.Valid) : a.Valid := by
  obtain ⟨⟨_, _⟩, ⟨_, _⟩, _, _⟩ := h
  obtain ⟨_, _, _⟩ := hb
  refine ⟨?_, ?_, ?_⟩ <;> linarith

/-! ### History invariant -/

/-- Invariant of reachable trees. -/
structure Inv (s : State K) (log : List (Box K)) : Prop where
  geom : s.geom = log
  mind : s.pr.eps ≤ s.pr.mindim
  valid : ∀ b ∈ log, b.Valid
  center : ∀ c, s.center = some c → ∃ h, hull log = some h ∧ h.Mem c
  bbox : ∀ b, s.bbox = some b → b.Valid ∧ ∃ h, hull log = some h ∧ h.Covers b
  built : s.update = false → log ≠ [] → s.indexed = some log ∧ ∃ pr bb c,
    pr.kind = s.pr.kind ∧ hull log = some bb ∧
    build pr bb c (log.zipIdx.map fun p => (p.2, p.1)) 0 = some s.tree

theorem hull_isSome {l : List (Box K)} (h : l ≠ []) : ∃ b, hull l = some b := by
  cases l with
  | nil => exact absurd rfl h
  | cons a l => exact ⟨_, rfl⟩

theorem hull_append_covers {l : List (Box K)} {h : Box K} (hh : hull l = some h) (b : Box K) :
    ∃ h', hull (l ++ [b]) = some h' ∧ h'.Covers h := by
  cases l with
  | nil => cases hh
  | cons a l =>
    simp only [hull, Option.some.injEq] at hh
    refine ⟨_, rfl, ?_⟩
    subst hh
    change (List.foldl _ a (l ++ [b])).Covers _
    rw [List.foldl_append]
    simp only [List.foldl_cons, List.foldl_nil]
    refine ⟨⟨?_, ?_⟩, ⟨?_, ?_⟩, ?_, ?_⟩ <;> simp

theorem inHull_mem {l : List (Box K)} {p : P3 K} (hp : InHull l p) :
    ∃ h, hull l = some h ∧ h.Mem p := by
  obtain ⟨⟨⟨b1, m1, h1⟩, b2, m2, h2⟩, ⟨⟨b3, m3, h3⟩, b4, m4, h4⟩, ⟨b5, m5, h5⟩, b6, m6, h6⟩ := hp
  obtain ⟨h, hh⟩ := hull_isSome (List.ne_nil_of_mem m1)
  refine ⟨h, hh, ⟨?_, ?_⟩, ⟨?_, ?_⟩, ?_, ?_⟩
  · exact (hull_covers hh b1 m1).1.1.trans h1
  · exact h2.trans (hull_covers hh b2 m2).1.2
  · exact (hull_covers hh b3 m3).2.1.1.trans h3
  · exact h4.trans (hull_covers hh b4 m4).2.1.2
  · exact (hull_covers hh b5 m5).2.2.1.trans h5
  · exact h6.trans (hull_covers hh b6 m6).2.2.2

theorem hull_valid {l : List (Box K)} (hv : ∀ b ∈ l, b.Valid) {h : Box K}
    (hh : hull l = some h) : h.Valid := by
  cases l with
  | nil => cases hh
  | cons a l => exact covers_valid (hull_covers hh a (by simp)) (hv a (by simp))

/-- Rebuilding succeeds and establishes an up-to-date index. -/
theorem updateTree_inv {s : State K} {log : List (Box K)} (hi : Inv s log) :
    ∃ s', updateTree s = some s' ∧ Inv s' log ∧ s'.pr = s.pr ∧
      (log ≠ [] → s'.indexed = some log ∧ ∃ pr bb c, pr.kind = s.pr.kind ∧ hull log = some bb ∧
        build pr bb c (log.zipIdx.map fun p => (p.2, p.1)) 0 = some s'.tree) := by
  unfold updateTree
  rw [hi.geom]
  split_ifs with h
  · refine ⟨s, rfl, hi, rfl, fun hne => ?_⟩
    rcases h with h | h
    · exact hi.built h hne
    · simp only [List.isEmpty_iff] at h; exact absurd h hne
  · simp only [not_or, List.isEmpty_iff] at h
    obtain ⟨bb, hbb⟩ := hull_isSome h.2
    have hbv := hull_valid hi.valid hbb
    simp only [hbb]
    have hc : bb.Mem (s.center.getD (boxmid bb)) := by
      cases hcs : s.center with
      | none => exact boxmid_mem bb hbv
      | some c =>
        obtain ⟨h', hh', hm⟩ := hi.center c hcs
        rw [hbb] at hh'
        cases hh'
        exact hm
    obtain ⟨t, ht⟩ := build_ok s.pr hi.mind bb _ (log.zipIdx.map fun p => (p.2, p.1)) 0 hc
    rw [ht]
    refine ⟨_, rfl, ?_, rfl, fun _ => ⟨rfl, s.pr, bb, _, rfl, rfl, ht⟩⟩
    constructor
    · rfl
    · exact hi.mind
    · exact hi.valid
    · intro c hc'
      simp only [Option.some.injEq] at hc'
      subst hc'
      exact ⟨bb, hbb, hc⟩
    · intro b hb
      simp only [Option.some.injEq] at hb
      subst hb
      exact ⟨hbv, bb, hbb, Box.Covers.refl _⟩
    · intro _ _
      exact ⟨rfl, s.pr, bb, _, rfl, hbb, ht⟩

theorem inv_init (pr : Params K) (geom : List (Box K)) (center : Option (P3 K))
    (hm : pr.eps ≤ pr.mindim) (hg : ∀ b ∈ geom, b.Valid)
    (hc : ∀ c, center = some c → InHull geom c) : Inv (init pr geom center) geom := by
  constructor
  · rfl
  · exact hm
  · exact hg
  · intro c h
    unfold init at h
    cases center with
    | some c' =>
      simp only [Option.some.injEq] at h
      subst h
      exact inHull_mem (hc c' rfl)
    | none =>
      simp only [Option.map_eq_some_iff] at h
      obtain ⟨a, ha, rfl⟩ := h
      exact ⟨a, ha, boxmid_mem a (hull_valid hg ha)⟩
  · intro b h
    simp only [init] at h
    exact ⟨hull_valid hg h, b, h, Box.Covers.refl _⟩
  · intro h; simp [init] at h

theorem reach_inv {s : State K} {log : List (Box K)} (h : Reach s log) : Inv s log := by
  induction h with
  | init pr geom center hm hg hc => exact inv_init pr geom center hm hg hc
  | @step s s' log op out _ hok hs hi =>
    cases op with
    | add b =>
      simp only [step, Option.some.injEq, Prod.mk.injEq] at hs
      obtain ⟨rfl, _⟩ := hs
      constructor
      · simp [addElement, hi.geom]
      · exact hi.mind
      · intro b' hb'
        rcases List.mem_append.mp hb' with hb' | hb'
        · exact hi.valid _ hb'
        · simp only [List.mem_singleton] at hb'; subst hb'; exact hok
      · intro c hc
        obtain ⟨h, hh, hm⟩ := hi.center c hc
        obtain ⟨h', hh', hcov⟩ := hull_append_covers hh b
        exact ⟨h', hh', hcov.mem hm⟩
      · intro c hc
        obtain ⟨hv, h, hh, hm⟩ := hi.bbox c hc
        obtain ⟨h', hh', hcov⟩ := hull_append_covers hh b
        exact ⟨hv, h', hh', hcov.trans hm⟩
      · intro h; simp [addElement] at h
    | recenter c =>
      simp only [step, Option.map_eq_some_iff, Prod.mk.injEq] at hs
      obtain ⟨s1, hs1, rfl, _⟩ := hs
      unfold updateCenter at hs1
      split_ifs at hs1 with hemp
      · simp only [Option.some.injEq] at hs1; subst hs1; exact hi
      · cases c with
        | some c =>
          simp only [Option.some.injEq] at hs1
          subst hs1
          refine ⟨hi.geom, hi.mind, hi.valid, ?_, hi.bbox, ?_⟩
          · intro c' hc'
            simp only [Option.some.injEq] at hc'
            subst hc'
            exact inHull_mem hok
          · intro h; simp at h
        | none =>
          simp only [Option.map_eq_some_iff] at hs1
          obtain ⟨b, hb, rfl⟩ := hs1
          refine ⟨hi.geom, hi.mind, hi.valid, ?_, hi.bbox, ?_⟩
          · intro c' hc'
            simp only [Option.some.injEq] at hc'
            subst hc'
            obtain ⟨hv, h, hh, hcov⟩ := hi.bbox b hb
            exact ⟨h, hh, hcov.mem (boxmid_mem b hv)⟩
          · intro h; simp at h
    | setMaxdepth d =>
      simp only [step] at hs
      split_ifs at hs
      simp only [Option.some.injEq, Prod.mk.injEq] at hs
      obtain ⟨rfl, _⟩ := hs
      exact ⟨hi.geom, hi.mind, hi.valid, hi.center, hi.bbox, hi.built⟩
    | setMindim d =>
      simp only [step] at hs
      split_ifs at hs with hd
      simp only [Option.some.injEq, Prod.mk.injEq] at hs
      obtain ⟨rfl, _⟩ := hs
      exact ⟨hi.geom, not_lt.mp hd, hi.valid, hi.center, hi.bbox, hi.built⟩
    | get q =>
      simp only [step, Option.map_eq_some_iff, Prod.mk.injEq] at hs
      obtain ⟨r, hr, rfl, _⟩ := hs
      unfold getElements at hr
      obtain ⟨s2, hs2, hi2, _⟩ := updateTree_inv hi
      simp only [hs2] at hr
      cases hx : s2.indexed with
      | none => simp [hx] at hr
      | some boxes =>
        simp only [hx, Option.some.injEq] at hr
        subst hr
        exact hi2

end Verif.OctTree
