import Verif.OctTree.Lemmas
import Mathlib.Data.Rat.Defs
import Mathlib.Algebra.Order.Field.Rat

/-! # Properties C01, C02, C03 (spatial tree) -/

namespace Verif.OctTree
variable {K : Type} [Field K] [LinearOrder K] [IsStrictOrderedRing K]
set_option linter.unusedSectionVars false

/-! ## C01 -/

/-- C01 (3-D): the overlap test answers exactly whether the closed boxes share a point. -/
theorem C01_boxoverlap_exact_3d (b1 b2 : Box K) (h1 : b1.Valid) (h2 : b2.Valid) :
    boxoverlap2 b1 b2 true = true ↔ ∃ p, b1.Mem p ∧ b2.Mem p :=
  overlap_iff .oct h1 h2

/-- C01 (2-D): with `dim3=False`, exactly whether the x-y projections share a point, whatever the
z extents. -/
theorem C01_boxoverlap_exact_2d (b1 b2 : Box K) (h1 : b1.Valid) (h2 : b2.Valid) :
    boxoverlap2 b1 b2 false = true ↔ ∃ p, b1.Mem2 p ∧ b2.Mem2 p :=
  overlap_iff .quad h1 h2

/-- C01: symmetric. -/
theorem C01_boxoverlap_symm (b1 b2 : Box K) (h1 : b1.Valid) (h2 : b2.Valid) (d : Bool) :
    boxoverlap2 b1 b2 d = boxoverlap2 b2 b1 d := by
  rw [Bool.eq_iff_iff]
  cases d
  · rw [C01_boxoverlap_exact_2d b1 b2 h1 h2, C01_boxoverlap_exact_2d b2 b1 h2 h1]
    exact ⟨fun ⟨p, a, b⟩ => ⟨p, b, a⟩, fun ⟨p, a, b⟩ => ⟨p, b, a⟩⟩
  · rw [C01_boxoverlap_exact_3d b1 b2 h1 h2, C01_boxoverlap_exact_3d b2 b1 h2 h1]
    exact ⟨fun ⟨p, a, b⟩ => ⟨p, b, a⟩, fun ⟨p, a, b⟩ => ⟨p, b, a⟩⟩

/-- Non-vacuity: a cross-shaped overlap with no corner of one box in the other. -/
example : (⟨⟨0, -3, 0⟩, ⟨1, 3, 1⟩⟩ : Box ℚ).Valid ∧ (⟨⟨-3, 0, 0⟩, ⟨3, 1, 1⟩⟩ : Box ℚ).Valid ∧
    boxoverlap2 (⟨⟨0, -3, 0⟩, ⟨1, 3, 1⟩⟩ : Box ℚ) ⟨⟨-3, 0, 0⟩, ⟨3, 1, 1⟩⟩ = true ∧
    boxoverlap2 (⟨⟨0, 0, 0⟩, ⟨1, 1, 1⟩⟩ : Box ℚ) ⟨⟨0, 0, 2⟩, ⟨1, 1, 3⟩⟩ = false := by
  unfold Box.Valid; decide +kernel

/-! ## C02 -/

/-- C02: in every reachable state of a tree to which at least one element has been given, a query
does not raise and returns exactly the (indices of the) elements, among all elements ever given,
whose box shares a point with the query box; no index twice. -/
theorem C02_query_exact {s : State K} {log : List (Box K)} (h : Reach s log) (hne : log ≠ [])
    (q : Box K) (hq : q.Valid) :
    ∃ idxs s', getElements s q = some (idxs, s') ∧ idxs.Nodup ∧
      ∀ i, i ∈ idxs ↔ ∃ b, log[i]? = some b ∧ Touch s.pr.kind q b := by
  have hi := reach_inv h
  obtain ⟨s', hs', _, hpr, hbuilt⟩ := updateTree_inv hi
  obtain ⟨hidx, pr, bb, c, hk, hbb, ht⟩ := hbuilt hne
  unfold getElements
  simp only [hs', hidx, Option.some.injEq, Prod.mk.injEq]
  refine ⟨_, _, ⟨rfl, rfl⟩, List.nodup_dedup _, fun i => ?_⟩
  rw [List.mem_dedup, hpr]
  constructor
  · intro hm
    obtain ⟨b, hb, ho⟩ := query_sound _ _ _ _ _ hm
    exact ⟨b, hb, (overlap_iff _ hq (hi.valid b (List.mem_of_getElem? hb))).mp ho⟩
  · rintro ⟨b, hb, p, hpq, hpb⟩
    have hbm := List.mem_of_getElem? hb
    rw [← hk] at hpq hpb ⊢
    refine build_complete pr log q hq bb c _ 0 _ ht (hull_valid hi.valid hbb) i b
      (hi.valid b hbm) ?_ hb p ((hull_covers hbb b hbm).memK hpb) hpb hpq
    simp only [List.mem_map]
    refine ⟨(b, i), ?_, rfl⟩
    exact List.mem_zipIdx_iff_getElem?.mpr hb

/-- Non-vacuity: a reachable two-element octree and a query. -/
example : ∃ (s : State ℚ), Reach s [⟨⟨0, 0, 0⟩, ⟨1, 1, 1⟩⟩, ⟨⟨5, 5, 5⟩, ⟨6, 7, 8⟩⟩] ∧
    (getElements s ⟨⟨0, 0, 0⟩, ⟨2, 2, 2⟩⟩).map (·.1) = some [0] := by
  refine ⟨_, Reach.step (op := .add ⟨⟨5, 5, 5⟩, ⟨6, 7, 8⟩⟩) (out := none)
    (Reach.init ⟨.oct, 7, 1, 1/200000⟩ [⟨⟨0, 0, 0⟩, ⟨1, 1, 1⟩⟩] none (by decide +kernel)
      (by intro b hb; simp only [List.mem_singleton] at hb; subst hb; unfold Box.Valid; decide +kernel)
      (by intro c h; cases h)) (by unfold OpOK Box.Valid; decide +kernel) rfl, ?_⟩
  decide +kernel

/-! ## C03 -/

/-- C03: the construction (a total function, hence always terminating) never goes deeper than one
below the configured maximum depth, and a leaf holding more than `n` elements is at the depth
limit or too small to split. -/
theorem C03_depth_bounded (pr : Params K) (box : Box K) (c : P3 K) (elems : List (Elem K))
    (d : Nat) (t : Tree K) (ht : build pr box c elems d = some t) (hd : d ≤ pr.maxdepth + 1)
    (n : Nat) (u : Tree K) (hu : Sub t n u) :
    d + n ≤ pr.maxdepth + 1 ∧
    ∀ b c' idxs, u = .leaf b c' idxs → idxs ≠ [] ∧
      (idxs.length ≤ pr.kind.n ∨ d + n = pr.maxdepth + 1 ∨ b.hi.x - b.lo.x < pr.mindim ∨
        b.hi.y - b.lo.y < pr.mindim ∨ (pr.kind = .oct ∧ b.hi.z - b.lo.z < pr.mindim)) := by
  induction n generalizing box c elems d t with
  | zero =>
    cases hu
    refine ⟨by omega, ?_⟩
    rintro b c' idxs rfl
    unfold build at ht
    split_ifs at ht with h1 h2
    · simp at ht
    · simp only [Option.some.injEq, Tree.leaf.injEq] at ht
      obtain ⟨rfl, rfl, rfl⟩ := ht
      refine ⟨by simpa using h1, ?_⟩
      rw [List.length_map]
      rcases h2 with h2 | h2 | h2 | h2 | h2
      · exact .inl h2
      · exact .inr (.inl (by omega))
      · exact .inr (.inr (.inl h2))
      · exact .inr (.inr (.inr (.inl h2)))
      · exact .inr (.inr (.inr (.inr h2)))
    · cases hl : box2boxes pr.eps box c pr.kind with
      | none => simp [hl] at ht
      | some l => simp [hl, Option.map_eq_some_iff] at ht
  | succ n ih =>
    cases hu with
    | @child cs c1 u n hc hsub =>
      unfold build at ht
      split_ifs at ht with h1 h2
      · simp at ht
      · simp at ht
      · simp only [not_or] at h2
        cases hl : box2boxes pr.eps box c pr.kind with
        | none => simp [hl] at ht
        | some l =>
          simp only [hl, Option.map_eq_some_iff, Tree.node.injEq] at ht
          obtain ⟨ts, hts, rfl⟩ := ht
          obtain ⟨x, hx, hbx⟩ := (mapM_some_mem _ _ _ hts).2 c1 hc
          have := ih _ _ _ (d + 1) _ hbx (by omega) hsub
          rw [show d + (n + 1) = d + 1 + n by omega]
          exact this

mutual
/-- Height of a tree (for the example below). -/
def Tree.height : Tree K → Nat
  | .empty => 0
  | .leaf _ _ _ => 0
  | .node cs => heightList cs + 1
/-- Maximum height of a list of trees. -/
def heightList : List (Tree K) → Nat
  | [] => 0
  | t :: ts => max t.height (heightList ts)
end

/-- Non-vacuity: five coincident boxes that no split separates still give a tree, and it reaches
the bound `maxdepth + 1`. -/
example : (build (⟨.quad, 2, 1, 1/200000⟩ : Params ℚ) ⟨⟨0, 0, 0⟩, ⟨100, 100, 0⟩⟩ ⟨50, 50, 0⟩
      ((List.range 5).map fun i => (i, ⟨⟨0, 0, 0⟩, ⟨100, 100, 0⟩⟩)) 0).map Tree.height = some 3 := by
  decide +kernel

end Verif.OctTree
