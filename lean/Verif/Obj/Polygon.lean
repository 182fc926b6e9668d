import Verif.Obj.Model
import Verif.Geom.LineProps
import Mathlib.Tactic.Ring
import Mathlib.Tactic.Linarith

/-!
# Mirrored figures, and the outlines of polygons
-/

namespace Verif.Obj

open Verif.Geom (V4 Line Fig Err eps linelength Same3 sampleline)

/-! ## Specification -/

/-- twice the signed area of a polyline in x and y (of the closed polygon if its last point is the first one): the sum of x_i y_{i+1} - x_{i+1} y_i -/
def Spec.area2 : List V4 → ℝ
  | p :: q :: r => (p.x * q.y - q.x * p.y) + Spec.area2 (q :: r)
  | _ => 0

/-- the lines from point to point and from the last point to the first one -/
def Spec.sides (ps : List V4) : List Line := (List.range ps.length).map fun i => ⟨ps.getD i ⟨0, 0, 0, 1⟩, ps.getD ((i + 1) % ps.length) ⟨0, 0, 0, 1⟩⟩

open Classical in
/-- the lines that are longer than epsilon -/
noncomputable def Spec.long (ls : List Line) : List Line := ls.filter fun (l : Line) => Geom.dist l.a l.b > eps

/-- the sum of the lengths -/
noncomputable def Spec.total (ls : List Line) : ℝ := (ls.map fun (l : Line) => Geom.dist l.a l.b).sum

/-- p is reached when one goes the distance d along the lines -/
def Spec.Reached (ls : List Line) (d : ℝ) (p : V4) : Prop :=
  ∃ (xs : List Line) (l : Line) (ys : List Line), ls = xs ++ l :: ys ∧ ∃ t, 0 ≤ t ∧ t ≤ 1 ∧ d = Spec.total xs + t * Geom.dist l.a l.b ∧
    p.x = l.a.x + t * (l.b.x - l.a.x) ∧ p.y = l.a.y + t * (l.b.y - l.a.y) ∧ p.z = l.a.z + t * (l.b.z - l.a.z)

/-! ## mirror -/

theorem area2_append : ∀ (ps : List V4) (p q : V4), Spec.area2 (ps ++ [p, q]) = Spec.area2 (ps ++ [p]) + (p.x * q.y - q.x * p.y)
  | [], p, q => by simp [Spec.area2]
  | [a], p, q => by simp [Spec.area2]
  | a :: b :: r, p, q => by
    have h := area2_append (b :: r) p q
    simp only [List.cons_append, Spec.area2] at h ⊢
    rw [h]; ring

theorem area2_reverse : ∀ (ps : List V4), Spec.area2 ps.reverse = - Spec.area2 ps
  | [] => by simp [Spec.area2]
  | [a] => by simp [Spec.area2]
  | a :: b :: r => by
    have h := area2_reverse (b :: r)
    rw [List.reverse_cons, List.reverse_cons, List.append_assoc]
    rw [List.reverse_cons] at h
    show Spec.area2 (r.reverse ++ [b, a]) = _
    rw [area2_append, h]
    simp only [Spec.area2]; ring

theorem area2_flip (sx sy : ℝ) (f : V4 → V4) (hx : ∀ p, (f p).x = sx * p.x) (hy : ∀ p, (f p).y = sy * p.y) : ∀ ps : List V4, Spec.area2 (ps.map f) = sx * sy * Spec.area2 ps
  | [] => by simp [Spec.area2]
  | [a] => by simp [Spec.area2]
  | a :: b :: r => by
    have h := area2_flip sx sy f hx hy (b :: r)
    simp only [List.map_cons, Spec.area2] at h ⊢
    rw [h, hx, hx, hy, hy]; ring

/-- **C257.** Mirrored at the xz or yz plane with `keepSign` (the default), a polyline becomes the polyline of the mirrored points in reverse, and a closed polygon keeps its signed area. -/
theorem C257_area_partial (pl : Geom.Plane) (hpl : pl ≠ .xy) (ps : List V4) :
    ∃ qs, mirror pl true (.poly ps) = .ok (some (.poly qs)) ∧ qs.reverse = ps.map (fun p => Geom.mul4 p (Geom.flip pl)) ∧ Spec.area2 qs = Spec.area2 ps := by
  refine ⟨(ps.map fun p => Geom.mul4 p (Geom.flip pl)).reverse, ?_, List.reverse_reverse _, ?_⟩
  · unfold mirror; rw [if_pos rfl]; unfold Geom.Fig.mirror reverseFig; rfl
  · rw [area2_reverse]
    cases pl with
    | xz => rw [area2_flip 1 (-1) _ (fun p => by simp [Geom.mul4, Geom.flip]) (fun p => by simp [Geom.mul4, Geom.flip])]; ring
    | yz => rw [area2_flip (-1) 1 _ (fun p => by simp [Geom.mul4, Geom.flip]) (fun p => by simp [Geom.mul4, Geom.flip])]; ring
    | xy => exact absurd rfl hpl

/-- **C257 (lines).** A line becomes the mirrored line in reverse. -/
theorem C257_line (pl : Geom.Plane) (l : Line) : mirror pl true (.line l) = .ok (some (.line ⟨Geom.mul4 l.b (Geom.flip pl), Geom.mul4 l.a (Geom.flip pl)⟩)) := by
  unfold mirror; rw [if_pos rfl]; unfold Geom.Fig.mirror reverseFig; rfl

/-- **C257 (the xy plane).** Mirrored at the xy plane with `keepSign`, a polygon changes the sign of its area. -/
theorem C257_xy (ps : List V4) : ∃ qs, mirror .xy true (.poly ps) = .ok (some (.poly qs)) ∧ Spec.area2 qs = - Spec.area2 ps := by
  refine ⟨(ps.map fun p => Geom.mul4 p (Geom.flip .xy)).reverse, ?_, ?_⟩
  · unfold mirror; rw [if_pos rfl]; unfold Geom.Fig.mirror reverseFig; rfl
  · rw [area2_reverse, area2_flip 1 1 _ (fun p => by simp [Geom.mul4, Geom.flip]) (fun p => by simp [Geom.mul4, Geom.flip])]; ring

/-- **C257 (arcs and points).** A `Geometry` that is a point, an arc or a circle cannot be mirrored: `ValueError`. -/
theorem C257_arc (pl : Geom.Plane) (a : Geom.Arc) (p : V4) : mirror pl true (.arc a) = .error .valueError ∧ mirror pl true (.point p) = .error .valueError := by
  unfold mirror; rw [if_pos rfl, if_pos rfl]; unfold Geom.Fig.mirror reverseFig; exact ⟨rfl, rfl⟩

/-! ## polygons of points -/

theorem joinAll_points (e : V4) : ∀ (ps : List V4), ps ≠ [] → joinAll (.point e) (ps.map .point) = List.zipWith Line.mk ps (ps.tail ++ [e])
  | [], h => absurd rfl h
  | [p], _ => rfl
  | p :: q :: r, _ => by
    have h := joinAll_points e (q :: r) (by simp)
    simp only [List.map_cons] at h ⊢
    unfold joinAll
    rw [h]
    rfl

theorem sides_eq (p : V4) (ps : List V4) : Spec.sides (p :: ps) = List.zipWith Line.mk (p :: ps) (ps ++ [p]) := by
  apply List.ext_getElem
  · simp [Spec.sides]
  · intro i h1 h2
    simp only [Spec.sides, List.length_cons, List.length_map, List.length_range] at h1
    rw [List.getElem_zipWith]
    simp only [Spec.sides, List.getElem_map, List.getElem_range, List.length_cons]
    congr 1
    · rw [List.getD_eq_getElem?_getD, List.getElem?_eq_getElem (by simpa using h1)]; rfl
    · by_cases hi : i = ps.length
      · subst hi
        rw [Nat.mod_self, List.getElem_append_right (le_refl _)]
        simp
      · have hlt : i < ps.length := by omega
        rw [Nat.mod_eq_of_lt (by omega), List.getElem_append_left hlt, List.getD_eq_getElem?_getD, List.getElem?_cons_succ, List.getElem?_eq_getElem hlt]; rfl

/-- lines that share an end are not changed -/
theorem shared (e1 e2 : Line) (h : e1.b = e2.a) (hz : Geom.llPlanar e1 e2) : (∃ q, Geom.lineLineIntersectXY e1 e2 true = .ok (some q)) ∨
    Geom.lineLineIntersectXY e1 e2 true = .ok none ∧ Geom.lineLineIntersectXY e1 e2 false = .ok none := by
  unfold Geom.lineLineIntersectXY
  rw [if_pos hz, if_pos hz]
  by_cases hd : Geom.llDenom e1 e2 * Geom.llDenom e1 e2 < eps
  · rw [if_pos hd, if_pos hd]; exact .inr ⟨rfl, rfl⟩
  · rw [if_neg hd]
    have hne := Geom.denom_ne hd
    have ht : Geom.llT e1 e2 = 1 := by
      unfold Geom.llT; rw [div_eq_one_iff_eq hne]; unfold Geom.llDenom; rw [h]
    have hu : Geom.llU e1 e2 = 0 := by
      unfold Geom.llU; rw [← h]; rw [div_eq_zero_iff]; left; ring
    dsimp only
    rw [ht, hu, if_neg (by rintro ⟨_, h | h | h | h⟩ <;> revert h <;> norm_num)]
    exact .inl ⟨_, rfl⟩

theorem mend_id {o : List Line} (h : ∀ i, i < o.length → ∀ e1 e2, o[i]? = some e1 → o[if i = o.length - 1 then 0 else i + 1]? = some e2 → e1.b = e2.a ∧ Geom.llPlanar e1 e2) (i : ℕ) (hi : i < o.length) : mend o i = .ok o := by
  unfold mend
  rcases h1 : o[i]? with _ | e1
  · rfl
  rcases h2 : o[if i = o.length - 1 then 0 else i + 1]? with _ | e2
  · rfl
  dsimp only
  obtain ⟨hs, hz⟩ := h i hi e1 e2 h1 h2
  rcases shared e1 e2 hs hz with ⟨q, e⟩ | ⟨e, e'⟩
  · rw [e]
  · rw [e]; dsimp only; rw [e']

theorem mendAll_id {o : List Line} : ∀ (is : List ℕ), (∀ i ∈ is, mend o i = .ok o) → mendAll o is = .ok o
  | [], _ => rfl
  | i :: r, h => by
    unfold mendAll
    rw [h i List.mem_cons_self]
    exact mendAll_id r fun j hj => h j (List.mem_cons_of_mem _ hj)

/-- the outline of at least two points at one height -/
theorem outline_points (p q : V4) (r : List V4) (z : ℝ) (hz : ∀ x ∈ p :: q :: r, x.z = z) : outline ((p :: q :: r).map .point) = .ok (Spec.long (Spec.sides (p :: q :: r))) := by
  have hj : joinAll (.point p) ((p :: q :: r).map .point) = Spec.sides (p :: q :: r) := by
    rw [joinAll_points p _ (by simp), sides_eq]; rfl
  have hout : outline ((p :: q :: r).map .point) = match mendAll (Spec.sides (p :: q :: r)) ((List.range (Spec.sides (p :: q :: r)).length).drop 1) with
      | .error e => .error e
      | .ok o => .ok (cull o) := by
    rw [← hj]; rfl
  have hlen : (Spec.sides (p :: q :: r)).length = r.length + 2 := by simp [Spec.sides]
  have hget : ∀ i, i < r.length + 2 → (Spec.sides (p :: q :: r))[i]? = some ⟨(p :: q :: r).getD i ⟨0, 0, 0, 1⟩, (p :: q :: r).getD ((i + 1) % (r.length + 2)) ⟨0, 0, 0, 1⟩⟩ := by
    intro i hi
    unfold Spec.sides
    rw [List.getElem?_map, List.getElem?_range (by simp only [List.length_cons]; omega)]
    rfl
  have hzz : ∀ i, i < r.length + 2 → ((p :: q :: r).getD i ⟨0, 0, 0, 1⟩).z = z := by
    intro i hi
    rw [List.getD_eq_getElem?_getD, List.getElem?_eq_getElem (by simp only [List.length_cons]; omega)]
    exact hz _ (List.getElem_mem _)
  have hm : ∀ i, i < r.length + 2 → mend (Spec.sides (p :: q :: r)) i = .ok (Spec.sides (p :: q :: r)) := by
    intro i hi
    refine mend_id (fun i hi e1 e2 h1 h2 => ?_) i (by rw [hlen]; exact hi)
    rw [hlen] at hi h2
    have hnext : (if i = r.length + 2 - 1 then 0 else i + 1) = (i + 1) % (r.length + 2) := by
      by_cases h : i = r.length + 2 - 1
      · rw [if_pos h, h, show r.length + 2 - 1 + 1 = r.length + 2 by omega, Nat.mod_self]
      · rw [if_neg h, Nat.mod_eq_of_lt (by omega)]
    rw [hnext] at h2
    have hj : (i + 1) % (r.length + 2) < r.length + 2 := Nat.mod_lt _ (by omega)
    rw [hget i hi] at h1
    rw [hget _ hj] at h2
    cases h1; cases h2
    refine ⟨rfl, ?_⟩
    unfold Geom.llPlanar
    dsimp only
    rw [hzz _ hi, hzz _ hj, hzz _ (Nat.mod_lt _ (by omega)), sub_self, abs_zero]
    have := Geom.eps_pos
    push Not
    exact ⟨this.le, this.le, this.le⟩
  rw [hout, mendAll_id _ (fun i hi => hm i (by have := List.mem_of_mem_drop hi; rw [List.mem_range, hlen] at this; exact this))]
  rfl

/-- **C258.** The figure of a polygon of two or more points at one height is the closed chain of the lines from each point to the next and from the last to the first, without those not longer than epsilon. -/
theorem C258_outline_partial (ps : List V4) (h2 : 2 ≤ ps.length) (z : ℝ) (hz : ∀ p ∈ ps, p.z = z) : outline (ps.map .point) = .ok (Spec.long (Spec.sides ps)) := by
  match ps, h2 with
  | p :: q :: r, _ => exact outline_points p q r z hz

theorem foldl_add : ∀ (xs : List ℝ) (a : ℝ), xs.foldl (· + ·) a = a + xs.sum
  | [], a => by simp
  | x :: r, a => by rw [List.foldl_cons, foldl_add r, List.sum_cons, add_assoc]

theorem outlineLength_eq (o : List Line) : outlineLength o = Spec.total o := by
  unfold outlineLength Spec.total
  rw [foldl_add, zero_add]; rfl

/-- **C258 (length).** The length of a polygon is the sum of the distances from each point to the next, if none is so short that it is left out. -/
theorem C258_length (ps : List V4) (h2 : 2 ≤ ps.length) (z : ℝ) (hz : ∀ p ∈ ps, p.z = z) (hl : ∀ l ∈ Spec.sides ps, eps < Geom.dist l.a l.b) :
    ∃ o, outline (ps.map .point) = .ok o ∧ o = Spec.sides ps ∧ outlineLength o = ((List.range ps.length).map fun i => Geom.dist (ps.getD i ⟨0, 0, 0, 1⟩) (ps.getD ((i + 1) % ps.length) ⟨0, 0, 0, 1⟩)).sum := by
  have e : Spec.long (Spec.sides ps) = Spec.sides ps := by
    unfold Spec.long
    rw [List.filter_eq_self]
    intro l h
    simpa using hl l h
  refine ⟨_, C258_outline_partial ps h2 z hz, e, ?_⟩
  rw [e, outlineLength_eq]
  unfold Spec.total Spec.sides
  rw [List.map_map]; rfl

/-- **C258 (lines as elements).** A polygon with a line as element, here between two points, is not closed: after the line the outline goes on from its start, not from its end. -/
theorem C258_line : ∃ (p q : V4) (l : Line), outline [.point p, .line l, .point q] = .ok [⟨p, l.a⟩, l, ⟨l.a, q⟩, ⟨q, p⟩] ∧ ¬ Same3 l.a l.b := by
  refine ⟨⟨0, 0, 0, 1⟩, ⟨0, 2, 0, 1⟩, ⟨⟨2, 0, 0, 1⟩, ⟨2, 2, 0, 1⟩⟩, ?_, ?_⟩
  · have hpl : ∀ e1 e2 : Line, e1.a.z = 0 → e1.b.z = 0 → e2.a.z = 0 → e2.b.z = 0 → Geom.llPlanar e1 e2 := by
      intro e1 e2 h1 h2 h3 h4
      unfold Geom.llPlanar
      rw [h1, h2, h3, h4, sub_self, abs_zero]
      have := Geom.eps_pos
      push Not
      exact ⟨this.le, this.le, this.le⟩
    have he : eps < 1 := by unfold eps; norm_num
    have hi : ∀ e1 e2 : Line, e1.a.z = 0 → e1.b.z = 0 → e2.a.z = 0 → e2.b.z = 0 → 1 ≤ Geom.llDenom e1 e2 * Geom.llDenom e1 e2 → 0 ≤ Geom.llT e1 e2 → Geom.llT e1 e2 ≤ 1 → 0 ≤ Geom.llU e1 e2 → Geom.llU e1 e2 ≤ 1 →
        ∃ x, Geom.lineLineIntersectXY e1 e2 true = .ok (some x) := by
      intro e1 e2 h1 h2 h3 h4 h5 h6 h7 h8 h9
      unfold Geom.lineLineIntersectXY
      rw [if_pos (hpl e1 e2 h1 h2 h3 h4), if_neg (by linarith)]
      dsimp only
      rw [if_neg (by rintro ⟨_, h | h | h | h⟩ <;> linarith)]
      exact ⟨_, rfl⟩
    have hm : ∀ i, i < 4 → mend [⟨⟨0, 0, 0, 1⟩, ⟨2, 0, 0, 1⟩⟩, ⟨⟨2, 0, 0, 1⟩, ⟨2, 2, 0, 1⟩⟩, ⟨⟨2, 0, 0, 1⟩, ⟨0, 2, 0, 1⟩⟩, ⟨⟨0, 2, 0, 1⟩, ⟨0, 0, 0, 1⟩⟩] i =
        .ok [⟨⟨0, 0, 0, 1⟩, ⟨2, 0, 0, 1⟩⟩, ⟨⟨2, 0, 0, 1⟩, ⟨2, 2, 0, 1⟩⟩, ⟨⟨2, 0, 0, 1⟩, ⟨0, 2, 0, 1⟩⟩, ⟨⟨0, 2, 0, 1⟩, ⟨0, 0, 0, 1⟩⟩] := by
      intro i hi4
      have hc : i = 0 ∨ i = 1 ∨ i = 2 ∨ i = 3 := by omega
      have go : ∀ e1 e2 : Line, ∀ o : List Line, o[i]? = some e1 → o[if i = o.length - 1 then 0 else i + 1]? = some e2 → (∃ x, Geom.lineLineIntersectXY e1 e2 true = .ok (some x)) → mend o i = .ok o := by
        intro e1 e2 o h1 h2 ⟨x, h3⟩
        unfold mend; rw [h1, h2]; dsimp only; rw [h3]
      rcases hc with rfl | rfl | rfl | rfl
      · exact go _ _ _ rfl rfl (hi _ _ rfl rfl rfl rfl (by unfold Geom.llDenom; norm_num) (by unfold Geom.llT Geom.llDenom; norm_num) (by unfold Geom.llT Geom.llDenom; norm_num) (by unfold Geom.llU Geom.llDenom; norm_num) (by unfold Geom.llU Geom.llDenom; norm_num))
      · exact go _ _ _ rfl rfl (hi _ _ rfl rfl rfl rfl (by unfold Geom.llDenom; norm_num) (by unfold Geom.llT Geom.llDenom; norm_num) (by unfold Geom.llT Geom.llDenom; norm_num) (by unfold Geom.llU Geom.llDenom; norm_num) (by unfold Geom.llU Geom.llDenom; norm_num))
      · exact go _ _ _ rfl rfl (hi _ _ rfl rfl rfl rfl (by unfold Geom.llDenom; norm_num) (by unfold Geom.llT Geom.llDenom; norm_num) (by unfold Geom.llT Geom.llDenom; norm_num) (by unfold Geom.llU Geom.llDenom; norm_num) (by unfold Geom.llU Geom.llDenom; norm_num))
      · exact go _ _ _ rfl rfl (hi _ _ rfl rfl rfl rfl (by unfold Geom.llDenom; norm_num) (by unfold Geom.llT Geom.llDenom; norm_num) (by unfold Geom.llT Geom.llDenom; norm_num) (by unfold Geom.llU Geom.llDenom; norm_num) (by unfold Geom.llU Geom.llDenom; norm_num))
    have hlong : ∀ l : Line, 1 ≤ Geom.sqDist l.a l.b → linelength l > eps := by
      intro l h
      unfold linelength
      rw [Geom.dist_eq_sqrt]
      have : (1:ℝ) ≤ √(Geom.sqDist l.a l.b) := by rw [Real.one_le_sqrt]; exact h
      linarith
    unfold outline
    simp only [joinAll, fromPointAdd, Elem.from, List.cons_append, List.nil_append, List.length_cons, List.length_nil]
    rw [mendAll_id _ (fun i h => hm i (by have := List.mem_of_mem_drop h; simpa using this))]
    dsimp only
    congr 1
    unfold cull
    rw [List.filter_eq_self]
    intro l hl
    simp only [List.mem_cons, List.not_mem_nil, or_false] at hl
    simp only [decide_eq_true_eq]
    rcases hl with rfl | rfl | rfl | rfl <;> exact hlong _ (by unfold Geom.sqDist; norm_num)
  · unfold Same3; norm_num

/-! ## construction -/

/-- the lines of a polyline -/
def Spec.chain : List V4 → List Line
  | p :: q :: r => ⟨p, q⟩ :: Spec.chain (q :: r)
  | _ => []

theorem chain_eq : ∀ (p : V4) (ps : List V4), Spec.chain (p :: ps) = List.zipWith Line.mk (p :: ps) ps
  | _, [] => rfl
  | p, q :: r => by
    unfold Spec.chain
    rw [chain_eq q r]
    rfl

theorem collect_points : ∀ (ps : List V4), construct.collect (ps.map .point) = .ok ps
  | [] => rfl
  | p :: r => by
    rw [List.map_cons]
    unfold construct.collect
    rw [collect_points r]

/-- **C259.** The polygon made from a closed polyline at one height (the last point the first one again) has the lines of the polyline as its figure (but for those not longer than epsilon). -/
theorem C259_polyline_partial (p q : V4) (r : List V4) (z : ℝ) (hz : ∀ x ∈ p :: q :: r, x.z = z) :
    ∃ es, construct ((p :: q :: r ++ [p]).map .point) = .ok es ∧ outline es = .ok (Spec.long (Spec.chain (p :: q :: r ++ [p]))) := by
  refine ⟨(p :: q :: r).map .point, ?_, ?_⟩
  · unfold construct
    rw [collect_points]
    have hs : ∃ c t, r ++ [p] = c :: t := by cases r <;> exact ⟨_, _, rfl⟩
    obtain ⟨c, t, hs⟩ := hs
    have hlast : (q :: c :: t).getLast (by simp) = p := by
      have : (q :: (r ++ [p])).getLast (by simp) = p := by simp
      simp only [hs] at this
      exact this
    rw [show (p :: q :: r ++ [p]) = p :: q :: c :: t by rw [← hs]; rfl]
    dsimp only
    rw [hlast, if_pos (by rw [(Geom.dist_eq_zero p p).mpr ⟨rfl, rfl, rfl⟩]; exact Geom.eps_pos)]
    congr 2
    rw [← hs]
    rw [← List.cons_append, ← List.cons_append, List.dropLast_concat]
  · rw [outline_points p q r z hz, sides_eq]
    congr 2
    have := chain_eq p (q :: r ++ [p])
    rw [show (p :: q :: r ++ [p]) = p :: (q :: r ++ [p]) from rfl, this]
    apply List.ext_getElem
    · simp
    · intro i h1 h2
      have hi : i < (p :: q :: r).length := by simp at h1 ⊢; omega
      rw [List.getElem_zipWith, List.getElem_zipWith]
      congr 1
      rw [← List.getElem_append_left (bs := [p]) hi]
      rfl

/-- **C259 (lines).** A polygon made from lines has no elements: its figure is empty. -/
theorem C259_lines (ls : List Line) : ∃ es, construct (ls.map .line) = .ok es ∧ outline es = .ok [] := by
  have : ∀ ls : List Line, construct.collect (ls.map .line) = .ok [] := by
    intro ls
    induction ls with
    | nil => rfl
    | cons l r ih => rw [List.map_cons]; unfold construct.collect; exact ih
  refine ⟨[], ?_, rfl⟩
  unfold construct
  rw [this]
  rfl

/-! ## sampling -/

theorem walk_reached (dst : ℝ) : ∀ (o xs : List Line), (∀ l ∈ o, 0 < linelength l) → Spec.total xs ≤ dst → dst ≤ Spec.total xs + Spec.total o → o ≠ [] →
    ∃ p, walk dst o (Spec.total xs) = .ok (some p) ∧ Spec.Reached (xs ++ o) dst p
  | [], _, _, _, _, h => absurd rfl h
  | l :: r, xs, hp, h1, h2, _ => by
    have hl : 0 < linelength l := hp l List.mem_cons_self
    unfold walk
    by_cases hd : dst ≤ Spec.total xs + linelength l
    · rw [if_pos hd, if_neg hl.ne']
      refine ⟨_, rfl, xs, l, r, rfl, (dst - Spec.total xs) / linelength l, div_nonneg (by linarith) hl.le, (div_le_one hl).mpr (by linarith), ?_, ?_⟩
      · show dst = Spec.total xs + (dst - Spec.total xs) / linelength l * linelength l
        rw [div_mul_cancel₀ _ hl.ne']; ring
      · have : 1 - (Spec.total xs + linelength l - dst) / linelength l = (dst - Spec.total xs) / linelength l := by field_simp; ring
        rw [this]
        unfold sampleline Geom.add Geom.scale3
        dsimp only
        refine ⟨by ring, by ring, by ring⟩
    · rw [if_neg hd]
      have ht : Spec.total (xs ++ [l]) = Spec.total xs + linelength l := by unfold Spec.total; simp; rfl
      have ht2 : Spec.total (l :: r) = linelength l + Spec.total r := by unfold Spec.total; simp; rfl
      have hr : r ≠ [] := by
        rintro rfl
        apply hd
        have : Spec.total ([] : List Line) = 0 := rfl
        rw [ht2, this] at h2; linarith
      have := walk_reached dst r (xs ++ [l]) (fun x hx => hp x (List.mem_cons_of_mem _ hx)) (by rw [ht]; linarith) (by rw [ht]; rw [ht2] at h2; linarith) hr
      rw [ht, List.append_assoc] at this
      exact this

/-- **C260.** `sample(u)` of a polygon of points at one height is, for every u, the point reached along its figure at u (its fractional part) times its length. -/
theorem C260_sample_partial (ps : List V4) (h2 : 2 ≤ ps.length) (z : ℝ) (hz : ∀ p ∈ ps, p.z = z) (hne : Spec.long (Spec.sides ps) ≠ []) (u : ℝ) :
    ∃ p, samplePolygon (ps.map .point) u = .ok (some p) ∧ Spec.Reached (Spec.long (Spec.sides ps)) ((u - ⌊u⌋) * Spec.total (Spec.long (Spec.sides ps))) p := by
  have hpos : ∀ l ∈ Spec.long (Spec.sides ps), 0 < linelength l := by
    intro l hl
    unfold Spec.long at hl
    have := (List.mem_filter.mp hl).2
    have := of_decide_eq_true this
    exact lt_trans Geom.eps_pos this
  have htot : 0 ≤ Spec.total (Spec.long (Spec.sides ps)) := by
    unfold Spec.total
    apply List.sum_nonneg
    intro x hx
    obtain ⟨l, hl, rfl⟩ := List.mem_map.mp hx
    exact (hpos l hl).le
  have hu0 := Int.fract_nonneg u
  have hu1 := (Int.fract_lt_one u).le
  unfold Int.fract at hu0 hu1
  obtain ⟨p, e, hp⟩ := walk_reached ((u - ⌊u⌋) * Spec.total (Spec.long (Spec.sides ps))) _ [] hpos (by show (0:ℝ) ≤ _; exact mul_nonneg hu0 htot)
    (by show _ ≤ (0:ℝ) + _; rw [zero_add]; exact mul_le_of_le_one_left htot hu1) hne
  refine ⟨p, ?_, hp⟩
  unfold samplePolygon
  rw [C258_outline_partial ps h2 z hz]
  rcases ho : Spec.long (Spec.sides ps) with _ | ⟨l, r⟩
  · exact absurd ho hne
  · rw [ho] at e
    dsimp only
    rw [outlineLength_eq]
    exact e

/-! ## rectangles -/

/-- **C261.** A rectangle with positive sides has, counterclockwise from its upper left corner, the four sides with the corners at half the width and height from the centre; its length is twice the width and height, and its area
is width times height. -/
theorem C261_rect (w h : ℝ) (c : V4) (hw : eps < w) (hh : eps < h) :
    outline (rect w h c) = .ok [⟨⟨c.x - w / 2, c.y + h / 2, c.z, 1⟩, ⟨c.x - w / 2, c.y - h / 2, c.z, 1⟩⟩, ⟨⟨c.x - w / 2, c.y - h / 2, c.z, 1⟩, ⟨c.x + w / 2, c.y - h / 2, c.z, 1⟩⟩,
      ⟨⟨c.x + w / 2, c.y - h / 2, c.z, 1⟩, ⟨c.x + w / 2, c.y + h / 2, c.z, 1⟩⟩, ⟨⟨c.x + w / 2, c.y + h / 2, c.z, 1⟩, ⟨c.x - w / 2, c.y + h / 2, c.z, 1⟩⟩] ∧
    (∃ o, outline (rect w h c) = .ok o ∧ outlineLength o = 2 * (w + h) ∧ Spec.area2 (o.map (·.a) ++ (o.map (·.a)).take 1) = 2 * (w * h)) := by
  have hw0 : 0 < w := lt_trans Geom.eps_pos hw
  have hh0 : 0 < h := lt_trans Geom.eps_pos hh
  set ps : List V4 := [⟨c.x - w / 2, c.y + h / 2, c.z, 1⟩, ⟨c.x - w / 2, c.y - h / 2, c.z, 1⟩, ⟨c.x + w / 2, c.y - h / 2, c.z, 1⟩, ⟨c.x + w / 2, c.y + h / 2, c.z, 1⟩] with hps
  have e0 : rect w h c = ps.map .point := by
    rw [hps]
    unfold rect Geom.add Geom.pt
    simp only [List.map_cons, List.map_nil]
    have x1 : -(w / 2) + c.x = c.x - w / 2 := by ring
    have x2 : w / 2 + c.x = c.x + w / 2 := by ring
    have y1 : -(h / 2) + c.y = c.y - h / 2 := by ring
    have y2 : h / 2 + c.y = c.y + h / 2 := by ring
    rw [x1, x2, y1, y2, zero_add]
  have hd : ∀ a b : V4, ∀ d, 0 ≤ d → Geom.sqDist a b = d ^ 2 → Geom.dist a b = d := by
    intro a b d hd h
    rw [Geom.dist_eq_sqrt, h, Real.sqrt_sq hd]
  have d1 : Geom.dist ⟨c.x - w / 2, c.y + h / 2, c.z, 1⟩ ⟨c.x - w / 2, c.y - h / 2, c.z, 1⟩ = h := hd _ _ _ hh0.le (by unfold Geom.sqDist; dsimp only; ring)
  have d2 : Geom.dist ⟨c.x - w / 2, c.y - h / 2, c.z, 1⟩ ⟨c.x + w / 2, c.y - h / 2, c.z, 1⟩ = w := hd _ _ _ hw0.le (by unfold Geom.sqDist; dsimp only; ring)
  have d3 : Geom.dist ⟨c.x + w / 2, c.y - h / 2, c.z, 1⟩ ⟨c.x + w / 2, c.y + h / 2, c.z, 1⟩ = h := hd _ _ _ hh0.le (by unfold Geom.sqDist; dsimp only; ring)
  have d4 : Geom.dist ⟨c.x + w / 2, c.y + h / 2, c.z, 1⟩ ⟨c.x - w / 2, c.y + h / 2, c.z, 1⟩ = w := hd _ _ _ hw0.le (by unfold Geom.sqDist; dsimp only; ring)
  have hs : Spec.sides ps = [⟨⟨c.x - w / 2, c.y + h / 2, c.z, 1⟩, ⟨c.x - w / 2, c.y - h / 2, c.z, 1⟩⟩, ⟨⟨c.x - w / 2, c.y - h / 2, c.z, 1⟩, ⟨c.x + w / 2, c.y - h / 2, c.z, 1⟩⟩,
      ⟨⟨c.x + w / 2, c.y - h / 2, c.z, 1⟩, ⟨c.x + w / 2, c.y + h / 2, c.z, 1⟩⟩, ⟨⟨c.x + w / 2, c.y + h / 2, c.z, 1⟩, ⟨c.x - w / 2, c.y + h / 2, c.z, 1⟩⟩] := by
    rw [hps, sides_eq]; rfl
  have hl : ∀ l ∈ Spec.sides ps, eps < Geom.dist l.a l.b := by
    rw [hs]
    intro l hl
    simp only [List.mem_cons, List.not_mem_nil, or_false] at hl
    rcases hl with rfl | rfl | rfl | rfl <;> dsimp only
    · rw [d1]; exact hh
    · rw [d2]; exact hw
    · rw [d3]; exact hh
    · rw [d4]; exact hw
  obtain ⟨o, e1, e2, _⟩ := C258_length ps (by rw [hps]; simp) c.z (by rw [hps]; intro p hp; simp only [List.mem_cons, List.not_mem_nil, or_false] at hp; rcases hp with rfl | rfl | rfl | rfl <;> rfl) hl
  have e3 : outline (rect w h c) = .ok (Spec.sides ps) := by rw [e0, e1, e2]
  refine ⟨by rw [e3, hs], Spec.sides ps, e3, ?_, ?_⟩
  · rw [outlineLength_eq, hs]
    unfold Spec.total
    simp only [List.map_cons, List.map_nil, List.sum_cons, List.sum_nil]
    rw [d1, d2, d3, d4]; ring
  · rw [hs]
    simp only [List.map_cons, List.map_nil, List.take_succ_cons, List.take_zero, List.cons_append, List.nil_append, Spec.area2]
    ring

/-! ## the hypotheses can be met -/

/-- a triangle -/
def exPts : List V4 := [⟨0, 0, 1, 1⟩, ⟨1, 0, 1, 1⟩, ⟨0, 1, 1, 1⟩]

example : 2 ≤ exPts.length ∧ (∀ p ∈ exPts, p.z = 1) ∧ ∀ l ∈ Spec.sides exPts, eps < Geom.dist l.a l.b := by
  refine ⟨by simp [exPts], by simp [exPts], ?_⟩
  intro l hl
  rw [Geom.dist_eq_sqrt]
  have he : eps < 1 := by unfold eps; norm_num
  have : (1:ℝ) ≤ √(Geom.sqDist l.a l.b) := by
    rw [Real.one_le_sqrt]
    unfold exPts at hl
    rw [sides_eq] at hl
    simp only [List.cons_append, List.nil_append, List.zipWith_cons_cons, List.zipWith_nil_left, List.mem_cons, List.not_mem_nil, or_false] at hl
    rcases hl with rfl | rfl | rfl <;> unfold Geom.sqDist <;> norm_num
  linarith

end Verif.Obj
