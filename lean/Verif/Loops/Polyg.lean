import Verif.Geom.Tight
import Verif.Geom.ArcProps
import Mathlib.Data.List.Induction

/-!
# Model of `polarSampleArc`, `_finalize_poly_points` and `_convert_geom_sequence` (C278 – C280)

Real numbers. A sequence consists of lines and arcs, as made by `_stitch_geomlist`. `point(p)` is a copy.
-/

namespace Verif.Loops
open Verif.Geom

/-! ## the model -/

open Classical in
/-- start and end in `polarSampleArc`, geom_util.py:589-598 -/
noncomputable def polarSpan (c : Arc) : ℝ × ℝ :=
  if iscircle c then (c.s, c.e)
  else (mod360 c.s, if mod360 c.e < mod360 c.s then mod360 c.e + 360 else mod360 c.e)

open Classical in
/-- `polarSampleArc`, geom_util.py:577-608; `none` is `False` -/
noncomputable def polarSampleArc (c : Arc) (ang : ℝ) (inside : Bool := true) : Option V4 :=
  if ¬ iscircle c ∧ inside = true ∧ (polarSpan c).2 - (polarSpan c).1 < ang then none
  else some (circlePoint c.c c.r (if c.rev = true then (polarSpan c).2 + -1 * ang else (polarSpan c).1 + ang))

open Classical in
/-- the loops that leave out repeated points, geom_util.py:131-133 and 198-200: `q` is the last point kept -/
noncomputable def thinPts : V4 → List V4 → List V4
  | _, [] => []
  | q, p :: l => if Geom.dist p q > Geom.eps then p :: thinPts p l else thinPts q l

open Classical in
/-- the end of both functions, geom_util.py:135-143 and 202-213 -/
noncomputable def closeUp (snap : ℝ) (a : V4) (l : List V4) : List V4 :=
  let d := Geom.dist a ((a :: l).getLast (by simp))
  if d > Geom.eps then
    (if d ≤ snap then (a :: l).dropLast ++ [a] else (a :: l) ++ [a])
  else (a :: l).dropLast ++ [a]

/-- `_finalize_poly_points`, geom_util.py:126-143 -/
noncomputable def finalize (snap : ℝ) : List V4 → List V4
  | [] => []
  | a :: l => closeUp snap a (thinPts a l)

/-- a line or an arc -/
inductive El
  | line (l : Line)
  | arc (a : Arc)

open Classical in
/-- `_snap`, geom_util.py:151-155 -/
noncomputable def snapTo (snap : ℝ) (p : V4) : Option V4 → V4
  | none => p
  | some q => if Geom.dist p q ≤ snap then q else p

open Classical in
/-- `addpoint`, geom_util.py:157-162; the state is the points so far, the last of which is `lastpoint` -/
noncomputable def addPt (snap minlen : ℝ) (force : Bool) (ply : List V4) (p : V4) : List V4 :=
  let c := snapTo snap p ply.getLast?
  match ply.getLast? with
  | none => ply ++ [c]
  | some q => if force = true ∨ Geom.dist c q > minlen then ply ++ [c] else ply

/-- `firstpoint`, geom_util.py:176-177 -/
def firstOr (first : Option V4) (p : V4) : Option V4 :=
  match first with
  | none => some p
  | some q => some q

/-- the loop over the angles, geom_util.py:172-178: the points so far and the first point -/
noncomputable def arcPts (snap minlen : ℝ) (a : Arc) (ply : List V4) (first : Option V4) : List Nat → List V4 × Option V4
  | [] => (ply, first)
  | ang :: angs =>
    match polarSampleArc a ang with
    | none => (ply, first)
    | some p => arcPts snap minlen a (addPt snap minlen false ply p) (firstOr first p) angs

/-- `range(0, 360, step)` -/
def angles (step : Nat) : List Nat := (List.range ((360 + step - 1) / step)).map (· * step)

open Classical in
/-- one element, geom_util.py:167-184; `step` is `max(1, round(minang))` -/
noncomputable def addEl (snap minlen : ℝ) (step : Nat) (ply : List V4) : El → Except Err (List V4)
  | .line l => .ok (addPt snap minlen true (addPt snap minlen true ply l.a) l.b)
  | .arc a =>
    let r := arcPts snap minlen a ply none (angles step)
    if iscircle a then
      match r.2 with
      | none => .error .typeError
      | some p => .ok (addPt snap minlen false r.1 p)
    else
      match samplearc a 1 with
      | .error e => .error e
      | .ok p => .ok (addPt snap minlen true r.1 p)

/-- all elements -/
noncomputable def addEls (snap minlen : ℝ) (step : Nat) (ply : List V4) : List El → Except Err (List V4)
  | [] => .ok ply
  | e :: es =>
    match addEl snap minlen step ply e with
    | .error x => .error x
    | .ok ply' => addEls snap minlen step ply' es

/-- `_convert_geom_sequence`, geom_util.py:146-213, of lines and arcs; the holes are always empty -/
noncomputable def convert (snap minlen : ℝ) (step : Nat) (es : List El) : Except Err (List V4) :=
  match addEls snap minlen step [] es with
  | .error x => .error x
  | .ok ply => .ok (finalize snap ply)

/-! ## specification -/

/-- a point belongs to a figure: it is an end of a line or on the circle of an arc -/
def Belongs (es : List El) (p : V4) : Prop := ∃ e ∈ es, match e with
  | .line l => p = l.a ∨ p = l.b
  | .arc a => ∃ x, p = circlePoint a.c a.r x

/-- a list of points that ends where it begins -/
def Round (ps : List V4) : Prop := ps.head? = ps.getLast?

/-! ## finishing -/

theorem thinPts_sub : ∀ (l : List V4) (q : V4), (thinPts q l).Sublist l
  | [], _ => by simp [thinPts]
  | p :: l, q => by
    rw [thinPts]
    split
    · exact (thinPts_sub l p).cons_cons _
    · exact (thinPts_sub l q).cons _

theorem thinPts_chain : ∀ (l : List V4) (q : V4), List.IsChain (fun a b => Geom.dist b a > Geom.eps) (q :: thinPts q l)
  | [], _ => by simp [thinPts]
  | p :: l, q => by
    rw [thinPts]
    split
    · rw [List.isChain_cons_cons]; exact ⟨‹_›, thinPts_chain l p⟩
    · exact thinPts_chain l q

theorem eps_pos' : 0 < Geom.eps := by unfold Geom.eps; norm_num

theorem dist_self (p : V4) : Geom.dist p p = 0 := (Geom.dist_eq_zero p p).2 ⟨rfl, rfl, rfl⟩

theorem thinPts_covers : ∀ (l : List V4) (q : V4), ∀ p ∈ q :: l, ∃ r ∈ q :: thinPts q l, Geom.dist p r ≤ Geom.eps
  | [], q, p, hp => by
    obtain rfl := List.mem_singleton.1 hp
    exact ⟨p, .head _, by rw [dist_self]; exact eps_pos'.le⟩
  | x :: l, q, p, hp => by
    rw [thinPts]
    rcases List.mem_cons.1 hp with rfl | hp
    · exact ⟨p, .head _, by rw [dist_self]; exact eps_pos'.le⟩
    · split
      · obtain ⟨r, hr, h⟩ := thinPts_covers l x p hp
        exact ⟨r, .tail _ hr, h⟩
      · rename_i h
        rcases List.mem_cons.1 hp with rfl | hp
        · exact ⟨q, .head _, not_lt.1 h⟩
        · exact thinPts_covers l q p (.tail _ hp)

theorem closeUp_cases (snap : ℝ) (a : V4) (l : List V4) :
    (closeUp snap a l = (a :: l) ++ [a]) ∨
      (closeUp snap a l = (a :: l).dropLast ++ [a] ∧ Geom.dist a ((a :: l).getLast (by simp)) ≤ max Geom.eps snap) := by
  unfold closeUp
  dsimp only
  split
  · split
    · right; exact ⟨rfl, le_max_of_le_right ‹_›⟩
    · left; rfl
  · rename_i h
    right; exact ⟨rfl, le_max_of_le_left (not_lt.1 h)⟩

/-- `_finalize_poly_points`: the result begins with the first point and ends with it; its points are points given; every point given is within epsilon plus the snap tolerance
of one of them; and up to the closing point no two that follow each other are within epsilon. -/
theorem C278_finalize {snap : ℝ} (a : V4) (l : List V4) :
    (finalize snap (a :: l)).head? = some a ∧ Round (finalize snap (a :: l)) ∧ (∀ p ∈ finalize snap (a :: l), p ∈ a :: l) ∧
      (∀ p ∈ a :: l, ∃ r ∈ finalize snap (a :: l), Geom.dist p r ≤ Geom.eps + max Geom.eps snap) ∧
      List.IsChain (fun p q => Geom.dist q p > Geom.eps) (finalize snap (a :: l)).dropLast := by
  rw [finalize]
  have hsub := thinPts_sub l a
  have hchain := thinPts_chain l a
  have hcov := thinPts_covers l a
  have hmem : ∀ p ∈ a :: thinPts a l, p ∈ a :: l := fun p hp => by
    rcases List.mem_cons.1 hp with rfl | hp
    · exact .head _
    · exact .tail _ (hsub.subset hp)
  have hm : 0 ≤ max Geom.eps snap := le_max_of_le_left eps_pos'.le
  rcases closeUp_cases snap a (thinPts a l) with h | ⟨h, hd⟩
  · rw [h]
    refine ⟨by simp, by unfold Round; rw [List.getLast?_concat]; simp, ?_, ?_, ?_⟩
    · intro p hp
      rcases List.mem_append.1 hp with hp | hp
      · exact hmem p hp
      · obtain rfl := List.mem_singleton.1 hp; exact .head _
    · intro p hp
      obtain ⟨r, hr, hle⟩ := hcov p hp
      exact ⟨r, List.mem_append_left _ hr, by linarith⟩
    · rw [List.dropLast_concat]; exact hchain
  · rw [h]
    have hhead : ((a :: thinPts a l).dropLast ++ [a]).head? = some a := by
      cases thinPts a l with
      | nil => simp
      | cons x t => simp
    refine ⟨hhead, by unfold Round; rw [hhead]; simp, ?_, ?_, ?_⟩
    · intro p hp
      rcases List.mem_append.1 hp with hp | hp
      · exact hmem p (List.dropLast_subset _ hp)
      · obtain rfl := List.mem_singleton.1 hp; exact .head _
    · intro p hp
      obtain ⟨r, hr, hle⟩ := hcov p hp
      rw [← List.dropLast_append_getLast (l := a :: thinPts a l) (by simp)] at hr
      rcases List.mem_append.1 hr with hr | hr
      · exact ⟨r, List.mem_append_left _ hr, by linarith⟩
      · rw [List.mem_singleton] at hr
        refine ⟨a, by simp, ?_⟩
        have := Geom.dist_tri p r a
        have hs : Geom.dist r a = Geom.dist a r := by rw [Geom.dist_eq_sqrt, Geom.dist_eq_sqrt]; congr 1; unfold sqDist; ring
        rw [hs, hr] at this
        rw [hr] at hle
        linarith
    · rw [List.dropLast_concat]; exact hchain.prefix (List.dropLast_prefix _)

/-! ## sequences -/

theorem snapTo_cases (snap : ℝ) (p : V4) (q : Option V4) : snapTo snap p q = p ∨ some (snapTo snap p q) = q := by
  unfold snapTo
  cases q with
  | none => exact .inl rfl
  | some q => dsimp only; split <;> simp

theorem addPt_mem {snap minlen : ℝ} {force : Bool} {ply : List V4} {p x : V4} (h : x ∈ addPt snap minlen force ply p) : x ∈ ply ∨ x = p := by
  have hc : snapTo snap p ply.getLast? = p ∨ snapTo snap p ply.getLast? ∈ ply := (snapTo_cases snap p ply.getLast?).imp_right fun h => List.mem_of_getLast? h.symm
  have hx : x ∈ ply ∨ x = snapTo snap p ply.getLast? := by
    unfold addPt at h
    dsimp only at h
    split at h
    · rcases List.mem_append.1 h with h | h
      · exact .inl h
      · exact .inr (List.mem_singleton.1 h)
    · split at h
      · rcases List.mem_append.1 h with h | h
        · exact .inl h
        · exact .inr (List.mem_singleton.1 h)
      · exact .inl h
  rcases hx with h | rfl
  · exact .inl h
  · rcases hc with h | h
    · exact .inr h
    · exact .inl h

theorem polar_on {a : Arc} {ang : ℝ} {b : Bool} {p : V4} (h : polarSampleArc a ang b = some p) : ∃ x, p = circlePoint a.c a.r x := by
  unfold polarSampleArc at h
  split at h
  · cases h
  · exact ⟨_, (Option.some.inj h).symm⟩

theorem arcPts_on {snap minlen : ℝ} {a : Arc} : ∀ (angs : List Nat) (ply : List V4) (first : Option V4), (∀ q, first = some q → ∃ x, q = circlePoint a.c a.r x) →
    (∀ x ∈ (arcPts snap minlen a ply first angs).1, x ∈ ply ∨ ∃ y, x = circlePoint a.c a.r y) ∧
      ∀ q, (arcPts snap minlen a ply first angs).2 = some q → ∃ x, q = circlePoint a.c a.r x
  | [], ply, first, hf => ⟨fun x hx => .inl hx, hf⟩
  | ang :: angs, ply, first, hf => by
    rw [arcPts]
    cases hp : polarSampleArc a ang with
    | none => exact ⟨fun x hx => .inl hx, hf⟩
    | some p =>
      dsimp only
      obtain ⟨y, hy⟩ := polar_on hp
      obtain ⟨h1, h2⟩ := arcPts_on angs (addPt snap minlen false ply p) (firstOr first p) (by
        intro q hq
        cases first with
        | none => rw [firstOr, Option.some.injEq] at hq; rw [← hq]; exact ⟨y, hy⟩
        | some r => exact hf q hq)
      refine ⟨fun x hx => ?_, h2⟩
      rcases h1 x hx with h | h
      · rcases addPt_mem h with h | rfl
        · exact .inl h
        · exact .inr ⟨y, hy⟩
      · exact .inr h

theorem addEl_on {snap minlen : ℝ} {step : Nat} {ply ply' : List V4} {e : El} (h : addEl snap minlen step ply e = .ok ply') : ∀ x ∈ ply', x ∈ ply ∨ Belongs [e] x := by
  cases e with
  | line l =>
    unfold addEl at h
    cases h
    intro x hx
    rcases addPt_mem hx with hx | rfl
    · rcases addPt_mem hx with hx | rfl
      · exact .inl hx
      · exact .inr ⟨.line l, .head _, .inl rfl⟩
    · exact .inr ⟨.line l, .head _, .inr rfl⟩
  | arc a =>
    unfold addEl at h
    dsimp only at h
    obtain ⟨h1, h2⟩ := arcPts_on (snap := snap) (minlen := minlen) (a := a) (angles step) ply none (by simp)
    have hb : ∀ y, Belongs [.arc a] (circlePoint a.c a.r y) := fun y => ⟨.arc a, .head _, y, rfl⟩
    split at h
    · split at h
      · cases h
      · rename_i p hp
        cases h
        intro x hx
        rcases addPt_mem hx with hx | rfl
        · rcases h1 x hx with hx | ⟨y, rfl⟩
          · exact .inl hx
          · exact .inr (hb y)
        · obtain ⟨y, rfl⟩ := h2 _ hp
          exact .inr (hb y)
    · split at h
      · cases h
      · rename_i p hp
        cases h
        intro x hx
        rcases addPt_mem hx with hx | rfl
        · rcases h1 x hx with hx | ⟨y, rfl⟩
          · exact .inl hx
          · exact .inr (hb y)
        · unfold samplearc at hp
          split at hp
          · cases hp; exact .inr (hb _)
          · cases hp

theorem addEls_on {snap minlen : ℝ} {step : Nat} : ∀ (es : List El) (ply ply' : List V4), addEls snap minlen step ply es = .ok ply' → ∀ x ∈ ply', x ∈ ply ∨ Belongs es x
  | [], ply, ply', h => by rw [addEls] at h; cases h; exact fun x hx => .inl hx
  | e :: es, ply, ply', h => by
    rw [addEls] at h
    split at h
    · cases h
    · rename_i p1 h1
      intro x hx
      rcases addEls_on es p1 ply' h x hx with h | ⟨e', h2, h3⟩
      · rcases addEl_on h1 x h with h | ⟨e', h2, h3⟩
        · exact .inl h
        · obtain rfl := List.mem_singleton.1 h2
          exact .inr ⟨e', .head _, h3⟩
      · exact .inr ⟨e', .tail _ h2, h3⟩

/-- The polygon of a sequence of lines and arcs is closed, and its points are ends of the lines and points on the circles of the arcs. -/
theorem C278_sequence {snap minlen : ℝ} {step : Nat} {es : List El} {ps : List V4} (h : convert snap minlen step es = .ok ps) : Round ps ∧ ∀ p ∈ ps, Belongs es p := by
  unfold convert at h
  split at h
  · cases h
  · rename_i ply hp
    cases h
    cases ply with
    | nil => exact ⟨rfl, by simp [finalize]⟩
    | cons a l =>
      obtain ⟨-, h2, h3, -⟩ := C278_finalize (snap := snap) a l
      refine ⟨h2, fun p hp' => ?_⟩
      exact (addEls_on es [] (a :: l) hp p (h3 p hp')).resolve_left (by simp)

/-! ## loops of lines -/

/-- the lines along a list of points -/
def sidesOf : List V4 → List El
  | p :: q :: l => .line ⟨p, q⟩ :: sidesOf (q :: l)
  | _ => []

/-- each point but the first twice -/
def doubled : List V4 → List V4
  | [] => []
  | p :: l => p :: p :: doubled l

theorem addPt_far {snap minlen : ℝ} {ply : List V4} {p q : V4} (h : snap < Geom.dist p q) : addPt snap minlen true (ply ++ [q]) p = ply ++ [q, p] := by
  unfold addPt
  simp only [List.getLast?_concat, snapTo]
  rw [if_neg (not_le.2 h)]
  simp

theorem addPt_same {snap minlen : ℝ} (h0 : 0 ≤ snap) {ply : List V4} {q : V4} : addPt snap minlen true (ply ++ [q]) q = ply ++ [q, q] := by
  unfold addPt
  simp only [List.getLast?_concat, snapTo]
  rw [dist_self, if_pos h0]
  simp

theorem addEls_sides {snap minlen : ℝ} {step : Nat} (h0 : 0 ≤ snap) : ∀ (l : List V4) (q : V4) (ply : List V4), List.IsChain (fun p q => snap < Geom.dist q p) (q :: l) →
    addEls snap minlen step (ply ++ [q]) (sidesOf (q :: l)) = .ok (ply ++ [q] ++ ((q :: l).zip l).flatMap fun e => [e.1, e.2])
  | [], q, ply, _ => by simp [sidesOf, addEls]
  | p :: l, q, ply, h => by
    rw [List.isChain_cons_cons] at h
    rw [sidesOf, addEls, addEl]
    dsimp only
    rw [addPt_same h0, show ply ++ [q, q] = (ply ++ [q]) ++ [q] by simp, addPt_far h.1, show ply ++ [q] ++ [q, p] = (ply ++ [q, q]) ++ [p] by simp, addEls_sides h0 l p _ h.2]
    simp

theorem thinPts_sides {snap : ℝ} (hs : Geom.eps ≤ snap) : ∀ (l : List V4) (q : V4), List.IsChain (fun p q => snap < Geom.dist q p) (q :: l) →
    thinPts q (((q :: l).zip l).flatMap fun e => [e.1, e.2]) = l
  | [], q, _ => by simp [thinPts]
  | p :: l, q, h => by
    rw [List.isChain_cons_cons] at h
    rw [List.zip_cons_cons, List.flatMap_cons]
    show thinPts q (q :: p :: ((p :: l).zip l).flatMap fun e => [e.1, e.2]) = _
    rw [thinPts, if_neg (by rw [dist_self]; exact not_lt.2 eps_pos'.le), thinPts, if_pos (lt_of_le_of_lt hs h.1), thinPts_sides hs l p h.2]

/-- The polygon of the lines along a closed list of points, each farther than the snap tolerance from the one before, is the list of points. -/
theorem C279_lines {snap minlen : ℝ} {step : Nat} (hs : Geom.eps ≤ snap) {a p : V4} {l : List V4} (hr : (a :: p :: l).getLast (by simp) = a)
    (hc : List.IsChain (fun p q => snap < Geom.dist q p) (a :: p :: l)) : convert snap minlen step (sidesOf (a :: p :: l)) = .ok (a :: p :: l) := by
  have h0 : 0 ≤ snap := eps_pos'.le.trans hs
  have hc' := hc
  rw [List.isChain_cons_cons] at hc'
  unfold convert
  rw [sidesOf, addEls, addEl]
  dsimp only
  have e1 : addPt snap minlen true [] a = [] ++ [a] := rfl
  rw [e1, addPt_far hc'.1, show ([] : List V4) ++ [a, p] = [a] ++ [p] from rfl, addEls_sides h0 l p [a] hc'.2]
  dsimp only
  show Except.ok (finalize snap (a :: p :: ((p :: l).zip l).flatMap fun e => [e.1, e.2])) = _
  rw [finalize]
  have e2 : thinPts a (p :: ((p :: l).zip l).flatMap fun e => [e.1, e.2]) = p :: l := by
    rw [thinPts, if_pos (lt_of_le_of_lt hs hc'.1), thinPts_sides hs l p hc'.2]
  rw [e2]
  unfold closeUp
  dsimp only
  rw [hr, dist_self, if_neg (not_lt.2 eps_pos'.le)]
  congr 1
  conv_rhs => rw [← List.dropLast_append_getLast (l := a :: p :: l) (by simp), hr]

/-! ## arcs -/

theorem polarSpan_eq {c : Arc} (h : (c.s ≠ 0 ∧ c.e ≠ 360) ∨ (0 ≤ c.s ∧ c.s < 360 ∧ c.s ≤ c.e ∧ c.e ≤ 360)) : polarSpan c = span c := by
  unfold polarSpan span
  by_cases hc : iscircle c
  · rw [if_pos hc, if_neg (fun h => h.1 hc.1)]
  · rw [if_neg hc]
    by_cases hb : c.s ≠ 0 ∧ c.e ≠ 360
    · rw [if_pos hb]
      dsimp only
      split <;> rfl
    · rw [if_neg hb]
      obtain ⟨h1, h2, h3, h4⟩ := h.resolve_left hb
      have hs : mod360 c.s = c.s := mod360_of_mem h1 h2
      rw [hs]
      rcases lt_or_eq_of_le h4 with h5 | h5
      · have he : mod360 c.e = c.e := mod360_of_mem (h1.trans h3) h5
        rw [he, if_neg (not_lt.2 h3)]
      · have hs0 : 0 < c.s := lt_of_le_of_ne h1 fun h => hc ⟨h.symm, h5⟩
        have he : mod360 c.e = 0 := mod360_unique 1 le_rfl (by norm_num) (by rw [h5]; norm_num)
        rw [he, if_pos hs0, h5]; norm_num

/-- `polarSampleArc` at an angle within the arc is `sample` at the same fraction of the arc, also for reversed arcs; beyond the end of an arc that is no circle it is `False`. -/
theorem C280_polar {c : Arc} (hn : normalOk c) (h : (c.s ≠ 0 ∧ c.e ≠ 360) ∨ (0 ≤ c.s ∧ c.s < 360 ∧ c.s ≤ c.e ∧ c.e ≤ 360)) (ang : ℝ) :
    (0 < (span c).2 - (span c).1 → ang ≤ (span c).2 - (span c).1 →
      ∃ p, polarSampleArc c ang = some p ∧ samplearc c (ang / ((span c).2 - (span c).1)) = .ok p) ∧
      (¬ iscircle c → (span c).2 - (span c).1 < ang → polarSampleArc c ang = none) := by
  have hs := polarSpan_eq h
  constructor
  · intro h0 ha
    unfold polarSampleArc
    rw [hs, if_neg (fun h => absurd h.2.2 (not_lt.2 ha))]
    refine ⟨_, rfl, ?_⟩
    unfold samplearc
    rw [if_pos hn]
    congr 1
    unfold sampleAngle
    dsimp only
    rw [circlePoint_mod]
    congr 1
    by_cases hr : c.rev = true
    · rw [if_pos hr, if_pos hr]; field_simp; ring
    · rw [if_neg hr, if_neg hr]; field_simp; ring
  · intro hc ha
    unfold polarSampleArc
    rw [hs, if_pos ⟨hc, rfl, ha⟩]

/-- the distance of two points of a circle -/
theorem chord (p : V4) {r : ℝ} (hr : 0 ≤ r) (x y : ℝ) : Geom.dist (circlePoint p r x) (circlePoint p r y) = 2 * r * |Real.sin (Real.pi * (x - y) / 360)| := by
  have h0 : 0 ≤ 2 * r * |Real.sin (Real.pi * (x - y) / 360)| := by positivity
  rw [Geom.dist_eq_sqrt, ← Real.sqrt_sq h0]
  congr 1
  obtain ⟨hx1, hx2, hx3⟩ := circlePoint_spec p r x
  obtain ⟨hy1, hy2, hy3⟩ := circlePoint_spec p r y
  unfold sqDist
  rw [hx1, hx2, hx3, hy1, hy2, hy3]
  have e : Real.pi * (x - y) / 360 = (deg x - deg y) / 2 := by unfold deg; ring
  rw [e, mul_pow, sq_abs]
  have hc : Real.cos (deg x - deg y) = 1 - 2 * Real.sin ((deg x - deg y) / 2) ^ 2 := by
    have := Real.cos_sq' ((deg x - deg y) / 2)
    have h2 := Real.cos_two_mul ((deg x - deg y) / 2)
    rw [show 2 * ((deg x - deg y) / 2) = deg x - deg y by ring] at h2
    rw [h2, this]; ring
  rw [Real.cos_sub] at hc
  have h1 := Real.sin_sq_add_cos_sq (deg x)
  have h2 := Real.sin_sq_add_cos_sq (deg y)
  have : (2 * r) ^ 2 * Real.sin ((deg x - deg y) / 2) ^ 2 = 2 * r ^ 2 * (1 - (Real.cos (deg x) * Real.cos (deg y) + Real.sin (deg x) * Real.sin (deg y))) := by rw [hc]; ring
  rw [this]
  linear_combination r ^ 2 * h1 + r ^ 2 * h2

/-- the point of a circle at the k-th angle -/
noncomputable def vertex (a : Arc) (step k : Nat) : V4 := circlePoint a.c a.r (if a.rev = true then 360 - (k * step : ℝ) else (k * step : ℝ))

theorem vertex_polar {a : Arc} (hc : iscircle a) (step k : Nat) : polarSampleArc a ((k * step : Nat) : ℝ) = some (vertex a step k) := by
  unfold polarSampleArc polarSpan vertex
  rw [if_neg (fun h => h.1 hc), if_pos hc, hc.1, hc.2]
  push_cast
  congr 2
  split <;> ring

theorem vertex_dist {a : Arc} (hr : 0 ≤ a.r) (step i j : Nat) : Geom.dist (vertex a step i) (vertex a step j) = 2 * a.r * |Real.sin (Real.pi * ((i : ℝ) - j) * step / 360)| := by
  unfold vertex
  rw [chord a.c hr]
  congr 1
  by_cases h : a.rev = true
  · rw [if_pos h, if_pos h, ← abs_neg, ← Real.sin_neg]
    congr 2
    ring
  · rw [if_neg h, if_neg h]
    congr 2
    ring

theorem addPt_keep {snap minlen : ℝ} {force : Bool} {ply : List V4} {p q : V4} (h : snap < Geom.dist p q) (h' : minlen < Geom.dist p q) :
    addPt snap minlen force (ply ++ [q]) p = ply ++ [q] ++ [p] := by
  unfold addPt
  simp only [List.getLast?_concat, snapTo]
  rw [if_neg (not_le.2 h), if_pos (.inr h')]

theorem addPt_skip {snap minlen : ℝ} (h0 : 0 ≤ minlen) {ply : List V4} {p q : V4} (h' : Geom.dist p q ≤ minlen) : addPt snap minlen false (ply ++ [q]) p = ply ++ [q] := by
  unfold addPt
  simp only [List.getLast?_concat, snapTo]
  split
  · rw [if_neg]
    rw [dist_self]
    rintro (h | h)
    · cases h
    · exact absurd h (not_lt.2 h0)
  · rw [if_neg]
    rintro (h | h)
    · cases h
    · exact absurd h (not_lt.2 h')

/-- the points of a circle from the i-th on, all kept -/
theorem arcPts_all {snap minlen : ℝ} {a : Arc} (hc : iscircle a) {step : Nat} (hd : ∀ k, max snap minlen < Geom.dist (vertex a step (k + 1)) (vertex a step k)) (f : V4) :
    ∀ (m i : Nat) (ply : List V4),
    arcPts snap minlen a (ply ++ [vertex a step i]) (some f) ((List.range' (i + 1) m).map (· * step)) = (ply ++ [vertex a step i] ++ (List.range' (i + 1) m).map (vertex a step), some f)
  | 0, i, ply => by simp [arcPts]
  | m + 1, i, ply => by
    rw [List.range'_succ, List.map_cons, arcPts, vertex_polar hc]
    dsimp only
    rw [addPt_keep (lt_of_le_of_lt (le_max_left _ _) (hd i)) (lt_of_le_of_lt (le_max_right _ _) (hd i)), firstOr, arcPts_all hc hd f m (i + 1)]
    simp

/-- the points of a circle from the i-th on, none kept -/
theorem arcPts_none {snap minlen : ℝ} (h0 : 0 ≤ minlen) {a : Arc} (hc : iscircle a) {step : Nat} (hd : ∀ k, Geom.dist (vertex a step k) (vertex a step 0) ≤ minlen) (f : V4) :
    ∀ (l : List Nat), arcPts snap minlen a [vertex a step 0] (some f) (l.map (· * step)) = ([vertex a step 0], some f)
  | [] => by simp [arcPts]
  | k :: l => by
    rw [List.map_cons, arcPts, vertex_polar hc]
    dsimp only
    have := addPt_skip (snap := snap) h0 (ply := []) (hd k)
    rw [List.nil_append] at this
    rw [this, firstOr, arcPts_none h0 hc hd f l]

theorem angles_cons {step : Nat} (h : 0 < step) (h' : step ≤ 360) : ∃ m, (360 + step - 1) / step = m + 1 ∧ angles step = (0 :: List.range' 1 m).map (· * step) := by
  have hp : 0 < (360 + step - 1) / step := Nat.div_pos (by omega) h
  obtain ⟨m, hm⟩ := Nat.exists_eq_add_of_lt hp
  refine ⟨m, by omega, ?_⟩
  unfold angles
  rw [hm, Nat.zero_add, List.range_eq_range', List.range'_succ]

/-- A circle whose samples are farther apart than the two tolerances becomes the regular polygon with the samples as corners. -/
theorem C280_circle {snap minlen : ℝ} {a : Arc} (hc : iscircle a) (hr : 0 ≤ a.r) {step n : Nat} (hn : n * step = 360) (hs : Geom.eps ≤ snap)
    (hd : max snap minlen < 2 * a.r * Real.sin (Real.pi / n)) :
    convert snap minlen step [.arc a] = .ok ((List.range n).map (vertex a step) ++ [vertex a step 0]) := by
  have hn0 : 0 < n := by rcases Nat.eq_zero_or_pos n with h | h; · rw [h] at hn; simp at hn
                         · exact h
  have hs0 : 0 < step := by rcases Nat.eq_zero_or_pos step with h | h; · rw [h] at hn; simp at hn
                            · exact h
  have hnr : (n : ℝ) * step = 360 := by exact_mod_cast hn
  have hnpos : (0 : ℝ) < n := by exact_mod_cast hn0
  have hsin : 0 ≤ Real.sin (Real.pi / n) := Real.sin_nonneg_of_nonneg_of_le_pi (by positivity) (div_le_self Real.pi_pos.le (by exact_mod_cast hn0))
  have hstep : (step : ℝ) / 360 = 1 / n := by field_simp; linarith
  have hdk : ∀ k, max snap minlen < Geom.dist (vertex a step (k + 1)) (vertex a step k) := by
    intro k
    rw [vertex_dist hr]
    have : Real.pi * (((k + 1 : Nat) : ℝ) - k) * step / 360 = Real.pi / n := by
      push_cast
      rw [show Real.pi * ((k : ℝ) + 1 - k) * step / 360 = Real.pi * (step / 360) by ring, hstep]; ring
    rw [this, abs_of_nonneg hsin]; exact hd
  obtain ⟨m, hm, ha⟩ := angles_cons hs0 (by rw [← hn]; exact Nat.le_mul_of_pos_left _ hn0)
  have hmn : m + 1 = n := by
    rw [← hm, ← hn]
    have : n * step + step - 1 = step - 1 + n * step := by omega
    rw [this, Nat.add_mul_div_right _ _ hs0, Nat.div_eq_of_lt (by omega), Nat.zero_add]
  have hlast : max snap minlen < Geom.dist (vertex a step 0) (vertex a step m) := by
    rw [vertex_dist hr]
    have : Real.pi * (((0 : Nat) : ℝ) - m) * step / 360 = Real.pi / n - Real.pi := by
      have hmr : (m : ℝ) = n - 1 := by rw [← hmn]; push_cast; ring
      rw [show Real.pi * (((0 : Nat) : ℝ) - m) * step / 360 = -(Real.pi * m * (step / 360)) by push_cast; ring, hstep, hmr]
      field_simp
      ring
    rw [this, Real.sin_sub_pi, abs_neg, abs_of_nonneg hsin]; exact hd
  unfold convert
  rw [addEls, addEl]
  rw [ha, if_pos hc, List.map_cons, arcPts, vertex_polar hc]
  dsimp only
  have e0 : addPt snap minlen false [] (vertex a step 0) = [] ++ [vertex a step 0] := rfl
  rw [e0, firstOr, arcPts_all hc hdk _ m 0 []]
  dsimp only
  have elist : [] ++ [vertex a step 0] ++ (List.range' (0 + 1) m).map (vertex a step) = (List.range n).map (vertex a step) := by
    rw [← hmn, List.range_eq_range', List.range'_succ, List.map_cons]; rfl
  have hsnoc : (List.range n).map (vertex a step) = (List.range m).map (vertex a step) ++ [vertex a step m] := by
    rw [← hmn, List.range_succ, List.map_append]; rfl
  rw [elist, hsnoc, addPt_keep (lt_of_le_of_lt (le_max_left _ _) hlast) (lt_of_le_of_lt (le_max_right _ _) hlast), ← hsnoc, addEls]
  dsimp only
  congr 1
  have hchain : ∀ k i, thinPts (vertex a step i) ((List.range' (i + 1) k).map (vertex a step) ++ (if i + k = m then [vertex a step 0] else [])) =
      (List.range' (i + 1) k).map (vertex a step) ++ (if i + k = m then [vertex a step 0] else []) := by
    intro k
    induction k with
    | zero =>
      intro i
      simp only [List.range'_zero, List.map_nil, List.nil_append, Nat.add_zero]
      split
      · rename_i him
        subst him
        rw [thinPts, if_pos (lt_of_le_of_lt (hs.trans (le_max_left _ _)) hlast), thinPts]
      · rw [thinPts]
    | succ k ih =>
      intro i
      rw [List.range'_succ, List.map_cons, List.cons_append, thinPts, if_pos (lt_of_le_of_lt (hs.trans (le_max_left _ _)) (hdk i))]
      have := ih (i + 1)
      rw [show i + 1 + k = i + (k + 1) by omega] at this
      rw [this]
  have hform : (List.range n).map (vertex a step) ++ [vertex a step 0] = vertex a step 0 :: ((List.range' 1 m).map (vertex a step) ++ [vertex a step 0]) := by
    rw [← hmn, List.range_eq_range', List.range'_succ, List.map_cons]; rfl
  rw [hform, finalize]
  have := hchain m 0
  rw [if_pos (Nat.zero_add m), Nat.zero_add] at this
  rw [this]
  unfold closeUp
  dsimp only
  have hg : (vertex a step 0 :: ((List.range' 1 m).map (vertex a step) ++ [vertex a step 0])).getLast (by simp) = vertex a step 0 := by
    rw [List.getLast_cons (by simp), List.getLast_append_singleton]
  rw [hg, dist_self, if_neg (not_lt.2 eps_pos'.le)]
  have : (vertex a step 0 :: ((List.range' 1 m).map (vertex a step) ++ [vertex a step 0])) = (vertex a step 0 :: (List.range' 1 m).map (vertex a step)) ++ [vertex a step 0] := rfl
  rw [this, List.dropLast_concat]

/-- A circle whose diameter is not larger than the minimal length becomes a single point. -/
theorem C280_small_circle {snap minlen : ℝ} {a : Arc} (hc : iscircle a) (hr : 0 ≤ a.r) {step : Nat} (h : 0 < step) (h' : step ≤ 360) (hd : 2 * a.r ≤ minlen) :
    convert snap minlen step [.arc a] = .ok [vertex a step 0] := by
  have h0 : 0 ≤ minlen := by linarith
  have hdk : ∀ k, Geom.dist (vertex a step k) (vertex a step 0) ≤ minlen := by
    intro k
    rw [vertex_dist hr]
    have := Real.abs_sin_le_one (Real.pi * ((k : ℝ) - (0 : Nat)) * step / 360)
    nlinarith
  obtain ⟨m, hm, ha⟩ := angles_cons h h'
  unfold convert
  rw [addEls, addEl]
  rw [ha, if_pos hc, List.map_cons, arcPts, vertex_polar hc]
  dsimp only
  have e0 : addPt snap minlen false [] (vertex a step 0) = [vertex a step 0] := rfl
  rw [e0, firstOr, arcPts_none h0 hc hdk]
  dsimp only
  have := addPt_skip (snap := snap) h0 (ply := []) (hdk 0)
  rw [List.nil_append] at this
  rw [this, addEls]
  dsimp only
  congr 1
  rw [finalize, thinPts]
  unfold closeUp
  simp [dist_self, eps_pos'.le]

/-! ## the hypotheses are met -/

/-- a circle of radius 1 with corners every 90 degrees -/
example : convert 0.025 0.25 90 [.arc ⟨pt 0 0, 1, 0, 360, false, none⟩] =
    .ok ((List.range 4).map (vertex ⟨pt 0 0, 1, 0, 360, false, none⟩ 90) ++ [vertex ⟨pt 0 0, 1, 0, 360, false, none⟩ 90 0]) := by
  refine C280_circle ⟨rfl, rfl⟩ (by norm_num) (by norm_num) (by unfold Geom.eps; norm_num) ?_
  have h : max (0.025 : ℝ) 0.25 = 0.25 := by norm_num
  rw [h]
  push_cast
  rw [Real.sin_pi_div_four]
  have : (1 : ℝ) ≤ √2 := by rw [show (1 : ℝ) = √1 by simp]; exact Real.sqrt_le_sqrt (by norm_num)
  linarith

/-- a square of lines -/
example : convert 0.025 0.25 5 (sidesOf [pt 0 0, pt 1 0, pt 1 1, pt 0 1, pt 0 0]) = .ok [pt 0 0, pt 1 0, pt 1 1, pt 0 1, pt 0 0] := by
  refine C279_lines (by unfold Geom.eps; norm_num) rfl ?_
  have h1 : ∀ p q : V4, sqDist q p = 1 → (0.025 : ℝ) < Geom.dist q p := fun p q h => by rw [Geom.dist_eq_sqrt, h]; norm_num
  simp only [List.isChain_cons_cons, List.isChain_singleton, and_true]
  refine ⟨h1 _ _ ?_, h1 _ _ ?_, h1 _ _ ?_, h1 _ _ ?_⟩ <;> simp [sqDist, pt]

end Verif.Loops
