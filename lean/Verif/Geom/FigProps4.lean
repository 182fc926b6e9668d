import Verif.Geom.FigProps3

/-!
# Reversing geometry lists (C43) and their boxes (C40)
-/

namespace Verif.Geom
open Real

/-! ## C43 -/

mutual
/-- no polyline occurs in the figure -/
def Fig.NoPoly : Fig → Prop
  | .poly _ => False
  | .list gs => NoPolyList gs
  | _ => True
/-- the same for a list of figures -/
def NoPolyList : List Fig → Prop
  | [] => True
  | g :: gs => g.NoPoly ∧ NoPolyList gs
end

theorem noPolyList_mem {gs : List Fig} (h : NoPolyList gs) : ∀ g ∈ gs, g.NoPoly := by
  induction gs with
  | nil => intro g hg; simp at hg
  | cons a gs ih =>
    simp only [NoPolyList] at h
    intro g hg
    rcases List.mem_cons.mp hg with rfl | hg
    · exact h.1
    · exact ih h.2 g hg

mutual
theorem reversed_some : ∀ f : Fig, f.NoPoly → ∃ g, f.reversed = some g
  | .point _, _ => ⟨_, rfl⟩
  | .line _, _ => ⟨_, rfl⟩
  | .arc _, _ => ⟨_, rfl⟩
  | .poly _, h => h.elim
  | .list gs, h => by
    simp only [Fig.NoPoly] at h
    obtain ⟨r, hr, -⟩ := reverse_some gs h []
    simp only [Fig.reversed, hr]
    exact ⟨_, rfl⟩
theorem reverse_some : ∀ (gs : List Fig), NoPolyList gs → ∀ acc,
    ∃ r, reverseGeomList acc gs = some r ∧ ∃ rs, r = rs.reverse ++ acc ∧ List.Forall₂ (fun g g' => g.reversed = some g') gs rs
  | [], _, acc => ⟨acc, by simp only [reverseGeomList], [], by simp, .nil⟩
  | g :: gs, h, acc => by
    simp only [NoPolyList] at h
    obtain ⟨g', hg⟩ := reversed_some g h.1
    obtain ⟨r, hr, rs, hrs, hf⟩ := reverse_some gs h.2 (g' :: acc)
    refine ⟨r, by simp only [reverseGeomList, hg, hr], g' :: rs, by simp [hrs], .cons hg hf⟩
end

/-- `g` is `f` traversed backwards. A list is traversed backwards by traversing its members backwards
in the opposite order. -/
inductive Backwards : Fig → Fig → Prop
  | simple (f g : Fig) (h : ∀ u, g.sample u = f.sample (1 - u)) (hl : g.length = f.length) : Backwards f g
  | list (gs hs : List Fig) (hlen : gs.length = hs.length)
      (h : ∀ (i : Nat) (hi : i < gs.length), Backwards gs[i] (hs[gs.length - 1 - i]'(by omega))) :
      Backwards (.list gs) (.list hs)

/-- not sample-reversed -/
def Plain (a : Arc) : Prop := a.rev = false

mutual
theorem backwards_reversed : ∀ f : Fig, f.AllArcs Plain → ∀ g, f.reversed = some g → Backwards f g
  | .point p, _, g, h => by
    simp only [Fig.reversed, Option.some.injEq] at h
    subst h
    exact .simple _ _ (fun u => by simp only [Fig.sample]) rfl
  | .line l, _, g, h => by
    simp only [Fig.reversed, Option.some.injEq] at h
    subst h
    refine .simple _ _ (fun u => ?_) ?_
    · simp only [Fig.sample, sampleline, add, scale3]
      congr 3 <;> ring
    · simp only [Fig.length, linelength, dist, mag, sub]
      congr 1; ring
  | .arc a, ha, g, h => by
    simp only [Fig.AllArcs, Plain] at ha
    simp only [Fig.reversed, Option.some.injEq] at h
    subst h
    refine .simple _ _ (fun u => ?_) rfl
    simp only [Fig.sample, C109_reversed a u ha]
  | .poly _, _, g, h => by simp [Fig.reversed] at h
  | .list gs, ha, g, h => by
    simp only [Fig.AllArcs] at ha
    unfold Fig.reversed at h
    split at h
    · cases h
    · rename_i r hr
      injection h with h
      subst h
      obtain ⟨rs, e, hf⟩ := backwards_list gs ha [] r hr
      rw [List.append_nil] at e
      subst e
      have hl := hf.length_eq
      refine .list _ _ (by simp [hl]) (fun i hi => ?_)
      have : (rs.reverse)[gs.length - 1 - i]'(by simp; omega) = rs[i]'(by omega) := by
        rw [List.getElem_reverse]
        congr 1
        omega
      rw [this]
      exact (List.forall₂_iff_get.mp hf).2 i hi (by omega)
theorem backwards_list : ∀ gs : List Fig, AllArcsList Plain gs → ∀ acc r, reverseGeomList acc gs = some r →
    ∃ rs, r = rs.reverse ++ acc ∧ List.Forall₂ Backwards gs rs
  | [], _, acc, r, h => by
    simp only [reverseGeomList, Option.some.injEq] at h
    exact ⟨[], by simp [h], .nil⟩
  | g :: gs, ha, acc, r, h => by
    simp only [AllArcsList] at ha
    unfold reverseGeomList at h
    split at h
    · cases h
    · rename_i g' hg
      obtain ⟨rs, e, hf⟩ := backwards_list gs ha.2 (g' :: acc) r h
      exact ⟨g' :: rs, by simp [e], .cons (backwards_reversed g ha.1 g' hg) hf⟩
end

/-- **C43** (lists – nested to any depth – of points, lines and arcs that are not yet sample-reversed)
`reverseGeomList` succeeds and returns the members in the opposite order, each traversed backwards -/
theorem C43_reverse_partial (gs : List Fig) (hp : NoPolyList gs) (ha : AllArcsList Plain gs) :
    ∃ r, reverseGeomList [] gs = some r ∧ Backwards (.list gs) (.list r) := by
  obtain ⟨r, hr, -⟩ := reverse_some gs hp []
  refine ⟨r, hr, ?_⟩
  obtain ⟨rs, e, hf⟩ := backwards_list gs ha [] r hr
  rw [List.append_nil] at e
  subst e
  have hl := hf.length_eq
  refine .list _ _ (by simp [hl]) (fun i hi => ?_)
  have : (rs.reverse)[gs.length - 1 - i]'(by simp; omega) = rs[i]'(by omega) := by
    rw [List.getElem_reverse]
    congr 1
    omega
  rw [this]
  exact (List.forall₂_iff_get.mp hf).2 i hi (by omega)

example : NoPolyList [.line ⟨pt 0 0, pt 1 0⟩, .list [.arc ⟨pt 0 0, 1, 0, 90, false, none⟩, .point (pt 1 1)]] ∧
    AllArcsList Plain [.line ⟨pt 0 0, pt 1 0⟩, .list [.arc ⟨pt 0 0, 1, 0, 90, false, none⟩, .point (pt 1 1)]] := by
  simp [NoPolyList, Fig.NoPoly, AllArcsList, Fig.AllArcs, Plain]

theorem reverse_append (gs hs : List Fig) : ∀ acc,
    reverseGeomList acc (gs ++ hs) = (reverseGeomList acc gs).bind fun r => reverseGeomList r hs := by
  induction gs with
  | nil => intro acc; simp [reverseGeomList]
  | cons g gs ih =>
    intro acc
    simp only [List.cons_append, reverseGeomList]
    cases g.reversed with
    | none => rfl
    | some r => exact ih (r :: acc)

theorem reverse_acc (gs : List Fig) : ∀ acc r, reverseGeomList [] gs = some r →
    reverseGeomList acc gs = some (r ++ acc) := by
  have : ∀ (gs : List Fig) acc acc', (reverseGeomList acc gs).map (· ++ acc') = reverseGeomList (acc ++ acc') gs := by
    intro gs
    induction gs with
    | nil => intro acc acc'; simp [reverseGeomList]
    | cons g gs ih =>
      intro acc acc'
      simp only [reverseGeomList]
      cases g.reversed with
      | none => rfl
      | some r => simpa using ih (r :: acc) acc'
  intro acc r h
  have := this gs [] acc
  rw [h] at this
  simpa using this.symm

mutual
theorem twice_fig : ∀ f : Fig, f.NoPoly → f.AllArcs NoArc → ∀ g, f.reversed = some g → g.reversed = some f
  | .point _, _, _, g, h => by simp only [Fig.reversed, Option.some.injEq] at h; subst h; rfl
  | .line _, _, _, g, h => by simp only [Fig.reversed, Option.some.injEq] at h; subst h; rfl
  | .arc _, _, h, _, _ => h.elim
  | .poly _, h, _, _, _ => h.elim
  | .list gs, hp, ha, g, h => by
    simp only [Fig.NoPoly] at hp
    simp only [Fig.AllArcs] at ha
    unfold Fig.reversed at h
    split at h
    · cases h
    · rename_i r hr
      injection h with h
      subst h
      have := twice_list gs hp ha r hr
      simp only [Fig.reversed, this]
theorem twice_list : ∀ gs : List Fig, NoPolyList gs → AllArcsList NoArc gs → ∀ r, reverseGeomList [] gs = some r →
    reverseGeomList [] r = some gs
  | [], _, _, r, h => by
    simp only [reverseGeomList, Option.some.injEq] at h
    subst h; simp only [reverseGeomList]
  | g :: gs, hp, ha, r, h => by
    simp only [NoPolyList] at hp
    simp only [AllArcsList] at ha
    unfold reverseGeomList at h
    split at h
    · cases h
    · rename_i g' hg
      obtain ⟨r0, hr0, -⟩ := reverse_some gs hp.2 []
      have := reverse_acc gs [g'] r0 hr0
      rw [this] at h
      injection h with h
      subst h
      rw [reverse_append, twice_list gs hp.2 ha.2 r0 hr0]
      simp only [Option.bind_some, reverseGeomList, twice_fig g hp.1 ha.1 g' hg]
end

/-- **C43** (lists of points and lines, nested to any depth) reversing twice gives back the list -/
theorem C43_twice_partial (gs r : List Fig) (hp : NoPolyList gs) (ha : AllArcsList NoArc gs)
    (h : reverseGeomList [] gs = some r) : reverseGeomList [] r = some gs := twice_list gs hp ha r h

/-- **C43 fails** for polylines: reversing any list with a polyline puts `None` in its place
(`list.reverse()` returns `None`) -/
theorem C43_polyline_lost (pre post : List Fig) (ps : List V4) :
    reverseGeomList [] (pre ++ .poly ps :: post) = none := by
  rw [reverse_append]
  cases reverseGeomList [] pre with
  | none => rfl
  | some r => simp [reverseGeomList, Fig.reversed]

/-- **C43 fails** for arcs that are already sample-reversed: reversing leaves them unchanged, hence
reversing twice does not restore an arc -/
theorem C43_arc_not_restored (a : Arc) (ha : a.rev = true) :
    reverseGeomList [] [.arc a] = some [.arc a] ∧
    (reverseGeomList [] [.arc { a with rev := false }]).bind (reverseGeomList []) = some [.arc a] := by
  obtain ⟨c, r, s, e, rev, n⟩ := a
  simp only at ha
  subst ha
  constructor <;> simp [reverseGeomList, Fig.reversed]

/-! ## C40: boxes of geometry lists -/

mutual
theorem length_nonneg : ∀ f : Fig, f.AllArcs NoArc → 0 ≤ f.length
  | .point _, _ => le_refl _
  | .line l, _ => dist_nonneg l.a l.b
  | .arc _, h => h.elim
  | .poly ps, _ => by
    simp only [Fig.length, polylength]
    split
    · exact le_refl _
    · rw [segsLength_eq]; exact totalLen_nonneg ps
  | .list gs, h => by
    simp only [Fig.AllArcs] at h
    simp only [Fig.length]
    exact listLength_nonneg gs h 0
theorem listLength_nonneg : ∀ gs : List Fig, AllArcsList NoArc gs → ∀ acc, acc ≤ listLength acc gs
  | [], _, acc => by simp only [listLength]; exact le_refl _
  | g :: gs, h, acc => by
    simp only [AllArcsList] at h
    simp only [listLength]
    have h1 := length_nonneg g h.1
    have h2 := listLength_nonneg gs h.2 (acc + g.length)
    linarith
end

theorem sampleLoop_box {lo hi : V4} (dst : ℝ) (ps : List V4) (hp : ∀ p ∈ ps, InBox lo hi p) : ∀ d, d ≤ dst →
    ∀ q, sampleLoop dst (segs ps) d = .ok (some q) → InBox lo hi q := by
  induction ps with
  | nil => intro d _ q h; simp [segs, sampleLoop] at h
  | cons p t ih =>
    cases t with
    | nil => intro d _ q h; simp [segs, sampleLoop] at h
    | cons p' r =>
      intro d hd q h
      rw [segs, sampleLoop] at h
      split at h
      · rename_i hle
        split at h
        · cases h
        · rename_i h0
          injection h with h
          injection h with h
          subst h
          have hpos : 0 < dist p p' := lt_of_le_of_ne (dist_nonneg _ _) (Ne.symm h0)
          refine param_in_box (hp p (by simp)) (hp p' (by simp)) ?_ ?_ (C39_sample ⟨p, p'⟩ _).1
          · rw [sub_nonneg, div_le_one hpos]; linarith
          · have : 0 ≤ (d + dist p p' - dst) / dist p p' := div_nonneg (by linarith) hpos.le
            linarith
      · rename_i hle
        exact ih (fun x hx => hp x (by simp [hx])) _ (by linarith) q h

theorem samplepoly_box {lo hi : V4} (ps : List V4) (hb : ∀ p ∈ ps, InBox lo hi p) (u : ℝ) (h0 : 0 ≤ u) (h1 : u ≤ 1)
    (q : V4) (h : samplepoly ps u = .ok (some q)) : InBox lo hi q := by
  unfold samplepoly at h
  split at h
  · rename_i hp
    simp only at h
    have hT : 0 ≤ segsLength ps := by rw [segsLength_eq]; exact totalLen_nonneg ps
    have hpar : 0 ≤ polyParam ps u ∧ polyParam ps u ≤ 1 := by
      unfold polyParam
      split
      · unfold mod1
        exact ⟨by linarith [Int.floor_le u], by linarith [Int.lt_floor_add_one u]⟩
      · exact ⟨h0, h1⟩
    split at h
    · exact sampleLoop_box _ ps hb 0 (mul_nonneg hpar.1 hT) q h
    · rename_i hge
      have hu : polyParam ps u = 1 := le_antisymm hpar.2 (not_lt.mp hge)
      obtain ⟨x, y, pre, hpre, hl⟩ := segs_getLast ps (by have := hp.1; omega)
      rw [hl] at h
      simp only at h
      split at h
      · cases h
      · rename_i hne
        injection h with h
        injection h with h
        subst h
        refine param_in_box (hb x (by rw [hpre]; simp)) (hb y (by rw [hpre]; simp)) ?_ ?_ (C39_sample ⟨x, y⟩ _).1
        all_goals
          rw [hu, one_mul, sub_self, zero_add, div_self hne]
          try norm_num
  · cases h

/-- the points behind a box lie in every box containing its corners -/
theorem polybbox_inside {ps : List V4} {b : Box} (h : polybbox ps = some b) {lo hi : V4}
    (hl : InBox lo hi b.lo) (hh : InBox lo hi b.hi) : ∀ p ∈ ps, InBox lo hi p := by
  have key : ∀ p ∈ ps, InBox b.lo b.hi p := by
    match ps, h with
    | [], h => intro p hp; simp at hp
    | [x], h =>
      obtain ⟨-, b', e, hb'⟩ := C40_small x
      rw [e] at h
      injection h with h
      subst h
      intro p hp
      rw [List.mem_singleton] at hp
      subst hp
      rw [hb']
      simp [eps_pos.le]
    | x :: y :: r, h =>
      obtain ⟨b', e, -, -, hb', -⟩ := C40_tight (x :: y :: r) (by simp)
      rw [e] at h
      injection h with h
      subst h
      exact hb'
  intro p hp
  obtain ⟨a1, a2, a3, a4, a5, a6⟩ := key p hp
  obtain ⟨b1, b2, b3, b4, b5, b6⟩ := hl
  obtain ⟨c1, c2, c3, c4, c5, c6⟩ := hh
  exact ⟨by linarith, by linarith, by linarith, by linarith, by linarith, by linarith⟩

mutual
theorem sample_box {lo hi : V4} : ∀ f : Fig, f.AllArcs NoArc → ∀ ps, f.bboxPts = .ok ps →
    (∀ p ∈ ps, InBox lo hi p) → ∀ u, 0 ≤ u → u ≤ 1 → ∀ q, f.sample u = .ok (some q) → InBox lo hi q
  | .point p, _, ps, h, hb, u, _, _, q, hq => by
    simp only [Fig.bboxPts, Except.ok.injEq] at h
    simp only [Fig.sample, Except.ok.injEq, Option.some.injEq] at hq
    subst h hq
    exact hb p (by simp)
  | .line l, _, ps, h, hb, u, h0, h1, q, hq => by
    simp only [Fig.bboxPts, Except.ok.injEq] at h
    simp only [Fig.sample, Except.ok.injEq, Option.some.injEq] at hq
    subst h hq
    exact param_in_box (hb l.a (by simp)) (hb l.b (by simp)) h0 h1 (C39_sample l u).1
  | .arc _, h, _, _, _, _, _, _, _, _ => h.elim
  | .poly xs, _, ps, h, hb, u, h0, h1, q, hq => by
    simp only [Fig.bboxPts, Except.ok.injEq] at h
    simp only [Fig.sample] at hq
    subst h
    exact samplepoly_box xs hb u h0 h1 q hq
  | .list gs, ha, ps, h, hb, u, h0, h1, q, hq => by
    simp only [Fig.AllArcs] at ha
    unfold Fig.bboxPts at h
    split at h
    · cases h
    · rename_i xs hxs
      split at h
      · cases h
      · rename_i b hbx
        injection h with h
        subst h
        have hin := polybbox_inside hbx (hb b.lo (by simp)) (hb b.hi (by simp))
        have hT := listLength_nonneg gs ha 0
        unfold Fig.sample at hq
        split at hq
        · exact sampleWalk_box gs ha xs hxs hin _ 0 (mul_nonneg h0 hT) q hq
        · rename_i hge
          have hu : u = 1 := le_antisymm h1 (not_lt.mp hge)
          subst hu
          rw [one_mul] at hq
          exact sampleLast_box gs ha xs hxs hin _ q hq
theorem sampleWalk_box {lo hi : V4} : ∀ gs : List Fig, AllArcsList NoArc gs → ∀ ps, bboxPtsList gs = .ok ps →
    (∀ p ∈ ps, InBox lo hi p) → ∀ dst d, d ≤ dst → ∀ q, sampleWalk dst d gs = .ok (some q) → InBox lo hi q
  | [], _, _, _, _, _, _, _, _, hq => by simp [sampleWalk] at hq
  | g :: gs, ha, ps, h, hb, dst, d, hd, q, hq => by
    simp only [AllArcsList] at ha
    unfold bboxPtsList at h
    split at h
    · cases h
    · rename_i xs hxs
      split at h
      · cases h
      · rename_i ys hys
        injection h with h
        subst h
        unfold sampleWalk at hq
        split at hq
        · rename_i hle
          split at hq
          · cases hq
          · rename_i hne
            have hpos : 0 < g.length := lt_of_le_of_ne (length_nonneg g ha.1) (Ne.symm hne)
            refine sample_box g ha.1 xs hxs (fun p hp => hb p (by simp [hp])) _ ?_ ?_ q hq
            · rw [sub_nonneg, div_le_one hpos]; linarith
            · have : 0 ≤ (d + g.length - dst) / g.length := div_nonneg (by linarith) hpos.le
              linarith
        · rename_i hle
          exact sampleWalk_box gs ha.2 ys hys (fun p hp => hb p (by simp [hp])) _ _ (by linarith) q hq
theorem sampleLast_box {lo hi : V4} : ∀ gs : List Fig, AllArcsList NoArc gs → ∀ ps, bboxPtsList gs = .ok ps →
    (∀ p ∈ ps, InBox lo hi p) → ∀ leng q, sampleLast leng leng gs = .ok (some q) → InBox lo hi q
  | [], _, _, _, _, _, _, hq => by simp [sampleLast] at hq
  | [g], ha, ps, h, hb, leng, q, hq => by
    simp only [AllArcsList] at ha
    unfold bboxPtsList at h
    split at h
    · cases h
    · rename_i xs hxs
      split at h
      · cases h
      · rename_i ys hys
        injection h with h
        subst h
        unfold sampleLast at hq
        split at hq
        · cases hq
        · rename_i hne
          rw [sub_self, zero_add, div_self hne] at hq
          exact sample_box g ha.1 xs hxs (fun p hp => hb p (by simp [hp])) 1 zero_le_one (le_refl _) q hq
  | g :: g' :: gs, ha, ps, h, hb, leng, q, hq => by
    rw [AllArcsList] at ha
    unfold bboxPtsList at h
    split at h
    · cases h
    · rename_i xs hxs
      split at h
      · cases h
      · rename_i ys hys
        injection h with h
        subst h
        rw [sampleLast] at hq
        exact sampleLast_box (g' :: gs) ha.2 ys hys (fun p hp => hb p (by simp [hp])) leng q hq
end

/-- **C40** the box of a geometry list without arcs (nested to any depth) contains every point that
sampling the list, or any of its members, can return for parameters in [0,1] -/
theorem C40_list (gs : List Fig) (ha : AllArcsList NoArc gs) (b : Box) (h : geomlistbbox gs = .ok (some b))
    (u : ℝ) (h0 : 0 ≤ u) (h1 : u ≤ 1) :
    (∀ q, (Fig.list gs).sample u = .ok (some q) → InBox b.lo b.hi q) ∧
    (∀ g ∈ gs, ∀ q, g.sample u = .ok (some q) → InBox b.lo b.hi q) := by
  unfold geomlistbbox at h
  split at h
  · cases h
  · rename_i ps hps
    injection h with h
    have hcorner : b.lo.x ≤ b.hi.x ∧ b.lo.y ≤ b.hi.y ∧ b.lo.z ≤ b.hi.z := by
      match ps, h with
      | [], h => simp [polybbox] at h
      | [x], h =>
        simp only [polybbox, Option.some.injEq] at h
        subst h
        unfold pointbbox sub add pt
        have := eps_pos
        refine ⟨?_, ?_, ?_⟩ <;> simp only <;> linarith
      | x :: y :: r, h =>
        obtain ⟨b', e, -, -, hb', -⟩ := C40_tight (x :: y :: r) (by simp)
        rw [e] at h
        injection h with h
        subst h
        obtain ⟨a1, a2, a3, a4, a5, a6⟩ := hb' x (by simp)
        exact ⟨by linarith, by linarith, by linarith⟩
    have hlo : InBox b.lo b.hi b.lo := ⟨le_refl _, hcorner.1, le_refl _, hcorner.2.1, le_refl _, hcorner.2.2⟩
    have hhi : InBox b.lo b.hi b.hi := ⟨hcorner.1, le_refl _, hcorner.2.1, le_refl _, hcorner.2.2, le_refl _⟩
    have hin := polybbox_inside h hlo hhi
    constructor
    · intro q hq
      have hbp : (Fig.list gs).bboxPts = .ok [b.lo, b.hi] := by
        simp only [Fig.bboxPts, hps, h]
      refine sample_box (Fig.list gs) ha _ hbp ?_ u h0 h1 q hq
      intro p hp
      simp only [List.mem_cons, List.not_mem_nil, or_false] at hp
      rcases hp with rfl | rfl
      · exact hlo
      · exact hhi
    · intro g hg q hq
      obtain ⟨hga, xs, hxs, hsub⟩ := mem_pts gs ha ps hps g hg
      exact sample_box g hga xs hxs (fun p hp => hin p (hsub p hp)) u h0 h1 q hq
where
  mem_pts (gs : List Fig) (ha : AllArcsList NoArc gs) (ps : List V4) (h : bboxPtsList gs = .ok ps) (g : Fig)
      (hg : g ∈ gs) : g.AllArcs NoArc ∧ ∃ xs, g.bboxPts = .ok xs ∧ ∀ p ∈ xs, p ∈ ps := by
    induction gs generalizing ps with
    | nil => simp at hg
    | cons a gs ih =>
      rw [AllArcsList] at ha
      unfold bboxPtsList at h
      split at h
      · cases h
      · rename_i xs hxs
        split at h
        · cases h
        · rename_i ys hys
          injection h with h
          subst h
          rcases List.mem_cons.mp hg with rfl | hg
          · exact ⟨ha.1, xs, hxs, fun p hp => by simp [hp]⟩
          · obtain ⟨h1, zs, h2, h3⟩ := ih ha.2 ys hys hg
            exact ⟨h1, zs, h2, fun p hp => by simp [h3 p hp]⟩

/-- the hypotheses are met: a nested list with a box -/
example : AllArcsList NoArc [.line ⟨pt 0 0, pt 1 0⟩, .list [.point (pt 2 2)]] ∧
    ∃ b, geomlistbbox [.line ⟨pt 0 0, pt 1 0⟩, .list [.point (pt 2 2)]] = .ok (some b) := by
  refine ⟨by simp [AllArcsList, Fig.AllArcs], ?_⟩
  unfold geomlistbbox
  simp [bboxPtsList, Fig.bboxPts, polybbox]

end Verif.Geom
