import Verif.Geom.Fig
import Verif.Geom.ArcProps

/-!
# Applying a rigid map to all points of a figure commutes with length and sampling

General lemmas used for `translate`, `rotate` and `mirror`.
-/

namespace Verif.Geom

mutual
/-- apply `T` to every point of a figure and `fa` to every arc -/
def Fig.mapPts (T : V4 → V4) (fa : Arc → Arc) : Fig → Fig
  | .point p => .point (T p)
  | .line l => .line ⟨T l.a, T l.b⟩
  | .arc a => .arc (fa a)
  | .poly ps => .poly (ps.map T)
  | .list gs => .list (mapPtsList T fa gs)
/-- the same for a list of figures -/
def mapPtsList (T : V4 → V4) (fa : Arc → Arc) : List Fig → List Fig
  | [] => []
  | g :: gs => g.mapPts T fa :: mapPtsList T fa gs
end

mutual
/-- every arc of the figure satisfies `P` -/
def Fig.AllArcs (P : Arc → Prop) : Fig → Prop
  | .arc a => P a
  | .list gs => AllArcsList P gs
  | _ => True
/-- the same for a list of figures -/
def AllArcsList (P : Arc → Prop) : List Fig → Prop
  | [] => True
  | g :: gs => g.AllArcs P ∧ AllArcsList P gs
end

mutual
/-- every point, line end and polyline vertex satisfies `C` -/
def Fig.AllPts (C : V4 → Prop) : Fig → Prop
  | .point p => C p
  | .line l => C l.a ∧ C l.b
  | .arc _ => True
  | .poly ps => ∀ p ∈ ps, C p
  | .list gs => AllPtsList C gs
/-- the same for a list of figures -/
def AllPtsList (C : V4 → Prop) : List Fig → Prop
  | [] => True
  | g :: gs => g.AllPts C ∧ AllPtsList C gs
end

/-- `T` is rigid on the points satisfying `C`: it preserves distances, points and the sampling of
lines -/
structure Rigid (C : V4 → Prop) (T : V4 → V4) : Prop where
  dist_eq : ∀ p q, C p → C q → dist (T p) (T q) = dist p q
  point : ∀ p, C p → ispoint (T p)
  line : ∀ p q u, C p → C q → sampleline ⟨T p, T q⟩ u = T (sampleline ⟨p, q⟩ u)

variable {C : V4 → Prop}

theorem segs_map (T : V4 → V4) (hT : Rigid C T) (ps : List V4) (hp : ∀ p ∈ ps, C p) :
    segs (ps.map T) = (segs ps).map (fun s => (⟨T s.1.a, T s.1.b⟩, s.2)) := by
  induction ps with
  | nil => rfl
  | cons p t ih =>
    cases t with
    | nil => rfl
    | cons q r =>
      have ih := ih (fun p h => hp p (by simp [h]))
      simp only [List.map_cons] at ih ⊢
      rw [segs, segs, ih, hT.dist_eq p q (hp _ (by simp)) (hp _ (by simp))]
      simp

theorem segs_points (ps : List V4) (hp : ∀ p ∈ ps, C p) :
    ∀ s ∈ segs ps, C s.1.a ∧ C s.1.b := by
  induction ps with
  | nil => intro s hs; simp [segs] at hs
  | cons p t ih =>
    cases t with
    | nil => intro s hs; simp [segs] at hs
    | cons q r =>
      intro s hs
      rw [segs] at hs
      rcases List.mem_cons.mp hs with rfl | hs
      · exact ⟨hp _ (by simp), hp _ (by simp)⟩
      · exact ih (fun p h => hp p (by simp [h])) s hs

theorem sampleLoop_map (T : V4 → V4) (hT : Rigid C T) (dst : ℝ) (ss : List (Line × ℝ))
    (hp : ∀ s ∈ ss, C s.1.a ∧ C s.1.b) : ∀ d,
    sampleLoop dst (ss.map (fun s => (⟨T s.1.a, T s.1.b⟩, s.2))) d =
      (sampleLoop dst ss d).map (Option.map T) := by
  induction ss with
  | nil => intro d; rfl
  | cons s ss ih =>
    obtain ⟨⟨a, b⟩, l⟩ := s
    intro d
    simp only [List.map_cons, sampleLoop]
    have h := hp _ (List.mem_cons_self ..)
    split
    · split
      · rfl
      · simp only [Except.map, Option.map_some, hT.line a b _ h.1 h.2]
    · exact ih (fun s hs => hp s (by simp [hs])) _

theorem polyClosed_map (T : V4 → V4) (hT : Rigid C T) (ps : List V4) (hp : ∀ p ∈ ps, C p) :
    polyClosed (ps.map T) ↔ polyClosed ps := by
  cases ps with
  | nil => rfl
  | cons p t =>
    have e : ((p :: t).map T).getLast (by simp) = T ((p :: t).getLast (by simp)) := by
      rw [List.getLast_map]
    simp only [List.map_cons] at e ⊢
    unfold polyClosed
    simp only
    rw [e, hT.dist_eq p _ (hp _ (by simp)) (hp _ (List.getLast_mem _))]
    simp

theorem segsLength_map (T : V4 → V4) (hT : Rigid C T) (ps : List V4) (hp : ∀ p ∈ ps, C p) :
    segsLength (ps.map T) = segsLength ps := by
  unfold segsLength
  rw [segs_map T hT ps hp, List.map_map]
  rfl

theorem samplepoly_map (T : V4 → V4) (hT : Rigid C T) (ps : List V4) (hp : ispoly ps) (hc : ∀ p ∈ ps, C p) (u : ℝ) :
    samplepoly (ps.map T) u = (samplepoly ps u).map (Option.map T) := by
  have hp' : ispoly (ps.map T) := by
    refine ⟨by simpa using hp.1, ?_⟩
    intro q hq
    obtain ⟨p, h, rfl⟩ := List.mem_map.mp hq
    exact hT.point p (hc p h)
  have hu : polyParam (ps.map T) u = polyParam ps u := by
    unfold polyParam
    have := polyClosed_map T hT ps hc
    by_cases h : polyClosed ps
    · rw [if_pos h, if_pos (this.mpr h)]
    · rw [if_neg h, if_neg (fun h' => h (this.mp h'))]
  have hs := segs_points ps hc
  unfold samplepoly
  rw [if_pos hp, if_pos hp']
  simp only [hu, segsLength_map T hT ps hc, segs_map T hT ps hc]
  split
  · exact sampleLoop_map T hT _ _ hs _
  · rw [List.getLast?_map]
    match hl : (segs ps).getLast? with
    | none => rfl
    | some (⟨a, b⟩, l) =>
      have h := hs _ (List.mem_of_getLast? hl)
      simp only [Option.map_some]
      split
      · rfl
      · simp only [Except.map, Option.map_some, hT.line a b _ h.1 h.2]

theorem polylength_map (T : V4 → V4) (hT : Rigid C T) (ps : List V4) (hp : ispoly ps) (hc : ∀ p ∈ ps, C p) :
    polylength (ps.map T) = polylength ps := by
  clear hp
  unfold polylength
  simp only [List.length_map, segsLength_map T hT ps hc]

/-- what an arc map must satisfy -/
def ArcOk (T : V4 → V4) (fa : Arc → Arc) (a : Arc) : Prop :=
  arclength (fa a) = arclength a ∧ ∀ u, samplearc (fa a) u = (samplearc a u).map T

mutual
theorem length_map (T : V4 → V4) (fa : Arc → Arc) (hT : Rigid C T) : ∀ (f : Fig), f.Wf → f.AllPts C →
    f.AllArcs (ArcOk T fa) → (f.mapPts T fa).length = f.length
  | .point p, _, hc, _ => rfl
  | .line l, hw, hc, _ => by
    simp only [Fig.Wf] at hw
    simp only [Fig.AllPts] at hc
    simp only [Fig.mapPts, Fig.length, linelength, hT.dist_eq _ _ hc.1 hc.2]
  | .arc a, _, hc, ha => by
    simp only [Fig.AllArcs] at ha
    simp only [Fig.mapPts, Fig.length, ha.1]
  | .poly ps, hw, hc, _ => by
    simp only [Fig.Wf] at hw
    simp only [Fig.AllPts] at hc
    simp only [Fig.mapPts, Fig.length, polylength_map T hT ps hw hc]
  | .list gs, hw, hc, ha => by
    simp only [Fig.Wf] at hw
    simp only [Fig.AllPts] at hc
    simp only [Fig.AllArcs] at ha
    simp only [Fig.mapPts, Fig.length, listLength_map T fa hT gs hw.2 hc ha]
theorem listLength_map (T : V4 → V4) (fa : Arc → Arc) (hT : Rigid C T) : ∀ (gs : List Fig), WfList gs → AllPtsList C gs →
    AllArcsList (ArcOk T fa) gs → ∀ acc, listLength acc (mapPtsList T fa gs) = listLength acc gs
  | [], _, hc, _ => fun _ => rfl
  | g :: gs, hw, hc, ha => by
    intro acc
    simp only [WfList] at hw
    simp only [AllPtsList] at hc
    simp only [AllArcsList] at ha
    simp only [mapPtsList, listLength, length_map T fa hT g hw.1 hc.1 ha.1]
    exact listLength_map T fa hT gs hw.2 hc.2 ha.2 _
end

mutual
theorem sample_map (T : V4 → V4) (fa : Arc → Arc) (hT : Rigid C T) : ∀ (f : Fig), f.Wf → f.AllPts C →
    f.AllArcs (ArcOk T fa) → ∀ u, (f.mapPts T fa).sample u = (f.sample u).map (Option.map T)
  | .point p, _, hc, _ => fun _ => rfl
  | .line l, hw, hc, _ => by
    intro u
    simp only [Fig.Wf] at hw
    simp only [Fig.AllPts] at hc
    simp only [Fig.mapPts, Fig.sample, hT.line _ _ _ hc.1 hc.2]
    rfl
  | .arc a, _, hc, ha => by
    intro u
    simp only [Fig.AllArcs] at ha
    simp only [Fig.mapPts, Fig.sample, ha.2]
    cases samplearc a u <;> rfl
  | .poly ps, hw, hc, _ => by
    intro u
    simp only [Fig.Wf] at hw
    simp only [Fig.AllPts] at hc
    simp only [Fig.mapPts, Fig.sample, samplepoly_map T hT ps hw hc]
  | .list gs, hw, hc, ha => by
    intro u
    simp only [Fig.Wf] at hw
    simp only [Fig.AllPts] at hc
    simp only [Fig.AllArcs] at ha
    simp only [Fig.mapPts, Fig.sample, listLength_map T fa hT gs hw.2 hc ha]
    split
    · exact sampleWalk_map T fa hT gs hw.2 hc ha _ _
    · exact sampleLast_map T fa hT gs hw.2 hc ha _ _
theorem sampleWalk_map (T : V4 → V4) (fa : Arc → Arc) (hT : Rigid C T) : ∀ (gs : List Fig), WfList gs → AllPtsList C gs →
    AllArcsList (ArcOk T fa) gs → ∀ dst d,
    sampleWalk dst d (mapPtsList T fa gs) = (sampleWalk dst d gs).map (Option.map T)
  | [], _, hc, _ => fun _ _ => by simp only [mapPtsList, sampleWalk]; rfl
  | g :: gs, hw, hc, ha => by
    intro dst d
    simp only [WfList] at hw
    simp only [AllPtsList] at hc
    simp only [AllArcsList] at ha
    simp only [mapPtsList, sampleWalk, length_map T fa hT g hw.1 hc.1 ha.1]
    split
    · split
      · rfl
      · exact sample_map T fa hT g hw.1 hc.1 ha.1 _
    · exact sampleWalk_map T fa hT gs hw.2 hc.2 ha.2 _ _
theorem sampleLast_map (T : V4 → V4) (fa : Arc → Arc) (hT : Rigid C T) : ∀ (gs : List Fig), WfList gs → AllPtsList C gs →
    AllArcsList (ArcOk T fa) gs → ∀ dst leng,
    sampleLast dst leng (mapPtsList T fa gs) = (sampleLast dst leng gs).map (Option.map T)
  | [], _, hc, _ => fun _ _ => by simp only [mapPtsList, sampleLast]; rfl
  | [g], hw, hc, ha => by
    intro dst leng
    simp only [WfList] at hw
    simp only [AllPtsList] at hc
    simp only [AllArcsList] at ha
    simp only [mapPtsList, sampleLast, length_map T fa hT g hw.1 hc.1 ha.1]
    split
    · rfl
    · exact sample_map T fa hT g hw.1 hc.1 ha.1 _
  | g :: g' :: gs, hw, hc, ha => by
    intro dst leng
    simp only [WfList] at hw
    simp only [AllPtsList] at hc
    simp only [AllArcsList] at ha
    have := sampleLast_map T fa hT (g' :: gs) (by simpa only [WfList] using hw.2) (by simpa only [AllPtsList] using hc.2)
      (by simpa only [AllArcsList] using ha.2) dst leng
    simp only [mapPtsList, sampleLast] at this ⊢
    exact this
end

mutual
theorem allPts_of_wf : ∀ f : Fig, f.Wf → f.AllPts ispoint
  | .point _, h => h
  | .line _, h => h
  | .arc _, _ => trivial
  | .poly _, h => h.2
  | .list gs, h => by
    simp only [Fig.Wf] at h
    simp only [Fig.AllPts]
    exact allPtsList_of_wf gs h.2
theorem allPtsList_of_wf : ∀ gs : List Fig, WfList gs → AllPtsList ispoint gs
  | [], _ => trivial
  | g :: gs, h => by
    simp only [WfList] at h
    simp only [AllPtsList]
    exact ⟨allPts_of_wf g h.1, allPtsList_of_wf gs h.2⟩
end

end Verif.Geom
