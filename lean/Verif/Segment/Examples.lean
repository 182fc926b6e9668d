import Verif.Segment.Connect

/-!
# C196: witnesses, and a beam on which the theorems' hypotheses hold
-/

namespace Verif.Segment
open Verif.Path (Seg Vec pathLength extract evaluate cutPlane parameterToLength lengthToParameter len Proper Joined At segLength upTo cut clamp)

/-- a straight spine of length 10 -/
def straight : List Seg := [.line ⟨0, 0, 0⟩ ⟨10, 0, 0⟩]

theorem straight_len : segLength (.line ⟨0, 0, 0⟩ ⟨10, 0, 0⟩) = 10 :=
  Verif.Path.len_of_sq (by norm_num) (by norm_num [Verif.Path.dot, Verif.Path.sub])

theorem straight_even : Even straight 10 := by
  refine ⟨by simp [straight, Proper], by simp [straight, straight_len], ?_⟩
  unfold straight
  rw [Verif.Path.pathLength_cons, Verif.Path.pathLength_nil, straight_len]
  norm_num

/-- a solid kernel that never fails and writes down what it is asked to do -/
def recorder : World String where
  split s _ _ := .ok (s ++ "<", s ++ ">")
  union s t := some (s ++ "+" ++ t)
  sweep _ _ := .ok "tab"

/-- a square beam of width 4 with walls of thickness 1 -/
def beam : Prov String where
  id := "beam"
  dims := some (4, 4)
  wall := some 1
  spine := straight
  solid := some "solid"

theorem beam_usable : usable beam true = some (4, 4, 1) := by
  unfold usable beam
  simp

theorem beam_works (cuts : List CutPoint) (h : ∀ c ∈ cuts, 0 < c.parameter ∧ c.parameter < 1 ∧ c.clearance = 1 / 5 ∧ (c.side = "a" ∨ c.side = "b" ∨ c.side = "none")) :
    Works recorder beam.spine 4 4 1 cuts := by
  refine ⟨fun c hc => ?_, fun s pt n => ⟨_, rfl⟩, fun s t => ⟨_, rfl⟩, fun c hc => ?_, fun c hc => (h c hc).2.2.2⟩
  · obtain ⟨v, τ, hv, _⟩ := Verif.Path.C184_total straight_even.ne (by simp [straight]) c.parameter
    exact ⟨_, hv⟩
  · obtain ⟨h0, h1, h2, _⟩ := h c hc
    obtain ⟨lo, hi, q, hs, _, _, _, _, _, _, he, _⟩ := C200_centred_partial straight_even h0 h1 (l := connectorLength 4 4) (by norm_num [connectorLength])
    refine ⟨"tab", ?_⟩
    unfold createInterior
    rw [h2, (C199_profile 4 4 1 (1 / 5)).1 (by norm_num)]
    dsimp only
    rw [Option.getD_some]
    rw [show beam.spine = straight from rfl, hs]
    dsimp only
    rw [he]
    rfl

/-- a cut of the beam -/
noncomputable def cutAt (t : ℝ) (side : String) : CutPoint := ⟨"beam", t, none, 1 / 5, side⟩

theorem ordered_of {cuts : List CutPoint} (h : cuts.Pairwise fun a b => a.parameter ≤ b.parameter) : ordered cuts = cuts :=
  List.mergeSort_of_pairwise (h.imp fun hab => by simpa using hab)

theorem ordered_two (s t : String) : ordered [cutAt (1 / 4) s, cutAt (1 / 2) t] = [cutAt (1 / 4) s, cutAt (1 / 2) t] := by
  refine ordered_of ?_
  rw [List.pairwise_pair]
  show (1 / 4 : ℝ) ≤ 1 / 2
  norm_num

theorem two_works (s t : String) (hs : s = "a" ∨ s = "b" ∨ s = "none") (ht : t = "a" ∨ t = "b" ∨ t = "none") :
    Works recorder beam.spine 4 4 1 [cutAt (1 / 4) s, cutAt (1 / 2) t] := by
  refine beam_works _ fun c hc => ?_
  simp only [List.mem_cons, List.not_mem_nil, or_false] at hc
  rcases hc with rfl | rfl
  · exact ⟨by norm_num [cutAt], by norm_num [cutAt], rfl, hs⟩
  · exact ⟨by norm_num [cutAt], by norm_num [cutAt], rfl, ht⟩

/-- **C196 fails.** A beam cut at 1/4, with the connector on the lower side, and at 1/2, with a separate connector: the middle segment
receives the first one's tab and is reported as "none". -/
theorem C196_receiver_none : ∃ r, segmentSwept recorder beam [cutAt (1 / 4) "a", cutAt (1 / 2) "none"] true true = .ok r ∧
    r.segments.map (·.kind) = [.male, .none, .none] := by
  obtain ⟨r, h1, _, h3, _⟩ := kinds_works (two_works "a" "none" (by simp) (by simp)) beam_usable rfl (by simp) (by simp [cutAt, beam])
  refine ⟨r, h1, ?_⟩
  rw [h3, ordered_two]
  simp [cutAt, kindsOf, own]

/-- **C196 fails.** The other way round - a separate connector at 1/4 and the tab of the middle segment reaching forward at 1/2 - the first
segment is reported as "female" although no tab enters it. -/
theorem C196_female_without_tab : ∃ r, segmentSwept recorder beam [cutAt (1 / 4) "none", cutAt (1 / 2) "a"] true true = .ok r ∧
    r.segments.map (·.kind) = [.female, .male, .female] ∧ r.connectors.map (·.center) = [1 / 4] := by
  obtain ⟨r, h1, _, h3, h4⟩ := kinds_works (two_works "none" "a" (by simp) (by simp)) beam_usable rfl (by simp) (by simp [cutAt, beam])
  refine ⟨r, h1, ?_, ?_⟩
  · rw [h3, ordered_two]
    simp [cutAt, kindsOf, own]
  · rw [h4, ordered_two]
    simp [cutAt, separate, connectorSpec]

/-- the hypotheses of C193-C196 hold: a beam in three segments -/
example : ∃ r, segmentSwept recorder beam [cutAt (1 / 4) "a", cutAt (1 / 2) "b"] true true = .ok r ∧ r.segments.length = 3 ∧
    r.segments.map (·.range) = [(0, 1 / 4), (1 / 4, 1 / 2), (1 / 2, 1)] := by
  obtain ⟨r, h1, h2, _⟩ := kinds_works (two_works "a" "b" (by simp) (by simp)) beam_usable rfl (by simp) (by simp [cutAt, beam])
  obtain ⟨a, b⟩ := C193_all h1 (by
    intro i t hm
    have hf : failed r.warnings i = true := List.any_eq_true.mpr ⟨_, hm, by simp⟩
    rw [h2] at hf; cases hf)
  refine ⟨r, h1, by simpa using a, ?_⟩
  rw [b, ordered_two]
  simp [cutAt, ranges]

example : ∃ cs, optimalCuts beam 3 = .ok cs ∧ cs.length = 3 := by
  have hL : pathLength beam.spine = 10 := by
    show pathLength straight = 10
    unfold straight
    rw [Verif.Path.pathLength_cons, Verif.Path.pathLength_nil, straight_len]; norm_num
  obtain ⟨cs, h1, h2, _⟩ := C203_even beam (limit := 3) (by norm_num) (by rw [hL]; norm_num)
  refine ⟨cs, h1, ?_⟩
  have : pieces (pathLength beam.spine) 3 = 4 := by
    unfold pieces
    rw [hL]
    have : ⌊(10 / 3 : ℝ)⌋₊ = 3 := by rw [Nat.floor_eq_iff (by norm_num)]; norm_num
    rw [this]
  omega

end Verif.Segment
