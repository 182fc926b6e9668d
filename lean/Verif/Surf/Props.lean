import Verif.Surf.Witness

/-!
# Constructor, transformations, bounding boxes (C171 – C173)
-/

namespace Verif.Surf
open Verif.Geom

/-! ## C171: the constructor -/

/-- **C171** vertices, normals, faces with a non-empty boundary, optionally holes, optionally metadata last: the
surface with exactly these parts -/
theorem C171_stores_partial (vs ns : List V4) (fs : List (List Int)) (i : Int) (b h : List Int) (hs : List (List Int))
    (hok : 3 ≤ vs.length ∧ (∀ p ∈ vs, 0 < p.w) ∧ (∀ n ∈ ns, |n.w| < eps) ∧ vs.length = ns.length ∧ ∀ f ∈ fs, f.length = 3) :
    mkSurface vs ns fs [.ints (i :: b)] = .ok ⟨vs, ns, fs, i :: b, []⟩ ∧
    mkSurface vs ns fs [.ints (i :: b), .lists h hs] = .ok ⟨vs, ns, fs, i :: b, h :: hs⟩ ∧
    mkSurface vs ns fs [.ints (i :: b), .lists h hs, .dict] = .ok ⟨vs, ns, fs, i :: b, h :: hs⟩ ∧
    mkSurface vs ns fs [.dict, .ints (i :: b), .lists h hs] = .ok ⟨vs, ns, fs, i :: b, h :: hs⟩ ∧
    mkSurface vs ns fs [] = .ok ⟨vs, ns, fs, [], []⟩ ∧
    mkSurface vs ns fs [.ints [], .ints []] = .ok ⟨vs, ns, fs, [], []⟩ := by
  have key : ∀ bd h', issurface ⟨vs, ns, fs, bd, h'⟩ = true := fun bd h' => by
    rw [C170_accepts_iff]; exact hok
  have hl := hok.2.2.2.1
  refine ⟨?_, ?_, ?_, ?_, ?_, ?_⟩ <;>
    simp [mkSurface, extrasLoop, extraStep, Extra.isEmpty, asBoundary, asHoles, key, hl]

/-- whatever the constructor returns consists of the given vertices, normals and faces, and passes the full check -/
theorem C171_result (vs ns : List V4) (fs : List (List Int)) (ex : List Extra) (s : Surface)
    (h : mkSurface vs ns fs ex = .ok s) : s.verts = vs ∧ s.norms = ns ∧ s.faces = fs ∧ issurface s = true := by
  unfold mkSurface at h
  split at h
  · cases h
  split at h
  · cases h
  split at h
  · cases h
  split at h
  · cases h
  split at h
  · cases h
  split at h
  · cases h
  split at h
  · rename_i hs
    injection h with h
    subst h
    exact ⟨rfl, rfl, rfl, hs⟩
  · cases h

/-- **C171** fails for an empty boundary followed by holes: the hole list is taken for the boundary and the check
crashes -/
theorem C171_holes_need_boundary (vs ns : List V4) (fs : List (List Int)) (h : List Int) (hs : List (List Int))
    (hok : 3 ≤ vs.length ∧ (∀ p ∈ vs, 0 < p.w) ∧ (∀ n ∈ ns, |n.w| < eps) ∧ vs.length = ns.length ∧ ∀ f ∈ fs, f.length = 3) :
    mkSurface vs ns fs [.ints [], .lists h hs] = .error .typeError := by
  have key : ∀ bd h', issurface ⟨vs, ns, fs, bd, h'⟩ = true := fun bd h' => by
    rw [C170_accepts_iff]; exact hok
  have hl := hok.2.2.2.1
  simp [mkSurface, extrasLoop, extraStep, Extra.isEmpty, asBoundary, key, hl]

/-- **C171** two metadata arguments are rejected, wherever they stand -/
theorem C171_one_metadata (vs ns : List V4) (fs : List (List Int)) (b h : List Int) (hs : List (List Int)) :
    mkSurface vs ns fs [.dict, .dict] = .error .valueError ∧
    mkSurface vs ns fs [.dict, .ints b, .dict] = .error .valueError ∧
    mkSurface vs ns fs [.ints b, .dict, .dict] = .error .valueError ∧
    mkSurface vs ns fs [.dict, .dict, .lists h hs] = .error .valueError := by
  refine ⟨?_, ?_, ?_, ?_⟩ <;>
    (unfold mkSurface; split <;> [rfl; skip]; split <;> [rfl; skip]) <;> simp [extrasLoop, extraStep, Extra.isEmpty]

/-- the hypotheses are met by a triangle -/
example : ∃ (vs ns : List V4) (fs : List (List Int)), 3 ≤ vs.length ∧ (∀ p ∈ vs, 0 < p.w) ∧ (∀ n ∈ ns, |n.w| < eps) ∧
    vs.length = ns.length ∧ ∀ f ∈ fs, f.length = 3 := by
  refine ⟨[pt 0 0, pt 1 0, pt 0 1], [⟨0, 0, 1, 0⟩, ⟨0, 0, 1, 0⟩, ⟨0, 0, 1, 0⟩], [[0, 1, 2]], by simp, ?_, ?_, by simp, by simp⟩
  · intro p hp
    simp only [List.mem_cons, List.not_mem_nil, or_false] at hp
    rcases hp with rfl | rfl | rfl <;> simp [pt]
  · intro p hp
    simp only [List.mem_cons, List.not_mem_nil, or_false] at hp
    rcases hp with rfl | rfl | rfl <;> simp [eps] <;> norm_num

/-! ## C172: moving surfaces -/

/-- same faces, boundary, holes -/
def SameShape (s s' : Surface) : Prop := s'.faces = s.faces ∧ s'.boundary = s.boundary ∧ s'.holes = s.holes

/-- faces walked the other way round: the last two indices exchanged -/
def Flipped (fs fs' : List (List Int)) : Prop :=
  List.Forall₂ (fun f f' => ∃ a b c, f = [a, b, c] ∧ f' = [a, c, b]) fs fs'

theorem forall₂_map_self {α β : Type} {R : α → β → Prop} {f : α → β} (l : List α) (h : ∀ a ∈ l, R a (f a)) :
    List.Forall₂ R l (l.map f) := by
  induction l with
  | nil => exact .nil
  | cons a l ih => exact .cons (h a (by simp)) (ih fun b hb => h b (by simp [hb]))

theorem flipped_swap3 (fs : List (List Int)) (h : ∀ f ∈ fs, f.length = 3) : Flipped fs (fs.map swap3) := by
  apply forall₂_map_self
  intro f hf
  match f, h f hf with
  | [a, b, c], _ => exact ⟨a, b, c, rfl, rfl⟩

/-- **C172** (translation) every vertex moves by the given vector, up to less than epsilon (exactly, unless the whole
vector is shorter than epsilon); normals and faces stay -/
theorem C172_translate (s : Surface) (δ : V4) :
    SameShape s (translatesurface s δ) ∧ (translatesurface s δ).norms = s.norms ∧
    List.Forall₂ (fun p q => sqDist q (add p δ) < eps ^ 2) s.verts (translatesurface s δ).verts ∧
    (eps ^ 2 ≤ δ.x ^ 2 + δ.y ^ 2 + δ.z ^ 2 →
      List.Forall₂ (fun p q => Same3 q ⟨p.x + δ.x, p.y + δ.y, p.z + δ.z, 1⟩) s.verts (translatesurface s δ).verts) := by
  have he : 0 < eps := by unfold eps; norm_num
  unfold translatesurface
  by_cases h : vclose δ (pt 0 0 0)
  · rw [if_pos h]
    have hn := vclose_near h
    refine ⟨⟨rfl, rfl, rfl⟩, rfl, ?_, ?_⟩
    · rw [List.forall₂_same]
      intro p _
      unfold sqDist add pt at *
      simp only at *
      nlinarith
    · intro h'
      unfold sqDist pt at hn
      simp only at hn
      nlinarith
  · rw [if_neg h]
    refine ⟨⟨rfl, rfl, rfl⟩, rfl, ?_, fun _ => ?_⟩
    · apply forall₂_map_self
      intro p _
      unfold sqDist
      simp only [sub_self]
      nlinarith [mul_pos he he]
    · apply forall₂_map_self
      intro p _
      exact ⟨rfl, rfl, rfl⟩

/-- **C172** (rotation) vertices turn about the axis through the centre, normals turn about the axis through the
origin; faces stay -/
theorem C172_rotate (s : Surface) (ang : ℝ) (c u : V4) (hu : UnitV u) (hc : GoodCentre c) (ha : ¬ close ang 0)
    (hw : ∀ p ∈ s.verts, p.w = 1) (hn : ∀ n ∈ s.norms, n.w = 0) :
    ∃ s', rotatesurface s ang c u = .ok s' ∧ SameShape s s' ∧
      List.Forall₂ (fun p q => Turned c u (deg ang) p q ∧ q.w = 1) s.verts s'.verts ∧
      List.Forall₂ (fun p q => Turned (pt 0 0) u (deg ang) p q ∧ q.w = 0) s.norms s'.norms := by
  obtain ⟨M, hM, hm⟩ := rotateMat_ok u c hu hc ang
  refine ⟨{ s with verts := s.verts.map (mulP M), norms := s.norms.map (mulP M) }, by unfold rotatesurface; rw [if_neg ha, hM],
    ⟨rfl, rfl, rfl⟩, ?_, ?_⟩
  · apply forall₂_map_self
    intro p hp
    rw [hm]
    exact ⟨rotMap_turned c u _ p (hw p hp) hu, hw p hp⟩
  · apply forall₂_map_self
    intro p hp
    rw [hm]
    have h0 := hn p hp
    refine ⟨?_, h0⟩
    unfold Turned rotMap rotCoord crossV dot sub pt
    simp only [h0]
    refine ⟨?_, ?_, ?_⟩ <;> ring

/-- **C172** (reflection) vertices and normals are reflected and every face is walked the other way round; doing it
twice restores the surface -/
theorem C172_mirror (s : Surface) (pl : Plane) (h3 : ∀ f ∈ s.faces, f.length = 3) :
    ∃ s', mirrorsurface s pl = .ok s' ∧ s'.boundary = s.boundary ∧ s'.holes = s.holes ∧ Flipped s.faces s'.faces ∧
      List.Forall₂ (Mirrored pl) s.verts s'.verts ∧ List.Forall₂ (Mirrored pl) s.norms s'.norms ∧
      mirrorsurface s' pl = .ok s := by
  have e : mirrorsurface s pl = .ok { s with
      verts := s.verts.map (fun p => mul4 p (Geom.flip pl)), norms := s.norms.map (fun p => mul4 p (Geom.flip pl)),
      faces := s.faces.map swap3 } := by
    unfold mirrorsurface; rw [swapFaces_ok s.faces h3]
  refine ⟨_, e, rfl, rfl, flipped_swap3 _ h3, ?_, ?_, ?_⟩
  · exact forall₂_map_self _ fun p _ => mul4_flip pl p
  · exact forall₂_map_self _ fun p _ => mul4_flip pl p
  · unfold mirrorsurface
    rw [swapFaces_ok _ (by
      intro f hf
      obtain ⟨g, hg, rfl⟩ := List.mem_map.mp hf
      exact swap3_length g (h3 g hg))]
    have hm : ∀ p : V4, mul4 (mul4 p (Geom.flip pl)) (Geom.flip pl) = p := by
      intro p; cases pl <;> (unfold mul4 Geom.flip; ext <;> simp)
    have hf : (s.faces.map swap3).map swap3 = s.faces := by
      rw [List.map_map]
      conv_rhs => rw [← List.map_id s.faces]
      apply List.map_congr_left
      intro f hf
      match f, h3 f hf with
      | [a, b, c], _ => rfl
    simp only [List.map_map, Function.comp_def, hm, List.map_id', Except.ok.injEq]
    simp only [List.map_map, Function.comp_def] at hf
    rw [hf]

/-- **C172** (reversal) vertices stay, normals are negated, every face is walked the other way round; doing it twice
restores the surface -/
theorem C172_reverse (s : Surface) (h3 : ∀ f ∈ s.faces, f.length = 3) :
    ∃ s', reversesurface s = .ok s' ∧ s'.verts = s.verts ∧ s'.boundary = s.boundary ∧ s'.holes = s.holes ∧
      Flipped s.faces s'.faces ∧
      List.Forall₂ (fun n m => m.x = -n.x ∧ m.y = -n.y ∧ m.z = -n.z) s.norms s'.norms ∧ reversesurface s' = .ok s := by
  have e : reversesurface s = .ok { s with norms := s.norms.map (fun n => scale4 n (-1)), faces := s.faces.map swap3 } := by
    unfold reversesurface; rw [swapFaces_ok s.faces h3]
  refine ⟨_, e, rfl, rfl, rfl, flipped_swap3 _ h3, ?_, ?_⟩
  · exact forall₂_map_self _ fun p _ => by simp [scale4]
  · unfold reversesurface
    rw [swapFaces_ok _ (by
      intro f hf
      obtain ⟨g, hg, rfl⟩ := List.mem_map.mp hf
      exact swap3_length g (h3 g hg))]
    have hm : ∀ p : V4, scale4 (scale4 p (-1)) (-1) = p := by
      intro p; unfold scale4; ext <;> simp
    have hf : (s.faces.map swap3).map swap3 = s.faces := by
      rw [List.map_map]
      conv_rhs => rw [← List.map_id s.faces]
      apply List.map_congr_left
      intro f hf
      match f, h3 f hf with
      | [a, b, c], _ => rfl
    simp only [List.map_map, Function.comp_def, hm, List.map_id', Except.ok.injEq]
    simp only [List.map_map, Function.comp_def] at hf
    rw [hf]

/-! ## C172: scaling -/

theorem scalesurface_some (s : Surface) (sx sy sz : ℝ) (c : V4) (M : Xform.Mat ℝ) (hf : ¬ vclose (pt sx sy sz) (pt 1 1 1))
    (hM : scaleMat sx (some sy) (some sz) c = some M) : ∃ N : Except Err (List V4),
    scalesurface s sx (some sy) (some sz) c = (match N with
      | .error e => .error e
      | .ok ns => .ok { s with verts := s.verts.map (mulP M), norms := ns }) ∧
    ((close sx sy ∧ close sy sz → N = .ok s.norms) ∧
     (¬ (close sx sy ∧ close sy sz) → sx ≠ 0 ∧ sy ≠ 0 ∧ sz ≠ 0 → N = .ok (s.norms.map (scaleNormal sx sy sz))) ∧
     (¬ (close sx sy ∧ close sy sz) → ¬ (sx ≠ 0 ∧ sy ≠ 0 ∧ sz ≠ 0) → N = .error .zeroDivision)) := by
  have euni : uniform sx (some sy) (some sz) = (some sy, some sz) := rfl
  unfold scalesurface
  rw [euni]
  simp only
  rw [if_neg (show ¬ vclose (factorPoint sx (some sy) (some sz)) (pt 1 1 1) from hf), hM]
  simp only [Option.getD_some]
  by_cases hu : close sx sy ∧ close sy sz
  · rw [if_neg (by tauto)]
    exact ⟨.ok s.norms, rfl, fun _ => rfl, fun h => absurd hu h, fun h => absurd hu h⟩
  · rw [if_pos (by tauto)]
    by_cases h0 : sx ≠ 0 ∧ sy ≠ 0 ∧ sz ≠ 0
    · rw [if_neg (by tauto)]
      exact ⟨.ok _, rfl, fun h => absurd h hu, fun _ _ => rfl, fun _ h => absurd h0 h⟩
    · rw [if_pos (by tauto)]
      exact ⟨.error .zeroDivision, rfl, fun h => absurd h hu, fun _ h => absurd h h0, fun _ _ => rfl⟩

/-- **C172** (scaling about the origin) three non-zero factors multiply the coordinates of every vertex; faces stay -/
theorem C172_scale_origin_partial (s : Surface) (sx sy sz : ℝ) (hf : ¬ vclose (pt sx sy sz) (pt 1 1 1))
    (h0 : sx ≠ 0 ∧ sy ≠ 0 ∧ sz ≠ 0) :
    ∃ s', scalesurface s sx (some sy) (some sz) (pt 0 0 0) = .ok s' ∧ SameShape s s' ∧
      List.Forall₂ (fun p q => Same3 q ⟨sx * p.x, sy * p.y, sz * p.z, 1⟩) s.verts s'.verts := by
  obtain ⟨M, hM, h1, -⟩ := scaleMat_coord sx sy sz (pt 0 0 0)
  obtain ⟨N, hN, a, b, c⟩ := scalesurface_some s sx sy sz _ M hf hM
  have hm := h1 (vclose_self ⟨rfl, rfl, rfl⟩)
  obtain ⟨ns, rfl⟩ : ∃ ns, N = .ok ns := by
    by_cases hu : close sx sy ∧ close sy sz
    · exact ⟨_, a hu⟩
    · exact ⟨_, b hu h0⟩
  refine ⟨_, hN, ⟨rfl, rfl, rfl⟩, ?_⟩
  apply forall₂_map_self
  intro p _
  rw [hm]
  exact ⟨rfl, rfl, rfl⟩

/-- **C172** fails for scaling about a centre: the point that stays fixed is the mirror image of the given centre -/
theorem C172_scale_about_opposite (s : Surface) (sx sy sz : ℝ) (c : V4) (hf : ¬ vclose (pt sx sy sz) (pt 1 1 1))
    (h0 : sx ≠ 0 ∧ sy ≠ 0 ∧ sz ≠ 0) (hc : ¬ vclose c (pt 0 0)) (hw : ∀ p ∈ s.verts, p.w = 1) :
    ∃ s', scalesurface s sx (some sy) (some sz) c = .ok s' ∧
      List.Forall₂ (fun p q => q.x + c.x = sx * (p.x + c.x) ∧ q.y + c.y = sy * (p.y + c.y) ∧
        q.z + c.z = sz * (p.z + c.z)) s.verts s'.verts := by
  obtain ⟨M, hM, -, h1⟩ := scaleMat_coord sx sy sz c
  obtain ⟨N, hN, a, b, _⟩ := scalesurface_some s sx sy sz _ M hf hM
  have hm := h1 hc
  obtain ⟨ns, rfl⟩ : ∃ ns, N = .ok ns := by
    by_cases hu : close sx sy ∧ close sy sz
    · exact ⟨_, a hu⟩
    · exact ⟨_, b hu h0⟩
  refine ⟨_, hN, ?_⟩
  apply forall₂_map_self
  intro p hp
  rw [hm, hw p hp]
  refine ⟨?_, ?_, ?_⟩ <;> ring

/-- **C172** two factors only: the call raises `ZeroDivisionError` -/
theorem C172_two_factors_crash (s : Surface) (sx sy : ℝ) (c : V4)
    (hu : ¬ (close sx sy ∧ close sy 0)) : scalesurface s sx (some sy) none c = .error .zeroDivision := by
  have euni : uniform sx (some sy) none = (some sy, none) := rfl
  have hM : ∃ M, scaleMat sx (some sy) none c = some M := by
    unfold scaleMat Xform.scale
    simp only [Bool.false_eq_true, if_false]
    split <;> exact ⟨_, rfl⟩
  obtain ⟨M, hM⟩ := hM
  have hf : ¬ vclose (factorPoint sx (some sy) none) (pt 1 1 1) := by
    intro h
    have := vclose_near h
    unfold factorPoint sqDist pt eps at this
    simp only at this
    nlinarith [sq_nonneg (sx - 1), sq_nonneg (sy - 1)]
  unfold scalesurface
  rw [euni]
  simp only
  rw [if_neg hf, hM]
  simp only [Option.getD_some, Option.getD_none]
  rw [if_pos (by tauto), if_pos (by simp)]

/-- the normal of a flat face, by the right-hand rule -/
def faceNormal (t : Tri) : Pos :=
  ((t.b.y - t.a.y) * (t.c.z - t.a.z) - (t.b.z - t.a.z) * (t.c.y - t.a.y),
   (t.b.z - t.a.z) * (t.c.x - t.a.x) - (t.b.x - t.a.x) * (t.c.z - t.a.z),
   (t.b.x - t.a.x) * (t.c.y - t.a.y) - (t.b.y - t.a.y) * (t.c.x - t.a.x))

/-- `n` points exactly along `m`, with factor of the given sign -/
def Along (n m : Pos) : Prop := ∃ k : ℝ, 0 < k ∧ n.1 = k * m.1 ∧ n.2.1 = k * m.2.1 ∧ n.2.2 = k * m.2.2
/-- `n` points exactly against `m` -/
def Against (n m : Pos) : Prop := ∃ k : ℝ, 0 < k ∧ n.1 = -k * m.1 ∧ n.2.1 = -k * m.2.1 ∧ n.2.2 = -k * m.2.2

/-- how the normal of a face changes under scaling by three factors -/
theorem scaleNormal_along (sx sy sz : ℝ) (h0 : sx ≠ 0 ∧ sy ≠ 0 ∧ sz ≠ 0) (t t' : Tri) (n : V4)
    (ha : Same3 t'.a ⟨sx * t.a.x, sy * t.a.y, sz * t.a.z, 1⟩) (hb : Same3 t'.b ⟨sx * t.b.x, sy * t.b.y, sz * t.b.z, 1⟩)
    (hc : Same3 t'.c ⟨sx * t.c.x, sy * t.c.y, sz * t.c.z, 1⟩)
    (hl : 1e-10 < √((1 / sx * n.x) ^ 2 + (1 / sy * n.y) ^ 2 + (1 / sz * n.z) ^ 2)) (h : Along (pos n) (faceNormal t)) :
    (0 < sx * sy * sz → Along (pos (scaleNormal sx sy sz n)) (faceNormal t')) ∧
    (sx * sy * sz < 0 → Against (pos (scaleNormal sx sy sz n)) (faceNormal t')) := by
  obtain ⟨hx, hy, hz⟩ := h0
  obtain ⟨k, hk, k1, k2, k3⟩ := h
  simp only [pos] at k1 k2 k3
  obtain ⟨a1, a2, a3⟩ := ha
  obtain ⟨b1, b2, b3⟩ := hb
  obtain ⟨c1, c2, c3⟩ := hc
  have hlen : (0 : ℝ) < √((1 / sx * n.x) ^ 2 + (1 / sy * n.y) ^ 2 + (1 / sz * n.z) ^ 2) := lt_trans (by norm_num) hl
  have e : scaleNormal sx sy sz n = ⟨1 / sx * n.x / √((1 / sx * n.x) ^ 2 + (1 / sy * n.y) ^ 2 + (1 / sz * n.z) ^ 2),
      1 / sy * n.y / √((1 / sx * n.x) ^ 2 + (1 / sy * n.y) ^ 2 + (1 / sz * n.z) ^ 2),
      1 / sz * n.z / √((1 / sx * n.x) ^ 2 + (1 / sy * n.y) ^ 2 + (1 / sz * n.z) ^ 2), 0⟩ := by
    unfold scaleNormal
    exact if_pos hl
  rw [e]
  generalize √((1 / sx * n.x) ^ 2 + (1 / sy * n.y) ^ 2 + (1 / sz * n.z) ^ 2) = L at hlen
  simp only at a1 a2 a3 b1 b2 b3 c1 c2 c3
  have hL : L ≠ 0 := hlen.ne'
  have f : faceNormal t' = (sx * sy * sz / sx * (faceNormal t).1, sx * sy * sz / sy * (faceNormal t).2.1, sx * sy * sz / sz * (faceNormal t).2.2) := by
    unfold faceNormal
    simp only [a1, a2, a3, b1, b2, b3, c1, c2, c3, Prod.mk.injEq]
    refine ⟨?_, ?_, ?_⟩ <;> field_simp
  rw [f]
  unfold pos
  simp only
  rw [k1, k2, k3]
  constructor
  · intro hd
    refine ⟨k / (L * (sx * sy * sz)), by positivity, ?_, ?_, ?_⟩ <;> (simp only; field_simp)
  · intro hd
    refine ⟨k / (L * -(sx * sy * sz)), div_pos hk (mul_pos hlen (by linarith)), ?_, ?_, ?_⟩ <;> (simp only; field_simp)

/-- **C177** non-uniform scaling about the origin by factors with a positive product: a vertex normal that pointed along
the normal of a face (right-hand rule) still does. With a negative product it points against it: the normals are
turned with the surface but the faces keep their direction. -/
theorem C177_normals_partial (s : Surface) (sx sy sz : ℝ) (h0 : sx ≠ 0 ∧ sy ≠ 0 ∧ sz ≠ 0)
    (hu : ¬ (close sx sy ∧ close sy sz)) (hf : ¬ vclose (pt sx sy sz) (pt 1 1 1)) :
    ∃ s', scalesurface s sx (some sy) (some sz) (pt 0 0 0) = .ok s' ∧
      ∀ f ∈ s.faces, ∀ t t' : Tri, Corners s.verts f t → Corners s'.verts f t' →
        ∀ (i : Nat) (n : V4), s.norms[i]? = some n →
          1e-10 < √((1 / sx * n.x) ^ 2 + (1 / sy * n.y) ^ 2 + (1 / sz * n.z) ^ 2) →
          Along (pos n) (faceNormal t) → ∃ n', s'.norms[i]? = some n' ∧
            (0 < sx * sy * sz → Along (pos n') (faceNormal t')) ∧ (sx * sy * sz < 0 → Against (pos n') (faceNormal t')) := by
  obtain ⟨M, hM, h1, -⟩ := scaleMat_coord sx sy sz (pt 0 0 0)
  obtain ⟨N, hN, -, b, -⟩ := scalesurface_some s sx sy sz _ M hf hM
  have hm := h1 (vclose_self ⟨rfl, rfl, rfl⟩)
  rw [b hu h0] at hN
  refine ⟨_, hN, ?_⟩
  intro f _ t t' ht ht' i n hn hl ha
  refine ⟨scaleNormal sx sy sz n, by simp [List.getElem?_map, hn], ?_⟩
  have hc := corners_map (mulP M) _ _ _ ht
  have heq : t' = t.map (mulP M) := by
    have e1 := (faceTri_ok ..).mpr ht'
    have e2 := (faceTri_ok ..).mpr hc
    simp only [id] at e2
    rw [e1] at e2
    injection e2
  subst heq
  apply scaleNormal_along sx sy sz h0 t _ n _ _ _ hl ha <;> (simp only [Tri.map, hm]; exact ⟨rfl, rfl, rfl⟩)

/-- **C177** uniform scaling about the origin leaves every normal unchanged -/
theorem C177_uniform_partial (s : Surface) (k : ℝ) (hf : ¬ vclose (pt k k k) (pt 1 1 1)) :
    ∃ s', scalesurface s k none none (pt 0 0 0) = .ok s' ∧ s'.norms = s.norms ∧
      List.Forall₂ (fun p q => Same3 q ⟨k * p.x, k * p.y, k * p.z, 1⟩) s.verts s'.verts := by
  have hcl : close k k := by unfold close eps; norm_num
  obtain ⟨M, hM, h1, -⟩ := scaleMat_coord k k k (pt 0 0 0)
  obtain ⟨N, hN, a, -, -⟩ := scalesurface_some s k k k _ M hf hM
  have hm := h1 (vclose_self ⟨rfl, rfl, rfl⟩)
  rw [a ⟨hcl, hcl⟩] at hN
  have e : scalesurface s k none none (pt 0 0 0) = scalesurface s k (some k) (some k) (pt 0 0 0) := rfl
  refine ⟨_, e.trans hN, rfl, ?_⟩
  apply forall₂_map_self
  intro p _
  rw [hm]
  exact ⟨rfl, rfl, rfl⟩

/-- **C177** fails for a uniform negative factor: an outward mesh (positive signed volume) becomes an inward one, its
signed volume is multiplied by the cube of the factor -/
theorem C177_inside_out (ts : List Tri) (ho : Oriented ts) (k : ℝ) (hk : k < 0) (hv : 0 < (ts.map triVolume).sum) :
    ((ts.map (Tri.map fun p => ⟨k * p.x, k * p.y, k * p.z, 1⟩)).map triVolume).sum < 0 := by
  rw [volume_affine ⟨(k, 0, 0), (0, k, 0), (0, 0, k)⟩ (0, 0, 0) _ ts ho (fun p _ => by unfold IsAffine dotP pos; simp)]
  unfold Lin.det
  simp only
  have : k * (k * k - 0 * 0) - 0 * (0 * k - 0 * 0) + 0 * (0 * 0 - k * 0) = k * (k * k) := by ring
  rw [this]
  exact mul_neg_of_neg_of_pos (mul_neg_of_neg_of_pos hk (mul_pos_of_neg_of_neg hk hk)) hv

/-! ## C173: bounding boxes -/

/-- **C173** the box of a solid whose surfaces have at least two vertices each contains every vertex and is contained
in every box that contains them all -/
theorem C173_tight_partial (x : Solid) (h2 : ∀ s ∈ x.surfs, 2 ≤ s.verts.length) (hne : x.surfs ≠ []) :
    ∃ b, solidbbox x = .ok (some b) ∧ (∀ s ∈ x.surfs, ∀ p ∈ s.verts, InBox b.lo b.hi p) ∧
      ∀ lo hi, (∀ s ∈ x.surfs, ∀ p ∈ s.verts, InBox lo hi p) → InBox lo hi b.lo ∧ InBox lo hi b.hi := by
  have loop : ∀ (ss : List Surface) (b : Box), (∀ s ∈ ss, 2 ≤ s.verts.length) →
      ∃ b', boxLoop (some b) ss = .ok (some b') ∧
        (b'.lo.x ≤ b.lo.x ∧ b'.lo.y ≤ b.lo.y ∧ b'.lo.z ≤ b.lo.z ∧ b.hi.x ≤ b'.hi.x ∧ b.hi.y ≤ b'.hi.y ∧ b.hi.z ≤ b'.hi.z) ∧
        (∀ s ∈ ss, ∀ p ∈ s.verts, InBox b'.lo b'.hi p) ∧
        ∀ lo hi, InBox lo hi b.lo → InBox lo hi b.hi → (∀ s ∈ ss, ∀ p ∈ s.verts, InBox lo hi p) →
          InBox lo hi b'.lo ∧ InBox lo hi b'.hi := by
    intro ss
    induction ss with
    | nil => intro b _; exact ⟨b, rfl, by simp, by simp, fun lo hi h1 h2 _ => ⟨h1, h2⟩⟩
    | cons s ss ih =>
      intro b h
      obtain ⟨sb, hsb, -, -, hin, htight⟩ := C40_tight s.verts (h s (by simp))
      obtain ⟨b', hb', hle, hall, hmin⟩ := ih
        ⟨pt (min b.lo.x sb.lo.x) (min b.lo.y sb.lo.y) (min b.lo.z sb.lo.z),
         pt (max b.hi.x sb.hi.x) (max b.hi.y sb.hi.y) (max b.hi.z sb.hi.z)⟩ (fun t ht => h t (by simp [ht]))
      simp only [pt] at hle
      obtain ⟨l1, l2, l3, l4, l5, l6⟩ := hle
      refine ⟨b', ?_, ?_, ?_, ?_⟩
      · simp only [boxLoop, boxStep, surfacebbox, hsb]
        exact hb'
      · exact ⟨l1.trans (min_le_left _ _), l2.trans (min_le_left _ _), l3.trans (min_le_left _ _),
          (le_max_left _ _).trans l4, (le_max_left _ _).trans l5, (le_max_left _ _).trans l6⟩
      · intro t ht p hp
        rcases List.mem_cons.mp ht with rfl | ht
        · obtain ⟨i1, i2, i3, i4, i5, i6⟩ := hin p hp
          exact ⟨(l1.trans (min_le_right _ _)).trans i1, i2.trans ((le_max_right _ _).trans l4),
            (l2.trans (min_le_right _ _)).trans i3, i4.trans ((le_max_right _ _).trans l5),
            (l3.trans (min_le_right _ _)).trans i5, i6.trans ((le_max_right _ _).trans l6)⟩
        · exact hall t ht p hp
      · intro lo hi hlo hhi hp
        obtain ⟨s1, s2⟩ := htight lo hi (hp s (by simp))
        apply hmin lo hi
        · simp only [InBox, pt] at *
          obtain ⟨a1, a2, a3, a4, a5, a6⟩ := hlo
          obtain ⟨c1, c2, c3, c4, c5, c6⟩ := s1
          exact ⟨le_min a1 c1, (min_le_left _ _).trans a2, le_min a3 c3, (min_le_left _ _).trans a4, le_min a5 c5, (min_le_left _ _).trans a6⟩
        · simp only [InBox, pt] at *
          obtain ⟨a1, a2, a3, a4, a5, a6⟩ := hhi
          obtain ⟨c1, c2, c3, c4, c5, c6⟩ := s2
          exact ⟨a1.trans (le_max_left _ _), max_le a2 c2, a3.trans (le_max_left _ _), max_le a4 c4, a5.trans (le_max_left _ _), max_le a6 c6⟩
        · exact fun t ht => hp t (by simp [ht])
  match hx : x.surfs, hne with
  | s :: ss, _ =>
    rw [hx] at h2
    obtain ⟨sb, hsb, -, -, hin, htight⟩ := C40_tight s.verts (h2 s (by simp))
    obtain ⟨b', hb', hle, hall, hmin⟩ := loop ss sb (fun t ht => h2 t (by simp [ht]))
    obtain ⟨l1, l2, l3, l4, l5, l6⟩ := hle
    refine ⟨b', ?_, ?_, ?_⟩
    · unfold solidbbox
      rw [hx]
      simp only [boxLoop, boxStep, surfacebbox, hsb]
      exact hb'
    · intro t ht p hp
      rcases List.mem_cons.mp ht with rfl | ht
      · obtain ⟨i1, i2, i3, i4, i5, i6⟩ := hin p hp
        exact ⟨l1.trans i1, i2.trans l4, l2.trans i3, i4.trans l5, l3.trans i5, i6.trans l6⟩
      · exact hall t ht p hp
    · intro lo hi hp
      obtain ⟨s1, s2⟩ := htight lo hi (hp s (by simp))
      exact hmin lo hi s1 s2 (fun t ht => hp t (by simp [ht]))

/-- **C173** fails when a surface without vertices follows one with vertices: `TypeError` -/
theorem C173_empty_surface_crash (s e : Surface) (h : 2 ≤ s.verts.length) (he : e.verts = []) (rest : List Surface) :
    solidbbox ⟨s :: e :: rest⟩ = .error .typeError := by
  obtain ⟨sb, hsb, -⟩ := C40_tight s.verts h
  have he' : polybbox e.verts = none := by rw [he]; rfl
  simp [solidbbox, boxLoop, boxStep, surfacebbox, hsb, he']

/-- no surfaces: no box -/
theorem C173_none : solidbbox ⟨[]⟩ = .ok none := rfl

end Verif.Surf
