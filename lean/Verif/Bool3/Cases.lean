import Verif.Bool3.Order

/-!
# Points in solids: a cube, and the solids for which the answer is wrong
-/

namespace Verif.Bool3
open Verif.Valid (V vsub vadd smul dot cross Box Tri hull)

/-- the side faces over a counter-clockwise polygon, each of two triangles facing outward -/
def walls (z0 z1 : ℚ) : List ((ℚ × ℚ) × (ℚ × ℚ)) → List (Tri ℚ)
  | [] => []
  | ((x0, y0), (x1, y1)) :: l => (⟨x0, y0, z0⟩, ⟨x1, y1, z0⟩, ⟨x1, y1, z1⟩) :: (⟨x0, y0, z0⟩, ⟨x1, y1, z1⟩, ⟨x0, y0, z1⟩) :: walls z0 z1 l

/-- the upper and the lower face, from counter-clockwise triangles -/
def caps (z0 z1 : ℚ) : List ((ℚ × ℚ) × (ℚ × ℚ) × (ℚ × ℚ)) → List (Tri ℚ)
  | [] => []
  | ((x0, y0), (x1, y1), (x2, y2)) :: l =>
    (⟨x0, y0, z1⟩, ⟨x1, y1, z1⟩, ⟨x2, y2, z1⟩) :: (⟨x0, y0, z0⟩, ⟨x2, y2, z0⟩, ⟨x1, y1, z0⟩) :: caps z0 z1 l

/-- the prism over a polygon with a triangulation of it -/
def prism (pts : List (ℚ × ℚ)) (tri : List ((ℚ × ℚ) × (ℚ × ℚ) × (ℚ × ℚ))) (z0 z1 : ℚ) : Surf ℚ :=
  ⟨pts.flatMap fun p => [⟨p.1, p.2, z0⟩, ⟨p.1, p.2, z1⟩], walls z0 z1 (pts.zip (pts.rotate 1)) ++ caps z0 z1 tri⟩

/-- no octree: all triangles -/
def allTris (s : Surf ℚ) (_ : Box ℚ) : List (Tri ℚ) := s.tris

theorem allTris_finder : Finder allTris := fun _ _ => ⟨fun _ h => h, fun _ h _ => h⟩

/-! ## a cube meets the hypotheses of `C267_box_partial` -/

def cube : Surf ℚ := prism [(0, 0), (1, 0), (1, 1), (0, 1)] [((0, 0), (1, 0), (1, 1)), ((0, 0), (1, 1), (0, 1))] 0 1

set_option maxRecDepth 100000 in
theorem cube_box : solidBox [cube] = some (⟨0, 0, 0⟩, ⟨1, 1, 1⟩) := by decide +kernel

instance (b : Box ℚ) (i : Fin 3) (up : Bool) (t : Tri ℚ) : Decidable (OnFace b i up t) := inferInstanceAs (Decidable (_ ∧ _))

theorem inTri_of {t : Tri ℚ} {x : V ℚ} (u v : ℚ) (hu : 0 ≤ u) (hv : 0 ≤ v) (huv : u + v ≤ 1) (h : x = vadd t.1 (vadd (smul u (vsub t.2.1 t.1)) (smul v (vsub t.2.2 t.1)))) : InTri t x :=
  ⟨u, v, hu, hv, huv, h⟩

set_option maxRecDepth 100000 in
theorem cube_mesh : BoxMesh ((⟨0, 0, 0⟩, ⟨1, 1, 1⟩) : Box ℚ) ([cube].flatMap (·.tris)) := by
  constructor
  · have : ∀ t ∈ [cube].flatMap (·.tris), ∃ i : Fin 3, ∃ up : Bool, OnFace ((⟨0, 0, 0⟩, ⟨1, 1, 1⟩) : Box ℚ) i up t ∧
        (if up = true then 0 < co i (rawNormal t) else co i (rawNormal t) < 0) ∧ ¬ degenerate t := by decide +kernel
    exact this
  · intro i up x hx hb
    obtain ⟨h1, h2, h3, h4, h5, h6⟩ := hx
    dsimp only at h1 h2 h3 h4 h5 h6
    have mem : ∀ t, t ∈ [cube].flatMap (·.tris) ↔ t ∈ cube.tris := by simp
    simp only [mem]
    have hx : ∀ a b c : ℚ, x.x = a → x.y = b → x.z = c → x = ⟨a, b, c⟩ := fun a b c e1 e2 e3 => by cases x; simp_all
    fin_cases i <;> cases up <;> simp only [co, bound, if_true, Bool.false_eq_true, if_false] at hb
    · rcases le_total x.z (1 - x.y) with h | h
      · refine ⟨(⟨0, 1, 0⟩, ⟨0, 0, 0⟩, ⟨0, 0, 1⟩), by decide +kernel, by decide +kernel, inTri_of (1 - x.y - x.z) x.z (by linarith) h5 (by linarith) ?_⟩
        rw [hx 0 x.y x.z hb rfl rfl]; simp only [vadd, smul, vsub, Verif.Valid.V.mk.injEq]; refine ⟨?_, ?_, ?_⟩ <;> ring
      · refine ⟨(⟨0, 1, 0⟩, ⟨0, 0, 1⟩, ⟨0, 1, 1⟩), by decide +kernel, by decide +kernel, inTri_of (1 - x.y) (x.y + x.z - 1) (by linarith) (by linarith) (by linarith) ?_⟩
        rw [hx 0 x.y x.z hb rfl rfl]; simp only [vadd, smul, vsub, Verif.Valid.V.mk.injEq]; refine ⟨?_, ?_, ?_⟩ <;> ring
    · rcases le_total x.z x.y with h | h
      · refine ⟨(⟨1, 0, 0⟩, ⟨1, 1, 0⟩, ⟨1, 1, 1⟩), by decide +kernel, by decide +kernel, inTri_of (x.y - x.z) x.z (by linarith) h5 (by linarith) ?_⟩
        rw [hx 1 x.y x.z hb rfl rfl]; simp only [vadd, smul, vsub, Verif.Valid.V.mk.injEq]; refine ⟨?_, ?_, ?_⟩ <;> ring
      · refine ⟨(⟨1, 0, 0⟩, ⟨1, 1, 1⟩, ⟨1, 0, 1⟩), by decide +kernel, by decide +kernel, inTri_of x.y (x.z - x.y) h3 (by linarith) (by linarith) ?_⟩
        rw [hx 1 x.y x.z hb rfl rfl]; simp only [vadd, smul, vsub, Verif.Valid.V.mk.injEq]; refine ⟨?_, ?_, ?_⟩ <;> ring
    · rcases le_total x.z x.x with h | h
      · refine ⟨(⟨0, 0, 0⟩, ⟨1, 0, 0⟩, ⟨1, 0, 1⟩), by decide +kernel, by decide +kernel, inTri_of (x.x - x.z) x.z (by linarith) h5 (by linarith) ?_⟩
        rw [hx x.x 0 x.z rfl hb rfl]; simp only [vadd, smul, vsub, Verif.Valid.V.mk.injEq]; refine ⟨?_, ?_, ?_⟩ <;> ring
      · refine ⟨(⟨0, 0, 0⟩, ⟨1, 0, 1⟩, ⟨0, 0, 1⟩), by decide +kernel, by decide +kernel, inTri_of x.x (x.z - x.x) h1 (by linarith) (by linarith) ?_⟩
        rw [hx x.x 0 x.z rfl hb rfl]; simp only [vadd, smul, vsub, Verif.Valid.V.mk.injEq]; refine ⟨?_, ?_, ?_⟩ <;> ring
    · rcases le_total x.z (1 - x.x) with h | h
      · refine ⟨(⟨1, 1, 0⟩, ⟨0, 1, 0⟩, ⟨0, 1, 1⟩), by decide +kernel, by decide +kernel, inTri_of (1 - x.x - x.z) x.z (by linarith) h5 (by linarith) ?_⟩
        rw [hx x.x 1 x.z rfl hb rfl]; simp only [vadd, smul, vsub, Verif.Valid.V.mk.injEq]; refine ⟨?_, ?_, ?_⟩ <;> ring
      · refine ⟨(⟨1, 1, 0⟩, ⟨0, 1, 1⟩, ⟨1, 1, 1⟩), by decide +kernel, by decide +kernel, inTri_of (1 - x.x) (x.x + x.z - 1) (by linarith) (by linarith) (by linarith) ?_⟩
        rw [hx x.x 1 x.z rfl hb rfl]; simp only [vadd, smul, vsub, Verif.Valid.V.mk.injEq]; refine ⟨?_, ?_, ?_⟩ <;> ring
    · rcases le_total x.y x.x with h | h
      · refine ⟨(⟨0, 0, 0⟩, ⟨1, 1, 0⟩, ⟨1, 0, 0⟩), by decide +kernel, by decide +kernel, inTri_of x.y (x.x - x.y) h3 (by linarith) (by linarith) ?_⟩
        rw [hx x.x x.y 0 rfl rfl hb]; simp only [vadd, smul, vsub, Verif.Valid.V.mk.injEq]; refine ⟨?_, ?_, ?_⟩ <;> ring
      · refine ⟨(⟨0, 0, 0⟩, ⟨0, 1, 0⟩, ⟨1, 1, 0⟩), by decide +kernel, by decide +kernel, inTri_of (x.y - x.x) x.x (by linarith) h1 (by linarith) ?_⟩
        rw [hx x.x x.y 0 rfl rfl hb]; simp only [vadd, smul, vsub, Verif.Valid.V.mk.injEq]; refine ⟨?_, ?_, ?_⟩ <;> ring
    · rcases le_total x.y x.x with h | h
      · refine ⟨(⟨0, 0, 1⟩, ⟨1, 0, 1⟩, ⟨1, 1, 1⟩), by decide +kernel, by decide +kernel, inTri_of (x.x - x.y) x.y (by linarith) h3 (by linarith) ?_⟩
        rw [hx x.x x.y 1 rfl rfl hb]; simp only [vadd, smul, vsub, Verif.Valid.V.mk.injEq]; refine ⟨?_, ?_, ?_⟩ <;> ring
      · refine ⟨(⟨0, 0, 1⟩, ⟨1, 1, 1⟩, ⟨0, 1, 1⟩), by decide +kernel, by decide +kernel, inTri_of x.x (x.y - x.x) h1 (by linarith) (by linarith) ?_⟩
        rw [hx x.x x.y 1 rfl rfl hb]; simp only [vadd, smul, vsub, Verif.Valid.V.mk.injEq]; refine ⟨?_, ?_, ?_⟩ <;> ring

/-- so every point of the unit cube is inside, and the points farther than the tolerance are not -/
example (p : V ℚ) : (inBox (⟨0, 0, 0⟩, ⟨1, 1, 1⟩) p → contains allTris rayTol [cube] p = .ok true) ∧
    (¬ inBox (expand (⟨0, 0, 0⟩, ⟨1, 1, 1⟩) rayTol) p → contains allTris rayTol [cube] p = .ok false) :=
  C267_box_partial allTris_finder (by norm_num [rayTol]) (by norm_num [rayTol, eps]) cube_box cube_mesh p

/-! ## wrong answers -/

/-- the L-shaped prism: the square `[0, 2]²` without `[1, 2]²` -/
def ell : Surf ℚ := prism [(0, 0), (2, 0), (2, 1), (1, 1), (1, 2), (0, 2)]
  [((0, 0), (2, 0), (2, 1)), ((0, 0), (2, 1), (1, 1)), ((0, 0), (1, 1), (0, 2)), ((1, 1), (1, 2), (0, 2))] 0 1

set_option maxRecDepth 100000 in
/-- A point in the middle of one arm of the L-shaped prism is reported as outside, because the ray along the other arm passes through the inner edge. A point beside it is inside. -/
theorem C267_ell_wrong : contains allTris rayTol [ell] ⟨1 / 2, 1, 1 / 2⟩ = .ok false ∧ contains allTris rayTol [ell] ⟨1 / 2, 99 / 100, 1 / 2⟩ = .ok true := by
  constructor <;> decide +kernel

/-- a convex prism over a slender diamond -/
def diamond : Surf ℚ := prism [(10, 0), (0, 100), (-10, 0), (0, -100)] [((10, 0), (0, 100), (-10, 0)), ((10, 0), (-10, 0), (0, -100))] 0 10

set_option maxRecDepth 100000 in
/-- A point near the axis of a convex prism is reported as outside, because the ray passes so close to an edge that it hits both faces, at places farther apart than the tolerance. -/
theorem C267_convex_wrong : contains allTris rayTol [diamond] ⟨1, 5 / 10 ^ 6, 4⟩ = .ok false ∧ contains allTris rayTol [diamond] ⟨1, 1 / 100, 4⟩ = .ok true := by
  constructor <;> decide +kernel

/-- the cube, with a small triangle set into its upper face -/
def patched : Surf ℚ := ⟨cube.verts, (⟨1 / 4, 1 / 2, 1⟩, ⟨1 / 4 + 1 / 1000, 1 / 2, 1⟩, ⟨1 / 4, 1 / 2 + 1 / 1000, 1⟩) :: cube.tris⟩

set_option maxRecDepth 100000 in
/-- A ray that hits a triangle whose area is below the tolerance of `tri2p0n` ends in a `ValueError`. -/
theorem C270_small_triangle : contains allTris rayTol [patched] ⟨1 / 4 + 1 / 10000, 1 / 2 + 1 / 10000, 1 / 2⟩ = .error .valueError := by
  decide +kernel

/-- Without triangles that are degenerate for `tri2p0n` there is an answer for every point. -/
theorem C270_answers_partial {K : Type} [Field K] [LinearOrder K] [IsStrictOrderedRing K] {find : Surf K → Box K → List (Tri K)} {tol : K} {ss : List (Surf K)}
    (hsub : ∀ s q, ∀ t ∈ find s q, t ∈ s.tris) (hd : ∀ s ∈ ss, ∀ t ∈ s.tris, ¬ degenerate t) (p : V K) : ∃ r, contains find tol ss p = .ok r := by
  have hc : ∀ len ds, ∃ r, castAll find tol len p ss ds = .ok r := by
    intro len ds
    induction ds with
    | nil => exact ⟨true, rfl⟩
    | cons d ds ih =>
      rw [castAll, scan_eq _ (by
        intro t h
        obtain ⟨s, hs, h⟩ := List.mem_flatMap.1 h
        refine hd s hs t ?_
        unfold candidates at h
        split at h
        · exact h
        · exact hsub s _ t h)]
      split
      · rename_i h; cases h
      · exact ⟨_, rfl⟩
      · split
        · exact ih
        · exact ⟨_, rfl⟩
  unfold contains
  split
  · exact ⟨_, rfl⟩
  · split
    · split
      · exact hc _ _
      · exact ⟨_, rfl⟩
    · exact hc _ _

/-! ## the order theorem applies -/

example (p : V ℚ) : contains allTris rayTol [cube, ell] p = contains (fun s q => (allTris s q).reverse) rayTol [ell, cube] p := by
  refine C269_order (by norm_num [rayTol]) (List.Perm.swap _ _ _) (fun s q => (List.reverse_perm _).symm) (fun _ _ _ h => h) ?_ p
  decide +kernel

example : contains allTris rayTol [cube] ⟨5, 0, 0⟩ = .ok false :=
  C268_far allTris ⟨cube, by simp, by decide⟩ ⟨0, .inl (by
    have : ∀ v ∈ cube.verts, co 0 v + rayTol < (5 : ℚ) := by decide +kernel
    simpa [co] using this)⟩

end Verif.Bool3
