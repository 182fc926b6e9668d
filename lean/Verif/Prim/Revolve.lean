import Verif.Prim.RevolveModel
import Verif.Prim.Table
import Verif.Prim.Frustum
import Verif.Prim.Adaptive

/-!
# Surfaces of revolution
-/

namespace Verif.Prim
open Verif.Geom Verif.Surf Real

/-! ## vertices that are far apart are never confused -/

/-- a set of points any two of which are equal or at least epsilon apart -/
def Sparse (P : V4 → Prop) : Prop := ∀ p q, P p → P q → sqDist p q < eps ^ 2 → p = q

/-- faces by natural numbers -/
def NatCorners (vs : List V4) (f : List Int) (t : Tri) : Prop :=
  ∃ i j k : Nat, f = [(i : Int), (j : Int), (k : Int)] ∧ vs[i]? = some t.a ∧ vs[j]? = some t.b ∧ vs[k]? = some t.c

theorem NatCorners.later {vs : List V4} (av : List V4) {f : List Int} {t : Tri} (h : NatCorners vs f t) : NatCorners (vs ++ av) f t := by
  obtain ⟨i, j, k, rfl, h1, h2, h3⟩ := h
  have g : ∀ (i : Nat) p, vs[i]? = some p → (vs ++ av)[i]? = some p := fun i p h => by
    rw [List.getElem?_append_left (List.getElem?_eq_some_iff.mp h).1]; exact h
  exact ⟨_, _, _, rfl, g _ _ h1, g _ _ h2, g _ _ h3⟩

theorem NatCorners.corners {vs : List V4} {f : List Int} {t : Tri} (h : NatCorners vs f t) : Corners vs f t := by
  obtain ⟨i, j, k, rfl, h1, h2, h3⟩ := h
  exact ⟨_, _, _, rfl, entry_nat h1, entry_nat h2, entry_nat h3⟩

/-- the vertices are from `P`, the normals are directions, one for each vertex -/
structure Neat (P : V4 → Prop) (b : Build) : Prop where
  pts : ∀ v ∈ b.vs, P v
  nrm : ∀ n ∈ b.ns, n.w = 0
  len : b.vs.length = b.ns.length

/-- `c` has the vertices of `b` and possibly more -/
def More (b c : Build) : Prop := ∃ av, c.vs = b.vs ++ av

theorem More.refl (b : Build) : More b b := ⟨[], by simp⟩
theorem More.trans {a b c : Build} (h : More a b) (g : More b c) : More a c := by
  obtain ⟨x, hx⟩ := h
  obtain ⟨y, hy⟩ := g
  exact ⟨x ++ y, by rw [hy, hx, List.append_assoc]⟩
theorem More.get {b c : Build} (h : More b c) {i : Nat} {v : V4} (hv : b.vs[i]? = some v) : c.vs[i]? = some v := by
  obtain ⟨x, hx⟩ := h
  rw [hx, List.getElem?_append_left (List.getElem?_eq_some_iff.mp hv).1]
  exact hv

/-- the vertex asked for is the one that is returned, whatever the state of the table -/
theorem add_exact (fmt : ℝ → String) (me : Nat) {P : V4 → Prop} (hP : Sparse P) {b : Build} (h : Neat P b) {p n : V4} (hp : P p) (hn : n.w = 0) :
    Neat P (addVertex fmt me p n b).2 ∧ More b (addVertex fmt me p n b).2 ∧
    (addVertex fmt me p n b).2.vs[(addVertex fmt me p n b).1]? = some p := by
  obtain ⟨v, h1, h2, h3⟩ := C182_any_state fmt me p n b
  have hneat : Neat P (addVertex fmt me p n b).2 := by
    rcases h3 with ⟨e1, e2⟩ | ⟨-, e1, e2⟩
    · exact ⟨by rw [e1]; exact h.pts, by rw [e2]; exact h.nrm, by rw [e1, e2]; exact h.len⟩
    · refine ⟨?_, ?_, by rw [e1, e2]; simp [h.len]⟩
      · rw [e1]; intro v hv
        rcases List.mem_append.mp hv with hv | hv
        · exact h.pts v hv
        · simp at hv; rw [hv]; exact hp
      · rw [e2]; intro v hv
        rcases List.mem_append.mp hv with hv | hv
        · exact h.nrm v hv
        · simp at hv; rw [hv]; exact hn
  have hv := hneat.pts v (List.mem_of_getElem? h1)
  have e := hP p v hp hv h2
  refine ⟨hneat, ?_, by rw [h1, e]⟩
  rcases h3 with ⟨e1, -⟩ | ⟨-, e1, -⟩
  · exact ⟨[], by rw [e1]; simp⟩
  · exact ⟨_, e1⟩

/-- the state so far -/
structure Done (P : V4 → Prop) (st : RState) (ts : List Tri) : Prop where
  neat : Neat P st.b
  tri : List.Forall₂ (NatCorners st.b.vs) st.fs ts

theorem Done.step {P : V4 → Prop} {st : RState} {ts : List Tri} (h : Done P st ts) {b : Build} (hb : Neat P b) (hm : More st.b b)
    {fs : List (List Int)} {us : List Tri} (hf : List.Forall₂ (NatCorners b.vs) fs us) : Done P ⟨b, st.fs ++ fs⟩ (ts ++ us) := by
  refine ⟨hb, List.rel_append ?_ hf⟩
  obtain ⟨av, e⟩ := hm
  refine h.tri.imp fun f t hft => ?_
  rw [e]
  exact hft.later av

theorem loop_done {P : V4 → Prop} (f : RState → Nat → Except Err RState) (T : Nat → List Tri) (is : List Nat) (K : Build → Prop)
    (hK : ∀ b c, More b c → K b → K c)
    (hf : ∀ i ∈ is, ∀ st ts, Done P st ts → K st.b → ∃ st', f st i = .ok st' ∧ Done P st' (ts ++ T i) ∧ More st.b st'.b) :
    ∀ st ts, Done P st ts → K st.b → ∃ st', loop f is st = .ok st' ∧ Done P st' (ts ++ is.flatMap T) ∧ More st.b st'.b := by
  induction is with
  | nil => intro st ts h _; exact ⟨st, rfl, by simpa using h, More.refl _⟩
  | cons i is ih =>
    intro st ts h hk
    obtain ⟨s1, e1, d1, m1⟩ := hf i (by simp) st ts h hk
    obtain ⟨s2, e2, d2, m2⟩ := ih (fun k hk => hf k (by simp [hk])) s1 _ d1 (hK _ _ m1 hk)
    refine ⟨s2, ?_, by simpa using d2, m1.trans m2⟩
    unfold loop
    rw [e1]
    exact e2

/-! ## the rings -/

section
variable {n : Nat}

theorem wheel_turned (r z : Nat → ℝ) (zb zt : ℝ) {j : Nat} (hj : j < n) (i : Nat) :
    wheel n j (r i) (z i) = turned r z zb zt (LL.ring i ((j : ℕ) : ZMod n)) := by
  unfold wheel turned
  simp only
  rw [ang_nat hj]

theorem next_turned (r z : Nat → ℝ) (zb zt : ℝ) (hn : 0 < n) (j i : Nat) :
    wheel n ((j + 1) % n) (r i) (z i) = turned r z zb zt (LL.ring i (((j : ℕ) : ZMod n) + 1)) := by
  rw [wheel_turned r z zb zt (Nat.mod_lt _ hn)]
  congr 2
  simp

theorem prev_turned (r z : Nat → ℝ) (zb zt : ℝ) {j : Nat} (hj : j < n) (i : Nat) :
    wheel n (wrap ((j : Int) - 1) n) (r i) (z i) = turned r z zb zt (LL.ring i (((j : ℕ) : ZMod n) - 1)) := by
  rw [wrap_pred hj, wheel_turned r z zb zt (Nat.mod_lt _ (by omega))]
  congr 2
  rw [ZMod.natCast_mod]
  push_cast [Nat.cast_sub (by omega : 1 ≤ n)]
  simp
  ring

/-- the points of a profile -/
def OnMesh (m : Nat) (r z : Nat → ℝ) (zb zt : ℝ) (p : V4) : Prop := ∃ l : LL n, l.ok m ∧ p = turned r z zb zt l

theorem mesh_sparse (hn : 3 ≤ n) (m : Nat) (r z : Nat → ℝ) (zb zt : ℝ)
    (hr : ∀ i ≤ m, 2 * eps ≤ r i ∧ n * eps / 2 ≤ r i) (hz : ∀ i j, i < j → j ≤ m → 2 * eps ≤ |z i - z j|)
    (hbt : 2 * eps ≤ |zb - zt|) : Sparse (OnMesh (n := n) m r z zb zt) := by
  have he : 0 < eps := by unfold eps; norm_num
  rintro p q ⟨a, ha, rfl⟩ ⟨b, hb, rfl⟩ hd
  by_cases hab : a = b
  · rw [hab]
  · have := turned_far hn m r z zb zt (pt 0 0) hr hz hbt a b ha hb hab
    have e : sqDist (turnedAt r z zb zt (pt 0 0) a) (turnedAt r z zb zt (pt 0 0) b) = sqDist (turned r z zb zt a) (turned r z zb zt b) := by
      unfold turnedAt sqDist add; ring
    rw [e] at this
    nlinarith [mul_pos he he]

theorem cross_rot (p q s : V4) : cross (sub q p) (sub s q) = cross (sub s q) (sub p s) := by
  unfold cross sub; ext <;> simp <;> ring

theorem tri_some {p q s : V4} (h : eps ≤ mag (cross (sub q p) (sub s q))) : ∃ c nrm, tri2p0n p q s = .ok (c, nrm) ∧ nrm.w = 0 :=
  ⟨_, _, tri2p0n_ok p q s h, rfl⟩

theorem dir_w (a b c : ℝ) : (dir a b c).w = 0 := rfl

/-- what is assumed about the rings -/
structure Rings (n m : Nat) (r z : Nat → ℝ) (zb zt h : ℝ) : Prop where
  three : 3 ≤ n
  rad : ∀ i ≤ m, 2 * eps ≤ r i ∧ n * eps / 2 ≤ r i
  flat : ∀ i ≤ m, n * eps / 4 ≤ r i * h
  gap : ∀ i j, i < j → j ≤ m → 2 * eps ≤ |z i - z j|
  up : ∀ i, i + 1 ≤ m → |z (i + 1) - z i| = h
  ends : 2 * eps ≤ |zb - zt|

variable {m : Nat} {r z : Nat → ℝ} {zb zt h : ℝ}

theorem Rings.sparse (H : Rings n m r z zb zt h) : Sparse (OnMesh (n := n) m r z zb zt) := mesh_sparse H.three m r z zb zt H.rad H.gap H.ends

theorem quad_done (fmt : ℝ → String) (me : Nat) (H : Rings n m r z zb zt h) {i j : Nat} (hi : i + 1 ≤ m) (hj : j < n) (st : RState) (ts : List Tri)
    (hd : Done (OnMesh (n := n) m r z zb zt) st ts) :
    ∃ st', quad fmt me n (r i) (r (i + 1)) (z i) (z (i + 1)) st j = .ok st' ∧
      Done (OnMesh (n := n) m r z zb zt) st' (ts ++ lTris (turned r z zb zt) ([LF.s1 i ((j : ℕ) : ZMod n), LF.s2 i ((j : ℕ) : ZMod n)].map (LF.corners m))) ∧
      More st.b st'.b := by
  have hn : 0 < n := by omega
  have P1 : OnMesh (n := n) m r z zb zt (turned r z zb zt (LL.ring i ((j : ℕ) : ZMod n))) := ⟨_, by simp only [LL.ok]; omega, rfl⟩
  have P2 : OnMesh (n := n) m r z zb zt (turned r z zb zt (LL.ring i (((j : ℕ) : ZMod n) + 1))) := ⟨_, by simp only [LL.ok]; omega, rfl⟩
  have P3 : OnMesh (n := n) m r z zb zt (turned r z zb zt (LL.ring (i + 1) (((j : ℕ) : ZMod n) + 1))) := ⟨_, by simp only [LL.ok]; omega, rfl⟩
  have P4 : OnMesh (n := n) m r z zb zt (turned r z zb zt (LL.ring (i + 1) ((j : ℕ) : ZMod n))) := ⟨_, by simp only [LL.ok]; omega, rfl⟩
  unfold quad
  simp only
  rw [prev_turned r z zb zt hj, wheel_turned r z zb zt hj, next_turned r z zb zt hn, wheel_turned r z zb zt hj, next_turned r z zb zt hn]
  have hne : ((j : ℕ) : ZMod n) - 1 ≠ ((j : ℕ) : ZMod n) + 1 := by
    intro e
    apply two_ne H.three (((j : ℕ) : ZMod n) - 1)
    rw [sub_add_cancel]; exact e.symm
  have hm := side_mag H.three (r i) h (H.flat i (by omega)) hne (turned r z zb zt (LL.ring i (((j : ℕ) : ZMod n) - 1)))
    (turned r z zb zt (LL.ring i (((j : ℕ) : ZMod n) + 1))) (turned r z zb zt (LL.ring (i + 1) ((j : ℕ) : ZMod n)))
    ⟨rfl, rfl, rfl⟩ (by simp only [turned, pt]; exact H.up i hi)
  obtain ⟨c, nrm, e, hw⟩ := tri_some hm
  rw [e]
  simp only
  obtain ⟨n1, m1, g1⟩ := add_exact fmt me H.sparse hd.neat P1 hw
  obtain ⟨n2, m2, g2⟩ := add_exact fmt me H.sparse n1 P2 hw
  obtain ⟨n3, m3, g3⟩ := add_exact fmt me H.sparse n2 P3 hw
  obtain ⟨n4, m4, g4⟩ := add_exact fmt me H.sparse n3 P4 hw
  refine ⟨_, rfl, hd.step n4 (m1.trans (m2.trans (m3.trans m4))) ?_, m1.trans (m2.trans (m3.trans m4))⟩
  refine .cons ⟨_, _, _, rfl, ?_, ?_, ?_⟩ (.cons ⟨_, _, _, rfl, ?_, ?_, ?_⟩ .nil)
  · exact (m2.trans (m3.trans m4)).get g1
  · exact (m3.trans m4).get g2
  · exact m4.get g3
  · exact (m2.trans (m3.trans m4)).get g1
  · exact m4.get g3
  · exact g4

/-- a triangle at the lower end -/
noncomputable def lowT (n : Nat) (r z : Nat → ℝ) (zb zt : ℝ) (j : Nat) : List Tri :=
  [⟨turned r z zb zt (LL.bot : LL n), turned r z zb zt (LL.ring 0 (((j : ℕ) : ZMod n) + 1)), turned r z zb zt (LL.ring 0 ((j : ℕ) : ZMod n))⟩]

/-- a triangle at the upper end, as the disc has it -/
noncomputable def highT (n m : Nat) (r z : Nat → ℝ) (zb zt : ℝ) (j : Nat) : List Tri :=
  [⟨turned r z zb zt (LL.top : LL n), turned r z zb zt (LL.ring m ((j : ℕ) : ZMod n)), turned r z zb zt (LL.ring m (((j : ℕ) : ZMod n) + 1))⟩]

/-- a triangle at the upper end, as the fan to the pole has it -/
noncomputable def highT' (n m : Nat) (r z : Nat → ℝ) (zb zt : ℝ) (j : Nat) : List Tri :=
  [⟨turned r z zb zt (LL.ring m ((j : ℕ) : ZMod n)), turned r z zb zt (LL.ring m (((j : ℕ) : ZMod n) + 1)), turned r z zb zt (LL.top : LL n)⟩]

/-- the triangles between two rings -/
noncomputable def quadT (n m : Nat) (r z : Nat → ℝ) (zb zt : ℝ) (i j : Nat) : List Tri :=
  lTris (turned r z zb zt) ([LF.s1 i ((j : ℕ) : ZMod n), LF.s2 i ((j : ℕ) : ZMod n)].map (LF.corners m))

theorem on_ring (i : Nat) (hi : i ≤ m) (j : ZMod n) : OnMesh (n := n) m r z zb zt (turned r z zb zt (LL.ring i j)) := ⟨LL.ring i j, hi, rfl⟩
theorem on_bot : OnMesh (n := n) m r z zb zt (pt 0 0 zb) := ⟨.bot, trivial, rfl⟩
theorem on_top : OnMesh (n := n) m r z zb zt (pt 0 0 zt) := ⟨.top, trivial, rfl⟩

theorem startFan_done (fmt : ℝ → String) (me : Nat) (H : Rings n m r z zb zt h) (hh : |zb - z 0| = h) {j sp : Nat} (hj : j < n) (st : RState)
    (ts : List Tri) (hd : Done (OnMesh (n := n) m r z zb zt) st ts) (hk : st.b.vs[sp]? = some (pt 0 0 zb)) :
    ∃ st', startFan fmt me n (r 0) (z 0) sp st j = .ok st' ∧
      Done (OnMesh (n := n) m r z zb zt) st' (ts ++ lowT n r z zb zt j) ∧ More st.b st'.b := by
  have hn : 0 < n := by omega
  have P1 := on_ring (n := n) (m := m) (r := r) (z := z) (zb := zb) (zt := zt) 0 (by omega) ((j : ℕ) : ZMod n)
  have P2 := on_ring (n := n) (m := m) (r := r) (z := z) (zb := zb) (zt := zt) 0 (by omega) (((j : ℕ) : ZMod n) + 1)
  unfold startFan
  simp only
  rw [wheel_turned r z zb zt hj, next_turned r z zb zt hn, hk]
  simp only
  have hm := side_mag H.three (r 0) h (H.flat 0 (by omega)) (one_ne H.three ((j : ℕ) : ZMod n)) (turned r z zb zt (LL.ring 0 (((j : ℕ) : ZMod n) + 1)))
    (turned r z zb zt (LL.ring 0 (((j : ℕ) : ZMod n)))) (pt 0 0 zb) ⟨rfl, rfl, rfl⟩ hh
  rw [← cross_rot] at hm
  obtain ⟨c, nrm, e, hw⟩ := tri_some hm
  rw [e]
  simp only
  obtain ⟨n1, m1, g1⟩ := add_exact fmt me H.sparse hd.neat P1 hw
  obtain ⟨n2, m2, g2⟩ := add_exact fmt me H.sparse n1 P2 hw
  refine ⟨_, rfl, hd.step n2 (m1.trans m2) ?_, m1.trans m2⟩
  exact .cons ⟨_, _, _, rfl, (m1.trans m2).get hk, g2, m2.get g1⟩ .nil

theorem endFan_done (fmt : ℝ → String) (me : Nat) (H : Rings n m r z zb zt h) (hh : |zt - z m| = h) {j ep : Nat} (hj : j < n) (st : RState)
    (ts : List Tri) (hd : Done (OnMesh (n := n) m r z zb zt) st ts) (hk : st.b.vs[ep]? = some (pt 0 0 zt)) :
    ∃ st', endFan fmt me n (r m) (z m) ep st j = .ok st' ∧
      Done (OnMesh (n := n) m r z zb zt) st' (ts ++ highT' n m r z zb zt j) ∧ More st.b st'.b := by
  have hn : 0 < n := by omega
  have P1 := on_ring (n := n) (m := m) (r := r) (z := z) (zb := zb) (zt := zt) m le_rfl ((j : ℕ) : ZMod n)
  have P2 := on_ring (n := n) (m := m) (r := r) (z := z) (zb := zb) (zt := zt) m le_rfl (((j : ℕ) : ZMod n) + 1)
  unfold endFan
  simp only
  rw [wheel_turned r z zb zt hj, next_turned r z zb zt hn, hk]
  simp only
  have hm := side_mag H.three (r m) h (H.flat m le_rfl) (one_ne H.three ((j : ℕ) : ZMod n)).symm (turned r z zb zt (LL.ring m ((j : ℕ) : ZMod n)))
    (turned r z zb zt (LL.ring m (((j : ℕ) : ZMod n) + 1))) (pt 0 0 zt) ⟨rfl, rfl, rfl⟩ hh
  obtain ⟨c, nrm, e, hw⟩ := tri_some hm
  rw [e]
  simp only
  obtain ⟨n1, m1, g1⟩ := add_exact fmt me H.sparse hd.neat P1 hw
  obtain ⟨n2, m2, g2⟩ := add_exact fmt me H.sparse n1 P2 hw
  refine ⟨_, rfl, hd.step n2 (m1.trans m2) ?_, m1.trans m2⟩
  exact .cons ⟨_, _, _, rfl, m2.get g1, g2, (m1.trans m2).get hk⟩ .nil

theorem startDisc_done (fmt : ℝ → String) (me : Nat) (H : Rings n m r z zb zt h) {j k : Nat} (hj : j < n) (st : RState)
    (ts : List Tri) (hd : Done (OnMesh (n := n) m r z zb zt) st ts) (hk : st.b.vs[k]? = some (pt 0 0 zb)) :
    ∃ st', startDisc fmt me n (r 0) (z 0) k st j = .ok st' ∧
      Done (OnMesh (n := n) m r z zb zt) st' (ts ++ lowT n r z zb zt j) ∧ More st.b st'.b := by
  have hn : 0 < n := by omega
  have P1 := on_ring (n := n) (m := m) (r := r) (z := z) (zb := zb) (zt := zt) 0 (by omega) ((j : ℕ) : ZMod n)
  have P2 := on_ring (n := n) (m := m) (r := r) (z := z) (zb := zb) (zt := zt) 0 (by omega) (((j : ℕ) : ZMod n) + 1)
  unfold startDisc
  simp only
  rw [wheel_turned r z zb zt hj, next_turned r z zb zt hn]
  obtain ⟨n1, m1, g1⟩ := add_exact fmt me H.sparse hd.neat P1 (dir_w 0 0 (-1))
  obtain ⟨n2, m2, g2⟩ := add_exact fmt me H.sparse n1 P2 (dir_w 0 0 (-1))
  refine ⟨_, rfl, hd.step n2 (m1.trans m2) ?_, m1.trans m2⟩
  exact .cons ⟨_, _, _, rfl, (m1.trans m2).get hk, g2, m2.get g1⟩ .nil

theorem endDisc_done (fmt : ℝ → String) (me : Nat) (H : Rings n m r z zb zt h) {j k : Nat} (hj : j < n) (st : RState)
    (ts : List Tri) (hd : Done (OnMesh (n := n) m r z zb zt) st ts) (hk : st.b.vs[k]? = some (pt 0 0 zt)) :
    ∃ st', endDisc fmt me n (r m) (z m) k st j = .ok st' ∧
      Done (OnMesh (n := n) m r z zb zt) st' (ts ++ highT n m r z zb zt j) ∧ More st.b st'.b := by
  have hn : 0 < n := by omega
  have P1 := on_ring (n := n) (m := m) (r := r) (z := z) (zb := zb) (zt := zt) m le_rfl ((j : ℕ) : ZMod n)
  have P2 := on_ring (n := n) (m := m) (r := r) (z := z) (zb := zb) (zt := zt) m le_rfl (((j : ℕ) : ZMod n) + 1)
  unfold endDisc
  simp only
  rw [wheel_turned r z zb zt hj, next_turned r z zb zt hn]
  obtain ⟨n1, m1, g1⟩ := add_exact fmt me H.sparse hd.neat P1 (dir_w 0 0 1)
  obtain ⟨n2, m2, g2⟩ := add_exact fmt me H.sparse n1 P2 (dir_w 0 0 1)
  refine ⟨_, rfl, hd.step n2 (m1.trans m2) ?_, m1.trans m2⟩
  exact .cons ⟨_, _, _, rfl, (m1.trans m2).get hk, m2.get g1, g2⟩ .nil

theorem keep (k : Nat) (p : V4) : ∀ b c : Build, More b c → b.vs[k]? = some p → c.vs[k]? = some p := fun _ _ h g => h.get g

end

/-! ## triangles up to the choice of the first corner -/

/-- the same triangle, possibly starting at the next corner -/
def Turned (t u : Tri) : Prop := t = u ∨ t = ⟨u.b, u.c, u.a⟩

theorem turned_sides {ts us : List Tri} (h : List.Forall₂ Turned ts us) : (sides ts).Perm (sides us) := by
  induction h with
  | nil => exact .refl _
  | cons h _ ih =>
    unfold sides at *
    rw [List.flatMap_cons, List.flatMap_cons]
    refine List.Perm.append ?_ ih
    rcases h with rfl | rfl
    · exact .refl _
    · simp only [sidesOf]
      exact List.perm_append_comm (l₁ := [_, _]) (l₂ := [_])

theorem turned_corner {ts us : List Tri} (h : List.Forall₂ Turned ts us) {p : V4} (hp : IsCorner ts p) : IsCorner us p := by
  induction h with
  | nil => exact hp
  | cons h _ ih =>
    obtain ⟨t, ht, hp⟩ := hp
    rcases List.mem_cons.mp ht with rfl | ht
    · refine ⟨_, List.mem_cons_self, ?_⟩
      rcases h with rfl | rfl
      · exact hp
      · simp only at hp; tauto
    · obtain ⟨u, hu, hp⟩ := ih ⟨t, ht, hp⟩
      exact ⟨u, List.mem_cons_of_mem _ hu, hp⟩

theorem turned_volume {ts us : List Tri} (h : List.Forall₂ Turned ts us) : (ts.map triVolume).sum = (us.map triVolume).sum := by
  induction h with
  | nil => rfl
  | cons h _ ih =>
    rw [List.map_cons, List.map_cons, List.sum_cons, List.sum_cons, ih]
    congr 1
    rcases h with rfl | rfl
    · rfl
    · unfold triVolume dot cross sub; simp only; ring

/-- a solid whose triangles are those of a lathe mesh, up to order and choice of the first corner -/
theorem lathe_solid' {n : Nat} (hn : 3 ≤ n) (m : Nat) (r z : Nat → ℝ) (zb zt : ℝ) (x : Solid) (ts us : List Tri)
    (hx : issolid x = true) (ht : Tris x.surfs ts) (ho : List.Forall₂ Turned ts us) (hp : us.Perm (lTris (turned r z zb zt) (lathe n m)))
    (hr : ∀ i ≤ m, 2 * eps ≤ r i ∧ n * eps / 2 ≤ r i) (hz : ∀ i j, i < j → j ≤ m → 2 * eps ≤ |z i - z j|)
    (hbt : 2 * eps ≤ |zb - zt|) :
    issolidclosed x = .ok true ∧ Oriented ts ∧ Separated ts ∧
    volumeof x = .ok |n * sin (2 * π / n) / 6 * ((z 0 - zb) * r 0 ^ 2 +
      ((List.range m).map fun i => (z (i + 1) - z i) * (r i ^ 2 + r i * r (i + 1) + r (i + 1) ^ 2)).sum + (zt - z m) * r m ^ 2)| := by
  have far : ∀ a b : LL n, a.ok m → b.ok m → a ≠ b → (2 * eps) ^ 2 ≤ sqDist (turned r z zb zt a) (turned r z zb zt b) := by
    intro a b ha hb hab
    have := turned_far hn m r z zb zt (pt 0 0) hr hz hbt a b ha hb hab
    have e : sqDist (turnedAt r z zb zt (pt 0 0) a) (turnedAt r z zb zt (pt 0 0) b) = sqDist (turned r z zb zt a) (turned r z zb zt b) := by
      unfold turnedAt sqDist add; ring
    rwa [e] at this
  obtain ⟨g1, g2, g3⟩ := lathe_good hn (turned r z zb zt) far
  have u1 := closed_perm hp g1
  have u2 := oriented_perm hp g2
  have u3 := separated_perm hp g3
  have hs := turned_sides ho
  have hc : ∀ s ∈ sides ts, uses ts s = 2 := by
    intro s h
    have : uses ts s = uses us s := by unfold uses; exact hs.countP_eq _
    rw [this]
    exact u1 s (hs.mem_iff.mp h)
  refine ⟨?_, ?_, ?_, ?_⟩
  · obtain ⟨b, h1, h3⟩ := C169_closed_iff _ _ hx ht
    rw [h1, h3.mpr hc]
  · intro a b
    have := hs.map fun s : Side => (pos s.1, pos s.2)
    unfold posSides
    rw [this.count_eq, this.count_eq]
    exact u2 a b
  · intro p q h1 h2
    exact u3 p q (turned_corner ho h1) (turned_corner ho h2)
  · rw [volume_eq _ _ hx ht hc, turned_volume ho, (hp.map triVolume).sum_eq, lathe_volume hn]

/-! ## the whole surface -/

/-- a ring that is wide enough for its corners and its triangles to be told apart -/
def Wide (n : Nat) (zD ρ : ℝ) : Prop := 2 * eps ≤ ρ ∧ n * eps / 2 ≤ ρ ∧ n * eps / 4 ≤ ρ * |zD|

/-- height number `k` -/
noncomputable def level (zStart zEnd : ℝ) (steps k : Nat) : ℝ := zStart + k * ((zEnd - zStart) / steps)

theorem atLeast_wide {n : Nat} {zD ρ : ℝ} (h : Wide n zD ρ) : atLeast ρ = ρ := by
  have he : 0 < eps := by unfold eps; norm_num
  unfold atLeast
  rw [if_neg]
  have := h.1
  linarith

theorem map_residues {α : Type} (n : Nat) (f : ZMod n → α) : (residues n).map f = (List.range n).map fun j : Nat => f ((j : ℕ) : ZMod n) := by
  unfold residues; rw [List.map_map]; rfl

theorem flatMap_single {α β : Type} (l : List α) (f : α → β) : (l.flatMap fun x => [f x]) = l.map f := by
  induction l with
  | nil => rfl
  | cons x l ih => simp [ih]

/-- the triangles in the order of the lathe mesh -/
theorem lathe_list (n m : Nat) (r z : Nat → ℝ) (zb zt : ℝ) :
    lTris (turned r z zb zt) (lathe n m) = (List.range n).flatMap (lowT n r z zb zt) ++
      (List.range m).flatMap (fun i => (List.range n).flatMap (quadT n m r z zb zt i)) ++ (List.range n).flatMap (highT n m r z zb zt) := by
  unfold lTris lathe latheFaces
  simp only [List.map_append, List.map_map, List.map_flatMap]
  congr 1
  · congr 1
    · rw [map_residues]
      unfold lowT
      rw [flatMap_single]
      rfl
    · refine List.flatMap_congr fun i _ => ?_
      unfold residues
      rw [List.flatMap_map]
      rfl
  · rw [map_residues]
    unfold highT
    rw [flatMap_single]
    rfl

theorem turned_refl (ts : List Tri) : List.Forall₂ Turned ts ts := List.forall₂_same.mpr fun _ _ => Or.inl rfl

theorem high_turned (n m : Nat) (r z : Nat → ℝ) (zb zt : ℝ) :
    List.Forall₂ Turned ((List.range n).flatMap (highT' n m r z zb zt)) ((List.range n).flatMap (highT n m r z zb zt)) := by
  unfold highT highT'
  rw [flatMap_single, flatMap_single]
  exact forall₂_maps _ _ _ fun j _ => Or.inr rfl

section
variable {n m : Nat} {r z : Nat → ℝ} {zb zt h : ℝ}

theorem strips_done (fmt : ℝ → String) (me : Nat) (H : Rings n m r z zb zt h) (f : RState → Nat → Except Err RState) (s0 : Nat)
    (hf : ∀ st i, i < m → f st (s0 + i) = loop (quad fmt me n (r i) (r (i + 1)) (z i) (z (i + 1))) (List.range n) st) (K : Build → Prop)
    (hK : ∀ b c, More b c → K b → K c) :
    ∀ st ts, Done (OnMesh (n := n) m r z zb zt) st ts → K st.b → ∃ st', loop f ((List.range m).map (s0 + ·)) st = .ok st' ∧
      Done (OnMesh (n := n) m r z zb zt) st' (ts ++ (List.range m).flatMap (fun i => (List.range n).flatMap (quadT n m r z zb zt i))) ∧ More st.b st'.b := by
  intro st ts hd hk
  have := loop_done f (fun i => (List.range n).flatMap (quadT n m r z zb zt (i - s0))) ((List.range m).map (s0 + ·)) K hK
    (P := OnMesh (n := n) m r z zb zt) (fun i hi st ts hd hk => by
      obtain ⟨i, hi, rfl⟩ := List.mem_map.mp hi
      have hi : i < m := by simpa using hi
      rw [hf st i hi, Nat.add_sub_cancel_left]
      exact loop_done _ (quadT n m r z zb zt i) (List.range n) (fun _ => True) (fun _ _ _ _ => trivial)
        (fun j hj st ts hd _ => quad_done fmt me H (by omega) (by simpa using hj) st ts hd) st ts hd trivial) st ts hd hk
  rw [List.flatMap_map] at this
  simpa using this

theorem loop_append (f : RState → Nat → Except Err RState) (l l' : List Nat) (st : RState) :
    loop f (l ++ l') st = match loop f l st with | .error e => .error e | .ok st => loop f l' st := by
  induction l generalizing st with
  | nil => rfl
  | cons i l ih =>
    simp only [List.cons_append, loop]
    cases f st i with
    | error e => rfl
    | ok s => exact ih s

end

/-- the poles -/
theorem pole_done (fmt : ℝ → String) (me : Nat) {P : V4 → Prop} (hP : Sparse P) (need : Prop) [Decidable need] {p nrm : V4} (hp : P p) (hn : nrm.w = 0)
    {b : Build} (h : Neat P b) : Neat P (pole fmt me need p nrm b).2 ∧ More b (pole fmt me need p nrm b).2 ∧
      (¬ need → (pole fmt me need p nrm b).1 = none) ∧ (need → ∃ k, (pole fmt me need p nrm b).1 = some k ∧ (pole fmt me need p nrm b).2.vs[k]? = some p) := by
  unfold pole
  by_cases hd : need
  · rw [if_pos hd]
    obtain ⟨h1, h2, h3⟩ := add_exact fmt me hP h hp hn
    exact ⟨h1, h2, fun g => absurd hd g, fun _ => ⟨_, rfl, h3⟩⟩
  · rw [if_neg hd]
    exact ⟨h, More.refl _, fun _ => rfl, fun g => absurd g hd⟩


theorem level_zero (zStart zEnd : ℝ) (steps : Nat) : level zStart zEnd steps 0 = zStart := by simp [level]

theorem level_last (zStart zEnd : ℝ) {steps : Nat} (h : 1 ≤ steps) : level zStart zEnd steps steps = zEnd := by
  have : (steps : ℝ) ≠ 0 := by positivity
  unfold level; field_simp; ring

theorem level_succ (zStart zEnd : ℝ) (steps k : Nat) :
    (k : ℝ) * ((zEnd - zStart) / steps) + zStart + (zEnd - zStart) / steps = level zStart zEnd steps (k + 1) := by
  unfold level; push_cast; ring

theorem level_eq (zStart zEnd : ℝ) (steps k : Nat) :
    (k : ℝ) * ((zEnd - zStart) / steps) + zStart = level zStart zEnd steps k := by
  unfold level; ring

/-- the assumptions about the rings between the poles -/
theorem rings_of (contour : ℝ → ℝ) (zStart zEnd : ℝ) (steps n s0 m : Nat) (hn : 3 ≤ n) (hs : 1 ≤ steps)
    (hz : 2 * eps ≤ |(zEnd - zStart) / steps|) (hw : ∀ i ≤ m, Wide n ((zEnd - zStart) / steps) (contour (level zStart zEnd steps (s0 + i)))) :
    Rings n m (fun i => contour (level zStart zEnd steps (s0 + i))) (fun i => level zStart zEnd steps (s0 + i)) zStart zEnd |(zEnd - zStart) / steps| := by
  have he : 0 < eps := by unfold eps; norm_num
  have hs0 : (0 : ℝ) < steps := by positivity
  refine ⟨hn, fun i hi => ⟨(hw i hi).1, (hw i hi).2.1⟩, fun i hi => (hw i hi).2.2, ?_, ?_, ?_⟩
  · intro i j hij _
    have e : level zStart zEnd steps (s0 + i) - level zStart zEnd steps (s0 + j) = -((j : ℝ) - i) * ((zEnd - zStart) / steps) := by
      unfold level; push_cast; ring
    rw [e, abs_mul, abs_neg]
    have h1 : (1 : ℝ) ≤ |(j : ℝ) - i| := by
      have : (i : ℝ) + 1 ≤ j := by exact_mod_cast hij
      exact le_trans (by linarith) (le_abs_self _)
    nlinarith
  · intro i _
    congr 1
    unfold level; push_cast; ring
  · have e : zStart - zEnd = - (steps : ℝ) * ((zEnd - zStart) / steps) := by field_simp; ring
    rw [e, abs_mul, abs_neg, abs_of_pos hs0]
    have : (1 : ℝ) ≤ steps := by exact_mod_cast hs
    nlinarith

theorem caps_done (fmt : ℝ → String) (me : Nat) {n m : Nat} {r z : Nat → ℝ} {zb zt h : ℝ} (H : Rings n m r z zb zt h) (need : Prop) [Decidable need]
    (hz : need → z 0 = zb) (st : RState) (ts : List Tri) (hd : Done (OnMesh (n := n) m r z zb zt) st ts) :
    ∃ st', bottomCap fmt me n need (r 0) zb st = .ok st' ∧
      Done (OnMesh (n := n) m r z zb zt) st' (ts ++ if need then (List.range n).flatMap (lowT n r z zb zt) else []) := by
  unfold bottomCap
  by_cases hneed : need
  · simp only [if_pos hneed]
    obtain ⟨n1, m1, g1⟩ := add_exact fmt me H.sparse hd.neat (on_bot (n := n)) (dir_w 0 0 (-1))
    have d1 : Done (OnMesh (n := n) m r z zb zt) ⟨(addVertex fmt me (pt 0 0 zb) (dir 0 0 (-1)) st.b).2, st.fs⟩ ts := by
      simpa using hd.step n1 m1 (fs := []) (us := []) .nil
    obtain ⟨st', e, d, -⟩ := loop_done (startDisc fmt me n (r 0) zb (addVertex fmt me (pt 0 0 zb) (dir 0 0 (-1)) st.b).1) (lowT n r z zb zt) (List.range n)
      (fun b => b.vs[(addVertex fmt me (pt 0 0 zb) (dir 0 0 (-1)) st.b).1]? = some (pt 0 0 zb)) (keep _ _)
      (fun j hj st ts hd hk => by
        have := startDisc_done fmt me H (by simpa using hj) st ts hd hk
        rwa [hz hneed] at this) _ _ d1 g1
    exact ⟨st', e, d⟩
  · simp only [if_neg hneed]
    exact ⟨st, rfl, by simpa using hd⟩

theorem caps_done' (fmt : ℝ → String) (me : Nat) {n m : Nat} {r z : Nat → ℝ} {zb zt h : ℝ} (H : Rings n m r z zb zt h) (need : Prop) [Decidable need]
    (hz : need → z m = zt) (st : RState) (ts : List Tri) (hd : Done (OnMesh (n := n) m r z zb zt) st ts) :
    ∃ st', topCap fmt me n need (r m) zt st = .ok st' ∧
      Done (OnMesh (n := n) m r z zb zt) st' (ts ++ if need then (List.range n).flatMap (highT n m r z zb zt) else []) := by
  unfold topCap
  by_cases hneed : need
  · simp only [if_pos hneed]
    obtain ⟨n1, m1, g1⟩ := add_exact fmt me H.sparse hd.neat (on_top (n := n)) (dir_w 0 0 1)
    have d1 : Done (OnMesh (n := n) m r z zb zt) ⟨(addVertex fmt me (pt 0 0 zt) (dir 0 0 1) st.b).2, st.fs⟩ ts := by
      simpa using hd.step n1 m1 (fs := []) (us := []) .nil
    obtain ⟨st', e, d, -⟩ := loop_done (endDisc fmt me n (r m) zt (addVertex fmt me (pt 0 0 zt) (dir 0 0 1) st.b).1) (highT n m r z zb zt) (List.range n)
      (fun b => b.vs[(addVertex fmt me (pt 0 0 zt) (dir 0 0 1) st.b).1]? = some (pt 0 0 zt)) (keep _ _)
      (fun j hj st ts hd hk => by
        have := endDisc_done fmt me H (by simpa using hj) st ts hd hk
        rwa [hz hneed] at this) _ _ d1 g1
    exact ⟨st', e, d⟩
  · simp only [if_neg hneed]
    exact ⟨st, rfl, by simpa using hd⟩

/-- the surface in terms of the mesh -/
theorem revolve_shape (fmt : ℝ → String) (me : Nat) (t : Table) (contour : ℝ → ℝ) (zStart zEnd : ℝ) (steps n s0 m e0 : Nat) (hn : 3 ≤ n)
    (hs : 1 ≤ steps) (hz : 2 * eps ≤ |(zEnd - zStart) / steps|) (hm : steps = s0 + m + e0)
    (h0 : (contour zStart < eps * 10 ∧ s0 = 1) ∨ (¬ contour zStart < eps * 10 ∧ s0 = 0))
    (h1 : (contour zEnd < eps * 10 ∧ e0 = 1) ∨ (¬ contour zEnd < eps * 10 ∧ e0 = 0))
    (hw : ∀ i ≤ m, Wide n ((zEnd - zStart) / steps) (contour (level zStart zEnd steps (s0 + i)))) :
    ∃ st ts us, revolveWith fmt me t contour zStart zEnd steps n = mkSurface st.b.vs st.b.ns st.fs [] ∧
      Done (OnMesh (n := n) m (fun i => contour (level zStart zEnd steps (s0 + i))) (fun i => level zStart zEnd steps (s0 + i)) zStart zEnd) st ts ∧
      List.Forall₂ Turned ts us ∧
      us.Perm (lTris (turned (fun i => contour (level zStart zEnd steps (s0 + i))) (fun i => level zStart zEnd steps (s0 + i)) zStart zEnd) (lathe n m)) := by
  classical
  have H := rings_of contour zStart zEnd steps n s0 m hn hs hz hw
  have l0 := level_zero zStart zEnd steps
  have l1 := level_last zStart zEnd hs
  set r : Nat → ℝ := fun i => contour (level zStart zEnd steps (s0 + i)) with hr
  set z : Nat → ℝ := fun i => level zStart zEnd steps (s0 + i) with hzz
  set h := |(zEnd - zStart) / steps| with hh
  have he : 0 < eps := by unfold eps; norm_num
  unfold revolveWith
  rw [if_neg (by omega)]
  simp only
  obtain ⟨n1, -, p1, p2⟩ := pole_done fmt me H.sparse (contour zStart < eps * 10) (on_bot (n := n)) (dir_w 0 0 (-1))
    (b := ⟨[], [], t⟩) ⟨by simp, by simp, rfl⟩
  set S := pole fmt me (contour zStart < eps * 10) (pt 0 0 zStart) (dir 0 0 (-1)) ⟨[], [], t⟩ with hS
  obtain ⟨n2, m2, q1, q2⟩ := pole_done fmt me H.sparse (contour zEnd < eps * 10) (on_top (n := n)) (dir_w 0 0 1) n1
  set E := pole fmt me (contour zEnd < eps * 10) (pt 0 0 zEnd) (dir 0 0 1) S.2 with hE
  have d0 : Done (OnMesh (n := n) m r z zStart zEnd) ⟨E.2, []⟩ [] := ⟨n2, .nil⟩
  have wid : ∀ i ≤ m, atLeast (r i) = r i := fun i hi => atLeast_wide (hw i hi)
  have zz : ∀ i, z i = level zStart zEnd steps (s0 + i) := fun i => rfl
  have rr : ∀ i, r i = contour (level zStart zEnd steps (s0 + i)) := fun i => rfl
  -- the poles are in the list
  set K : Build → Prop := fun b => (∀ k, S.1 = some k → b.vs[k]? = some (pt 0 0 zStart)) ∧ (∀ k, E.1 = some k → b.vs[k]? = some (pt 0 0 zEnd)) with hK
  have keepK : ∀ b c, More b c → K b → K c := fun b c hm hk => ⟨fun k h => hm.get (hk.1 k h), fun k h => hm.get (hk.2 k h)⟩
  have k0 : K E.2 := by
    constructor
    · intro k hk
      by_cases hp : contour zStart < eps * 10
      · obtain ⟨k', a, b⟩ := p2 hp
        rw [a] at hk; injection hk with hk; subst hk
        exact m2.get b
      · rw [p1 hp] at hk; cases hk
    · intro k hk
      by_cases hp : contour zEnd < eps * 10
      · obtain ⟨k', a, b⟩ := q2 hp
        rw [a] at hk; injection hk with hk; subst hk
        exact b
      · rw [q1 hp] at hk; cases hk
  set f := revStrip fmt me n contour zStart ((zEnd - zStart) / steps) steps S.1 E.1 with hf
  -- first strip
  have A : ∀ st ts, Done (OnMesh (n := n) m r z zStart zEnd) st ts → K st.b → ∃ st', loop f (List.range s0) st = .ok st' ∧
      Done (OnMesh (n := n) m r z zStart zEnd) st' (ts ++ if contour zStart < eps * 10 then (List.range n).flatMap (lowT n r z zStart zEnd) else []) ∧ K st'.b := by
    intro st ts hd hk
    rcases h0 with ⟨hp, e⟩ | ⟨hp, e⟩
    · rw [if_pos hp]
      obtain ⟨k, a, -⟩ := p2 hp
      have hgo : f st 0 = loop (startFan fmt me n (r 0) (z 0) k) (List.range n) st := by
        rw [hf]
        unfold revStrip
        rw [if_pos rfl, a]
        simp only
        rw [level_succ, zz 0]
        have : s0 + 0 = 0 + 1 := by omega
        rw [← this, ← rr 0, wid 0 (by omega)]
      obtain ⟨st', e1, d1, m1⟩ := loop_done (startFan fmt me n (r 0) (z 0) k) (lowT n r z zStart zEnd) (List.range n)
        (fun b => b.vs[k]? = some (pt 0 0 zStart)) (keep _ _)
        (fun j hj st ts hd hk => startFan_done fmt me H (by
          rw [hh, ← abs_neg]; congr 1; rw [zz 0, e]; unfold level; push_cast; ring) (by simpa using hj) st ts hd hk) st ts hd (hk.1 k a)
      refine ⟨st', ?_, d1, keepK _ _ m1 hk⟩
      rw [e]
      show loop f [0] st = _
      unfold loop
      rw [hgo, e1]
      rfl
    · rw [if_neg hp, e]
      exact ⟨st, rfl, by simpa using hd, hk⟩
  -- last strip
  have C : ∀ st ts, Done (OnMesh (n := n) m r z zStart zEnd) st ts → K st.b → ∃ st', loop f ((List.range e0).map (s0 + m + ·)) st = .ok st' ∧
      Done (OnMesh (n := n) m r z zStart zEnd) st' (ts ++ if contour zEnd < eps * 10 then (List.range n).flatMap (highT' n m r z zStart zEnd) else []) := by
    intro st ts hd hk
    rcases h1 with ⟨hp, e⟩ | ⟨hp, e⟩
    · rw [if_pos hp]
      obtain ⟨k, a, -⟩ := q2 hp
      have hgo : f st (s0 + m) = loop (endFan fmt me n (r m) (z m) k) (List.range n) st := by
        rw [hf]
        unfold revStrip
        have i1 : (if s0 + m = 0 then S.1 else none) = none := by
          rcases h0 with ⟨hp, e⟩ | ⟨hp, e⟩
          · rw [if_neg (by omega)]
          · rw [p1 hp]; simp
        rw [i1, if_pos (by omega), a]
        simp only
        rw [level_eq, ← rr m, ← zz m, wid m le_rfl]
      obtain ⟨st', e1, d1, -⟩ := loop_done (endFan fmt me n (r m) (z m) k) (highT' n m r z zStart zEnd) (List.range n)
        (fun b => b.vs[k]? = some (pt 0 0 zEnd)) (keep _ _)
        (fun j hj st ts hd hk => endFan_done fmt me H (by
          rw [hh]; congr 1; rw [zz m]; unfold level
          have l1' : zStart + steps * ((zEnd - zStart) / steps) = zEnd := l1
          have : (steps : ℝ) = s0 + m + 1 := by rw [hm, e]; push_cast; ring
          generalize (zEnd - zStart) / (steps : ℝ) = d at l1' ⊢
          rw [this] at l1'; push_cast; linarith) (by simpa using hj) st ts hd hk) st ts hd (hk.2 k a)
      refine ⟨st', ?_, d1⟩
      rw [e]
      show loop f [s0 + m] st = _
      unfold loop
      rw [hgo, e1]
      rfl
    · rw [if_neg hp, e]
      exact ⟨st, rfl, by simpa using hd⟩
  -- the strips in between
  have B := strips_done fmt me H f s0 (fun st i hi => by
    rw [hf]
    unfold revStrip
    have i1 : (if s0 + i = 0 then S.1 else none) = none := by
      rcases h0 with ⟨hp, e⟩ | ⟨hp, e⟩
      · rw [if_neg (by omega)]
      · rw [p1 hp]; simp
    have i2 : (if s0 + i = steps - 1 then E.1 else none) = none := by
      rcases h1 with ⟨hp, e⟩ | ⟨hp, e⟩
      · rw [if_neg (by omega)]
      · rw [q1 hp]; simp
    rw [i1, i2]
    simp only
    rw [level_succ, level_eq, ← rr i, ← zz i]
    have : s0 + i + 1 = s0 + (i + 1) := by omega
    rw [this, ← rr (i + 1), ← zz (i + 1), wid i (by omega), wid (i + 1) (by omega)]) K keepK
  have split : List.range steps = List.range s0 ++ (List.range m).map (s0 + ·) ++ (List.range e0).map (s0 + m + ·) := by
    rw [hm, List.range_add, List.range_add]
  obtain ⟨sa, ea, da, ka⟩ := A _ _ d0 k0
  obtain ⟨sb, eb, db, mb⟩ := B _ _ da ka
  obtain ⟨sc, ec, dc⟩ := C _ _ db (keepK _ _ mb ka)
  have whole : loop f (List.range steps) ⟨E.2, []⟩ = .ok sc := by
    rw [split, loop_append, loop_append, ea]
    simp only
    rw [eb]
    simp only
    exact ec
  rw [whole]
  simp only
  have cb : ∀ (q : Prop) [Decidable q], (q ↔ ¬ contour zStart < eps * 10) → ∀ st ts, Done (OnMesh (n := n) m r z zStart zEnd) st ts →
      ∃ st', bottomCap fmt me n q (contour zStart) zStart st = .ok st' ∧
      Done (OnMesh (n := n) m r z zStart zEnd) st' (ts ++ if contour zStart < eps * 10 then [] else (List.range n).flatMap (lowT n r z zStart zEnd)) := by
    intro q _ hq st ts hd
    rcases h0 with ⟨hp, e⟩ | ⟨hp, e⟩
    · refine ⟨st, ?_, by rw [if_pos hp]; simpa using hd⟩
      unfold bottomCap
      rw [if_neg (by rw [hq]; simpa using hp)]
    · have r0 : r 0 = contour zStart := by rw [rr 0, e, Nat.add_zero, l0]
      obtain ⟨st', a, b⟩ := caps_done fmt me H q (fun _ => by rw [zz 0, e]; exact l0) st ts hd
      rw [r0] at a
      rw [if_pos (hq.mpr hp)] at b
      rw [if_neg hp]
      exact ⟨st', a, b⟩
  have ct : ∀ (q : Prop) [Decidable q], (q ↔ ¬ contour zEnd < eps * 10) → ∀ st ts, Done (OnMesh (n := n) m r z zStart zEnd) st ts →
      ∃ st', topCap fmt me n q (contour zEnd) zEnd st = .ok st' ∧
      Done (OnMesh (n := n) m r z zStart zEnd) st' (ts ++ if contour zEnd < eps * 10 then [] else (List.range n).flatMap (highT n m r z zStart zEnd)) := by
    intro q _ hq st ts hd
    rcases h1 with ⟨hp, e⟩ | ⟨hp, e⟩
    · refine ⟨st, ?_, by rw [if_pos hp]; simpa using hd⟩
      unfold topCap
      rw [if_neg (by rw [hq]; simpa using hp)]
    · have em : s0 + m = steps := by omega
      have r0 : r m = contour zEnd := by rw [rr m, em, l1]
      obtain ⟨st', a, b⟩ := caps_done' fmt me H q (fun _ => by rw [zz m, em]; exact l1) st ts hd
      rw [r0] at a
      rw [if_pos (hq.mpr hp)] at b
      rw [if_neg hp]
      exact ⟨st', a, b⟩
  obtain ⟨sd, ed, dd⟩ := cb (¬ contour zStart < eps * 10 ∧ contour zStart ≥ eps) ⟨fun g => g.1, fun g => ⟨g, by
    rw [not_lt] at g; show eps ≤ _; linarith⟩⟩ sc _ dc
  rw [ed]
  simp only
  obtain ⟨se, ee, de⟩ := ct (¬ contour zEnd < eps * 10 ∧ contour zEnd ≥ eps) ⟨fun g => g.1, fun g => ⟨g, by
    rw [not_lt] at g; show eps ≤ _; linarith⟩⟩ sd _ dd
  rw [ee]
  simp only
  refine ⟨se, _, ((([] : List Tri) ++ if contour zStart < eps * 10 then (List.range n).flatMap (lowT n r z zStart zEnd) else []) ++
      (List.range m).flatMap (fun i => (List.range n).flatMap (quadT n m r z zStart zEnd i)) ++
      (if contour zEnd < eps * 10 then (List.range n).flatMap (highT n m r z zStart zEnd) else [])) ++
      (if contour zStart < eps * 10 then [] else (List.range n).flatMap (lowT n r z zStart zEnd)) ++
      (if contour zEnd < eps * 10 then [] else (List.range n).flatMap (highT n m r z zStart zEnd)), rfl, de, ?_, ?_⟩
  · refine List.rel_append (List.rel_append (List.rel_append (turned_refl _) ?_) (turned_refl _)) (turned_refl _)
    split
    · exact high_turned n m r z zStart zEnd
    · exact .nil
  · rw [lathe_list]
    generalize (List.range n).flatMap (lowT n r z zStart zEnd) = X
    generalize (List.range m).flatMap (fun i => (List.range n).flatMap (quadT n m r z zStart zEnd i)) = Y
    generalize (List.range n).flatMap (highT n m r z zStart zEnd) = Z
    split <;> split <;> simp only [List.nil_append, List.append_nil]
    · exact .refl _
    · exact .refl _
    · exact (List.perm_append_comm (l₁ := Y ++ Z)).trans (by rw [List.append_assoc])
    · exact (List.perm_append_comm (l₁ := Y) (l₂ := X)).append_right Z

end Verif.Prim
