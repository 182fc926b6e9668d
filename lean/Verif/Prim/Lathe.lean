import Verif.Prim.Revolve

/-!
# Surfaces of revolution: the claims (C183)
-/

namespace Verif.Prim
open Verif.Geom Verif.Surf Real

open Classical in
/-- the radius of the mesh at height number `k`: the contour's, but 0 at an end where the contour is smaller than 10 epsilon -/
noncomputable def meshRadius (contour : ℝ → ℝ) (zStart zEnd : ℝ) (steps k : Nat) : ℝ :=
  if (k = 0 ∧ contour zStart < eps * 10) ∨ (k = steps ∧ contour zEnd < eps * 10) then 0 else contour (level zStart zEnd steps k)

/-- the volume of the stack of frusta over regular `n`-gons with radii `ρ 0, …, ρ steps`, each of height `d` -/
noncomputable def stackVolume (n : Nat) (d : ℝ) (ρ : Nat → ℝ) (steps : Nat) : ℝ :=
  n * sin (2 * π / n) / 6 * d * ((List.range steps).map fun i => ρ i ^ 2 + ρ i * ρ (i + 1) + ρ (i + 1) ^ 2).sum

theorem sum_split (f g : Nat → ℝ) (s0 m e0 : Nat) (hs : s0 ≤ 1) (he : e0 ≤ 1) (hg : ∀ i < m, f (s0 + i) = g i) :
    ((List.range (s0 + m + e0)).map f).sum = (if s0 = 1 then f 0 else 0) + ((List.range m).map g).sum + (if e0 = 1 then f (s0 + m) else 0) := by
  rw [List.range_add, List.range_add]
  simp only [List.map_append, List.sum_append, List.map_map]
  congr 1
  · congr 1
    · rcases Nat.le_one_iff_eq_zero_or_eq_one.mp hs with rfl | rfl <;> simp
    · congr 1
      exact List.map_congr_left fun i hi => hg i (by simpa using hi)
  · rcases Nat.le_one_iff_eq_zero_or_eq_one.mp he with rfl | rfl <;> simp

/-- **C183** Revolving a contour gives, for every table state, a closed, consistently oriented surface whose vertices are on
the contour's circles and on the axis, and whose volume is that of the stack of frusta over regular `n`-gons. -/
theorem C183_revolution_partial (fmt : ℝ → String) (me : Nat) (t : Table) (contour : ℝ → ℝ) (zStart zEnd : ℝ) (steps n : Nat)
    (ce mc : Option ℝ) (hn : 3 ≤ n) (hs : 1 ≤ steps) (hz : 2 * eps ≤ |(zEnd - zStart) / steps|)
    (hw : ∀ k ≤ steps, (k = 0 ∧ contour zStart < eps * 10) ∨ (k = steps ∧ contour zEnd < eps * 10) ∨
      Wide n ((zEnd - zStart) / steps) (contour (level zStart zEnd steps k)))
    (h2 : contour zStart < eps * 10 → contour zEnd < eps * 10 → 2 ≤ steps) :
    ∃ s, makeRevolutionSurface fmt me t contour zStart zEnd steps (some n) ce mc = .ok s ∧ issurface s = true ∧
      issolidclosed ⟨[s]⟩ = .ok true ∧
      volumeof ⟨[s]⟩ = .ok |stackVolume n ((zEnd - zStart) / steps) (meshRadius contour zStart zEnd steps) steps| ∧
      (∀ p ∈ s.verts, p.w = 1 ∧ ∃ k ≤ steps, p.z = level zStart zEnd steps k ∧
        (p.x ^ 2 + p.y ^ 2 = meshRadius contour zStart zEnd steps k ^ 2 ∨ ((k = 0 ∨ k = steps) ∧ p.x = 0 ∧ p.y = 0))) ∧
      ∃ ts, Tris [s] ts ∧ Oriented ts ∧ Separated ts := by
  classical
  obtain ⟨s0, h0⟩ : ∃ s0, (contour zStart < eps * 10 ∧ s0 = 1) ∨ (¬ contour zStart < eps * 10 ∧ s0 = 0) := by
    by_cases h : contour zStart < eps * 10
    · exact ⟨1, Or.inl ⟨h, rfl⟩⟩
    · exact ⟨0, Or.inr ⟨h, rfl⟩⟩
  obtain ⟨e0, h1⟩ : ∃ e0, (contour zEnd < eps * 10 ∧ e0 = 1) ∨ (¬ contour zEnd < eps * 10 ∧ e0 = 0) := by
    by_cases h : contour zEnd < eps * 10
    · exact ⟨1, Or.inl ⟨h, rfl⟩⟩
    · exact ⟨0, Or.inr ⟨h, rfl⟩⟩
  obtain ⟨m, hm⟩ : ∃ m, steps = s0 + m + e0 := by
    refine ⟨steps - s0 - e0, ?_⟩
    rcases h0 with ⟨a, rfl⟩ | ⟨a, rfl⟩ <;> rcases h1 with ⟨b, rfl⟩ | ⟨b, rfl⟩
    · have := h2 a b; omega
    all_goals omega
  have hw' : ∀ i ≤ m, Wide n ((zEnd - zStart) / steps) (contour (level zStart zEnd steps (s0 + i))) := by
    intro i hi
    rcases hw (s0 + i) (by omega) with ⟨a, b⟩ | ⟨a, b⟩ | h
    · rcases h0 with ⟨-, e⟩ | ⟨c, -⟩
      · omega
      · exact absurd b c
    · rcases h1 with ⟨-, e⟩ | ⟨c, -⟩
      · omega
      · exact absurd b c
    · exact h
  have H := rings_of contour zStart zEnd steps n s0 m hn hs hz hw'
  obtain ⟨st, ts, us, e, hd, hT, hP⟩ := revolve_shape fmt me t contour zStart zEnd steps n s0 m e0 hn hs hz hm h0 h1 hw'
  set r : Nat → ℝ := fun i => contour (level zStart zEnd steps (s0 + i)) with hr
  set z : Nat → ℝ := fun i => level zStart zEnd steps (s0 + i) with hzz
  have on : ∀ p ∈ st.b.vs, p.w = 1 := by
    intro p hp
    obtain ⟨l, -, rfl⟩ := hd.neat.pts p hp
    cases l <;> rfl
  have len : 3 ≤ st.b.vs.length := by
    have hmem : (⟨turned r z zStart zEnd (LL.bot : LL n), turned r z zStart zEnd (LL.ring 0 (((0 : ℕ) : ZMod n) + 1)),
        turned r z zStart zEnd (LL.ring 0 ((0 : ℕ) : ZMod n))⟩ : Tri) ∈ us := by
      rw [hP.mem_iff, lathe_list]
      refine List.mem_append_left _ (List.mem_append_left _ (List.mem_flatMap.mpr ⟨0, by simp; omega, ?_⟩))
      exact List.mem_singleton.mpr rfl
    have far := H.sparse
    have inV : ∀ l ∈ [turned r z zStart zEnd (LL.bot : LL n), turned r z zStart zEnd (LL.ring 0 (((0 : ℕ) : ZMod n) + 1)),
        turned r z zStart zEnd (LL.ring 0 ((0 : ℕ) : ZMod n))], l ∈ st.b.vs := by
      obtain ⟨x, hx, hxu⟩ : ∃ x ∈ ts, Turned x ⟨turned r z zStart zEnd (LL.bot : LL n), turned r z zStart zEnd (LL.ring 0 (((0 : ℕ) : ZMod n) + 1)),
        turned r z zStart zEnd (LL.ring 0 ((0 : ℕ) : ZMod n))⟩ := by
        obtain ⟨i, hi, hiu⟩ := List.mem_iff_getElem.mp hmem
        have hl := hT.length_eq
        refine ⟨ts[i], List.getElem_mem _, ?_⟩
        have := hT.get (i := i) (by omega) hi
        simpa [hiu] using this
      obtain ⟨i, hi, hix⟩ := List.mem_iff_getElem.mp hx
      have hl := hd.tri.length_eq
      have hc := hd.tri.get (i := i) (by omega) hi
      simp only [List.get_eq_getElem, hix] at hc
      obtain ⟨a, b, c, -, ha, hb, hc⟩ := hc
      have ha := List.mem_of_getElem? ha
      have hb := List.mem_of_getElem? hb
      have hc := List.mem_of_getElem? hc
      intro l hl
      rcases hxu with rfl | rfl <;> simp only [List.mem_cons, List.not_mem_nil, or_false] at hl <;> rcases hl with rfl | rfl | rfl <;> assumption
    have nd : [turned r z zStart zEnd (LL.bot : LL n), turned r z zStart zEnd (LL.ring 0 (((0 : ℕ) : ZMod n) + 1)),
        turned r z zStart zEnd (LL.ring 0 ((0 : ℕ) : ZMod n))].Nodup := by
      have he : 0 < eps := by unfold eps; norm_num
      have r0 : 0 < r 0 := by have := (H.rad 0 (by omega)).1; linarith
      have ax : ∀ j : ZMod n, turned r z zStart zEnd (LL.bot : LL n) ≠ turned r z zStart zEnd (LL.ring 0 j) := by
        intro j hj
        simp only [turned, pt, V4.mk.injEq] at hj
        have c0 : cos (ang j) = 0 := by
          rcases mul_eq_zero.mp hj.1.symm with h | h
          · exact h
          · exact absurd h r0.ne'
        have c1 : sin (ang j) = 0 := by
          rcases mul_eq_zero.mp hj.2.1.symm with h | h
          · exact h
          · exact absurd h r0.ne'
        have := sin_sq_add_cos_sq (ang j)
        rw [c0, c1] at this; norm_num at this
      simp only [List.nodup_cons, List.mem_cons, List.not_mem_nil, or_false, not_or, not_false_iff, List.nodup_nil, and_true]
      refine ⟨⟨ax _, ax _⟩, ?_⟩
      intro hc
      have hd := chord_far hn (r 0) (one_ne hn ((0 : ℕ) : ZMod n))
      simp only [turned, pt, V4.mk.injEq] at hc
      rw [hc.1, hc.2.1] at hd
      have : (0 : ℝ) < n := by positivity
      have h4 : 0 < (4 * r 0 / n) ^ 2 := by positivity
      simp only [sub_self] at hd
      first | nlinarith | (norm_num at hd; nlinarith)
    have sub : [turned r z zStart zEnd (LL.bot : LL n), turned r z zStart zEnd (LL.ring 0 (((0 : ℕ) : ZMod n) + 1)),
        turned r z zStart zEnd (LL.ring 0 ((0 : ℕ) : ZMod n))].length ≤ st.b.vs.length := (List.subperm_of_subset nd inV).length_le
    exact sub
  have three : ∀ f ∈ st.fs, f.length = 3 := by
    intro f hf
    obtain ⟨i, hi, hix⟩ := List.mem_iff_getElem.mp hf
    have hl := hd.tri.length_eq
    have hc := hd.tri.get (i := i) hi (by omega)
    simp only [List.get_eq_getElem, hix] at hc
    obtain ⟨a, b, c, hf, -⟩ := hc
    rw [hf]; rfl
  obtain ⟨o1, o2⟩ := mkSurface_ok st.b.vs st.b.ns st.fs len (fun p hp => by rw [on p hp]; norm_num) hd.neat.nrm hd.neat.len three
  have ht : Tris [⟨st.b.vs, st.b.ns, st.fs, [], []⟩] ts := by
    unfold Tris
    simp only [List.flatMap_cons, List.flatMap_nil, List.append_nil]
    rw [List.forall₂_map_left_iff]
    exact hd.tri.imp fun f t h => h.corners
  have hx : issolid ⟨[⟨st.b.vs, st.b.ns, st.fs, [], []⟩]⟩ = true := by simp [issolid, o2 [] []]
  obtain ⟨c1, c2, c3, c4⟩ := lathe_solid' hn m r z zStart zEnd _ ts us hx ht hT hP H.rad H.gap H.ends
  have l0 := level_zero zStart zEnd steps
  have l1 := level_last zStart zEnd hs
  have mid : ∀ i ≤ m, meshRadius contour zStart zEnd steps (s0 + i) = r i := by
    intro i hi
    unfold meshRadius
    rw [if_neg]
    rintro (⟨a, b⟩ | ⟨a, b⟩)
    · rcases h0 with ⟨-, e⟩ | ⟨c, -⟩
      · omega
      · exact c b
    · rcases h1 with ⟨-, e⟩ | ⟨c, -⟩
      · omega
      · exact c b
  refine ⟨_, ?_, o2 [] [], c1, ?_, ?_, ts, ht, c2, c3⟩
  · unfold makeRevolutionSurface
    rw [if_neg (by omega)]
    simp only
    rw [e, o1]
  · rw [c4]
    congr 2
    unfold stackVolume
    set ρ := meshRadius contour zStart zEnd steps with hρ
    set d := (zEnd - zStart) / (steps : ℝ) with hdd
    have zd : ∀ i, z (i + 1) - z i = d := by intro i; simp only [hzz, level]; push_cast; ring
    have hs1 : s0 ≤ 1 := by rcases h0 with ⟨-, e⟩ | ⟨-, e⟩ <;> omega
    have he1 : e0 ≤ 1 := by rcases h1 with ⟨-, e⟩ | ⟨-, e⟩ <;> omega
    have hsum := sum_split (fun i => ρ i ^ 2 + ρ i * ρ (i + 1) + ρ (i + 1) ^ 2) (fun i => r i ^ 2 + r i * r (i + 1) + r (i + 1) ^ 2) s0 m e0 hs1 he1
      (fun i hi => by rw [add_assoc s0 i 1, mid i (by omega), mid (i + 1) (by omega)])
    rw [← hm] at hsum
    rw [hsum]
    have hin : ((List.range m).map fun i => (z (i + 1) - z i) * (r i ^ 2 + r i * r (i + 1) + r (i + 1) ^ 2)).sum =
        d * ((List.range m).map fun i => r i ^ 2 + r i * r (i + 1) + r (i + 1) ^ 2).sum := by
      rw [← List.sum_map_mul_left]
      congr 1
      exact List.map_congr_left fun i _ => by rw [zd]
    rw [hin]
    have first : (z 0 - zStart) * r 0 ^ 2 = d * (if s0 = 1 then ρ 0 ^ 2 + ρ 0 * ρ (0 + 1) + ρ (0 + 1) ^ 2 else 0) := by
      rcases h0 with ⟨a, e⟩ | ⟨a, e⟩
      · rw [if_pos e]
        have q0 : ρ 0 = 0 := by rw [hρ]; unfold meshRadius; rw [if_pos (Or.inl ⟨rfl, a⟩)]
        have q1 : ρ (0 + 1) = r 0 := by rw [← mid 0 (by omega), e]
        have q2 : z 0 - zStart = d := by simp only [hzz, e, level]; push_cast; ring
        rw [q0, q1, q2]; ring
      · rw [if_neg (by omega)]
        have q2 : z 0 - zStart = 0 := by simp only [hzz, e, level]; push_cast; ring
        rw [q2]; ring
    have last : (zEnd - z m) * r m ^ 2 = d * (if e0 = 1 then ρ (s0 + m) ^ 2 + ρ (s0 + m) * ρ (s0 + m + 1) + ρ (s0 + m + 1) ^ 2 else 0) := by
      rcases h1 with ⟨a, e⟩ | ⟨a, e⟩
      · rw [if_pos e]
        have q0 : ρ (s0 + m + 1) = 0 := by rw [hρ]; unfold meshRadius; rw [if_pos (Or.inr ⟨by omega, a⟩)]
        have q1 : ρ (s0 + m) = r m := mid m le_rfl
        have q2 : zEnd - z m = d := by
          have e1 : level zStart zEnd steps (s0 + m + 1) = zEnd := by
            have : s0 + m + 1 = steps := by omega
            rw [this]; exact l1
          have e2 : level zStart zEnd steps (s0 + m + 1) - z m = d := by simp only [hzz, level]; push_cast; ring
          rw [← e2, e1]
        rw [q0, q1, q2]; ring
      · rw [if_neg (by omega)]
        have q2 : zEnd - z m = 0 := by
          have e1 : z m = zEnd := by
            have : s0 + m = steps := by omega
            simp only [hzz]; rw [this]; exact l1
          rw [e1, sub_self]
        rw [q2]; ring
    rw [first, last]
    ring
  · intro p hp
    refine ⟨on p hp, ?_⟩
    obtain ⟨l, hl, rfl⟩ := hd.neat.pts p hp
    cases l with
    | bot => exact ⟨0, by omega, l0.symm, Or.inr ⟨Or.inl rfl, rfl, rfl⟩⟩
    | top => exact ⟨steps, le_rfl, l1.symm, Or.inr ⟨Or.inr rfl, rfl, rfl⟩⟩
    | ring i j =>
      have hi : i ≤ m := hl
      refine ⟨s0 + i, by omega, rfl, Or.inl ?_⟩
      rw [mid i hi]
      simp only [turned, pt]
      linear_combination r i ^ 2 * sin_sq_add_cos_sq (ang j)

/-- **C183** With both ends on the axis and one step there is nothing between the poles: the only strip is the fan at the start, its
circle is too small for any triangle, and the call fails. -/
theorem C183_two_poles (fmt : ℝ → String) (me : Nat) (t : Table) (contour : ℝ → ℝ) (zStart zEnd : ℝ) (n : Nat) (ce mc : Option ℝ) (hn : 1 ≤ n)
    (h0 : contour zStart < eps) (h1 : contour zEnd < eps) (hz : |zEnd - zStart| ≤ 1 / 4) :
    makeRevolutionSurface fmt me t contour zStart zEnd 1 (some n) ce mc = .error .valueError := by
  classical
  have he : 0 < eps := by unfold eps; norm_num
  have hh : (zEnd - zStart) ^ 2 ≤ 1 / 16 := by
    rw [← sq_abs]
    have := abs_nonneg (zEnd - zStart)
    nlinarith
  unfold makeRevolutionSurface revolveWith
  rw [if_neg (by omega)]
  simp only
  rw [if_neg (by omega)]
  have p0 : contour zStart < eps * 10 := by linarith
  have p1 : contour zEnd < eps * 10 := by linarith
  simp only [pole, if_pos p0, if_pos p1]
  set a := addVertex fmt me (pt 0 0 zStart) (dir 0 0 (-1)) ⟨[], [], t⟩ with ha
  have ea : a = (0, ⟨[pt 0 0 zStart], [dir 0 0 (-1)], a.2.tab⟩) := by
    rw [ha]; unfold addVertex claim; simp
  set b := addVertex fmt me (pt 0 0 zEnd) (dir 0 0 1) a.2 with hb
  have len : b.2.vs.length ≤ 2 ∧ b.2.vs[0]? = some (pt 0 0 zStart) ∧ b.2.vs.length = b.2.ns.length := by
    obtain ⟨v, -, -, h⟩ := C182_any_state fmt me (pt 0 0 zEnd) (dir 0 0 1) a.2
    rw [← hb] at h
    have e1 : a.2.vs = [pt 0 0 zStart] := by rw [ea]
    have e2 : a.2.ns = [dir 0 0 (-1)] := by rw [ea]
    rw [e1, e2] at h
    rcases h with ⟨h, h'⟩ | ⟨-, h, h'⟩ <;> rw [h, h'] <;> simp
  have go : ∀ j st, st.b = b.2 → startFan fmt me n (atLeast (contour (0 * ((zEnd - zStart) / 1) + zStart + (zEnd - zStart) / 1)))
      (0 * ((zEnd - zStart) / 1) + zStart + (zEnd - zStart) / 1) 0 st j = .ok st := by
    intro j st hst
    have e : (0 : ℝ) * ((zEnd - zStart) / 1) + zStart + (zEnd - zStart) / 1 = zEnd := by ring
    rw [e]
    have e' : atLeast (contour zEnd) = eps := by unfold atLeast; rw [if_pos h1]
    rw [e']
    unfold startFan
    simp only
    rw [hst, len.2.1]
    simp only
    have small : mag (cross (sub (wheel n ((j + 1) % n) eps zEnd) (pt 0 0 zStart)) (sub (wheel n j eps zEnd) (wheel n ((j + 1) % n) eps zEnd))) < eps := by
      unfold mag
      rw [sqrt_lt' he]
      simp only [wheel, sub, cross, pt]
      generalize ((((j + 1) % n : ℕ) : ℝ) * (2 * π / n)) = x
      generalize ((j : ℝ) * (2 * π / n)) = y
      have s1 := sin_sq_add_cos_sq x
      have s2 := sin_sq_add_cos_sq y
      have c1 := neg_one_le_cos (x - y)
      rw [cos_sub] at c1
      have c2 := cos_le_one (x - y)
      rw [cos_sub] at c2
      have e2 : eps ^ 2 ≤ 1 / 100 := by unfold eps; norm_num
      have d0 : (cos y - cos x) ^ 2 + (sin y - sin x) ^ 2 ≤ 4 := by nlinarith
      have d1 : (cos x * (sin y - sin x) - sin x * (cos y - cos x)) ^ 2 ≤ 1 := by
        have : (cos x * (sin y - sin x) - sin x * (cos y - cos x)) = sin (y - x) := by rw [sin_sub]; ring
        rw [this]; nlinarith [sin_sq_add_cos_sq (y - x), sq_nonneg (cos (y - x))]
      have key : ((sin x * eps - 0) * (zEnd - zEnd) - (zEnd - zStart) * (sin y * eps - sin x * eps)) * ((sin x * eps - 0) * (zEnd - zEnd) - (zEnd - zStart) * (sin y * eps - sin x * eps)) +
          ((zEnd - zStart) * (cos y * eps - cos x * eps) - (cos x * eps - 0) * (zEnd - zEnd)) * ((zEnd - zStart) * (cos y * eps - cos x * eps) - (cos x * eps - 0) * (zEnd - zEnd)) +
          ((cos x * eps - 0) * (sin y * eps - sin x * eps) - (sin x * eps - 0) * (cos y * eps - cos x * eps)) * ((cos x * eps - 0) * (sin y * eps - sin x * eps) - (sin x * eps - 0) * (cos y * eps - cos x * eps))
          = eps ^ 2 * ((zEnd - zStart) ^ 2 * ((cos y - cos x) ^ 2 + (sin y - sin x) ^ 2) + eps ^ 2 * (cos x * (sin y - sin x) - sin x * (cos y - cos x)) ^ 2) := by ring
      have hq : (zEnd - zStart) ^ 2 * ((cos y - cos x) ^ 2 + (sin y - sin x) ^ 2) + eps ^ 2 * (cos x * (sin y - sin x) - sin x * (cos y - cos x)) ^ 2 < 1 := by
        have a1 : (zEnd - zStart) ^ 2 * ((cos y - cos x) ^ 2 + (sin y - sin x) ^ 2) ≤ 1 / 16 * 4 :=
          mul_le_mul hh d0 (by positivity) (by norm_num)
        have a2 : eps ^ 2 * (cos x * (sin y - sin x) - sin x * (cos y - cos x)) ^ 2 ≤ 1 / 100 * 1 :=
          mul_le_mul e2 d1 (by positivity) (by norm_num)
        linarith
      have : eps ^ 2 * ((zEnd - zStart) ^ 2 * ((cos y - cos x) ^ 2 + (sin y - sin x) ^ 2) + eps ^ 2 * (cos x * (sin y - sin x) - sin x * (cos y - cos x)) ^ 2) < eps ^ 2 * 1 :=
        mul_lt_mul_of_pos_left hq (by positivity)
      nlinarith [key]
    unfold tri2p0n
    simp only
    rw [if_pos small]
  have fan : ∀ js st, st.b = b.2 → loop (startFan fmt me n (atLeast (contour (0 * ((zEnd - zStart) / 1) + zStart + (zEnd - zStart) / 1)))
      (0 * ((zEnd - zStart) / 1) + zStart + (zEnd - zStart) / 1) 0) js st = .ok st := by
    intro js
    induction js with
    | nil => intro st _; rfl
    | cons j js ih => intro st hst; simp only [loop]; rw [go j st hst]; exact ih st hst
  have a0 : a.1 = 0 := by rw [ea]
  have whole : loop (revStrip fmt me n contour zStart ((zEnd - zStart) / ((1 : Nat) : ℝ)) 1 (some a.1) (some b.1)) (List.range 1) ⟨b.2, []⟩ = .ok ⟨b.2, []⟩ := by
    show loop _ [0] _ = _
    simp only [loop]
    unfold revStrip
    simp only [if_true]
    rw [a0]
    push_cast
    rw [fan _ _ rfl]
  rw [whole]
  simp only [bottomCap, topCap, p0, p1, not_true, false_and, if_false]
  unfold mkSurface
  rw [if_neg (by simp), if_neg (by simp [len.2.2])]
  simp only [extrasLoop]
  rw [if_pos]
  have : ¬ issurface ⟨b.2.vs, b.2.ns, [], [], []⟩ = true := by
    rw [C170_accepts_iff]
    rintro ⟨h, -⟩
    simp only at h
    omega
  simpa using this

/-- **C183** No steps: a division by zero, and so for no samples. -/
theorem C183_no_steps (fmt : ℝ → String) (me : Nat) (t : Table) (contour : ℝ → ℝ) (zStart zEnd : ℝ) (n : Option Nat) (ce mc : Option ℝ) :
    makeRevolutionSurface fmt me t contour zStart zEnd 0 n ce mc = .error .zeroDivision := rfl

theorem maxRadius_pos (contour : ℝ → ℝ) (zStart zD : ℝ) (steps k : Nat) (hk : k ≤ steps) (h : 0 < contour (k * zD + zStart)) :
    0 < maxRadius contour zStart zD steps := by
  have key : ∀ (l : List Nat) (m : ℝ), (0 < m ∨ k ∈ l) → 0 < l.foldl (fun m i => max m (contour (i * zD + zStart))) m := by
    intro l
    induction l with
    | nil => intro m hm; simpa using hm
    | cons i l ih =>
      intro m hm
      refine ih _ ?_
      rcases hm with hm | hm
      · exact Or.inl (lt_max_of_lt_left hm)
      · rcases List.mem_cons.mp hm with rfl | hm
        · exact Or.inl (lt_max_of_lt_right h)
        · exact Or.inr hm
  exact key _ _ (Or.inr (by simp; omega))

/-- **C183** Without a number of samples, between 16 and 360 are chosen; radii of 0.0009 and steps of 0.00001 whose product is at least
0.00045 are then always enough. -/
theorem C183_default_partial (fmt : ℝ → String) (me : Nat) (t : Table) (contour : ℝ → ℝ) (zStart zEnd : ℝ) (steps : Nat)
    (mc : Option ℝ) (hm : ∀ m, mc = some m → 0 < m) (hs : 1 ≤ steps) (hz : 0.00001 ≤ |(zEnd - zStart) / steps|)
    (hw : ∀ k ≤ steps, (k = 0 ∧ contour zStart < eps * 10) ∨ (k = steps ∧ contour zEnd < eps * 10) ∨
      (0.0009 ≤ contour (level zStart zEnd steps k) ∧ 0.00045 ≤ contour (level zStart zEnd steps k) * |(zEnd - zStart) / steps|))
    (h2 : contour zStart < eps * 10 → contour zEnd < eps * 10 → 2 ≤ steps) :
    ∃ s n, makeRevolutionSurface fmt me t contour zStart zEnd steps none none mc = .ok s ∧ 16 ≤ n ∧ n ≤ 360 ∧ issurface s = true ∧
      issolidclosed ⟨[s]⟩ = .ok true ∧
      volumeof ⟨[s]⟩ = .ok |stackVolume n ((zEnd - zStart) / steps) (meshRadius contour zStart zEnd steps) steps| := by
  have he : eps = 0.000005 := rfl
  -- some height has a positive radius
  obtain ⟨k, hk, hpos⟩ : ∃ k ≤ steps, 0 < contour (k * ((zEnd - zStart) / steps) + zStart) := by
    have pos : ∀ k ≤ steps, (0.0009 ≤ contour (level zStart zEnd steps k) ∧ 0.00045 ≤ contour (level zStart zEnd steps k) * |(zEnd - zStart) / steps|) →
        0 < contour (k * ((zEnd - zStart) / steps) + zStart) := fun k _ h => by
      rw [level_eq]; have := h.1; norm_num at this ⊢; linarith
    by_cases hp : contour zStart < eps * 10
    · refine ⟨1, hs, ?_⟩
      rcases hw 1 hs with ⟨a, -⟩ | ⟨a, b⟩ | h
      · omega
      · have := h2 hp b; omega
      · exact pos 1 hs h
    · refine ⟨0, by omega, ?_⟩
      rw [level_eq, level_zero]
      rw [he] at hp; norm_num at hp; linarith
  obtain ⟨N, e, n1, n2, -⟩ := C180_chord (maxRadius contour zStart ((zEnd - zStart) / steps) steps) mc (maxRadius_pos contour zStart _ steps k hk hpos) hm
  obtain ⟨n, hn⟩ : ∃ n : ℕ, N = n := ⟨N.toNat, by omega⟩
  have n360 : (n : ℝ) ≤ 360 := by exact_mod_cast (by omega : n ≤ 360)
  obtain ⟨s, g1, g2, g3, g4, -⟩ := C183_revolution_partial fmt me t contour zStart zEnd steps n none mc (by omega) hs (by rw [he]; norm_num at hz ⊢; linarith)
    (fun k hk => by
      rcases hw k hk with h | h | ⟨h, h'⟩
      · exact Or.inl h
      · exact Or.inr (Or.inl h)
      · refine Or.inr (Or.inr ⟨?_, ?_, ?_⟩) <;> rw [he] <;> norm_num at h h' ⊢ <;> linarith) h2
  refine ⟨s, n, ?_, by omega, by omega, g2, g3, g4⟩
  rw [← g1]
  unfold makeRevolutionSurface
  rw [if_neg (by omega), if_neg (by omega)]
  simp only
  rw [e]
  simp only
  rw [hn]
  rfl

/-- a cone of height 3 and radius 2 in two steps meets the assumptions -/
example (fmt : ℝ → String) (t : Table) : ∃ s n, makeRevolutionSurface fmt 7 t (fun z => 2 - z / 3 * 2) 0 3 2 none none none = .ok s ∧ 16 ≤ n ∧ n ≤ 360 ∧
    issurface s = true ∧ issolidclosed ⟨[s]⟩ = .ok true ∧
    volumeof ⟨[s]⟩ = .ok |stackVolume n ((3 - 0) / (2 : Nat)) (meshRadius (fun z => 2 - z / 3 * 2) 0 3 2) 2| := by
  refine C183_default_partial fmt 7 t _ 0 3 2 none (by simp) (by norm_num) ?_ ?_ ?_
  · rw [abs_of_pos (by norm_num)]; norm_num
  · intro k hk
    rcases (by omega : k = 0 ∨ k = 1 ∨ k = 2) with rfl | rfl | rfl
    · right; right; unfold level; rw [abs_of_pos (by norm_num)]; norm_num
    · right; right; unfold level; rw [abs_of_pos (by norm_num)]; norm_num
    · right; left; unfold eps; norm_num
  · intro _ _; norm_num

end Verif.Prim
