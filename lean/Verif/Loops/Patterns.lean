import Verif.Geom.FigProps2

/-!
# `radial_pattern` and `linear_pattern`, geom_util.py:919-1020
-/

namespace Verif.Loops

open Verif.Geom Real

/-! ## the model -/

/-- the angle between copies, geom_util.py:954-957 -/
noncomputable def angleStep (count : ℤ) (angle : ℝ) : ℝ :=
  open Classical in if |angle - 360| < eps then angle / count else angle / (count - 1)

/-- one copy, geom_util.py:961-967 -/
noncomputable def radialCopy (f : Fig) (cent axis : V4) (step : ℝ) (i : ℕ) : Except Err Fig :=
  open Classical in if |(i : ℝ) * step| < eps then .ok f else f.rotate (i * step) cent axis

/-- the loop, geom_util.py:959-969 -/
noncomputable def radialLoop (f : Fig) (cent axis : V4) (step : ℝ) : List ℕ → Except Err (List Fig)
  | [] => .ok []
  | i :: is =>
    match radialCopy f cent axis step i with
    | .error e => .error e
    | .ok g =>
      match radialLoop f cent axis step is with
      | .error e => .error e
      | .ok gs => .ok (g :: gs)

/-- `radial_pattern`, geom_util.py:919-971, with the defaults of lines 940-946; figures are those of `Verif.Geom.Fig` -/
noncomputable def radialPattern (f : Fig) (count : ℤ) (cent : V4 := pt 0 0) (axis : V4 := pt 0 0 1) (angle : ℝ := 360) : Except Err (List Fig) :=
  if count < 1 then .error .valueError
  else if count = 1 then .ok [f]
  else radialLoop f cent axis (angleStep count angle) (List.range count.toNat)

/-- one copy, geom_util.py:1010-1018 -/
def linearCopy (f : Fig) (spacing : V4) (i : ℕ) : Fig :=
  if i = 0 then f else f.translate (scale3 spacing i)

/-- the vector made of the numbers given, geom_util.py:997-1006 -/
def spacingOf : List ℝ → Except Err V4
  | [x, y] => .ok (pt x y)
  | [x, y, z] => .ok (pt x y z)
  | [x, y, z, _] => .ok (pt x y z)
  | _ => .error .valueError

/-- `linear_pattern`, geom_util.py:974-1020 -/
def linearPattern (f : Fig) (count : ℤ) (spacing : List ℝ) : Except Err (List Fig) :=
  if count < 1 then .error .valueError
  else match spacingOf spacing with
    | .error e => .error e
    | .ok d => .ok ((List.range count.toNat).map (linearCopy f d))

/-! ## linear patterns -/

/-- `linear_pattern` makes `count` copies; copy number `i` has the length of the figure and its samples moved by `i` times the spacing. -/
theorem C281_linear (f : Fig) (hf : f.Wf) (hw : ∀ u p, f.sample u = .ok (some p) → p.w = 1) (n : ℕ) (hn : 1 ≤ n) (x y z : ℝ) :
    ∃ gs, linearPattern f n [x, y, z] = .ok gs ∧ gs.length = n ∧ ∀ (i : ℕ) (g : Fig), gs[i]? = some g →
      g.length = f.length ∧ ∀ u, g.sample u = (f.sample u).map (Option.map fun p => ⟨p.x + i * x, p.y + i * y, p.z + i * z, 1⟩) := by
  refine ⟨_, by unfold linearPattern; rw [if_neg (by omega)]; rfl, by simp, fun i g hg => ?_⟩
  simp only [Int.toNat_natCast, List.getElem?_map, Option.map_eq_some_iff] at hg
  obtain ⟨j, hj, rfl⟩ := hg
  obtain ⟨hj1, hj2⟩ := List.getElem?_eq_some_iff.1 hj
  rw [List.getElem_range] at hj2
  subst hj2
  unfold linearCopy
  split
  · rename_i h0
    subst h0
    refine ⟨rfl, fun u => ?_⟩
    cases hs : f.sample u with
    | error e => rfl
    | ok o =>
      cases o with
      | none => rfl
      | some p =>
        have := hw u p hs
        simp only [Except.map, Option.map_some, Nat.cast_zero, zero_mul, add_zero]
        rw [← this]
  · refine ⟨(C117_translate f _ hf 0).1, fun u => ?_⟩
    rw [(C117_translate f _ hf u).2]
    congr 2
    funext p
    simp only [add, scale3, pt]
    congr 1 <;> ring

/-- A number of copies below 1 is a `ValueError`. -/
theorem C281_none (f : Fig) (count : ℤ) (spacing : List ℝ) (h : count ≤ 0) : linearPattern f count spacing = .error .valueError := by
  unfold linearPattern; rw [if_pos (by omega)]

/-- Each copy is the one before, moved by the spacing. -/
theorem C281_next (f : Fig) (n : ℕ) (d : List ℝ) (δ : V4) (hd : spacingOf d = .ok δ) (gs : List Fig) (h : linearPattern f n d = .ok gs)
    (i : ℕ) (g g' : Fig) (hg : gs[i]? = some g) (hg' : gs[i + 1]? = some g') : g' = g.translate δ := by
  unfold linearPattern at h
  split at h
  · cases h
  rw [hd] at h
  simp only [Except.ok.injEq] at h
  subst h
  simp only [List.getElem?_map, Option.map_eq_some_iff] at hg hg'
  obtain ⟨j, hj, rfl⟩ := hg
  obtain ⟨j', hj', rfl⟩ := hg'
  obtain ⟨hj1, hj2⟩ := List.getElem?_eq_some_iff.1 hj
  obtain ⟨hj3, hj4⟩ := List.getElem?_eq_some_iff.1 hj'
  rw [List.getElem_range] at hj2 hj4
  subst hj2; subst hj4
  unfold linearCopy
  rw [if_neg (Nat.succ_ne_zero _)]
  have hw : δ.w = 1 := by
    unfold spacingOf at hd
    split at hd <;> cases hd <;> rfl
  split
  · rename_i h0; subst h0
    congr 1
    unfold scale3
    ext <;> simp [hw]
  · rw [C117_compose]
    congr 1
    unfold add scale3
    ext <;> simp <;> ring

/-! ## radial patterns -/

theorem radialLoop_spec {f : Fig} {c a : V4} {s : ℝ} {G : ℕ → Fig} : ∀ (l : List ℕ), (∀ i ∈ l, radialCopy f c a s i = .ok (G i)) → radialLoop f c a s l = .ok (l.map G)
  | [], _ => rfl
  | i :: l, h => by
    rw [radialLoop, h i (by simp)]
    dsimp only
    rw [radialLoop_spec l fun j hj => h j (by simp [hj])]
    rfl

theorem rotMap_add (c : V4) (a b : ℝ) (p : V4) : rotMap c (pt 0 0 1) a (rotMap c (pt 0 0 1) b p) = rotMap c (pt 0 0 1) (a + b) p := by
  unfold rotMap rotCoord pt
  ext <;> simp [cos_add, sin_add] <;> ring

theorem rotMap_full (c : V4) (a : ℝ) (hc : cos a = 1) (hs : sin a = 0) (p : V4) : rotMap c (pt 0 0 1) a p = p := by
  unfold rotMap rotCoord pt
  ext <;> simp [hc, hs]

theorem map_id' {α β} (x : Except α (Option β)) (T : β → β) (hT : ∀ p, T p = p) : x.map (Option.map T) = x := by
  rw [show T = id from funext hT]
  cases x with
  | error e => rfl
  | ok o => cases o <;> rfl

/-- what a copy is, whether it was rotated or taken as it is -/
theorem copy_spec (f : Fig) (c : V4) (hf : f.Wf) (hw : f.AllPts W1) (ha : f.AllArcs Proper1) (hc : GoodCentre c) (s : ℝ) (i : ℕ) (hi : i = 0 ∨ eps ≤ |i * s|) :
    ∃ g, radialCopy f c (pt 0 0 1) s i = .ok g ∧ g.length = f.length ∧
      ∀ u, g.sample u = (f.sample u).map (Option.map (rotMap c (pt 0 0 1) (deg (i * s)))) := by
  unfold radialCopy
  split
  · rename_i h
    rcases hi with rfl | hi
    · refine ⟨f, rfl, rfl, fun u => (map_id' _ _ fun p => rotMap_full c _ ?_ ?_ p).symm⟩ <;> simp [deg]
    · exact absurd h (not_lt.2 hi)
  · rename_i h
    have hu : UnitV (pt 0 0 1) := by unfold UnitV pt; norm_num
    obtain ⟨M, hM, hm⟩ := rotateMat_ok (pt 0 0 1) c hu hc (i * s)
    have hfun : mulP M = rotMap c (pt 0 0 1) (deg (i * s)) := funext hm
    have hok := allArcs_mono (rotArc_ok c M (i * s) hm) f ha
    have hr := rotMap_rigid c (pt 0 0 1) (deg (i * s)) hu
    refine ⟨f.mapPts (mulP M) (rotArc M (i * s)), ?_, ?_, fun u => ?_⟩
    · unfold Fig.rotate
      rw [if_neg (by unfold close; rw [sub_zero]; exact h), hM]
      exact rotateWith_map M _ f ha
    · rw [hfun]
      exact length_map _ _ hr f hf hw hok
    · rw [hfun]
      exact sample_map _ _ hr f hf hw hok u

theorem pattern_spec (f : Fig) (c : V4) (hf : f.Wf) (hw : f.AllPts W1) (ha : f.AllArcs Proper1) (hc : GoodCentre c) (n : ℕ) (hn : 1 ≤ n) (angle : ℝ)
    (hs : 1 < n → eps ≤ |angleStep n angle|) :
    ∃ gs, radialPattern f n c (pt 0 0 1) angle = .ok gs ∧ gs.length = n ∧ ∀ (i : ℕ) (g : Fig), gs[i]? = some g →
      g.length = f.length ∧ ∀ u, g.sample u = (f.sample u).map (Option.map (rotMap c (pt 0 0 1) (deg (i * angleStep n angle)))) := by
  unfold radialPattern
  rw [if_neg (by omega)]
  split
  · rename_i h1
    have : n = 1 := by omega
    subst this
    refine ⟨_, rfl, rfl, fun i g hg => ?_⟩
    cases i with
    | succ i => simp at hg
    | zero =>
      simp only [List.getElem?_cons_zero, Option.some.injEq] at hg
      subst hg
      refine ⟨rfl, fun u => (map_id' _ _ fun p => rotMap_full c _ ?_ ?_ p).symm⟩ <;> simp [deg]
  · rename_i h1
    have hi : ∀ i : ℕ, i = 0 ∨ eps ≤ |i * angleStep n angle| := by
      intro i
      rcases Nat.eq_zero_or_pos i with h | h
      · exact .inl h
      · right
        have h2 := hs (by omega)
        have : (1 : ℝ) ≤ i := by exact_mod_cast h
        rw [abs_mul, Nat.abs_cast]
        nlinarith [abs_nonneg (angleStep n angle)]
    choose G g1 g2 g3 using fun i => copy_spec f c hf hw ha hc (angleStep n angle) i (hi i)
    refine ⟨_, radialLoop_spec _ fun i _ => g1 i, by simp, fun i g hg => ?_⟩
    simp only [Int.toNat_natCast, List.getElem?_map, Option.map_eq_some_iff] at hg
    obtain ⟨j, hj, rfl⟩ := hg
    obtain ⟨hj1, hj2⟩ := List.getElem?_eq_some_iff.1 hj
    rw [List.getElem_range] at hj2
    subst hj2
    exact ⟨g2 i, g3 i⟩

/-- `radial_pattern` over a part of the circle: `count` copies of the same length, copy number `i` of `count` turned about the centre by `i / (count - 1)` of the angle: the first is in place,
the last is turned by the whole angle. -/
theorem C282_part_partial (f : Fig) (c : V4) (hf : f.Wf) (hw : f.AllPts W1) (ha : f.AllArcs Proper1) (hc : GoodCentre c) (n : ℕ) (hn : 2 ≤ n) (angle : ℝ)
    (h : eps ≤ |angle - 360|) (hs : eps * (n - 1) ≤ |angle|) :
    ∃ gs, radialPattern f n c (pt 0 0 1) angle = .ok gs ∧ gs.length = n ∧ ∀ (i : ℕ) (g : Fig), gs[i]? = some g → ∃ T : V4 → V4,
      (∀ p, p.w = 1 → Turned c (pt 0 0 1) (deg (i / (n - 1) * angle)) p (T p)) ∧ g.length = f.length ∧ ∀ u, g.sample u = (f.sample u).map (Option.map T) := by
  have hst : angleStep n angle = angle / (n - 1) := by
    unfold angleStep
    rw [if_neg (not_lt.2 h), Int.cast_natCast]
  have hn1 : (0 : ℝ) < n - 1 := by
    have : (2 : ℝ) ≤ n := by exact_mod_cast hn
    linarith
  obtain ⟨gs, h1, h2, h3⟩ := pattern_spec f c hf hw ha hc n (by omega) angle (fun _ => by
    rw [hst, abs_div, abs_of_pos hn1, le_div_iff₀ hn1]; exact hs)
  refine ⟨gs, h1, h2, fun i g hg => ⟨_, fun p hp => ?_, h3 i g hg⟩⟩
  rw [hst, show (i : ℝ) / (n - 1) * angle = i * (angle / (n - 1)) by ring]
  exact rotMap_turned c _ _ p hp (by unfold UnitV pt; norm_num)

theorem sample_w {c : V4} {r : ℝ} {p : V4} : (rotMap c (pt 0 0 1) r p).w = p.w := rfl

/-- `radial_pattern` around the circle: `count` copies of the same length, copy number `i` turned by `i / count` of the circle; a turn by one step takes each copy to the next and the last
to the first. -/
theorem C282_circle (f : Fig) (c : V4) (hf : f.Wf) (hw : f.AllPts W1) (ha : f.AllArcs Proper1) (hc : GoodCentre c) (n : ℕ) (hn : 1 ≤ n) (hs : eps * n ≤ 360)
    (hw' : ∀ u p, f.sample u = .ok (some p) → p.w = 1) :
    ∃ gs, radialPattern f n c = .ok gs ∧ gs.length = n ∧ (∀ (i : ℕ) (g : Fig), gs[i]? = some g → ∃ T : V4 → V4,
      (∀ p, p.w = 1 → Turned c (pt 0 0 1) (deg (i / n * 360)) p (T p)) ∧ g.length = f.length ∧ ∀ u, g.sample u = (f.sample u).map (Option.map T)) ∧
      ∀ (i : ℕ) (g g' : Fig), gs[i]? = some g → gs[(i + 1) % n]? = some g' → ∀ u p q, g.sample u = .ok (some p) → g'.sample u = .ok (some q) →
        Turned c (pt 0 0 1) (deg (360 / n)) p q := by
  have hn0 : (0 : ℝ) < n := by exact_mod_cast hn
  have hst : angleStep n 360 = 360 / n := by
    unfold angleStep
    rw [if_pos (by simp [eps_pos]), Int.cast_natCast]
  have hu : UnitV (pt 0 0 1) := by unfold UnitV pt; norm_num
  obtain ⟨gs, h1, h2, h3⟩ := pattern_spec f c hf hw ha hc n hn 360 (fun _ => by
    rw [hst, abs_of_pos (by positivity), le_div_iff₀ hn0]; exact hs)
  refine ⟨gs, h1, h2, fun i g hg => ⟨_, fun p hp => ?_, h3 i g hg⟩, ?_⟩
  · rw [hst, show (i : ℝ) / n * 360 = i * (360 / n) by ring]
    exact rotMap_turned c _ _ p hp hu
  · intro i g g' hg hg' u p q hp hq
    rw [(h3 i g hg).2 u] at hp
    rw [(h3 _ g' hg').2 u] at hq
    have hi : i < n := by rw [← h2]; exact (List.getElem?_eq_some_iff.1 hg).1
    cases hsm : f.sample u with
    | error e => rw [hsm] at hp; cases hp
    | ok o =>
      cases o with
      | none => rw [hsm] at hp; simp [Except.map] at hp
      | some r =>
        rw [hsm] at hp hq
        simp only [Except.map, Option.map_some, Except.ok.injEq, Option.some.injEq] at hp hq
        have hr := hw' u r hsm
        have hq' : q = rotMap c (pt 0 0 1) (deg (360 / n)) p := by
          rw [← hp, rotMap_add, ← hq, hst]
          rcases Nat.lt_or_ge (i + 1) n with hlt | hge
          · rw [Nat.mod_eq_of_lt hlt]
            congr 1
            unfold deg
            push_cast
            ring
          · have : i + 1 = n := by omega
            rw [this, Nat.mod_self]
            have e : deg (360 / n) + deg (i * (360 / n)) = 2 * π := by
              unfold deg
              have : (i : ℝ) = n - 1 := by rw [← this]; push_cast; ring
              rw [this]
              field_simp
              ring
            rw [e, rotMap_full c _ (by simp [deg]) (by simp [deg]), rotMap_full c _ (cos_two_pi) (sin_two_pi)]
        rw [hq']
        exact rotMap_turned c _ _ p (by rw [← hp]; exact hr) hu

/-- **C282 fails** for a full circle given as −360°: the copies are spread so that the last one lies on the first. -/
theorem C282_minus_circle (f : Fig) (c : V4) (hf : f.Wf) (hw : f.AllPts W1) (ha : f.AllArcs Proper1) (hc : GoodCentre c) (n : ℕ) (hn : 2 ≤ n) (hs : eps * (n - 1) ≤ 360) :
    ∃ gs g, radialPattern f n c (pt 0 0 1) (-360) = .ok gs ∧ gs.length = n ∧ gs[n - 1]? = some g ∧ ∀ u, g.sample u = f.sample u := by
  have hn1 : (0 : ℝ) < n - 1 := by
    have : (2 : ℝ) ≤ n := by exact_mod_cast hn
    linarith
  have hst : angleStep n (-360) = -360 / (n - 1) := by
    unfold angleStep
    rw [if_neg (by unfold eps; norm_num), Int.cast_natCast]
  obtain ⟨gs, h1, h2, h3⟩ := pattern_spec f c hf hw ha hc n (by omega) (-360) (fun _ => by
    rw [hst, abs_div, abs_of_pos hn1, le_div_iff₀ hn1]; norm_num; linarith)
  have hl : n - 1 < gs.length := by omega
  refine ⟨gs, gs[n - 1], h1, h2, List.getElem?_eq_getElem hl, fun u => ?_⟩
  rw [(h3 _ _ (List.getElem?_eq_getElem hl)).2 u, hst]
  have e : deg (((n - 1 : ℕ) : ℝ) * (-360 / (n - 1))) = -(2 * π) := by
    unfold deg
    rw [Nat.cast_sub (by omega)]
    push_cast
    field_simp
  exact map_id' _ _ fun p => rotMap_full c _ (by rw [e]; simp) (by rw [e]; simp) p

/-- Copies of a circle (a bolt hole) are circles of the same radius, the centre of number `i` turned by `i / count` of the circle. -/
theorem C282_holes (a : Arc) (c : V4) (ha : iscircle a) (hw : a.c.w = 1) (hc : GoodCentre c) (n : ℕ) (hn : 1 ≤ n) (hs : eps * n ≤ 360) :
    ∃ gs, radialPattern (.arc a) n c = .ok gs ∧ gs.length = n ∧ ∀ (i : ℕ) (g : Fig), gs[i]? = some g →
      ∃ q, g = .arc { a with c := q } ∧ Turned c (pt 0 0 1) (deg (i / n * 360)) a.c q := by
  have hn0 : (0 : ℝ) < n := by exact_mod_cast hn
  have hu : UnitV (pt 0 0 1) := by unfold UnitV pt; norm_num
  have hid : Turned c (pt 0 0 1) 0 a.c a.c := by
    unfold Turned
    simp [Geom.sub]
  unfold radialPattern
  rw [if_neg (by omega)]
  split
  · have : n = 1 := by omega
    subst this
    refine ⟨_, rfl, rfl, fun i g hg => ?_⟩
    cases i with
    | succ i => simp at hg
    | zero =>
      simp only [List.getElem?_cons_zero, Option.some.injEq] at hg
      subst hg
      exact ⟨a.c, rfl, by simpa [deg] using hid⟩
  · have hst : angleStep n 360 = 360 / n := by
      unfold angleStep
      rw [if_pos (by simp [eps_pos]), Int.cast_natCast]
    have key : ∀ i : ℕ, ∃ q, radialCopy (.arc a) c (pt 0 0 1) (angleStep n 360) i = .ok (.arc { a with c := q }) ∧ Turned c (pt 0 0 1) (deg (i / n * 360)) a.c q := by
      intro i
      unfold radialCopy
      rw [hst]
      split
      · rename_i h
        rcases Nat.eq_zero_or_pos i with rfl | hi
        · exact ⟨a.c, rfl, by simpa [deg] using hid⟩
        · exfalso
          have : (1 : ℝ) ≤ i := by exact_mod_cast hi
          rw [abs_of_nonneg (by positivity)] at h
          have h2 : eps ≤ 360 / n := by rw [le_div_iff₀ hn0]; exact hs
          have h3 : (0 : ℝ) ≤ 360 / n := by positivity
          nlinarith
      · rename_i h
        obtain ⟨M, hM, hm⟩ := rotateMat_ok (pt 0 0 1) c hu hc (i * (360 / n))
        refine ⟨mulP M a.c, ?_, ?_⟩
        · unfold Fig.rotate
          rw [if_neg (by unfold close; rw [sub_zero]; exact h), hM]
          simp only [Fig.rotateWith]
          rw [if_neg (not_not.mpr (vclose_self ⟨rfl, rfl, rfl⟩)), if_pos ha]
        · rw [hm, show (i : ℝ) / n * 360 = i * (360 / n) by ring]
          exact rotMap_turned c _ _ _ hw hu
    choose Q q1 q2 using key
    refine ⟨_, radialLoop_spec _ fun i _ => q1 i, by simp, fun i g hg => ?_⟩
    simp only [Int.toNat_natCast, List.getElem?_map, Option.map_eq_some_iff] at hg
    obtain ⟨j, hj, rfl⟩ := hg
    obtain ⟨hj1, hj2⟩ := List.getElem?_eq_some_iff.1 hj
    rw [List.getElem_range] at hj2
    subst hj2
    exact ⟨_, rfl, q2 _⟩

/-- `count` below 1 raises, `count` 1 gives the figure itself -/
theorem C282_cases (f : Fig) (c a : V4) (angle : ℝ) (n : ℤ) :
    (n < 1 → radialPattern f n c a angle = .error .valueError) ∧ radialPattern f 1 c a angle = .ok [f] := by
  refine ⟨fun h => by unfold radialPattern; rw [if_pos h], ?_⟩
  unfold radialPattern
  rw [if_neg (by norm_num), if_pos rfl]

/-- a bolt hole around (1,2) meets the hypotheses, with six copies around the circle and with three over 90° -/
example : (Fig.arc ⟨pt 10 0, 5 / 2, 0, 359, false, none⟩).Wf ∧ (Fig.arc ⟨pt 10 0, 5 / 2, 0, 359, false, none⟩).AllPts W1 ∧
    (Fig.arc ⟨pt 10 0, 5 / 2, 0, 359, false, none⟩).AllArcs Proper1 ∧ eps * ((6 : ℕ) : ℝ) ≤ 360 ∧ eps ≤ |(90 : ℝ) - 360| ∧ eps * (((3 : ℕ) : ℝ) - 1) ≤ |(90 : ℝ)| := by
  refine ⟨?_, ?_, ?_, ?_, ?_, ?_⟩
  · simp [Fig.Wf, ispoint, pt, isarc]; norm_num
  · simp [Fig.AllPts]
  · simp [Fig.AllArcs, Proper1, Proper, pt]; norm_num
  all_goals unfold eps; norm_num

end Verif.Loops
