import Verif.Collision.Spec

namespace Verif.Collision
open Verif.Dict
variable {α : Type}

/-- The index `d` by key `key` agrees with the contents `l`. -/
def Idx {κ : Type} [DecidableEq κ] (key : Iface α → κ) (d : List (κ × List String)) (l : List (Iface α)) :
    Prop :=
  (keys d).Nodup ∧ ∀ k, dget d k =
    if ∃ i ∈ l, key i = k then some ((l.filter fun i => key i = k).map (·.name)) else none

structure Rel (r : Registry α) (l : List (Iface α)) : Prop where
  ifaces : r.ifaces = l.map fun i => (i.name, i)
  names : (l.map (·.name)).Nodup
  part : Idx Iface.part r.byPart l
  kind : Idx Iface.kind r.byType l

theorem dget_ifaces (l : List (Iface α)) (n : String) :
    dget (l.map fun i => (i.name, i)) n = l.find? fun i => i.name = n := by
  induction l with
  | nil => rfl
  | cons i l ih =>
    simp only [List.map_cons, dget, List.find?_cons, ih]
    by_cases h : i.name = n <;> simp [h]

theorem filter_ne_nil_iff {κ : Type} [DecidableEq κ] (key : Iface α → κ) (l : List (Iface α)) (k : κ) :
    ((l.filter fun i => key i = k).map (·.name)) ≠ [] ↔ ∃ i ∈ l, key i = k := by
  simp only [ne_eq, List.map_eq_nil_iff, List.filter_eq_nil_iff, decide_eq_true_eq]
  push Not
  rfl

theorem idx_getD {κ : Type} [DecidableEq κ] {key : Iface α → κ} {d : List (κ × List String)}
    {l : List (Iface α)} (h : Idx key d l) (k : κ) :
    (dget d k).getD [] = (l.filter fun i => key i = k).map (·.name) := by
  rw [h.2 k]
  split_ifs with hx
  · rfl
  · by_contra hne
    exact hx ((filter_ne_nil_iff key l k).mp fun e => hne (by rw [e]; rfl))

theorem idx_add {κ : Type} [DecidableEq κ] {key : Iface α → κ} {d : List (κ × List String)}
    {l : List (Iface α)} (h : Idx key d l) (i : Iface α) :
    Idx key (idxAdd d (key i) i.name) (l ++ [i]) := by
  refine ⟨nodup_dset h.1 _ _, fun k => ?_⟩
  unfold idxAdd
  rw [dget_dset, idx_getD h]
  by_cases hk : k = key i
  · subst hk
    rw [if_pos rfl, if_pos ⟨i, by simp, rfl⟩]
    simp [List.filter_append]
  · rw [if_neg hk, h.2 k]
    have h1 : (∃ j ∈ l ++ [i], key j = k) ↔ ∃ j ∈ l, key j = k := by
      constructor
      · rintro ⟨j, hj, e⟩
        rcases List.mem_append.mp hj with hj | hj
        · exact ⟨j, hj, e⟩
        · simp only [List.mem_singleton] at hj
          exact absurd (hj ▸ e).symm hk
      · rintro ⟨j, hj, e⟩
        exact ⟨j, List.mem_append_left _ hj, e⟩
    have h2 : (l ++ [i]).filter (fun j => key j = k) = l.filter fun j => key j = k := by
      simp [List.filter_append, Ne.symm hk]
    rw [h2]
    simp only [h1]

theorem idx_remove {κ : Type} [DecidableEq κ] {key : Iface α → κ} {d : List (κ × List String)}
    {l : List (Iface α)} (h : Idx key d l) (hn : (l.map (·.name)).Nodup) {i : Iface α} (hi : i ∈ l) :
    ∃ d', idxRemove d (key i) i.name = some d' ∧ Idx key d' (l.filter fun j => j.name ≠ i.name) := by
  have hd : dget d (key i) = some ((l.filter fun j => key j = key i).map (·.name)) := by
    rw [h.2, if_pos ⟨i, hi, rfl⟩]
  have hmem : i.name ∈ (l.filter fun j => key j = key i).map (·.name) :=
    List.mem_map.mpr ⟨i, by simp [hi], rfl⟩
  have hnd : ((l.filter fun j => key j = key i).map (·.name)).Nodup :=
    hn.sublist (List.Sublist.map _ List.filter_sublist)
  have her : ((l.filter fun j => key j = key i).map (·.name)).erase i.name =
      ((l.filter fun j => j.name ≠ i.name).filter fun j => key j = key i).map (·.name) := by
    rw [hnd.erase_eq_filter, List.filter_map, List.filter_filter, List.filter_filter]
    congr 1
    apply List.filter_congr
    intro j _
    rw [Bool.eq_iff_iff]
    simp [and_comm]
  have hother : ∀ k, k ≠ key i →
      (l.filter fun j => j.name ≠ i.name).filter (fun j => key j = k) = l.filter fun j => key j = k := by
    intro k hk
    rw [List.filter_filter]
    apply List.filter_congr
    intro j hj
    by_cases hjk : key j = k
    · have : j.name ≠ i.name := by
        intro e
        have := List.inj_on_of_nodup_map hn hj hi e
        subst this
        exact hk hjk.symm
      simp [hjk, this]
    · simp [hjk]
  have hex : ∀ k, k ≠ key i →
      ((∃ j ∈ l.filter fun j => j.name ≠ i.name, key j = k) ↔ ∃ j ∈ l, key j = k) := by
    intro k hk
    rw [← filter_ne_nil_iff, ← filter_ne_nil_iff, hother k hk]
  unfold idxRemove
  simp only [hd, hmem, if_true, her]
  split_ifs with he
  · refine ⟨_, rfl, nodup_ddel h.1 _, fun k => ?_⟩
    rw [dget_ddel]
    by_cases hk : k = key i
    · subst hk
      rw [if_pos rfl, if_neg]
      rw [← filter_ne_nil_iff]
      exact fun hne => hne he
    · rw [if_neg hk, h.2 k]
      simp only [hother k hk, hex k hk]
  · refine ⟨_, rfl, nodup_dset h.1 _ _, fun k => ?_⟩
    rw [dget_dset]
    by_cases hk : k = key i
    · subst hk
      rw [if_pos rfl, if_pos]
      rw [← filter_ne_nil_iff]
      exact he
    · rw [if_neg hk, h.2 k]
      simp only [hother k hk, hex k hk]

theorem rel_empty : Rel (.empty : Registry α) [] :=
  ⟨rfl, by simp, ⟨by simp [Registry.empty, keys], fun k => by simp [Registry.empty, dget]⟩,
    ⟨by simp [Registry.empty, keys], fun k => by simp [Registry.empty, dget]⟩⟩

theorem rel_step {r : Registry α} {l : List (Iface α)} (h : Rel r l) (op : RegOp α) :
    ∃ r', r.step op = some r' ∧ Rel r' (specStep l op) := by
  cases op with
  | clear => exact ⟨_, rfl, rel_empty⟩
  | register i =>
    simp only [Registry.step, Registry.register, specStep]
    have hfind : (dget r.ifaces i.name).isSome = true ↔ ∃ j ∈ l, j.name = i.name := by
      rw [h.ifaces, dget_ifaces, List.find?_isSome]
      simp
    by_cases hd : ∃ j ∈ l, j.name = i.name
    · rw [if_pos (hfind.mpr hd), if_pos hd]
      exact ⟨r, rfl, h⟩
    · rw [if_neg (fun e => hd (hfind.mp e)), if_neg hd]
      refine ⟨_, rfl, ?_, ?_, idx_add h.part i, idx_add h.kind i⟩
      · rw [h.ifaces, dset_absent]
        · simp
        · simp only [keys, List.map_map, List.mem_map, Function.comp_apply]
          exact hd
      · rw [List.map_append]
        refine List.Nodup.append h.names (by simp) ?_
        intro n h1 h2
        simp only [List.map_cons, List.map_nil, List.mem_singleton] at h2
        obtain ⟨j, hj, e⟩ := List.mem_map.mp h1
        exact hd ⟨j, hj, e.trans h2⟩
  | unregister n =>
    simp only [Registry.step, Registry.unregister, specStep]
    rw [h.ifaces, dget_ifaces]
    cases hf : l.find? fun i => i.name = n with
    | none =>
      have : (l.filter fun i => i.name ≠ n) = l := by
        rw [List.filter_eq_self]
        intro i hi
        have := List.find?_eq_none.mp hf i hi
        simpa using this
      rw [this]
      exact ⟨r, rfl, h⟩
    | some i =>
      have hi := List.mem_of_find?_eq_some hf
      have hin : i.name = n := by simpa using List.find?_some hf
      subst hin
      obtain ⟨d1, e1, x1⟩ := idx_remove h.part h.names hi
      obtain ⟨d2, e2, x2⟩ := idx_remove h.kind h.names hi
      simp only [e1, e2]
      refine ⟨_, rfl, ?_, ?_, x1, x2⟩
      · simp only [ddel, List.filter_map]
        rfl
      · exact h.names.sublist (List.Sublist.map _ List.filter_sublist)

theorem rel_run (ops : List (RegOp α)) : ∃ r, runReg ops = some r ∧ Rel r (specRun ops) := by
  have key : ∀ (ops : List (RegOp α)) (r : Registry α) (l : List (Iface α)), Rel r l →
      ∃ r', ops.foldlM (fun r o => r.step o) r = some r' ∧ Rel r' (ops.foldl specStep l) := by
    intro ops
    induction ops with
    | nil => intro r l h; exact ⟨r, rfl, h⟩
    | cons o ops ih =>
      intro r l h
      obtain ⟨r1, e1, h1⟩ := rel_step h o
      obtain ⟨r2, e2, h2⟩ := ih r1 _ h1
      exact ⟨r2, by simp [e1, e2], by simpa using h2⟩
  exact key ops _ _ rel_empty

theorem lookupAll_names {r : Registry α} {l : List (Iface α)} (h : Rel r l) {l' : List (Iface α)}
    (hs : ∀ i ∈ l', i ∈ l) : r.lookupAll (l'.map (·.name)) = some l' := by
  unfold Registry.lookupAll
  induction l' with
  | nil => rfl
  | cons i l' ih =>
    have hi : dget r.ifaces i.name = some i := by
      rw [h.ifaces]
      apply dget_of_mem
      · simpa [keys, Function.comp_def] using h.names
      · exact List.mem_map.mpr ⟨i, hs i (by simp), rfl⟩
    simp only [List.map_cons, List.mapM_cons, hi]
    rw [ih (fun j hj => hs j (List.mem_cons_of_mem _ hj))]
    rfl

theorem forPart_eq {r : Registry α} {l : List (Iface α)} (h : Rel r l) (p : String) :
    r.forPart p = some (l.filter fun i => i.part = p) := by
  unfold Registry.forPart
  rw [idx_getD h.part]
  exact lookupAll_names h (fun i hi => List.mem_of_mem_filter hi)

theorem byKind_eq {r : Registry α} {l : List (Iface α)} (h : Rel r l) (k : IType) :
    r.byKind k = some (l.filter fun i => i.kind = k) := by
  unfold Registry.byKind
  rw [idx_getD h.kind]
  exact lookupAll_names h (fun i hi => List.mem_of_mem_filter hi)

theorem overlapLoop_spec (overlaps compat : Iface α → Iface α → Bool) (ps : List (Iface α × Iface α)) :
    overlapLoop overlaps compat ps =
      ((ps.filter fun ab => overlaps ab.1 ab.2).map fun ab => (ab.1, ab.2, compat ab.1 ab.2),
        ps.any fun ab => overlaps ab.1 ab.2 && compat ab.1 ab.2,
        ps.any fun ab => overlaps ab.1 ab.2 && !compat ab.1 ab.2) := by
  induction ps with
  | nil => rfl
  | cons ab ps ih =>
    obtain ⟨a, b⟩ := ab
    simp only [overlapLoop, ih, List.filter_cons, List.any_cons]
    by_cases h : overlaps a b = true
    · simp [h]
    · simp [h]

/-! ### Pairs -/

variable {G F : Type}

/-- Cached geometries are the provider's. -/
def CacheOK (w : World α G F) (c : List (String × G)) : Prop :=
  ∀ k g, dget c k = some g → w.provider k = some g

theorem cacheOK_nil (w : World α G F) : CacheOK w [] := by
  intro k g h; simp [dget] at h

theorem getGeometry_spec (w : World α G F) {c : List (String × G)} (h : CacheOK w c) (p : String) :
    (getGeometry w c p).1 = w.provider p ∧ CacheOK w (getGeometry w c p).2 := by
  unfold getGeometry
  cases hc : dget c p with
  | some g => exact ⟨(h p g hc).symm, h⟩
  | none =>
    cases hp : w.provider p with
    | none => exact ⟨rfl, h⟩
    | some g =>
      refine ⟨rfl, ?_⟩
      intro k g' hk
      rw [dget_dset] at hk
      split_ifs at hk with hkp
      · simp only [Option.some.injEq] at hk
        rw [hkp, hp, hk]
      · exact h k g' hk

/-- The verdict without any cache. -/
def pureCheck (w : World α G F) (reg : Registry α) (a : String) (ta : F) (b : String) (tb : F) :
    Option Result :=
  match w.provider a, w.provider b with
  | some x, some y =>
    match w.toMatrix ta, w.toMatrix tb with
    | some fa, some fb =>
      match w.kernel x fa y fb with
      | none => some (.error a b)
      | some false => some ⟨a, b, false, false, [], false⟩
      | some true =>
        match reg.checkOverlap w.overlaps w.compat a b with
        | none => none
        | some (false, _) => some ⟨a, b, true, false, [], false⟩
        | some (true, _) =>
          match reg.compatibleNames w.overlaps w.compat a b with
          | none => none
          | some ns => some ⟨a, b, true, true, ns, false⟩
    | _, _ => some (.error a b)
  | _, _ => some (.error a b)

theorem checkCollision_spec (w : World α G F) (reg : Registry α) {c : List (String × G)}
    (h : CacheOK w c) (a : String) (ta : F) (b : String) (tb : F) :
    ∃ c', CacheOK w c' ∧ checkCollision w reg c a ta b tb =
      (pureCheck w reg a ta b tb).map fun r => (r, c') := by
  obtain ⟨e1, h1⟩ := getGeometry_spec w h a
  obtain ⟨e2, h2⟩ := getGeometry_spec w h1 b
  refine ⟨_, h2, ?_⟩
  unfold checkCollision pureCheck
  simp only [e1, e2]
  cases w.provider a with
  | none => cases w.provider b <;> rfl
  | some x =>
    cases w.provider b with
    | none => rfl
    | some y =>
      cases w.toMatrix ta with
      | none => cases w.toMatrix tb <;> rfl
      | some fa =>
        cases w.toMatrix tb with
        | none => rfl
        | some fb =>
          simp only
          cases w.kernel x fa y fb with
          | none => rfl
          | some k =>
            cases k with
            | false => rfl
            | true =>
              simp only
              cases reg.checkOverlap w.overlaps w.compat a b with
              | none => rfl
              | some o =>
                obtain ⟨v, l⟩ := o
                cases v with
                | false => rfl
                | true =>
                  simp only
                  cases reg.compatibleNames w.overlaps w.compat a b <;> rfl

theorem compatibleNames_isSome {r : Registry α} {l : List (Iface α)} (h : Rel r l)
    (overlaps compat : Iface α → Iface α → Bool) (pa pb : String) :
    (∃ v res, r.checkOverlap overlaps compat pa pb = some (v, res)) ∧
    ∃ ns, r.compatibleNames overlaps compat pa pb = some ns := by
  have h1 : ∃ v res, r.checkOverlap overlaps compat pa pb = some (v, res) := by
    unfold Registry.checkOverlap
    simp only [forPart_eq h]
    split_ifs <;> exact ⟨_, _, rfl⟩
  refine ⟨h1, ?_⟩
  obtain ⟨v, res, e⟩ := h1
  unfold Registry.compatibleNames
  simp only [e, forPart_eq h]
  cases v <;> exact ⟨_, rfl⟩

theorem pureCheck_names {w : World α G F} {reg : Registry α} {l : List (Iface α)} (h : Rel reg l)
    (a : String) (ta : F) (b : String) (tb : F) :
    ∃ r, pureCheck w reg a ta b tb = some r ∧ r.partA = a ∧ r.partB = b := by
  obtain ⟨⟨v, res, e⟩, ns, e2⟩ := compatibleNames_isSome h w.overlaps w.compat a b
  unfold pureCheck
  simp only [e, e2]
  repeat' split
  all_goals first
    | exact ⟨_, rfl, rfl, rfl⟩
    | simp_all

/-- The result of each kept pair, in order. -/
theorem checkPairs_spec (w : World α G F) {reg : Registry α} {l : List (Iface α)} (hr : Rel reg l)
    (skip : List (String × String)) (ps : List ((String × F) × (String × F))) :
    ∀ c, CacheOK w c → ∃ rs c', checkPairs w reg skip c ps = some (rs, c') ∧ CacheOK w c' ∧
      rs.map some = (ps.filter fun xy => (xy.1.1, xy.2.1) ∉ skip).map fun xy =>
        pureCheck w reg xy.1.1 xy.1.2 xy.2.1 xy.2.2 := by
  induction ps with
  | nil => intro c hc; exact ⟨[], c, rfl, hc, rfl⟩
  | cons xy ps ih =>
    intro c hc
    obtain ⟨x, y⟩ := xy
    simp only [checkPairs]
    by_cases hs : (x.1, y.1) ∈ skip
    · rw [if_pos hs]
      obtain ⟨rs, c', e, hc', hm⟩ := ih c hc
      exact ⟨rs, c', e, hc', by rw [hm]; simp [hs]⟩
    · rw [if_neg hs]
      obtain ⟨c1, hc1, e1⟩ := checkCollision_spec w reg hc x.1 x.2 y.1 y.2
      obtain ⟨r, er, _, _⟩ := pureCheck_names (w := w) hr x.1 x.2 y.1 y.2
      rw [er] at e1
      obtain ⟨rs, c', e, hc', hm⟩ := ih c1 hc1
      refine ⟨r :: rs, c', ?_, hc', ?_⟩
      · simp only [e1, Option.map_some, e]
      · simp [hs, hm, er]

theorem pairs_mem {l : List (String × F)} (hn : (keys l).Nodup) {x y : String × F}
    (h : (x, y) ∈ pairs l) : x ∈ l ∧ y ∈ l ∧ x.1 ≠ y.1 := by
  induction l with
  | nil => simp [pairs] at h
  | cons z l ih =>
    simp only [keys, List.map_cons, List.nodup_cons] at hn
    simp only [pairs, List.mem_append, List.mem_map] at h
    rcases h with ⟨y', hy', e⟩ | h
    · simp only [Prod.mk.injEq] at e
      obtain ⟨rfl, rfl⟩ := e
      exact ⟨by simp, by simp [hy'], fun e => hn.1 (e ▸ List.mem_map.mpr ⟨_, hy', rfl⟩)⟩
    · obtain ⟨h1, h2, h3⟩ := ih hn.2 h
      exact ⟨by simp [h1], by simp [h2], h3⟩

/-- Every unordered pair of distinct keys is listed exactly once, in one of the two orders. -/
theorem pairs_count {l : List (String × F)} (hn : (keys l).Nodup) {x y : String} (hxy : x ≠ y)
    (hx : x ∈ keys l) (hy : y ∈ keys l) :
    (pairs l).countP (fun ab => (ab.1.1 = x ∧ ab.2.1 = y) ∨ (ab.1.1 = y ∧ ab.2.1 = x)) = 1 := by
  have cnt : ∀ (l : List (String × F)) (y : String), (keys l).Nodup → y ∈ keys l →
      l.countP (fun e => e.1 = y) = 1 := by
    intro l y hn hy
    have : l.countP (fun e => e.1 = y) = (keys l).count y := by
      unfold keys
      rw [List.count, List.countP_map]
      apply List.countP_congr
      intro e _; simp
    rw [this]
    exact List.count_eq_one_of_mem hn hy
  induction l with
  | nil => simp [keys] at hx
  | cons z l ih =>
    simp only [keys, List.map_cons, List.nodup_cons] at hn
    simp only [pairs, List.countP_append, List.countP_map]
    have absent : ∀ u v : String, u ∉ keys l →
        (pairs l).countP (fun ab => (ab.1.1 = u ∧ ab.2.1 = v) ∨ (ab.1.1 = v ∧ ab.2.1 = u)) = 0 := by
      intro u v hu
      rw [List.countP_eq_zero]
      rintro ⟨a, b⟩ hab
      obtain ⟨ha, hb, _⟩ := pairs_mem hn.2 hab
      simp only [decide_eq_true_eq, not_or, not_and]
      exact ⟨fun e => absurd (e ▸ List.mem_map.mpr ⟨a, ha, rfl⟩ : u ∈ keys l) hu,
        fun _ e => absurd (e ▸ List.mem_map.mpr ⟨b, hb, rfl⟩ : u ∈ keys l) hu⟩
    by_cases hzx : z.1 = x
    · subst hzx
      have hyl : y ∈ keys l := by
        simp only [keys, List.map_cons, List.mem_cons] at hy
        exact hy.resolve_left (Ne.symm hxy)
      rw [absent z.1 y hn.1]
      have : l.countP ((fun ab : (String × F) × (String × F) =>
          decide ((ab.1.1 = z.1 ∧ ab.2.1 = y) ∨ (ab.1.1 = y ∧ ab.2.1 = z.1))) ∘ fun y => (z, y)) =
          l.countP (fun e => e.1 = y) := by
        apply List.countP_congr
        intro e _
        simp [hxy]
      rw [this, cnt l y hn.2 hyl]
    · by_cases hzy : z.1 = y
      · subst hzy
        have hxl : x ∈ keys l := by
          simp only [keys, List.map_cons, List.mem_cons] at hx
          exact hx.resolve_left hxy
        have h0 := absent z.1 x hn.1
        have : (pairs l).countP (fun ab => (ab.1.1 = x ∧ ab.2.1 = z.1) ∨ (ab.1.1 = z.1 ∧ ab.2.1 = x)) = 0 := by
          rw [← h0]
          apply List.countP_congr
          intro e _
          simp [or_comm]
        rw [this]
        have : l.countP ((fun ab : (String × F) × (String × F) =>
            decide ((ab.1.1 = x ∧ ab.2.1 = z.1) ∨ (ab.1.1 = z.1 ∧ ab.2.1 = x))) ∘ fun y => (z, y)) =
            l.countP (fun e => e.1 = x) := by
          apply List.countP_congr
          intro e _
          simp [hzx]
        rw [this, cnt l x hn.2 hxl]
      · have hxl : x ∈ keys l := by
          simp only [keys, List.map_cons, List.mem_cons] at hx
          exact hx.resolve_left (Ne.symm hzx)
        have hyl : y ∈ keys l := by
          simp only [keys, List.map_cons, List.mem_cons] at hy
          exact hy.resolve_left (Ne.symm hzy)
        rw [ih hn.2 hxl hyl]
        have : l.countP ((fun ab : (String × F) × (String × F) =>
            decide ((ab.1.1 = x ∧ ab.2.1 = y) ∨ (ab.1.1 = y ∧ ab.2.1 = x))) ∘ fun y => (z, y)) = 0 := by
          rw [List.countP_eq_zero]
          intro e _
          simp [hzx, hzy]
        rw [this]

end Verif.Collision
