import Verif.Segment.Core

/-!
# C193-C196: what `segment_swept_element` returns
-/

namespace Verif.Segment
open Verif.Path (Seg Vec pathLength extract evaluate cutPlane parameterToLength lengthToParameter len)

variable {σ : Type}

theorem enumerate_fst {α : Type} (l : List α) : (enumerate l).map (·.1) = List.range l.length := by
  unfold enumerate
  rw [show (List.map (fun x : ℕ × α => x.1)) = List.map Prod.fst from rfl, List.map_fst_zip (by simp)]

theorem enumerate_snd {α : Type} (l : List α) : (enumerate l).map (·.2) = l := by
  unfold enumerate
  rw [show (List.map (fun x : ℕ × α => x.2)) = List.map Prod.snd from rfl, List.map_snd_zip (by simp)]

theorem ordered_perm (cuts : List CutPoint) : (ordered cuts).Perm cuts := List.mergeSort_perm _ _

theorem ordered_sorted (cuts : List CutPoint) : (ordered cuts).Pairwise fun a b => a.parameter ≤ b.parameter := by
  have := List.pairwise_mergeSort (le := fun a b : CutPoint => @decide (a.parameter ≤ b.parameter) (Classical.propDecidable _))
    (by intro a b c h1 h2; simp only [decide_eq_true_eq] at *; exact le_trans h1 h2)
    (by intro a b; simp only [Bool.or_eq_true, decide_eq_true_eq]; exact le_total _ _) cuts
  exact this.imp fun h => by simpa using h

/-- the cuts that were made, in order: those for which there is no failure warning -/
noncomputable def made (cuts : List CutPoint) (r : Result σ) : List (ℕ × CutPoint) :=
  (enumerate (ordered cuts)).filter fun ic => !failed r.warnings ic.1

/-- a successful call: the state at the end of the loop -/
theorem segmentSwept_ok {w : World σ} {p : Prov σ} {cuts : List CutPoint} {b u : Bool} {r : Result σ} (h : segmentSwept w p cuts b u = .ok r) :
    cuts ≠ [] ∧ (∀ c ∈ cuts, c.element = p.id) ∧ ∃ solid st, p.solid = some solid ∧
      run w p.id p.spine (usable p b) u
        { segs := [], conns := [], graph := [], warnings := [], rest := solid, prev := none, start := 0, next := false }
        (enumerate (ordered cuts)) = .ok st ∧ r = finish p.id cuts.length st := by
  unfold segmentSwept at h
  split at h
  · cases h
  rename_i hne
  split at h
  · cases h
  rename_i hel
  have hel' : ∀ c ∈ cuts, c.element = p.id := by
    intro c hc
    have : ¬ ((ordered cuts).any fun c => decide (c.element ≠ p.id)) = true := by simpa using hel
    rw [List.any_eq_true] at this
    by_contra hcc
    exact this ⟨c, (ordered_perm cuts).mem_iff.mpr hc, by simpa using hcc⟩
  rcases hs : p.solid with _ | solid
  · rw [hs] at h; cases h
  rw [hs] at h
  dsimp only at h
  rcases hr : run w p.id p.spine (usable p b) u
        { segs := [], conns := [], graph := [], warnings := [], rest := solid, prev := none, start := 0, next := false }
        (enumerate (ordered cuts)) with er | st
  · rw [hr] at h; cases h
  rw [hr] at h
  dsimp only at h
  injection h with h
  exact ⟨hne, hel', solid, st, rfl, hr, h.symm⟩

theorem init_inv (e : String) (solid : σ) :
    Inv e [] ({ segs := [], conns := [], graph := [], warnings := [], rest := solid, prev := none, start := 0, next := false } : St σ) :=
  ⟨rfl, by simp, rfl, rfl, rfl, rfl, rfl, by simp, by simp⟩

/-- the result: ids, parents, ranges, links, graph, tabs -/
theorem result_facts {w : World σ} {p : Prov σ} {cuts : List CutPoint} {b u : Bool} {r : Result σ} (h : segmentSwept w p cuts b u = .ok r) :
    let ids := (made cuts r).map (fun ic => segId p.id ic.1) ++ [segId p.id cuts.length]
    ids.Nodup ∧ r.segments.map (·.id) = ids ∧ (∀ s ∈ r.segments, s.parent = p.id) ∧
    r.segments.map (·.range) = ranges (0 :: (made cuts r).map (fun ic : ℕ × CutPoint => ic.2.parameter) ++ [1]) ∧
    r.segments.map (·.mates) = nb none ids ∧ r.graph = ids.zip (back none ids) ∧
    (∀ s ∈ r.segments, s.tab = true ↔ s.kind = .male) := by
  obtain ⟨_, _, solid, st, _, hr, rfl⟩ := segmentSwept_ok h
  have hnd : ((enumerate (ordered cuts)).map (·.1)).Nodup := by rw [enumerate_fst]; exact List.nodup_range
  obtain ⟨_, hi⟩ := run_inv (enumerate (ordered cuts)) (init_inv p.id solid) (by simpa using hnd) (fun _ _ => rfl) hr
  rw [List.nil_append] at hi
  have hm : made cuts (finish p.id cuts.length st) = (enumerate (ordered cuts)).filter fun ic => !failed st.warnings ic.1 := rfl
  rw [← hm] at hi
  have hlt : ∀ i ∈ (made cuts (finish p.id cuts.length st)).map (·.1), i < cuts.length := by
    intro i hi'
    obtain ⟨ic, hic, rfl⟩ := List.mem_map.mp hi'
    have : ic.1 ∈ (enumerate (ordered cuts)).map (·.1) := List.mem_map_of_mem (List.mem_of_mem_filter hic)
    rw [enumerate_fst, List.mem_range, (ordered_perm cuts).length_eq] at this
    exact this
  have hnot : cuts.length ∉ (made cuts (finish p.id cuts.length st)).map (·.1) := fun hm' => lt_irrefl _ (hlt _ hm')
  have hl := push_links hi cuts.length hnot (fun s => { s with mates := s.mates ++ [segId p.id cuts.length] })
    (fun _ => rfl) (fun _ => rfl) (fun _ => rfl) (fun _ => rfl) (fun _ hs => hs)
    { id := segId p.id cuts.length, solid := st.rest, parent := p.id, range := (st.start, 1), tab := st.next,
      kind := if st.next then Kind.male
        else match (st.prev.bind fun p => st.segs.find? fun s => s.id = p) with
          | some s => if s.kind = .male then .female else .none
          | none => .none, mates := st.prev.toList } rfl rfl
  dsimp only at hl
  obtain ⟨l1, l2, l3, l4, l5, l6⟩ := hl
  dsimp only
  refine ⟨?_, l1, l2 rfl, ?_, l4, l5, ?_⟩
  · rw [List.nodup_append]
    refine ⟨ids_nodup hi.nodup, by simp, ?_⟩
    intro x hx y hy hxy
    rw [List.mem_singleton] at hy
    subst hy; subst hxy
    obtain ⟨ic, hic, he⟩ := List.mem_map.mp hx
    exact hnot (List.mem_map.mpr ⟨ic, hic, segId_inj he⟩)
  · refine l3.trans ?_
    rw [hi.rng, hi.start, ranges_push]
  · refine l6 ?_
    cases st.next
    · simp only [Bool.false_eq_true, if_false, false_iff]
      split
      · split <;> simp
      · simp
    · simp

/-- **C193.** The ranges of the segments follow one another from 0 to 1, and the boundaries between them are the parameters of the
cuts made, in order. -/
theorem C193_partition {w : World σ} {p : Prov σ} {cuts : List CutPoint} {b u : Bool} {r : Result σ} (h : segmentSwept w p cuts b u = .ok r) :
    r.segments.map (·.range) = ranges (0 :: (made cuts r).map (fun ic : ℕ × CutPoint => ic.2.parameter) ++ [1]) ∧ (∀ s ∈ r.segments, s.parent = p.id) ∧
    r.segments.length = (made cuts r).length + 1 := by
  obtain ⟨_, h2, h3, h4, _⟩ := result_facts h
  refine ⟨h4, h3, ?_⟩
  have := congrArg List.length h2
  simpa using this

theorem made_sorted (cuts : List CutPoint) (r : Result σ) : ((made cuts r).map fun ic => ic.2.parameter).Pairwise (· ≤ ·) := by
  have h1 : ((enumerate (ordered cuts)).map (·.2)).Pairwise fun a b => a.parameter ≤ b.parameter := by rw [enumerate_snd]; exact ordered_sorted cuts
  rw [List.pairwise_map] at h1 ⊢
  exact h1.sublist List.filter_sublist

theorem made_mem {cuts : List CutPoint} {r : Result σ} {ic : ℕ × CutPoint} (h : ic ∈ made cuts r) : ic.2 ∈ cuts := by
  have : ic.2 ∈ (enumerate (ordered cuts)).map (·.2) := List.mem_map_of_mem (List.mem_of_mem_filter h)
  rw [enumerate_snd] at this
  exact (ordered_perm cuts).mem_iff.mp this

theorem ranges_le (l : List ℝ) (h : l.Pairwise (· ≤ ·)) : ∀ r ∈ ranges l, r.1 ≤ r.2 ∧ r.1 ∈ l ∧ r.2 ∈ l := by
  induction l with
  | nil => intro r hr; cases hr
  | cons a l ih =>
    cases l with
    | nil => intro r hr; cases hr
    | cons b l =>
      intro r hr
      have hr' : r ∈ (a, b) :: ranges (b :: l) := hr
      rcases List.mem_cons.mp hr' with rfl | hr'
      · exact ⟨List.rel_of_pairwise_cons h (by simp), by simp, by simp⟩
      · obtain ⟨x, y, z⟩ := ih h.of_cons r hr'
        exact ⟨x, List.mem_cons_of_mem _ y, List.mem_cons_of_mem _ z⟩

theorem ranges_lt (l : List ℝ) (h : l.Pairwise (· < ·)) : ∀ r ∈ ranges l, r.1 < r.2 := by
  induction l with
  | nil => intro r hr; cases hr
  | cons a l ih =>
    cases l with
    | nil => intro r hr; cases hr
    | cons b l =>
      intro r hr
      have hr' : r ∈ (a, b) :: ranges (b :: l) := hr
      rcases List.mem_cons.mp hr' with rfl | hr'
      · exact List.rel_of_pairwise_cons h (by simp)
      · exact ih h.of_cons r hr'

theorem bounds_sorted {cuts : List CutPoint} (hv : ∀ c ∈ cuts, 0 < c.parameter ∧ c.parameter < 1) (r : Result σ) :
    ((0 : ℝ) :: List.map (fun ic : ℕ × CutPoint => ic.2.parameter) (made cuts r) ++ [1]).Pairwise (· ≤ ·) := by
  have hb : ∀ x ∈ (made cuts r).map (fun ic => ic.2.parameter), 0 < x ∧ x < 1 := by
    intro x hx
    obtain ⟨ic, hic, rfl⟩ := List.mem_map.mp hx
    exact hv _ (made_mem hic)
  rw [List.cons_append, List.pairwise_cons, List.pairwise_append]
  refine ⟨?_, made_sorted cuts r, by simp, ?_⟩
  · intro x hx
    rcases List.mem_append.mp hx with hx | hx
    · exact (hb x hx).1.le
    · rw [List.mem_singleton] at hx; rw [hx]; exact zero_le_one
  · intro x hx y hy
    rw [List.mem_singleton] at hy
    rw [hy]; exact (hb x hx).2.le

/-- Each range lies in [0, 1] and runs forwards; it is not empty when the cuts are at different places. -/
theorem C193_forward {w : World σ} {p : Prov σ} {cuts : List CutPoint} {b u : Bool} {r : Result σ} (h : segmentSwept w p cuts b u = .ok r)
    (hv : ∀ c ∈ cuts, 0 < c.parameter ∧ c.parameter < 1) : ∀ s ∈ r.segments, 0 ≤ s.range.1 ∧ s.range.1 ≤ s.range.2 ∧ s.range.2 ≤ 1 ∧
      ((cuts.map (·.parameter)).Nodup → s.range.1 < s.range.2) := by
  intro s hs
  have hm : s.range ∈ r.segments.map (·.range) := List.mem_map_of_mem hs
  rw [(C193_partition h).1] at hm
  have hbs := bounds_sorted hv r
  have hr := ranges_le _ hbs _ hm
  have hb : ∀ x ∈ ((0 : ℝ) :: List.map (fun ic : ℕ × CutPoint => ic.2.parameter) (made cuts r) ++ [1]), 0 ≤ x ∧ x ≤ 1 := by
    intro x hx
    rw [List.cons_append, List.mem_cons, List.mem_append, List.mem_singleton] at hx
    rcases hx with rfl | hx | rfl
    · exact ⟨le_rfl, zero_le_one⟩
    · obtain ⟨ic, hic, rfl⟩ := List.mem_map.mp hx
      exact ⟨(hv _ (made_mem hic)).1.le, (hv _ (made_mem hic)).2.le⟩
    · exact ⟨zero_le_one, le_rfl⟩
  refine ⟨(hb _ hr.2.1).1, hr.1, (hb _ hr.2.2).2, fun hnd => ?_⟩
  refine ranges_lt _ ?_ _ hm
  have hms : ((made cuts r).map fun ic => ic.2.parameter).Nodup := by
    have h1 : ((ordered cuts).map (·.parameter)).Nodup := ((ordered_perm cuts).map _).nodup_iff.mpr hnd
    have h2 : ((made cuts r).map fun ic => ic.2.parameter).Sublist ((ordered cuts).map (·.parameter)) := by
      have : ((ordered cuts).map (·.parameter)) = (enumerate (ordered cuts)).map fun ic => ic.2.parameter := by
        conv_lhs => rw [← enumerate_snd (ordered cuts)]
        rw [List.map_map]; rfl
      rw [this]
      exact List.filter_sublist.map _
    exact h1.sublist h2
  have hnd' : ((0 : ℝ) :: List.map (fun ic : ℕ × CutPoint => ic.2.parameter) (made cuts r) ++ [1]).Nodup := by
    rw [List.cons_append, List.nodup_cons, List.nodup_append, List.mem_append, List.mem_singleton]
    refine ⟨?_, hms, by simp, ?_⟩
    · rintro (hx | hx)
      · obtain ⟨ic, hic, he⟩ := List.mem_map.mp hx
        exact (hv _ (made_mem hic)).1.ne' he
      · exact zero_ne_one hx
    · intro x hx y hy hxy
      rw [List.mem_singleton] at hy
      obtain ⟨ic, hic, rfl⟩ := List.mem_map.mp hx
      rw [hy] at hxy
      exact (hv _ (made_mem hic)).2.ne hxy
  exact (hbs.and hnd').imp fun hh => lt_of_le_of_ne hh.1 hh.2

/-- When no cut fails there is one more segment than cuts, and every cut is a boundary. -/
theorem C193_all {w : World σ} {p : Prov σ} {cuts : List CutPoint} {b u : Bool} {r : Result σ} (h : segmentSwept w p cuts b u = .ok r)
    (hf : ∀ i t, Warning.cut i t ∉ r.warnings) : r.segments.length = cuts.length + 1 ∧
      r.segments.map (·.range) = ranges (0 :: (ordered cuts).map (·.parameter) ++ [1]) := by
  have : made cuts r = enumerate (ordered cuts) := by
    refine List.filter_eq_self.mpr fun ic _ => ?_
    have hff : failed r.warnings ic.1 = false := by
      rw [Bool.eq_false_iff]
      intro hh
      obtain ⟨x, hx, hx'⟩ := List.any_eq_true.mp hh
      cases x with
      | cut j t => exact hf j t hx
      | union t => cases hx'
    rw [hff]; rfl
  obtain ⟨h1, _, h3⟩ := C193_partition h
  rw [this] at h1 h3
  refine ⟨?_, ?_⟩
  · rw [h3]
    have := congrArg List.length (enumerate_snd (ordered cuts))
    rw [List.length_map] at this
    rw [this, (ordered_perm cuts).length_eq]
  · rw [h1]
    congr 2
    congr 1
    conv_rhs => rw [← enumerate_snd (ordered cuts)]
    rw [List.map_map]; rfl

/-- The ids differ, and each segment is found by its id. -/
theorem C193_ids {w : World σ} {p : Prov σ} {cuts : List CutPoint} {b u : Bool} {r : Result σ} (h : segmentSwept w p cuts b u = .ok r) :
    (r.segments.map (·.id)).Nodup ∧ ∀ s ∈ r.segments, r.get s.id = some s := by
  obtain ⟨h1, h2, _⟩ := result_facts h
  have hn : (r.segments.map (·.id)).Nodup := by rw [h2]; exact h1
  refine ⟨hn, fun s hs => ?_⟩
  unfold Result.get
  generalize r.segments = l at hn hs
  induction l with
  | nil => cases hs
  | cons a l ih =>
    rw [List.map_cons, List.nodup_cons] at hn
    rcases List.mem_cons.mp hs with rfl | hs
    · rw [List.find?_cons_of_pos (by simp)]
    · rw [List.find?_cons_of_neg (by
        simp only [decide_eq_true_eq]
        intro he
        exact hn.1 (he ▸ List.mem_map_of_mem hs)), ih hn.2 hs]

theorem nb_get (q : Option String) (l : List String) (k : ℕ) (m : List String) (h : (nb q l)[k]? = some m) :
    m = (if k = 0 then q.toList else l[k - 1]?.toList) ++ l[k + 1]?.toList := by
  induction l generalizing q k with
  | nil => simp [nb] at h
  | cons a l ih =>
    cases l with
    | nil =>
      cases k with
      | zero => simp [nb] at h; simp [← h]
      | succ k => simp [nb] at h
    | cons b l =>
      cases k with
      | zero => simp [nb] at h; simp [← h]
      | succ k =>
        have h' : (nb (some a) (b :: l))[k]? = some m := h
        rw [ih _ _ h']
        cases k with
        | zero => simp
        | succ k => simp

/-- **C194.** A segment's mates are the segment before it and the segment after it, and nothing else. -/
theorem C194_neighbours {w : World σ} {p : Prov σ} {cuts : List CutPoint} {b u : Bool} {r : Result σ} (h : segmentSwept w p cuts b u = .ok r)
    {k : ℕ} {s : Segment σ} (hs : r.segments[k]? = some s) :
    s.mates = (if k = 0 then [] else (r.segments[k - 1]?.map (·.id)).toList) ++ (r.segments[k + 1]?.map (·.id)).toList := by
  obtain ⟨_, h2, _, _, h5, _⟩ := result_facts h
  rw [← h2] at h5
  have hk : (nb none (r.segments.map (·.id)))[k]? = some s.mates := by rw [← h5, List.getElem?_map, hs]; rfl
  have := nb_get _ _ _ _ hk
  rw [List.getElem?_map, List.getElem?_map] at this
  exact this

/-- Two segments are mates of one another or neither is of the other. -/
theorem C194_symmetric {w : World σ} {p : Prov σ} {cuts : List CutPoint} {b u : Bool} {r : Result σ} (h : segmentSwept w p cuts b u = .ok r)
    {k k' : ℕ} {s s' : Segment σ} (hs : r.segments[k]? = some s) (hs' : r.segments[k']? = some s') :
    (s'.id ∈ s.mates ↔ k' = k + 1 ∨ k = k' + 1) ∧ (s'.id ∈ s.mates ↔ s.id ∈ s'.mates) := by
  have hn := (C193_ids h).1
  have key : ∀ {k k' : ℕ} {s s' : Segment σ}, r.segments[k]? = some s → r.segments[k']? = some s' → (s'.id ∈ s.mates ↔ k' = k + 1 ∨ k = k' + 1) := by
    intro k k' s s' hs hs'
    have inj : ∀ j t, r.segments[j]? = some t → t.id = s'.id → j = k' := by
      intro j t ht he
      have h1 : (r.segments.map (·.id))[j]? = some t.id := by rw [List.getElem?_map, ht]; rfl
      have h2 : (r.segments.map (·.id))[k']? = some t.id := by rw [List.getElem?_map, hs', he]; rfl
      obtain ⟨l1, e1⟩ := List.getElem?_eq_some_iff.mp h1
      obtain ⟨l2, e2⟩ := List.getElem?_eq_some_iff.mp h2
      exact (List.Nodup.getElem_inj_iff hn).mp (e1.trans e2.symm)
    rw [C194_neighbours h hs, List.mem_append]
    constructor
    · rintro (hm | hm)
      · split at hm
        · cases hm
        rename_i hk
        rw [Option.mem_toList, Option.map_eq_some_iff] at hm
        obtain ⟨t, ht, he⟩ := hm
        have := inj _ _ ht he
        omega
      · rw [Option.mem_toList, Option.map_eq_some_iff] at hm
        obtain ⟨t, ht, he⟩ := hm
        exact .inl (inj _ _ ht he).symm
    · rintro (rfl | rfl)
      · right; rw [hs']; simp
      · left; rw [if_neg (by omega), Nat.add_sub_cancel, hs']; simp
  refine ⟨key hs hs', ?_⟩
  rw [key hs hs', key hs' hs]
  exact or_comm

theorem back_get (q : Option String) (l : List String) (k : ℕ) (hk : k < l.length) :
    (back q l)[k]? = some (if k = 0 then q.toList else l[k - 1]?.toList) := by
  induction l generalizing q k with
  | nil => cases hk
  | cons a l ih =>
    cases k with
    | zero => rfl
    | succ k =>
      show (back (some a) l)[k]? = _
      rw [ih _ _ (by simpa using hk)]
      cases k <;> simp

/-- **C195, the part that holds.** The assembly graph has an entry for every segment, in order, and what it lists are mates: the
segment before. -/
theorem C195_graph_partial {w : World σ} {p : Prov σ} {cuts : List CutPoint} {b u : Bool} {r : Result σ} (h : segmentSwept w p cuts b u = .ok r) :
    r.graph.map Prod.fst = r.segments.map (·.id) ∧ ∀ (k : ℕ) (s : Segment σ), r.segments[k]? = some s → ∃ l, r.graph[k]? = some (s.id, l) ∧
      l = (if k = 0 then [] else (r.segments[k - 1]?.map (·.id)).toList) ∧ l ⊆ s.mates := by
  obtain ⟨_, h2, _, _, _, h6, _⟩ := result_facts h
  rw [← h2] at h6
  refine ⟨?_, fun k s hs => ?_⟩
  · rw [h6, List.map_fst_zip (by rw [back_length])]
  · have hk : k < (r.segments.map (·.id)).length := by
      rw [List.length_map]; exact (List.getElem?_eq_some_iff.mp hs).1
    refine ⟨_, ?_, rfl, ?_⟩
    · rw [h6, List.getElem?_zip_eq_some]
      refine ⟨by rw [List.getElem?_map, hs]; rfl, ?_⟩
      rw [back_get _ _ _ hk, List.getElem?_map]
      rfl
    · rw [C194_neighbours h hs]
      exact List.subset_append_left _ _

/-- **C195, what does not.** The graph never lists the segment that follows, although it is a mate: with at least one cut made the
graph is not symmetric and differs from `mates_with`. -/
theorem C195_no_forward_link {w : World σ} {p : Prov σ} {cuts : List CutPoint} {b u : Bool} {r : Result σ} (h : segmentSwept w p cuts b u = .ok r)
    {k : ℕ} {s t : Segment σ} (hs : r.segments[k]? = some s) (ht : r.segments[k + 1]? = some t) :
    t.id ∈ s.mates ∧ s.id ∈ t.mates ∧ ∃ l m, r.graph[k]? = some (s.id, l) ∧ r.graph[k + 1]? = some (t.id, m) ∧ t.id ∉ l ∧ s.id ∈ m := by
  obtain ⟨_, hg⟩ := C195_graph_partial h
  obtain ⟨l, hl, el, _⟩ := hg k s hs
  obtain ⟨m, hm, em, _⟩ := hg (k + 1) t ht
  refine ⟨((C194_symmetric h hs ht).1).mpr (.inl rfl), ((C194_symmetric h ht hs).1).mpr (.inr rfl), l, m, hl, hm, ?_, ?_⟩
  · rw [el]
    intro hin
    split at hin
    · cases hin
    rename_i hk
    rw [Option.mem_toList, Option.map_eq_some_iff] at hin
    obtain ⟨x, hx, he⟩ := hin
    have hn := (C193_ids h).1
    have h1 : (r.segments.map (·.id))[k - 1]? = some t.id := by rw [List.getElem?_map, hx, ← he]; rfl
    have h2 : (r.segments.map (·.id))[k + 1]? = some t.id := by rw [List.getElem?_map, ht]; rfl
    obtain ⟨l1, e1⟩ := List.getElem?_eq_some_iff.mp h1
    obtain ⟨l2, e2⟩ := List.getElem?_eq_some_iff.mp h2
    have := (List.Nodup.getElem_inj_iff hn).mp (e1.trans e2.symm)
    omega
  · rw [em, if_neg (by omega), Nat.add_sub_cancel, hs]
    simp

/-- A segment has a connector tab exactly if its type is "male". -/
theorem C196_tab {w : World σ} {p : Prov σ} {cuts : List CutPoint} {b u : Bool} {r : Result σ} (h : segmentSwept w p cuts b u = .ok r) :
    ∀ s ∈ r.segments, s.tab = true ↔ s.kind = .male := (result_facts h).2.2.2.2.2.2

/-! ## errors -/

/-- **C197.** No cut, a cut of another element, or no solid: `ValueError`, whatever the kernel does. -/
theorem C197_errors (w : World σ) (p : Prov σ) (cuts : List CutPoint) (b u : Bool) (h : cuts = [] ∨ (∃ c ∈ cuts, c.element ≠ p.id) ∨ p.solid = none) :
    segmentSwept w p cuts b u = .error .valueError := by
  unfold segmentSwept
  split
  · rfl
  split
  · rfl
  rename_i h1 h2
  rcases h with h | ⟨c, hc, hne⟩ | h
  · exact absurd h h1
  · exact absurd (List.any_eq_true.mpr ⟨c, (ordered_perm cuts).mem_iff.mpr hc, by simpa using hne⟩) h2
  · rw [h]

/-- `CutPoint` accepts exactly a parameter strictly between 0 and 1 and one of three sides. -/
theorem C197_cut_point (e : String) (t : ℝ) (l : Option ℝ) (f : ℝ) (s : String) :
    (0 < t ∧ t < 1 ∧ (s = "a" ∨ s = "b" ∨ s = "none") → CutPoint.new e t l f s = .ok ⟨e, t, l, f, s⟩) ∧
    (¬ (0 < t ∧ t < 1 ∧ (s = "a" ∨ s = "b" ∨ s = "none")) → CutPoint.new e t l f s = .error .valueError) := by
  unfold CutPoint.new
  constructor
  · rintro ⟨h0, h1, h2⟩
    rw [if_neg (not_not.mpr ⟨h0, h1⟩), if_neg (not_not.mpr h2)]
  · intro h
    by_cases h1 : 0 < t ∧ t < 1
    · rw [if_neg (not_not.mpr h1), if_pos fun h2 => h ⟨h1.1, h1.2, h2⟩]
    · rw [if_pos h1]

end Verif.Segment
