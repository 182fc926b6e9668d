import Verif.Segment.Model
import Mathlib.Data.List.Basic
import Mathlib.Data.List.Nodup

/-!
# The loop of the segmentation: invariants
-/

namespace Verif.Segment
open Verif.Path (Seg Vec pathLength extract evaluate cutPlane parameterToLength lengthToParameter len)

variable {σ : Type}

theorem repr_inj {a b : ℕ} (h : toString a = toString b) : a = b := by
  have h' := congrArg String.toList h
  rw [Nat.toString_eq_repr, Nat.toString_eq_repr, Nat.toList_repr, Nat.toList_repr] at h'
  rw [← Nat.ofDigitChars_ten_toDigits (n := a), ← Nat.ofDigitChars_ten_toDigits (n := b), h']

theorem append_inj {a b c : String} (h : a ++ b = a ++ c) : b = c := by
  have := congrArg String.toList h
  rw [String.toList_append, String.toList_append] at this
  exact String.toList_inj.mp (List.append_cancel_left this)

theorem segId_inj {e : String} {i j : ℕ} (h : segId e i = segId e j) : i = j := repr_inj (append_inj h)

/-- what a segment is linked to: its neighbours in the list -/
def nb : Option String → List String → List (List String)
  | _, [] => []
  | p, [_] => [p.toList]
  | p, x :: y :: l => (p.toList ++ [y]) :: nb (some x) (y :: l)

theorem nb_push (p : Option String) (l : List String) (x : String) : ∃ A B, nb p (l ++ [x]) = A ++ [B] ∧ A.length = l.length ∧
    ∀ y, nb p (l ++ [x, y]) = A ++ [B ++ [y], [x]] := by
  induction l generalizing p with
  | nil => exact ⟨[], p.toList, rfl, rfl, fun y => rfl⟩
  | cons a l ih =>
    obtain ⟨A, B, h, n, k⟩ := ih (some a)
    cases l with
    | nil =>
      refine ⟨[p.toList ++ [x]], [a], rfl, rfl, fun y => ?_⟩
      rfl
    | cons b l =>
      refine ⟨(p.toList ++ [b]) :: A, B, ?_, by simp [n], fun y => ?_⟩
      · show (p.toList ++ [b]) :: nb (some a) (b :: l ++ [x]) = _
        rw [h]; rfl
      · show (p.toList ++ [b]) :: nb (some a) (b :: l ++ [x, y]) = _
        rw [k]; rfl

/-- only the neighbour before -/
def back : Option String → List String → List (List String)
  | _, [] => []
  | p, x :: l => p.toList :: back (some x) l

theorem back_push (p : Option String) (l : List String) (x y : String) : back p (l ++ [x, y]) = back p (l ++ [x]) ++ [[x]] := by
  induction l generalizing p with
  | nil => rfl
  | cons a l ih => show _ :: back (some a) (l ++ [x, y]) = _ :: back (some a) (l ++ [x]) ++ _; rw [ih]; rfl

theorem back_length (p : Option String) (l : List String) : (back p l).length = l.length := by
  induction l generalizing p with
  | nil => rfl
  | cons a l ih => simp [back, ih]

theorem nb_length (p : Option String) (l : List String) : (nb p l).length = l.length := by
  induction l generalizing p with
  | nil => rfl
  | cons a l ih =>
    cases l with
    | nil => rfl
    | cons b l => simpa [nb] using ih (some a)

theorem put_new {α : Type} (k : String) (v : α) (l : List (String × α)) (h : k ∉ l.map Prod.fst) : put k v l = l ++ [(k, v)] := by
  induction l with
  | nil => rfl
  | cons a l ih =>
    obtain ⟨k', v'⟩ := a
    simp only [List.map_cons, List.mem_cons, not_or] at h
    unfold put
    rw [if_neg (Ne.symm h.1), ih h.2]
    rfl

theorem modifyFirst_last (f : Segment σ → Segment σ) (l : List (Segment σ)) (s : Segment σ) (h : s.id ∉ l.map (·.id)) :
    modifyFirst s.id f (l ++ [s]) = l ++ [f s] := by
  induction l with
  | nil => simp [modifyFirst]
  | cons a l ih =>
    simp only [List.map_cons, List.mem_cons, not_or] at h
    rw [List.cons_append]
    unfold modifyFirst
    rw [if_neg (Ne.symm h.1), ih h.2]
    rfl

theorem find_last (l : List (Segment σ)) (s : Segment σ) (h : s.id ∉ l.map (·.id)) : (l ++ [s]).find? (fun x => x.id = s.id) = some s := by
  induction l with
  | nil => simp
  | cons a l ih =>
    simp only [List.map_cons, List.mem_cons, not_or] at h
    rw [List.cons_append, List.find?_cons_of_neg (by simpa using Ne.symm h.1), ih h.2]

/-- the ranges between consecutive boundaries -/
def ranges (l : List ℝ) : List (ℝ × ℝ) := l.zip l.tail

theorem ranges_push (a : ℝ) (l : List ℝ) (p : ℝ) : ranges (a :: l ++ [p]) = ranges (a :: l) ++ [(l.getLastD a, p)] := by
  induction l generalizing a with
  | nil => rfl
  | cons b l ih =>
    show (a, b) :: ranges (b :: l ++ [p]) = (a, b) :: ranges (b :: l) ++ _
    rw [ih]
    congr 2
    cases l <;> rfl

/-- the state after the cuts `d` were made -/
structure Inv (e : String) (d : List (ℕ × CutPoint)) (st : St σ) : Prop where
  ids : st.segs.map (·.id) = d.map fun ic => segId e ic.1
  parents : ∀ s ∈ st.segs, s.parent = e
  rng : st.segs.map (·.range) = ranges (0 :: d.map fun ic => ic.2.parameter)
  start : st.start = (d.map fun ic => ic.2.parameter).getLastD 0
  prev : st.prev = (d.map fun ic => segId e ic.1).getLast?
  mates : st.segs.map (·.mates) = nb none (d.map fun ic => segId e ic.1)
  graph : st.graph = (d.map fun ic => segId e ic.1).zip (back none (d.map fun ic => segId e ic.1))
  nodup : (d.map (·.1)).Nodup
  tabs : ∀ s ∈ st.segs, s.tab = true ↔ s.kind = .male

theorem ids_nodup {e : String} {d : List (ℕ × CutPoint)} (h : (d.map (·.1)).Nodup) : (d.map fun ic => segId e ic.1).Nodup := by
  have : (d.map fun ic => segId e ic.1) = (d.map (·.1)).map (segId e) := by rw [List.map_map]; rfl
  rw [this]
  exact h.map fun i j hij => segId_inj hij

/-- a new segment linked to the one before it; `f` is the change to the latter -/
theorem push_links {e : String} {d : List (ℕ × CutPoint)} {st : St σ} (h : Inv e d st) (i : ℕ) (hi : i ∉ d.map (·.1))
    (f : Segment σ → Segment σ) (fi : ∀ s, (f s).id = s.id) (fp : ∀ s, (f s).parent = s.parent) (fr : ∀ s, (f s).range = s.range)
    (fm : ∀ s, (f s).mates = s.mates ++ [segId e i]) (ft : ∀ s, (s.tab = true ↔ s.kind = .male) → ((f s).tab = true ↔ (f s).kind = .male))
    (seg : Segment σ) (si : seg.id = segId e i) (sm : seg.mates = st.prev.toList) :
    let segs := (match st.prev with | none => st.segs | some p => modifyFirst p f st.segs) ++ [seg]
    segs.map (·.id) = (d.map fun ic => segId e ic.1) ++ [segId e i] ∧
    (seg.parent = e → ∀ s ∈ segs, s.parent = e) ∧
    segs.map (·.range) = st.segs.map (·.range) ++ [seg.range] ∧
    segs.map (·.mates) = nb none ((d.map fun ic => segId e ic.1) ++ [segId e i]) ∧
    put (segId e i) seg.mates st.graph =
      ((d.map fun ic => segId e ic.1) ++ [segId e i]).zip (back none ((d.map fun ic => segId e ic.1) ++ [segId e i])) ∧
    ((seg.tab = true ↔ seg.kind = .male) → ∀ s ∈ segs, s.tab = true ↔ s.kind = .male) := by
  have hn : segId e i ∉ d.map fun ic => segId e ic.1 := by
    intro hm
    obtain ⟨ic, hic, he⟩ := List.mem_map.mp hm
    exact hi (List.mem_map.mpr ⟨ic, hic, segId_inj he⟩)
  have hg : put (segId e i) seg.mates st.graph = st.graph ++ [(segId e i, seg.mates)] := by
    refine put_new _ _ _ ?_
    rw [h.graph, List.map_fst_zip (by rw [back_length])]
    exact hn
  obtain rfl | ⟨d', ic, rfl⟩ := List.eq_nil_or_concat d
  · have hp : st.prev = none := by rw [h.prev]; rfl
    have hs : st.segs = [] := by have := h.ids; simpa using this
    have hg' : st.graph = [] := by rw [h.graph]; rfl
    rw [hg, hp, hs, hg', sm, hp]
    refine ⟨by simp [si], ?_, by simp, ?_, by rfl, ?_⟩
    · intro hsp s hs'
      simp only [List.nil_append, List.mem_singleton] at hs'
      rw [hs', hsp]
    · simp [sm, hp, nb]
    · intro ht s hs'
      simp only [List.nil_append, List.mem_singleton] at hs'
      rw [hs']; exact ht
  · rw [List.concat_eq_append] at *
    have hp : st.prev = some (segId e ic.1) := by rw [h.prev, List.map_append]; simp
    have hids := h.ids
    rw [List.map_append, List.map_singleton] at hids
    obtain ⟨S, T, hs, hS, hT⟩ := List.map_eq_append_iff.mp hids
    obtain ⟨s, rfl, hsid⟩ := List.map_eq_singleton_iff.mp hT
    have nd := ids_nodup (e := e) h.nodup
    rw [← h.ids, hs, List.map_append, List.nodup_append] at nd
    have hnot : s.id ∉ S.map (·.id) := fun hm => nd.2.2 _ hm _ (by simp) rfl
    have hmod : modifyFirst (segId e ic.1) f st.segs = S ++ [f s] := by rw [← hsid, hs]; exact modifyFirst_last f S s hnot
    rw [hg, hp]
    dsimp only
    rw [hmod]
    obtain ⟨A, B, hA, hl, hpush⟩ := nb_push none (d'.map fun ic => segId e ic.1) (segId e ic.1)
    have hm := h.mates
    rw [hs, List.map_append, List.map_append, List.map_singleton, List.map_singleton, hA] at hm
    obtain ⟨hm1, hm2⟩ := List.append_inj' hm rfl
    refine ⟨?_, ?_, ?_, ?_, ?_, ?_⟩
    · simp [hS, fi, hsid, si]
    · intro hsp x hx
      rw [List.mem_append, List.mem_append] at hx
      rcases hx with (hx | hx) | hx
      · exact h.parents x (by rw [hs]; exact List.mem_append_left _ hx)
      · rw [List.mem_singleton] at hx
        rw [hx, fp]; exact h.parents s (by rw [hs]; simp)
      · rw [List.mem_singleton] at hx; rw [hx]; exact hsp
    · simp [hs, fr]
    · have e1 : (d' ++ [ic]).map (fun ic => segId e ic.1) ++ [segId e i] = d'.map (fun ic => segId e ic.1) ++ [segId e ic.1, segId e i] := by simp
      rw [e1, hpush, List.map_append, List.map_append, hm1]
      simp only [List.map_singleton, fm, sm, hp]
      rw [show s.mates = B by simpa using hm2]
      simp
    · have e1 : (d' ++ [ic]).map (fun ic => segId e ic.1) ++ [segId e i] = d'.map (fun ic => segId e ic.1) ++ [segId e ic.1, segId e i] := by simp
      rw [h.graph, e1, back_push, sm, hp, show d'.map (fun ic => segId e ic.1) ++ [segId e ic.1, segId e i] =
        (d' ++ [ic]).map (fun ic => segId e ic.1) ++ [segId e i] by simp,
        show d'.map (fun ic => segId e ic.1) ++ [segId e ic.1] = (d' ++ [ic]).map (fun ic => segId e ic.1) by simp,
        List.zip_append (by rw [back_length])]
      rfl
    · intro ht x hx
      rw [List.mem_append, List.mem_append] at hx
      rcases hx with (hx | hx) | hx
      · exact h.tabs x (by rw [hs]; exact List.mem_append_left _ hx)
      · rw [List.mem_singleton] at hx
        rw [hx]; exact ft s (h.tabs s (by rw [hs]; simp))
      · rw [List.mem_singleton] at hx; rw [hx]; exact ht

/-- the cuts that failed are those with a warning -/
def failed (ws : List Warning) (i : ℕ) : Bool := ws.any fun w => match w with | .cut j _ => i == j | .union _ => false

theorem failed_append (a b : List Warning) (i : ℕ) : failed (a ++ b) i = (failed a i || failed b i) := List.any_append

theorem joint_tab (w : World σ) (e : String) (spine : List Seg) (dims : Option (ℝ × ℝ × ℝ)) (u : Bool) (c : CutPoint) {j j' : Joint σ}
    (h : joint w e spine dims u c j = .ok j') (ht : j.tab = true ↔ j.kind = .male) :
    (j'.tab = true ↔ j'.kind = .male) ∧ ∀ i, failed j'.warnings i = failed j.warnings i := by
  unfold joint at h
  rcases dims with _ | ⟨W, H, T⟩
  · injection h with h; subst h; exact ⟨ht, fun _ => rfl⟩
  dsimp only at h
  split at h
  · rcases hc : createInterior w W H spine c.parameter T _ c.clearance with er | conn
    · rw [hc] at h; cases h
    rw [hc] at h
    dsimp only at h
    split at h
    · rcases hu : w.union j.seg conn with _ | s <;> rw [hu] at h <;> dsimp only at h <;> (injection h with h; subst h)
      · exact ⟨ht, fun i => by simp [failed_append, failed]⟩
      · exact ⟨by simp, fun _ => rfl⟩
    split at h
    · rcases hu : w.union j.rest conn with _ | s <;> rw [hu] at h <;> dsimp only at h <;> (injection h with h; subst h)
      · exact ⟨ht, fun i => by simp [failed_append, failed]⟩
      · refine ⟨?_, fun _ => rfl⟩
        show j.tab = true ↔ (if j.kind = .none then Kind.female else j.kind) = .male
        rw [ht]
        split
        · rename_i hk; rw [hk]; simp
        · rfl
    · injection h with h; subst h; exact ⟨ht, fun _ => rfl⟩
  · injection h with h; subst h; exact ⟨ht, fun _ => rfl⟩

theorem step_inv {w : World σ} {e : String} {spine : List Seg} {dims : Option (ℝ × ℝ × ℝ)} {u : Bool} {st st' : St σ} {ic : ℕ × CutPoint}
    {d : List (ℕ × CutPoint)} (h : Inv e d st) (hi : ic.1 ∉ d.map (·.1)) (hs : step w e spine dims u st ic = .ok st') :
    (∀ i, i ≠ ic.1 → failed st'.warnings i = failed st.warnings i) ∧
    ((failed st'.warnings ic.1 = true ∧ Inv e d st') ∨ (failed st'.warnings ic.1 = failed st.warnings ic.1 ∧ Inv e (d ++ [ic]) st')) := by
  obtain ⟨i, c⟩ := ic
  unfold step at hs
  dsimp only at hs
  rcases hp : ofPath (cutPlane spine c.parameter) with er | ⟨pt, nm⟩
  · rw [hp] at hs; cases hs
  rw [hp] at hs
  dsimp only at hs
  rcases hsp : w.split st.rest pt nm with er | ⟨a, b⟩
  · rw [hsp] at hs
    cases er <;> dsimp only at hs <;> first | cases hs; done | skip
    injection hs with hs
    subst hs
    refine ⟨fun k hk => ?_, .inl ⟨?_, ⟨h.ids, h.parents, h.rng, h.start, h.prev, h.mates, h.graph, h.nodup, h.tabs⟩⟩⟩
    · rw [failed_append]; simp [failed, hk]
    · rw [failed_append]; simp [failed]
  · rw [hsp] at hs
    dsimp only at hs
    rcases hj : joint w e spine dims u c { seg := a, rest := b, kind := if st.next then .male else .none, tab := st.next, next := false, conns := st.conns, warnings := st.warnings } with er | j
    · rw [hj] at hs; cases hs
    rw [hj] at hs
    dsimp only at hs
    injection hs with hs
    obtain ⟨jt, jw⟩ := joint_tab w e spine dims u c hj (by cases st.next <;> simp)
    have hl := push_links h i hi
      (fun s => { s with mates := s.mates ++ [segId e i], kind := if j.kind = .male ∧ s.kind = .none then .female else s.kind })
      (fun _ => rfl) (fun _ => rfl) (fun _ => rfl) (fun _ => rfl) (by
        intro s hst
        show s.tab = true ↔ (if j.kind = .male ∧ s.kind = .none then Kind.female else s.kind) = .male
        rw [hst]
        split
        · rename_i hk; rw [hk.2]; simp
        · rfl)
      { id := segId e i, solid := j.seg, parent := e, range := (st.start, c.parameter), tab := j.tab, kind := j.kind, mates := st.prev.toList } rfl rfl
    dsimp only at hl
    obtain ⟨l1, l2, l3, l4, l5, l6⟩ := hl
    subst hs
    refine ⟨fun k _ => jw k, .inr ⟨jw i, ⟨?_, l2 rfl, ?_, ?_, ?_, ?_, ?_, ?_, l6 jt⟩⟩⟩
    · refine l1.trans ?_; rw [List.map_append]; rfl
    · refine l3.trans ?_
      rw [h.rng, h.start, List.map_append, List.map_singleton, ← List.cons_append, ranges_push]
    · simp
    · simp
    · refine l4.trans ?_; rw [List.map_append]; rfl
    · refine l5.trans ?_; rw [List.map_append]; rfl
    · rw [List.map_append, List.map_singleton, List.nodup_append]
      exact ⟨h.nodup, by simp, fun x hx y hy hxy => by rw [List.mem_singleton] at hy; subst hy; subst hxy; exact hi hx⟩

theorem run_inv {w : World σ} {e : String} {spine : List Seg} {dims : Option (ℝ × ℝ × ℝ)} {u : Bool} (l : List (ℕ × CutPoint)) {st st' : St σ}
    {d : List (ℕ × CutPoint)} (h : Inv e d st) (hn : ((d ++ l).map (·.1)).Nodup) (hf : ∀ ic ∈ l, failed st.warnings ic.1 = false)
    (hs : run w e spine dims u st l = .ok st') :
    (∀ i, i ∉ l.map (·.1) → failed st'.warnings i = failed st.warnings i) ∧ Inv e (d ++ l.filter fun ic => !failed st'.warnings ic.1) st' := by
  induction l generalizing st d with
  | nil => injection hs with hs; subst hs; exact ⟨fun _ _ => rfl, by simpa using h⟩
  | cons ic l ih =>
    unfold run at hs
    rcases hst : step w e spine dims u st ic with er | st1
    · rw [hst] at hs; cases hs
    rw [hst] at hs
    dsimp only at hs
    rw [List.map_append, List.map_cons, List.nodup_append] at hn
    obtain ⟨n1, n2, n3⟩ := hn
    rw [List.nodup_cons] at n2
    have hic : ic.1 ∉ d.map (·.1) := fun hm => n3 _ hm _ (by simp) rfl
    obtain ⟨k1, k2⟩ := step_inv h hic hst
    have hf' : ∀ x ∈ l, failed st1.warnings x.1 = false := by
      intro x hx
      rw [k1 x.1 (fun he => n2.1 (he ▸ List.mem_map_of_mem hx))]
      exact hf x (List.mem_cons_of_mem _ hx)
    rcases k2 with ⟨k2, k3⟩ | ⟨k2, k3⟩
    · obtain ⟨r1, r2⟩ := ih k3 (by
        rw [List.map_append, List.nodup_append]
        exact ⟨n1, n2.2, fun a ha b hb => n3 a ha b (List.mem_cons_of_mem _ hb)⟩) hf' hs
      refine ⟨fun i hi => ?_, ?_⟩
      · rw [List.map_cons, List.mem_cons, not_or] at hi
        rw [r1 i hi.2, k1 i hi.1]
      · have : failed st'.warnings ic.1 = true := by rw [r1 ic.1 n2.1, k2]
        rw [List.filter_cons_of_neg (by simp [this])]
        exact r2
    · obtain ⟨r1, r2⟩ := ih k3 (by
        rw [List.append_assoc, List.singleton_append, List.map_append, List.map_cons, List.nodup_append]
        exact ⟨n1, List.nodup_cons.mpr n2, n3⟩) hf' hs
      refine ⟨fun i hi => ?_, ?_⟩
      · rw [List.map_cons, List.mem_cons, not_or] at hi
        rw [r1 i hi.2, k1 i hi.1]
      · have : failed st'.warnings ic.1 = false := by rw [r1 ic.1 n2.1, k2, hf ic (by simp)]
        rw [List.filter_cons_of_pos (by simp [this])]
        rw [List.append_assoc, List.singleton_append] at r2
        exact r2

end Verif.Segment
