import Verif.Segment.Props

/-!
# C193 (solids), C196 (connector types), C198 (connectors listed)
-/

namespace Verif.Segment
open Verif.Path (Seg Vec pathLength extract evaluate cutPlane parameterToLength lengthToParameter len)

variable {σ : Type}

/-- cutting `s` at the places `l`, one after the other, leaves the pieces `out` and the remainder -/
inductive Cuts (w : World σ) (spine : List Seg) : σ → List ℝ → List σ → Prop
  | done (s : σ) : Cuts w spine s [] [s]
  | cut {s a b : σ} {t : ℝ} {l : List ℝ} {out : List σ} {pt n : Vec} (hp : evaluate spine t = .ok (pt, n)) (hs : w.split s pt n = .ok (a, b))
      (h : Cuts w spine b l out) : Cuts w spine s (t :: l) (a :: out)

theorem modifyFirst_solid (id : String) (f : Segment σ → Segment σ) (hf : ∀ s, (f s).solid = s.solid) (l : List (Segment σ)) :
    (modifyFirst id f l).map (·.solid) = l.map (·.solid) := by
  induction l with
  | nil => rfl
  | cons a l ih =>
    unfold modifyFirst
    split
    · simp [hf]
    · simp [ih]

theorem ofPath_ok {α : Type} {x : Except Verif.Path.Err α} {a : α} (h : ofPath x = .ok a) : x = .ok a := by
  rcases x with e | b
  · cases e <;> cases h
  · unfold ofPath at h; injection h with h; rw [h]

/-- one cut without connectors -/
theorem step_plain {w : World σ} {e : String} {spine : List Seg} {u : Bool} {st st' : St σ} {ic : ℕ × CutPoint}
    (hs : step w e spine none u st ic = .ok st') :
    (st' = { st with warnings := st.warnings ++ [.cut ic.1 ic.2.parameter] }) ∨
    ∃ pt n a b, evaluate spine ic.2.parameter = .ok (pt, n) ∧ w.split st.rest pt n = .ok (a, b) ∧ st'.rest = b ∧
      st'.segs.map (·.solid) = st.segs.map (·.solid) ++ [a] ∧ st'.warnings = st.warnings := by
  obtain ⟨i, c⟩ := ic
  unfold step at hs
  dsimp only at hs
  rcases hp : ofPath (cutPlane spine c.parameter) with er | ⟨pt, nm⟩
  · rw [hp] at hs; cases hs
  rw [hp] at hs
  dsimp only at hs
  rcases hsp : w.split st.rest pt nm with er | ⟨a, b⟩
  · rw [hsp] at hs
    cases er <;> dsimp only at hs <;> first | cases hs; done | skip
    injection hs with hs
    exact .inl hs.symm
  · rw [hsp] at hs
    dsimp only [joint] at hs
    injection hs with hs
    subst hs
    refine .inr ⟨pt, nm, a, b, ofPath_ok hp, hsp, rfl, ?_, rfl⟩
    rw [List.map_append]
    congr 1
    cases st.prev with
    | none => rfl
    | some p => exact modifyFirst_solid p (fun s => { s with mates := s.mates ++ [segId e i], kind := if (if st.next = true then Kind.male else Kind.none) = .male ∧ s.kind = .none then .female else s.kind }) (fun _ => rfl) st.segs

theorem run_plain {w : World σ} {e : String} {spine : List Seg} {u : Bool} (l : List (ℕ × CutPoint)) {st st' : St σ}
    (hn : (l.map (·.1)).Nodup) (hf : ∀ ic ∈ l, failed st.warnings ic.1 = false) (hs : run w e spine none u st l = .ok st') :
    (∀ i, i ∉ l.map (·.1) → failed st'.warnings i = failed st.warnings i) ∧ ∃ out,
      st'.segs.map (·.solid) = st.segs.map (·.solid) ++ out ∧
      Cuts w spine st.rest ((l.filter fun ic => !failed st'.warnings ic.1).map fun ic => ic.2.parameter) (out ++ [st'.rest]) := by
  induction l generalizing st with
  | nil => injection hs with hs; subst hs; exact ⟨fun _ _ => rfl, [], by simp, .done _⟩
  | cons ic l ih =>
    unfold run at hs
    rcases hst : step w e spine none u st ic with er | st1
    · rw [hst] at hs; cases hs
    rw [hst] at hs
    dsimp only at hs
    rw [List.map_cons, List.nodup_cons] at hn
    rcases step_plain hst with rfl | ⟨pt, n, a, b, h1, h2, rfl, h4, h5⟩
    · have hk : ∀ i, i ≠ ic.1 → failed (st.warnings ++ [.cut ic.1 ic.2.parameter]) i = failed st.warnings i := by
        intro i hi; rw [failed_append]; simp [failed, hi]
      have hf' : ∀ x ∈ l, failed (st.warnings ++ [.cut ic.1 ic.2.parameter]) x.1 = false := by
        intro x hx
        rw [hk x.1 (fun he => hn.1 (he ▸ List.mem_map_of_mem hx))]
        exact hf x (List.mem_cons_of_mem _ hx)
      obtain ⟨r1, out, r2, r3⟩ := ih hn.2 hf' hs
      refine ⟨fun i hi => ?_, out, r2, ?_⟩
      · rw [List.map_cons, List.mem_cons, not_or] at hi
        rw [r1 i hi.2]; exact hk i hi.1
      · have : failed st'.warnings ic.1 = true := by rw [r1 ic.1 hn.1, failed_append]; simp [failed]
        rw [List.filter_cons_of_neg (by simp [this])]
        exact r3
    · have hf' : ∀ x ∈ l, failed st1.warnings x.1 = false := by
        intro x hx; rw [h5]; exact hf x (List.mem_cons_of_mem _ hx)
      obtain ⟨r1, out, r2, r3⟩ := ih hn.2 hf' hs
      refine ⟨fun i hi => ?_, a :: out, ?_, ?_⟩
      · rw [List.map_cons, List.mem_cons, not_or] at hi
        rw [r1 i hi.2, h5]
      · rw [r2, h4, List.append_assoc]; rfl
      · have : failed st'.warnings ic.1 = false := by rw [r1 ic.1 hn.1, h5, hf ic (by simp)]
        rw [List.filter_cons_of_pos (by simp [this])]
        exact .cut h1 h2 r3

/-- **C193.** Without connectors, the solids of the segments are what remains of the solid after it is cut at the plane through each
cut's point of the spine, perpendicular to the spine, one cut after the other. -/
theorem C193_solids {w : World σ} {p : Prov σ} {cuts : List CutPoint} {u : Bool} {r : Result σ} (h : segmentSwept w p cuts false u = .ok r) :
    ∃ solid, p.solid = some solid ∧ Cuts w p.spine solid ((made cuts r).map fun ic => ic.2.parameter) (r.segments.map (·.solid)) := by
  obtain ⟨_, _, solid, st, hs, hr, rfl⟩ := segmentSwept_ok h
  have hu : usable p false = none := by
    unfold usable
    rcases p.dims with _ | ⟨a, b⟩ <;> rcases p.wall with _ | t <;> simp
  rw [hu] at hr
  have hnd : ((enumerate (ordered cuts)).map (·.1)).Nodup := by rw [enumerate_fst]; exact List.nodup_range
  obtain ⟨_, out, h2, h3⟩ := run_plain _ hnd (fun _ _ => rfl) hr
  refine ⟨solid, hs, ?_⟩
  have : (finish p.id cuts.length st).segments.map (·.solid) = out ++ [st.rest] := by
    unfold finish
    dsimp only
    rw [List.map_append]
    rw [List.map_nil, List.nil_append] at h2
    rw [← h2]
    congr 1
    cases st.prev with
    | none => rfl
    | some q => exact modifyFirst_solid q (fun s => { s with mates := s.mates ++ [segId p.id cuts.length] }) (fun _ => rfl) st.segs
  rw [this]
  exact h3

/-! ## connector types when nothing fails -/

/-- the type of a segment when it is made: `pb` says that the cut before it has side "b" -/
def own (pb : Bool) (s : String) : Kind :=
  if s = "a" then .male else if s = "b" then (if pb then .male else .female) else if pb then .male else .none

/-- the types of the segments before the last -/
def kindsOf : Bool → List String → List Kind
  | _, [] => []
  | pb, [s] => [own pb s]
  | pb, s :: t :: l => (if own (s = "b") t = .male ∧ own pb s = .none then .female else own pb s) :: kindsOf (s = "b") (t :: l)

/-- the last side is "b" -/
def lastB (pb : Bool) (l : List String) : Bool := (l.getLast?.map fun s => decide (s = "b")).getD pb

theorem lastB_cons (pb : Bool) (s : String) (l : List String) : lastB pb (s :: l) = lastB (s = "b") l := by
  unfold lastB
  rw [List.getLast?_cons]
  cases h : l.getLast? <;> simp

theorem kindsOf_push (pb : Bool) (l : List String) (x : String) : ∃ A, kindsOf pb (l ++ [x]) = A ++ [own (lastB pb l) x] ∧
    ∀ y, kindsOf pb (l ++ [x, y]) = A ++ [if own (x = "b") y = .male ∧ own (lastB pb l) x = .none then .female else own (lastB pb l) x,
      own (x = "b") y] := by
  induction l generalizing pb with
  | nil => exact ⟨[], rfl, fun y => rfl⟩
  | cons s l ih =>
    obtain ⟨A, h, k⟩ := ih (s = "b")
    rw [lastB_cons]
    cases l with
    | nil => exact ⟨[_], rfl, fun y => rfl⟩
    | cons t l =>
      refine ⟨(if own (s = "b") t = .male ∧ own pb s = .none then .female else own pb s) :: A, ?_, fun y => ?_⟩
      · show _ :: kindsOf (s = "b") (t :: l ++ [x]) = _
        rw [h]; rfl
      · show _ :: kindsOf (s = "b") (t :: l ++ [x, y]) = _
        rw [k]; rfl

/-- nothing fails: cuts, unions and the connectors of the cuts -/
structure Works (w : World σ) (spine : List Seg) (W H T : ℝ) (cuts : List CutPoint) : Prop where
  plane : ∀ c ∈ cuts, ∃ x, evaluate spine c.parameter = .ok x
  split : ∀ s pt n, ∃ x, w.split s pt n = .ok x
  union : ∀ s t, ∃ x, w.union s t = some x
  conn : ∀ c ∈ cuts, ∃ x, createInterior w W H spine c.parameter T (some (connectorLength W H)) c.clearance = .ok x
  side : ∀ c ∈ cuts, c.side = "a" ∨ c.side = "b" ∨ c.side = "none"

/-- the connectors kept apart -/
noncomputable def separate (e : String) (W H : ℝ) (cs : List CutPoint) : List Spec :=
  (cs.filter fun c => c.side = "none").map fun c => connectorSpec e c.parameter W H c.clearance

structure Roles (e : String) (W H : ℝ) (d : List (ℕ × CutPoint)) (st : St σ) : Prop where
  inv : Inv e d st
  kinds : st.segs.map (·.kind) = kindsOf false (d.map fun ic => ic.2.side)
  next : st.next = lastB false (d.map fun ic => ic.2.side)
  conns : st.conns = separate e W H (d.map (·.2))

theorem joint_works {w : World σ} {spine : List Seg} {W H T : ℝ} {cuts : List CutPoint} (hw : Works w spine W H T cuts) (e : String) {c : CutPoint}
    (hc : c ∈ cuts) (a b : σ) (pb : Bool) (conns : List Spec) (ws : List Warning) :
    ∃ j, joint w e spine (some (W, H, T)) true c
        { seg := a, rest := b, kind := if pb then .male else .none, tab := pb, next := false, conns := conns, warnings := ws } = .ok j ∧
      j.kind = own pb c.side ∧ j.next = decide (c.side = "b") ∧ j.warnings = ws ∧ j.conns = conns ++ separate e W H [c] := by
  unfold joint separate own
  dsimp only
  obtain ⟨x, hx⟩ := hw.conn c hc
  rcases hw.side c hc with h | h | h
  · rw [if_pos ⟨rfl, by rw [h]; decide⟩, show (connectorSpec e c.parameter W H c.clearance).length = connectorLength W H from rfl, hx]
    dsimp only
    obtain ⟨s, hs⟩ := hw.union a x
    rw [if_pos h, hs]
    exact ⟨_, rfl, by simp [h], by simp [h], rfl, by simp [h]⟩
  · rw [if_pos ⟨rfl, by rw [h]; decide⟩, show (connectorSpec e c.parameter W H c.clearance).length = connectorLength W H from rfl, hx]
    dsimp only
    obtain ⟨s, hs⟩ := hw.union b x
    rw [if_neg (by rw [h]; decide), if_pos h, hs]
    refine ⟨_, rfl, ?_, by simp [h], rfl, by simp [h]⟩
    cases pb <;> simp [h]
  · rw [if_neg (by rw [h]; simp)]
    refine ⟨_, rfl, ?_, by simp [h], rfl, by simp [h]⟩
    simp [h]

/-- the segment before, when there is one -/
theorem segs_last {e : String} {d : List (ℕ × CutPoint)} {ic : ℕ × CutPoint} {st : St σ} (h : Inv e (d ++ [ic]) st) :
    ∃ S s, st.segs = S ++ [s] ∧ st.prev = some (segId e ic.1) ∧ (∀ f, modifyFirst (segId e ic.1) f st.segs = S ++ [f s]) ∧
      st.segs.find? (fun x => x.id = segId e ic.1) = some s := by
  have hp : st.prev = some (segId e ic.1) := by rw [h.prev, List.map_append]; simp
  have hids := h.ids
  rw [List.map_append, List.map_singleton] at hids
  obtain ⟨S, T, hs, hS, hT⟩ := List.map_eq_append_iff.mp hids
  obtain ⟨s, rfl, hsid⟩ := List.map_eq_singleton_iff.mp hT
  have nd := ids_nodup (e := e) h.nodup
  rw [← h.ids, hs, List.map_append, List.nodup_append] at nd
  have hnot : s.id ∉ S.map (·.id) := fun hm => nd.2.2 _ hm _ (by simp) rfl
  refine ⟨S, s, hs, hp, fun f => ?_, ?_⟩
  · rw [← hsid, hs]; exact modifyFirst_last f S s hnot
  · rw [← hsid, hs]; exact find_last S s hnot

theorem step_works {w : World σ} {spine : List Seg} {W H T : ℝ} {cuts : List CutPoint} (hw : Works w spine W H T cuts) {e : String} {st : St σ}
    {ic : ℕ × CutPoint} {d : List (ℕ × CutPoint)} (h : Roles e W H d st) (hws : ∀ i, failed st.warnings i = false) (hi : ic.1 ∉ d.map (·.1)) (hc : ic.2 ∈ cuts) :
    ∃ st', step w e spine (some (W, H, T)) true st ic = .ok st' ∧ (∀ i, failed st'.warnings i = false) ∧ Roles e W H (d ++ [ic]) st' := by
  obtain ⟨x, hx⟩ := hw.plane _ hc
  obtain ⟨pt, n⟩ := x
  obtain ⟨⟨a, b⟩, hsp⟩ := hw.split st.rest pt n
  obtain ⟨j, hj, jk, jn, jw, jc⟩ := joint_works hw e hc a b st.next st.conns st.warnings
  have hx' : ofPath (cutPlane spine ic.2.parameter) = .ok (pt, n) := by
    show ofPath (evaluate spine ic.2.parameter) = _
    rw [hx]; rfl
  have hstep : ∃ st', step w e spine (some (W, H, T)) true st ic = .ok st' := by
    unfold step
    dsimp only
    rw [hx']
    dsimp only
    rw [hsp]
    dsimp only
    rw [hj]
    exact ⟨_, rfl⟩
  obtain ⟨st', hst⟩ := hstep
  obtain ⟨k1, k2⟩ := step_inv h.inv hi hst
  have hst' := hst
  unfold step at hst'
  dsimp only at hst'
  rw [hx'] at hst'
  dsimp only at hst'
  rw [hsp] at hst'
  dsimp only at hst'
  rw [hj] at hst'
  dsimp only at hst'
  injection hst' with hst'
  have hws' : ∀ i, failed st'.warnings i = false := by
    intro i; rw [← hst']; show failed j.warnings i = false; rw [jw]; exact hws i
  refine ⟨st', hst, hws', ?_⟩
  have hinv : Inv e (d ++ [ic]) st' := by
    rcases k2 with ⟨k2, _⟩ | ⟨_, k3⟩
    · rw [hws'] at k2; cases k2
    · exact k3
  refine ⟨hinv, ?_, ?_, ?_⟩
  · rw [← hst']
    dsimp only
    obtain rfl | ⟨d', ic', rfl⟩ := List.eq_nil_or_concat d
    · have hp : st.prev = none := by rw [h.inv.prev]; rfl
      have hs0 : st.segs = [] := by have := h.inv.ids; simpa using this
      have hn : st.next = false := h.next
      rw [hp, hs0]
      simp [jk, hn, kindsOf]
    · rw [List.concat_eq_append] at *
      obtain ⟨S, s, hs, hp, hmod, _⟩ := segs_last h.inv
      rw [hp]
      dsimp only
      rw [hmod]
      have hk := h.kinds
      obtain ⟨A, p1, p2⟩ := kindsOf_push false (d'.map fun ic => ic.2.side) ic'.2.side
      rw [hs, List.map_append, List.map_append, List.map_singleton, List.map_singleton, p1] at hk
      obtain ⟨q1, q2⟩ := List.append_inj' hk rfl
      have q3 : s.kind = own (lastB false (d'.map fun ic => ic.2.side)) ic'.2.side := by simpa using q2
      have hn : st.next = decide (ic'.2.side = "b") := by rw [h.next]; simp [lastB]
      have e1 : (d' ++ [ic'] ++ [ic]).map (fun ic => ic.2.side) = d'.map (fun ic => ic.2.side) ++ [ic'.2.side, ic.2.side] := by simp
      rw [e1, p2, List.map_append, List.map_append, q1]
      simp only [List.map_singleton, jk, hn, q3]
      simp
  · rw [← hst']
    show j.next = _
    rw [jn]
    simp [lastB]
  · rw [← hst']
    show j.conns = _
    rw [jc, h.conns]
    unfold separate
    simp [List.filter_append]

theorem run_works {w : World σ} {spine : List Seg} {W H T : ℝ} {cuts : List CutPoint} (hw : Works w spine W H T cuts) {e : String} (l : List (ℕ × CutPoint))
    {st : St σ} {d : List (ℕ × CutPoint)} (h : Roles e W H d st) (hws : ∀ i, failed st.warnings i = false) (hn : ((d ++ l).map (·.1)).Nodup)
    (hc : ∀ ic ∈ l, ic.2 ∈ cuts) :
    ∃ st', run w e spine (some (W, H, T)) true st l = .ok st' ∧ (∀ i, failed st'.warnings i = false) ∧ Roles e W H (d ++ l) st' := by
  induction l generalizing st d with
  | nil => exact ⟨st, rfl, hws, by simpa using h⟩
  | cons ic l ih =>
    have hn' := hn
    rw [List.map_append, List.map_cons, List.nodup_append] at hn
    obtain ⟨st1, h1, h2, h3⟩ := step_works hw h hws (fun hm => hn.2.2 _ hm _ (by simp) rfl) (hc ic (by simp))
    obtain ⟨st', r1, r2, r3⟩ := ih h3 h2 (by simpa using hn') (fun x hx => hc x (List.mem_cons_of_mem _ hx))
    refine ⟨st', ?_, r2, by simpa using r3⟩
    unfold run
    rw [h1]
    exact r1

/-- The types and the separate connectors when nothing fails: `s` are the sides of the cuts in order. -/
theorem kinds_works {w : World σ} {p : Prov σ} {W H T : ℝ} {cuts : List CutPoint} {solid : σ} (hw : Works w p.spine W H T cuts) (hp : usable p true = some (W, H, T))
    (hs : p.solid = some solid) (hne : cuts ≠ []) (he : ∀ c ∈ cuts, c.element = p.id) :
    ∃ r, segmentSwept w p cuts true true = .ok r ∧ (∀ i, failed r.warnings i = false) ∧
      r.segments.map (·.kind) = kindsOf false ((ordered cuts).map (·.side)) ++
        [if (ordered cuts).getLast?.map (·.side) = some "b" then .male
         else if (kindsOf false ((ordered cuts).map (·.side))).getLast? = some .male then .female else .none] ∧
      r.connectors = separate p.id W H (ordered cuts) := by
  have h0 : Roles p.id W H [] ({ segs := [], conns := [], graph := [], warnings := [], rest := solid, prev := none, start := 0, next := false } : St σ) :=
    ⟨init_inv _ _, rfl, rfl, rfl⟩
  have hnd : ((enumerate (ordered cuts)).map (·.1)).Nodup := by rw [enumerate_fst]; exact List.nodup_range
  have hmem : ∀ ic ∈ enumerate (ordered cuts), ic.2 ∈ cuts := by
    intro ic hic
    have : ic.2 ∈ (enumerate (ordered cuts)).map (·.2) := List.mem_map_of_mem hic
    rw [enumerate_snd] at this
    exact (ordered_perm cuts).mem_iff.mp this
  obtain ⟨st, r1, r2, r3⟩ := run_works hw _ h0 (fun _ => rfl) (by simpa using hnd) hmem
  rw [List.nil_append] at r3
  have hsides : (enumerate (ordered cuts)).map (fun ic => ic.2.side) = (ordered cuts).map (·.side) := by
    conv_rhs => rw [← enumerate_snd (ordered cuts)]
    rw [List.map_map]; rfl
  refine ⟨finish p.id cuts.length st, ?_, r2, ?_, ?_⟩
  · unfold segmentSwept
    rw [if_neg hne, if_neg (by
      simp only [List.any_eq_true, not_exists, not_and]
      intro c hc
      have := he c ((ordered_perm cuts).mem_iff.mp hc)
      simp [this])]
    rw [hs]
    dsimp only
    rw [hp, r1]
  · unfold finish
    dsimp only
    have hon : ordered cuts ≠ [] := by
      intro h; exact hne (List.length_eq_zero_iff.mp (by rw [← (ordered_perm cuts).length_eq, h]; rfl))
    have hen : enumerate (ordered cuts) ≠ [] := by
      intro h; apply hon; rw [← enumerate_snd (ordered cuts), h]; rfl
    obtain ⟨d', ic, hd⟩ := (List.eq_nil_or_concat (enumerate (ordered cuts))).resolve_left hen
    rw [List.concat_eq_append] at hd
    have hinv := r3.inv
    rw [hd] at hinv
    obtain ⟨S, s, hseg, hprev, hmod, hfind⟩ := segs_last hinv
    have hk := r3.kinds
    rw [hsides] at hk
    have hlast : (kindsOf false ((ordered cuts).map (·.side))).getLast? = some s.kind := by rw [← hk, hseg]; simp
    have hnext : (ordered cuts).getLast?.map (·.side) = some "b" ↔ st.next = true := by
      rw [r3.next, hsides]
      unfold lastB
      rw [List.getLast?_map]
      cases (ordered cuts).getLast? <;> simp
    rw [hprev]
    dsimp only
    rw [hmod, List.map_append, Option.bind_some, hfind]
    dsimp only
    have hk' : List.map (fun x : Segment σ => x.kind) (S ++ [{ s with mates := s.mates ++ [segId p.id cuts.length] }]) = kindsOf false ((ordered cuts).map (·.side)) := by
      rw [← hk, hseg]; simp
    rw [hk', hlast]
    congr 1
    rw [List.map_singleton]
    congr 1
    by_cases hb : st.next = true
    · rw [if_pos hb, if_pos (hnext.mpr hb)]
    · rw [if_neg hb, if_neg (fun h => hb (hnext.mp h))]
      simp only [Option.some.injEq]
  · show st.conns = _
    rw [r3.conns, enumerate_snd]

theorem kindsOf_male (pb : Bool) (l : List String) (k : ℕ) (s : String) (hs : l[k]? = some s) :
    (kindsOf pb l)[k]? = some .male ↔ s = "a" ∨ (if k = 0 then pb = true else l[k - 1]? = some "b") := by
  have own_male : ∀ (q : Bool) (x : String), own q x = .male ↔ x = "a" ∨ q = true := by
    intro q x
    unfold own
    by_cases h1 : x = "a"
    · simp [h1]
    · rw [if_neg h1]
      by_cases h2 : x = "b" <;> cases q <;> simp [h1, h2]
  induction l generalizing pb k with
  | nil => simp at hs
  | cons a l ih =>
    cases l with
    | nil =>
      cases k with
      | zero => simp at hs; subst hs; simp [kindsOf, own_male]
      | succ k => simp at hs
    | cons b l =>
      cases k with
      | zero =>
        simp at hs; subst hs
        simp only [kindsOf, List.getElem?_cons_zero, if_pos, Option.some.injEq]
        rw [← own_male]
        split
        · rename_i h; rw [h.2]; simp
        · rfl
      | succ k =>
        have := ih (a = "b") k (by simpa using hs)
        simp only [kindsOf, List.getElem?_cons_succ]
        refine this.trans ?_
        cases k with
        | zero => simp
        | succ k => simp

/-- the side of the cut at the end of segment `k` -/
noncomputable def sideAt (cuts : List CutPoint) (k : ℕ) : Option String := (ordered cuts)[k]?.map (·.side)

theorem kindsOf_length (pb : Bool) (l : List String) : (kindsOf pb l).length = l.length := by
  induction l generalizing pb with
  | nil => rfl
  | cons a l ih => cases l with
    | nil => rfl
    | cons b l => simp [kindsOf, ih]

/-- **C196, the part that holds.** When nothing fails, a segment is "male" exactly if the cut at its end gives its connector to the
lower side or the cut at its beginning gives it to the upper side. -/
theorem C196_male_partial {w : World σ} {p : Prov σ} {W H T : ℝ} {cuts : List CutPoint} {solid : σ} (hw : Works w p.spine W H T cuts)
    (hp : usable p true = some (W, H, T)) (hs : p.solid = some solid) (hne : cuts ≠ []) (he : ∀ c ∈ cuts, c.element = p.id) :
    ∃ r, segmentSwept w p cuts true true = .ok r ∧ r.segments.length = cuts.length + 1 ∧
      ∀ (k : ℕ) (s : Segment σ), r.segments[k]? = some s →
        (s.kind = .male ↔ sideAt cuts k = some "a" ∨ (0 < k ∧ sideAt cuts (k - 1) = some "b")) := by
  obtain ⟨r, h1, h2, h3, _⟩ := kinds_works hw hp hs hne he
  have hlen : (kindsOf false ((ordered cuts).map (·.side))).length = cuts.length := by
    rw [kindsOf_length, List.length_map, (ordered_perm cuts).length_eq]
  have hrl : r.segments.length = cuts.length + 1 := by
    have := congrArg List.length h3
    simpa [hlen] using this
  refine ⟨r, h1, hrl, fun k s hk => ?_⟩
  have hk' : (r.segments.map (·.kind))[k]? = some s.kind := by rw [List.getElem?_map, hk]; rfl
  rw [h3] at hk'
  have hlt : k < cuts.length + 1 := by rw [← hrl]; exact (List.getElem?_eq_some_iff.mp hk).1
  by_cases hkc : k < cuts.length
  · rw [List.getElem?_append_left (by rw [hlen]; exact hkc)] at hk'
    have hol : k < ((ordered cuts).map (·.side)).length := by rw [List.length_map, (ordered_perm cuts).length_eq]; exact hkc
    have := kindsOf_male false _ k _ (List.getElem?_eq_getElem hol)
    rw [hk', Option.some.injEq] at this
    refine this.trans ?_
    unfold sideAt
    rw [← List.getElem?_map, ← List.getElem?_map, List.getElem?_eq_getElem hol]
    cases k with
    | zero => simp
    | succ k => simp
  · have hkk : k = cuts.length := by omega
    rw [List.getElem?_append_right (by rw [hlen]; omega), hlen, hkk, Nat.sub_self, List.getElem?_cons_zero, Option.some.injEq] at hk'
    have hpos : 0 < cuts.length := List.length_pos_iff.mpr hne
    have hlast : sideAt cuts (k - 1) = (ordered cuts).getLast?.map (·.side) := by
      unfold sideAt
      rw [List.getLast?_eq_getElem?, (ordered_perm cuts).length_eq, hkk]
    have hnone : sideAt cuts k = none := by
      unfold sideAt
      rw [List.getElem?_eq_none (by rw [(ordered_perm cuts).length_eq, hkk])]; rfl
    rw [hnone, hlast]
    constructor
    · intro hm
      rw [hm] at hk'
      split at hk'
      · exact .inr ⟨by omega, by assumption⟩
      · split at hk' <;> cases hk'
    · rintro (h | ⟨_, h⟩)
      · cases h
      · rw [if_pos h] at hk'; exact hk'.symm

/-- With one cut the types are right: the side that gets the connector is "male" and the other "female"; both are "none" when the
connector is separate. -/
theorem C196_single {w : World σ} {p : Prov σ} {W H T : ℝ} {c : CutPoint} {solid : σ} (hw : Works w p.spine W H T [c])
    (hp : usable p true = some (W, H, T)) (hs : p.solid = some solid) (he : c.element = p.id) :
    ∃ r, segmentSwept w p [c] true true = .ok r ∧
      (c.side = "a" → r.segments.map (·.kind) = [.male, .female] ∧ r.connectors = []) ∧
      (c.side = "b" → r.segments.map (·.kind) = [.female, .male] ∧ r.connectors = []) ∧
      (c.side = "none" → r.segments.map (·.kind) = [.none, .none] ∧ r.connectors.map (·.center) = [c.parameter]) := by
  obtain ⟨r, h1, _, h3, h4⟩ := kinds_works hw hp hs (by simp) (by simpa using he)
  have ho : ordered [c] = [c] := List.perm_singleton.mp (ordered_perm [c])
  rw [ho] at h3 h4
  refine ⟨r, h1, fun h => ?_, fun h => ?_, fun h => ?_⟩
  · rw [h3, h4]; simp [kindsOf, own, h, separate]
  · rw [h3, h4]; simp [kindsOf, own, h, separate]
  · rw [h3, h4]; simp [kindsOf, own, h, separate, connectorSpec]

/-- **C198.** When nothing fails, the connectors listed are those of the cuts with side "none", in order: one for each, at its place. -/
theorem C198_separate {w : World σ} {p : Prov σ} {W H T : ℝ} {cuts : List CutPoint} {solid : σ} (hw : Works w p.spine W H T cuts)
    (hp : usable p true = some (W, H, T)) (hs : p.solid = some solid) (hne : cuts ≠ []) (he : ∀ c ∈ cuts, c.element = p.id) :
    ∃ r, segmentSwept w p cuts true true = .ok r ∧
      r.connectors.map (fun s => (s.center, s.clearance)) = ((ordered cuts).filter fun c => c.side = "none").map fun c => (c.parameter, c.clearance) := by
  obtain ⟨r, h1, _, _, h4⟩ := kinds_works hw hp hs hne he
  refine ⟨r, h1, ?_⟩
  rw [h4]
  unfold separate
  rw [List.map_map]
  rfl

/-! ## the length given with a cut is not used -/

theorem joint_length (w : World σ) (e : String) (spine : List Seg) (dims : Option (ℝ × ℝ × ℝ)) (u : Bool) (c c' : CutPoint) (j : Joint σ)
    (h1 : c.parameter = c'.parameter) (h2 : c.clearance = c'.clearance) (h3 : c.side = c'.side) :
    joint w e spine dims u c j = joint w e spine dims u c' j := by
  unfold joint
  rw [h1, h2, h3]

theorem run_length (w : World σ) (e : String) (spine : List Seg) (dims : Option (ℝ × ℝ × ℝ)) (u : Bool) (f : CutPoint → Option ℝ) (l : List (ℕ × CutPoint))
    (st : St σ) : run w e spine dims u st (l.map fun ic => (ic.1, { ic.2 with length := f ic.2 })) = run w e spine dims u st l := by
  induction l generalizing st with
  | nil => rfl
  | cons ic l ih =>
    have hstep : step w e spine dims u st (ic.1, { ic.2 with length := f ic.2 }) = step w e spine dims u st ic := by
      unfold step
      dsimp only
      rfl
    rw [List.map_cons]
    unfold run
    rw [hstep]
    cases step w e spine dims u st ic with
    | error e => rfl
    | ok st' => exact ih st'

theorem ordered_map (f : CutPoint → Option ℝ) (cuts : List CutPoint) :
    ordered (cuts.map fun c => { c with length := f c }) = (ordered cuts).map fun c => { c with length := f c } := by
  unfold ordered
  exact (List.map_mergeSort (r := fun a b : CutPoint => @decide (a.parameter ≤ b.parameter) (Classical.propDecidable _))
    (s := fun a b : CutPoint => @decide (a.parameter ≤ b.parameter) (Classical.propDecidable _))
    (f := fun c : CutPoint => { c with length := f c }) (l := cuts) (fun _ _ _ _ => rfl)).symm

/-- **C202 fails.** `CutPoint.connector_length` is documented as an override of the computed length; the result is the same whatever
it is. -/
theorem C202_length_ignored (w : World σ) (p : Prov σ) (cuts : List CutPoint) (b u : Bool) (f : CutPoint → Option ℝ) :
    segmentSwept w p (cuts.map fun c => { c with length := f c }) b u = segmentSwept w p cuts b u := by
  unfold segmentSwept
  rw [ordered_map, List.length_map]
  have h1 : (cuts.map (fun c => { c with length := f c }) = []) ↔ cuts = [] := List.map_eq_nil_iff
  have h2 : ((ordered cuts).map fun c : CutPoint => { c with length := f c }).any (fun c => decide (c.element ≠ p.id)) =
      (ordered cuts).any (fun c => decide (c.element ≠ p.id)) := by rw [List.any_map]; rfl
  have h3 : enumerate ((ordered cuts).map fun c : CutPoint => { c with length := f c }) =
      (enumerate (ordered cuts)).map fun ic => (ic.1, { ic.2 with length := f ic.2 }) := by
    unfold enumerate
    rw [List.length_map, List.zip_map_right]
    rfl
  rw [h2, h3]
  simp only [h1, run_length]

end Verif.Segment
