import Verif.Step.Write
import Verif.Step.Comps
import Mathlib.Data.List.Perm.Basic
import Mathlib.Data.List.Nodup

/-! # The faces, the shells and the end of the file -/

namespace Verif.Step

open Relation

set_option linter.unusedSectionVars false

variable {P D L : Type} [DecidableEq P]

theorem addTris_inv {geo : Geo P D L} {w0 : List (Ent P D L)} {vm : List (Vtx P)} {ps : List P} (h0 : VInv w0 vm ps) : ∀ (tris : List (Tri P D)) {w : List (Ent P D L)} {es : List ((Nat × Nat) × EdgeData)},
    SInv geo w vm es → (∀ t ∈ tris, ∀ p ∈ corners t, p ∈ ps) →
    ∃ v, (addTris geo vm (w, es) tris).1.1 = w ++ v ∧ SInv geo (w ++ v) vm (addTris geo vm (w, es) tris).1.2 ∧
      (addTris geo vm (w, es) tris).2.map (readFace (w ++ v)) = tris.map (fun t => some (faceOf geo t)) ∧
      (∃ c, (addTris geo vm (w, es) tris).1.2 = es ++ c ∧ ∀ e ∈ c, ∃ t ∈ tris, ∃ s ∈ sides vm t, e.1 = edgeKey s.1.id s.2.id) ∧
      (∀ t ∈ tris, ∀ s ∈ sides vm t, edgeKey s.1.id s.2.id ∈ (addTris geo vm (w, es) tris).1.2.map (·.1)) ∧
      ∀ n ∈ (addTris geo vm (w, es) tris).2, Has (w ++ v) n .face
  | [], w, es, h, _ => ⟨[], by simp [addTris], by simpa [addTris] using h, by simp [addTris], ⟨[], by simp [addTris], by simp⟩, by simp, by simp [addTris]⟩
  | t :: ts, w, es, h, hs => by
    obtain ⟨v, h1, h2, h3, ⟨c, h4, h4'⟩, h5, h6⟩ := addTri_inv h0 h (hs t (by simp))
    rw [addTris]
    generalize hr : addTri geo vm (w, es) t = r at *
    obtain ⟨⟨rw', rs⟩, rn⟩ := r
    dsimp only at h1 h2 h3 h4 h5 h6 ⊢
    subst h1
    obtain ⟨v', k1, k2, k3, ⟨c', k4, k4'⟩, k5, k6⟩ := addTris_inv h0 ts h2 fun u hu => hs u (by simp [hu])
    refine ⟨v ++ v', by rw [k1, List.append_assoc], by rw [← List.append_assoc]; exact k2, ?_, ⟨c ++ c', by rw [k4, h4, List.append_assoc], ?_⟩, ?_, ?_⟩
    · rw [List.map_cons, List.map_cons, ← List.append_assoc, k3, readFace_left h3]
    · intro e he
      rw [List.mem_append] at he
      rcases he with he | he
      · exact ⟨t, by simp, h4' e he⟩
      · obtain ⟨u, hu, e'⟩ := k4' e he
        exact ⟨u, by simp [hu], e'⟩
    · intro u hu s hs'
      rcases List.mem_cons.1 hu with rfl | hu
      · rw [k4, List.map_append, List.mem_append]
        exact .inl (h5 s hs')
      · exact k5 u hu s hs'
    · intro n hn
      rw [← List.append_assoc]
      rcases List.mem_cons.1 hn with rfl | hn
      · exact h6.left
      · exact k6 n hn

/-- the part written for a component -/
def partOf (name : String) (count : Nat) (closed : Nat → Bool) (faces : Nat → List (List (P × P) × (P × D × D))) (c : Nat) : Part P D :=
  ⟨closed c, shellName name count c, closed c, faces c⟩

theorem addShells_inv {geo : Geo P D L} {vm : List (Vtx P)} {es : List ((Nat × Nat) × EdgeData)} {name : String} {count : Nat} {closed : Nat → Bool} {group : Nat → List Nat}
    {faces : Nat → List (List (P × P) × (P × D × D))} : ∀ (cs : List Nat) {w : List (Ent P D L)}, SInv geo w vm es → (∀ c ∈ cs, group c ≠ []) → (∀ c, ∀ n ∈ group c, Has w n .face) →
    (∀ c ∈ cs, allSome ((group c).map (readFace w)) = some (faces c)) →
    ∃ v, (addShells name count closed group w cs).1 = w ++ v ∧ SInv geo (w ++ v) vm es ∧
      (addShells name count closed group w cs).2.map (readItem (w ++ v)) = cs.map (fun c => some (partOf name count closed faces c)) ∧
      ∀ n ∈ (addShells name count closed group w cs).2, Has (w ++ v) n .item
  | [], w, h, _, _, _ => ⟨[], by simp [addShells], by simpa using h, by simp [addShells], by simp [addShells]⟩
  | c :: cs, w, h, hne, hg, hf => by
    rw [addShells, if_neg (hne c (by simp))]
    dsimp only
    generalize hi : (if closed c = true then .solid (shellName name count c) (w.length + 1) else .model (shellName name count c) (w.length + 1) : Ent P D L) = item
    have hitem : Has (w ++ [.shell (closed c) (group c), item]) (w.length + 2) .item := by
      refine Has.new _ (k := 1) rfl rfl ?_
      subst hi
      split <;> rfl
    have hok : OkAll w [.shell (closed c) (group c), item] := by
      refine ⟨?_, ?_, trivial⟩
      · intro r hr
        simp only [Ent.refs, List.mem_map] at hr
        obtain ⟨n, hn, rfl⟩ := hr
        exact hg c n hn
      · intro r hr
        have : r = (w.length + 1, Kind.shell) := by
          subst hi
          split at hr <;> simpa [Ent.refs] using hr
        subst this
        exact Has.new [_] (k := 0) rfl rfl rfl
    have hk : ∀ e ∈ ([.shell (closed c) (group c), item] : List (Ent P D L)), e.kind ≠ .point ∧ e.kind ≠ .edge := by
      intro e he
      simp only [List.mem_cons, List.not_mem_nil, or_false] at he
      rcases he with rfl | rfl
      · exact ⟨nofun, nofun⟩
      · subst hi; split <;> exact ⟨nofun, nofun⟩
    have h' := h.append hok hk
    have hread : readItem (w ++ [.shell (closed c) (group c), item]) (w.length + 2) = some (partOf name count closed faces c) := by
      have e0 : get (w ++ [.shell (closed c) (group c), item]) (w.length + 1) = some (.shell (closed c) (group c)) := get_right w _ 0
      have e1 : get (w ++ [.shell (closed c) (group c), item]) (w.length + 2) = some item := get_right w _ 1
      have e2 := allSome_left (g := readFace (w ++ [.shell (closed c) (group c), item])) (fun n x => readFace_left) (hf c (by simp))
      unfold readItem partOf
      rw [e1]
      subst hi
      cases hc : closed c with
      | true =>
        rw [hc] at e0 e2
        simp only [if_true] at e0 e2 ⊢
        rw [e0]
        dsimp only
        rw [e2]
        rfl
      | false =>
        rw [hc] at e0 e2
        simp only [Bool.false_eq_true, if_false] at e0 e2 ⊢
        rw [e0]
        dsimp only
        rw [e2]
        rfl
    obtain ⟨v, k1, k2, k3, k4⟩ := addShells_inv (name := name) (count := count) (closed := closed) (group := group) (faces := faces) cs h' (fun x hx => hne x (by simp [hx]))
      (fun x n hn => (hg x n hn).left) (fun x hx => allSome_left (fun n y => readFace_left) (hf x (by simp [hx])))
    refine ⟨[.shell (closed c) (group c), item] ++ v, by rw [k1, List.append_assoc], by rw [← List.append_assoc]; exact k2, ?_, ?_⟩
    · rw [List.map_cons, List.map_cons, ← List.append_assoc, k3, readItem_left hread]
    · intro n hn
      rw [← List.append_assoc]
      rcases List.mem_cons.1 hn with rfl | hn
      · exact hitem.left
      · exact k4 n hn

/-! ## the end of the file -/

theorem footer_ok {w : List (Ent P D L)} {name : String} {items : List Nat} (h : ∀ n ∈ items, Has w n .item) : OkAll w (footer name w.length items) := by
  unfold footer
  simp only [OkAll, List.append_assoc, List.cons_append, List.nil_append, and_true]
  refine ⟨?_, ?_, ?_, ?_, ?_, ?_, ?_, ?_, ?_, ?_, ?_, ?_, ?_, ?_, ?_⟩ <;> intro r hr <;>
    simp only [Ent.refs, List.mem_cons, List.not_mem_nil, or_false, List.mem_append, List.mem_map] at hr
  · subst hr; exact Has.new _ (k := 0) rfl rfl rfl
  · subst hr; exact Has.new _ (k := 1) rfl rfl rfl
  · subst hr; exact Has.new _ (k := 2) rfl rfl rfl
  · subst hr; exact Has.new _ (k := 0) rfl rfl rfl
  · rcases hr with rfl | rfl
    · exact Has.new _ (k := 3) rfl rfl rfl
    · exact Has.new _ (k := 4) rfl rfl rfl
  · subst hr; exact Has.new _ (k := 5) rfl rfl rfl
  · subst hr; exact Has.new _ (k := 7) rfl rfl rfl
  · subst hr; exact Has.new _ (k := 10) rfl rfl rfl
  · rcases hr with rfl | rfl | rfl | rfl
    · exact Has.new _ (k := 11) rfl rfl rfl
    · exact Has.new _ (k := 7) rfl rfl rfl
    · exact Has.new _ (k := 8) rfl rfl rfl
    · exact Has.new _ (k := 9) rfl rfl rfl
  · rcases hr with ⟨n, hn, rfl⟩ | rfl
    · exact (h n hn).left
    · exact Has.new _ (k := 12) rfl rfl rfl
  · rcases hr with rfl | rfl
    · exact Has.new _ (k := 6) rfl rfl rfl
    · exact Has.new _ (k := 13) rfl rfl rfl

theorem footer_read {w : List (Ent P D L)} {name : String} {items : List Nat} {ps : List (Part P D)} (h : allSome (items.map (readItem w)) = some ps) :
    readFile (w ++ footer name w.length items) = some (name, ps) := by
  have hnew : ∀ k e, (footer name w.length items : List (Ent P D L))[k]? = some e → get (w ++ footer name w.length items) (w.length + k + 1) = some e := fun k e he => by rw [get_right, he]
  have hl : (w ++ footer name w.length items).getLast? = some (.root (w.length + 7) (w.length + 14)) := by
    rw [List.getLast?_append]; rfl
  unfold readFile
  rw [hl]
  dsimp only
  have e7 := hnew 6 _ rfl
  have e14 := hnew 13 _ rfl
  have e6 := hnew 5 _ rfl
  have e4 := hnew 3 _ rfl
  have e3 := hnew 2 _ rfl
  rw [show w.length + 6 + 1 = w.length + 7 from rfl] at e7
  rw [show w.length + 13 + 1 = w.length + 14 from rfl] at e14
  rw [show w.length + 5 + 1 = w.length + 6 from rfl] at e6
  rw [show w.length + 3 + 1 = w.length + 4 from rfl] at e4
  rw [show w.length + 2 + 1 = w.length + 3 from rfl] at e3
  rw [e7, e14]
  dsimp only
  rw [e6]
  dsimp only
  rw [e4]
  dsimp only
  rw [e3]
  dsimp only
  rw [allSome_left (fun n x => readItem_left) h]
  rfl

/-! ## the uses of edges -/

theorem mem_uses {vm : List (Vtx P)} {tris : List (Tri P D)} {k : Nat × Nat} {i : Nat} : (k, i) ∈ uses vm tris ↔ ∃ t, tris[i]? = some t ∧ ∃ s ∈ sides vm t, k = edgeKey s.1.id s.2.id := by
  unfold uses
  rw [List.mem_flatMap]
  constructor
  · rintro ⟨⟨t, j⟩, h1, h2⟩
    rw [List.mem_zipIdx_iff_getElem?] at h1
    obtain ⟨s, hs, e⟩ := List.mem_map.1 h2
    simp only [Prod.mk.injEq] at e
    obtain ⟨e1, e2⟩ := e
    dsimp only at h1 hs
    subst e2
    exact ⟨t, h1, s, hs, e1.symm⟩
  · rintro ⟨t, h1, s, hs, rfl⟩
    exact ⟨(t, i), by rw [List.mem_zipIdx_iff_getElem?]; exact h1, List.mem_map.2 ⟨s, hs, rfl⟩⟩

theorem uses_keys {vm : List (Vtx P)} (tris : List (Tri P D)) : (uses vm tris).map (·.1) = (tris.flatMap (sides vm)).map fun s => edgeKey s.1.id s.2.id := by
  unfold uses
  rw [List.map_flatMap, List.map_flatMap]
  have h : ∀ (l : List (Tri P D)) (n : Nat), (l.zipIdx n).flatMap (fun a => List.map (fun x => x.1) (List.map (fun s => (edgeKey s.1.id s.2.id, a.2)) (sides vm a.1))) =
      l.flatMap fun a => List.map (fun s => edgeKey s.1.id s.2.id) (sides vm a) := by
    intro l
    induction l with
    | nil => intro n; rfl
    | cons a l ih =>
      intro n
      rw [List.zipIdx_cons, List.flatMap_cons, List.flatMap_cons, ih, List.map_map]
      rfl
  exact h tris 0

section
variable {w : List (Ent P D L)} {vm : List (Vtx P)} {tris : List (Tri P D)} (h : VInv w vm (tris.flatMap corners))
include h

theorem tri_corners {t : Tri P D} (ht : t ∈ tris) : ∀ p ∈ corners t, p ∈ tris.flatMap corners := fun p hp => List.mem_flatMap.2 ⟨t, ht, hp⟩

/-- keys of edges agree exactly if the sides join the same points -/
theorem key_eq {a b c d : Vtx P} (ha : a ∈ vm) (hb : b ∈ vm) (hc : c ∈ vm) (hd : d ∈ vm) : edgeKey a.id b.id = edgeKey c.id d.id ↔ SameSide (a.coords, b.coords) (c.coords, d.coords) := by
  rw [edgeKey_eq, coords_inj h ha hc, coords_inj h hb hd, coords_inj h ha hd, coords_inj h hb hc]
  rfl

/-- the sides of triangles `i` and the keys -/
theorem share_touch {i j : Nat} : Share (uses vm tris) i j ↔ Touch tris i j := by
  unfold Share Touch
  constructor
  · rintro ⟨k, h1, h2⟩
    obtain ⟨t, ht, s, hs, rfl⟩ := mem_uses.1 h1
    obtain ⟨u, hu, r, hr, e⟩ := mem_uses.1 h2
    obtain ⟨a1, a2⟩ := sides_mem h (tri_corners h (List.mem_of_getElem? ht))
    obtain ⟨b1, b2⟩ := sides_mem h (tri_corners h (List.mem_of_getElem? hu))
    refine ⟨t, u, ht, hu, (s.1.coords, s.2.coords), by rw [← a2]; exact List.mem_map.2 ⟨s, hs, rfl⟩, (r.1.coords, r.2.coords), by rw [← b2]; exact List.mem_map.2 ⟨r, hr, rfl⟩, ?_⟩
    exact (key_eq h (a1 s hs).1 (a1 s hs).2 (b1 r hr).1 (b1 r hr).2).1 e
  · rintro ⟨t, u, ht, hu, s, hs, r, hr, e⟩
    obtain ⟨a1, a2⟩ := sides_mem h (tri_corners h (List.mem_of_getElem? ht))
    obtain ⟨b1, b2⟩ := sides_mem h (tri_corners h (List.mem_of_getElem? hu))
    rw [← a2] at hs
    rw [← b2] at hr
    obtain ⟨s', hs', rfl⟩ := List.mem_map.1 hs
    obtain ⟨r', hr', rfl⟩ := List.mem_map.1 hr
    exact ⟨_, mem_uses.2 ⟨t, ht, s', hs', rfl⟩, mem_uses.2 ⟨u, hu, r', hr', (key_eq h (a1 s' hs').1 (a1 s' hs').2 (b1 r' hr').1 (b1 r' hr').2).2 e⟩⟩

theorem flat_sides : tris.flatMap Tri.sides = (tris.flatMap (sides vm)).map fun s => (s.1.coords, s.2.coords) := by
  rw [List.map_flatMap]
  refine List.flatMap_congr fun t ht => ?_
  exact (sides_mem h (tri_corners h ht)).2.symm

theorem flat_mem {s : Vtx P × Vtx P} (hs : s ∈ tris.flatMap (sides vm)) : s.1 ∈ vm ∧ s.2 ∈ vm := by
  obtain ⟨t, ht, hs⟩ := List.mem_flatMap.1 hs
  exact (sides_mem h (tri_corners h ht)).1 s hs

/-- how often an edge is used -/
theorem facesOf_length {s : Vtx P × Vtx P} (hs : s.1 ∈ vm ∧ s.2 ∈ vm) : (facesOf (uses vm tris) (edgeKey s.1.id s.2.id)).length = sideCount tris (s.1.coords, s.2.coords) := by
  unfold facesOf sideCount
  rw [List.length_map, ← List.countP_eq_length_filter, flat_sides h, List.countP_map]
  have : List.countP (fun u => decide (u.1 = edgeKey s.1.id s.2.id)) (uses vm tris) = List.countP (fun k => decide (k = edgeKey s.1.id s.2.id)) ((uses vm tris).map (·.1)) := by
    rw [List.countP_map]; rfl
  rw [this, uses_keys, List.countP_map]
  refine List.countP_congr fun r hr => ?_
  have hr' := flat_mem h hr
  simp only [Function.comp, decide_eq_true_eq]
  rw [eq_comm, key_eq h hs.1 hs.2 hr'.1 hr'.2]

/-- the test for closed components -/
theorem isClosed_iff {c : Nat} : isClosed (uses vm tris) (components (uses vm tris) tris.length).1 c = true ↔
    Tight tris ((List.range tris.length).filter fun i => decide ((components (uses vm tris) tris.length).1 i = some c)) := by
  have hlt : ∀ u ∈ uses vm tris, u.2 < tris.length := by
    rintro ⟨k, i⟩ hu
    obtain ⟨t, ht, -⟩ := mem_uses.1 hu
    exact (List.getElem?_eq_some_iff.1 ht).1
  obtain ⟨-, -, hs⟩ := components_spec hlt
  generalize (components (uses vm tris) tris.length).1 = comp at *
  have hone : ∀ k f f', f ∈ facesOf (uses vm tris) k → f' ∈ facesOf (uses vm tris) k → comp f = comp f' := fun k f f' hf hf' =>
    (hs f (hlt _ (mem_facesOf.1 hf)) f' (hlt _ (mem_facesOf.1 hf'))).2 (.single ⟨k, mem_facesOf.1 hf, mem_facesOf.1 hf'⟩)
  have hcount : ∀ k f, f ∈ facesOf (uses vm tris) k → comp f = some c → (facesOf (uses vm tris) k).countP (fun f => decide (comp f = some c)) = (facesOf (uses vm tris) k).length := by
    intro k f hf hc
    rw [List.countP_eq_length]
    intro f' hf'
    rw [decide_eq_true_eq, ← hone k f f' hf hf', hc]
  have hpos : ∀ k f, f ∈ facesOf (uses vm tris) k → 0 < (facesOf (uses vm tris) k).length := fun k f hf => List.length_pos_of_mem hf
  unfold isClosed
  rw [List.all_eq_true]
  simp only [decide_eq_true_eq, List.mem_cons, List.not_mem_nil, or_false]
  constructor
  · intro hall i hi t ht s hs'
    rw [List.mem_filter, decide_eq_true_eq] at hi
    obtain ⟨a1, a2⟩ := sides_mem h (tri_corners h (List.mem_of_getElem? ht))
    rw [← a2] at hs'
    obtain ⟨r, hr, rfl⟩ := List.mem_map.1 hs'
    have hu := mem_uses.2 ⟨t, ht, r, hr, rfl⟩
    have hf := mem_facesOf.2 hu
    rw [← facesOf_length h (a1 r hr)]
    have := hall _ (List.mem_map.2 ⟨_, hu, rfl⟩)
    dsimp only at this
    rw [hcount _ i hf hi.2] at this
    have := hpos _ i hf
    omega
  · rintro ht k hk
    by_cases hex : ∃ f ∈ facesOf (uses vm tris) k, comp f = some c
    · right
      obtain ⟨f, hf, hc⟩ := hex
      rw [hcount k f hf hc]
      obtain ⟨t, ht', s, hs', rfl⟩ := mem_uses.1 (mem_facesOf.1 hf)
      obtain ⟨a1, a2⟩ := sides_mem h (tri_corners h (List.mem_of_getElem? ht'))
      rw [facesOf_length h (a1 s hs')]
      refine ht f ?_ t ht' _ (by rw [← a2]; exact List.mem_map.2 ⟨s, hs', rfl⟩)
      rw [List.mem_filter, decide_eq_true_eq, List.mem_range]
      exact ⟨hlt _ (mem_facesOf.1 hf), hc⟩
    · left
      rw [List.countP_eq_zero]
      intro f hf
      rw [decide_eq_true_eq]
      exact fun hc => hex ⟨f, hf, hc⟩

/-- the groups of triangles, by component -/
theorem grouping : Grouping tris ((List.range (components (uses vm tris) tris.length).2).map fun c =>
    (List.range tris.length).filter fun i => decide ((components (uses vm tris) tris.length).1 i = some c)) := by
  have hlt : ∀ u ∈ uses vm tris, u.2 < tris.length := by
    rintro ⟨k, i⟩ hu
    obtain ⟨t, ht, -⟩ := mem_uses.1 hu
    exact (List.getElem?_eq_some_iff.1 ht).1
  obtain ⟨h1, h2, hs⟩ := components_spec hlt
  generalize (components (uses vm tris) tris.length).1 = comp at *
  generalize (components (uses vm tris) tris.length).2 = count at *
  have hshare : ∀ i j, ReflTransGen (Share (uses vm tris)) i j ↔ Connected tris i j := by
    intro i j
    have : Share (uses vm tris) = Touch tris := by funext a b; exact propext (share_touch h)
    rw [this]; rfl
  refine ⟨?_, ?_, ?_⟩
  · rw [List.perm_ext_iff_of_nodup]
    · intro i
      rw [List.mem_flatten, List.mem_range]
      constructor
      · rintro ⟨g, hg, hi⟩
        obtain ⟨c, -, rfl⟩ := List.mem_map.1 hg
        exact List.mem_range.1 (List.mem_filter.1 hi).1
      · intro hi
        obtain ⟨x, hx, e⟩ := h1 i hi
        exact ⟨_, List.mem_map.2 ⟨x, List.mem_range.2 hx, rfl⟩, List.mem_filter.2 ⟨List.mem_range.2 hi, by simpa using e⟩⟩
    · rw [List.nodup_flatten]
      constructor
      · intro g hg
        obtain ⟨c, -, rfl⟩ := List.mem_map.1 hg
        exact List.Nodup.filter _ List.nodup_range
      · rw [List.pairwise_map]
        refine List.Pairwise.imp ?_ (List.nodup_range (n := count))
        intro a b hab i hi hi'
        have e1 := (List.mem_filter.1 hi).2
        have e2 := (List.mem_filter.1 hi').2
        rw [decide_eq_true_eq] at e1 e2
        rw [e1, Option.some.injEq] at e2
        exact hab e2
    · exact List.nodup_range
  · intro hg
    obtain ⟨c, hc, e⟩ := List.mem_map.1 hg
    obtain ⟨i, hi, e'⟩ := h2 c (List.mem_range.1 hc)
    have : i ∈ ([] : List Nat) := e ▸ List.mem_filter.2 ⟨List.mem_range.2 hi, by simpa using e'⟩
    simp at this
  · intro g hg i hi j hj
    obtain ⟨c, hc, rfl⟩ := List.mem_map.1 hg
    rw [List.mem_filter, decide_eq_true_eq, List.mem_range] at hi ⊢
    rw [← hshare, ← hs i hi.1 j hj, hi.2]
    constructor
    · exact fun h => h.2.symm
    · exact fun h => ⟨hj, h.symm⟩
end

/-! ## the groups of faces -/

theorem groupIds_read {f : Nat → Option (List (P × P) × (P × D × D))} {geo : Geo P D L} {comp : Nat → Option Nat} {c : Nat} : ∀ {ids : List Nat} {tris : List (Tri P D)},
    ids.map f = tris.map (fun t => some (faceOf geo t)) →
    (groupIds comp ids c).map f = (facesAt geo tris ((List.range tris.length).filter fun i => decide (comp i = some c))).map some := by
  intro ids tris hf
  have hlen : ids.length = tris.length := by simpa using congrArg List.length hf
  have hz : ids.zipIdx = (List.range tris.length).map fun i => (ids.getD i 0, i) := by
    refine List.ext_getElem (by simp [hlen]) fun n h1 h2 => ?_
    simp only [List.getElem_zipIdx, List.getElem_map, List.getElem_range, Nat.zero_add]
    rw [List.length_zipIdx] at h1
    rw [List.getD_eq_getElem?_getD, List.getElem?_eq_getElem h1, Option.getD_some]
  unfold groupIds facesAt
  rw [hz, List.filter_map, List.map_map, List.map_map]
  have hfil : ∀ l : List Nat, (∀ i ∈ l, i < tris.length) → l.map (f ∘ (fun x => x.1) ∘ fun i => (ids.getD i 0, i)) = (l.filterMap fun i => (tris[i]?).map (faceOf geo)).map some := by
    intro l
    induction l with
    | nil => intro _; rfl
    | cons i l ih =>
      intro hl
      have hi := hl i (by simp)
      rw [List.map_cons, ih fun j hj => hl j (by simp [hj]), List.filterMap_cons, List.getElem?_eq_getElem hi]
      simp only [Option.map_some, List.map_cons, List.cons.injEq, and_true, Function.comp]
      have := congrArg (fun l => l[i]?) hf
      simp only [List.getElem?_map, List.getElem?_eq_getElem hi, Option.map_some] at this
      rw [List.getElem?_eq_getElem (by omega), Option.map_some, Option.some.injEq] at this
      rw [List.getD_eq_getElem?_getD, List.getElem?_eq_getElem (by omega), Option.getD_some]
      exact this
  have := hfil ((List.range tris.length).filter fun i => decide (comp i = some c)) fun i hi => List.mem_range.1 (List.mem_filter.1 hi).1
  rw [← this]
  rfl

theorem mem_groupIds {comp : Nat → Option Nat} {ids : List Nat} {c n : Nat} (h : n ∈ groupIds comp ids c) : n ∈ ids := by
  unfold groupIds at h
  obtain ⟨x, hx, rfl⟩ := List.mem_map.1 h
  have := (List.mem_filter.1 hx).1
  obtain ⟨a, i⟩ := x
  exact List.fst_mem_of_mem_zipIdx this

end Verif.Step
