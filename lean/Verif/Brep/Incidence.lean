import Verif.Brep.Adding

/-! # Which edges meet at a vertex, which faces at an edge -/

namespace Verif.Brep

variable {K P C S : Type} [DecidableEq K]

/-! ## Specification -/

/-- the identities of the edges a history adds -/
def Spec.edgeIds : List (Op K P C S) → List K
  | [] => []
  | .edge k _ _ _ _ _ :: ops => k :: Spec.edgeIds ops
  | _ :: ops => Spec.edgeIds ops

/-- the identities of the faces a history adds -/
def Spec.faceIds : List (Op K P C S) → List K
  | [] => []
  | .face k _ :: ops => k :: Spec.faceIds ops
  | _ :: ops => Spec.faceIds ops

/-- each vertex is added before every edge that ends at it -/
def Spec.verticesFirst (ops : List (Op K P C S)) : Prop :=
  ∀ before after k p t, ops = before ++ .vertex k p t :: after → ∀ j c a b s t, .edge j c a b s t ∈ before → a ≠ k ∧ b ≠ k

/-- faces are added after all edges, trims and loops -/
def Spec.facesLast (ops : List (Op K P C S)) : Prop :=
  ∀ before after k f, ops = before ++ .face k f :: after → ∀ o ∈ after, (∀ j c a b s t, o ≠ .edge j c a b s t) ∧ (∀ j t, o ≠ .trim j t) ∧ ∀ j l, o ≠ .loop j l

/-! ## invariants -/

/-- the edges of a history that end at a vertex -/
def edgesAt (v : K) : List (Op K P C S) → List K
  | [] => []
  | .edge k _ a b _ _ :: ops => if a = v ∨ b = v then k :: edgesAt v ops else edgesAt v ops
  | _ :: ops => edgesAt v ops

theorem edgesAt_append (v : K) (l m : List (Op K P C S)) : edgesAt v (l ++ m) = edgesAt v l ++ edgesAt v m := by
  induction l with
  | nil => rfl
  | cons o l ih =>
    cases o <;> simp only [List.cons_append, edgesAt, ih]
    split_ifs <;> simp

theorem edgeIds_append (l m : List (Op K P C S)) : Spec.edgeIds (l ++ m) = Spec.edgeIds l ++ Spec.edgeIds m := by
  induction l with
  | nil => rfl
  | cons o l ih => cases o <;> simp [Spec.edgeIds, ih]

theorem faceIds_append (l m : List (Op K P C S)) : Spec.faceIds (l ++ m) = Spec.faceIds l ++ Spec.faceIds m := by
  induction l with
  | nil => rfl
  | cons o l ih => cases o <;> simp [Spec.faceIds, ih]

theorem mem_edgeIds {l : List (Op K P C S)} {k : K} : k ∈ Spec.edgeIds l ↔ ∃ c a b s t, Op.edge k c a b s t ∈ l := by
  induction l with
  | nil => simp [Spec.edgeIds]
  | cons o l ih =>
    cases o <;> simp only [Spec.edgeIds, ih, List.mem_cons, reduceCtorEq, false_or]
    rename_i j c a b s t
    constructor
    · rintro (rfl | ⟨c', a', b', s', t', h⟩)
      · exact ⟨c, a, b, s, t, Or.inl rfl⟩
      · exact ⟨c', a', b', s', t', Or.inr h⟩
    · rintro ⟨c', a', b', s', t', h | h⟩
      · cases h; exact Or.inl rfl
      · exact Or.inr ⟨c', a', b', s', t', h⟩

theorem mem_faceIds {l : List (Op K P C S)} {k : K} : k ∈ Spec.faceIds l ↔ ∃ f, Op.face k f ∈ l := by
  induction l with
  | nil => simp [Spec.faceIds]
  | cons o l ih =>
    cases o <;> simp only [Spec.faceIds, ih, List.mem_cons, reduceCtorEq, false_or]
    rename_i j f
    constructor
    · rintro (rfl | ⟨f', h⟩)
      · exact ⟨f, Or.inl rfl⟩
      · exact ⟨f', Or.inr h⟩
    · rintro ⟨f', h | h⟩
      · cases h; exact Or.inl rfl
      · exact Or.inr ⟨f', h⟩

theorem mem_edgesAt {v : K} {l : List (Op K P C S)} {k : K} : k ∈ edgesAt v l ↔ ∃ c a b s t, Op.edge k c a b s t ∈ l ∧ (a = v ∨ b = v) := by
  induction l with
  | nil => simp [edgesAt]
  | cons o l ih =>
    cases o with
    | edge j c a b s t =>
      simp only [edgesAt, List.mem_cons]
      constructor
      · intro h
        by_cases hab : a = v ∨ b = v
        · rw [if_pos hab, List.mem_cons] at h
          rcases h with rfl | h
          · exact ⟨c, a, b, s, t, Or.inl rfl, hab⟩
          · obtain ⟨c', a', b', s', t', h1, h2⟩ := ih.mp h
            exact ⟨c', a', b', s', t', Or.inr h1, h2⟩
        · rw [if_neg hab] at h
          obtain ⟨c', a', b', s', t', h1, h2⟩ := ih.mp h
          exact ⟨c', a', b', s', t', Or.inr h1, h2⟩
      · rintro ⟨c', a', b', s', t', h | h, h2⟩
        · cases h; rw [if_pos h2]; exact List.mem_cons_self
        · have := ih.mpr ⟨c', a', b', s', t', h, h2⟩
          split_ifs
          · exact List.mem_cons_of_mem _ this
          · exact this
    | _ => simp [edgesAt, ih]

theorem edgesAt_sublist (v : K) (l : List (Op K P C S)) : (edgesAt v l).Sublist (Spec.edgeIds l) := by
  induction l with
  | nil => exact List.Sublist.refl _
  | cons o l ih =>
    cases o <;> simp only [edgesAt, Spec.edgeIds]
    case edge k c a b s t =>
      split_ifs
      · exact ih.cons_cons k
      · exact ih.cons k
    all_goals exact ih

theorem run_concat (geo : Geo K P C S) (l : List (Op K P C S)) (o : Op K P C S) : run geo (l ++ [o]) = step geo (run geo l) o := by
  unfold run; rw [List.foldl_concat]

/-- a fold of touches that add a face -/
theorem noteFaces (k : K) (us : List K) (d : K → Option (Edge K C)) (e : K) :
    us.foldl (fun es e => touch es e (noteFace k)) d e = (d e).map fun x => { x with faces := x.faces ++ List.replicate (us.count e) k } := by
  induction us generalizing d with
  | nil => rw [List.foldl_nil]; rcases d e with _ | x <;> simp
  | cons u us ih =>
    rw [List.foldl_cons, ih]
    unfold touch
    by_cases h : e = u
    · subst h
      rw [if_pos rfl, List.count_cons_self, Option.map_map]
      rcases d e with _ | x
      · rfl
      · simp only [Option.map_some, Function.comp, noteFace, List.append_assoc, List.replicate_succ, List.singleton_append]
    · rw [if_neg h, List.count_cons_of_ne (Ne.symm h)]

theorem step_edges (geo : Geo K P C S) (g : Graph K P C S) (o : Op K P C S) (k : K) : (step geo g o).edges k =
    match o with
    | .edge j c a b s t => if k = j then some ⟨c, a, b, s, t, []⟩ else g.edges k
    | .face j f => (g.edges k).map fun x => { x with faces := x.faces ++ List.replicate (Spec.faceUses g f k) j }
    | _ => g.edges k := by
  cases o with
  | face j f =>
    show (faceUses g f).foldl (fun es e => touch es e (noteFace j)) g.edges k = _
    rw [noteFaces, count_faceUses]
  | shell j s v => show (addShell g j s v).1.edges k = _; rw [(C246_frame g j s v).2.2.1]
  | solid j s v => show (addSolid geo g j s v).1.edges k = _; unfold addSolid; dsimp only; split <;> rfl
  | _ => rfl

theorem step_vertices (geo : Geo K P C S) (g : Graph K P C S) (o : Op K P C S) (k : K) : (step geo g o).vertices k =
    match o with
    | .vertex j p t => if k = j then some ⟨p, t, []⟩ else g.vertices k
    | .edge j _ a b _ _ => if a = k ∨ b = k then (g.vertices k).map (noteEdge j) else g.vertices k
    | _ => g.vertices k := by
  cases o with
  | edge j c a b s t =>
    show (if b ≠ a then touch (touch g.vertices a (noteEdge j)) b (noteEdge j) else touch g.vertices a (noteEdge j)) k = _
    dsimp only
    by_cases hba : b = a
    · subst hba
      simp only [ne_eq, not_true_eq_false, if_false, or_self]
      unfold touch
      by_cases h : k = b
      · subst h; simp
      · rw [if_neg h, if_neg (Ne.symm h)]
    · rw [if_pos hba]
      unfold touch
      by_cases h : k = b
      · subst h
        simp [hba]
      · by_cases h' : k = a
        · subst h'; simp [h]
        · simp [h, h', Ne.symm h, Ne.symm h']
  | shell j s v => show (addShell g j s v).1.vertices k = _; rw [(C246_frame g j s v).2.1]
  | solid j s v => show (addSolid geo g j s v).1.vertices k = _; unfold addSolid; dsimp only; split <;> rfl
  | _ => rfl

theorem step_faces (geo : Geo K P C S) (g : Graph K P C S) (o : Op K P C S) (k : K) : ((step geo g o).faces k).map (·.loops) =
    match o with
    | .face j f => if k = j then some f.loops else (g.faces k).map (·.loops)
    | _ => (g.faces k).map (·.loops) := by
  cases o with
  | face j f =>
    show ((put g.faces j f) k).map (·.loops) = _
    unfold put
    by_cases h : k = j
    · simp [h]
    · simp [h]
  | shell j s v =>
    show ((addShell g j s v).1.faces k).map (·.loops) = _
    rw [(C246_frame g j s v).1]
    by_cases h : k ∈ s.faces
    · rw [if_pos h, Option.map_map]; rfl
    · rw [if_neg h]
  | solid j s v => show ((addSolid geo g j s v).1.faces k).map (·.loops) = _; unfold addSolid; dsimp only; split <;> rfl
  | _ => rfl

theorem step_loops (geo : Geo K P C S) (g : Graph K P C S) (o : Op K P C S) (h : ∀ j l, o ≠ .loop j l) : (step geo g o).loops = g.loops := by
  cases o with
  | loop j l => exact absurd rfl (h j l)
  | shell j s v => exact (C246_frame g j s v).2.2.2.2.1
  | solid j s v => show (addSolid geo g j s v).1.loops = _; unfold addSolid; dsimp only; split <;> rfl
  | _ => rfl

theorem step_trims (geo : Geo K P C S) (g : Graph K P C S) (o : Op K P C S) (h : ∀ j l, o ≠ .trim j l) : (step geo g o).trims = g.trims := by
  cases o with
  | trim j l => exact absurd rfl (h j l)
  | shell j s v => exact (C246_frame g j s v).2.2.2.1
  | solid j s v => show (addSolid geo g j s v).1.trims = _; unfold addSolid; dsimp only; split <;> rfl
  | _ => rfl

/-- the edges of the graph are those of the history -/
theorem run_edges (geo : Geo K P C S) (ops : List (Op K P C S)) (hn : (Spec.edgeIds ops).Nodup) (k a b : K) :
    (∃ e, (run geo ops).edges k = some e ∧ e.start = a ∧ e.stop = b) ↔ ∃ c s t, Op.edge k c a b s t ∈ ops := by
  induction ops using List.reverseRecOn with
  | nil => simp [run, empty]
  | append_singleton l o ih =>
    rw [edgeIds_append] at hn
    have ih := ih hn.of_append_left
    have hdis := List.disjoint_of_nodup_append hn
    rw [run_concat, step_edges]
    cases o with
    | edge j c' a' b' s' t' =>
      dsimp only
      by_cases h : k = j
      · subst h
        rw [if_pos rfl]
        constructor
        · rintro ⟨e, he, rfl, rfl⟩
          cases he
          exact ⟨c', s', t', by simp⟩
        · rintro ⟨c, s, t, hm⟩
          rw [List.mem_append, List.mem_singleton] at hm
          rcases hm with hm | hm
          · exact absurd (mem_edgeIds.mpr ⟨_, _, _, _, _, hm⟩) (fun h => hdis h (by simp [Spec.edgeIds]))
          · cases hm; exact ⟨_, rfl, rfl, rfl⟩
      · rw [if_neg h, ih]
        refine exists_congr fun c => exists_congr fun s => exists_congr fun t => ?_
        rw [List.mem_append, List.mem_singleton]
        constructor
        · exact Or.inl
        · rintro (h' | h')
          · exact h'
          · cases h'; exact absurd rfl h
    | face j f =>
      dsimp only
      have : (∃ e, ((run geo l).edges k).map (fun x => { x with faces := x.faces ++ List.replicate (Spec.faceUses (run geo l) f k) j }) = some e ∧ e.start = a ∧ e.stop = b) ↔
          ∃ e, (run geo l).edges k = some e ∧ e.start = a ∧ e.stop = b := by
        rcases (run geo l).edges k with _ | x
        · simp
        · simp
      rw [this, ih]
      simp
    | _ => dsimp only; rw [ih]; simp

/-- the faces of the graph are those of the history -/
theorem run_faces (geo : Geo K P C S) (ops : List (Op K P C S)) (hn : (Spec.faceIds ops).Nodup) (k : K) (ls : List K) :
    ((run geo ops).faces k).map (·.loops) = some ls ↔ ∃ f, Op.face k f ∈ ops ∧ f.loops = ls := by
  induction ops using List.reverseRecOn with
  | nil => simp [run, empty]
  | append_singleton l o ih =>
    rw [faceIds_append] at hn
    have ih := ih hn.of_append_left
    have hdis := List.disjoint_of_nodup_append hn
    rw [run_concat, step_faces]
    cases o with
    | face j f =>
      dsimp only
      by_cases h : k = j
      · subst h
        rw [if_pos rfl]
        constructor
        · intro he
          exact ⟨f, by simp, Option.some.inj he⟩
        · rintro ⟨f', hm, rfl⟩
          rw [List.mem_append, List.mem_singleton] at hm
          rcases hm with hm | hm
          · exact absurd (mem_faceIds.mpr ⟨_, hm⟩) (fun h => hdis h (by simp [Spec.faceIds]))
          · cases hm; rfl
      · rw [if_neg h, ih]
        refine exists_congr fun c => and_congr_left fun _ => ?_
        rw [List.mem_append, List.mem_singleton]
        constructor
        · exact Or.inl
        · rintro (h' | h')
          · exact h'
          · cases h'; exact absurd rfl h
    | _ => dsimp only; rw [ih]; simp

theorem verticesFirst_prefix {l m : List (Op K P C S)} (h : Spec.verticesFirst (l ++ m)) : Spec.verticesFirst l := by
  intro before after k p t e
  exact h before (after ++ m) k p t (by rw [e]; simp)

theorem facesLast_prefix {l m : List (Op K P C S)} (h : Spec.facesLast (l ++ m)) : Spec.facesLast l := by
  intro before after k f e o ho
  exact h before (after ++ m) k f (by rw [e]; simp) o (by simp [ho])

/-- the list kept at a vertex -/
theorem run_vertices (geo : Geo K P C S) (ops : List (Op K P C S)) (hv : Spec.verticesFirst ops) (v : K) (x : Vertex K P) (hx : (run geo ops).vertices v = some x) : x.edges = edgesAt v ops := by
  induction ops using List.reverseRecOn generalizing x with
  | nil => simp [run, empty] at hx
  | append_singleton l o ih =>
    have ih := ih (verticesFirst_prefix hv)
    rw [run_concat, step_vertices] at hx
    rw [edgesAt_append]
    cases o with
    | vertex j p t =>
      dsimp only at hx
      by_cases h : v = j
      · subst h
        rw [if_pos rfl] at hx
        cases hx
        have := hv l [] v p t rfl
        have e : edgesAt v l = [] := by
          rw [List.eq_nil_iff_forall_not_mem]
          intro k hk
          obtain ⟨c, a, b, s, t, hm, h2⟩ := mem_edgesAt.mp hk
          obtain ⟨n1, n2⟩ := this k c a b s t hm
          rcases h2 with h2 | h2
          · exact n1 h2
          · exact n2 h2
        rw [e]; rfl
      · rw [if_neg h] at hx
        rw [ih x hx]; simp [edgesAt]
    | edge j c a b s t =>
      dsimp only at hx
      by_cases h : a = v ∨ b = v
      · rw [if_pos h] at hx
        rcases hy : (run geo l).vertices v with _ | y
        · rw [hy] at hx; cases hx
        · rw [hy] at hx
          cases hx
          unfold noteEdge
          dsimp only
          rw [ih y hy]
          simp only [edgesAt]
          rw [if_pos h]
      · rw [if_neg h] at hx
        rw [ih x hx]
        simp only [edgesAt]
        rw [if_neg h, List.append_nil]
    | _ => dsimp only at hx; rw [ih x hx]; simp [edgesAt]

/-- the faces of a history, in order -/
def faceList : List (Op K P C S) → List (K × Face K S)
  | [] => []
  | .face k f :: ops => (k, f) :: faceList ops
  | _ :: ops => faceList ops

theorem faceList_append (l m : List (Op K P C S)) : faceList (l ++ m) = faceList l ++ faceList m := by
  induction l with
  | nil => rfl
  | cons o l ih => cases o <;> simp [faceList, ih]

theorem mem_faceList {l : List (Op K P C S)} {k : K} {f : Face K S} : (k, f) ∈ faceList l ↔ Op.face k f ∈ l := by
  induction l with
  | nil => simp [faceList]
  | cons o l ih => cases o <;> simp [faceList, ih]

theorem faceList_ids (l : List (Op K P C S)) : (faceList l).map (·.1) = Spec.faceIds l := by
  induction l with
  | nil => rfl
  | cons o l ih => cases o <;> simp [faceList, Spec.faceIds, ih]

theorem faceList_nil {l : List (Op K P C S)} {o : Op K P C S} (h : Spec.facesLast (l ++ [o])) (ho : (∃ j c a b s t, o = .edge j c a b s t) ∨ (∃ j t, o = .trim j t) ∨ ∃ j l, o = .loop j l) : faceList l = [] := by
  rw [List.eq_nil_iff_forall_not_mem]
  rintro ⟨k, f⟩ hm
  obtain ⟨before, after, e⟩ := List.append_of_mem (mem_faceList.mp hm)
  have := h before (after ++ [o]) k f (by rw [e]; simp) o (by simp)
  rcases ho with ⟨j, c, a, b, s, t, rfl⟩ | ⟨j, t, rfl⟩ | ⟨j, m, rfl⟩
  · exact this.1 _ _ _ _ _ _ rfl
  · exact this.2.1 _ _ rfl
  · exact this.2.2 _ _ rfl

theorem faceUses_congr {g g' : Graph K P C S} (h1 : g'.loops = g.loops) (h2 : g'.trims = g.trims) (f : Face K S) (e : K) : Spec.faceUses g' f e = Spec.faceUses g f e := by
  unfold Spec.faceUses Spec.loopUses; rw [h1, h2]

/-- the list kept at an edge -/
theorem run_edgeFaces (geo : Geo K P C S) (ops : List (Op K P C S)) (hf : Spec.facesLast ops) (e : K) (x : Edge K C) (hx : (run geo ops).edges e = some x) :
    x.faces = (faceList ops).flatMap fun kf => List.replicate (Spec.faceUses (run geo ops) kf.2 e) kf.1 := by
  induction ops using List.reverseRecOn generalizing x with
  | nil => simp [run, empty] at hx
  | append_singleton l o ih =>
    have ih := ih (facesLast_prefix hf)
    rw [run_concat, step_edges] at hx
    rw [run_concat, faceList_append, List.flatMap_append]
    have stay : ∀ (g' : Graph K P C S), g'.loops = (run geo l).loops → g'.trims = (run geo l).trims →
        ((faceList l).flatMap fun kf => List.replicate (Spec.faceUses g' kf.2 e) kf.1) = (faceList l).flatMap fun kf => List.replicate (Spec.faceUses (run geo l) kf.2 e) kf.1 := by
      intro g' h1 h2
      refine congrArg (List.flatMap · _) ?_
      funext kf
      rw [faceUses_congr h1 h2]
    cases o with
    | edge j c a b s t =>
      have e0 := faceList_nil hf (Or.inl ⟨_, _, _, _, _, _, rfl⟩)
      dsimp only at hx
      rw [e0]
      by_cases h : e = j
      · rw [if_pos h] at hx; cases hx; rfl
      · rw [if_neg h] at hx; rw [ih x hx, e0]; rfl
    | trim j t =>
      have e0 := faceList_nil hf (Or.inr (Or.inl ⟨_, _, rfl⟩))
      dsimp only at hx
      rw [e0, ih x hx, e0]; rfl
    | loop j t =>
      have e0 := faceList_nil hf (Or.inr (Or.inr ⟨_, _, rfl⟩))
      dsimp only at hx
      rw [e0, ih x hx, e0]; rfl
    | face j f =>
      dsimp only at hx
      rcases hy : (run geo l).edges e with _ | y
      · rw [hy] at hx; cases hx
      · rw [hy] at hx
        cases hx
        dsimp only
        rw [ih y hy, stay _ rfl rfl]
        congr 1
        simp only [faceList, List.flatMap_cons, List.flatMap_nil, List.append_nil]
        rw [faceUses_congr (g := run geo l) (g' := step geo (run geo l) (.face j f)) rfl rfl]
    | vertex j p t => dsimp only at hx; rw [stay _ (step_loops _ _ _ (by simp)) (step_trims _ _ _ (by simp)), ih x hx]; simp [faceList]
    | shell j s v => dsimp only at hx; rw [stay _ (step_loops _ _ _ (by simp)) (step_trims _ _ _ (by simp)), ih x hx]; simp [faceList]
    | solid j s v => dsimp only at hx; rw [stay _ (step_loops _ _ _ (by simp)) (step_trims _ _ _ (by simp)), ih x hx]; simp [faceList]

/-! ## the theorems -/

/-- **C247 (vertices).** After any history that gives different edges different identities and adds each vertex before the edges that end at it, `vertex_edges` of a vertex in the graph returns each edge of
the graph that starts or ends at it, once, and nothing else. -/
theorem C247_vertex_partial (geo : Geo K P C S) (ops : List (Op K P C S)) (hn : (Spec.edgeIds ops).Nodup) (hv : Spec.verticesFirst ops) (v : K) (hin : ((run geo ops).vertices v).isSome) :
    ((vertexEdges (run geo ops) v).map (·.1)).Nodup ∧ ∀ k e, (k, e) ∈ vertexEdges (run geo ops) v ↔ (run geo ops).edges k = some e ∧ (e.start = v ∨ e.stop = v) := by
  obtain ⟨x, hx⟩ := Option.isSome_iff_exists.mp hin
  have hxe := run_vertices geo ops hv v x hx
  unfold vertexEdges
  rw [hx]
  dsimp only
  rw [hxe]
  constructor
  · have hnd : (edgesAt v ops).Nodup := hn.sublist (edgesAt_sublist v ops)
    have : ∀ l : List K, l.Nodup → ((l.filterMap fun e => ((run geo ops).edges e).map (e, ·)).map (·.1)).Nodup := by
      intro l hl
      have hsub : ((l.filterMap fun e => ((run geo ops).edges e).map (e, ·)).map (·.1)).Sublist l := by
        clear hl
        induction l with
        | nil => exact List.Sublist.refl _
        | cons y l ih =>
          rw [List.filterMap_cons]
          rcases (run geo ops).edges y with _ | z
          · exact ih.cons y
          · exact ih.cons_cons y
      exact hl.sublist hsub
    exact this _ hnd
  · intro k e
    rw [List.mem_filterMap]
    constructor
    · rintro ⟨j, hj, he⟩
      rcases hz : (run geo ops).edges j with _ | z
      · rw [hz] at he; cases he
      · rw [hz] at he
        cases he
        obtain ⟨c, a, b, s, t, hm, hab⟩ := mem_edgesAt.mp hj
        obtain ⟨e', he', rfl, rfl⟩ := (run_edges geo ops hn k a b).mpr ⟨c, s, t, hm⟩
        rw [hz] at he'
        cases he'
        exact ⟨hz, hab⟩
    · rintro ⟨he, hab⟩
      obtain ⟨c, s, t, hm⟩ := (run_edges geo ops hn k e.start e.stop).mp ⟨e, he, rfl, rfl⟩
      exact ⟨k, mem_edgesAt.mpr ⟨c, _, _, s, t, hm, hab⟩, by rw [he]; rfl⟩

theorem count_faces (uses : Face K S → ℕ) (k : K) : ∀ (l : List (K × Face K S)), (l.map (·.1)).Nodup → ∀ f, (k, f) ∈ l →
    (l.flatMap fun kf => List.replicate (uses kf.2) kf.1).count k = uses f
  | [], _, f, h => by simp at h
  | (j, f') :: l, hn, f, h => by
    rw [List.map_cons, List.nodup_cons] at hn
    rw [List.flatMap_cons, List.count_append, List.count_replicate]
    have zero : k ∉ l.map (·.1) → (l.flatMap fun kf => List.replicate (uses kf.2) kf.1).count k = 0 := by
      intro hk
      rw [List.count_eq_zero]
      intro hm
      obtain ⟨x, hx, hm⟩ := List.mem_flatMap.mp hm
      exact hk (List.mem_map.mpr ⟨x, hx, (List.eq_of_mem_replicate hm).symm⟩)
    by_cases hj : j = k
    · subst hj
      rw [zero hn.1]
      rcases List.mem_cons.mp h with h | h
      · cases h; simp
      · exact absurd (List.mem_map.mpr ⟨_, h, rfl⟩) hn.1
    · have : (k, f) ∈ l := by
        rcases List.mem_cons.mp h with h | h
        · cases h; exact absurd rfl hj
        · exact h
      rw [count_faces uses k l hn.2 f this]
      simp [hj]

/-- **C247 (edges).** After any history that gives different faces different identities and adds faces after edges, trims and loops, `edge_faces` of an edge in the graph returns each face of the graph as often
as its boundary runs over the edge, and nothing else. -/
theorem C247_edge_partial (geo : Geo K P C S) (ops : List (Op K P C S)) (hn : (Spec.faceIds ops).Nodup) (hf : Spec.facesLast ops) (e : K) (hin : ((run geo ops).edges e).isSome) :
    (∀ k F, (run geo ops).faces k = some F → ((edgeFaces (run geo ops) e).map (·.1)).count k = Spec.faceUses (run geo ops) F e) ∧
    ∀ k F, (k, F) ∈ edgeFaces (run geo ops) e ↔ (run geo ops).faces k = some F ∧ 0 < Spec.faceUses (run geo ops) F e := by
  obtain ⟨x, hx⟩ := Option.isSome_iff_exists.mp hin
  have hxf := run_edgeFaces geo ops hf e x hx
  have hex : ∀ k ∈ x.faces, ((run geo ops).faces k).isSome := by
    intro k hk
    rw [hxf] at hk
    obtain ⟨⟨j, f⟩, hm, hr⟩ := List.mem_flatMap.mp hk
    have := (run_faces geo ops hn j f.loops).mpr ⟨f, mem_faceList.mp hm, rfl⟩
    rw [List.eq_of_mem_replicate hr]
    rcases h : (run geo ops).faces j with _ | F
    · rw [h] at this; cases this
    · rfl
  have hids : (edgeFaces (run geo ops) e).map (·.1) = x.faces := by
    unfold edgeFaces
    rw [hx]
    dsimp only
    revert hex
    generalize x.faces = l
    intro hex
    induction l with
    | nil => rfl
    | cons y l ih =>
      obtain ⟨F, hF⟩ := Option.isSome_iff_exists.mp (hex y (by simp))
      rw [List.filterMap_cons, hF]
      simp only [Option.map_some, List.map_cons]
      rw [ih fun k hk => hex k (by simp [hk])]
  have main : ∀ k F, (run geo ops).faces k = some F → x.faces.count k = Spec.faceUses (run geo ops) F e := by
    intro k F hF
    obtain ⟨f, hm, hl⟩ := (run_faces geo ops hn k F.loops).mp (by rw [hF]; rfl)
    rw [hxf, count_faces (fun f => Spec.faceUses (run geo ops) f e) k (faceList ops) (by rw [faceList_ids]; exact hn) f (mem_faceList.mpr hm)]
    unfold Spec.faceUses
    rw [hl]
  refine ⟨fun k F hF => by rw [hids]; exact main k F hF, fun k F => ?_⟩
  constructor
  · intro h
    have hF : (run geo ops).faces k = some F := by
      unfold edgeFaces at h
      rw [hx] at h
      obtain ⟨j, hj, he⟩ := List.mem_filterMap.mp h
      rcases hz : (run geo ops).faces j with _ | z
      · rw [hz] at he; cases he
      · rw [hz] at he; cases he; exact hz
    refine ⟨hF, ?_⟩
    rw [← main k F hF, List.count_pos_iff, ← hids]
    exact List.mem_map.mpr ⟨_, h, rfl⟩
  · rintro ⟨hF, hp⟩
    rw [← main k F hF, List.count_pos_iff] at hp
    unfold edgeFaces
    rw [hx]
    exact List.mem_filterMap.mpr ⟨k, hp, by rw [hF]; rfl⟩

/-- **C247 (order).** An edge that is added before a vertex it ends at is never listed at the vertex. -/
theorem C247_order (geo : Geo ℕ Unit Unit Unit) :
    let g := run geo [.edge 5 () 1 2 true 0, .vertex 1 () 0, .vertex 2 () 0]
    (∃ e, g.edges 5 = some e ∧ e.start = 1) ∧ vertexEdges g 1 = [] := ⟨⟨_, rfl, rfl⟩, rfl⟩

/-- **C247 (again).** An edge added again, for example after changing it, is listed twice. -/
theorem C247_again (geo : Geo ℕ Unit Unit Unit) :
    (vertexEdges (run geo [.vertex 1 () 0, .vertex 2 () 0, .edge 5 () 1 2 true 0, .edge 5 () 1 2 true 0]) 1).map (·.1) = [5, 5] := rfl

/-- **C247 (seams).** A face whose boundary runs over an edge twice (the seam of a cylinder) is listed twice at the edge. -/
theorem C247_seam (geo : Geo ℕ Unit Unit Unit) :
    (edgeFaces (run geo [.vertex 1 () 0, .vertex 2 () 0, .edge 5 () 1 2 true 0, .trim 6 ⟨5, true⟩, .trim 7 ⟨5, false⟩, .loop 8 ⟨[6, 7], true⟩, .face 9 ⟨(), [8], true, none⟩]) 5).map (·.1) = [9, 9] := rfl

theorem adjoin_fold (l acc : List K) (h : acc.Nodup) : (l.foldl adjoin acc).Nodup ∧ ∀ x, x ∈ l.foldl adjoin acc ↔ x ∈ acc ∨ x ∈ l := by
  induction l generalizing acc with
  | nil => exact ⟨h, by simp⟩
  | cons y l ih =>
    rw [List.foldl_cons]
    have hn : (adjoin acc y).Nodup := by
      unfold adjoin
      by_cases hy : y ∈ acc
      · rw [if_pos hy]; exact h
      · rw [if_neg hy]
        exact List.Nodup.append h (List.nodup_singleton y) (by intro z hz hz'; rw [List.mem_singleton] at hz'; exact hy (hz' ▸ hz))
    have hm : ∀ x, x ∈ adjoin acc y ↔ x ∈ acc ∨ x = y := by
      intro x
      unfold adjoin
      by_cases hy : y ∈ acc
      · rw [if_pos hy]
        constructor
        · exact Or.inl
        · rintro (h | rfl)
          · exact h
          · exact hy
      · rw [if_neg hy]; simp
    obtain ⟨h1, h2⟩ := ih _ hn
    refine ⟨h1, fun x => ?_⟩
    rw [h2, hm, List.mem_cons]
    tauto

/-- **C247 (faces).** `face_edges` returns each edge of the graph that the boundary of the face runs over, once, whatever the order of the additions. -/
theorem C247_face (g : Graph K P C S) (k : K) (F : Face K S) (h : g.faces k = some F) :
    (faceEdges g k).Nodup ∧ ∀ e, e ∈ faceEdges g k ↔ (g.edges e).isSome ∧ 0 < Spec.faceUses g F e := by
  unfold faceEdges
  rw [h]
  obtain ⟨h1, h2⟩ := adjoin_fold ((faceUses g F).filter fun e => (g.edges e).isSome) [] List.nodup_nil
  refine ⟨h1, fun e => ?_⟩
  dsimp only
  rw [h2, ← count_faceUses, List.count_pos_iff]
  simp [and_comm]

/-- the hypotheses can be met -/
example (geo : Geo ℕ Unit Unit Unit) : ∃ ops : List (Op ℕ Unit Unit Unit), (Spec.edgeIds ops).Nodup ∧ (Spec.faceIds ops).Nodup ∧ Spec.verticesFirst ops ∧ Spec.facesLast ops ∧
    ((run geo ops).vertices 1).isSome ∧ ((run geo ops).edges 5).isSome ∧ (vertexEdges (run geo ops) 1).map (·.1) = [5] ∧ (edgeFaces (run geo ops) 5).map (·.1) = [9] := by
  refine ⟨[.vertex 1 () 0, .edge 5 () 1 1 true 0, .trim 6 ⟨5, true⟩, .loop 8 ⟨[6], true⟩, .face 9 ⟨(), [8], true, none⟩], by simp [Spec.edgeIds], by simp [Spec.faceIds], ?_, ?_, rfl, rfl, rfl, rfl⟩
  · intro before after k p t e j c a b s t' hm
    rcases before with _ | ⟨o, before⟩
    · simp at hm
    · exfalso
      simp only [List.cons_append, List.cons.injEq] at e
      have : Op.vertex k p t ∈ before ++ Op.vertex k p t :: after := by simp
      rw [← e.2] at this
      simp at this
  · intro before after k f e o ho
    rcases before with _ | ⟨o1, before⟩
    · simp at e
    rcases before with _ | ⟨o2, before⟩
    · simp at e
    rcases before with _ | ⟨o3, before⟩
    · simp at e
    rcases before with _ | ⟨o4, before⟩
    · simp at e
    rcases before with _ | ⟨o5, before⟩
    · simp at e
      rw [e.2.2.2.2.2] at ho
      simp at ho
    · simp at e

end Verif.Brep
