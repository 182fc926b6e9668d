import Verif.Brep.Closure

/-! # Adding shells and solids -/

namespace Verif.Brep

variable {K P C S : Type} [DecidableEq K]

/-! ## Specification -/

/-- every edge is used twice or not at all -/
def Spec.Closed (g : Graph K P C S) (s : Shell K) : Prop := ∀ e, Spec.uses g s e = 0 ∨ Spec.uses g s e = 2

/-! ## dictionaries -/

theorem touch_fold {X : Type} (f : X → X) (hf : ∀ x, f (f x) = f x) (ks : List K) (d : K → Option X) (k : K) :
    ks.foldl (fun d j => touch d j f) d k = if k ∈ ks then (d k).map f else d k := by
  induction ks generalizing d with
  | nil => simp
  | cons j ks ih =>
    rw [List.foldl_cons, ih]
    unfold touch
    by_cases h : k = j
    · subst h
      by_cases h' : k ∈ ks
      · simp only [h', List.mem_cons, or_true, if_true]
        rcases d k with _ | x
        · rfl
        · simp [hf]
      · simp [h']
    · by_cases h' : k ∈ ks <;> simp [h, h']

theorem uses_congr {g g' : Graph K P C S} {s : Shell K} (hf : ∀ f, (g'.faces f).map (·.loops) = (g.faces f).map (·.loops)) (hl : g'.loops = g.loops) (ht : g'.trims = g.trims) (e : K) :
    Spec.uses g' s e = Spec.uses g s e := by
  unfold Spec.uses
  refine Finset.sum_congr rfl fun f _ => ?_
  have := hf f
  rcases h1 : g'.faces f with _ | F' <;> rcases h2 : g.faces f with _ | F
  · rfl
  · rw [h1, h2] at this; cases this
  · rw [h1, h2] at this; cases this
  · rw [h1, h2] at this
    have e1 : F'.loops = F.loops := by simpa using this
    dsimp only
    unfold Spec.faceUses Spec.loopUses
    rw [e1, hl, ht]

theorem place_faces (g : Graph K P C S) (k : K) (s : Shell K) (f : K) : (placeShell g k s).faces f = if f ∈ s.faces then (g.faces f).map (inShell k) else g.faces f :=
  touch_fold (inShell k) (fun _ => rfl) s.faces g.faces f

theorem place_uses (g : Graph K P C S) (k : K) (s t : Shell K) (e : K) : Spec.uses (placeShell g k s) t e = Spec.uses g t e := by
  refine uses_congr (g := g) (g' := placeShell g k s) (fun f => ?_) rfl rfl e
  rw [place_faces]
  by_cases h : f ∈ s.faces
  · rw [if_pos h, Option.map_map]; rfl
  · rw [if_neg h]

theorem place_closed (g : Graph K P C S) (k : K) (s : Shell K) : (closure (placeShell g k s) s).closed = true ↔ Spec.Closed g s := by
  rw [C245_closed]
  unfold Spec.Closed
  simp only [place_uses]

/-! ## the theorems -/

/-- **C246 (a shell said to be closed).** With validation, a shell that says it is closed is accepted exactly if it is closed. -/
theorem C246_claimed (g : Graph K P C S) (k : K) (s : Shell K) (h : s.closed = some true) : (addShell g k s true).2 = .ok () ↔ Spec.Closed g s := by
  rw [← place_closed g k s]
  unfold addShell
  dsimp only
  rw [if_pos rfl, h]
  dsimp only
  have hs : (placeShell g k s).shells k = some s := by unfold placeShell put; simp
  unfold validateClosure computeClosure
  rw [hs]
  dsimp only
  by_cases hc : (closure (placeShell g k s) s).closed = true
  · rw [if_pos hc]; simp [hc]
  · rw [if_neg hc]; simp [hc]

/-- **C246 (detection).** A shell that does not say is accepted and marked as what it is; one that says it is open is accepted as it is. -/
theorem C246_detected (g : Graph K P C S) (k : K) (s : Shell K) :
    (s.closed = none → (addShell g k s true).2 = .ok () ∧ ∃ c, (addShell g k s true).1.shells k = some { s with closed := some c } ∧ (c = true ↔ Spec.Closed g s)) ∧
    (s.closed = some false → (addShell g k s true).2 = .ok () ∧ (addShell g k s true).1.shells k = some s) := by
  constructor
  · intro h
    unfold addShell
    dsimp only
    rw [if_pos rfl, h]
    dsimp only
    refine ⟨rfl, (closure (placeShell g k s) s).closed, ?_, place_closed g k s⟩
    unfold put
    rw [if_pos rfl]
  · intro h
    unfold addShell
    dsimp only
    rw [if_pos rfl, h]
    exact ⟨rfl, by unfold placeShell put; simp⟩

/-- **C246 (the rest of the graph).** Adding a shell changes nothing else but that the faces of the shell that are in the graph name it as theirs; whether other shells are closed stays the same. -/
theorem C246_frame (g : Graph K P C S) (k : K) (s : Shell K) (v : Bool) :
    (∀ f, (addShell g k s v).1.faces f = if f ∈ s.faces then (g.faces f).map fun F => { F with shell := some k } else g.faces f) ∧
    (addShell g k s v).1.vertices = g.vertices ∧ (addShell g k s v).1.edges = g.edges ∧ (addShell g k s v).1.trims = g.trims ∧ (addShell g k s v).1.loops = g.loops ∧
    (addShell g k s v).1.solids = g.solids ∧ (∀ j, j ≠ k → (addShell g k s v).1.shells j = g.shells j) ∧ ∀ t, Spec.Closed (addShell g k s v).1 t ↔ Spec.Closed g t := by
  have hp : ∀ j, j ≠ k → (placeShell g k s).shells j = g.shells j := by intro j hj; unfold placeShell put; simp [hj]
  have hput : ∀ x j, j ≠ k → put (placeShell g k s).shells k x j = g.shells j := by intro x j hj; unfold put; rw [if_neg hj]; exact hp j hj
  have hcl : ∀ t, Spec.Closed (placeShell g k s) t ↔ Spec.Closed g t := by intro t; unfold Spec.Closed; simp only [place_uses]
  have key : ∀ g', ((addShell g k s v).1 = g') → g' = placeShell g k s ∨ ∃ x, g' = { placeShell g k s with shells := put (placeShell g k s).shells k x } := by
    intro g' h
    subst h
    unfold addShell
    dsimp only
    by_cases hv : v = true
    · rw [if_pos hv]
      rcases s.closed with _ | _ | _
      · exact Or.inr ⟨_, rfl⟩
      · exact Or.inl rfl
      · dsimp only
        rcases validateClosure (placeShell g k s) k with e | c
        · exact Or.inl rfl
        · exact Or.inl rfl
    · rw [if_neg hv]; exact Or.inl rfl
  rcases key _ rfl with h | ⟨x, h⟩
  · rw [h]; exact ⟨place_faces g k s, rfl, rfl, rfl, rfl, rfl, hp, hcl⟩
  · rw [h]; exact ⟨place_faces g k s, rfl, rfl, rfl, rfl, rfl, hput x, hcl⟩

/-- **C246 (a refused shell).** A shell that is refused is in the graph all the same, and its faces name it as theirs. -/
theorem C246_refused (g : Graph K P C S) (k : K) (s : Shell K) (v : Bool) {e : Err} (h : (addShell g k s v).2 = .error e) :
    (addShell g k s v).1.shells k = some s ∧ e = .closure := by
  unfold addShell at h ⊢
  dsimp only at h ⊢
  by_cases hv : v = true
  · rw [if_pos hv] at h ⊢
    have hs : (placeShell g k s).shells k = some s := by unfold placeShell put; simp
    rcases hc : s.closed with _ | _ | _
    · rw [hc] at h; cases h
    · rw [hc] at h; cases h
    · rw [hc] at h
      dsimp only at h ⊢
      unfold validateClosure computeClosure at h ⊢
      rw [hs] at h ⊢
      dsimp only at h ⊢
      by_cases hcl : (closure (placeShell g k s) s).closed = true
      · rw [if_pos hcl] at h; cases h
      · rw [if_neg hcl] at h ⊢
        cases h
        exact ⟨hs, rfl⟩
  · rw [if_neg hv] at h; cases h

/-- **C246 (a stale mark).** A shell that is found closed keeps the mark when its faces are added later and it is open. -/
theorem C246_stale (geo : Geo ℕ Unit Unit Unit) :
    let g := run geo [.trim 1 ⟨0, true⟩, .loop 2 ⟨[1], true⟩, .shell 4 ⟨[3], true, none, none⟩ true, .face 3 ⟨(), [2], true, none⟩]
    ∃ s, g.shells 4 = some s ∧ s.closed = some true ∧ ¬ Spec.Closed g s := by
  refine ⟨⟨[3], true, some true, none⟩, rfl, rfl, ?_⟩
  intro h
  have h0 := h 0
  have h1 : Spec.uses (run geo [.trim 1 ⟨0, true⟩, .loop 2 ⟨[1], true⟩, .shell 4 ⟨[3], true, none, none⟩ true, .face 3 ⟨(), [2], true, none⟩]) ⟨[3], true, some true, none⟩ 0 = 1 := rfl
  rw [h1] at h0
  omega

/-- **C248.** A solid is accepted exactly if it is in the graph and has at least one shell, all its shells are in the graph, not marked open, and closed, no two of them intersect, and the outer (first)
shell contains the centre of the box of each of the others that has a box. Here "intersect", "centre" and "contains" are whatever the geometric functions answer. -/
theorem C248_accept (geo : Geo K P C S) (g : Graph K P C S) (k : K) :
    validateSolid geo g k = .ok () ↔ ∃ outer voids, (g.solids k).map (·.shells) = some (outer :: voids) ∧
      (∀ h ∈ outer :: voids, ∃ s, g.shells h = some s ∧ s.closed ≠ some false ∧ Spec.Closed g s) ∧
      (outer :: voids).Pairwise (fun a b => geo.intersect g a b = false) ∧
      ∀ h ∈ voids, ∀ c, geo.center g h = some c → geo.contains g outer c = true := by
  have hok : ∀ h, shellOk g h = true ↔ ∃ s, g.shells h = some s ∧ s.closed ≠ some false ∧ Spec.Closed g s := by
    intro h
    unfold shellOk
    rcases g.shells h with _ | s
    · simp
    · rcases hc : s.closed with _ | _ | _
      · simp [hc, C245_closed, Spec.Closed]
      · simp [hc]
      · simp [hc, C245_closed, Spec.Closed]
  have hpairs : ∀ l : List K, (pairs l).any (fun p => geo.intersect g p.1 p.2) = false ↔ l.Pairwise (fun a b => geo.intersect g a b = false) := by
    intro l
    induction l with
    | nil => simp [pairs]
    | cons x xs ih =>
      unfold pairs
      rw [List.any_append, Bool.or_eq_false_iff, ih, List.pairwise_cons, List.any_map]
      refine and_congr_left fun _ => ?_
      rw [List.any_eq_false]
      simp
  have hvoid : ∀ outer h, voidOk geo g outer h = true ↔ ∀ c, geo.center g h = some c → geo.contains g outer c = true := by
    intro outer h
    unfold voidOk
    rcases geo.center g h with _ | c <;> simp
  unfold validateSolid
  rcases hs : g.solids k with _ | s
  · simp
  rcases hh : s.shells with _ | ⟨outer, voids⟩
  · simp [hh]
  dsimp only
  rw [Option.map_some, hh]
  dsimp only
  constructor
  · intro h
    by_cases h1 : (outer :: voids).all (shellOk g) = true
    · rw [h1] at h
      by_cases h2 : (pairs (outer :: voids)).any (fun p => geo.intersect g p.1 p.2) = true
      · rw [h2] at h; simp at h
      · rw [Bool.not_eq_true] at h2
        rw [h2] at h
        by_cases h3 : voids.all (voidOk geo g outer) = true
        · exact ⟨outer, voids, rfl, fun x hx => (hok x).mp (List.all_eq_true.mp h1 x hx), (hpairs _).mp h2, fun x hx => (hvoid _ _).mp (List.all_eq_true.mp h3 x hx)⟩
        · rw [Bool.not_eq_true] at h3; rw [h3] at h; simp at h
    · rw [Bool.not_eq_true] at h1; rw [h1] at h; simp at h
  · rintro ⟨o', v', he, h1, h2, h3⟩
    have he := Option.some.inj he
    obtain ⟨rfl, rfl⟩ := List.cons.inj he
    rw [List.all_eq_true.mpr fun x hx => (hok x).mpr (h1 x hx), (hpairs _).mpr h2, List.all_eq_true.mpr fun x hx => (hvoid _ _).mpr (h3 x hx)]
    rfl

/-- **C248 (adding).** Adding a solid gives what its validation in the new graph gives; in either case the solid is in the graph afterwards, and its shells name it as theirs. -/
theorem C248_add (geo : Geo K P C S) (g : Graph K P C S) (k : K) (s : Solid K) (v : Bool) :
    (addSolid geo g k s v).1.solids k = some s ∧ (∀ h, (addSolid geo g k s v).1.shells h = if h ∈ s.shells then (g.shells h).map fun x => { x with solid := some k } else g.shells h) ∧
    (addSolid geo g k s v).2 = if v then validateSolid geo (addSolid geo g k s v).1 k else .ok () := by
  have h1 : ∀ v, (addSolid geo g k s v).1 = { g with solids := put g.solids k s, shells := s.shells.foldl (fun ss h => touch ss h fun x => { x with solid := some k }) g.shells } := by
    intro v
    unfold addSolid
    dsimp only
    by_cases hv : v = true
    · rw [if_pos hv]
    · rw [if_neg hv]
  refine ⟨by rw [h1]; unfold put; simp, fun h => ?_, ?_⟩
  · rw [h1]
    exact touch_fold (fun x : Shell K => { x with solid := some k }) (fun _ => rfl) s.shells g.shells h
  · rw [h1]
    unfold addSolid
    dsimp only
    by_cases hv : v = true
    · rw [if_pos hv, if_pos hv]
    · rw [if_neg hv, if_neg hv]

/-- the hypotheses can be met -/
example : Spec.Closed lens ⟨[10, 11], true, some true, none⟩ ∧ (addShell lens 20 ⟨[10, 11], true, some true, none⟩ true).2 = .ok () ∧
    (addShell lens 20 ⟨[10], true, some true, none⟩ true).2 = .error .closure := by
  have h : Spec.Closed lens ⟨[10, 11], true, some true, none⟩ := (C245_closed _ _).mp (by decide +kernel)
  exact ⟨h, (C246_claimed _ _ _ rfl).mpr h, rfl⟩

end Verif.Brep
