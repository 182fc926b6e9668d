import Verif.Obj.Model

/-!
# The caches of `Geometry` and `Boolean`
-/

namespace Verif.Obj

open Verif.Geom (Err)

variable {F L C B S : Type}

/-! ## Specification: the same calls of an object without caches -/

/-- what a call answers if everything is computed from the figure -/
def Spec.answer (fns : Fns F L C B S) (f : F) : Op F → Except Err (Out F L C B S)
  | .move T => (T f).map fun _ => .unit
  | .length => (fns.length f).map .length
  | .center => (fns.center f).map .center
  | .bbox => (fns.bbox f).map .bbox
  | .geom => .ok (.geom f)
  | .surface a l => (fns.surface f a l).map .surface
  | .setElem _ => .ok .unit
  | .touch => .ok .unit

/-- the figure after a call: a transformation that raises leaves it as it was -/
def Spec.next (f : F) : Op F → F
  | .move T => match T f with
    | .ok g => g
    | .error _ => f
  | .setElem g => g
  | _ => f

/-- the answers of a history -/
def Spec.answers (fns : Fns F L C B S) (f : F) : List (Op F) → List (Except Err (Out F L C B S))
  | [] => []
  | o :: r => Spec.answer fns f o :: Spec.answers fns (Spec.next f o) r

/-- the transformations lead from figures that have a length, a centre and a box to such figures -/
def Spec.Tame (fns : Fns F L C B S) (Good : F → Prop) (ops : List (Op F)) : Prop :=
  (∀ f, Good f → (∃ l, fns.length f = .ok l) ∧ (∃ c, fns.center f = .ok c) ∧ ∃ b, fns.bbox f = .ok b) ∧ ∀ T, Op.move T ∈ ops → ∀ f g, Good f → T f = .ok g → Good g

/-- neither surfaces are asked for nor the property `elem` set -/
def Spec.Plain (ops : List (Op F)) : Prop := ∀ o ∈ ops, (∀ a l, o ≠ .surface a l) ∧ ∀ f, o ≠ .setElem f

/-! ## Geometry -/

/-- the invariant: the stored values are those of the figure unless the flag is set -/
def Fresh (fns : Fns F L C B S) (g : Geo F L C B S) : Prop :=
  g.update = false → fns.length g.elem = .ok g.length ∧ fns.center g.elem = .ok g.center ∧ fns.bbox g.elem = .ok g.bbox

theorem refresh_ok {fns : Fns F L C B S} {g : Geo F L C B S} {l : L} {c : Option C} {b : Option B} (h1 : fns.length g.elem = .ok l) (h2 : fns.center g.elem = .ok c) (h3 : fns.bbox g.elem = .ok b) :
    refresh fns g = ({ g with update := false, length := l, center := c, bbox := b }, .ok ()) := by
  unfold refresh
  dsimp only
  rw [h1]; dsimp only
  rw [h2]; dsimp only
  rw [h3]

theorem upToDate_ok {fns : Fns F L C B S} {g : Geo F L C B S} (hF : Fresh fns g) {l : L} {c : Option C} {b : Option B} (h1 : fns.length g.elem = .ok l) (h2 : fns.center g.elem = .ok c) (h3 : fns.bbox g.elem = .ok b)
    (k : Geo F L C B S → Geo F L C B S × Except Err (Out F L C B S)) : upToDate fns g k = k { g with update := false, length := l, center := c, bbox := b } := by
  unfold upToDate
  by_cases hu : g.update = true
  · rw [if_pos hu, refresh_ok h1 h2 h3]
  · rw [if_neg hu]
    have hu : g.update = false := by simpa using hu
    obtain ⟨e1, e2, e3⟩ := hF hu
    rw [h1] at e1; rw [h2] at e2; rw [h3] at e3
    cases e1; cases e2; cases e3
    congr 1
    cases g
    dsimp only at hu
    rw [hu]

theorem step_spec {fns : Fns F L C B S} {Good : F → Prop} {g : Geo F L C B S} {o : Op F} (ht : Spec.Tame fns Good [o]) (hp : Spec.Plain [o]) (hg : Good g.elem) (hF : Fresh fns g) :
    (step fns g o).2 = Spec.answer fns g.elem o ∧ (step fns g o).1.elem = Spec.next g.elem o ∧ Good (Spec.next g.elem o) ∧ Fresh fns (step fns g o).1 := by
  obtain ⟨⟨l, h1⟩, ⟨c, h2⟩, ⟨b, h3⟩⟩ := ht.1 _ hg
  have hFr : Fresh fns { g with update := false, length := l, center := c, bbox := b } := fun _ => ⟨h1, h2, h3⟩
  cases o with
  | move T =>
    rcases e : T g.elem with x | f
    · refine ⟨?_, ?_, ?_, ?_⟩ <;> simp only [step, Spec.answer, Spec.next, e]
      · rfl
      · exact hg
      · exact hF
    · refine ⟨?_, ?_, ?_, ?_⟩ <;> simp only [step, Spec.answer, Spec.next, e]
      · rfl
      · exact ht.2 T (List.mem_singleton.mpr rfl) _ _ hg e
      · intro h; cases h
  | length =>
    unfold step Spec.answer Spec.next; dsimp only; rw [upToDate_ok hF h1 h2 h3, h1]; exact ⟨rfl, rfl, hg, hFr⟩
  | center =>
    unfold step Spec.answer Spec.next; dsimp only; rw [upToDate_ok hF h1 h2 h3, h2]; exact ⟨rfl, rfl, hg, hFr⟩
  | bbox =>
    unfold step Spec.answer Spec.next; dsimp only; rw [upToDate_ok hF h1 h2 h3, h3]; exact ⟨rfl, rfl, hg, hFr⟩
  | geom =>
    unfold step Spec.answer Spec.next; dsimp only; rw [upToDate_ok hF h1 h2 h3]; exact ⟨rfl, rfl, hg, hFr⟩
  | surface a l => exact absurd rfl ((hp _ (List.mem_singleton.mpr rfl)).1 a l)
  | setElem f => exact absurd rfl ((hp _ (List.mem_singleton.mpr rfl)).2 f)
  | touch => exact ⟨rfl, rfl, hg, fun h => by cases h⟩

theorem answers_spec {fns : Fns F L C B S} {Good : F → Prop} : ∀ (ops : List (Op F)) {g : Geo F L C B S}, Spec.Tame fns Good ops → Spec.Plain ops → Good g.elem → Fresh fns g →
    answers fns g ops = Spec.answers fns g.elem ops
  | [], _, _, _, _, _ => rfl
  | o :: r, g, ht, hp, hg, hF => by
    obtain ⟨h1, h2, h3, h4⟩ := step_spec (o := o) (g := g) ⟨ht.1, fun T hT => ht.2 T (by rw [List.mem_singleton] at hT; rw [hT]; exact List.mem_cons_self)⟩
      (fun x hx => hp x (by rw [List.mem_singleton] at hx; rw [hx]; exact List.mem_cons_self)) hg hF
    unfold answers Spec.answers
    rw [h1, answers_spec r (g := (step fns g o).1) ⟨ht.1, fun T hT => ht.2 T (List.mem_cons_of_mem _ hT)⟩ (fun x hx => hp x (List.mem_cons_of_mem _ hx)) (h2 ▸ h3) h4, h2]

/-- **C254.** Whatever is asked of a `Geometry` object, in any order and between any transformations (also such that raise), length, centre, box and figure are those of the figure as it is at the time — as long as every figure on the way
has them, and the property `elem` is not set. -/
theorem C254_fresh_partial (fns : Fns F L C B S) (Good : F → Prop) (zero : L) (f : F) (ops : List (Op F)) (ht : Spec.Tame fns Good ops) (hp : Spec.Plain ops) (hf : Good f) :
    answers fns (new zero f) ops = Spec.answers fns f ops :=
  answers_spec (g := new zero f) ops ht hp hf fun h => by cases h

/-- **C254 (the property `elem`).** After an assignment to the property `elem` the object still has the length of the old figure (until the property `update` is set). -/
theorem C254_elem (fns : Fns F L C B S) (zero : L) (f f' : F) {l : L} {c : Option C} {b : Option B} (h1 : fns.length f = .ok l) (h2 : fns.center f = .ok c) (h3 : fns.bbox f = .ok b) :
    answers fns (new zero f) [.bbox, .setElem f', .length, .geom] = [.ok (.bbox b), .ok .unit, .ok (.length l), .ok (.geom f')] := by
  have e : upToDate fns (new zero f) (fun g => (g, .ok (.bbox g.bbox))) = _ := upToDate_ok (g := new zero f) (fun h => by cases h) h1 h2 h3 _
  unfold answers step
  dsimp only
  rw [e]
  rfl

/-- **C254 (an error is reported once).** If the length of a figure cannot be computed, the first query raises; the second one returns the stored values of before, here those of the new object: no length, no centre, no box. -/
theorem C254_error (fns : Fns F L C B S) (zero : L) (f : F) {e : Err} (h1 : fns.length f = .error e) :
    answers fns (new zero f) [.bbox, .bbox, .length] = [.error e, .ok (.bbox none), .ok (.length zero)] := by
  have e0 : refresh fns (new zero f) = ({ (new zero f : Geo F L C B S) with update := false }, .error e) := by
    unfold refresh; dsimp only; rw [show (new zero f : Geo F L C B S).elem = f from rfl, h1]
  have e' : upToDate fns (new zero f) (fun g => (g, .ok (.bbox g.bbox))) = ({ (new zero f : Geo F L C B S) with update := false }, .error e) := by
    unfold upToDate; rw [if_pos (show (new zero f : Geo F L C B S).update = true from rfl), e0]
  unfold answers step
  dsimp only
  rw [e']
  rfl

/-! ## surfaces -/

/-- the invariant of the stored surface -/
def Kept (fns : Fns F L C B S) (g : Geo F L C B S) : Prop := ∀ s, g.surface = some s → fns.surface g.elem g.ang g.len = .ok (some s)

/-- only queries -/
def Spec.Queries (ops : List (Op F)) : Prop := ∀ o ∈ ops, (∀ T, o ≠ .move T) ∧ ∀ f, o ≠ .setElem f

/-- **C255.** As long as a figure is not transformed and its surfaces can be computed, each request for a surface, in any history of queries, returns the surface of the figure at a resolution that differs by less than epsilon
from the one asked for. -/
theorem C255_surface_partial (fns : Fns F L C B S) (zero : L) (f : F) (h1 : ∃ l, fns.length f = .ok l) (h2 : ∃ c, fns.center f = .ok c) (h3 : ∃ b, fns.bbox f = .ok b) (hs : ∀ a l, ∃ s, fns.surface f a l = .ok (some s))
    (ops : List (Op F)) (hq : Spec.Queries ops) (i : ℕ) {a l : ℝ} (hi : ops[i]? = some (.surface a l)) :
    ∃ a' l', |a' - a| < Geom.eps ∧ |l' - l| < Geom.eps ∧ (answers fns (new zero f) ops)[i]? = some ((fns.surface f a' l').map .surface) := by
  obtain ⟨L1, h1⟩ := h1; obtain ⟨C1, h2⟩ := h2; obtain ⟨B1, h3⟩ := h3
  have key : ∀ (ops : List (Op F)) (g : Geo F L C B S) (i : ℕ), Spec.Queries ops → g.elem = f → Fresh fns g → Kept fns g → ops[i]? = some (.surface a l) →
      ∃ a' l', |a' - a| < Geom.eps ∧ |l' - l| < Geom.eps ∧ (answers fns g ops)[i]? = some ((fns.surface f a' l').map .surface) := by
    intro ops
    induction ops with
    | nil => intro g i _ _ _ _ h; cases h
    | cons o r ih =>
      intro g i hq he hF hK h
      have hu := fun k => upToDate_ok (g := g) hF (by rw [he]; exact h1) (by rw [he]; exact h2) (by rw [he]; exact h3) k
      have hz : |(0:ℝ)| < Geom.eps := by rw [abs_zero]; unfold Geom.eps; norm_num
      -- a computed surface
      have hcomp : ∀ (a l : ℝ) (g : Geo F L C B S), g.elem = f → Fresh fns g → ∃ s, fns.surface f a l = .ok (some s) ∧ (surface.compute fns a l g).2 = .ok (.surface (some s)) ∧
          (surface.compute fns a l g).1.elem = f ∧ Fresh fns (surface.compute fns a l g).1 ∧ Kept fns (surface.compute fns a l g).1 := by
        intro a l g he hF
        obtain ⟨s, e⟩ := hs a l
        have e' : surface.compute fns a l g = ({ g with ang := a, len := l, surface := some s }, .ok (.surface (some s))) := by
          unfold surface.compute; dsimp only; rw [he, e]
        refine ⟨s, e, ?_⟩
        rw [e']
        exact ⟨rfl, he, hF, fun t ht => by cases ht; dsimp only; rw [he]; exact e⟩
      -- what a request does
      have hstep : ∀ (a l : ℝ) (g : Geo F L C B S), g.elem = f → Fresh fns g → Kept fns g → ∃ a' l', |a' - a| < Geom.eps ∧ |l' - l| < Geom.eps ∧
          (surface fns a l g).2 = (fns.surface f a' l').map .surface ∧ (surface fns a l g).1.elem = f ∧ Fresh fns (surface fns a l g).1 ∧ Kept fns (surface fns a l g).1 := by
        intro a l g he hF hK
        obtain ⟨s, e1, e2, e3, e4, e5⟩ := hcomp a l g he hF
        have hdone : ∃ a' l', |a' - a| < Geom.eps ∧ |l' - l| < Geom.eps ∧ (surface.compute fns a l g).2 = (fns.surface f a' l').map .surface ∧ (surface.compute fns a l g).1.elem = f ∧
            Fresh fns (surface.compute fns a l g).1 ∧ Kept fns (surface.compute fns a l g).1 := by
          refine ⟨a, l, by rw [sub_self]; exact hz, by rw [sub_self]; exact hz, ?_, e3, e4, e5⟩
          rw [e2, e1]; rfl
        unfold surface
        rcases hsf : g.surface with _ | t
        · exact hdone
        · dsimp only
          by_cases hc : Geom.close g.ang a ∧ Geom.close g.len l
          · rw [if_pos hc]
            refine ⟨g.ang, g.len, hc.1, hc.2, ?_, he, hF, hK⟩
            have := hK t hsf
            rw [he] at this
            rw [this]; rfl
          · rw [if_neg hc]; exact hdone
      have hF' : Fresh fns { g with update := false, length := L1, center := C1, bbox := B1 } := fun _ => ⟨by dsimp only; rw [he]; exact h1, by dsimp only; rw [he]; exact h2, by dsimp only; rw [he]; exact h3⟩
      have hq' : Spec.Queries r := fun x hx => hq x (List.mem_cons_of_mem _ hx)
      have hnext : (step fns g o).1.elem = f ∧ Fresh fns (step fns g o).1 ∧ Kept fns (step fns g o).1 := by
        cases o with
        | move T => exact absurd rfl ((hq _ List.mem_cons_self).1 T)
        | setElem x => exact absurd rfl ((hq _ List.mem_cons_self).2 x)
        | touch => exact ⟨he, (fun h => by cases h), hK⟩
        | surface a2 l2 =>
          have e : step fns g (.surface a2 l2) = upToDate fns g (surface fns a2 l2) := rfl
          rw [e, hu]
          obtain ⟨_, _, _, _, _, e3, e4, e5⟩ := hstep a2 l2 { g with update := false, length := L1, center := C1, bbox := B1 } he hF' hK
          exact ⟨e3, e4, e5⟩
        | length => rw [show step fns g .length = upToDate fns g _ from rfl, hu]; exact ⟨he, hF', hK⟩
        | center => rw [show step fns g .center = upToDate fns g _ from rfl, hu]; exact ⟨he, hF', hK⟩
        | bbox => rw [show step fns g .bbox = upToDate fns g _ from rfl, hu]; exact ⟨he, hF', hK⟩
        | geom => rw [show step fns g .geom = upToDate fns g _ from rfl, hu]; exact ⟨he, hF', hK⟩
      rcases i with _ | i
      · rw [List.getElem?_cons_zero] at h
        cases h
        obtain ⟨a', l', x1, x2, x3, _⟩ := hstep a l { g with update := false, length := L1, center := C1, bbox := B1 } he hF' hK
        refine ⟨a', l', x1, x2, ?_⟩
        unfold answers
        rw [List.getElem?_cons_zero, show step fns g (.surface a l) = upToDate fns g (surface fns a l) from rfl, hu, x3]
      · rw [List.getElem?_cons_succ] at h
        unfold answers
        rw [List.getElem?_cons_succ]
        exact ih _ i hq' hnext.1 hnext.2.1 hnext.2.2 h
  exact key ops (new zero f) i hq rfl (fun h => by cases h) (fun s h => by cases h) hi

/-- **C255 (transformed figures).** Once a figure has a surface, it keeps it through every transformation: the surface of the moved figure is the surface of the unmoved one. -/
theorem C255_moved (fns : Fns F L C B S) (zero : L) (f f' : F) (T : F → Except Err F) (hT : T f = .ok f') (a l : ℝ) {s : S} (hs : fns.surface f a l = .ok (some s))
    (h : ∀ x, (x = f ∨ x = f') → (∃ l, fns.length x = .ok l) ∧ (∃ c, fns.center x = .ok c) ∧ ∃ b, fns.bbox x = .ok b) :
    answers fns (new zero f) [.surface a l, .move T, .geom, .surface a l] = [.ok (.surface (some s)), .ok .unit, .ok (.geom f'), .ok (.surface (some s))] := by
  obtain ⟨⟨L1, h1⟩, ⟨C1, h2⟩, ⟨B1, h3⟩⟩ := h f (.inl rfl)
  obtain ⟨⟨L2, k1⟩, ⟨C2, k2⟩, ⟨B2, k3⟩⟩ := h f' (.inr rfl)
  have e1 : step fns (new zero f) (.surface a l) = (⟨f, false, L1, C1, B1, some s, a, l⟩, .ok (.surface (some s))) := by
    rw [show step fns (new zero f) (.surface a l) = upToDate fns (new zero f) (surface fns a l) from rfl,
      upToDate_ok (g := new zero f) (fun h => by cases h) h1 h2 h3]
    unfold surface surface.compute new
    dsimp only
    rw [hs]
  have e2 : step fns (⟨f, false, L1, C1, B1, some s, a, l⟩ : Geo F L C B S) (.move T) = (⟨f', true, L1, C1, B1, some s, a, l⟩, .ok .unit) := by
    unfold step; dsimp only; rw [hT]
  have e3 : step fns (⟨f', true, L1, C1, B1, some s, a, l⟩ : Geo F L C B S) .geom = (⟨f', false, L2, C2, B2, some s, a, l⟩, .ok (.geom f')) := by
    rw [show step fns (⟨f', true, L1, C1, B1, some s, a, l⟩ : Geo F L C B S) .geom = upToDate fns _ _ from rfl,
      upToDate_ok (g := ⟨f', true, L1, C1, B1, some s, a, l⟩) (fun h => by cases h) k1 k2 k3]
  have e4 : (step fns (⟨f', false, L2, C2, B2, some s, a, l⟩ : Geo F L C B S) (.surface a l)).2 = .ok (.surface (some s)) := by
    rw [show step fns (⟨f', false, L2, C2, B2, some s, a, l⟩ : Geo F L C B S) (.surface a l) = upToDate fns _ (surface fns a l) from rfl,
      upToDate_ok (g := ⟨f', false, L2, C2, B2, some s, a, l⟩) (fun _ => ⟨k1, k2, k3⟩) k1 k2 k3]
    unfold surface
    dsimp only
    have hz : ∀ x : ℝ, Geom.close x x := fun x => by unfold Geom.close; rw [sub_self, abs_zero]; unfold Geom.eps; norm_num
    rw [if_pos ⟨hz a, hz l⟩]
  unfold answers
  rw [e1]; dsimp only
  unfold answers
  rw [e2]; dsimp only
  unfold answers
  rw [e3]; dsimp only
  unfold answers
  rw [e4]
  rfl

/-- **C255 (a failed request).** If a surface at another resolution cannot be computed, the request raises, and the same request made again returns the surface at the old resolution. -/
theorem C255_failed (fns : Fns F L C B S) (zero : L) (f : F) (a l a' l' : ℝ) {s : S} {e : Err} (hs : fns.surface f a l = .ok (some s)) (hs' : fns.surface f a' l' = .error e) (hfar : ¬ (Geom.close a a' ∧ Geom.close l l'))
    (h1 : ∃ l, fns.length f = .ok l) (h2 : ∃ c, fns.center f = .ok c) (h3 : ∃ b, fns.bbox f = .ok b) :
    answers fns (new zero f) [.surface a l, .surface a' l', .surface a' l'] = [.ok (.surface (some s)), .error e, .ok (.surface (some s))] := by
  obtain ⟨L1, h1⟩ := h1; obtain ⟨C1, h2⟩ := h2; obtain ⟨B1, h3⟩ := h3
  have e1 : step fns (new zero f) (.surface a l) = (⟨f, false, L1, C1, B1, some s, a, l⟩, .ok (.surface (some s))) := by
    rw [show step fns (new zero f) (.surface a l) = upToDate fns (new zero f) (surface fns a l) from rfl,
      upToDate_ok (g := new zero f) (fun h => by cases h) h1 h2 h3]
    unfold surface surface.compute new
    dsimp only
    rw [hs]
  have e2 : step fns (⟨f, false, L1, C1, B1, some s, a, l⟩ : Geo F L C B S) (.surface a' l') = (⟨f, false, L1, C1, B1, some s, a', l'⟩, .error e) := by
    rw [show step fns (⟨f, false, L1, C1, B1, some s, a, l⟩ : Geo F L C B S) (.surface a' l') = upToDate fns _ (surface fns a' l') from rfl,
      upToDate_ok (g := ⟨f, false, L1, C1, B1, some s, a, l⟩) (fun _ => ⟨h1, h2, h3⟩) h1 h2 h3]
    unfold surface surface.compute
    dsimp only
    rw [if_neg hfar, hs']
  have e3 : (step fns (⟨f, false, L1, C1, B1, some s, a', l'⟩ : Geo F L C B S) (.surface a' l')).2 = .ok (.surface (some s)) := by
    rw [show step fns (⟨f, false, L1, C1, B1, some s, a', l'⟩ : Geo F L C B S) (.surface a' l') = upToDate fns _ (surface fns a' l') from rfl,
      upToDate_ok (g := ⟨f, false, L1, C1, B1, some s, a', l'⟩) (fun _ => ⟨h1, h2, h3⟩) h1 h2 h3]
    unfold surface
    dsimp only
    have hz : ∀ x : ℝ, Geom.close x x := fun x => by unfold Geom.close; rw [sub_self, abs_zero]; unfold Geom.eps; norm_num
    rw [if_pos ⟨hz a', hz l'⟩]
  unfold answers
  rw [e1]; dsimp only
  unfold answers
  rw [e2]; dsimp only
  unfold answers
  rw [e3]
  rfl

/-! ## Boolean -/

variable {G O : Type}

/-- what a call answers if everything is computed from the operands -/
def Spec.banswer (fns : BFns G O L C B) (gs : List G) : BOp G → Except Err (BOut O L C B)
  | .move T => (gs.mapM T).map fun _ => .unit
  | .length => (combined fns gs).map fun o => .length (fns.length o)
  | .center => (combined fns gs).map fun o => .center (fns.center o)
  | .bbox => (combined fns gs).map fun o => .bbox (fns.bbox o)
  | .geom => (combined fns gs).map .geom

/-- the operands after a call -/
def Spec.bnext (gs : List G) : BOp G → List G
  | .move T => match gs.mapM T with
    | .ok hs => hs
    | .error _ => gs
  | _ => gs

/-- the answers of a history -/
def Spec.banswers (fns : BFns G O L C B) (gs : List G) : List (BOp G) → List (Except Err (BOut O L C B))
  | [] => []
  | o :: r => Spec.banswer fns gs o :: Spec.banswers fns (Spec.bnext gs o) r

/-- after the construction and after each transformation, `geom` is asked before `length`, `center` and `bbox` are (`dirty`: not yet) -/
def Spec.geomFirst : Bool → List (BOp G) → Prop
  | _, [] => True
  | _, .move _ :: r => geomFirst true r
  | _, .geom :: r => geomFirst false r
  | dirty, _ :: r => dirty = false ∧ geomFirst dirty r

/-- transformations that raise for no operand, and operands that can be combined -/
def Spec.BTame (fns : BFns G O L C B) (Good : List G → Prop) (ops : List (BOp G)) : Prop :=
  (∀ gs, Good gs → ∃ o, combined fns gs = .ok o) ∧ ∀ T, BOp.move T ∈ ops → ∀ gs, Good gs → ∃ hs, gs.mapM T = .ok hs ∧ Good hs

theorem moveAll_ok {T : G → Except Err G} : ∀ {gs hs : List G}, gs.mapM T = .ok hs → moveAll T gs = (hs, .ok ())
  | [], hs, h => by cases h; rfl
  | g :: r, hs, h => by
    rw [List.mapM_cons] at h
    unfold moveAll
    rcases e : T g with x | g'
    · rw [e] at h; cases h
    · rw [e] at h
      rcases e2 : r.mapM T with x | r'
      · rw [e2] at h; cases h
      · rw [e2] at h
        cases h
        dsimp only
        rw [moveAll_ok e2]

/-- the invariant of the stored outline -/
def BFresh (fns : BFns G O L C B) (b : Boo G O L C B) : Prop :=
  b.update = false → combined fns b.elems = .ok b.outline ∧ b.length = fns.length b.outline ∧ b.center = fns.center b.outline ∧ b.bbox = fns.bbox b.outline

theorem upToDateBoo_ok {zero : L} {b : Boo G O L C B} (h : b.update = false) (k : Boo G O L C B → BOut O L C B) : upToDateBoo zero b k = (b, .ok (k b)) := by
  unfold upToDateBoo; rw [if_neg (by rw [h]; exact Bool.false_ne_true)]

theorem banswers_spec {zero : L} {fns : BFns G O L C B} {Good : List G → Prop} : ∀ (ops : List (BOp G)) {b : Boo G O L C B}, Spec.BTame fns Good ops → Spec.geomFirst b.update ops → Good b.elems → BFresh fns b →
    banswers zero fns b ops = Spec.banswers fns b.elems ops
  | [], _, _, _, _, _ => rfl
  | o :: r, b, ht, hg, hG, hF => by
    have ht' : Spec.BTame fns Good r := ⟨ht.1, fun T hT => ht.2 T (List.mem_cons_of_mem _ hT)⟩
    unfold banswers Spec.banswers
    cases o with
    | move T =>
      obtain ⟨hs, e, hgood⟩ := ht.2 T List.mem_cons_self _ hG
      have e1 : bstep zero fns b (.move T) = ({ b with elems := hs, update := true }, .ok .unit) := by unfold bstep; dsimp only; rw [moveAll_ok e]
      have e2 : Spec.banswer fns b.elems (.move T) = .ok .unit := by unfold Spec.banswer; dsimp only; rw [e]; rfl
      have e3 : Spec.bnext b.elems (.move T) = hs := by unfold Spec.bnext; dsimp only; rw [e]
      rw [e1, e2, e3]
      dsimp only
      rw [banswers_spec r (b := { b with elems := hs, update := true }) ht' hg hgood (fun h => by cases h)]
    | geom =>
      obtain ⟨o, e⟩ := ht.1 _ hG
      have e2 : Spec.banswer fns b.elems .geom = .ok (.geom o) := by unfold Spec.banswer; dsimp only; rw [e]; rfl
      rw [e2, show Spec.bnext b.elems .geom = b.elems from rfl]
      by_cases hu : b.update = true
      · have e1 : bstep zero fns b .geom = ({ b with outline := o, update := false, bbox := fns.bbox o, length := fns.length o, center := fns.center o }, .ok (.geom o)) := by
          unfold bstep; dsimp only; rw [if_pos hu, e]
        rw [e1]
        dsimp only
        rw [banswers_spec r (b := { b with outline := o, update := false, bbox := fns.bbox o, length := fns.length o, center := fns.center o }) ht' hg hG (fun _ => ⟨e, rfl, rfl, rfl⟩)]
      · have hu' : b.update = false := by simpa using hu
        have ho : b.outline = o := by have := (hF hu').1; rw [e] at this; cases this; rfl
        have e1 : bstep zero fns b .geom = (b, .ok (.geom o)) := by unfold bstep; dsimp only; rw [if_neg hu, ho]
        rw [e1]
        dsimp only
        rw [banswers_spec r (b := b) ht' (by rw [hu']; exact hg) hG hF]
    | length =>
      obtain ⟨hu, hg⟩ := hg
      obtain ⟨f1, f2, f3, f4⟩ := hF hu
      rw [show bstep zero fns b .length = upToDateBoo zero b _ from rfl, upToDateBoo_ok hu]
      have e2 : Spec.banswer fns b.elems .length = .ok (.length b.length) := by unfold Spec.banswer; dsimp only; rw [f1, f2]; rfl
      rw [e2, show Spec.bnext b.elems .length = b.elems from rfl]
      dsimp only
      rw [banswers_spec r (b := b) ht' hg hG hF]
    | center =>
      obtain ⟨hu, hg⟩ := hg
      obtain ⟨f1, f2, f3, f4⟩ := hF hu
      rw [show bstep zero fns b .center = upToDateBoo zero b _ from rfl, upToDateBoo_ok hu]
      have e2 : Spec.banswer fns b.elems .center = .ok (.center b.center) := by unfold Spec.banswer; dsimp only; rw [f1, f3]; rfl
      rw [e2, show Spec.bnext b.elems .center = b.elems from rfl]
      dsimp only
      rw [banswers_spec r (b := b) ht' hg hG hF]
    | bbox =>
      obtain ⟨hu, hg⟩ := hg
      obtain ⟨f1, f2, f3, f4⟩ := hF hu
      rw [show bstep zero fns b .bbox = upToDateBoo zero b _ from rfl, upToDateBoo_ok hu]
      have e2 : Spec.banswer fns b.elems .bbox = .ok (.bbox b.bbox) := by unfold Spec.banswer; dsimp only; rw [f1, f4]; rfl
      rw [e2, show Spec.bnext b.elems .bbox = b.elems from rfl]
      dsimp only
      rw [banswers_spec r (b := b) ht' hg hG hF]

/-- **C256.** In every history of transformations and queries in which `geom` is asked before the other properties after the construction and after each transformation, the answers of a `Boolean` are those of the combination of its
operands as they are at the time. -/
theorem C256_fresh_partial (zero : L) (nil : O) (fns : BFns G O L C B) (Good : List G → Prop) (gs : List G) (ops : List (BOp G)) (ht : Spec.BTame fns Good ops) (hg : Spec.geomFirst true ops) (hG : Good gs) :
    banswers zero fns (newBoo zero nil gs) ops = Spec.banswers fns gs ops :=
  banswers_spec (b := newBoo zero nil gs) ops ht hg hG fun h => by cases h

/-- **C256 (the combination).** It is made by combining the first two operands, the result with the third, and so on, and leaving out what is shorter than epsilon at the end; with a single operand or none it is a `ValueError`. -/
theorem C256_combination (fns : BFns G O L C B) (a b : G) (r : List G) (o : O) :
    (combined fns (a :: b :: r) = .ok o ↔ ∃ o₁ o₂, fns.combine (.inl a) b = .ok o₁ ∧
      (r.foldlM (fun x g => fns.combine (.inr x) g) o₁ : Except Err O) = .ok o₂ ∧ o = fns.cull o₂) ∧
    combined fns [a] = .error .valueError ∧ combined fns [] = .error .valueError := by
  refine ⟨?_, rfl, rfl⟩
  have key : ∀ (r : List G) (x : O), combineFrom fns (.inr x) r = (r.foldlM (fun x g => fns.combine (.inr x) g) x : Except Err O).map .inr := by
    intro r
    induction r with
    | nil => intro x; rfl
    | cons g r ih =>
      intro x
      rw [combineFrom, List.foldlM_cons]
      cases hc : fns.combine (.inr x) g with
      | error e => rfl
      | ok y => exact ih y
  unfold combined
  simp only
  rw [combineFrom]
  cases h1 : fns.combine (.inl a) b with
  | error e => simp
  | ok o₁ =>
    simp only
    rw [key]
    cases h2 : (r.foldlM (fun x g => fns.combine (.inr x) g) o₁ : Except Err O) with
    | error e =>
      simp only [Except.map]
      constructor
      · intro h; cases h
      · rintro ⟨p, q, hp, hq, -⟩
        injection hp with hp
        rw [← hp, h2] at hq
        cases hq
    | ok o₂ =>
      simp only [Except.map]
      constructor
      · intro h
        injection h with h
        exact ⟨o₁, o₂, rfl, h2, h.symm⟩
      · rintro ⟨p, q, hp, hq, he⟩
        injection hp with hp
        rw [← hp, h2] at hq
        injection hq with hq
        rw [he, hq]

/-- **C256 (the box first).** Asked for its box (or length, centre, a sample, a surface) before its figure, a `Boolean` with operands raises `ValueError`; from then on its figure is empty, its length zero and its box missing. -/
theorem C256_first (zero : L) (nil : O) (fns : BFns G O L C B) (g : G) (gs : List G) :
    banswers zero fns (newBoo zero nil (g :: gs)) [.bbox, .geom, .length, .bbox] = [.error .valueError, .ok (.geom nil), .ok (.length zero), .ok (.bbox none)] := rfl

/-- **C256 (moved, then the box).** After a transformation the same happens: the box raises, and the figure is the one before the transformation. -/
theorem C256_moved (zero : L) (nil : O) (fns : BFns G O L C B) (gs hs : List G) (T : G → Except Err G) (hT : gs.mapM T = .ok hs) {o : O} (ho : combined fns gs = .ok o) :
    banswers zero fns (newBoo zero nil gs) [.geom, .move T, .bbox, .geom] = [.ok (.geom o), .ok .unit, .error .valueError, .ok (.geom o)] := by
  have hne : ∃ x y, hs = x :: y := by
    rcases gs with _ | ⟨x, r⟩
    · cases ho
    · rw [List.mapM_cons] at hT
      rcases e : T x with z | x'
      · rw [e] at hT; cases hT
      · rw [e] at hT
        rcases e2 : r.mapM T with z | r'
        · rw [e2] at hT; cases hT
        · rw [e2] at hT; cases hT; exact ⟨_, _, rfl⟩
  obtain ⟨x, y, rfl⟩ := hne
  have e1 : bstep zero fns (newBoo zero nil gs) .geom = (⟨gs, false, o, fns.length o, fns.center o, fns.bbox o⟩, .ok (.geom o)) := by
    unfold bstep newBoo; dsimp only; rw [if_pos rfl, ho]
  have e2 : bstep zero fns (⟨gs, false, o, fns.length o, fns.center o, fns.bbox o⟩ : Boo G O L C B) (.move T) = (⟨x :: y, true, o, fns.length o, fns.center o, fns.bbox o⟩, .ok .unit) := by
    unfold bstep; dsimp only; rw [moveAll_ok hT]
  unfold banswers
  rw [e1]; dsimp only
  unfold banswers
  rw [e2]; dsimp only
  rfl

/-- **C256 (half moved).** If the transformation raises for an operand, those before it are transformed and those from it on are not. -/
theorem C256_half (zero : L) (fns : BFns G O L C B) (b : Boo G O L C B) (gs hs rest : List G) (g : G) (T : G → Except Err G) (hb : b.elems = gs ++ g :: rest) (hT : gs.mapM T = .ok hs) {e : Err} (he : T g = .error e) :
    (bstep zero fns b (.move T)).2 = .error e ∧ (bstep zero fns b (.move T)).1.elems = hs ++ g :: rest := by
  have key : ∀ (gs hs : List G), gs.mapM T = .ok hs → moveAll T (gs ++ g :: rest) = (hs ++ g :: rest, .error e) := by
    intro gs
    induction gs with
    | nil => intro hs h; cases h; show moveAll T (g :: rest) = _; unfold moveAll; rw [he]; rfl
    | cons x r ih =>
      intro hs h
      rw [List.mapM_cons] at h
      rcases e1 : T x with z | x'
      · rw [e1] at h; cases h
      · rw [e1] at h
        rcases e2 : r.mapM T with z | r'
        · rw [e2] at h; cases h
        · rw [e2] at h
          cases h
          show moveAll T (x :: (r ++ g :: rest)) = _
          unfold moveAll
          rw [e1]; dsimp only
          rw [ih _ e2]; rfl
  unfold bstep
  dsimp only
  rw [hb, key gs hs hT]
  exact ⟨rfl, rfl⟩

/-! ## the hypotheses can be met -/

/-- figures that are numbers; the length is the number, negative figures cannot be triangulated finer than 1 -/
def exFns : Fns ℤ ℤ ℤ ℤ ℤ := ⟨fun f => .ok f, fun f => .ok (some f), fun f => .ok (some f), fun f _ _ => .ok (some f)⟩

example : Spec.Tame exFns (fun _ => True) [.length, .move fun f => .ok (f + 1), .length, .bbox] ∧ Spec.Plain ([.length, .move fun f => .ok (f + 1), .length, .bbox] : List (Op ℤ)) := by
  refine ⟨⟨fun f _ => ⟨⟨f, rfl⟩, ⟨some f, rfl⟩, ⟨some f, rfl⟩⟩, fun _ _ _ _ _ _ => trivial⟩, fun o ho => ?_⟩
  simp only [List.mem_cons, List.not_mem_nil, or_false] at ho
  rcases ho with rfl | rfl | rfl | rfl <;> exact ⟨(fun _ _ h => nomatch h), (fun _ h => nomatch h)⟩

example : Spec.geomFirst true ([.geom, .bbox, .move fun g => .ok (g + 1), .geom, .length] : List (BOp ℤ)) := ⟨rfl, rfl, trivial⟩

end Verif.Obj
