import Verif.Step.Spec

/-! # Reading entities of a growing file -/

namespace Verif.Step

set_option linter.unusedSectionVars false

variable {P D L : Type}

theorem get_left {w v : List (Ent P D L)} {n : Nat} {e : Ent P D L} (h : get w n = some e) : get (w ++ v) n = some e := by
  unfold get at h ⊢
  by_cases hn : n = 0
  · simp [hn] at h
  · rw [if_neg hn] at h ⊢
    obtain ⟨h1, -⟩ := List.getElem?_eq_some_iff.1 h
    rw [List.getElem?_append_left h1, h]

theorem get_le {w : List (Ent P D L)} {n : Nat} {e : Ent P D L} (h : get w n = some e) : n ≤ w.length := by
  unfold get at h
  by_cases hn : n = 0
  · omega
  · rw [if_neg hn] at h
    obtain ⟨h1, -⟩ := List.getElem?_eq_some_iff.1 h
    omega

theorem get_right (w v : List (Ent P D L)) (k : Nat) : get (w ++ v) (w.length + k + 1) = v[k]? := by
  unfold get
  rw [if_neg (by omega), Nat.add_sub_cancel, List.getElem?_append_right (by omega), Nat.add_sub_cancel_left]

theorem get_snoc (w : List (Ent P D L)) (e : Ent P D L) : get (w ++ [e]) (w.length + 1) = some e := by
  have := get_right w [e] 0
  simpa using this

/-- there is an entity of this kind with this number -/
def Has (w : List (Ent P D L)) (n : Nat) (k : Kind) : Prop := ∃ e, get w n = some e ∧ e.kind = k

theorem Has.left {w v : List (Ent P D L)} {n : Nat} {k : Kind} (h : Has w n k) : Has (w ++ v) n k := by
  obtain ⟨e, h1, h2⟩ := h
  exact ⟨e, get_left h1, h2⟩

/-- the references of an entity are to entities of the right kinds -/
def Ok (w : List (Ent P D L)) (e : Ent P D L) : Prop := ∀ r ∈ e.refs, Has w r.1 r.2

theorem wf_snoc {w : List (Ent P D L)} (h : WellFormed w) {e : Ent P D L} (he : Ok w e) : WellFormed (w ++ [e]) := by
  intro n x hx r hr
  rcases Nat.lt_trichotomy n (w.length + 1) with hn | hn | hn
  · have hx' : get w n = some x := by
      unfold get at hx ⊢
      by_cases h0 : n = 0
      · simp [h0] at hx
      · rw [if_neg h0] at hx ⊢
        rwa [List.getElem?_append_left (by omega)] at hx
    obtain ⟨a, e', b, c⟩ := h n x hx' r hr
    exact ⟨a, e', get_left b, c⟩
  · subst hn
    rw [get_snoc, Option.some.injEq] at hx
    subst hx
    obtain ⟨e', h1, h2⟩ := he r hr
    have := get_le h1
    exact ⟨by omega, e', get_left h1, h2⟩
  · have := get_le hx
    rw [List.length_append, List.length_singleton] at this
    omega

/-- entities appended one after the other -/
def OkAll (w : List (Ent P D L)) : List (Ent P D L) → Prop
  | [] => True
  | e :: v => Ok w e ∧ OkAll (w ++ [e]) v

theorem wf_append : ∀ {v w : List (Ent P D L)}, WellFormed w → OkAll w v → WellFormed (w ++ v)
  | [], w, h, _ => by rwa [List.append_nil]
  | e :: v, w, h, ho => by
    have := wf_append (wf_snoc h ho.1) ho.2
    rwa [List.append_assoc] at this

theorem wf_nil : WellFormed ([] : List (Ent P D L)) := by
  intro n e h
  unfold get at h
  split at h <;> simp at h

theorem Has.new {w : List (Ent P D L)} (v : List (Ent P D L)) {n k : Nat} {e : Ent P D L} {c : Kind} (hn : n = w.length + k + 1) (h : v[k]? = some e) (hc : e.kind = c) : Has (w ++ v) n c :=
  ⟨e, by rw [hn, get_right, h], hc⟩

/-! ## reading does not change when the file grows -/

theorem readVertex_left {w v : List (Ent P D L)} {n : Nat} {p : P} (h : readVertex w n = some p) : readVertex (w ++ v) n = some p := by
  unfold readVertex at h ⊢
  split at h
  · rename_i q h1
    rw [get_left h1]
    dsimp only
    split at h
    · rename_i c h2
      rw [get_left h2]
      exact h
    · exact nomatch h
  · exact nomatch h

theorem readSide_left {w v : List (Ent P D L)} {n : Nat} {s : P × P} (h : readSide w n = some s) : readSide (w ++ v) n = some s := by
  unfold readSide at h ⊢
  split at h
  · rename_i e f h1
    rw [get_left h1]
    dsimp only
    split at h
    · rename_i a b l h2
      rw [get_left h2]
      dsimp only
      split at h
      · rename_i p q h3 h4
        rw [readVertex_left h3, readVertex_left h4]
        exact h
      · exact nomatch h
    · exact nomatch h
  · exact nomatch h

theorem readPlane_left {w v : List (Ent P D L)} {n : Nat} {s : P × D × D} (h : readPlane w n = some s) : readPlane (w ++ v) n = some s := by
  unfold readPlane at h ⊢
  split at h
  · rename_i a h1
    rw [get_left h1]
    dsimp only
    split at h
    · rename_i p d r h2
      rw [get_left h2]
      dsimp only
      split at h
      · rename_i h3 h4 h5
        rw [get_left h3, get_left h4, get_left h5]
        exact h
      · exact nomatch h
    · exact nomatch h
  · exact nomatch h

theorem allSome_eq {X : Type} : ∀ {l : List (Option X)} {xs : List X}, allSome l = some xs ↔ l = xs.map some
  | [], xs => by
    rw [allSome]
    constructor
    · rintro h; rw [Option.some.injEq] at h; subst h; rfl
    · intro h; rw [eq_comm, List.map_eq_nil_iff] at h; rw [h]
  | none :: l, xs => by
    simp only [allSome, reduceCtorEq, false_iff]
    intro h
    cases xs <;> simp at h
  | some x :: l, xs => by
    cases hl : allSome l with
    | none =>
      simp only [allSome, hl, reduceCtorEq, false_iff]
      intro h
      cases xs with
      | nil => simp at h
      | cons y ys =>
        simp only [List.map_cons, List.cons.injEq] at h
        rw [allSome_eq.2 h.2] at hl
        exact nomatch hl
    | some ys =>
      have := allSome_eq.1 hl
      simp only [allSome, hl]
      constructor
      · intro h; rw [Option.some.injEq] at h; rw [← h, this]; rfl
      · intro h
        cases xs with
        | nil => simp at h
        | cons z zs =>
          simp only [List.map_cons, List.cons.injEq, Option.some.injEq] at h
          have := List.map_injective_iff.2 (fun _ _ h => Option.some.inj h) (this.symm.trans h.2)
          rw [h.1, this]

theorem allSome_left {X : Type} {f g : Nat → Option X} (hfg : ∀ n x, f n = some x → g n = some x) {l : List Nat} {xs : List X} (h : allSome (l.map f) = some xs) : allSome (l.map g) = some xs := by
  rw [allSome_eq] at h ⊢
  rw [← h]
  refine List.map_congr_left fun n hn => ?_
  have : f n ∈ xs.map some := h ▸ List.mem_map.2 ⟨n, hn, rfl⟩
  obtain ⟨x, -, hx⟩ := List.mem_map.1 this
  rw [hfg n x hx.symm, hx]

theorem readFace_left {w v : List (Ent P D L)} {n : Nat} {s : List (P × P) × (P × D × D)} (h : readFace w n = some s) : readFace (w ++ v) n = some s := by
  unfold readFace at h ⊢
  split at h
  · rename_i b p h1
    rw [get_left h1]
    dsimp only
    split at h
    · rename_i l h2
      rw [get_left h2]
      dsimp only
      split at h
      · rename_i es h3
        rw [get_left h3]
        dsimp only
        split at h
        · rename_i h4 h5
          rw [allSome_left (fun n x => readSide_left) h4, readPlane_left h5]
          exact h
        · exact nomatch h
      · exact nomatch h
    · exact nomatch h
  · exact nomatch h

theorem readItem_left {w v : List (Ent P D L)} {n : Nat} {s : Part P D} (h : readItem w n = some s) : readItem (w ++ v) n = some s := by
  unfold readItem at h ⊢
  dsimp only at h ⊢
  split at h
  · rename_i name s h1
    rw [get_left h1]
    dsimp only
    split at h
    · rename_i c fs h2
      rw [get_left h2]
      dsimp only
      rw [Option.map_eq_some_iff] at h ⊢
      obtain ⟨faces, h3, h4⟩ := h
      exact ⟨faces, allSome_left (fun n x => readFace_left) h3, h4⟩
    · exact nomatch h
  · rename_i name s h1
    rw [get_left h1]
    dsimp only
    split at h
    · rename_i c fs h2
      rw [get_left h2]
      dsimp only
      rw [Option.map_eq_some_iff] at h ⊢
      obtain ⟨faces, h3, h4⟩ := h
      exact ⟨faces, allSome_left (fun n x => readFace_left) h3, h4⟩
    · exact nomatch h
  · exact nomatch h

end Verif.Step
