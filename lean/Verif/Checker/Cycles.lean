import Verif.Checker.Effects
import Mathlib.Logic.Relation
import Mathlib.Data.List.Chain
import Mathlib.Data.List.Perm.Subperm

/-! # The search for cycles finds one exactly when there is one, and reports only cycles -/

namespace Verif.Checker

open Verif.Parser (Name Mod)

variable {succ : Name → List Name} {nodes : List Name}

/-- a closed walk: successive calls, ending where it begins -/
def ClosedWalk (E : Name → Name → Prop) (c : List Name) : Prop := c.IsChain E ∧ c.head? = c.getLast? ∧ 2 ≤ c.length

theorem fromNode_spec {n : Name} : ∀ {path : List Name}, n ∈ path → ∃ p q, path = p ++ n :: q ∧ fromNode n path = n :: q
  | m :: ms, h => by
    unfold fromNode
    by_cases hm : m = n
    · exact ⟨[], ms, by simp [hm], by simp [hm]⟩
    · rw [if_neg hm]
      obtain ⟨p, q, h1, h2⟩ := fromNode_spec (path := ms) (by
        rcases List.mem_cons.1 h with rfl | h
        · exact absurd rfl hm
        · exact h)
      exact ⟨m :: p, q, by simp [h1], h2⟩

theorem findCycles_sound : ∀ (k : Nat) (n : Name) (path : List Name) (d : Dfs),
    (path ++ [n]).IsChain (fun a b => b ∈ succ a) → (∀ c ∈ d.cycles, ClosedWalk (fun a b => b ∈ succ a) c) →
    ∀ c ∈ (findCycles succ k n path d).cycles, ClosedWalk (fun a b => b ∈ succ a) c
  | 0, n, path, d, hp, hd => hd
  | k + 1, n, path, d, hp, hd => by
    unfold findCycles
    split
    · rename_i hn
      intro c hc
      rcases List.mem_append.1 hc with hc | hc
      · exact hd c hc
      · obtain ⟨p, q, h1, h2⟩ := fromNode_spec hn
        simp only [List.mem_singleton] at hc
        subst hc
        rw [h2]
        refine ⟨?_, by rw [List.getLast?_append]; simp, by simp⟩
        have : (n :: q ++ [n]) <:+ path ++ [n] := ⟨p, by simp [h1]⟩
        exact hp.suffix this
    · split
      · exact hd
      · have key : ∀ (l : List Name) (d : Dfs), (∀ x ∈ l, x ∈ succ n) →
            (∀ c ∈ d.cycles, ClosedWalk (fun a b => b ∈ succ a) c) →
            ∀ c ∈ (l.foldl (fun d c => findCycles succ k c (path ++ [n]) d) d).cycles, ClosedWalk (fun a b => b ∈ succ a) c := by
          intro l
          induction l with
          | nil => intro d _ h; exact h
          | cons x l ih =>
            intro d hl h
            refine ih _ (fun y hy => hl y (by simp [hy])) ?_
            refine findCycles_sound k x (path ++ [n]) d ?_ h
            rw [List.isChain_append]
            refine ⟨hp, by simp, ?_⟩
            intro a ha b hb
            simp only [List.getLast?_append, List.getLast?_singleton, Option.mem_def, Option.some_or, Option.some.injEq] at ha
            simp only [List.head?_cons, Option.mem_def, Option.some.injEq] at hb
            subst ha hb
            exact hl x (by simp)
        exact key (succ n) _ (fun _ h => h) hd

/-- reported cycles are cycles -/
theorem allCycles_sound (succ : Name → List Name) (nodes : List Name) :
    ∀ c ∈ allCycles succ nodes, ClosedWalk (fun a b => b ∈ succ a) c := by
  unfold allCycles
  have key : ∀ (k : Nat) (l : List Name) (d : Dfs), (∀ c ∈ d.cycles, ClosedWalk (fun a b => b ∈ succ a) c) →
      ∀ c ∈ (l.foldl (fun d n => if n ∈ d.visited then d else findCycles succ k n [] d) d).cycles,
        ClosedWalk (fun a b => b ∈ succ a) c := by
    intro k l
    induction l with
    | nil => intro d h; exact h
    | cons x l ih =>
      intro d h
      refine ih _ ?_
      dsimp only
      split
      · exact h
      · exact findCycles_sound _ _ _ _ (by simp) h
  exact key _ _ _ (by simp)

/-- finished nodes, the last one first: each one's successors were finished before it -/
inductive Topo (succ : Name → List Name) : List Name → Prop
  | nil : Topo succ []
  | cons {n : Name} {l : List Name} : n ∉ l → (∀ c ∈ succ n, c ∈ l) → Topo succ l → Topo succ (n :: l)

theorem Topo.closed {l : List Name} (h : Topo succ l) : ∀ x ∈ l, ∀ y ∈ succ x, y ∈ l := by
  induction h with
  | nil => simp
  | cons hn hs _ ih =>
    intro x hx y hy
    rcases List.mem_cons.1 hx with rfl | hx
    · exact List.mem_cons_of_mem _ (hs y hy)
    · exact List.mem_cons_of_mem _ (ih x hx y hy)

theorem Topo.reach {l : List Name} (h : Topo succ l) {x y : Name} (hx : x ∈ l)
    (hr : Relation.TransGen (fun a b => b ∈ succ a) x y) : y ∈ l := by
  induction hr with
  | single h1 => exact h.closed x hx _ h1
  | tail _ h1 ih => exact h.closed _ ih _ h1

theorem Topo.acyclic {l : List Name} (h : Topo succ l) : ∀ x ∈ l, ¬ Relation.TransGen (fun a b => b ∈ succ a) x x := by
  induction h with
  | nil => simp
  | @cons n l hn hs ht ih =>
    intro x hx hr
    rcases List.mem_cons.1 hx with rfl | hx
    · rcases Relation.TransGen.head'_iff.1 hr with ⟨c, hc, hcx⟩
      rcases Relation.reflTransGen_iff_eq_or_transGen.1 hcx with rfl | hcx
      · exact hn (hs _ hc)
      · exact hn (ht.reach (hs c hc) hcx)
    · exact ih x hx hr

/-- the state of the search: finished nodes and the nodes on the path -/
def SearchOk (succ : Name → List Name) (path : List Name) (fin : List Name) (d : Dfs) : Prop :=
  Topo succ fin ∧ (∀ x, x ∈ d.visited ↔ x ∈ fin ∨ x ∈ path) ∧ ∀ x ∈ path, x ∉ fin

theorem findCycles_grow : ∀ (k : Nat) (n : Name) (path : List Name) (d : Dfs),
    d.cycles.length ≤ (findCycles succ k n path d).cycles.length
  | 0, n, path, d => le_refl _
  | k + 1, n, path, d => by
    unfold findCycles
    split
    · simp
    · split
      · exact le_refl _
      · have key : ∀ (l : List Name) (d : Dfs),
            d.cycles.length ≤ (l.foldl (fun d c => findCycles succ k c (path ++ [n]) d) d).cycles.length := by
          intro l
          induction l with
          | nil => intro d; exact le_refl _
          | cons x l ih => intro d; exact (findCycles_grow k x (path ++ [n]) d).trans (ih _)
        exact key (succ n) { d with visited := d.visited ++ [n] }

theorem findCycles_complete (hc : ∀ n c, c ∈ succ n → c ∈ nodes) : ∀ (k : Nat) (n : Name) (path fin : List Name) (d : Dfs),
    path.Nodup → (∀ x ∈ path, x ∈ nodes) → n ∈ nodes → nodes.length + 1 ≤ k + path.length → SearchOk succ path fin d →
    d.cycles.length < (findCycles succ k n path d).cycles.length ∨
    ∃ fin', SearchOk succ path fin' (findCycles succ k n path d) ∧ n ∈ fin' ∧ ∀ x ∈ fin, x ∈ fin'
  | 0, n, path, fin, d, h1, h2, h3, h4, h5 => by
    have := (h1.subperm h2).length_le
    omega
  | k + 1, n, path, fin, d, h1, h2, h3, h4, h5 => by
    unfold findCycles
    split
    · left; simp
    · rename_i hn
      split
      · rename_i hv
        right
        exact ⟨fin, h5, ((h5.2.1 n).1 hv).resolve_right hn, fun _ h => h⟩
      · rename_i hv
        have hnf : n ∉ fin := fun h => hv ((h5.2.1 n).2 (.inl h))
        have key : ∀ (l : List Name) (fin : List Name) (d : Dfs), (∀ x ∈ l, x ∈ nodes) → SearchOk succ (path ++ [n]) fin d →
            d.cycles.length < (l.foldl (fun d c => findCycles succ k c (path ++ [n]) d) d).cycles.length ∨
            ∃ fin', SearchOk succ (path ++ [n]) fin' (l.foldl (fun d c => findCycles succ k c (path ++ [n]) d) d) ∧
              (∀ x ∈ l, x ∈ fin') ∧ ∀ x ∈ fin, x ∈ fin' := by
          intro l
          induction l with
          | nil => intro fin d _ h; exact .inr ⟨fin, h, by simp, fun _ h => h⟩
          | cons x l ih =>
            intro fin d hl h
            have hgrow : ∀ (l : List Name) (d : Dfs),
                d.cycles.length ≤ (l.foldl (fun d c => findCycles succ k c (path ++ [n]) d) d).cycles.length := by
              intro l
              induction l with
              | nil => intro d; exact le_refl _
              | cons x l ih => intro d; exact (findCycles_grow k x (path ++ [n]) d).trans (ih _)
            have hg := hgrow l (findCycles succ k x (path ++ [n]) d)
            have hg0 := findCycles_grow (succ := succ) k x (path ++ [n]) d
            rcases findCycles_complete hc k x (path ++ [n]) fin d
              (by simpa [List.nodup_append] using ⟨h1, fun a ha => by rintro rfl; exact hn ha⟩)
              (by
                intro y hy
                rcases List.mem_append.1 hy with hy | hy
                · exact h2 y hy
                · simp only [List.mem_singleton] at hy; exact hy ▸ h3) (hl x (by simp)) (by simp; omega) h with hlt | ⟨fin1, g1, g2, g3⟩
            · left
              exact lt_of_lt_of_le hlt hg
            · rcases ih fin1 _ (fun y hy => hl y (by simp [hy])) g1 with hlt | ⟨fin2, k1, k2, k3⟩
              · left
                exact lt_of_le_of_lt hg0 hlt
              · right
                refine ⟨fin2, k1, ?_, fun y hy => k3 y (g3 y hy)⟩
                intro y hy
                rcases List.mem_cons.1 hy with rfl | hy
                · exact k3 _ g2
                · exact k2 y hy
        have h5' : SearchOk succ (path ++ [n]) fin { d with visited := d.visited ++ [n] } := by
          refine ⟨h5.1, ?_, ?_⟩
          · intro x
            simp only [List.mem_append, h5.2.1 x, List.mem_singleton]
            tauto
          · intro x hx
            rcases List.mem_append.1 hx with hx | hx
            · exact h5.2.2 x hx
            · simp only [List.mem_singleton] at hx
              exact hx ▸ hnf
        rcases key (succ n) fin _ (fun x hx => hc n x hx) h5' with hlt | ⟨fin', g1, g2, g3⟩
        · left; exact hlt
        · right
          have hn' : n ∉ fin' := g1.2.2 n (by simp)
          refine ⟨n :: fin', ⟨.cons hn' g2 g1.1, ?_, ?_⟩, by simp, fun x hx => List.mem_cons_of_mem _ (g3 x hx)⟩
          · intro x
            rw [g1.2.1 x]
            simp only [List.mem_append, List.mem_singleton, List.mem_cons]
            tauto
          · intro x hx hm
            rcases List.mem_cons.1 hm with rfl | hm
            · exact hn hx
            · exact g1.2.2 x (by simp [hx]) hm

/-- if nothing is reported there is no cycle -/
theorem allCycles_complete (hc : ∀ n c, c ∈ succ n → c ∈ nodes) (h : allCycles succ nodes = []) :
    ∀ n ∈ nodes, ¬ Relation.TransGen (fun a b => b ∈ succ a) n n := by
  unfold allCycles at h
  have grow : ∀ (k : Nat) (l : List Name) (d : Dfs),
      d.cycles.length ≤ (l.foldl (fun d n => if n ∈ d.visited then d else findCycles succ k n [] d) d).cycles.length := by
    intro k l
    induction l with
    | nil => intro d; exact le_refl _
    | cons x l ih =>
      intro d
      refine le_trans ?_ (ih _)
      dsimp only
      split
      · exact le_refl _
      · exact findCycles_grow _ _ _ _
  have key : ∀ (l : List Name) (d : Dfs) (fin : List Name), (∀ x ∈ l, x ∈ nodes) → SearchOk succ [] fin d →
      (l.foldl (fun d n => if n ∈ d.visited then d else findCycles succ (nodes.length + 1) n [] d) d).cycles = [] →
      ∃ fin', Topo succ fin' ∧ (∀ x ∈ l, x ∈ fin') ∧ ∀ x ∈ fin, x ∈ fin' := by
    intro l
    induction l with
    | nil => intro d fin _ h _; exact ⟨fin, h.1, by simp, fun _ h => h⟩
    | cons x l ih =>
      intro d fin hl hs he
      by_cases hx : x ∈ d.visited
      · simp only [List.foldl_cons, hx, if_true] at he
        obtain ⟨fin', h1, h2, h3⟩ := ih d fin (fun y hy => hl y (by simp [hy])) hs he
        refine ⟨fin', h1, ?_, h3⟩
        intro y hy
        rcases List.mem_cons.1 hy with rfl | hy
        · exact h3 _ (((hs.2.1 y).1 hx).resolve_right (by simp))
        · exact h2 y hy
      · simp only [List.foldl_cons, hx, if_false] at he
        rcases findCycles_complete hc (nodes.length + 1) x [] fin d (by simp) (by simp) (hl x (by simp)) (by simp) hs with
          hlt | ⟨fin1, g1, g2, g3⟩
        · have := grow (nodes.length + 1) l (findCycles succ (nodes.length + 1) x [] d)
          rw [he] at this
          simp only [List.length_nil, Nat.le_zero] at this
          omega
        · obtain ⟨fin', h1, h2, h3⟩ := ih _ fin1 (fun y hy => hl y (by simp [hy])) g1 he
          refine ⟨fin', h1, ?_, fun y hy => h3 y (g3 y hy)⟩
          intro y hy
          rcases List.mem_cons.1 hy with rfl | hy
          · exact h3 _ g2
          · exact h2 y hy
  obtain ⟨fin, h1, h2, -⟩ := key nodes ⟨[], []⟩ [] (fun _ h => h) ⟨.nil, by simp, by simp⟩ h
  exact fun n hn => h1.acyclic n (h2 n hn)

/-- a closed walk leads from its first node to itself -/
theorem ClosedWalk.trans {E : Name → Name → Prop} {c : List Name} (h : ClosedWalk E c) :
    ∃ n, c.head? = some n ∧ Relation.TransGen E n n := by
  obtain ⟨h1, h2, h3⟩ := h
  match c, h1, h2, h3 with
  | a :: b :: l, h1, h2, h3 =>
    refine ⟨a, rfl, ?_⟩
    have key : ∀ (l : List Name) (a b : Name), (a :: b :: l).IsChain E → ∀ z, (a :: b :: l).getLast? = some z →
        Relation.TransGen E a z := by
      intro l
      induction l with
      | nil =>
        intro a b h z hz
        simp at h hz
        exact hz ▸ .single h
      | cons x l ih =>
        intro a b h z hz
        rw [List.isChain_cons_cons] at h
        exact .head h.1 (ih b x h.2 z (by simpa using hz))
    exact key l a b h1 a (by rw [← h2]; rfl)

end Verif.Checker
