import Mathlib.Data.List.Perm.Basic
import Mathlib.Data.List.Forall2
import Mathlib.Algebra.Group.Nat.Even
import Mathlib.Algebra.BigOperators.Group.List.Basic
import Mathlib.Tactic.Ring
import Mathlib.Tactic.NormNum
import Mathlib.Tactic.Linarith

/-!
# Model of `_stitch_geomlist`: loops out of lines and arcs (C273, C274)

`S` are the lines and arcs, `P` the points; `src s` is `sample(s, 0.0)`, `tgt s` is `sample(s, 1.0)`, `rev s` is `_reverse_element(s)` and `near p q` is
`dist(p, q) <= tol`. All of them are arbitrary here, the properties assumed of them are hypotheses of the theorems.
-/

namespace Verif.Loops

variable {S P : Type}

/-! ## the model -/

/-- `node_id`, geom_util.py:67-72: the number of the point and the points known afterwards -/
def nodeId (near : P → P → Bool) (nodes : List P) (p : P) : Nat × List P :=
  match nodes.findIdx? (fun q => near q p) with
  | some i => (i, nodes)
  | none => (nodes.length, nodes ++ [p])

/-- an edge: a line or arc, the numbers of its ends, and whether it is in a loop -/
structure Edge (S : Type) where
  geom : S
  s : Nat
  e : Nat
  used : Bool

/-- the first loop of `_stitch_geomlist`, geom_util.py:77-84 -/
def mkEdges (near : P → P → Bool) (src tgt : S → P) : List P → List S → List P × List (Edge S)
  | nodes, [] => (nodes, [])
  | nodes, g :: gs =>
    let a := nodeId near nodes (src g)
    let b := nodeId near a.2 (tgt g)
    let r := mkEdges near src tgt b.2 gs
    (r.1, ⟨g, a.1, b.1, false⟩ :: r.2)

/-- `adjacency[n]`, geom_util.py:83-84: the numbers of the edges at a node, a closed one twice -/
def adjFrom (n : Nat) : Nat → List (Edge S) → List Nat
  | _, [] => []
  | i, ed :: es => (if ed.s = n then [i] else []) ++ (if ed.e = n then [i] else []) ++ adjFrom n (i + 1) es

/-- `dist(nodes[i], nodes[j]) <= tol` -/
def nearN (near : P → P → Bool) (nodes : List P) (i j : Nat) : Bool :=
  match nodes[i]?, nodes[j]? with
  | some a, some b => near a b
  | _, _ => false

/-- the edge as it is appended to the loop, geom_util.py:100-105; `none` is the `break` -/
def orient (rev : S → S) (near : P → P → Bool) (nodes : List P) (ed : Edge S) (prev : Nat) : Option (Edge S) :=
  if ed.s ≠ prev then
    (if nearN near nodes ed.e prev then some ⟨rev ed.geom, ed.e, ed.s, ed.used⟩
     else if ¬ nearN near nodes ed.s prev then none else some ed)
  else some ed

/-- the next edge at a node that is in no loop, geom_util.py:111-116 -/
def nextEdge (adj : Nat → List Nat) (edges : List (Edge S)) (n : Nat) : Option Nat :=
  (adj n).find? fun c => match edges[c]? with
    | some ed => !ed.used
    | none => false

/-- the `while True` loop of `_stitch_geomlist`, geom_util.py:96-119; `none` if it takes more rounds than allowed -/
def walk (rev : S → S) (near : P → P → Bool) (nodes : List P) (adj : Nat → List Nat) (start : Nat) :
    Nat → List (Edge S) → Nat → Nat → List S → Option (List S × List (Edge S))
  | 0, _, _, _, _ => none
  | fuel + 1, edges, cur, prev, loop =>
    match edges[cur]? with
    | none => some (loop, edges)
    | some ed =>
      if ed.used then some (loop, edges)
      else
        match orient rev near nodes ed prev with
        | none => some (loop, edges)
        | some ed' =>
          let loop' := loop ++ [ed'.geom]
          let edges' := edges.set cur { ed' with used := true }
          if loop'.length > 1 ∧ nearN near nodes ed'.e start then some (loop', edges')
          else
            match nextEdge adj edges' ed'.e with
            | none => some (loop', edges')
            | some c => walk rev near nodes adj start fuel edges' c ed'.e loop'

/-- the `for` loop of `_stitch_geomlist`, geom_util.py:88-121, over the edges from number `i` on -/
def allLoops (rev : S → S) (near : P → P → Bool) (nodes : List P) (adj : Nat → List Nat) : List Nat → List (Edge S) → Option (List (List S))
  | [], _ => some []
  | i :: is, edges =>
    match edges[i]? with
    | none => some []
    | some ed =>
      if ed.used then allLoops rev near nodes adj is edges
      else
        match walk rev near nodes adj ed.s (edges.length + 1) edges i ed.s [] with
        | none => none
        | some (loop, edges') =>
          match allLoops rev near nodes adj is edges' with
          | none => none
          | some ls => some (if loop = [] then ls else loop :: ls)

/-- `_stitch_geomlist`, geom_util.py:56-123, for lists of lines and arcs -/
def stitch (rev : S → S) (near : P → P → Bool) (src tgt : S → P) (gl : List S) : Option (List (List S)) :=
  let r := mkEdges near src tgt [] gl
  allLoops rev near r.1 (fun n => adjFrom n 0 r.2) (List.range r.2.length) r.2

/-! ## specification -/

/-- the pieces of `xs` are those of `ys`, each as it is or reversed -/
def SameUpToReversal (rev : S → S) (xs ys : List S) : Prop := List.Forall₂ (fun x y => x = y ∨ x = rev y) xs ys

/-- one piece ends where the other begins, to within the tolerance from a common point -/
def Meets (near : P → P → Bool) (src tgt : S → P) (x y : S) : Prop := ∃ p, near p (tgt x) = true ∧ near p (src y) = true

/-- how many ends of the pieces are near a point -/
def endsNear (near : P → P → Bool) (src tgt : S → P) (p : P) (gl : List S) : Nat :=
  (gl.map fun g => (if near p (src g) then 1 else 0) + (if near p (tgt g) then 1 else 0)).sum

/-! ## nodes -/

/-- an edge joins the points of its ends -/
def EdgeOk (near : P → P → Bool) (src tgt : S → P) (nodes : List P) (ed : Edge S) : Prop :=
  (∃ p, nodes[ed.s]? = some p ∧ near p (src ed.geom) = true) ∧ ∃ p, nodes[ed.e]? = some p ∧ near p (tgt ed.geom) = true

/-- no two nodes are near each other -/
def Apart (near : P → P → Bool) (nodes : List P) : Prop := nodes.Pairwise fun a b => near a b = false

theorem nodeId_spec {near : P → P → Bool} (hr : ∀ p, near p p = true) {nodes : List P} (ha : Apart near nodes) (p : P) :
    (∃ q, (nodeId near nodes p).2[(nodeId near nodes p).1]? = some q ∧ near q p = true) ∧ nodes <+: (nodeId near nodes p).2 ∧ Apart near (nodeId near nodes p).2 := by
  unfold nodeId
  cases h : nodes.findIdx? (fun q => near q p) with
  | some i =>
    dsimp only
    obtain ⟨hi, h1, -⟩ := List.findIdx?_eq_some_iff_getElem.1 h
    exact ⟨⟨nodes[i], by simp [hi], h1⟩, List.prefix_rfl, ha⟩
  | none =>
    dsimp only
    rw [List.findIdx?_eq_none_iff] at h
    refine ⟨⟨p, by simp, hr p⟩, List.prefix_append _ _, ?_⟩
    unfold Apart
    rw [List.pairwise_append]
    refine ⟨ha, by simp, fun a hm b hb => ?_⟩
    obtain rfl := List.mem_singleton.1 hb
    exact h a hm

theorem EdgeOk.mono {near : P → P → Bool} {src tgt : S → P} {nodes nodes' : List P} (h : nodes <+: nodes') {ed : Edge S} (he : EdgeOk near src tgt nodes ed) :
    EdgeOk near src tgt nodes' ed := by
  obtain ⟨t, rfl⟩ := h
  obtain ⟨⟨p, h1, h2⟩, q, h3, h4⟩ := he
  refine ⟨⟨p, ?_, h2⟩, q, ?_, h4⟩
  · rw [List.getElem?_append_left (List.getElem?_eq_some_iff.1 h1).1, h1]
  · rw [List.getElem?_append_left (List.getElem?_eq_some_iff.1 h3).1, h3]

theorem mkEdges_spec {near : P → P → Bool} {src tgt : S → P} (hr : ∀ p, near p p = true) : ∀ (gl : List S) (nodes : List P), Apart near nodes →
    nodes <+: (mkEdges near src tgt nodes gl).1 ∧ Apart near (mkEdges near src tgt nodes gl).1 ∧ (mkEdges near src tgt nodes gl).2.map (·.geom) = gl ∧
      ∀ ed ∈ (mkEdges near src tgt nodes gl).2, ed.used = false ∧ EdgeOk near src tgt (mkEdges near src tgt nodes gl).1 ed
  | [], nodes, h => by simp [mkEdges, h]
  | g :: gl, nodes, h => by
    rw [mkEdges]
    dsimp only
    obtain ⟨⟨p, hp, hp'⟩, a2, a3⟩ := nodeId_spec hr h (src g)
    obtain ⟨⟨q, hq, hq'⟩, b2, b3⟩ := nodeId_spec hr a3 (tgt g)
    obtain ⟨c1, c2, c3, c4⟩ := mkEdges_spec (src := src) (tgt := tgt) hr gl _ b3
    refine ⟨a2.trans (b2.trans c1), c2, by rw [List.map_cons, c3], ?_⟩
    intro ed hed
    rcases List.mem_cons.1 hed with rfl | hed
    · refine ⟨rfl, ?_⟩
      refine EdgeOk.mono c1 ⟨⟨p, ?_, hp'⟩, q, hq, hq'⟩
      obtain ⟨t, ht⟩ := b2
      rw [← ht, List.getElem?_append_left (List.getElem?_eq_some_iff.1 hp).1, hp]
    · exact c4 ed hed

theorem nearN_iff {near : P → P → Bool} (hr : ∀ p, near p p = true) (hs : ∀ p q, near p q = near q p) {nodes : List P} (ha : Apart near nodes) {i j : Nat}
    (hi : i < nodes.length) (hj : j < nodes.length) : nearN near nodes i j = true ↔ i = j := by
  unfold nearN
  rw [List.getElem?_eq_getElem hi, List.getElem?_eq_getElem hj]
  dsimp only
  constructor
  · intro h
    by_contra hne
    have hp := List.pairwise_iff_getElem.1 ha
    rcases Nat.lt_or_gt_of_ne hne with hlt | hlt
    · rw [hp i j hi hj hlt] at h; cases h
    · rw [hs, hp j i hj hi hlt] at h; cases h
  · rintro rfl; exact hr _

/-! ## edges, edge lists -/

theorem mem_adjFrom {n : Nat} : ∀ {es : List (Edge S)} {i c : Nat}, c ∈ adjFrom n i es ↔ ∃ k ed, es[k]? = some ed ∧ c = i + k ∧ (ed.s = n ∨ ed.e = n)
  | [], i, c => by simp [adjFrom]
  | ed :: es, i, c => by
    rw [adjFrom, List.mem_append, List.mem_append, mem_adjFrom]
    constructor
    · rintro ((h | h) | ⟨k, e', h1, h2, h3⟩)
      · split at h
        · exact ⟨0, ed, rfl, by simpa using h, .inl ‹_›⟩
        · simp at h
      · split at h
        · exact ⟨0, ed, rfl, by simpa using h, .inr ‹_›⟩
        · simp at h
      · exact ⟨k + 1, e', h1, by omega, h3⟩
    · rintro ⟨k, e', h1, h2, h3⟩
      cases k with
      | zero =>
        simp only [List.getElem?_cons_zero, Option.some.injEq] at h1
        subst h1
        rcases h3 with h3 | h3
        · left; left; rw [if_pos h3]; simp [h2]
        · left; right; rw [if_pos h3]; simp [h2]
      | succ k => exact .inr ⟨k, e', h1, by omega, h3⟩

/-- the pieces of the edges that are in no loop -/
def free (edges : List (Edge S)) : List S := (edges.filter fun ed => !ed.used).map (·.geom)

/-- how many ends of free edges are at a node -/
def degree (n : Nat) : List (Edge S) → Nat
  | [] => 0
  | ed :: es => (if ed.used then 0 else (if ed.s = n then 1 else 0) + (if ed.e = n then 1 else 0)) + degree n es

theorem free_set : ∀ {edges : List (Edge S)} {c : Nat} {ed ed' : Edge S}, edges[c]? = some ed → ed.used = false → ed'.used = true →
    (free edges).Perm (ed.geom :: free (edges.set c ed'))
  | [], _, _, _, h, _, _ => by simp at h
  | x :: es, 0, ed, ed', h, h1, h2 => by
    simp only [List.getElem?_cons_zero, Option.some.injEq] at h
    subst h
    simp [free, h1, h2]
  | x :: es, c + 1, ed, ed', h, h1, h2 => by
    have ih := free_set (edges := es) (c := c) (by simpa using h) h1 h2
    unfold free at ih ⊢
    rw [List.set_cons_succ, List.filter_cons, List.filter_cons]
    split
    · rw [List.map_cons, List.map_cons]
      exact (ih.cons _).trans (List.Perm.swap _ _ _)
    · exact ih

theorem degree_set (n : Nat) : ∀ {edges : List (Edge S)} {c : Nat} {ed ed' : Edge S}, edges[c]? = some ed → ed.used = false → ed'.used = true →
    degree n edges = (if ed.s = n then 1 else 0) + (if ed.e = n then 1 else 0) + degree n (edges.set c ed')
  | [], _, _, _, h, _, _ => by simp at h
  | x :: es, 0, ed, ed', h, h1, h2 => by
    simp only [List.getElem?_cons_zero, Option.some.injEq] at h
    subst h
    simp [degree, h1, h2]
  | x :: es, c + 1, ed, ed', h, h1, h2 => by
    have ih := degree_set n (edges := es) (c := c) (by simpa using h) h1 h2
    rw [List.set_cons_succ, degree, degree, ih]
    omega

theorem degree_zero {n : Nat} : ∀ {edges : List (Edge S)}, (∀ (i : Nat) (ed : Edge S), edges[i]? = some ed → ed.s = n ∨ ed.e = n → ed.used = true) → degree n edges = 0
  | [], _ => rfl
  | ed :: es, h => by
    rw [degree, degree_zero fun i e' hi => h (i + 1) e' (by simpa using hi)]
    by_cases hu : ed.used = true
    · rw [if_pos hu]
    · rw [if_neg hu, if_neg fun hs => hu (h 0 ed rfl (.inl hs)), if_neg fun hs => hu (h 0 ed rfl (.inr hs))]

/-- what holds of the edges all the time -/
structure Inv (near : P → P → Bool) (src tgt : S → P) (nodes : List P) (adj : Nat → List Nat) (edges : List (Edge S)) : Prop where
  ok : ∀ (i : Nat) (ed : Edge S), edges[i]? = some ed → EdgeOk near src tgt nodes ed
  adj : ∀ n c : Nat, c ∈ adj n ↔ ∃ ed : Edge S, edges[c]? = some ed ∧ (ed.s = n ∨ ed.e = n)

/-- a point is at a node -/
def At (near : P → P → Bool) (nodes : List P) (n : Nat) (p : P) : Prop := ∃ q, nodes[n]? = some q ∧ near q p = true

/-- pieces that lead from one node to another -/
inductive Trail (near : P → P → Bool) (src tgt : S → P) (nodes : List P) : Nat → List S → Nat → Prop
  | nil (n : Nat) : Trail near src tgt nodes n [] n
  | cons {n m k : Nat} {x : S} {xs : List S} : At near nodes n (src x) → At near nodes m (tgt x) → Trail near src tgt nodes m xs k → Trail near src tgt nodes n (x :: xs) k

/-- one is 1 and the other 0 -/
def ind (a b : Nat) : Nat := if a = b then 1 else 0

section
variable {rev : S → S} {near : P → P → Bool} {src tgt : S → P} {nodes : List P} {adj : Nat → List Nat}

theorem orient_spec (hr : ∀ p, near p p = true) (h1 : ∀ g, src (rev g) = tgt g) (h2 : ∀ g, tgt (rev g) = src g) {ed : Edge S} {prev : Nat}
    (hok : EdgeOk near src tgt nodes ed) (hp : ed.s = prev ∨ ed.e = prev) :
    ∃ ed', orient rev near nodes ed prev = some ed' ∧ ed'.s = prev ∧ ((ed'.s = ed.s ∧ ed'.e = ed.e) ∨ (ed'.s = ed.e ∧ ed'.e = ed.s)) ∧ (ed'.geom = ed.geom ∨ ed'.geom = rev ed.geom) ∧
      EdgeOk near src tgt nodes ed' := by
  unfold orient
  by_cases h : ed.s = prev
  · rw [if_neg (by simpa using h)]
    exact ⟨ed, rfl, h, .inl ⟨rfl, rfl⟩, .inl rfl, hok⟩
  · have he : ed.e = prev := hp.resolve_left h
    rw [if_pos h, if_pos, ]
    · refine ⟨_, rfl, he, .inr ⟨rfl, rfl⟩, .inr rfl, ?_⟩
      obtain ⟨a, b⟩ := hok
      exact ⟨by simpa [h1] using b, by simpa [h2] using a⟩
    · obtain ⟨-, q, hq, -⟩ := hok
      unfold nearN
      rw [← he, hq]
      exact hr q

theorem Inv.set {edges : List (Edge S)} (hinv : Inv near src tgt nodes adj edges) {c : Nat} {ed ed' : Edge S} (hc : edges[c]? = some ed) (hok : EdgeOk near src tgt nodes ed')
    (he : (ed'.s = ed.s ∧ ed'.e = ed.e) ∨ (ed'.s = ed.e ∧ ed'.e = ed.s)) : Inv near src tgt nodes adj (edges.set c ed') := by
  have hlt := (List.getElem?_eq_some_iff.1 hc).1
  refine ⟨fun i e' hi => ?_, fun n d => ?_⟩
  · by_cases hci : c = i
    · subst hci
      rw [List.getElem?_set_self hlt, Option.some.injEq] at hi
      subst hi; exact hok
    · rw [List.getElem?_set_ne hci] at hi
      exact hinv.ok i e' hi
  · rw [hinv.adj n d]
    by_cases hd : c = d
    · subst hd
      rw [List.getElem?_set_self hlt]
      constructor
      · rintro ⟨x, hx, h⟩
        rw [hc, Option.some.injEq] at hx; subst hx
        refine ⟨ed', rfl, ?_⟩
        rcases he with ⟨a, b⟩ | ⟨a, b⟩ <;> rw [a, b] <;> tauto
      · rintro ⟨x, hx, h⟩
        rw [Option.some.injEq] at hx; subst hx
        refine ⟨ed, hc, ?_⟩
        rcases he with ⟨a, b⟩ | ⟨a, b⟩ <;> rw [a, b] at h <;> tauto
    · rw [List.getElem?_set_ne hd]

theorem nextEdge_some {edges : List (Edge S)} (hinv : Inv near src tgt nodes adj edges) {n c : Nat} (h : nextEdge adj edges n = some c) :
    ∃ ed, edges[c]? = some ed ∧ ed.used = false ∧ (ed.s = n ∨ ed.e = n) := by
  unfold nextEdge at h
  have h1 := List.find?_some h
  obtain ⟨ed, he, hn⟩ := (hinv.adj n c).1 (List.mem_of_find?_eq_some h)
  rw [he] at h1
  exact ⟨ed, he, by simpa using h1, hn⟩

theorem nextEdge_none {edges : List (Edge S)} (hinv : Inv near src tgt nodes adj edges) {n : Nat} (h : nextEdge adj edges n = none) : degree n edges = 0 := by
  refine degree_zero fun i ed hi hn => ?_
  unfold nextEdge at h
  rw [List.find?_eq_none] at h
  have := h i ((hinv.adj n i).2 ⟨ed, hi, hn⟩)
  rw [hi] at this
  simpa using this

/-- what one walk does -/
theorem walk_spec (hr : ∀ p, near p p = true) (hs : ∀ p q, near p q = near q p) (h1 : ∀ g, src (rev g) = tgt g) (h2 : ∀ g, tgt (rev g) = src g) (ha : Apart near nodes) (start : Nat)
    (hst : start < nodes.length) : ∀ (fuel : Nat) (edges : List (Edge S)) (cur prev : Nat) (loop : List S) (ed : Edge S),
    (free edges).length < fuel → Inv near src tgt nodes adj edges → edges[cur]? = some ed → ed.used = false → (ed.s = prev ∨ ed.e = prev) →
    ∃ new edges' last, walk rev near nodes adj start fuel edges cur prev loop = some (loop ++ new, edges') ∧ new ≠ [] ∧ Trail near src tgt nodes prev new last ∧
      Inv near src tgt nodes adj edges' ∧ (∃ l, (free edges).Perm (l ++ free edges') ∧ SameUpToReversal rev new l) ∧
      (∀ i : Nat, (∃ x, edges[i]? = some x ∧ x.used = true) ∨ i = cur → ∃ x, edges'[i]? = some x ∧ x.used = true) ∧ edges'.length = edges.length ∧
      (∀ n, (degree n edges + degree n edges' + ind n prev + ind n last) % 2 = 0) ∧ (last = start ∨ degree last edges' = 0)
  | 0, _, _, _, _, _, h, _, _, _, _ => by omega
  | fuel + 1, edges, cur, prev, loop, ed, hf, hinv, hcur, hu, hp => by
    rw [walk, hcur]
    dsimp only
    rw [if_neg (by simp [hu])]
    obtain ⟨ed', ho, hs', hends, hg, hok⟩ := orient_spec (rev := rev) hr h1 h2 (hinv.ok _ _ hcur) hp
    rw [ho]
    dsimp only
    have hlt := (List.getElem?_eq_some_iff.1 hcur).1
    have hfree := free_set (ed' := { ed' with used := true }) hcur hu rfl
    have hdeg : ∀ n, degree n edges = (if ed.s = n then 1 else 0) + (if ed.e = n then 1 else 0) + degree n (edges.set cur { ed' with used := true }) :=
      fun n => degree_set n hcur hu rfl
    have hinv' : Inv near src tgt nodes adj (edges.set cur { ed' with used := true }) := hinv.set hcur hok hends
    have hmono : ∀ i : Nat, (∃ x, edges[i]? = some x ∧ x.used = true) ∨ i = cur → ∃ x, (edges.set cur { ed' with used := true })[i]? = some x ∧ x.used = true := by
      rintro i (⟨x, hx, hxu⟩ | rfl)
      · by_cases hi : cur = i
        · subst hi; exact ⟨_, List.getElem?_set_self hlt, rfl⟩
        · exact ⟨x, by rw [List.getElem?_set_ne hi, hx], hxu⟩
      · exact ⟨_, List.getElem?_set_self hlt, rfl⟩
    obtain ⟨⟨q0, hq0, hq0'⟩, q1, hq1, hq1'⟩ := hok
    have hpar : ∀ n, (degree n edges + degree n (edges.set cur { ed' with used := true }) + ind n prev + ind n ed'.e) % 2 = 0 := by
      intro n
      rw [hdeg n]
      have : (if ed.s = n then 1 else 0) + (if ed.e = n then 1 else 0) = ind n prev + ind n ed'.e := by
        unfold ind
        rw [← hs']
        rcases hends with ⟨a, b⟩ | ⟨a, b⟩
        · rw [a, b]; simp only [eq_comm]
        · rw [a, b, Nat.add_comm]; simp only [eq_comm]
      omega
    have hstep : ∀ last, (last = start ∨ degree last (edges.set cur { ed' with used := true }) = 0) → last = ed'.e →
        ∃ new edges' last, some (loop ++ [ed'.geom], edges.set cur { ed' with used := true }) = some (loop ++ new, edges') ∧ new ≠ [] ∧ Trail near src tgt nodes prev new last ∧
          Inv near src tgt nodes adj edges' ∧ (∃ l, (free edges).Perm (l ++ free edges') ∧ SameUpToReversal rev new l) ∧
          (∀ i : Nat, (∃ x, edges[i]? = some x ∧ x.used = true) ∨ i = cur → ∃ x, edges'[i]? = some x ∧ x.used = true) ∧ edges'.length = edges.length ∧
          (∀ n, (degree n edges + degree n edges' + ind n prev + ind n last) % 2 = 0) ∧ (last = start ∨ degree last edges' = 0) := by
      rintro last hl rfl
      refine ⟨[ed'.geom], _, ed'.e, rfl, by simp, .cons ⟨q0, by rw [← hs']; exact hq0, hq0'⟩ ⟨q1, hq1, hq1'⟩ (.nil _), hinv', ⟨[ed.geom], hfree, .cons hg .nil⟩, hmono, by simp, hpar, hl⟩
    split
    · rename_i hc
      have he : ed'.e = start := (nearN_iff hr hs ha (List.getElem?_eq_some_iff.1 hq1).1 hst).1 hc.2
      exact hstep _ (.inl he) rfl
    · cases hn : nextEdge adj (edges.set cur { ed' with used := true }) ed'.e with
      | none => exact hstep _ (.inr (nextEdge_none hinv' hn)) rfl
      | some c =>
        dsimp only
        obtain ⟨x, hx, hxu, hxn⟩ := nextEdge_some hinv' hn
        have hl : (free (edges.set cur { ed' with used := true })).length < fuel := by
          have := hfree.length_eq
          simp only [List.length_cons] at this
          omega
        obtain ⟨new, edges', last, e1, e2, e3, e4, ⟨l, e5, e6⟩, e7, e8, e9, e10⟩ := walk_spec hr hs h1 h2 ha start hst fuel _ c ed'.e (loop ++ [ed'.geom]) x hl hinv' hx hxu hxn
        refine ⟨ed'.geom :: new, edges', last, by rw [e1]; simp, by simp, .cons ⟨q0, by rw [← hs']; exact hq0, hq0'⟩ ⟨q1, hq1, hq1'⟩ e3, e4, ⟨ed.geom :: l, ?_, .cons hg e6⟩, ?_, by rw [e8]; simp, ?_, e10⟩
        · exact hfree.trans (e5.cons _)
        · intro i hi
          exact e7 i (.inl (hmono i hi))
        · intro n
          have a := hpar n
          have b := e9 n
          omega

theorem allLoops_spec (hr : ∀ p, near p p = true) (hs : ∀ p q, near p q = near q p) (h1 : ∀ g, src (rev g) = tgt g) (h2 : ∀ g, tgt (rev g) = src g) (ha : Apart near nodes) :
    ∀ (is : List Nat) (edges : List (Edge S)), Inv near src tgt nodes adj edges → (∀ i ∈ is, i < edges.length) → (∀ (i : Nat) (x : Edge S), edges[i]? = some x → i ∉ is → x.used = true) →
    ∃ ls, allLoops rev near nodes adj is edges = some ls ∧ (∃ l, (free edges).Perm l ∧ SameUpToReversal rev ls.flatten l) ∧
      (∀ xs ∈ ls, xs ≠ [] ∧ ∃ n m, Trail near src tgt nodes n xs m ∧ ((∀ k, degree k edges % 2 = 0) → m = n))
  | [], edges, hinv, hlt, hall => by
    refine ⟨[], rfl, ⟨[], ?_, .nil⟩, by simp⟩
    have : free edges = [] := by
      unfold free
      rw [List.map_eq_nil_iff, List.filter_eq_nil_iff]
      intro x hx
      obtain ⟨i, hi⟩ := List.getElem?_of_mem hx
      simp [hall i x hi (by simp)]
    rw [this]
  | i :: is, edges, hinv, hlt, hall => by
    have hi := hlt i (by simp)
    rw [allLoops, List.getElem?_eq_getElem hi]
    dsimp only
    by_cases hu : edges[i].used = true
    · rw [if_pos hu]
      refine allLoops_spec hr hs h1 h2 ha is edges hinv (fun j hj => hlt j (by simp [hj])) fun j x hj hm => ?_
      by_cases hji : j = i
      · subst hji
        rw [List.getElem?_eq_getElem hi, Option.some.injEq] at hj
        rw [← hj]; exact hu
      · exact hall j x hj (by simp [hji, hm])
    · rw [if_neg hu]
      have hcur : edges[i]? = some edges[i] := List.getElem?_eq_getElem hi
      obtain ⟨⟨q, hq, -⟩, -⟩ := hinv.ok _ _ hcur
      have hlen : (free edges).length < edges.length + 1 := by
        unfold free
        rw [List.length_map]
        have := List.length_filter_le (fun ed : Edge S => !ed.used) edges
        omega
      obtain ⟨new, edges', last, e1, e2, e3, e4, ⟨l, e5, e6⟩, e7, e8, e9, e10⟩ :=
        walk_spec (rev := rev) hr hs h1 h2 ha edges[i].s (List.getElem?_eq_some_iff.1 hq).1 _ edges i edges[i].s [] _ hlen hinv hcur (by simpa using hu) (.inl rfl)
      rw [e1]
      dsimp only
      have hused : ∀ (j : Nat) (x : Edge S), edges'[j]? = some x → j ∉ is → x.used = true := by
        intro j x hj hm
        have hjl : j < edges.length := by rw [← e8]; exact (List.getElem?_eq_some_iff.1 hj).1
        have : (∃ x, edges[j]? = some x ∧ x.used = true) ∨ j = i := by
          by_cases hji : j = i
          · exact .inr hji
          · exact .inl ⟨edges[j], List.getElem?_eq_getElem hjl, hall j _ (List.getElem?_eq_getElem hjl) (by simp [hji, hm])⟩
        obtain ⟨y, hy, hyu⟩ := e7 j this
        rw [hj, Option.some.injEq] at hy
        rw [hy]; exact hyu
      obtain ⟨ls, f1, ⟨l', f2, f3⟩, f4⟩ := allLoops_spec hr hs h1 h2 ha is edges' e4 (fun j hj => by rw [e8]; exact hlt j (by simp [hj])) hused
      rw [f1]
      dsimp only
      rw [List.nil_append, if_neg e2]
      have hclosed : (∀ k, degree k edges % 2 = 0) → last = edges[i].s := by
        intro hev
        rcases e10 with h | h
        · exact h
        · by_contra hne
          have a := e9 last
          have b := hev last
          rw [h] at a
          unfold ind at a
          rw [if_neg hne, if_pos rfl] at a
          omega
      refine ⟨new :: ls, rfl, ⟨l ++ l', e5.trans (f2.append_left l), ?_⟩, ?_⟩
      · rw [List.flatten_cons]; exact List.rel_append e6 f3
      · intro xs hx
        rcases List.mem_cons.1 hx with rfl | hx
        · exact ⟨e2, _, _, e3, hclosed⟩
        · obtain ⟨g1, n, m, g2, g3⟩ := f4 xs hx
          refine ⟨g1, n, m, g2, fun hev => g3 fun k => ?_⟩
          have a := e9 k
          have b := hev k
          have c := hclosed hev
          rw [c] at a
          omega

end

/-! ## the properties -/

theorem Trail.meets {near : P → P → Bool} {src tgt : S → P} {nodes : List P} {xs : List S} {n m : Nat} (h : Trail near src tgt nodes n xs m) : List.IsChain (Meets near src tgt) xs := by
  induction h with
  | nil => exact .nil
  | @cons n m k x xs h1 h2 h3 ih =>
    cases h3 with
    | nil => exact .singleton _
    | cons g1 g2 g3 =>
      rw [List.isChain_cons_cons]
      refine ⟨?_, ih⟩
      obtain ⟨p, hp, hp'⟩ := h2
      obtain ⟨q, hq, hq'⟩ := g1
      rw [hp, Option.some.injEq] at hq
      subst hq
      exact ⟨p, hp', hq'⟩

theorem Trail.head {near : P → P → Bool} {src tgt : S → P} {nodes : List P} {xs : List S} {n m : Nat} (h : Trail near src tgt nodes n xs m) (hne : xs ≠ []) :
    At near nodes n (src (xs.head hne)) := by
  cases h with
  | nil => exact absurd rfl hne
  | cons h1 h2 h3 => exact h1

theorem Trail.last {near : P → P → Bool} {src tgt : S → P} {nodes : List P} {xs : List S} {n m : Nat} (h : Trail near src tgt nodes n xs m) (hne : xs ≠ []) :
    At near nodes m (tgt (xs.getLast hne)) := by
  induction h with
  | nil => exact absurd rfl hne
  | @cons n m k x xs h1 h2 h3 ih =>
    cases xs with
    | nil => cases h3; exact h2
    | cons y ys => rw [List.getLast_cons (by simp)]; exact ih (by simp)

theorem inv_start {near : P → P → Bool} {src tgt : S → P} {gl : List S} (hr : ∀ p, near p p = true) :
    let r := mkEdges near src tgt [] gl
    Inv near src tgt r.1 (fun n => adjFrom n 0 r.2) r.2 ∧ Apart near r.1 ∧ free r.2 = gl := by
  obtain ⟨-, h2, h3, h4⟩ := mkEdges_spec (src := src) (tgt := tgt) hr gl [] (by simp [Apart])
  refine ⟨⟨fun i ed hi => (h4 ed (List.mem_of_getElem? hi)).2, fun n c => ?_⟩, h2, ?_⟩
  · rw [mem_adjFrom]
    constructor
    · rintro ⟨k, ed, a, b, c⟩
      rw [Nat.zero_add] at b; subst b
      exact ⟨ed, a, c⟩
    · rintro ⟨ed, a, b⟩
      exact ⟨c, ed, a, by omega, b⟩
  · unfold free
    rw [List.filter_eq_self.2, h3]
    intro ed hed
    simp [(h4 ed hed).1]

/-- `_stitch_geomlist` ends, whatever the lines and arcs are; every line and arc is in exactly one loop exactly once, as it is or reversed, no loop is empty, and in every loop each
piece begins where the one before ends. -/
theorem C273_stitch {rev : S → S} {near : P → P → Bool} {src tgt : S → P} (hr : ∀ p, near p p = true) (hs : ∀ p q, near p q = near q p)
    (h1 : ∀ g, src (rev g) = tgt g) (h2 : ∀ g, tgt (rev g) = src g) (gl : List S) :
    ∃ ls, stitch rev near src tgt gl = some ls ∧ (∃ l, gl.Perm l ∧ SameUpToReversal rev ls.flatten l) ∧ ∀ xs ∈ ls, xs ≠ [] ∧ List.IsChain (Meets near src tgt) xs := by
  obtain ⟨a, b, c⟩ := inv_start (src := src) (tgt := tgt) (gl := gl) hr
  unfold stitch
  dsimp only
  obtain ⟨ls, f1, f2, f3⟩ := allLoops_spec (rev := rev) hr hs h1 h2 b (List.range (mkEdges near src tgt [] gl).2.length) _ a (by simp)
    (fun i x hi hm => absurd (List.mem_range.2 (List.getElem?_eq_some_iff.1 hi).1) hm)
  rw [c] at f2
  refine ⟨ls, f1, f2, fun xs hx => ?_⟩
  obtain ⟨g1, n, m, g2, -⟩ := f3 xs hx
  exact ⟨g1, g2.meets⟩

/-- the number of ends at a node, counted by the points -/
theorem degree_endsNear {near : P → P → Bool} {src tgt : S → P} (hr : ∀ p, near p p = true) (hs : ∀ p q, near p q = near q p) (ht : ∀ p q r, near p q = true → near q r = true → near p r = true)
    {nodes : List P} (ha : Apart near nodes) {n : Nat} {p : P} (hn : nodes[n]? = some p) : ∀ {edges : List (Edge S)}, (∀ ed ∈ edges, ed.used = false ∧ EdgeOk near src tgt nodes ed) →
    degree n edges = endsNear near src tgt p (edges.map (·.geom))
  | [], _ => by simp [degree, endsNear]
  | ed :: es, h => by
    have ih := degree_endsNear hr hs ht ha hn fun e' he => h e' (.tail _ he)
    obtain ⟨hu, ⟨q, hq, hq'⟩, q', hq2, hq2'⟩ := h ed (by simp)
    have key : ∀ {k : Nat} {q r : P}, nodes[k]? = some q → near q r = true → (k = n ↔ near p r = true) := by
      intro k q r hk hqr
      have hk' := (List.getElem?_eq_some_iff.1 hk).1
      have hn' := (List.getElem?_eq_some_iff.1 hn).1
      constructor
      · rintro rfl
        rw [hk, Option.some.injEq] at hn
        rw [← hn]; exact hqr
      · intro hpr
        refine (nearN_iff hr hs ha hk' hn').1 ?_
        unfold nearN
        rw [hk, hn]
        dsimp only
        exact ht _ _ _ hqr (by rw [hs]; exact hpr)
    unfold endsNear at ih ⊢
    rw [degree, hu, ih, List.map_cons, List.map_cons, List.sum_cons]
    simp only [Bool.false_eq_true, if_false, key hq hq', key hq2 hq2']

/-- If nearness does not depend on intermediate points and at every point an even number of lines and arcs end, every loop is closed. -/
theorem C274_closed_partial {rev : S → S} {near : P → P → Bool} {src tgt : S → P} (hr : ∀ p, near p p = true) (hs : ∀ p q, near p q = near q p)
    (ht : ∀ p q r, near p q = true → near q r = true → near p r = true) (h1 : ∀ g, src (rev g) = tgt g) (h2 : ∀ g, tgt (rev g) = src g) (gl : List S)
    (hev : ∀ p, Even (endsNear near src tgt p gl)) {ls : List (List S)} (h : stitch rev near src tgt gl = some ls) :
    ∀ xs ∈ ls, ∃ hne : xs ≠ [], near (tgt (xs.getLast hne)) (src (xs.head hne)) = true := by
  obtain ⟨a, b, c⟩ := inv_start (src := src) (tgt := tgt) (gl := gl) hr
  obtain ⟨-, -, m3, m4⟩ := mkEdges_spec (src := src) (tgt := tgt) hr gl [] (by simp [Apart])
  unfold stitch at h
  dsimp only at h
  obtain ⟨ls', f1, f2, f3⟩ := allLoops_spec (rev := rev) hr hs h1 h2 b (List.range (mkEdges near src tgt [] gl).2.length) _ a (by simp)
    (fun i x hi hm => absurd (List.mem_range.2 (List.getElem?_eq_some_iff.1 hi).1) hm)
  rw [f1, Option.some.injEq] at h
  subst h
  intro xs hx
  obtain ⟨g1, n, m, g2, g3⟩ := f3 xs hx
  have hd : ∀ k, degree k (mkEdges near src tgt [] gl).2 % 2 = 0 := by
    intro k
    cases hk : (mkEdges near src tgt [] gl).1[k]? with
    | some p =>
      rw [degree_endsNear hr hs ht b hk m4, m3]
      exact Nat.even_iff.1 (hev p)
    | none =>
      have : degree k (mkEdges near src tgt [] gl).2 = 0 := by
        refine degree_zero fun i ed hi hn => ?_
        obtain ⟨⟨q, hq, -⟩, q', hq', -⟩ := a.ok i ed hi
        rcases hn with rfl | rfl
        · rw [hk] at hq; cases hq
        · rw [hk] at hq'; cases hq'
      rw [this]
  obtain rfl := g3 hd
  obtain ⟨p, hp, hp'⟩ := g2.head g1
  obtain ⟨q, hq, hq'⟩ := g2.last g1
  rw [hp, Option.some.injEq] at hq
  subst hq
  exact ⟨g1, ht _ _ _ (by rw [hs]; exact hq') hp'⟩

/-- Points on a line that are near if they are at most 1 apart: the four pieces, given in order, lead from one to the next and back to the first, all to within the tolerance; but
as the second corner is near the first, the loop is taken apart and one of the parts is not closed. -/
theorem C274_close_corners :
    List.IsChain (fun x y : Int × Int => |x.2 - y.1| ≤ 1) [(1, 10), (10, 3), (2, 20), (20, 0), (1, 10)] ∧
      stitch Prod.swap (fun p q : Int => decide (|p - q| ≤ 1)) Prod.fst Prod.snd [(1, 10), (10, 3), (2, 20), (20, 0)] = some [[(1, 10), (10, 3)], [(2, 20), (20, 0)]] := by
  constructor <;> decide +kernel

/-! ## the hypotheses are met -/

/-- two squares of directed sides between numbered corners, some of them backwards, in a jumble -/
def sides : List (Nat × Nat) := [(1, 2), (6, 5), (3, 2), (4, 1), (6, 7), (3, 4), (8, 7), (5, 8)]

example : stitch Prod.swap (· == ·) Prod.fst Prod.snd sides = some [[(1, 2), (2, 3), (3, 4), (4, 1)], [(6, 5), (5, 8), (8, 7), (7, 6)]] := by decide +kernel

/-- every corner has two ends -/
example (p : Nat) : Even (endsNear (· == ·) Prod.fst Prod.snd p sides) := by
  unfold endsNear sides
  simp only [beq_iff_eq, List.map_cons, List.map_nil, List.sum_cons, List.sum_nil]
  by_cases h1 : p = 1 <;> by_cases h2 : p = 2 <;> by_cases h3 : p = 3 <;> by_cases h4 : p = 4 <;> by_cases h5 : p = 5 <;> by_cases h6 : p = 6 <;> by_cases h7 : p = 7 <;>
    by_cases h8 : p = 8 <;> simp_all (config := {decide := true})

end Verif.Loops
