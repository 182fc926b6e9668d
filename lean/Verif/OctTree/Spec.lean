import Verif.OctTree.Model

/-! Specification of box overlap: sharing a point. Independent of the code's algorithm. -/

namespace Verif.OctTree
variable {K : Type} [Field K] [LinearOrder K]

/-- A well-formed box. -/
def Box.Valid (b : Box K) : Prop := b.lo.x ≤ b.hi.x ∧ b.lo.y ≤ b.hi.y ∧ b.lo.z ≤ b.hi.z

/-- The point `p` belongs to the closed box. -/
def Box.Mem (b : Box K) (p : P3 K) : Prop :=
  (b.lo.x ≤ p.x ∧ p.x ≤ b.hi.x) ∧ (b.lo.y ≤ p.y ∧ p.y ≤ b.hi.y) ∧ (b.lo.z ≤ p.z ∧ p.z ≤ b.hi.z)

/-- The point `p` belongs to the box as seen in the x-y plane. -/
def Box.Mem2 (b : Box K) (p : P3 K) : Prop :=
  (b.lo.x ≤ p.x ∧ p.x ≤ b.hi.x) ∧ (b.lo.y ≤ p.y ∧ p.y ≤ b.hi.y)

/-- Membership in the dimension of the tree. -/
def Box.MemK (k : Kind) (b : Box K) (p : P3 K) : Prop :=
  match k with
  | .quad => b.Mem2 p
  | .oct => b.Mem p

/-- Two boxes touch: they share a point (in the tree's dimension). -/
def Touch (k : Kind) (b1 b2 : Box K) : Prop := ∃ p, b1.MemK k p ∧ b2.MemK k p

/-- `p` lies in the common bounding box of `bs`: on every axis it is between some box's lower
bound and some box's upper bound. -/
def InHull (bs : List (Box K)) (p : P3 K) : Prop :=
  ((∃ b ∈ bs, b.lo.x ≤ p.x) ∧ ∃ b ∈ bs, p.x ≤ b.hi.x) ∧
  ((∃ b ∈ bs, b.lo.y ≤ p.y) ∧ ∃ b ∈ bs, p.y ≤ b.hi.y) ∧
  ((∃ b ∈ bs, b.lo.z ≤ p.z) ∧ ∃ b ∈ bs, p.z ≤ b.hi.z)

/-- Arguments a caller may pass to an operation of a tree that holds the boxes `log`. -/
def OpOK (log : List (Box K)) : Op K → Prop
  | .add b => b.Valid
  | .recenter (some c) => InHull log c
  | .recenter none => True
  | .setMaxdepth _ => True
  | .setMindim _ => True
  | .get q => q.Valid

/-- `Reach s log`: `s` is reached by constructing a tree and applying operations that did not
raise; `log` is the list of all boxes handed to the constructor and to `addElement`, in order. -/
inductive Reach : State K → List (Box K) → Prop
  | init (pr : Params K) (geom : List (Box K)) (center : Option (P3 K))
      (hm : pr.eps ≤ pr.mindim) (hg : ∀ b ∈ geom, b.Valid)
      (hc : ∀ c, center = some c → InHull geom c) : Reach (init pr geom center) geom
  | step {s s' : State K} {log : List (Box K)} {op : Op K} {out : Option (List Nat)}
      (hr : Reach s log) (hok : OpOK log op) (hs : step s op = some (s', out)) :
      Reach s' (match op with | .add b => log ++ [b] | _ => log)

/-- `Sub t n u`: `u` is a node of `t` at depth `n` below its root. -/
inductive Sub : Tree K → Nat → Tree K → Prop
  | refl (t : Tree K) : Sub t 0 t
  | child {cs : List (Tree K)} {c u : Tree K} {n : Nat} (hc : c ∈ cs) (h : Sub c n u) :
      Sub (.node cs) (n + 1) u

end Verif.OctTree
