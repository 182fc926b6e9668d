import Verif.Kin.Chain

/-!
Specification of poses, ignoring caches: the pose of a part is the product of (parent pose,
attachment frame, joint transform) along the path from the datum.
-/

namespace Verif.Kin
variable {V T : Type} [LinearOrder V] [Monoid T]

/-- Offset of frame `f` on part `p` (ORIGIN and unknown frames are the part's own pose). -/
def Part.offset (p : Part V T) (f : String) : T :=
  if f = "ORIGIN" then 1 else (p.getFrame f).getD 1

/-- `Pose s n w`: `w` is the composition, root to leaf, of attachment frames and joint transforms
with the *current* joint values. No reference to caches. -/
inductive Pose (s : Chain V T) : String → T → Prop
  | root : Pose s datumName 1
  | child {n q : String} {p pq : Part V T} {w : T} (hp : p ∈ s.parts) (hn : p.name = n)
      (hd : n ≠ datumName) (hq : p.parent = some q) (hpq : pq ∈ s.parts) (hqn : pq.name = q)
      (hw : Pose s q w) : Pose s n (w * pq.offset p.parentFrame * p.joint.getTransform)

/-- A frame redefinition that cannot affect other parts: no part is attached to that frame. -/
def FrameFree (s : Chain V T) (n f : String) : Prop :=
  ∀ p ∈ s.parts, p.parent = some n → p.parentFrame ≠ f

/-- Reachable by any history of public operations, where frames in use are not redefined. -/
inductive Reach : Chain V T → Prop
  | init (a b c : V) : Reach (Chain.init a b c)
  | step {s s' : Chain V T} {op : Op V T} (h : Reach s)
      (hok : ∀ n f t, op = .addFrame n f t → FrameFree s n f) (hs : s.step op = some s') : Reach s'

/-- Same chain up to cached transforms. -/
def SameButCache (s s' : Chain V T) : Prop :=
  s'.children = s.children ∧
  s'.parts.map (fun p => { p with cache := none }) = s.parts.map (fun p => { p with cache := none })

end Verif.Kin
