import Verif.Path.Model

/-!
# What a caller means by a path
-/

namespace Verif.Path

/-- an arc that is one: its plane is perpendicular to the normal and its ends have the same distance from the centre, not nearly 0 -/
structure IsArc (c s e n : Vec) : Prop where
  normal : 1e-10 ≤ len n
  radius : 1e-10 ≤ len (sub s c)
  same : len (sub e c) = len (sub s c)
  perp_s : dot n (sub s c) = 0
  perp_e : dot n (sub e c) = 0

/-- what a caller means by a segment: a line with any end points, or an arc from `s` to `e` about `c` -/
def Proper : Seg → Prop
  | .line _ _ => True
  | .arc c s e n => IsArc c s e (up n)
  | .other => False

/-- first point -/
def ini : Seg → Vec
  | .line s _ => s
  | .arc _ s _ _ => s
  | .other => ⟨0, 0, 0⟩

/-- last point -/
def fin : Seg → Vec
  | .line _ e => e
  | .arc _ _ e _ => e
  | .other => ⟨0, 0, 0⟩

/-- each segment begins where the one before it ends -/
def Joined : List Seg → Prop
  | [] => True
  | [_] => True
  | a :: b :: l => fin a = ini b ∧ Joined (b :: l)

/-- the point of an evaluation -/
def At (p : List Seg) (t : ℝ) (v : Vec) : Prop := ∃ τ, evaluate p t = .ok (v, τ)

end Verif.Path
