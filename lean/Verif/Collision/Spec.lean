import Verif.Collision.Model

/-! Specification for the registry: a plain list of interfaces in registration order. -/

namespace Verif.Collision
variable {α : Type}

/-- What a registry *is*: the registered interfaces, oldest first. -/
def specStep (l : List (Iface α)) : RegOp α → List (Iface α)
  | .register i => if ∃ j ∈ l, j.name = i.name then l else l ++ [i]
  | .unregister n => l.filter fun i => i.name ≠ n
  | .clear => []

/-- Contents after a history. -/
def specRun (ops : List (RegOp α)) : List (Iface α) := ops.foldl specStep []

/-- The registry after a history (`none` if an exception escaped). -/
def runReg (ops : List (RegOp α)) : Option (Registry α) := ops.foldlM (fun r o => r.step o) .empty

/-- A pair of registered interfaces of parts `pa`, `pb` that touch. -/
def Touching (l : List (Iface α)) (overlaps : Iface α → Iface α → Bool) (pa pb : String)
    (a b : Iface α) : Prop :=
  a ∈ l ∧ b ∈ l ∧ a.part = pa ∧ b.part = pb ∧ overlaps a b = true

end Verif.Collision
