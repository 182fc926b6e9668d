import Verif.Pipe.Assign

/-!
# C162: the checker rejects every concatenation of strings; the interpreter performs every one
-/

namespace Verif.Pipe

open Verif.Checker (HasTy BinTy)
open Verif.Interp (Host Val binVal)

variable {F : Type}

/-- types of which a sum is accepted -/
def Addable : Types.Ty → Prop
  | .prim p => p = .int ∨ p = .float
  | .geo _ => True
  | .list _ => True
  | _ => False

theorem addable {a b t : Types.Ty} (h : BinTy "PLUS" a b t) : Addable a ∧ Addable b := by
  have num : ∀ {x : Types.Ty}, Types.isNumeric x = true → Addable x := by
    intro x hx
    cases x with
    | prim p => cases p <;> simp_all [Types.isNumeric, Addable]
    | _ => simp [Types.isNumeric] at hx
  generalize ho : "PLUS" = op at h
  cases h with
  | div => simp at ho
  | floorDiv => simp at ho
  | int => exact ⟨.inl rfl, .inl rfl⟩
  | floatL _ h => exact ⟨.inr rfl, num h⟩
  | floatR => exact ⟨.inl rfl, .inr rfl⟩
  | geoScalar _ h => exact ⟨trivial, num h⟩
  | geoSum => exact ⟨trivial, trivial⟩
  | concat => exact ⟨trivial, trivial⟩
  | compare h => subst ho; simp at h
  | equal h => subst ho; simp at h
  | logic h => subst ho; simp at h

/-- **C162** is violated by every sum of strings, in every context: the operands of an accepted sum are numbers, geometry or
lists - never strings, and never of unknown type, as a parameter without annotation is -/
theorem C162_sums_accepted {R : Option Parser.Ty} {Γ Γ' : List Checker.Frame} {l r : Parser.Expr} {t : Types.Ty}
    (h : HasTy R Γ (.bin "PLUS" l r) t Γ') :
    ∃ a b Γ1, HasTy R Γ l a Γ1 ∧ HasTy R Γ1 r b Γ' ∧ Addable a ∧ Addable b := by
  cases h with
  | bin h1 h2 h3 => exact ⟨_, _, _, h1, h2, addable h3⟩

/-- ... while the interpreter adds every two strings -/
theorem C162_strings_run (H : Host F) (hs : ∀ s, H.str (.str s) = s) (a b : String) (e e' : Bool) :
    binVal H .plus ⟨.str a, .prim .string, e⟩ ⟨.str b, .prim .string, e'⟩ = .ok ⟨.str (a ++ b), .prim .string, false⟩ := by
  show Interp.plusOp H _ _ = _
  simp [Interp.plusOp, Interp.strVal, hs]

/-- numbers are accepted -/
example (R : Option Parser.Ty) (Γ : List Checker.Frame) :
    HasTy R Γ (.bin "PLUS" (.lit "INT_LITERAL" (.int 1)) (.lit "INT_LITERAL" (.int 2))) (.prim .int) Γ :=
  .bin (.lit (by decide)) (.lit (by decide)) (.int (by decide))

end Verif.Pipe
