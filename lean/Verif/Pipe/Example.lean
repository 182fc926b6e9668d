import Verif.Pipe.Witness2

set_option maxRecDepth 100000

/-!
# A program that meets the hypotheses of C155

Two commands, a default, a loop over a built-in range, a list, an assignment, a conditional with three branches, a requirement.
-/

namespace Verif.Pipe

open Verif.Interp (Data Err)
open Verif.Checker (nm front lookupBuiltin)

/-- the source -/
def exSrc : String := "module m
command G(x: int, k: int = 2) -> int:
    emit x * k
command F(a: int, b: float) -> float:
    t = 0
    xs = [10, 20]
    for i in range(a):
        if i > 1 and b > 0.0:
            (t) = t + G(i)
        elif i == 1:
            (t) = t + xs[i]
        else:
            y = b
    require t > 0
    emit t + b
"

/-- its arguments: 4 and 1.5 -/
def exRaw : List (String × Data Int) := [("a", .int 4), ("b", .flt 15)]

/-- it emits 31.5 -/
example : runs exSrc exRaw = (true, some (.flt 315)) := by decide +kernel

/-- `range` may be used, `xs` is the list variable -/
def exLang (m : Parser.Mod) : Lang := ⟨m, fun n => n == nm "range", fun n => n == nm "xs"⟩

/-- what has to be checked of the accepted module -/
def exCheck (m : Parser.Mod) : Bool :=
  tameMod (exLang m) && match m.functions.find? (fun c => c.name == nm "F") with
    | some c => c.params.map (fun p => (p.name, primOf p.ty)) == [(nm "a", some .int), (nm "b", some .float)] &&
        c.name == nm "F"
    | none => false

theorem exAccepted : (match front Lexer.asciiUni Checker.listOrder exSrc.toList with
    | some (.accepted m _) => exCheck m
    | _ => false) = true := by decide +kernel

/-- `range` of the example host keeps its promise -/
theorem exHonest : Honest demoHost (fun n => n == nm "range") (fun _ => False) := by
  intro n sig vs hn hs hreq hf
  have hn : n = nm "range" := by simpa using hn
  subst hn
  have : sig = ⟨[("end", .prim .int, false)], .list (.prim .int)⟩ := by
    have h2 : lookupBuiltin (nm "range") = some ⟨[("end", .prim .int, false)], .list (.prim .int)⟩ := rfl
    rw [h2] at hs
    exact (Option.some.inj hs).symm
  subst this
  cases vs with
  | nil => exact absurd hreq (by decide)
  | cons v vs =>
    cases vs with
    | cons w vs => cases hf with | cons _ h => cases h
    | nil =>
      cases hf with
      | cons hv _ =>
        refine ⟨_, rfl, ?_⟩
        obtain ⟨h1, h2, -⟩ := hv
        obtain ⟨d, t, e⟩ := v
        have ht : t = .prim .int := by
          cases t with
          | prim p => cases p <;> first | rfl | simp [Types.accepts] at h1
          | _ => simp [Types.accepts] at h1
        subst ht
        cases d <;> simp only [Exact] at h2
        refine ⟨fun w hw => ?_, fun e he => by simp at he⟩
        simp only [Except.ok.injEq] at hw
        subst hw
        refine ⟨Types.C25_reflexive _, ?_, fun h => by cases h⟩
        intro d hd
        simp only [List.mem_map] at hd
        obtain ⟨k, -, rfl⟩ := hd
        trivial

/-- every hypothesis of C155 is met -/
example : ∃ m ds c, front Lexer.asciiUni Checker.listOrder exSrc.toList = some (.accepted m ds) ∧ tameMod (exLang m) = true ∧
    Honest demoHost (exLang m).builtins (fun _ => False) ∧ (∀ s, demoHost.native s = none) ∧
    (∀ c ∈ m.functions, demoEnc.hint c = none) ∧ m.functions.find? (fun d => d.name == c.name) = some c ∧ RawOk c exRaw := by
  have h := exAccepted
  split at h
  next m ds hf =>
    simp only [exCheck, Bool.and_eq_true] at h
    obtain ⟨h1, h2⟩ := h
    cases hc : m.functions.find? (fun c => c.name == nm "F") with
    | none => rw [hc] at h2; simp at h2
    | some c =>
      rw [hc] at h2
      simp only [Bool.and_eq_true, beq_iff_eq] at h2
      obtain ⟨h2, h3⟩ := h2
      refine ⟨m, ds, c, hf, h1, exHonest, fun _ => rfl, fun _ _ => rfl, by rw [h3]; exact hc, ?_⟩
      intro p hp
      have hp : (p.name, primOf p.ty) ∈ [(nm "a", some Types.Prim.int), (nm "b", some Types.Prim.float)] := by
        rw [← h2]
        exact List.mem_map_of_mem hp
      simp only [List.mem_cons, List.not_mem_nil, or_false, Prod.mk.injEq] at hp
      rcases hp with ⟨e1, e2⟩ | ⟨e1, e2⟩
      · rw [e1, e2]
        refine ⟨fun d hd q hq => ?_, fun _ => by decide +kernel⟩
        have : Dict.dget exRaw (str (nm "a")) = some (.int 4) := rfl
        rw [this] at hd
        cases hd; cases hq
        trivial
      · rw [e1, e2]
        refine ⟨fun d hd q hq => ?_, fun _ => by decide +kernel⟩
        have : Dict.dget exRaw (str (nm "b")) = some (.flt 15) := rfl
        rw [this] at hd
        cases hd; cases hq
        trivial
  · cases h

end Verif.Pipe
