import Verif.Pipe.Sound3
import Verif.Pipe.Demo
import Verif.Checker.Props
import Verif.Interp.Props2

/-!
# C155: programs accepted by the checker do not go wrong, for the core language

The full claim is that a program without type errors never raises or fails at run time for a reason types could have
excluded, and emits a value of the declared type. It is false in many ways (`Verif/Pipe/Witness.lean`); it is proved here for
the fragment `tameMod` of `Verif/Pipe/Frag.lean`.
-/

namespace Verif.Pipe

open Verif.Parser (Name Mod Fn)
open Verif.Interp (Data Host Err Exn Result execute)
open Verif.Checker (front SetOrder)

variable {F : Type}

/-- **C155** An accepted program of the core language, run on arguments that fit the parameters: no name is undefined, no
operand has the wrong type, no argument is missing; every error is one that types cannot exclude (division by zero, an index
out of range, the recursion limit, a command that emits nothing, or an error of a built-in function itself), and an emitted
value has the declared type. -/
theorem C155_sound_partial (U : Lexer.Uni) (o : SetOrder) (E : Enc F) (H : Host F) (X : Err → Prop) (A : Lang) (src : List Char)
    (ds : List Checker.Diag) (hf : front U o src = some (.accepted A.mod ds)) (ht : tameMod A = true) (hh : Honest H A.builtins X)
    (hn : ∀ s, H.native s = none) (hi : ∀ c ∈ A.mod.functions, E.hint c = none)
    (c : Fn) (hc : A.mod.functions.find? (fun d => d.name == c.name) = some c)
    (raw : List (String × Data F)) (hraw : RawOk c raw) (limit fuel : Nat) :
    Fine X c (execute H (trMod E limit A.mod) fuel (str c.name) raw).1 := by
  obtain ⟨ts, n, -, -, G, h1, h2, h3⟩ := (Checker.C152_compile U o src A.mod).1 ⟨ds, hf⟩
  have hb : A.mod.blocks = [] ∧ A.mod.natives = [] := by
    simp only [tameMod, Bool.and_eq_true, List.isEmpty_iff] at ht
    exact ⟨ht.1, ht.2.1⟩
  exact execute_sound ⟨hn, hi, ht, glob_of hb.1 hb.2 h1 h2, h3, hh⟩ limit fuel hc raw hraw

/-- the defaults of the fragment are literals -/
theorem defaults_noNamed (E : Enc F) (limit : Nat) {A : Lang} (ht : tameMod A = true) :
    Interp.DefaultsNoNamed (trMod E limit A.mod) := by
  intro c hc p hp e he
  simp only [trMod, List.mem_map] at hc
  obtain ⟨c', hc', rfl⟩ := hc
  simp only [trFn, List.mem_map] at hp
  obtain ⟨p', hp', rfl⟩ := hp
  simp only [tameMod, Bool.and_eq_true, List.all_eq_true] at ht
  have h := ht.2.2 c' hc'
  simp only [tameFn, Bool.and_eq_true, List.all_eq_true] at h
  have h := h.2.1 p' hp'
  simp only [tameP, Bool.and_eq_true] at h
  simp only [trParam, Option.map_eq_some_iff] at he
  obtain ⟨d, hd, rfl⟩ := he
  have h := h.2.2
  rw [hd] at h
  cases d with
  | lit k v =>
    simp only [trE]
    cases litOf E k v with
    | some l => exact .lit _
    | none => exact .call _ _ (by simp)
  | _ => simp at h

/-- **C155** ... and every such run ends: from some fuel on it gives a result or one of those exceptions. -/
theorem C155_ends_partial (U : Lexer.Uni) (o : SetOrder) (E : Enc F) (H : Host F) (X : Err → Prop) (A : Lang) (src : List Char)
    (ds : List Checker.Diag) (hf : front U o src = some (.accepted A.mod ds)) (ht : tameMod A = true) (hh : Honest H A.builtins X)
    (hn : ∀ s, H.native s = none) (hi : ∀ c ∈ A.mod.functions, E.hint c = none)
    (c : Fn) (hc : A.mod.functions.find? (fun d => d.name == c.name) = some c)
    (raw : List (String × Data F)) (hraw : RawOk c raw) (limit : Nat) :
    ∃ N, ∀ fuel, N ≤ fuel →
      (∃ r, compileAndRun U o E H limit fuel src (str c.name) raw = some (.result r) ∧ Fine X c (.ok r)) ∨
      (compileAndRun U o E H limit fuel src (str c.name) raw = some .raised ∧
        ∃ e, Benign X e ∧ (execute H (trMod E limit A.mod) fuel (str c.name) raw).1 = .error (.py e)) := by
  obtain ⟨N, hN⟩ := Interp.C77_terminates_partial (trMod E limit A.mod) (defaults_noNamed E limit ht)
  refine ⟨N, fun fuel hle => ?_⟩
  have h1 := C155_sound_partial U o E H X A src ds hf ht hh hn hi c hc raw hraw limit fuel
  have h2 := hN H fuel hle (str c.name) raw
  unfold compileAndRun
  simp only [hf]
  cases hx : (execute H (trMod E limit A.mod) fuel (str c.name) raw).1 with
  | ok r =>
    rw [hx] at h1
    exact .inl ⟨r, rfl, h1⟩
  | error e =>
    rw [hx] at h1 h2
    cases e with
    | py e => exact .inr ⟨rfl, e, h1, rfl⟩
    | outOfFuel => exact absurd rfl h2

end Verif.Pipe
