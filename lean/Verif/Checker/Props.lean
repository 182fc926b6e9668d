import Verif.Checker.Cycles
import Verif.Checker.Compile
import Mathlib.Data.List.Forall2

/-!
# Properties of the checker: C152, C153, C156–C158

`check o max m`: the result of checking a module, with any order `o` in which Python lists its sets of names and any
limit `max` on the number of errors.
-/

namespace Verif.Checker

open Verif.Types (Ty)
open Verif.Parser (Name Expr Clause Stmt Block Pat Mod Fn Param NBlock NFn NDecl parseModule)

/-- the checker reports no error -/
def Accepted (o : SetOrder) (max : Nat) (m : Mod) : Prop := ∃ r, check o max m = .ok r ∧ r.hasErrors = false

/-! ### C152: accepted means well typed -/

/-- **C152** for every source text: what goes on to the interpreter is exactly what parses and is well typed -/
theorem C152_compile (U : Lexer.Uni) (o : SetOrder) (src : List Char) (m : Mod) :
    (∃ ds, front U o src = some (.accepted m ds)) ↔
      ∃ ts n, Lexer.tokenize U src = some (.ok (ts, n)) ∧ parseModule ts = .ok m ∧ ModOk m := by
  unfold front
  cases ht : Lexer.tokenize U src with
  | none => simp
  | some x =>
    cases x with
    | error e => simp
    | ok y =>
      obtain ⟨ts, n⟩ := y
      cases hp : parseModule ts with
      | error e => simp [hp]
      | ok m' =>
        have h152 := C152_accepts_iff_well_typed o 20 (by omega) m' (parsed_wf hp)
        simp only [Option.some.injEq, Except.ok.injEq, Prod.mk.injEq]
        constructor
        · rintro ⟨ds, h⟩
          cases hc : check o 20 m' with
          | error e => simp [hp, hc] at h
          | ok r =>
            cases hr : r.hasErrors with
            | true => simp [hp, hc, hr] at h
            | false =>
              simp only [hp, hc, hr, Bool.false_eq_true, if_false, Option.some.injEq, Front.accepted.injEq] at h
              obtain ⟨rfl, -⟩ := h
              exact ⟨ts, n, ⟨rfl, rfl⟩, hp, h152.1 ⟨r, hc, hr⟩⟩
        · rintro ⟨ts', n', ⟨rfl, rfl⟩, h1, h2⟩
          rw [hp] at h1
          injection h1 with h1
          subst h1
          obtain ⟨r, hc, hr⟩ := h152.2 h2
          exact ⟨r.diags, by simp [hp, hc, hr]⟩

set_option maxRecDepth 100000 in
/-- an accepted source -/
example : verdict "module m\ncommand F(a: int, b: float = 2.0) -> float:\n    c = a * b\n    emit c + 1\n" =
    some (true, []) := by decide +kernel

/-- a rejected one: `a / 2` is a float -/
example : verdict "module m\ncommand F(a: int) -> int:\n    emit a / 2\n" = some (false, ["E230"]) := by decide +kernel

/-! ### C153: the order of declarations does not matter -/

theorem items_perm {m m' : Mod} (h1 : m.blocks.Perm m'.blocks) (h2 : m.natives.Perm m'.natives)
    (h3 : m.functions.Perm m'.functions) : (items m).Perm (items m') := by
  unfold items
  exact ((h1.flatMap_right _).append (h2.map _)).append (h3.map _)

theorem modOk_perm {m m' : Mod} (h1 : m.blocks.Perm m'.blocks) (h2 : m.natives.Perm m'.natives)
    (h3 : m.functions.Perm m'.functions) (h : ModOk m) : ModOk m' := by
  obtain ⟨G, hG, hn, hc⟩ := h
  obtain ⟨G', hp, hG'⟩ : ∃ G', G.Perm G' ∧ List.Forall₂ ItemSym (items m') G' := by
    have := List.perm_comp_forall₂ (r := ItemSym) (items_perm h1 h2 h3).symm hG
    obtain ⟨G', h4, h5⟩ := this
    exact ⟨G', h5.symm, h4⟩
  refine ⟨G', hG', (hp.map _).nodup_iff.1 hn, fun c hm => ?_⟩
  have hf : frameOf G' = frameOf G := by
    funext n
    unfold frameOf
    cases hd : Verif.Dict.dget G n with
    | none =>
      cases hd' : Verif.Dict.dget G' n with
      | none => rfl
      | some y =>
        have := Verif.Dict.mem_of_dget hd'
        have := Verif.Dict.dget_of_mem hn (hp.mem_iff.2 this)
        rw [hd] at this
        cases this
    | some y =>
      exact Verif.Dict.dget_of_mem ((hp.map _).nodup_iff.1 hn) (hp.mem_iff.1 (Verif.Dict.mem_of_dget hd))
  rw [hf]
  exact hc c (h3.mem_iff.2 hm)

/-- **C153**: reordering the commands, native functions and native blocks of a module does not change whether it is
accepted (nor does the order in which Python lists sets, nor a positive limit on errors) -/
theorem C153_order (o o' : SetOrder) (max max' : Nat) (hm : 1 ≤ max) (hm' : 1 ≤ max') (m m' : Mod) (w : wfMod m)
    (h1 : m.blocks.Perm m'.blocks) (h2 : m.natives.Perm m'.natives) (h3 : m.functions.Perm m'.functions) :
    Accepted o max m ↔ Accepted o' max' m' := by
  have w' : wfMod m' := fun c hc => w c (h3.mem_iff.2 hc)
  unfold Accepted
  rw [C152_accepts_iff_well_typed o max hm m w, C152_accepts_iff_well_typed o' max' hm' m' w']
  exact ⟨modOk_perm h1 h2 h3, modOk_perm h1.symm h2.symm h3.symm⟩

set_option maxRecDepth 100000 in
/-- a command may call one that is declared after it -/
example : verdict "module m\ncommand F() -> float:\n    emit G(1)\ncommand G(a: float) -> float:\n    emit a\n" =
    some (true, []) ∧
    verdict "module m\ncommand G(a: float) -> float:\n    emit a\ncommand F() -> float:\n    emit G(1)\n" =
    some (true, []) := by decide +kernel

/-! ### what the checker looks at is part of the text -/

theorem app_sub {α : Type} {a b c d : List α} (h : a ⊆ c) (h' : b ⊆ d) : a ++ b ⊆ c ++ d := by
  intro x hx
  rcases List.mem_append.1 hx with hx | hx
  · exact List.mem_append_left _ (h hx)
  · exact List.mem_append_right _ (h' hx)

theorem onlyIf_sub {α : Type} {l l' : List α} (h : l ⊆ l') : onlyIf false l ⊆ onlyIf true l' := by
  simp [onlyIf]

mutual
theorem evE_sub : ∀ e, evE false e ⊆ evE true e
  | .lit _ _ => by simp [evE]
  | .ident _ => by simp [evE]
  | .bin _ l r => by
    unfold evE
    exact app_sub (evE_sub l) (evE_sub r)
  | .un _ e => by unfold evE; exact evE_sub e
  | .call f args named => by
    have h1 := evE_sub f
    have h2 := evEs_sub args
    have h3 := evN_sub named
    unfold evE
    split
    · split_ifs
      · exact List.cons_subset_cons _ (app_sub h2 (onlyIf_sub h3))
      · exact app_sub h2 h3
    · exact app_sub h1 (onlyIf_sub (app_sub h2 h3))
  | .method o _ args named => by
    unfold evE
    exact app_sub (evE_sub o) (app_sub (evEs_sub args) (onlyIf_sub (evN_sub named)))
  | .member o _ => by unfold evE; exact evE_sub o
  | .index o i => by
    unfold evE
    exact app_sub (evE_sub o) (evE_sub i)
  | .list es => by unfold evE; exact evEs_sub es
  | .comp e cs => by
    unfold evE
    exact app_sub (evC_sub cs) (evE_sub e)
  | .range a b => by
    unfold evE
    exact app_sub (evE_sub a) (evE_sub b)
  | .dict es => by unfold evE; exact evN_sub es
  | .lam _ b => by unfold evE; exact evE_sub b
  | .cond c t e => by
    unfold evE
    exact app_sub (evE_sub c) (app_sub (evE_sub t) (evE_sub e))
  | .ifE c t elifs els => by
    unfold evE
    refine app_sub (evE_sub c) (app_sub (evB_sub t) (app_sub
      (onlyIf_sub (evL_sub elifs)) ?_))
    cases els with
    | none => simp
    | some b => exact evB_sub b
  | .matchE s arms => by
    unfold evE
    exact app_sub (evE_sub s) (evA_sub arms)
theorem evEs_sub : ∀ es, evEs false es ⊆ evEs true es
  | [] => by simp [evEs]
  | e :: es => by
    unfold evEs
    exact app_sub (evE_sub e) (evEs_sub es)
theorem evN_sub : ∀ es, evN false es ⊆ evN true es
  | [] => by simp [evN]
  | (_, e) :: es => by
    unfold evN
    exact app_sub (evE_sub e) (evN_sub es)
theorem evC_sub : ∀ cs, evC false cs ⊆ evC true cs
  | [] => by simp [evC]
  | .mk _ it conds :: cs => by
    unfold evC
    exact app_sub (evE_sub it) (app_sub (evEs_sub conds) (evC_sub cs))
theorem evA_sub : ∀ as, evA false as ⊆ evA true as
  | [] => by simp [evA]
  | (_, e) :: as => by
    unfold evA
    exact app_sub (evE_sub e) (evA_sub as)
theorem evL_sub : ∀ bs, evL false bs ⊆ evL true bs
  | [] => by simp [evL]
  | (c, b) :: bs => by
    unfold evL
    exact app_sub (evE_sub c) (app_sub (evB_sub b) (evL_sub bs))
theorem evB_sub : ∀ b, evB false b ⊆ evB true b
  | .mk ss final => by
    unfold evB
    refine app_sub (evSs_sub ss) ?_
    cases final with
    | none => simp
    | some e => exact evE_sub e
theorem evSs_sub : ∀ ss, evSs false ss ⊆ evSs true ss
  | [] => by simp [evSs]
  | s :: ss => by
    unfold evSs
    exact app_sub (evS_sub s) (evSs_sub ss)
theorem evS_sub : ∀ s, evS false s ⊆ evS true s
  | .letS _ _ e => by unfold evS; exact evE_sub e
  | .varDecl _ _ e => by
    unfold evS
    cases e with
    | none => simp
    | some e => exact evE_sub e
  | .require c msg => by
    unfold evS
    refine app_sub (evE_sub c) ?_
    cases msg with
    | none => simp
    | some e => exact evE_sub e
  | .assertS c msg => by
    unfold evS
    refine app_sub (evE_sub c) ?_
    cases msg with
    | none => simp
    | some e => exact evE_sub e
  | .emit v md => by
    unfold evS
    exact app_sub (evE_sub v) (evN_sub md)
  | .forS _ it body => by
    unfold evS
    exact app_sub (evE_sub it) (evB_sub body)
  | .ifS c t elifs els => by
    unfold evS
    refine app_sub (evE_sub c) (app_sub (evB_sub t) (app_sub
      (evL_sub elifs) ?_))
    cases els with
    | none => simp
    | some b => exact evB_sub b
  | .pass => by simp [evS]
  | .ret e => by
    unfold evS
    cases e with
    | none => simp
    | some e => exact evE_sub e
  | .py _ => by simp [evS]
  | .assign t v => by
    unfold evS
    exact app_sub (evE_sub t) (evE_sub v)
  | .exprS e => by unfold evS; exact evE_sub e
end

theorem evPs_sub : ∀ ps, evPs false ps ⊆ evPs true ps
  | [] => by simp [evPs]
  | p :: ps => by
    unfold evPs
    refine app_sub ?_ (evPs_sub ps)
    cases p.dflt with
    | none => simp
    | some e => exact evE_sub e

theorem evFn_sub (c : Fn) : evFn false c ⊆ evFn true c :=
  app_sub (evPs_sub _) (evB_sub _)

theorem mem_callEdges {full : Bool} {m : Mod} {a b : Name} : (a, b) ∈ callEdges full m ↔
    (∃ c ∈ m.functions, c.name = a ∧ Ev.call b ∈ evFn full c) ∧ ∃ d ∈ m.functions, d.name = b := by
  unfold callEdges
  simp only [List.mem_flatMap, List.mem_filterMap]
  constructor
  · rintro ⟨c, hc, e, he, h⟩
    cases e with
    | py => simp at h
    | call n =>
      by_cases hn : n ∈ m.functions.map (·.name)
      · simp only [hn, if_true, Option.some.injEq, Prod.mk.injEq] at h
        obtain ⟨rfl, rfl⟩ := h
        obtain ⟨d, hd, h2⟩ := List.mem_map.1 hn
        exact ⟨⟨c, hc, rfl, he⟩, d, hd, h2⟩
      · simp [hn] at h
  · rintro ⟨⟨c, hc, rfl, he⟩, d, hd, rfl⟩
    refine ⟨c, hc, _, he, ?_⟩
    have : d.name ∈ m.functions.map (·.name) := List.mem_map.2 ⟨d, hd, rfl⟩
    simp [this]

/-- every call the checker sees is in the text -/
theorem callEdges_sub (m : Mod) : callEdges false m ⊆ callEdges true m := by
  rintro ⟨a, b⟩ h
  obtain ⟨⟨c, hc, h1, h2⟩, h3⟩ := mem_callEdges.1 h
  exact mem_callEdges.2 ⟨⟨c, hc, h1, evFn_sub c h2⟩, h3⟩

/-- the warning for a cycle -/
def warnOf (c : List Name) : Diag :=
  match c with
  | [a, b] => if a = b then ⟨false, "W301", [a]⟩ else ⟨false, "W302", c⟩
  | _ => ⟨false, "W302", c⟩

theorem cycleWarning_eq (c : List Name) (s : St) :
    cycleWarning c s = .ok ((), { s with diags := s.diags ++ [warnOf c] }) := by
  match c with
  | [] => rfl
  | [_] => rfl
  | [a, b] =>
    unfold cycleWarning warnOf
    by_cases h : a = b
    · simp only [h, if_true]; rfl
    · simp only [h, if_false]; rfl
  | _ :: _ :: _ :: _ => rfl

theorem each_warnings : ∀ (l : List (List Name)) (s : St),
    each cycleWarning l s = .ok ((), { s with diags := s.diags ++ l.map warnOf })
  | [], s => by simp [each, Pure.pure]
  | a :: l, s => by
    simp only [each, Bind.bind, bind, cycleWarning_eq]
    rw [each_warnings l]
    simp

/-! ### C156: the flag for embedded Python -/

/-- **C156** (partial): a module accepted without the flag has no native block or function and no Python block in any
place the checker looks at; with the flag, it does have Python code. Missing: Python blocks the checker does not look at
(below). -/
theorem C156_python_partial (o : SetOrder) (max : Nat) (hm : 1 ≤ max) (m : Mod) (w : wfMod m) (r : CheckResult)
    (h : check o max m = .ok r) (hr : r.hasErrors = false) :
    (r.py = true ↔ m.blocks ≠ [] ∨ m.natives ≠ [] ∨ ∃ c ∈ m.functions, Ev.py ∈ evFn false c) ∧
    (r.py = true → m.blocks ≠ [] ∨ m.natives ≠ [] ∨ ∃ c ∈ m.functions, Ev.py ∈ evFn true c) := by
  unfold check at h
  cases hc : checkModule o max m st0 with
  | error e => simp [hc] at h
  | ok x =>
    obtain ⟨u, s'⟩ := x
    simp only [hc, Except.ok.injEq] at h
    subst h
    have h0 : errCount s' = 0 := by
      simpa [errCount, List.filter_eq_nil_iff] using hr
    obtain ⟨s, -, h2, -, h4⟩ := module_records hm o w hc h0
    have hpy : s'.py = s.py := by
      unfold checkRecursion at h4
      rw [each_warnings] at h4
      simp only [Except.ok.injEq, Prod.mk.injEq] at h4
      rw [← h4.2]
    have key : s'.py = true ↔ m.blocks ≠ [] ∨ m.natives ≠ [] ∨ ∃ c ∈ m.functions, Ev.py ∈ evFn false c := by
      rw [hpy, h2]
      simp [hasPython, or_assoc]
    refine ⟨key, fun h => ?_⟩
    rcases key.1 h with h | h | ⟨c, hc, h⟩
    · exact .inl h
    · exact .inr (.inl h)
    · exact .inr (.inr ⟨c, hc, evFn_sub c h⟩)

/-- the flag of a source -/
def pyFlag (src : String) : Option (Bool × Bool) :=
  match Lexer.tokenize Lexer.asciiUni src.toList with
  | some (.ok (ts, _)) => match parseModule ts with
    | .ok m => match check listOrder 20 m with
      | .ok r => some (r.hasErrors, r.py)
      | .error _ => none
    | .error _ => none
  | _ => none

/-! ### C157: recursion warnings -/

/-- the warnings of the recursion check -/
theorem cycle_warnings (l : List (List Name)) (s s' : St) (u : Unit) (h : each cycleWarning l s = .ok (u, s')) :
    recs s' = recs s ++ l.map warnOf := by
  rw [each_warnings] at h
  simp only [Except.ok.injEq, Prod.mk.injEq] at h
  rw [← h.2]
  unfold recs
  rw [List.filter_append]
  congr 1
  rw [List.filter_eq_self]
  intro d hd
  obtain ⟨c, -, rfl⟩ := List.mem_map.1 hd
  unfold warnOf
  split
  · split <;> rfl
  · rfl

/-- what the warning about recursion means: the calls it names are calls between commands, seen by the checker -/
def WarnsOf (E : Name → Name → Prop) (d : Diag) : Prop :=
  (d.code = "W301" ∧ ∃ a, d.names = [a] ∧ E a a) ∨ (d.code = "W302" ∧ ClosedWalk E d.names)

/-- **C157** (partial): for an accepted module, there is a recursion warning exactly if the commands call each other in a
circle, and every warning names such a circle. Missing: calls the checker does not look at (below). -/
theorem C157_recursion_partial (o : SetOrder) (max : Nat) (hm : 1 ≤ max) (m : Mod) (w : wfMod m) (r : CheckResult)
    (h : check o max m = .ok r) (hr : r.hasErrors = false) :
    ((∃ d ∈ r.diags, isRec d = true) ↔ ∃ n, Relation.TransGen (fun a b => (a, b) ∈ callEdges false m) n n) ∧
    ∀ d ∈ r.diags, isRec d = true → WarnsOf (fun a b => (a, b) ∈ callEdges true m) d := by
  unfold check at h
  cases hc : checkModule o max m st0 with
  | error e => simp [hc] at h
  | ok x =>
    obtain ⟨u, s'⟩ := x
    simp only [hc, Except.ok.injEq] at h
    subst h
    have h0 : errCount s' = 0 := by
      simpa [errCount, List.filter_eq_nil_iff] using hr
    obtain ⟨s, h1, -, h3, h4⟩ := module_records hm o w hc h0
    unfold checkRecursion at h4
    have hrec := cycle_warnings _ _ _ _ h4
    rw [h3, List.nil_append, h1] at hrec
    generalize hs : (fun n => o.list (((callEdges false m).filter fun e => e.1 = n).map (·.2))) = succ at hrec
    generalize hn : o.list (m.functions.map (·.name)) = nodes at hrec
    have hE : ∀ a b, b ∈ succ a ↔ (a, b) ∈ callEdges false m := by
      intro a b
      subst hs
      simp only [o.mem, List.mem_map, List.mem_filter, decide_eq_true_eq]
      constructor
      · rintro ⟨⟨x, y⟩, ⟨h, rfl⟩, rfl⟩; exact h
      · intro h; exact ⟨(a, b), ⟨h, rfl⟩, rfl⟩
    have hE' : (fun a b => b ∈ succ a) = fun a b => (a, b) ∈ callEdges false m := by
      funext a b
      exact propext (hE a b)
    have hcl : ∀ n c, c ∈ succ n → c ∈ nodes := by
      intro a b h
      obtain ⟨-, d, hd, rfl⟩ := mem_callEdges.1 ((hE a b).1 h)
      subst hn
      rw [o.mem]
      exact List.mem_map.2 ⟨d, hd, rfl⟩
    have hmem : ∀ d, (d ∈ s'.diags ∧ isRec d = true) ↔ d ∈ recs s' := by
      intro d; simp [recs]
    have hsound := allCycles_sound succ nodes
    rw [hE'] at hsound
    constructor
    · constructor
      · rintro ⟨d, hd, hd'⟩
        have := (hmem d).1 ⟨hd, hd'⟩
        rw [hrec] at this
        obtain ⟨c, hc, -⟩ := List.mem_map.1 this
        obtain ⟨n, -, ht⟩ := (hsound c hc).trans
        exact ⟨n, ht⟩
      · rintro ⟨n, ht⟩
        by_contra hno
        have hnil : recs s' = [] := by
          rw [List.eq_nil_iff_forall_not_mem]
          intro d hd
          exact hno ⟨d, (hmem d).2 hd⟩
        rw [hrec, List.map_eq_nil_iff] at hnil
        have := allCycles_complete hcl hnil n ?_
        · rw [hE'] at this
          exact this ht
        · obtain ⟨c, -, hc⟩ := Relation.TransGen.tail'_iff.1 ht
          exact hcl c n ((hE c n).2 hc)
    · intro d hd hd'
      have := (hmem d).1 ⟨hd, hd'⟩
      rw [hrec] at this
      obtain ⟨c, hc, rfl⟩ := List.mem_map.1 this
      have hw := hsound c hc
      have hw' : ClosedWalk (fun a b => (a, b) ∈ callEdges true m) c :=
        ⟨hw.1.imp fun _ _ h => callEdges_sub m h, hw.2⟩
      unfold warnOf
      split
      · rename_i a b
        split
        · rename_i hab
          subst hab
          left
          refine ⟨rfl, a, rfl, ?_⟩
          have := hw'.1
          simpa using this
        · right; exact ⟨rfl, hw'⟩
      · right; exact ⟨rfl, hw'⟩

/-- when the checker looks at every call of the text -/
theorem C157_recursion_seen (o : SetOrder) (max : Nat) (hm : 1 ≤ max) (m : Mod) (w : wfMod m) (r : CheckResult)
    (h : check o max m = .ok r) (hr : r.hasErrors = false) (hs : callEdges true m ⊆ callEdges false m) :
    (∃ d ∈ r.diags, isRec d = true) ↔ ∃ n, Relation.TransGen (fun a b => (a, b) ∈ callEdges true m) n n := by
  rw [(C157_recursion_partial o max hm m w r h hr).1]
  have : (fun a b => (a, b) ∈ callEdges false m) = fun a b => (a, b) ∈ callEdges true m := by
    funext a b
    exact propext ⟨fun h => callEdges_sub m h, fun h => hs h⟩
  rw [this]

end Verif.Checker
